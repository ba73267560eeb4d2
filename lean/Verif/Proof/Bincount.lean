import Verif.Model.Bincount
import Verif.Proof.Mem
import Verif.Proof.IntTy
namespace Ufunclab.Bincount

theorem toIntp_of_lt {k : Int} (h0 : 0 ≤ k) (h : k < 2 ^ 63) : toIntp k = k := by
  apply IntTy.wrap_of_inRange _ (by decide)
  unfold IntTy.InRange
  have h1 : IntTy.intp.min = -(2 ^ 63) := by decide
  have h2 : IntTy.intp.max = 2 ^ 63 - 1 := by decide
  rw [h1, h2]; omega

theorem toIntp_of_ge {k : Int} (h0 : 2 ^ 63 ≤ k) (h : k < 2 ^ 64) : toIntp k = k - 2 ^ 64 := by
  unfold toIntp IntTy.wrap IntTy.intp IntTy.i64
  simp
  omega

/-- One step of the loop on a value. -/
def stepK (m : Nat) (p s : Int) (mo : Mem Int) (k : Int) : Mem Int :=
  if guard k m then bump p s k mo else mo

theorem loop_eq_foldl (getx : Nat → Int) (m : Nat) (p s : Int) (cnt i : Nat) (mo : Mem Int) :
    loop getx m p s cnt i mo =
      ((List.range cnt).map (fun j => getx (i + j))).foldl (stepK m p s) mo := by
  induction cnt generalizing i mo with
  | zero => rfl
  | succ cnt ih =>
    rw [loop, ih, List.range_succ_eq_map, List.map_cons, List.foldl_cons, List.map_map]
    congr 1
    apply List.map_congr_left
    intro j _
    simp only [Function.comp]
    congr 1; omega

theorem core_eq_foldl (szT szU : Int) (n m : Nat) (mx : Mem Int) (px sx po so : Int) (mo : Mem Int) :
    core szT szU n m mx px sx po so mo = (elems mx px sx n).foldl (stepK m po so) mo := by
  unfold core elems
  by_cases h1 : sx = szT
  · by_cases h2 : so = szU
    · rw [if_pos h1, if_pos h2, loop_eq_foldl]; simp [get, h1, h2]
    · rw [if_pos h1, if_neg h2, loop_eq_foldl]; simp [get, h1]
  · rw [if_neg h1, loop_eq_foldl]; simp

theorem guard_iff {k : Int} {m : Nat} (hk : k < 2 ^ 63) : guard k m = true ↔ 0 ≤ k ∧ k < (m : Int) := by
  unfold guard
  by_cases h0 : 0 ≤ k
  · simp [h0, toIntp_of_lt h0 hk]
  · simp [h0]

theorem foldl_step_get (m : Nat) (p s : Int) (hs : s ≠ 0) (xs : List Int)
    (hx : ∀ k ∈ xs, k < 2 ^ 63) (mo : Mem Int) (j : Nat) (hj : j < m) :
    get (xs.foldl (stepK m p s) mo) p s j = get mo p s j + (xs.countP (fun k => k == (j : Int)) : Int) := by
  induction xs generalizing mo with
  | nil => simp
  | cons k xs ih =>
    rw [List.foldl_cons, ih (fun k hk => hx k (List.mem_cons_of_mem _ hk)), List.countP_cons]
    have hk := hx k (by simp)
    unfold stepK
    by_cases hg : guard k m
    · simp only [hg, if_true]
      have hg' := (guard_iff hk).1 hg
      unfold bump get
      rw [toIntp_of_lt hg'.1 hk]
      by_cases hkj : k = (j : Int)
      · subst hkj; simp; omega
      · rw [Mem.store_other]
        · simp [hkj]
        · intro h
          have : (j : Int) * s = k * s := by omega
          exact hkj (Int.eq_of_mul_eq_mul_right hs this).symm
    · simp only [hg, Bool.false_eq_true, if_false]
      have hkj : k ≠ (j : Int) := by
        intro h; exact hg ((guard_iff hk).2 (by omega))
      simp [hkj]

theorem foldl_step_frame (m : Nat) (p s : Int) (xs : List Int)
    (hx : ∀ k ∈ xs, k < 2 ^ 63) (mo : Mem Int) (b : Int)
    (hb : ∀ j < m, b ≠ p + (j : Int) * s) :
    (xs.foldl (stepK m p s) mo) b = mo b := by
  induction xs generalizing mo with
  | nil => rfl
  | cons k xs ih =>
    rw [List.foldl_cons, ih (fun k hk => hx k (List.mem_cons_of_mem _ hk))]
    have hk := hx k (by simp)
    unfold stepK
    by_cases hg : guard k m
    · simp only [hg, if_true]
      have hg' := (guard_iff hk).1 hg
      unfold bump
      rw [toIntp_of_lt hg'.1 hk, Mem.store_other]
      have := hb k.toNat (by omega)
      rwa [show ((k.toNat : Nat) : Int) = k by omega] at this
    · simp only [hg, Bool.false_eq_true, if_false]

section weighted
variable {W : Type _} [Add W]

def stepW (m : Nat) (p s : Int) (mo : Mem W) (kw : Int × W) : Mem W :=
  if guard kw.1 m then
    mo.store (p + toIntp kw.1 * s) (mo (p + toIntp kw.1 * s) + kw.2) else mo

theorem coreW_eq_foldl (m : Nat) (mx : Mem Int) (mw : Mem W) (px sx pw sw po so : Int)
    (cnt i : Nat) (mo : Mem W) :
    coreW m mx mw px sx pw sw po so cnt i mo =
      ((List.range cnt).map (fun j => (get mx px sx (i + j), get mw pw sw (i + j)))).foldl
        (stepW m po so) mo := by
  induction cnt generalizing i mo with
  | zero => rfl
  | succ cnt ih =>
    rw [coreW, ih, List.range_succ_eq_map, List.map_cons, List.foldl_cons, List.map_map]
    congr 1
    apply List.map_congr_left
    intro j _
    simp only [Function.comp]
    congr 2 <;> omega

theorem zip_elems (mx : Mem Int) (mw : Mem W) (px sx pw sw : Int) (n : Nat) :
    (List.range n).map (fun j => (get mx px sx (0 + j), get mw pw sw (0 + j)))
      = (elems mx px sx n).zip (elems mw pw sw n) := by
  simp [elems, List.zip_map', List.map_map]

theorem foldl_stepW_get (m : Nat) (p s : Int) (hs : s ≠ 0) (xs : List (Int × W))
    (hx : ∀ kw ∈ xs, kw.1 < 2 ^ 63) (mo : Mem W) (j : Nat) (hj : j < m) :
    get (xs.foldl (stepW m p s) mo) p s j =
      ((xs.filter (fun kw => kw.1 == (j : Int))).map Prod.snd).foldl (· + ·) (get mo p s j) := by
  induction xs generalizing mo with
  | nil => simp
  | cons k xs ih =>
    rw [List.foldl_cons, ih (fun k hk => hx k (List.mem_cons_of_mem _ hk)), List.filter_cons]
    have hk := hx k (by simp)
    unfold stepW
    by_cases hg : guard k.1 m
    · simp only [hg, if_true]
      have hg' := (guard_iff hk).1 hg
      unfold get
      rw [toIntp_of_lt hg'.1 hk]
      by_cases hkj : k.1 = (j : Int)
      · rw [hkj]; simp
      · rw [Mem.store_other]
        · simp [hkj]
        · intro h
          have : (j : Int) * s = k.1 * s := by omega
          exact hkj (Int.eq_of_mul_eq_mul_right hs this).symm
    · simp only [hg, Bool.false_eq_true, if_false]
      have hkj : k.1 ≠ (j : Int) := by
        intro h; exact hg ((guard_iff hk).2 (by omega))
      simp [hkj]

theorem foldl_stepW_frame (m : Nat) (p s : Int) (xs : List (Int × W))
    (hx : ∀ kw ∈ xs, kw.1 < 2 ^ 63) (mo : Mem W) (b : Int)
    (hb : ∀ j < m, b ≠ p + (j : Int) * s) :
    (xs.foldl (stepW m p s) mo) b = mo b := by
  induction xs generalizing mo with
  | nil => rfl
  | cons k xs ih =>
    rw [List.foldl_cons, ih (fun k hk => hx k (List.mem_cons_of_mem _ hk))]
    have hk := hx k (by simp)
    unfold stepW
    by_cases hg : guard k.1 m
    · simp only [hg, if_true]
      have hg' := (guard_iff hk).1 hg
      rw [toIntp_of_lt hg'.1 hk, Mem.store_other]
      have := hb k.1.toNat (by omega)
      rwa [show ((k.1.toNat : Nat) : Int) = k.1 by omega] at this
    · simp only [hg, Bool.false_eq_true, if_false]
end weighted

theorem npMax_ge (a : Int) (as : List Int) : ∀ x ∈ a :: as, x ≤ npMax a as := by
  induction as generalizing a with
  | nil => simp [npMax]
  | cons b bs ih =>
    intro x hx
    rw [npMax]
    have hmem := ih (if a < b then b else a)
    have h0 := hmem (if a < b then b else a) (by simp)
    have h1 : a ≤ (if a < b then b else a) ∧ b ≤ (if a < b then b else a) := by split <;> omega
    rcases List.mem_cons.1 hx with rfl | hx
    · omega
    · rcases List.mem_cons.1 hx with rfl | hx
      · omega
      · exact hmem x (by simp [hx])

theorem npMax_mem (a : Int) (as : List Int) : npMax a as ∈ a :: as := by
  induction as generalizing a with
  | nil => simp [npMax]
  | cons b bs ih =>
    rw [npMax]
    have := ih (if a < b then b else a)
    rcases List.mem_cons.1 this with h | h
    · rw [h]; split <;> simp
    · simp [h]

end Ufunclab.Bincount
