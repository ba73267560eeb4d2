import Verif.Model.ConvertToBase
import Verif.Spec.Digits
import Verif.Proof.Mem
import Verif.Proof.IntTy
import Mathlib.Tactic.Ring
import Mathlib.Tactic.Linarith
namespace Ufunclab.ConvertToBase
open Spec

theorem int_tdiv_tdiv (a b c : Int) : (a.tdiv b).tdiv c = a.tdiv (b*c) := by
  have key : ∀ a b c : Nat, ((a:Int).tdiv b).tdiv c = (a:Int).tdiv ((b:Int)*c) := by
    intro a b c
    rw [← Int.natCast_mul, ← Int.ofNat_tdiv, ← Int.ofNat_tdiv, ← Int.ofNat_tdiv, Nat.div_div_eq_div_mul]
  rcases Int.eq_nat_or_neg a with ⟨x, rfl | rfl⟩ <;> rcases Int.eq_nat_or_neg b with ⟨y, rfl | rfl⟩ <;>
  rcases Int.eq_nat_or_neg c with ⟨z, rfl | rfl⟩ <;>
  simp only [Int.neg_tdiv, Int.tdiv_neg, Int.neg_mul, Int.mul_neg, Int.neg_neg, key]

/-- The mathematical digit list computed by the loop when nothing wraps. -/
def digs : (n : Nat) → (k base : Int) → List Int
  | 0, _, _ => []
  | n + 1, k, base => k.tmod base :: digs n (k.tdiv base) base

@[simp] theorem digs_length (n : Nat) (k base : Int) : (digs n k base).length = n := by
  induction n generalizing k with
  | zero => rfl
  | succ n ih => simp [digs, ih]

theorem inRange_tmod (t : IntTy) (hb : 0 < t.bits) (k b : Int) (h : t.InRange k)
    (hu : t.InRange b) : t.InRange (k.tmod b) := by
  have hp := IntTy.two_pow_pos (t.bits - 1)
  have hs := IntTy.two_pow_split hb
  have habs : (k.tmod b).natAbs ≤ k.natAbs := by
    rw [Int.natAbs_tmod]; exact Nat.mod_le _ _
  unfold IntTy.InRange IntTy.min IntTy.max at *
  cases ht : t.signed
  · simp only [ht, if_true, if_false, Bool.false_eq_true] at *
    have : 0 ≤ k.tmod b := Int.tmod_nonneg _ h.1
    omega
  · simp only [ht, if_true, if_false, Bool.false_eq_true] at *
    rcases Int.lt_or_le k 0 with hk | hk
    · have : k.tmod b ≤ 0 := by
        have := Int.tmod_nonneg b (show 0 ≤ -k by omega)
        rw [Int.neg_tmod] at this; omega
      omega
    · have : 0 ≤ k.tmod b := Int.tmod_nonneg _ hk
      omega

theorem loop_eq (t : IntTy) (hb : 0 < t.bits) (base p s : Int) (hbase : t.InRange base)
    (h0 : base ≠ 0) (h1 : base ≠ -1) (cnt i : Nat) (k : Int) (hk : t.InRange k) (mo : Mem Int) :
    loop t base p s cnt i k mo = some (writeFrom mo p s i (digs cnt k base)) := by
  induction cnt generalizing i k mo with
  | zero => rfl
  | succ cnt ih =>
    have htr : traps t k base = false := by simp [traps, h0, h1]
    simp only [loop, htr, digs, writeFrom, Bool.false_eq_true, if_false]
    rw [IntTy.wrap_of_inRange t hb _ (inRange_tmod t hb k base hk hbase),
      IntTy.wrap_of_inRange t hb _ (IntTy.inRange_tdiv t hb k base hk (by simp [h1]) hbase)]
    exact ih _ _ (IntTy.inRange_tdiv t hb k base hk (by simp [h1]) hbase) _

theorem digs_value (n : Nat) (k base : Int) (h0 : base ≠ 0) :
    ofDigits base (digs n k base) = k.tmod (base ^ n) := by
  induction n generalizing k with
  | zero => simp [digs, ofDigits, Int.tmod_one]
  | succ n ih =>
    simp only [digs, ofDigits, ih]
    rw [Int.tmod_def, Int.tmod_def, Int.tmod_def]
    have : k.tdiv (base ^ (n + 1)) = (k.tdiv base).tdiv (base ^ n) := by
      rw [pow_succ, mul_comm, int_tdiv_tdiv]
    rw [this]; ring

theorem digs_nonneg (n : Nat) (k base : Int) (hk : 0 ≤ k) (hb : 0 < base) :
    ∀ d ∈ digs n k base, 0 ≤ d ∧ d < base := by
  induction n generalizing k with
  | zero => simp [digs]
  | succ n ih =>
    intro d hd
    rcases List.mem_cons.1 hd with rfl | hd
    · exact ⟨Int.tmod_nonneg _ hk, Int.tmod_lt_of_pos _ hb⟩
    · exact ih _ (Int.tdiv_nonneg hk (by omega)) d hd

theorem digs_neg (n : Nat) (k base : Int) (h0 : base ≠ 0) :
    digs n (-k) base = (digs n k base).map (fun d => -d) := by
  induction n generalizing k with
  | zero => rfl
  | succ n ih => simp [digs, Int.neg_tmod, Int.neg_tdiv, ih]

theorem ofDigits_nonneg (b : Int) (hb : 0 < b) (ds : List Int) (h : ∀ d ∈ ds, 0 ≤ d ∧ d < b) :
    0 ≤ ofDigits b ds := by
  induction ds with
  | nil => simp [ofDigits]
  | cons d ds ih =>
    have h1 := ih (fun x hx => h x (List.mem_cons_of_mem _ hx))
    have h2 := h d (by simp)
    simp only [ofDigits]
    have := mul_nonneg hb.le h1
    omega

theorem ofDigits_unique (b : Int) (hb : 0 < b) (ds es : List Int) (hl : ds.length = es.length)
    (hd : ∀ d ∈ ds, 0 ≤ d ∧ d < b) (he : ∀ d ∈ es, 0 ≤ d ∧ d < b)
    (h : ofDigits b ds = ofDigits b es) : ds = es := by
  induction ds generalizing es with
  | nil => cases es with
    | nil => rfl
    | cons => simp at hl
  | cons d ds ih =>
    cases es with
    | nil => simp at hl
    | cons e es =>
      simp only [ofDigits] at h
      have hd0 := hd d (by simp)
      have he0 := he e (by simp)
      have hm : (d + b * ofDigits b ds) % b = (e + b * ofDigits b es) % b := by rw [h]
      simp only [Int.add_mul_emod_self_left] at hm
      rw [Int.emod_eq_of_lt hd0.1 hd0.2, Int.emod_eq_of_lt he0.1 he0.2] at hm
      subst hm
      have : ofDigits b ds = ofDigits b es := by
        have h' : b * ofDigits b ds = b * ofDigits b es := by omega
        exact Int.eq_of_mul_eq_mul_left (by omega) h'
      rw [ih es (by simpa using hl) (fun x hx => hd x (List.mem_cons_of_mem _ hx))
        (fun x hx => he x (List.mem_cons_of_mem _ hx)) this]

/-- With base 0 or the overflow pair, the first iteration traps. -/
theorem loop_trap (t : IntTy) (base p s : Int) (cnt i : Nat) (k : Int) (mo : Mem Int)
    (h : traps t k base = true) : loop t base p s (cnt + 1) i k mo = none := by
  simp [loop, h]

theorem loop_neg_one (t : IntTy) (hb : 0 < t.bits) (hsig : t.signed = true) (p s : Int)
    (cnt i : Nat) (k : Int) (hk : t.InRange k) (mo : Mem Int)
    (hmin : ¬ (32 ≤ t.bits ∧ k = t.min)) : (loop t (-1) p s cnt i k mo).isSome := by
  induction cnt generalizing i k mo with
  | zero => rfl
  | succ cnt ih =>
    have htr : traps t k (-1) = false := by
      simp only [traps, hsig]
      simp only [not_and] at hmin
      by_cases h32 : 32 ≤ t.bits
      · simp [hmin h32]
      · simp [h32]
    simp only [loop, htr, Bool.false_eq_true, if_false]
    have hp := IntTy.two_pow_pos (t.bits - 1)
    have hs := IntTy.two_pow_split hb
    have hmineq : t.min = -(2 ^ (t.bits - 1) : Int) := by simp [IntTy.min, hsig]
    have hmaxeq : t.max = (2 ^ (t.bits - 1) : Int) - 1 := by simp [IntTy.max, hsig]
    by_cases hkm : k = t.min
    · -- narrow type: the quotient wraps back to the minimum
      have hw : t.wrap (k.tdiv (-1)) = t.min := by
        rw [hkm, Int.tdiv_neg, Int.tdiv_one, hmineq]
        simp only [IntTy.wrap, hsig, if_true]
        have : (- -(2:Int) ^ (t.bits - 1) + 2 ^ (t.bits - 1)) % 2 ^ t.bits = 0 := by
          rw [hs, show (- -(2:Int) ^ (t.bits - 1) + 2 ^ (t.bits - 1)) = 2 * 2 ^ (t.bits - 1) by ring]
          exact Int.emod_self
        rw [this]; omega
      rw [hw]
      apply ih
      · exact ⟨le_refl _, by rw [hmineq, hmaxeq]; omega⟩
      · intro h; exact hmin ⟨h.1, hkm⟩
    · have hr : t.InRange (k.tdiv (-1)) := by
        rw [Int.tdiv_neg, Int.tdiv_one]
        unfold IntTy.InRange at *
        rw [hmineq] at hk hkm
        rw [hmaxeq] at hk
        rw [hmineq, hmaxeq]
        omega
      rw [IntTy.wrap_of_inRange t hb _ hr]
      apply ih _ _ hr
      rintro ⟨_, h⟩
      rw [Int.tdiv_neg, Int.tdiv_one] at h
      unfold IntTy.InRange at hk
      rw [hmineq] at h
      rw [hmaxeq] at hk
      omega

end Ufunclab.ConvertToBase
