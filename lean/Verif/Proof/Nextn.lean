import Verif.Spec.FloatValue
import Verif.Proof.XF
import Verif.Proof.Mem
import Mathlib.Order.Monotone.Basic
import Mathlib.Algebra.Order.Field.Basic
import Mathlib.Algebra.Order.Field.Power
import Mathlib.Tactic.Linarith
import Mathlib.Tactic.Ring
import Mathlib.Tactic.Positivity
namespace Ufunclab.Nextn
variable {f : Fmt}

theorem scaled_lt_succ (q : Nat) : scaled f q < scaled f (q + 1) := by
  have hp := Nat.two_pow_pos f.m
  have hM := Nat.mod_lt q hp
  have hdm := Nat.div_add_mod q (2 ^ f.m)
  by_cases hc : q % 2 ^ f.m + 1 < 2 ^ f.m
  · have e1 : (q + 1) / 2 ^ f.m = q / 2 ^ f.m := by
      rw [Nat.div_eq_iff hp]
      constructor
      · rw [Nat.mul_comm]; omega
      · have : 2 ^ f.m * (q / 2 ^ f.m) + 2 ^ f.m = (q / 2 ^ f.m) * 2 ^ f.m + 2 ^ f.m := by ring
        omega
    have e2 : (q + 1) % 2 ^ f.m = q % 2 ^ f.m + 1 := by
      rw [Nat.add_mod, Nat.mod_eq_of_lt (by omega : 1 < 2 ^ f.m), Nat.mod_eq_of_lt hc]
    simp only [scaled, e1, e2]
    split_ifs
    · omega
    · exact Nat.mul_lt_mul_of_pos_right (by omega) (Nat.two_pow_pos _)
  · have hM' : q % 2 ^ f.m = 2 ^ f.m - 1 := by omega
    have hq : q + 1 = 2 ^ f.m * (q / 2 ^ f.m + 1) := by rw [Nat.mul_add]; omega
    have e1 : (q + 1) / 2 ^ f.m = q / 2 ^ f.m + 1 := by rw [hq]; exact Nat.mul_div_cancel_left _ hp
    have e2 : (q + 1) % 2 ^ f.m = 0 := by rw [hq]; exact Nat.mul_mod_right _ _
    simp only [scaled, e1, e2, hM', Nat.add_zero, Nat.add_sub_cancel, Nat.succ_ne_zero, if_false]
    split_ifs with h
    · rw [h]; simp
    · obtain ⟨E, hE⟩ := Nat.exists_eq_succ_of_ne_zero h
      rw [hE, Nat.succ_eq_add_one, Nat.add_sub_cancel, pow_succ, ← mul_assoc, mul_right_comm]
      exact Nat.mul_lt_mul_of_pos_right (by omega) (Nat.two_pow_pos _)

theorem scaled_strictMono (f : Fmt) : StrictMono (scaled f) := strictMono_nat_of_lt_succ (scaled_lt_succ)

theorem scaled_zero (f : Fmt) : scaled f 0 = 0 := by simp [scaled]

theorem ulp_pos (f : Fmt) : 0 < ulp f := by unfold ulp; positivity

/-- Position on the number line: both zeros have position 0. -/
def key : Fl f → Int
  | .nan => 0
  | .num neg mag _ => if neg then -(mag : Int) else mag

def isNan : Fl f → Bool
  | .nan => true
  | _ => false

/-- The value order is the order of the positions. -/
theorem val_lt_iff (x y : Fl f) (hx : isNan x = false) (hy : isNan y = false) :
    (val x).lt (val y) = true ↔ key x < key y := by
  cases x with
  | nan => simp [isNan] at hx
  | num n a ha =>
    cases y with
    | nan => simp [isNan] at hy
    | num n' b hb =>
      have hu := ulp_pos f
      have hs := scaled_strictMono f
      have h0 := scaled_zero f
      have hpos := f.inf_pos
      have ab : ((scaled f a : ℚ) < (scaled f b : ℚ)) ↔ a < b := by rw [Nat.cast_lt]; exact hs.lt_iff_lt
      have ba : ((scaled f b : ℚ) < (scaled f a : ℚ)) ↔ b < a := by rw [Nat.cast_lt]; exact hs.lt_iff_lt
      have za : (0 < (scaled f a : ℚ)) ↔ 0 < a := by
        have h := hs.lt_iff_lt (a := 0) (b := a)
        rw [h0] at h; rw [← h]; exact Nat.cast_pos
      have zb : (0 < (scaled f b : ℚ)) ↔ 0 < b := by
        have h := hs.lt_iff_lt (a := 0) (b := b)
        rw [h0] at h; rw [← h]; exact Nat.cast_pos
      have na : (0 : ℚ) ≤ (scaled f a : ℚ) := Nat.cast_nonneg _
      have nb : (0 : ℚ) ≤ (scaled f b : ℚ) := Nat.cast_nonneg _
      by_cases hfin : a = f.inf ∨ b = f.inf
      · by_cases hai : a = f.inf <;> by_cases hbi : b = f.inf <;> cases n <;> cases n' <;>
          simp [val, key, hai, hbi, XF.lt] at hfin ⊢ <;> omega
      · obtain ⟨hai, hbi⟩ := not_or.1 hfin
        simp only [val, if_neg hai, if_neg hbi, XF.lt_fin, decide_eq_true_eq]
        rw [mul_lt_mul_iff_left₀ hu]
        cases n <;> cases n' <;> simp only [key, if_true, if_false, Bool.false_eq_true]
        · rw [ab]; omega
        · constructor
          · intro h; linarith
          · intro h; omega
        · constructor
          · intro h
            have : 0 < (scaled f a : ℚ) ∨ 0 < (scaled f b : ℚ) := by
              by_contra hc; push Not at hc; linarith
            rcases this with h | h
            · have := za.1 h; omega
            · have := zb.1 h; omega
          · intro h
            rcases (by omega : 0 < a ∨ 0 < b) with h | h
            · have := za.2 h; linarith
            · have := zb.2 h; linarith
        · rw [neg_lt_neg_iff, ba]; omega

theorem isNan_nextUp (x : Fl f) : isNan (nextUp x) = isNan x := by
  cases x with
  | nan => rfl
  | num n a h => simp only [nextUp]; split_ifs <;> rfl

theorem isNan_nextDown (x : Fl f) : isNan (nextDown x) = isNan x := by
  cases x with
  | nan => rfl
  | num n a h => simp only [nextDown]; split_ifs <;> rfl

theorem key_bounds (x : Fl f) : -(f.inf : Int) ≤ key x ∧ key x ≤ f.inf := by
  have := f.inf_pos
  cases x with
  | nan => simp only [key]; omega
  | num n a h => cases n <;> simp only [key] <;> constructor <;> simp <;> omega

theorem key_nextUp (x : Fl f) (hx : isNan x = false) : key (nextUp x) = min (key x + 1) f.inf := by
  have := f.inf_pos
  cases x with
  | nan => simp [isNan] at hx
  | num n a h =>
    simp only [nextUp]
    split_ifs with h1 h2 h3
    · subst h1; cases n <;> simp [key] <;> omega
    · simp [key, h2]; omega
    · have : n = false := by simpa using h2
      subst this; simp [key, h3]
    · have : n = false := by simpa using h2
      subst this; simp [key]; omega

theorem key_nextDown (x : Fl f) (hx : isNan x = false) : key (nextDown x) = max (key x - 1) (-(f.inf : Int)) := by
  have := f.inf_pos
  cases x with
  | nan => simp [isNan] at hx
  | num n a h =>
    simp only [nextDown]
    split_ifs with h1 h2 h3
    · subst h1; cases n <;> simp [key] <;> omega
    · simp [key, h2]; omega
    · have : n = true := by simpa using h2
      subst this; simp [key, h3]
    · have : n = true := by simpa using h2
      subst this; simp [key]; omega

theorem val_pinf_iff (x : Fl f) : val x = .pinf ↔ isNan x = false ∧ key x = f.inf := by
  have := f.inf_pos
  cases x with
  | nan => simp [val, isNan]
  | num n a h =>
    cases n <;> by_cases ha : a = f.inf <;> simp [val, key, isNan, ha] <;> omega

theorem val_ninf_iff (x : Fl f) : val x = .ninf ↔ isNan x = false ∧ key x = -(f.inf : Int) := by
  have := f.inf_pos
  cases x with
  | nan => simp [val, isNan]
  | num n a h =>
    cases n <;> by_cases ha : a = f.inf <;> simp [val, key, isNan, ha] <;> omega

theorem val_nan_iff (x : Fl f) : val x = .nan ↔ isNan x = true := by
  cases x with
  | nan => simp [val, isNan]
  | num n a h => cases n <;> by_cases ha : a = f.inf <;> simp [val, isNan, ha]

/-- Equal positions denote equal values (the two zeros are the only collision). -/
theorem val_eq_of_key (x y : Fl f) (hx : isNan x = false) (hy : isNan y = false) (h : key x = key y) : val x = val y := by
  have hpos := f.inf_pos
  cases x with
  | nan => simp [isNan] at hx
  | num n a ha =>
    cases y with
    | nan => simp [isNan] at hy
    | num n' b hb =>
      cases n <;> cases n' <;> simp [key] at h
      · subst h; rfl
      · have h1 : a = 0 := by omega
        have h2 : b = 0 := by omega
        subst h1 h2
        simp [val, scaled_zero, (Nat.ne_of_lt hpos : (0 : Nat) ≠ f.inf)]
      · have h1 : a = 0 := by omega
        have h2 : b = 0 := by omega
        subst h1 h2
        simp [val, scaled_zero, (Nat.ne_of_lt hpos : (0 : Nat) ≠ f.inf)]
      · subst h; rfl

/-- The loop writes the iterates. -/
theorem nextnLoop_spec {α : Type _} (step : α → α) (pout so : Int) (hs : so ≠ 0) (fuel i : Nat) (x : α) (m : Mem α) :
    (∀ j < fuel, get (nextnLoop step pout so fuel i x m) pout so (i + j) = step^[j + 1] x) ∧
    ∀ b, (∀ j, i ≤ j → j < i + fuel → b ≠ pout + (j : Int) * so) → nextnLoop step pout so fuel i x m b = m b := by
  induction fuel generalizing i x m with
  | zero => exact ⟨by simp, fun _ _ => rfl⟩
  | succ k ih =>
    simp only [nextnLoop]
    obtain ⟨h1, h2⟩ := ih (i + 1) (step x) (set m pout so i (step x))
    constructor
    · intro j hj
      cases j with
      | zero =>
        rw [get, h2]
        · simp [set]
        · intro j h3 h4 e
          have := stride_inj hs e
          omega
      | succ j =>
        have := h1 j (by omega)
        rw [show i + (j + 1) = i + 1 + j by omega, this, Function.iterate_succ_apply step (j + 1) x]
    · intro b hb
      rw [h2 b (fun j a c => hb j (by omega) (by omega)), set, Mem.store_other _ _ (hb i le_rfl (by omega))]

end Ufunclab.Nextn
