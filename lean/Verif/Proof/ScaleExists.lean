import Verif.Proof.Scale
import Verif.Proof.Float
import Mathlib.Algebra.Order.Round
import Mathlib.Data.Int.Log
import Mathlib.Data.Real.Archimedean
import Mathlib.Data.Sign.Basic
/-! # Roundings that commute with signs and powers of two exist -/
namespace Ufunclab.Float

/-- A rounding to nearest of the format with subnormals, the same for both signs. -/
theorem exists_nearest_odd {p : ℕ} (hp : 1 ≤ p) (emin : ℤ) : ∃ rd : ℝ → ℝ, Nearest p emin rd ∧ Commutes rd (-1) := by
  obtain ⟨r, hr⟩ := exists_nearest (K := ℝ) hp emin
  have hr0 : r 0 = 0 := Nearest.exact hr (isFloat_zero ..)
  refine ⟨fun z => if z < 0 then -r (-z) else r z, ?_, ?_⟩
  · intro z
    dsimp only
    split_ifs with hz
    · refine ⟨(hr (-z)).1.neg, fun y hy => ?_⟩
      have := (hr (-z)).2 (-y) hy.neg
      rw [← abs_neg, ← abs_neg (y - z)]
      calc |-(-r (-z) - z)| = |r (-z) - -z| := by congr 1; ring
        _ ≤ |-y - -z| := this
        _ = _ := by congr 1; ring
    · exact hr z
  · intro z
    dsimp only
    rcases lt_trichotomy z 0 with h | h | h
    · rw [if_neg (by linarith), if_pos h]; ring_nf
    · subst h; simp [hr0]
    · rw [if_pos (by linarith), if_neg (by linarith)]; ring_nf

/-- A rounding to `p` bits without bounds on the exponent: relative error at most `2^-p`, `p`-bit numbers
stay as they are, and it commutes with `-1` and all powers of two. -/
theorem exists_scaling {p : ℕ} : ∃ rd : ℝ → ℝ, (∀ z, |rd z - z| ≤ 2 ^ (-(p : ℤ)) * |z|) ∧
    (∀ m e : ℤ, |m| < 2 ^ p → rd ((m : ℝ) * 2 ^ e) = (m : ℝ) * 2 ^ e) ∧ Commutes rd (-1) ∧ ∀ k : ℤ, Commutes rd (2 ^ k) := by
  let E : ℝ → ℤ := fun z => Int.log 2 |z| + 1 - p
  let r : ℝ → ℝ := fun z => SignType.sign z * (round (|z| / 2 ^ E z) : ℝ) * 2 ^ E z
  have hpos : ∀ e : ℤ, (0 : ℝ) < 2 ^ e := fun e => by positivity
  have hsgn : ∀ z : ℝ, z ≠ 0 → |((SignType.sign z : SignType) : ℝ)| = 1 := by
    intro z hz
    rcases lt_or_gt_of_ne hz with h | h
    · rw [sign_neg h]; simp
    · rw [sign_pos h]; simp
  have hz' : ∀ z : ℝ, ((SignType.sign z : SignType) : ℝ) * |z| = z := fun z => sign_mul_abs z
  refine ⟨r, ?_, ?_, ?_, ?_⟩
  · intro z
    rcases eq_or_ne z 0 with rfl | hz
    · simp [r]
    have h0 : 0 < |z| := abs_pos.2 hz
    have e1 : r z - z = SignType.sign z * (((round (|z| / 2 ^ E z) : ℝ) - |z| / 2 ^ E z) * 2 ^ E z) := by
      have h1 : |z| / 2 ^ E z * 2 ^ E z = |z| := div_mul_cancel₀ _ (hpos _).ne'
      rw [sub_mul, h1, mul_sub, hz', ← mul_assoc]
    have h2 := abs_sub_round (|z| / 2 ^ E z)
    have h3 : (2 : ℝ) ^ Int.log 2 |z| ≤ |z| := by exact_mod_cast Int.zpow_log_le_self (b := 2) (by norm_num) h0
    have h4 : (2 : ℝ) ^ E z = 2 * (2 ^ (-(p : ℤ)) * 2 ^ Int.log 2 |z|) := by
      rw [← zpow_add₀ two_ne_zero, ← zpow_one_add₀ two_ne_zero]; congr 1; ring
    rw [e1, abs_mul, hsgn z hz, one_mul, abs_mul, abs_of_pos (hpos _), abs_sub_comm]
    calc _ ≤ 1 / 2 * (2 : ℝ) ^ E z := mul_le_mul_of_nonneg_right h2 (hpos _).le
      _ = 2 ^ (-(p : ℤ)) * 2 ^ Int.log 2 |z| := by rw [h4]; ring
      _ ≤ _ := mul_le_mul_of_nonneg_left h3 (hpos _).le
  · intro m e hm
    rcases eq_or_ne m 0 with rfl | hm0
    · simp [r]
    set z : ℝ := (m : ℝ) * 2 ^ e with hz
    have hz0 : z ≠ 0 := mul_ne_zero (by exact_mod_cast hm0) (hpos e).ne'
    have hlt : |z| < 2 ^ ((p : ℤ) + e) := by
      rw [hz, abs_mul, abs_of_pos (hpos e), zpow_add₀ two_ne_zero, zpow_natCast]
      apply mul_lt_mul_of_pos_right _ (hpos e)
      exact_mod_cast hm
    have hlog : Int.log 2 |z| < p + e := by
      rw [← Int.lt_zpow_iff_log_lt (by norm_num) (abs_pos.2 hz0)]; exact_mod_cast hlt
    have hE : E z ≤ e := by simp only [E]; omega
    obtain ⟨d, hd⟩ := Int.le.dest hE
    have e1 : |z| / 2 ^ E z = ((|m| * 2 ^ d : ℤ) : ℝ) := by
      rw [hz, abs_mul, abs_of_pos (hpos e), ← hz, div_eq_iff (hpos _).ne', ← hd, zpow_add₀ two_ne_zero, zpow_natCast]
      push_cast; ring
    have : r z = SignType.sign z * (|z| / 2 ^ E z) * 2 ^ E z := by
      simp only [r]; rw [e1, round_intCast]
    rw [this, mul_assoc, div_mul_cancel₀ _ (hpos _).ne', hz']
  · intro z
    have : E (-1 * z) = E z := by simp [E]
    simp only [r, this]
    rw [neg_one_mul, abs_neg, Left.sign_neg]
    push_cast
    ring
  · intro k z
    rcases eq_or_ne z 0 with rfl | hz
    · simp [r]
    have h1 : E (2 ^ k * z) = k + E z := by
      have : Int.log 2 |2 ^ k * z| = k + Int.log 2 |z| := by
        rw [abs_mul, abs_of_pos (hpos k)]
        have h0 : 0 < |z| := abs_pos.2 hz
        have h0' : 0 < 2 ^ k * |z| := mul_pos (hpos k) h0
        have a1 : (2 : ℝ) ^ Int.log 2 |z| ≤ |z| := by exact_mod_cast Int.zpow_log_le_self (b := 2) (by norm_num) h0
        have a2 : |z| < (2 : ℝ) ^ (Int.log 2 |z| + 1) := by exact_mod_cast Int.lt_zpow_succ_log_self (b := 2) (by norm_num) |z|
        apply le_antisymm
        · have : Int.log 2 (2 ^ k * |z|) < k + Int.log 2 |z| + 1 := by
            rw [← Int.lt_zpow_iff_log_lt (by norm_num) h0', Nat.cast_ofNat, add_assoc, zpow_add₀ two_ne_zero]
            exact mul_lt_mul_of_pos_left a2 (hpos k)
          omega
        · rw [← Int.zpow_le_iff_le_log (by norm_num) h0', Nat.cast_ofNat, zpow_add₀ two_ne_zero]
          exact mul_le_mul_of_nonneg_left a1 (hpos k).le
      simp only [E, this]; ring
    simp only [r, h1]
    rw [sign_mul, sign_pos (hpos k), one_mul, abs_mul, abs_of_pos (hpos k), zpow_add₀ two_ne_zero, mul_div_mul_left _ _ (hpos k).ne']
    ring

end Ufunclab.Float
