import Verif.Spec.Overflow
import Verif.Proof.XF
import Verif.Proof.Float2
import Verif.Proof.CorrRound
/-! # Helpers for the overflow theorems -/
namespace Ufunclab.Float
open Ufunclab.Corr
variable {p : ℕ} {emin : ℤ} {rd : ℝ → ℝ} {Ω : ℝ}

theorem ov_nan : ov rd Ω .nan = .nan := rfl
theorem ov_pinf : ov rd Ω .pinf = .pinf := rfl
theorem ov_ninf : ov rd Ω .ninf = .ninf := rfl

theorem ov_isnan (v : XF ℝ) : XF.isnan (ov rd Ω v) = XF.isnan v := by
  cases v with
  | fin z => unfold ov; by_cases h1 : Ω < rd z <;> by_cases h2 : rd z < -Ω <;> simp [h1, h2, XF.isnan]
  | _ => rfl

/-- A finite result that is not beyond `Ω` after rounding. -/
theorem ov_fin {z : ℝ} (hz : |rd z| ≤ Ω) : ov rd Ω (.fin z) = .fin (rd z) := by
  have h1 := (le_abs_self _).trans hz
  have h2 := (neg_abs_le (rd z))
  show (if Ω < rd z then XF.pinf else if rd z < -Ω then .ninf else .fin (rd z)) = _
  rw [if_neg (not_lt.2 h1), if_neg (by linarith)]

theorem abs_round_le (h : Nearest p emin rd) (hΩ : IsFloat p emin Ω) {z : ℝ} (hz : |z| ≤ Ω) : |rd z| ≤ Ω :=
  abs_le.2 ⟨h.mono_float hΩ.neg (by linarith [neg_abs_le z]), h.mono_float' hΩ ((le_abs_self z).trans hz)⟩

/-- An exact result in the range stays in the range. -/
theorem ov_le (h : Nearest p emin rd) (hΩ : IsFloat p emin Ω) {z : ℝ} (hz : |z| ≤ Ω) : ov rd Ω (.fin z) = .fin (rd z) :=
  ov_fin (abs_round_le h hΩ hz)

theorem ov_pos (h : Nearest p emin rd) {k : ℤ} (hp : 1 ≤ p) (hk : emin ≤ k) (hΩ : Ω < 2 ^ k) {z : ℝ} (hz : 2 ^ k ≤ z) :
    ov rd Ω (.fin z) = .pinf := by
  show (if Ω < rd z then XF.pinf else if rd z < -Ω then .ninf else .fin (rd z)) = _
  rw [if_pos (lt_of_lt_of_le hΩ (h.mono_float (isFloat_zpow hp hk) hz))]

theorem ov_neg (h : Nearest p emin rd) {k : ℤ} (hp : 1 ≤ p) (hk : emin ≤ k) (h0 : 0 ≤ Ω) (hΩ : Ω < 2 ^ k) {z : ℝ} (hz : z ≤ -2 ^ k) :
    ov rd Ω (.fin z) = .ninf := by
  have h1 := h.mono_float' (isFloat_zpow (K := ℝ) hp hk).neg hz
  show (if Ω < rd z then XF.pinf else if rd z < -Ω then .ninf else .fin (rd z)) = _
  rw [if_neg (by linarith), if_pos (by linarith)]

theorem Fo.add_fin (a b : ℝ) : (⟨.fin a⟩ + ⟨.fin b⟩ : Fo rd Ω) = ⟨ov rd Ω (.fin (a + b))⟩ := rfl
theorem Fo.mul_fin (a b : ℝ) : (⟨.fin a⟩ * ⟨.fin b⟩ : Fo rd Ω) = ⟨ov rd Ω (.fin (a * b))⟩ := rfl
theorem Fo.sub_fin (a b : ℝ) : (⟨.fin a⟩ - ⟨.fin b⟩ : Fo rd Ω) = ⟨ov rd Ω (.fin (a - b))⟩ := by
  show (⟨ov rd Ω (XF.sub (.fin a) (.fin b))⟩ : Fo rd Ω) = _
  rw [XF.sub_fin]

theorem isFloat_maxDouble : IsFloat 53 (-1074) maxDouble := ⟨2 ^ 53 - 1, 971, by norm_num, by norm_num, by norm_num [maxDouble]⟩

theorem maxDouble_lt : maxDouble < 2 ^ (1024 : ℤ) := by
  have e : (2 : ℝ) ^ (1024 : ℤ) = 2 ^ 53 * 2 ^ (971 : ℤ) := by
    rw [← zpow_natCast, ← zpow_add₀ (by norm_num)]; norm_num
  rw [e, maxDouble]
  have : (0 : ℝ) < 2 ^ (971 : ℤ) := by positivity
  exact mul_lt_mul_of_pos_right (by norm_num) this

theorem maxDouble_ge : 2 ^ (1023 : ℤ) ≤ maxDouble := by
  have e : (2 : ℝ) ^ (1023 : ℤ) = 2 ^ 52 * 2 ^ (971 : ℤ) := by
    rw [← zpow_natCast, ← zpow_add₀ (by norm_num)]; norm_num
  rw [e, maxDouble]
  have : (0 : ℝ) < 2 ^ (971 : ℤ) := by positivity
  exact mul_le_mul_of_nonneg_right (by norm_num) this.le

theorem abs_rsum_le (h : Nearest p emin rd) (hp : 1 ≤ p) (l : List ℝ) (r : ℝ) (fr : IsFloat p emin r) (fl : ∀ v ∈ l, IsFloat p emin v) :
    |rsum rd r l| ≤ (1 + (2 ^ p)⁻¹) ^ l.length * (|r| + (l.map abs).sum) := by
  have h1 := rsum_error h hp l r fr fl
  have h2 : |r + l.sum| ≤ |r| + (l.map abs).sum := (abs_add_le _ _).trans (by
    have : |l.sum| ≤ (l.map abs).sum := by
      induction l with
      | nil => simp
      | cons v l ih =>
        rw [List.sum_cons, List.map_cons, List.sum_cons]
        have := ih (fun w hw => fl w (by simp [hw])) (rsum_error h hp l r fr (fun w hw => fl w (by simp [hw])))
        exact (abs_add_le _ _).trans (by linarith)
    linarith)
  have h3 := abs_add_le (rsum rd r l - (r + l.sum)) (r + l.sum)
  rw [sub_add_cancel] at h3
  linarith

/-- A running sum without overflow. -/
theorem foldl_in_range (h : Nearest p emin rd) (hp : 1 ≤ p) (hΩ : IsFloat p emin Ω) (l : List ℝ) : ∀ r : ℝ, IsFloat p emin r →
    (∀ v ∈ l, IsFloat p emin v) → (1 + (2 ^ p)⁻¹) ^ l.length * (|r| + (l.map abs).sum) ≤ Ω →
    (l.map fun v => (⟨.fin v⟩ : Fo rd Ω)).foldl (· + ·) ⟨.fin r⟩ = ⟨.fin (rsum rd r l)⟩ := by
  induction l with
  | nil => intro r _ _ _; rfl
  | cons v l ih =>
    intro r fr fl hb
    have fv := fl v (by simp)
    have hu : (0 : ℝ) ≤ (2 ^ p)⁻¹ := by positivity
    rw [List.map_cons, List.sum_cons, List.length_cons] at hb
    have hs : 0 ≤ (l.map abs).sum := List.sum_nonneg (by simp)
    have h1 : (1 : ℝ) ≤ (1 + (2 ^ p)⁻¹) ^ l.length := one_le_pow₀ (by linarith)
    have h2 : (1 : ℝ) ≤ (1 + (2 ^ p)⁻¹) ^ (l.length + 1) := one_le_pow₀ (by linarith)
    have h3 : |r + v| ≤ |r| + |v| := abs_add_le _ _
    have h4 : |r| + |v| ≤ Ω := by
      have : 0 ≤ |r| + (|v| + (l.map abs).sum) := by positivity
      have := le_mul_of_one_le_left this h2
      linarith
    rw [List.map_cons, List.foldl_cons, Fo.add_fin, ov_le h hΩ (h3.trans h4)]
    rw [ih (rd (r + v)) (h _).1 (fun w hw => fl w (by simp [hw]))]
    · rfl
    · have h5 : |rd (r + v)| ≤ (1 + (2 ^ p)⁻¹) * (|r| + |v|) := by
        have e1 := h.rel_error hp (fr.grid.add fv.grid)
        have e2 : |rd (r + v)| ≤ |rd (r + v) - (r + v)| + |r + v| := by
          have := abs_add_le (rd (r + v) - (r + v)) (r + v)
          rwa [sub_add_cancel] at this
        have e3 := mul_le_mul_of_nonneg_left h3 hu
        linarith
      have h6 : |rd (r + v)| + (l.map abs).sum ≤ (1 + (2 ^ p)⁻¹) * (|r| + (|v| + (l.map abs).sum)) := by
        have := mul_nonneg hu hs
        linarith
      calc (1 + (2 ^ p)⁻¹) ^ l.length * (|rd (r + v)| + (l.map abs).sum)
          ≤ (1 + (2 ^ p)⁻¹) ^ l.length * ((1 + (2 ^ p)⁻¹) * (|r| + (|v| + (l.map abs).sum))) :=
            mul_le_mul_of_nonneg_left h6 (by linarith)
        _ = (1 + (2 ^ p)⁻¹) ^ (l.length + 1) * (|r| + (|v| + (l.map abs).sum)) := by rw [pow_succ]; ring
        _ ≤ Ω := hb

/-- Sums of numbers that are not negative: an infinite term gives `+inf`. -/
def NonnegOrInf : XF ℝ → Prop
  | .fin a => 0 ≤ a
  | .pinf => True
  | _ => False

theorem ov_nonneg (h : Nearest p emin rd) (h0 : 0 ≤ Ω) {v : XF ℝ} (hv : NonnegOrInf v) : NonnegOrInf (ov rd Ω v) := by
  cases v with
  | fin z =>
    have hz : 0 ≤ rd z := h.mono_float isFloat_zero hv
    show NonnegOrInf (if Ω < rd z then XF.pinf else if rd z < -Ω then .ninf else .fin (rd z))
    by_cases h1 : Ω < rd z
    · rw [if_pos h1]; trivial
    · rw [if_neg h1, if_neg (by linarith)]; exact hz
  | pinf => trivial
  | ninf => exact hv
  | nan => exact hv

theorem add_nonnegOrInf {a b : XF ℝ} (ha : NonnegOrInf a) (hb : NonnegOrInf b) : NonnegOrInf (XF.add a b) := by
  cases a <;> cases b <;> first | exact ha.elim | exact hb.elim | trivial | exact add_nonneg ha hb

theorem foldl_inf (h : Nearest p emin rd) (h0 : 0 ≤ Ω) (l : List (Fo rd Ω)) : ∀ r : Fo rd Ω, NonnegOrInf r.val →
    (∀ v ∈ l, NonnegOrInf v.val) → (r.val = .pinf ∨ ∃ v ∈ l, v.val = .pinf) → (l.foldl (· + ·) r).val = .pinf := by
  induction l with
  | nil => intro r _ _ hi; rcases hi with hi | ⟨v, hv, _⟩
           · exact hi
           · simp at hv
  | cons v l ih =>
    intro r hr hl hi
    have hv := hl v (by simp)
    rw [List.foldl_cons]
    apply ih _ (ov_nonneg h h0 (add_nonnegOrInf hr hv)) (fun w hw => hl w (by simp [hw]))
    rcases hi with hi | ⟨w, hw, e⟩
    · left
      show ov rd Ω (XF.add r.val v.val) = _
      rw [hi]
      cases hvv : v.val <;> rw [hvv] at hv <;> first | exact hv.elim | rfl
    · rcases List.mem_cons.1 hw with rfl | hw
      · left
        show ov rd Ω (XF.add r.val w.val) = _
        rw [e]
        cases hrr : r.val <;> rw [hrr] at hr <;> first | exact hr.elim | rfl
      · right; exact ⟨w, hw, e⟩

end Ufunclab.Float
