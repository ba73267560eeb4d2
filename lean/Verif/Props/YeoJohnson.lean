import Verif.Model.Scalar
import Verif.Proof.XF
import Mathlib.Tactic.Linarith
import Mathlib.Tactic.FieldSimp
import Mathlib.Tactic.Ring
/-! # Property C52: yeo_johnson and inv_yeo_johnson -/
namespace Ufunclab.Scalar
open Real

/-- The one-sided (Box-Cox like) transform of `w ≥ 0`. -/
noncomputable def phi (μ w : ℝ) : ℝ := if μ = 0 then log1p w else expm1 (μ * log1p w) / μ

/-- Its inverse. -/
noncomputable def psi (μ w : ℝ) : XF ℝ :=
  if μ = 0 then .fin (expm1 w)
  else if μ < 0 ∧ w ≥ -1 / μ then (if w > -1 / μ then .nan else .pinf)
  else .fin (expm1 (log1p (μ * w) / μ))

theorem yj_eq (x l : ℝ) : yeoJohnson x l = if 0 ≤ x then phi l x else -phi (2 - l) (-x) := by
  unfold yeoJohnson phi
  by_cases h : 0 ≤ x
  · rw [if_pos h, if_pos h]
  · rw [if_neg h, if_neg h]
    by_cases h2 : l = 2
    · rw [if_pos h2, if_pos (by linarith)]
    · rw [if_neg h2, if_neg (fun h => h2 (by linarith)), neg_div]

theorem inv_eq' (x l : ℝ) : invYeoJohnson x l = if 0 ≤ x then psi l x else (psi (2 - l) (-x)).neg := by
  unfold invYeoJohnson psi
  by_cases h : 0 ≤ x
  · rw [if_pos h, if_pos h]
  · rw [if_neg h, if_neg h]
    by_cases h2 : l = 2
    · rw [if_pos h2, if_pos (by linarith)]; rfl
    · rw [if_neg h2, if_neg (show ¬ (2 - l = 0) from fun h => h2 (by linarith))]
      have e : (l > 2 ∧ x ≤ 1 / (2 - l)) ↔ (2 - l < 0 ∧ -x ≥ -1 / (2 - l)) := by
        rw [neg_div]
        constructor <;> rintro ⟨a, b⟩ <;> exact ⟨by linarith, by linarith⟩
      have e' : (x < 1 / (2 - l)) ↔ (-x > -1 / (2 - l)) := by
        rw [neg_div]; constructor <;> intro h <;> linarith
      by_cases h3 : l > 2 ∧ x ≤ 1 / (2 - l)
      · rw [if_pos h3, if_pos (e.1 h3)]
        by_cases h4 : x < 1 / (2 - l)
        · rw [if_pos h4, if_pos (e'.1 h4)]; rfl
        · rw [if_neg h4, if_neg (fun h => h4 (e'.2 h))]; rfl
      · rw [if_neg h3, if_neg (fun h => h3 (e.2 h))]
        simp only [XF.neg, neg_mul, mul_neg]

theorem phi_zero (μ : ℝ) : phi μ 0 = 0 := by simp [phi, log1p, expm1]

theorem phi_strictMono (μ : ℝ) {v w : ℝ} (hv : 0 ≤ v) (h : v < w) : phi μ v < phi μ w := by
  have hl : log1p v < log1p w := Real.log_lt_log (by linarith) (by linarith)
  unfold phi
  by_cases hμ : μ = 0
  · rw [if_pos hμ, if_pos hμ]; exact hl
  · rw [if_neg hμ, if_neg hμ]
    rcases lt_or_gt_of_ne hμ with hn | hp
    · apply div_lt_div_of_neg_of_lt hn
      have := Real.exp_lt_exp.2 (mul_lt_mul_of_neg_left hl hn)
      simp only [expm1]; linarith
    · apply div_lt_div_of_pos_right _ hp
      have := Real.exp_lt_exp.2 (mul_lt_mul_of_pos_left hl hp)
      simp only [expm1]; linarith

theorem phi_nonneg (μ : ℝ) {w : ℝ} (h : 0 ≤ w) : 0 ≤ phi μ w := by
  rcases h.eq_or_lt with e | l
  · rw [← e, phi_zero]
  · exact (phi_zero μ ▸ phi_strictMono μ le_rfl l).le

theorem psi_phi (μ : ℝ) {w : ℝ} (hw : 0 ≤ w) : psi μ (phi μ w) = .fin w := by
  have h1 : 0 < 1 + w := by linarith
  unfold psi phi
  by_cases hμ : μ = 0
  · rw [if_pos hμ, if_pos hμ]; simp [expm1, log1p, Real.exp_log h1]
  · rw [if_neg hμ, if_neg hμ]
    have hE : 0 < exp (μ * log1p w) := Real.exp_pos _
    have hlt : ¬ (μ < 0 ∧ expm1 (μ * log1p w) / μ ≥ -1 / μ) := by
      rintro ⟨hn, hge⟩
      rw [ge_iff_le, div_le_div_right_of_neg hn] at hge
      simp only [expm1] at hge; linarith
    rw [if_neg hlt, mul_div_cancel₀ _ hμ]
    congr 1
    have : log1p (expm1 (μ * log1p w)) = μ * log1p w := by simp [log1p, expm1]
    rw [this, mul_div_cancel_left₀ _ hμ]
    simp [expm1, log1p, Real.exp_log h1]

theorem phi_psi (μ : ℝ) {w v : ℝ} (hw : 0 ≤ w) (h : psi μ w = .fin v) : 0 ≤ v ∧ phi μ v = w := by
  unfold psi at h
  by_cases hμ : μ = 0
  · rw [if_pos hμ] at h
    have hv : v = expm1 w := (XF.fin.inj h).symm
    subst hv
    refine ⟨?_, by rw [phi, if_pos hμ]; simp [log1p, expm1]⟩
    have := Real.one_le_exp hw
    simp only [expm1]; linarith
  · rw [if_neg hμ] at h
    split_ifs at h with h1
    have hv : v = expm1 (log1p (μ * w) / μ) := (XF.fin.inj h).symm
    have hpos : 0 < 1 + μ * w := by
      rcases lt_or_gt_of_ne hμ with hn | hp
      · have : w < -1 / μ := not_le.1 (fun h2 => h1 ⟨hn, h2⟩)
        have := mul_lt_mul_of_neg_left this hn
        rw [mul_div_cancel₀ _ hμ] at this
        linarith
      · positivity
    have hlog : log1p v = log1p (μ * w) / μ := by rw [hv]; simp [log1p, expm1]
    constructor
    · have : 0 ≤ log1p (μ * w) / μ := by
        rcases lt_or_gt_of_ne hμ with hn | hp
        · apply div_nonneg_of_nonpos _ hn.le
          apply Real.log_nonpos hpos.le
          have := mul_nonpos_of_nonpos_of_nonneg hn.le hw
          linarith
        · apply div_nonneg _ hp.le
          apply Real.log_nonneg
          have := mul_nonneg hp.le hw
          linarith
      have := Real.one_le_exp this
      rw [hv]; simp only [expm1]; linarith
    · rw [phi, if_neg hμ, hlog, mul_div_cancel₀ _ hμ]
      simp only [log1p, expm1, Real.exp_log hpos]
      field_simp; ring

/-- C52: for every real `x` and `lambda`, the inverse transform undoes the transform. -/
theorem C52_left_inverse (x l : ℝ) : invYeoJohnson (yeoJohnson x l) l = .fin x := by
  rw [yj_eq, inv_eq']
  by_cases h : 0 ≤ x
  · rw [if_pos h, if_pos (phi_nonneg l h), psi_phi l h]
  · have hx : 0 < -x := by linarith [not_le.1 h]
    have hp : 0 < phi (2 - l) (-x) := phi_zero (2 - l) ▸ phi_strictMono _ le_rfl hx
    rw [if_neg h, if_neg (by linarith), neg_neg, psi_phi _ hx.le]
    simp

/-- C52: wherever the inverse is finite it is a right inverse. -/
theorem C52_right_inverse (y l v : ℝ) (h : invYeoJohnson y l = .fin v) : yeoJohnson v l = y := by
  rw [inv_eq'] at h
  rw [yj_eq]
  by_cases hy : 0 ≤ y
  · rw [if_pos hy] at h
    obtain ⟨hv, e⟩ := phi_psi l hy h
    rw [if_pos hv, e]
  · rw [if_neg hy] at h
    have hy' : 0 < -y := by linarith [not_le.1 hy]
    have h' : psi (2 - l) (-y) = .fin (-v) := by
      revert h
      cases psi (2 - l) (-y) <;> simp [XF.neg]
      intro h; linarith
    obtain ⟨hv, e⟩ := phi_psi (2 - l) hy'.le h'
    have hv' : v ≠ 0 := by
      rintro rfl
      rw [neg_zero, phi_zero] at e; linarith
    have : v < 0 := lt_of_le_of_ne (by linarith) hv'
    rw [if_neg (by linarith), e, neg_neg]

/-- C52: strictly increasing in `x` for every `lambda`. -/
theorem C52_strictMono (l : ℝ) : StrictMono (fun x => yeoJohnson x l) := by
  intro x y h
  simp only [yj_eq]
  by_cases hx : 0 ≤ x
  · rw [if_pos hx, if_pos (hx.trans h.le)]
    exact phi_strictMono l hx h
  · rw [if_neg hx]
    have hx' : 0 < -x := by linarith [not_le.1 hx]
    by_cases hy : 0 ≤ y
    · rw [if_pos hy]
      have a : 0 < phi (2 - l) (-x) := phi_zero (2 - l) ▸ phi_strictMono _ le_rfl hx'
      have b := phi_nonneg l hy
      linarith
    · rw [if_neg hy]
      have := phi_strictMono (2 - l) (by linarith [not_le.1 hy] : 0 ≤ -y) (by linarith : -y < -x)
      linarith

/-- C52: zero at zero, so (being increasing) the sign of `x` is preserved. -/
theorem C52_sign (x l : ℝ) :
    yeoJohnson 0 l = 0 ∧ (0 < yeoJohnson x l ↔ 0 < x) ∧ (yeoJohnson x l < 0 ↔ x < 0) := by
  have h0 : yeoJohnson 0 l = 0 := by rw [yj_eq, if_pos le_rfl, phi_zero]
  refine ⟨h0, ?_, ?_⟩
  · have := (C52_strictMono l).lt_iff_lt (a := 0) (b := x)
    simp only [h0] at this; exact this
  · have := (C52_strictMono l).lt_iff_lt (a := x) (b := 0)
    simp only [h0] at this; exact this

/-- C52: `lambda = 1` is the identity. -/
theorem C52_identity (x : ℝ) : yeoJohnson x 1 = x := by
  rw [yj_eq]
  by_cases h : 0 ≤ x
  · rw [if_pos h, phi, if_neg one_ne_zero]; simp [expm1, log1p, Real.exp_log (by linarith : 0 < 1 + x)]
  · rw [if_neg h, phi, if_neg (by norm_num)]
    have : 0 < 1 - x := by linarith [not_le.1 h]
    have e : (2 : ℝ) - 1 = 1 := by norm_num
    rw [e]
    simp only [expm1, log1p, one_mul, div_one, ← sub_eq_add_neg, Real.exp_log this]; ring

/-- C52: the inverse is NaN strictly outside the range of the transform, infinite on its
boundary, finite inside. -/
theorem C52_inverse_domain (y l : ℝ) :
    (l < 0 → (invYeoJohnson y l = .nan ↔ -1 / l < y) ∧ (invYeoJohnson y l = .pinf ↔ y = -1 / l)) ∧
    (2 < l → (invYeoJohnson y l = .nan ↔ y < 1 / (2 - l)) ∧ (invYeoJohnson y l = .ninf ↔ y = 1 / (2 - l))) ∧
    (0 ≤ l → l ≤ 2 → ∃ v, invYeoJohnson y l = .fin v) := by
  unfold invYeoJohnson
  refine ⟨?_, ?_, ?_⟩
  · intro hl
    have hpos : 0 < -1 / l := div_pos_of_neg_of_neg (by norm_num) hl
    by_cases hy : y ≥ 0
    · rw [if_pos hy, if_neg hl.ne]
      by_cases h1 : y ≥ -1 / l
      · rw [if_pos ⟨hl, h1⟩]
        by_cases h2 : y > -1 / l
        · rw [if_pos h2]; simp [h2, h2.ne']
        · rw [if_neg h2]; simp [h2, le_antisymm (not_lt.1 h2) h1]
      · rw [if_neg (fun h => h1 h.2)]
        have h2 : y < -1 / l := not_le.1 h1
        simp [h2.ne, h2.le]
    · have h2 : y < -1 / l := by linarith [not_le.1 hy]
      rw [if_neg hy, if_neg (by linarith), if_neg (by rintro ⟨h, _⟩; linarith)]
      simp [h2.ne, h2.le]
  · intro hl
    have hneg : 1 / (2 - l) < 0 := div_neg_of_pos_of_neg one_pos (by linarith)
    by_cases hy : y ≥ 0
    · have h2 : 1 / (2 - l) < y := by linarith
      rw [if_pos hy, if_neg (by linarith), if_neg (by rintro ⟨h, _⟩; linarith)]
      constructor
      · simp only [reduceCtorEq, false_iff, not_lt]; exact h2.le
      · simp only [reduceCtorEq, false_iff]; exact h2.ne'
    · rw [if_neg hy, if_neg hl.ne']
      by_cases h1 : y ≤ 1 / (2 - l)
      · rw [if_pos ⟨hl, h1⟩]
        by_cases h2 : y < 1 / (2 - l)
        · rw [if_pos h2]
          constructor
          · simp only [true_iff]; exact h2
          · simp only [reduceCtorEq, false_iff]; exact h2.ne
        · rw [if_neg h2]
          have := le_antisymm h1 (not_lt.1 h2)
          constructor
          · simp only [reduceCtorEq, false_iff]; exact h2
          · simp only [true_iff]; exact this
      · rw [if_neg (fun h => h1 h.2)]
        have h2 := not_le.1 h1
        constructor
        · simp only [reduceCtorEq, false_iff, not_lt]; exact h2.le
        · simp only [reduceCtorEq, false_iff]; exact h2.ne'
  · intro h0 h2
    by_cases hy : y ≥ 0
    · rw [if_pos hy]
      by_cases hl : l = 0
      · rw [if_pos hl]; exact ⟨_, rfl⟩
      · rw [if_neg hl, if_neg (by rintro ⟨h, _⟩; linarith)]; exact ⟨_, rfl⟩
    · rw [if_neg hy]
      by_cases hl : l = 2
      · rw [if_pos hl]; exact ⟨_, rfl⟩
      · rw [if_neg hl, if_neg (by rintro ⟨h, _⟩; linarith)]; exact ⟨_, rfl⟩

/-! ### Non-vacuity -/
example : invYeoJohnson (yeoJohnson (-3) 5) 5 = .fin (-3) := C52_left_inverse _ _
example : invYeoJohnson 2 (-1) = .nan := ((C52_inverse_domain 2 (-1)).1 (by norm_num)).1.2 (by norm_num)
example : ∃ v, invYeoJohnson 2 1 = .fin v ∧ yeoJohnson v 1 = 2 := by
  obtain ⟨v, hv⟩ := (C52_inverse_domain 2 1).2.2 (by norm_num) (by norm_num)
  exact ⟨v, hv, C52_right_inverse _ _ _ hv⟩

end Ufunclab.Scalar
