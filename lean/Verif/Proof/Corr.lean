import Verif.Model.Corr
import Verif.Spec.Corr
import Verif.Proof.XF
import Mathlib.Algebra.Order.BigOperators.Ring.Finset
import Mathlib.Algebra.BigOperators.Field
import Mathlib.Tactic.Ring
import Mathlib.Tactic.FieldSimp
import Mathlib.Tactic.Linarith
namespace Ufunclab.Corr
open Finset

theorem sumFrom_succ (f : Nat → ℝ) (k n : Nat) :
    ∑ i ∈ range (n + 1), f (k + i) = f k + ∑ i ∈ range n, f (k + 1 + i) := by
  rw [sum_range_succ', add_comm]
  simp only [Nat.add_zero]
  congr 1
  exact sum_congr rfl (fun i _ => by rw [show k + 1 + i = k + (i + 1) by omega])

theorem meanLoop_fin (x : Nat → ℝ) (fuel k : Nat) (μ : ℝ) :
    meanLoop (fun i => .fin (x i)) fuel k (.fin μ) (.fin 0) =
      .fin (if fuel = 0 then μ else ((k : ℝ) * μ + ∑ i ∈ range fuel, x (k + i)) / (k + fuel)) := by
  induction fuel generalizing k μ with
  | zero => simp [meanLoop]
  | succ f ih =>
    have hk : (k : ℝ) + 1 ≠ 0 := by positivity
    simp only [meanLoop, XF.sub_fin, XF.div_fin _ _ hk, XF.add_fin, sub_zero]
    rw [show μ + (x k - μ) / ((k : ℝ) + 1) - μ - (x k - μ) / ((k : ℝ) + 1) = 0 by ring, ih]
    rw [if_neg (Nat.succ_ne_zero f), sumFrom_succ]
    congr 1
    by_cases hf : f = 0
    · subst hf
      simp; field_simp; ring
    · rw [if_neg hf]
      have : (k : ℝ) + 1 + f ≠ 0 := by positivity
      have : (k : ℝ) + (f + 1) ≠ 0 := by positivity
      push_cast
      rw [show (k : ℝ) + 1 + f = k + (f + 1) by ring]
      congr 1
      field_simp
      ring

theorem stridedMean_fin (n : Nat) (hn : n ≠ 0) (x : Nat → ℝ) :
    stridedMean n (fun i => .fin (x i)) = .fin (mean n x) := by
  rw [stridedMean, meanLoop_fin, if_neg hn]; simp [mean]

theorem maxabsLoop_fin (x : Nat → ℝ) (μ : ℝ) (fuel k : Nat) (M : ℝ) :
    ∃ M', maxabsLoop (fun i => .fin (x i)) (.fin μ) fuel k (.fin M) = .fin M' ∧ M ≤ M' ∧
      (∀ i < fuel, |x (k + i) - μ| ≤ M') ∧ (M' = M ∨ ∃ i < fuel, M' = |x (k + i) - μ|) := by
  induction fuel generalizing k M with
  | zero => exact ⟨M, rfl, le_rfl, by simp, .inl rfl⟩
  | succ f ih =>
    simp only [maxabsLoop, XF.sub_fin, XF.abs_fin, XF.gt_fin, decide_eq_true_eq]
    have key : ∀ M1, M ≤ M1 → |x k - μ| ≤ M1 → (M1 = M ∨ M1 = |x k - μ|) →
        ∃ M', maxabsLoop (fun i => .fin (x i)) (.fin μ) f (k + 1) (.fin M1) = .fin M' ∧ M ≤ M' ∧
        (∀ i < f + 1, |x (k + i) - μ| ≤ M') ∧ (M' = M ∨ ∃ i < f + 1, M' = |x (k + i) - μ|) := by
      intro M1 h1 h2 h3
      obtain ⟨M', e, a, b, c⟩ := ih (k + 1) M1
      refine ⟨M', e, by linarith, ?_, ?_⟩
      · intro i hi
        cases i with
        | zero => simp; linarith
        | succ i => have := b i (by omega); rwa [show k + 1 + i = k + (i + 1) by omega] at this
      · rcases c with c | ⟨i, hi, c⟩
        · rcases h3 with h3 | h3
          · left; rw [c, h3]
          · right; exact ⟨0, by omega, by simp [c, h3]⟩
        · right; exact ⟨i + 1, by omega, by rw [c, show k + 1 + i = k + (i + 1) by omega]⟩
    split_ifs with h
    · exact key _ h.le le_rfl (.inr rfl)
    · exact key _ le_rfl (not_lt.1 h) (.inl rfl)

theorem deltaMaxabs_fin (n : Nat) (hn : n ≠ 0) (x : Nat → ℝ) (μ : ℝ) :
    ∃ M, deltaMaxabs n (fun i => .fin (x i)) (.fin μ) = .fin M ∧ 0 ≤ M ∧
      (∀ i < n, |x i - μ| ≤ M) ∧ ∃ i < n, M = |x i - μ| := by
  obtain ⟨M, e, a, b, c⟩ := maxabsLoop_fin x μ (n - 1) 1 |x 0 - μ|
  refine ⟨M, ?_, (abs_nonneg _).trans a, ?_, ?_⟩
  · simpa [deltaMaxabs] using e
  · intro i hi
    cases i with
    | zero => exact a
    | succ i => have := b i (by omega); rwa [show 1 + i = i + 1 by omega] at this
  · rcases c with c | ⟨i, hi, c⟩
    · exact ⟨0, by omega, c⟩
    · exact ⟨1 + i, by omega, c⟩

theorem normLoop_fin (x : Nat → ℝ) (μ M : ℝ) (hM : M ≠ 0) (fuel k : Nat) (s : ℝ) :
    normLoop (fun i => .fin (x i)) (.fin μ) (.fin M) fuel k (.fin s) (.fin 0) =
      .fin (s + ∑ i ∈ range fuel, ((x (k + i) - μ) / M) ^ 2) := by
  induction fuel generalizing k s with
  | zero => simp [normLoop]
  | succ f ih =>
    simp only [normLoop, XF.sub_fin, XF.div_fin _ _ hM, XF.mul_fin, XF.add_fin, sub_zero]
    rw [show s + (x k - μ) / M * ((x k - μ) / M) - s - (x k - μ) / M * ((x k - μ) / M) = 0 by ring, ih,
      sumFrom_succ (fun i => ((x i - μ) / M) ^ 2)]
    congr 1; ring

theorem deltaNorm_fin (n : Nat) (x : Nat → ℝ) (μ M : ℝ) (hM : 0 < M) :
    deltaNorm n (fun i => .fin (x i)) (.fin μ) (.fin M) =
      .fin (Real.sqrt (∑ i ∈ range n, (x i - μ) ^ 2)) := by
  have h0 : 0 ≤ ∑ i ∈ range n, ((x (0 + i) - μ) / M) ^ 2 := sum_nonneg (fun i _ => sq_nonneg _)
  simp only [deltaNorm, normLoop_fin x μ M hM.ne', zero_add, xsqrt] at *
  rw [if_neg (not_lt.2 h0), XF.mul_fin]
  congr 1
  have : ∑ i ∈ range n, ((x i - μ) / M) ^ 2 = (∑ i ∈ range n, (x i - μ) ^ 2) / M ^ 2 := by
    rw [sum_div]; exact sum_congr rfl (fun i _ => by rw [div_pow])
  rw [this, Real.sqrt_div' _ (by positivity), Real.sqrt_sq hM.le]
  field_simp

theorem rLoop_fin (x y : Nat → ℝ) (μ ν a b : ℝ) (ha : a ≠ 0) (hb : b ≠ 0) (fuel k : Nat) (r : ℝ) :
    rLoop (fun i => .fin (x i)) (fun i => .fin (y i)) (.fin μ) (.fin a) (.fin ν) (.fin b) fuel k (.fin r) =
      .fin (r + (∑ i ∈ range fuel, (x (k + i) - μ) * (y (k + i) - ν)) / (a * b)) := by
  induction fuel generalizing k r with
  | zero => simp [rLoop]
  | succ f ih =>
    simp only [rLoop, XF.sub_fin, XF.div_fin _ _ ha, XF.div_fin _ _ hb, XF.mul_fin, XF.add_fin, ih,
      sumFrom_succ (fun i => (x i - μ) * (y i - ν))]
    congr 1; field_simp; ring

theorem sumsq_pos_iff (n : Nat) (hn : n ≠ 0) (x : Nat → ℝ) :
    0 < ∑ i ∈ range n, (x i - mean n x) ^ 2 ↔ ¬ Constant n x := by
  have hnr : (n : ℝ) ≠ 0 := by exact_mod_cast hn
  rw [← not_iff_not, not_not, not_lt]
  constructor
  · intro h
    have h0 := le_antisymm h (sum_nonneg (fun i _ => sq_nonneg _))
    rw [sum_eq_zero_iff_of_nonneg (fun i _ => sq_nonneg _)] at h0
    intro i hi j hj
    have a := h0 i (mem_range.2 hi)
    have b := h0 j (mem_range.2 hj)
    have a' : x i - mean n x = 0 := by simpa using a
    have b' : x j - mean n x = 0 := by simpa using b
    linarith
  · intro h
    apply le_of_eq
    apply sum_eq_zero
    intro i hi
    have : mean n x = x i := by
      unfold mean
      rw [sum_congr rfl (fun j hj => h j (mem_range.1 hj) i (mem_range.1 hi))]
      simp; field_simp
    rw [this]; simp

theorem maxabs_zero_iff (n : Nat) (hn : n ≠ 0) (x : Nat → ℝ) (M : ℝ)
    (h : ∀ i < n, |x i - mean n x| ≤ M) (h' : ∃ i < n, M = |x i - mean n x|) :
    M = 0 ↔ Constant n x := by
  have := sumsq_pos_iff n hn x
  rw [← not_iff_not, ← this]
  constructor
  · intro hM
    obtain ⟨i, hi, e⟩ := h'
    have : x i - mean n x ≠ 0 := by intro h0; apply hM; rw [e, h0, abs_zero]
    have hp : 0 < (x i - mean n x) ^ 2 := by positivity
    exact hp.trans_le (single_le_sum (f := fun i => (x i - mean n x) ^ 2) (fun j _ => sq_nonneg _) (mem_range.2 hi))
  · intro hp h0
    have : ∑ i ∈ range n, (x i - mean n x) ^ 2 = 0 := by
      apply sum_eq_zero
      intro i hi
      have := h i (mem_range.1 hi)
      rw [h0] at this
      have : x i - mean n x = 0 := abs_nonpos_iff.1 this
      rw [this]; simp
    linarith

theorem general_fin (n : Nat) (hn : n ≠ 0) (x y : Nat → ℝ) :
    (Constant n x ∨ Constant n y → general n (fun i => .fin (x i)) (fun i => .fin (y i)) = .nan) ∧
    (¬ Constant n x → ¬ Constant n y →
      general n (fun i => .fin (x i)) (fun i => .fin (y i)) = .fin (corr n x y)) := by
  obtain ⟨M, eM, M0, Mle, Mex⟩ := deltaMaxabs_fin n hn x (mean n x)
  obtain ⟨N, eN, N0, Nle, Nex⟩ := deltaMaxabs_fin n hn y (mean n y)
  have hM := maxabs_zero_iff n hn x M Mle Mex
  have hN := maxabs_zero_iff n hn y N Nle Nex
  simp only [general, stridedMean_fin n hn, eM, eN, XF.eq_fin, decide_eq_true_eq]
  constructor
  · rintro (h | h)
    · rw [if_pos (hM.2 h)]
    · rw [if_pos (hN.2 h)]; split_ifs <;> rfl
  · intro hx hy
    have Mp : 0 < M := lt_of_le_of_ne M0 (fun h => hx (hM.1 h.symm))
    have Np : 0 < N := lt_of_le_of_ne N0 (fun h => hy (hN.1 h.symm))
    rw [if_neg Mp.ne', if_neg Np.ne', deltaNorm_fin n x _ M Mp, deltaNorm_fin n y _ N Np, rLoop_fin]
    · simp [corr]
    · exact (Real.sqrt_pos.2 ((sumsq_pos_iff n hn x).2 hx)).ne'
    · exact (Real.sqrt_pos.2 ((sumsq_pos_iff n hn y).2 hy)).ne'

/-! ### Only the first `n` elements matter -/

theorem meanLoop_congr (x x' : Nat → XF ℝ) (fuel k : Nat) (a b : XF ℝ)
    (h : ∀ i < fuel, x (k + i) = x' (k + i)) : meanLoop x fuel k a b = meanLoop x' fuel k a b := by
  induction fuel generalizing k a b with
  | zero => rfl
  | succ f ih =>
    have h0 : x k = x' k := h 0 (by omega)
    simp only [meanLoop, h0]
    exact ih _ _ _ (fun i hi => by have := h (i + 1) (by omega); rwa [show k + (i + 1) = k + 1 + i by omega] at this)

theorem maxabsLoop_congr (x x' : Nat → XF ℝ) (μ : XF ℝ) (fuel k : Nat) (a : XF ℝ)
    (h : ∀ i < fuel, x (k + i) = x' (k + i)) : maxabsLoop x μ fuel k a = maxabsLoop x' μ fuel k a := by
  induction fuel generalizing k a with
  | zero => rfl
  | succ f ih =>
    have h0 : x k = x' k := h 0 (by omega)
    simp only [maxabsLoop, h0]
    exact ih _ _ (fun i hi => by have := h (i + 1) (by omega); rwa [show k + (i + 1) = k + 1 + i by omega] at this)

theorem normLoop_congr (x x' : Nat → XF ℝ) (μ M : XF ℝ) (fuel k : Nat) (a b : XF ℝ)
    (h : ∀ i < fuel, x (k + i) = x' (k + i)) : normLoop x μ M fuel k a b = normLoop x' μ M fuel k a b := by
  induction fuel generalizing k a b with
  | zero => rfl
  | succ f ih =>
    have h0 : x k = x' k := h 0 (by omega)
    simp only [normLoop, h0]
    exact ih _ _ _ (fun i hi => by have := h (i + 1) (by omega); rwa [show k + (i + 1) = k + 1 + i by omega] at this)

theorem rLoop_congr (x x' y y' : Nat → XF ℝ) (μ a ν b : XF ℝ) (fuel k : Nat) (r : XF ℝ)
    (h : ∀ i < fuel, x (k + i) = x' (k + i)) (h' : ∀ i < fuel, y (k + i) = y' (k + i)) :
    rLoop x y μ a ν b fuel k r = rLoop x' y' μ a ν b fuel k r := by
  induction fuel generalizing k r with
  | zero => rfl
  | succ f ih =>
    have h0 : x k = x' k := h 0 (by omega)
    have h1 : y k = y' k := h' 0 (by omega)
    simp only [rLoop, h0, h1]
    exact ih _ _ (fun i hi => by have := h (i + 1) (by omega); rwa [show k + (i + 1) = k + 1 + i by omega] at this)
      (fun i hi => by have := h' (i + 1) (by omega); rwa [show k + (i + 1) = k + 1 + i by omega] at this)

theorem general_congr (n : Nat) (hn : n ≠ 0) (x x' y y' : Nat → XF ℝ)
    (h : ∀ i < n, x i = x' i) (h' : ∀ i < n, y i = y' i) : general n x y = general n x' y' := by
  have d : ∀ (z z' : Nat → XF ℝ) μ, (∀ i < n, z i = z' i) → deltaMaxabs n z μ = deltaMaxabs n z' μ := by
    intro z z' μ hz
    rw [deltaMaxabs, deltaMaxabs, hz 0 (by omega)]
    exact maxabsLoop_congr _ _ _ _ _ _ (fun i hi => hz _ (by omega))
  have e : ∀ (z z' : Nat → XF ℝ), (∀ i < n, z i = z' i) → stridedMean n z = stridedMean n z' := by
    intro z z' hz
    exact meanLoop_congr _ _ _ _ _ _ (fun i hi => hz _ (by omega))
  have f : ∀ (z z' : Nat → XF ℝ) μ M, (∀ i < n, z i = z' i) → deltaNorm n z μ M = deltaNorm n z' μ M := by
    intro z z' μ M hz
    rw [deltaNorm, deltaNorm, normLoop_congr z z' _ _ _ _ _ _ (fun i hi => hz _ (by omega))]
  simp only [general, e x x' h, e y y' h', d x x' _ h, d y y' _ h', f x x' _ _ h, f y y' _ _ h',
    rLoop_congr x x' y y' _ _ _ _ n 0 _ (fun i hi => h _ (by omega)) (fun i hi => h' _ (by omega))]

/-! ### Non-finite input -/

theorem isfinite_false {a : XF ℝ} : a.isfinite = false ↔ a = .nan ∨ a = .pinf ∨ a = .ninf := by
  cases a <;> simp [XF.isfinite]

theorem meanLoop_c1nan (x : Nat → XF ℝ) (fuel k : Nat) (μ : XF ℝ) (hμ : μ.isfinite = false) :
    (meanLoop x fuel k μ .nan).isfinite = false := by
  induction fuel generalizing k μ with
  | zero => exact hμ
  | succ f ih =>
    simp only [meanLoop]
    have e1 : ∀ a : XF ℝ, a.sub .nan = .nan := by intro a; cases a <;> rfl
    have e2 : ∀ a : XF ℝ, a.add .nan = .nan := by intro a; cases a <;> rfl
    have e3 : ∀ a : XF ℝ, XF.sub .nan a = .nan := by intro a; cases a <;> rfl
    rw [e1, e2, e3, e3]
    exact ih _ _ rfl

theorem meanLoop_nonfin (x : Nat → XF ℝ) (fuel k : Nat) (μ c : ℝ)
    (h : ∃ i < fuel, (x (k + i)).isfinite = false) :
    (meanLoop x fuel k (.fin μ) (.fin c)).isfinite = false := by
  induction fuel generalizing k μ c with
  | zero => obtain ⟨i, hi, _⟩ := h; omega
  | succ f ih =>
    have hk : ¬ ((k : ℝ) + 1 < 0) := by have : (0:ℝ) ≤ k := Nat.cast_nonneg k; linarith
    have hk' : (k : ℝ) + 1 ≠ 0 := by positivity
    by_cases hx : (x k).isfinite = true
    · obtain ⟨a, ha⟩ := (XF.isfinite_iff _).1 hx
      simp only [meanLoop, ha, XF.sub_fin, XF.div_fin _ _ hk', XF.add_fin]
      apply ih
      obtain ⟨i, hi, hi'⟩ := h
      cases i with
      | zero => simp at hi'; simp [hi'] at hx
      | succ i => exact ⟨i, by omega, by rwa [show k + 1 + i = k + (i + 1) by omega]⟩
    · rcases isfinite_false.1 (by simpa using hx) with h | h | h <;>
        simp only [meanLoop, h, XF.sub, XF.neg, XF.add, XF.div, hk, if_false] <;>
        exact meanLoop_c1nan _ _ _ _ rfl

theorem maxabsLoop_nonfin (x : Nat → XF ℝ) (μ : XF ℝ) (fuel k : Nat) (M : XF ℝ)
    (hM : M = .nan ∨ M = .pinf) : maxabsLoop x μ fuel k M = M := by
  induction fuel generalizing k with
  | zero => rfl
  | succ f ih =>
    simp only [maxabsLoop]
    have : (((x k).sub μ).abs).gt M = false := by
      rcases hM with rfl | rfl <;> cases ((x k).sub μ).abs <;> rfl
    rw [this]; exact ih _

theorem sub_nonfin (a μ : XF ℝ) (hμ : μ.isfinite = false) : (a.sub μ).isfinite = false := by
  rcases isfinite_false.1 hμ with rfl | rfl | rfl <;> cases a <;> rfl

theorem deltaMaxabs_nonfin (n : Nat) (x : Nat → XF ℝ) (μ : XF ℝ) (hμ : μ.isfinite = false) :
    deltaMaxabs n x μ = .nan ∨ deltaMaxabs n x μ = .pinf := by
  have h : ((x 0).sub μ).abs = .nan ∨ ((x 0).sub μ).abs = .pinf := by
    rcases isfinite_false.1 (sub_nonfin (x 0) μ hμ) with h | h | h <;> rw [h] <;> simp [XF.abs]
  rw [deltaMaxabs, maxabsLoop_nonfin _ _ _ _ _ h]; exact h

theorem normLoop_nan (x : Nat → XF ℝ) (μ M : XF ℝ) (fuel k : Nat) (c : XF ℝ) :
    normLoop x μ M fuel k .nan c = .nan := by
  induction fuel generalizing k c with
  | zero => rfl
  | succ f ih =>
    simp only [normLoop]
    have e : ∀ a : XF ℝ, XF.add .nan a = .nan := by intro a; cases a <;> rfl
    rw [e]; exact ih _ _

theorem deltaNorm_nonfin (n : Nat) (hn : n ≠ 0) (x : Nat → XF ℝ) (μ M : XF ℝ) (hμ : μ.isfinite = false)
    (hM : M = .nan ∨ M = .pinf) : deltaNorm n x μ M = .nan := by
  obtain ⟨k, rfl⟩ := Nat.exists_eq_succ_of_ne_zero hn
  have hz : ((x 0).sub μ).div M = .nan := by
    have := isfinite_false.1 (sub_nonfin (x 0) μ hμ)
    rcases hM with rfl | rfl <;> rcases this with h | h | h <;> rw [h] <;> rfl
  simp only [deltaNorm, normLoop, hz]
  have : XF.add (.fin 0) ((XF.mul (.nan : XF ℝ) .nan).sub (.fin 0)) = .nan := rfl
  rw [this, normLoop_nan]
  rcases hM with rfl | rfl <;> rfl

theorem rLoop_nan (x y : Nat → XF ℝ) (μ a ν b : XF ℝ) (fuel k : Nat) :
    rLoop x y μ a ν b fuel k .nan = .nan := by
  induction fuel generalizing k with
  | zero => rfl
  | succ f ih =>
    simp only [rLoop]
    have e : ∀ a : XF ℝ, XF.add .nan a = .nan := by intro a; cases a <;> rfl
    rw [e]; exact ih _

theorem rLoop_norm_nan (x y : Nat → XF ℝ) (μ a ν b : XF ℝ) (n : Nat) (hn : n ≠ 0)
    (h : a = .nan ∨ b = .nan) : rLoop x y μ a ν b n 0 (.fin 0) = .nan := by
  obtain ⟨k, rfl⟩ := Nat.exists_eq_succ_of_ne_zero hn
  simp only [rLoop]
  have e1 : ∀ a : XF ℝ, a.div .nan = .nan := by intro a; cases a <;> rfl
  have e2 : ∀ a : XF ℝ, XF.mul .nan a = .nan := by intro a; cases a <;> rfl
  have e3 : ∀ a : XF ℝ, a.mul .nan = .nan := by intro a; cases a <;> rfl
  have e4 : ∀ a : XF ℝ, a.add .nan = .nan := by intro a; cases a <;> rfl
  rcases h with rfl | rfl
  · rw [e1, e2, e4, rLoop_nan]
  · rw [e1, e3, e4, rLoop_nan]

theorem general_nonfin (n : Nat) (hn : n ≠ 0) (x y : Nat → XF ℝ)
    (h : (∃ i < n, (x i).isfinite = false) ∨ (∃ i < n, (y i).isfinite = false)) :
    general n x y = .nan := by
  simp only [general]
  split_ifs with h1 h2
  · rfl
  · rfl
  · apply rLoop_norm_nan _ _ _ _ _ _ _ hn
    rcases h with h | h
    · left
      have hm : (stridedMean n x).isfinite = false := meanLoop_nonfin x n 0 0 0 (by simpa using h)
      exact deltaNorm_nonfin n hn x _ _ hm (deltaMaxabs_nonfin n x _ hm)
    · right
      have hm : (stridedMean n y).isfinite = false := meanLoop_nonfin y n 0 0 0 (by simpa using h)
      exact deltaNorm_nonfin n hn y _ _ hm (deltaMaxabs_nonfin n y _ hm)

end Ufunclab.Corr
