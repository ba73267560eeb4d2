import Verif.Proof.LanczosPoly
import Mathlib.Analysis.SpecialFunctions.Log.Deriv
import Mathlib.Analysis.Calculus.Deriv.MeanValue
import Mathlib.Topology.Algebra.Polynomial
/-!
# One step of the Lanczos formula

`k y` is the amount by which the formula misses the functional equation of `log Γ` at `y`.  Its
second derivative is a rational function, bounded in `LanczosPoly`; two integrations from infinity
bound `k'` and `k`.
-/
namespace Ufunclab.Loggamma1p
open Ufunclab.Debye1 Ufunclab.PolyPos Real Filter Topology

noncomputable section

def gR : ℝ := 808618867 / 2 ^ 27

theorem gR_eq : lit lanczosG = gR := by rw [lit, lanczosG, gR]; norm_num

theorem gR_bounds : 6.02 < gR ∧ gR < 6.03 := by rw [gR]; constructor <;> norm_num

theorem comp_one_right (a b : ℤ) (f : List ℤ) (t : ℝ) : peval (comp a b 1 0 f).2 t = 1 := by
  induction f with
  | nil => simp [comp]
  | cons c r ih => simp only [comp, peval_pmul, peval_cons, peval_nil, ih]; norm_num

theorem peval_pB (y : ℝ) : peval pB y = peval pA (y + 1) := by
  have := comp_eval 1 1 1 0 pA (t := y) (y := y + 1) (by push_cast; ring)
  rw [comp_one_right] at this
  push_cast at this
  rw [pB]; linarith

/-- A polynomial with positive coefficients. -/
theorem peval_pos {p : List ℤ} (h : allNonneg p = true) (h0 : 0 < p.headD 0) {y : ℝ} (hy : 0 ≤ y) : 0 < peval p y := by
  cases p with
  | nil => simp at h0
  | cons a p =>
    simp only [allNonneg, Bool.and_eq_true] at h
    have h1 : (0 : ℝ) < a := by simpa using h0
    have h2 := peval_nonneg p h.2 hy
    rw [peval_cons]; positivity

theorem pA_pos {y : ℝ} (hy : 0 ≤ y) : 0 < peval pA y := peval_pos (by decide +kernel) (by decide +kernel) hy
theorem pB_pos {y : ℝ} (hy : 0 ≤ y) : 0 < peval pB y := by rw [peval_pB]; exact pA_pos (by linarith)

def k (y : ℝ) : ℝ :=
  log (peval pB y) - log (peval pA y) - log (y + 12) + (y + 1 / 2) * log (y + gR + 1 / 2) - (y - 1 / 2) * log (y + gR - 1 / 2) - 1

def k1 (y : ℝ) : ℝ :=
  peval (pder pB) y / peval pB y - peval (pder pA) y / peval pA y - 1 / (y + 12) +
    (log (y + gR + 1 / 2) + (y + 1 / 2) / (y + gR + 1 / 2)) - (log (y + gR - 1 / 2) + (y - 1 / 2) / (y + gR - 1 / 2))

/-- `(log p)''`. -/
def l2 (p : List ℤ) (y : ℝ) : ℝ :=
  (peval (pder (pder p)) y * peval p y - peval (pder p) y * peval (pder p) y) / (peval p y) ^ 2

def k2 (y : ℝ) : ℝ :=
  l2 pB y - l2 pA y + 1 / (y + 12) ^ 2 + (1 / (y + gR + 1 / 2) + gR / (y + gR + 1 / 2) ^ 2) -
    (1 / (y + gR - 1 / 2) + gR / (y + gR - 1 / 2) ^ 2)

theorem hasDerivAt_log_peval (p : List ℤ) {y : ℝ} (h : peval p y ≠ 0) :
    HasDerivAt (fun y => log (peval p y)) (peval (pder p) y / peval p y) y := (hasDerivAt_peval p y).log h

theorem hasDerivAt_l1 (p : List ℤ) {y : ℝ} (h : peval p y ≠ 0) :
    HasDerivAt (fun y => peval (pder p) y / peval p y) (l2 p y) y :=
  (hasDerivAt_peval (pder p) y).div (hasDerivAt_peval p y) h

theorem hasDerivAt_xlog (s c : ℝ) {y : ℝ} (h : y + c ≠ 0) :
    HasDerivAt (fun y => (y + s) * log (y + c)) (log (y + c) + (y + s) / (y + c)) y := by
  have h1 : HasDerivAt (fun y : ℝ => y + s) 1 y := (hasDerivAt_id y).add_const s
  have h2 : HasDerivAt (fun y : ℝ => log (y + c)) (1 / (y + c)) y := ((hasDerivAt_id y).add_const c).log h
  have := h1.mul h2
  refine this.congr_deriv ?_
  ring

theorem hasDerivAt_xlog1 (s c : ℝ) {y : ℝ} (h : y + c ≠ 0) :
    HasDerivAt (fun y => log (y + c) + (y + s) / (y + c)) (1 / (y + c) + (c - s) / (y + c) ^ 2) y := by
  have h1 : HasDerivAt (fun y : ℝ => y + s) 1 y := (hasDerivAt_id y).add_const s
  have h3 : HasDerivAt (fun y : ℝ => y + c) 1 y := (hasDerivAt_id y).add_const c
  have h2 : HasDerivAt (fun y : ℝ => log (y + c)) (1 / (y + c)) y := h3.log h
  refine (h2.add (h1.div h3 h)).congr_deriv ?_
  field_simp
  ring

theorem hasDerivAt_k {y : ℝ} (hy : 0 ≤ y) : HasDerivAt k (k1 y) y := by
  have hg := gR_bounds
  have e1 := hasDerivAt_log_peval pB (pB_pos hy).ne'
  have e2 := hasDerivAt_log_peval pA (pA_pos hy).ne'
  have e3 : HasDerivAt (fun y : ℝ => log (y + 12)) (1 / (y + 12)) y := ((hasDerivAt_id y).add_const 12).log (by simp; linarith)
  have e4 := hasDerivAt_xlog (1 / 2) (gR + 1 / 2) (y := y) (by linarith)
  have e5 := hasDerivAt_xlog (-(1 / 2)) (gR - 1 / 2) (y := y) (by linarith)
  have := (((e1.sub e2).sub e3).add e4).sub e5 |>.sub_const 1
  refine (this.congr_deriv ?_).congr_of_eventuallyEq (Eventually.of_forall fun z => ?_)
  · rw [k1]; simp only [← add_assoc, ← add_sub_assoc, ← sub_eq_add_neg]
  · rw [k]; simp only [Pi.sub_apply, Pi.add_apply, ← add_assoc, ← add_sub_assoc, ← sub_eq_add_neg]

theorem hasDerivAt_k1 {y : ℝ} (hy : 0 ≤ y) : HasDerivAt k1 (k2 y) y := by
  have hg := gR_bounds
  have e1 := hasDerivAt_l1 pB (pB_pos hy).ne'
  have e2 := hasDerivAt_l1 pA (pA_pos hy).ne'
  have e3 : HasDerivAt (fun y : ℝ => 1 / (y + 12)) (-1 / (y + 12) ^ 2) y := by
    have h3 : HasDerivAt (fun y : ℝ => y + 12) 1 y := (hasDerivAt_id y).add_const 12
    have := h3.inv (by linarith)
    refine this.congr_of_eventuallyEq (Eventually.of_forall fun z => ?_)
    simp
  have e4 := hasDerivAt_xlog1 (1 / 2) (gR + 1 / 2) (y := y) (by linarith)
  have e5 := hasDerivAt_xlog1 (-(1 / 2)) (gR - 1 / 2) (y := y) (by linarith)
  have := (((e1.sub e2).sub e3).add e4).sub e5
  refine (this.congr_deriv ?_).congr_of_eventuallyEq (Eventually.of_forall fun z => ?_)
  · rw [k2]; ring
  · rw [k1]; simp only [Pi.sub_apply, Pi.add_apply, ← add_assoc, ← add_sub_assoc, ← sub_eq_add_neg]

/-- The algebra of `k''`. -/
theorem k2_alg (a a1 a2 b b1 b2 C U V γ : ℝ) (ha : a ≠ 0) (hb : b ≠ 0) (hC : C ≠ 0) (hU : U ≠ 0) (hV : V ≠ 0) :
    (b2 * b - b1 * b1) / b ^ 2 - (a2 * a - a1 * a1) / a ^ 2 + 1 / C ^ 2 + 2 ^ 27 * (U + γ) / U ^ 2 - 2 ^ 27 * (V + γ) / V ^ 2 =
    (((b2 * b + -1 * (b1 * b1)) * (a * a) + -1 * ((a2 * a + -1 * (a1 * a1)) * (b * b))) * (C * C * (U * U * (V * V))) +
      a * a * (b * b * (U * U * (V * V))) +
      2 ^ 27 * ((U + γ) * (V * V) + -1 * ((V + γ) * (U * U))) * (a * a * (b * b * (C * C)))) /
    (a * a * (b * b * (C * C * (U * U * (V * V))))) := by
  field_simp
  ring

theorem k2_eq {y : ℝ} (hy : 0 ≤ y) : k2 y = peval pT y / peval pD y := by
  have hg := gR_bounds
  have hU : peval pU y = 2 ^ 27 * (y + gR + 1 / 2) := by rw [pU, gR]; simp only [peval_cons, peval_nil]; push_cast; ring
  have hV : peval pV y = 2 ^ 27 * (y + gR - 1 / 2) := by rw [pV, gR]; simp only [peval_cons, peval_nil]; push_cast; ring
  have hC : peval pC y = y + 12 := by rw [pC]; simp only [peval_cons, peval_nil]; push_cast; ring
  have hG : peval pG y = 808618867 := by rw [pG]; simp only [peval_cons, peval_nil]; push_cast; ring
  have c1 : (1 : ℝ) / (y + gR + 1 / 2) + gR / (y + gR + 1 / 2) ^ 2 = 2 ^ 27 * (peval pU y + 808618867) / (peval pU y) ^ 2 := by
    have : y + gR + 1 / 2 ≠ 0 := by linarith
    rw [hU, show (808618867 : ℝ) = 2 ^ 27 * gR by rw [gR]; norm_num]
    field_simp
  have c2 : (1 : ℝ) / (y + gR - 1 / 2) + gR / (y + gR - 1 / 2) ^ 2 = 2 ^ 27 * (peval pV y + 808618867) / (peval pV y) ^ 2 := by
    have : y + gR - 1 / 2 ≠ 0 := by linarith
    rw [hV, show (808618867 : ℝ) = 2 ^ 27 * gR by rw [gR]; norm_num]
    field_simp
  have hU0 : peval pU y ≠ 0 := by rw [hU]; have : 0 < y + gR + 1 / 2 := by linarith
                                  positivity
  have hV0 : peval pV y ≠ 0 := by rw [hV]; have : 0 < y + gR - 1 / 2 := by linarith
                                  positivity
  have hC0 : peval pC y ≠ 0 := by rw [hC]; linarith
  rw [k2, c1, c2, l2, l2, ← hC, k2_alg _ _ _ _ _ _ _ _ _ _ (pA_pos hy).ne' (pB_pos hy).ne' hC0 hU0 hV0]
  simp only [pT, pD, pL, psq, psub, peval_padd, peval_pmul, peval_psmul, hG]
  norm_num

/-- The bounds of `|k''|`, `|k'|`, `|k|`. -/
def w2 (y : ℝ) : ℝ := 6 / 10 ^ 16 / (y + 1) ^ 4 + 1.2 / 10 ^ 13 / (y + 100) ^ 4
def w1 (y : ℝ) : ℝ := 2 / 10 ^ 16 / (y + 1) ^ 3 + 4 / 10 ^ 14 / (y + 100) ^ 3
def w0 (y : ℝ) : ℝ := 1 / 10 ^ 16 / (y + 1) ^ 2 + 2 / 10 ^ 14 / (y + 100) ^ 2

theorem pF_sign (s : ℤ) (hs : s = 1 ∨ s = -1) {y : ℝ} (hy : 0 ≤ y) : 0 ≤ peval (pF s) y := by
  rcases hs with rfl | rfl
  · rcases lt_or_ge y 2000 with h | h
    · exact cells_sound _ 2 (by norm_num) _ _ pF_pos_cells (by push_cast; linarith) (by simp; linarith)
    · exact tail_sound _ 2000 1 pF_pos_tail (by push_cast; linarith)
  · rcases lt_or_ge y 2000 with h | h
    · exact cells_sound _ 2 (by norm_num) _ _ pF_neg_cells (by push_cast; linarith) (by simp; linarith)
    · exact tail_sound _ 2000 1 pF_neg_tail (by push_cast; linarith)

theorem peval_p1 (y : ℝ) : peval p1 y = (y + 1) ^ 4 := by
  simp only [p1, psq, peval_pmul, peval_cons, peval_nil]; push_cast; ring
theorem peval_p100 (y : ℝ) : peval p100 y = (y + 100) ^ 4 := by
  simp only [p100, psq, peval_pmul, peval_cons, peval_nil]; push_cast; ring

theorem pD_pos {y : ℝ} (hy : 0 ≤ y) : 0 < peval pD y := by
  have ha := pA_pos hy
  have hb := pB_pos hy
  have hU : 0 < peval pU y := by rw [pU]; simp only [peval_cons, peval_nil]; push_cast; norm_num; positivity
  have hV : 0 < peval pV y := by rw [pV]; simp only [peval_cons, peval_nil]; push_cast; norm_num; positivity
  have hC : 0 < peval pC y := by rw [pC]; simp only [peval_cons, peval_nil]; push_cast; norm_num; positivity
  simp only [pD, psq, peval_pmul]
  positivity

theorem k2_bound {y : ℝ} (hy : 0 ≤ y) : |k2 y| ≤ w2 y := by
  rw [k2_eq hy]
  have hD := pD_pos hy
  have h1 : 0 < (y + 1) ^ 4 := by positivity
  have h100 : 0 < (y + 100) ^ 4 := by positivity
  have key : ∀ s : ℤ, s = 1 ∨ s = -1 → -(s : ℝ) * (peval pT y / peval pD y) ≤ w2 y := by
    intro s hs
    have := pF_sign s hs hy
    simp only [pF, pW, peval_padd, peval_pmul, peval_psmul, peval_p1, peval_p100] at this
    push_cast at this
    have e : w2 y - -(s : ℝ) * (peval pT y / peval pD y) =
        ((600 * (y + 100) ^ 4 + 120000 * (y + 1) ^ 4) * peval pD y + s * 10 ^ 18 * ((y + 1) ^ 4 * (y + 100) ^ 4 * peval pT y)) /
          (10 ^ 18 * (y + 1) ^ 4 * (y + 100) ^ 4 * peval pD y) := by
      rw [w2]; field_simp; ring
    have h2 : 0 ≤ w2 y - -(s : ℝ) * (peval pT y / peval pD y) := by rw [e]; exact div_nonneg (by norm_num; exact this) (by positivity)
    linarith
  rw [abs_le]
  constructor
  · have := key 1 (Or.inl rfl); push_cast at this; linarith
  · have := key (-1) (Or.inr rfl); push_cast at this; linarith

/-- Integration from infinity. -/
theorem bound_of_deriv {f f' W w : ℝ → ℝ} (hf : ∀ y, 0 ≤ y → HasDerivAt f (f' y) y) (hW : ∀ y, 0 ≤ y → HasDerivAt W (-w y) y)
    (h : ∀ y, 0 ≤ y → |f' y| ≤ w y) (hf0 : Tendsto f atTop (𝓝 0)) (hW0 : Tendsto W atTop (𝓝 0)) {y : ℝ} (hy : 0 ≤ y) :
    |f y| ≤ W y := by
  have key : ∀ s : ℝ, s = 1 ∨ s = -1 → 0 ≤ W y + s * f y := by
    intro s hs
    have hanti : AntitoneOn (fun z => W z + s * f z) (Set.Ici 0) := by
      apply antitoneOn_of_hasDerivWithinAt_nonpos (f' := fun z => -w z + s * f' z) (convex_Ici 0)
      · intro z hz
        exact ((hW z hz).add ((hf z hz).const_mul s)).continuousAt.continuousWithinAt
      · intro z hz
        rw [interior_Ici] at hz ⊢
        exact ((hW z (le_of_lt hz)).add ((hf z (le_of_lt hz)).const_mul s)).hasDerivWithinAt
      · intro z hz
        rw [interior_Ici] at hz
        have := abs_le.1 (h z (le_of_lt hz))
        rcases hs with rfl | rfl <;> linarith [this.1, this.2]
    have hlim : Tendsto (fun z => W z + s * f z) atTop (𝓝 (0 + s * 0)) := hW0.add (hf0.const_mul s)
    rw [mul_zero, add_zero] at hlim
    refine le_of_tendsto hlim ?_
    filter_upwards [eventually_ge_atTop y] with z hz
    exact hanti hy (hy.trans hz : (0 : ℝ) ≤ z) hz
  rw [abs_le]
  have h1 := key 1 (Or.inl rfl)
  have h2 := key (-1) (Or.inr rfl)
  constructor <;> linarith

theorem hasDerivAt_invpow (c s : ℝ) (n : ℕ) {y : ℝ} (h : y + s ≠ 0) :
    HasDerivAt (fun y => c / (y + s) ^ n) (-(c * n / (y + s) ^ (n + 1))) y := by
  have h3 : HasDerivAt (fun y : ℝ => y + s) 1 y := (hasDerivAt_id y).add_const s
  have := (h3.pow n).inv (pow_ne_zero n h) |>.const_mul c
  refine (this.congr_deriv ?_)
  cases n with
  | zero => simp
  | succ n => simp only [Nat.add_sub_cancel, Pi.pow_apply]; field_simp; ring

theorem hasDerivAt_w1 {y : ℝ} (hy : 0 ≤ y) : HasDerivAt w1 (-w2 y) y := by
  refine ((hasDerivAt_invpow (2 / 10 ^ 16) 1 3 (by linarith)).add (hasDerivAt_invpow (4 / 10 ^ 14) 100 3 (by linarith))).congr_deriv ?_
  rw [w2]; push_cast; norm_num; ring

theorem hasDerivAt_w0 {y : ℝ} (hy : 0 ≤ y) : HasDerivAt w0 (-w1 y) y := by
  refine ((hasDerivAt_invpow (1 / 10 ^ 16) 1 2 (by linarith)).add (hasDerivAt_invpow (2 / 10 ^ 14) 100 2 (by linarith))).congr_deriv ?_
  rw [w1]; push_cast; norm_num; ring

theorem tendsto_invpow (c s : ℝ) {n : ℕ} (hn : n ≠ 0) : Tendsto (fun y : ℝ => c / (y + s) ^ n) atTop (𝓝 0) :=
  (tendsto_pow_atTop hn |>.comp (tendsto_atTop_add_const_right atTop s tendsto_id)).const_div_atTop c

theorem tendsto_w1 : Tendsto w1 atTop (𝓝 0) := by
  have := (tendsto_invpow (2 / 10 ^ 16) 1 (n := 3) (by norm_num)).add (tendsto_invpow (4 / 10 ^ 14) 100 (n := 3) (by norm_num))
  rwa [add_zero] at this

theorem tendsto_w0 : Tendsto w0 atTop (𝓝 0) := by
  have := (tendsto_invpow (1 / 10 ^ 16) 1 (n := 2) (by norm_num)).add (tendsto_invpow (2 / 10 ^ 14) 100 (n := 2) (by norm_num))
  rwa [add_zero] at this

end
end Ufunclab.Loggamma1p
