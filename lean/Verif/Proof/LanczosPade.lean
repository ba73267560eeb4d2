import Verif.Proof.LanczosGamma
import Verif.Proof.Logfact
/-!
# The Padé approximant of `log Γ(1+x)` on `(-1/4, 0.901)`
-/
namespace Ufunclab.Loggamma1p
open Ufunclab.Debye1 Ufunclab.PolyPos Real Filter Topology

noncomputable section

def pade (x : ℝ) : ℝ := peval pP x / peval pQ x

theorem peval_pS (x : ℝ) : peval pS x = peval pDen (x + 1) := by
  have h1 : pDen = [0, 39916800, 120543840, 150917976, 105258076, 45995730, 13339535, 2637558, 357423, 32670, 1925, 66, 1] := by
    decide +kernel
  have h2 : pS = [479001600, 1486442880, 1931559552, 1414014888, 657206836, 206070150, 44990231, 6926634, 749463, 55770, 2717, 78, 1] := by
    decide +kernel
  rw [h1, h2]
  simp only [peval_cons, peval_nil]
  push_cast
  ring

/-- The formula minus the approximant, up to constants. -/
def h0 (x : ℝ) : ℝ := log (peval pB x) - log (peval pS x) + ((x + 1 / 2) * log (x + gR + 1 / 2) - x) - pade x

def h1 (x : ℝ) : ℝ :=
  peval (pder pB) x / peval pB x - peval (pder pS) x / peval pS x + (log (x + gR + 1 / 2) + (x + 1 / 2) / (x + gR + 1 / 2) - 1) -
    (peval (pder pP) x * peval pQ x - peval pP x * peval (pder pQ) x) / (peval pQ x) ^ 2

def h2 (x : ℝ) : ℝ :=
  l2 pB x - l2 pS x + (1 / (x + gR + 1 / 2) + gR / (x + gR + 1 / 2) ^ 2) - peval pPade x / (peval pQ x) ^ 3

theorem pQ_pos {x : ℝ} (hx : -1 / 4 ≤ x) : 0 < peval pQ x := by
  have e : peval (comp (-1) 1 4 0 pQ).1 (4 * x + 1) * 4 = peval (comp (-1) 1 4 0 pQ).2 (4 * x + 1) * peval pQ x := by
    have := comp_eval (-1) 1 4 0 pQ (t := 4 * x + 1) (y := x) (by push_cast; ring)
    push_cast at this
    linarith
  have h1 : 0 < peval (comp (-1) 1 4 0 pQ).1 (4 * x + 1) := peval_pos (by decide +kernel) (by decide +kernel) (by linarith)
  have h2 := comp_pos (-1) 1 4 0 pQ (t := 4 * x + 1) (by norm_num)
  have h3 : 0 < peval (comp (-1) 1 4 0 pQ).2 (4 * x + 1) * peval pQ x := by rw [← e]; linarith
  exact (mul_pos_iff_of_pos_left h2).1 h3

theorem pB_pos' {x : ℝ} (hx : -1 < x) : 0 < peval pB x := by rw [peval_pB]; exact pA_pos (by linarith)
theorem pS_pos {x : ℝ} (hx : -1 < x) : 0 < peval pS x := by rw [peval_pS]; exact pDen_pos (by linarith)

theorem hasDerivAt_pade {x : ℝ} (hx : -1 / 4 ≤ x) :
    HasDerivAt pade ((peval (pder pP) x * peval pQ x - peval pP x * peval (pder pQ) x) / (peval pQ x) ^ 2) x :=
  (hasDerivAt_peval pP x).div (hasDerivAt_peval pQ x) (pQ_pos hx).ne'

theorem hasDerivAt_pade1 {x : ℝ} (hx : -1 / 4 ≤ x) :
    HasDerivAt (fun x => (peval (pder pP) x * peval pQ x - peval pP x * peval (pder pQ) x) / (peval pQ x) ^ 2)
      (peval pPade x / (peval pQ x) ^ 3) x := by
  have hq := pQ_pos hx
  have d1 := ((hasDerivAt_peval (pder pP) x).mul (hasDerivAt_peval pQ x)).sub ((hasDerivAt_peval pP x).mul (hasDerivAt_peval (pder pQ) x))
  have d2 := (hasDerivAt_peval pQ x).pow 2
  have := d1.div d2 (pow_pos hq 2).ne'
  refine (this.congr_deriv ?_)
  simp only [pPade, psub, peval_padd, peval_pmul, peval_psmul, Pi.mul_apply, Pi.sub_apply, Pi.pow_apply]
  push_cast
  field_simp
  ring

theorem hasDerivAt_h0 {x : ℝ} (hx : -1 / 4 ≤ x) : HasDerivAt h0 (h1 x) x := by
  have hg := gR_bounds
  have e1 := hasDerivAt_log_peval pB (pB_pos' (x := x) (by linarith)).ne'
  have e2 := hasDerivAt_log_peval pS (pS_pos (x := x) (by linarith)).ne'
  have e4 := (hasDerivAt_xlog (1 / 2) (gR + 1 / 2) (y := x) (by linarith)).sub (hasDerivAt_id x)
  have := ((e1.sub e2).add e4).sub (hasDerivAt_pade hx)
  refine (this.congr_deriv ?_).congr_of_eventuallyEq (Eventually.of_forall fun z => ?_)
  · rw [h1]; simp only [← add_assoc]
  · rw [h0]; simp only [Pi.sub_apply, Pi.add_apply, ← add_assoc, id]

theorem hasDerivAt_h1 {x : ℝ} (hx : -1 / 4 ≤ x) : HasDerivAt h1 (h2 x) x := by
  have hg := gR_bounds
  have e1 := hasDerivAt_l1 pB (pB_pos' (x := x) (by linarith)).ne'
  have e2 := hasDerivAt_l1 pS (pS_pos (x := x) (by linarith)).ne'
  have e4 := (hasDerivAt_xlog1 (1 / 2) (gR + 1 / 2) (y := x) (by linarith)).sub_const 1
  have := ((e1.sub e2).add e4).sub (hasDerivAt_pade1 hx)
  refine (this.congr_deriv ?_).congr_of_eventuallyEq (Eventually.of_forall fun z => ?_)
  · rw [h2]; ring
  · rw [h1]; simp only [Pi.sub_apply, Pi.add_apply, ← add_assoc]

theorem h2_alg (b b1 b2 s s1 s2 U q T γ : ℝ) (hb : b ≠ 0) (hs : s ≠ 0) (hU : U ≠ 0) (hq : q ≠ 0) :
    (b2 * b - b1 * b1) / b ^ 2 - (s2 * s - s1 * s1) / s ^ 2 + 2 ^ 27 * (U + γ) / U ^ 2 - T / q ^ 3 =
    ((b2 * b + -1 * (b1 * b1)) * (s * s * (U * U * (q * (q * q)))) + -1 * ((s2 * s + -1 * (s1 * s1)) * (b * b * (U * U * (q * (q * q))))) +
      2 ^ 27 * (U + γ) * (b * b * (s * s * (q * (q * q)))) + -1 * (T * (b * b * (s * s * (U * U))))) /
    (b * b * (s * s * (U * U * (q * (q * q))))) := by
  field_simp
  ring

theorem h2_eq {x : ℝ} (hx : -1 / 4 ≤ x) : h2 x = peval pT2 x / peval pD2 x := by
  have hg := gR_bounds
  have hU : peval pU x = 2 ^ 27 * (x + gR + 1 / 2) := by rw [pU, gR]; simp only [peval_cons, peval_nil]; push_cast; ring
  have hG : peval pG x = 808618867 := by rw [pG]; simp only [peval_cons, peval_nil]; push_cast; ring
  have hp : 0 < x + gR + 1 / 2 := by linarith
  have c1 : (1 : ℝ) / (x + gR + 1 / 2) + gR / (x + gR + 1 / 2) ^ 2 = 2 ^ 27 * (peval pU x + 808618867) / (peval pU x) ^ 2 := by
    have := hp.ne'
    rw [hU, show (808618867 : ℝ) = 2 ^ 27 * gR by rw [gR]; norm_num]
    field_simp
  have hU0 : peval pU x ≠ 0 := by rw [hU]; positivity
  rw [h2, c1, l2, l2, h2_alg _ _ _ _ _ _ _ _ _ _ (pB_pos' (by linarith)).ne' (pS_pos (by linarith)).ne' hU0 (pQ_pos hx).ne']
  simp only [pT2, pD2, pQ3, pL, psq, psub, peval_padd, peval_pmul, peval_psmul, hG]
  norm_num

theorem pD2_pos {x : ℝ} (hx : -1 / 4 ≤ x) : 0 < peval pD2 x := by
  have hb := pB_pos' (x := x) (by linarith)
  have hs := pS_pos (x := x) (by linarith)
  have hq := pQ_pos hx
  have hU : 0 < peval pU x := by rw [pU]; simp only [peval_cons, peval_nil]; push_cast; norm_num; linarith
  simp only [pD2, pQ3, psq, peval_pmul]
  positivity

/-- The bounds of `|h''|`: `wneg` for negative, `wpos` for positive `x`. -/
def wneg (x : ℝ) : ℝ := 1 / 10 ^ 16 - 9 / 10 ^ 15 * x + 3.4 / 10 ^ 12 * x ^ 4
def wpos (x : ℝ) : ℝ := 2 / 10 ^ 16 + 1.1 / 10 ^ 14 * x ^ 8

theorem h2_of_cells {w : List ℤ} {x : ℝ} (hx : -1 / 4 ≤ x) (hp : 0 ≤ peval (pF2 w 1) x) (hn : 0 ≤ peval (pF2 w (-1)) x) :
    |h2 x| ≤ peval w x / 10 ^ 20 := by
  have hD := pD2_pos hx
  rw [h2_eq hx]
  simp only [pF2, peval_padd, peval_pmul, peval_psmul] at hp hn
  push_cast at hp hn
  rw [abs_div, abs_of_pos hD, div_le_div_iff₀ hD (by positivity)]
  rcases abs_cases (peval pT2 x) with ⟨e, _⟩ | ⟨e, _⟩ <;> rw [e] <;> linarith

theorem h2_neg {x : ℝ} (hx : -1 / 4 ≤ x) (hx2 : x ≤ 0) : |h2 x| ≤ wneg x := by
  have := h2_of_cells (w := pWneg) hx
    (cell_sound _ _ _ _ _ pF2_neg1 (by push_cast; linarith) (by push_cast; linarith))
    (cell_sound _ _ _ _ _ pF2_neg2 (by push_cast; linarith) (by push_cast; linarith))
  refine this.trans (le_of_eq ?_)
  rw [wneg, pWneg]; simp only [peval_cons, peval_nil]; push_cast; ring

theorem h2_pos {x : ℝ} (hx : 0 ≤ x) (hx2 : x < 0.901) : |h2 x| ≤ wpos x := by
  have := h2_of_cells (w := pWpos) (x := x) (by linarith)
    (cell_sound _ _ _ _ _ pF2_pos1 (by push_cast; linarith) (by push_cast; norm_num at hx2 ⊢; linarith))
    (cell_sound _ _ _ _ _ pF2_pos2 (by push_cast; linarith) (by push_cast; norm_num at hx2 ⊢; linarith))
  refine this.trans (le_of_eq ?_)
  rw [wpos, pWpos]; simp only [peval_cons, peval_nil]; push_cast; ring

/-! ### The slope at zero -/

theorem log_g : |log (gR + 1 / 2) - 1.875591916110171586942| ≤ 1e-19 := by
  have h6 := abs_le.1 Logfact.log6
  have eq : gR + 1 / 2 = 875727731 / 2 ^ 27 := by rw [gR]; norm_num
  have r1 := Logfact.log_ratio (875727731 / 2 ^ 27) (70421363 / 1681034099) (by norm_num) (by norm_num)
  have s := Logfact.log_series 7 (70421363 / 1681034099) (by norm_num) (by norm_num)
  rw [← r1, Logfact.psum] at s
  simp only [Finset.sum_range_succ, Finset.sum_range_zero] at s
  rw [eq, abs_le]
  constructor <;> norm_num at s h6 ⊢ <;> linarith [s.1, s.2, h6.1, h6.2]

theorem head_eval (p : List ℤ) : peval p 0 = (p.headD 0 : ℤ) := by cases p <;> simp

theorem h1_zero : |h1 0| ≤ 4 / 10 ^ 17 := by
  have hl := abs_le.1 log_g
  rw [h1, head_eval, head_eval, head_eval, head_eval, head_eval, head_eval, head_eval, head_eval]
  have e1 : (pder pB).headD 0 = 2012015985709955688679959612414898784159986003783501757280996 := by decide +kernel
  have e2 : pB.headD 0 = 1278468088654611792244722597473223626333244731066736494646508 := by decide +kernel
  have e3 : (pder pS).headD 0 = 1486442880 := by decide +kernel
  have e4 : pS.headD 0 = 479001600 := by decide +kernel
  have e5 : (pder pP).headD 0 = -5772156649015329000000 := by decide +kernel
  have e6 : pP.headD 0 = 0 := by decide +kernel
  have e7 : pQ.headD 0 = 10000000000000000000000 := by decide +kernel
  rw [e1, e2, e3, e4, e5, e6, e7, zero_add]
  have e : (0 + 1 / 2 : ℝ) / (gR + 1 / 2) = 67108864 / 875727731 := by rw [gR]; norm_num
  rw [e, abs_le]
  push_cast
  constructor <;> norm_num at hl ⊢ <;> linarith [hl.1, hl.2]

/-! ### Integration -/

theorem diff_bound {f f' W w : ℝ → ℝ} {a b : ℝ} (hab : a ≤ b) (hf : ∀ z ∈ Set.Icc a b, HasDerivAt f (f' z) z)
    (hW : ∀ z ∈ Set.Icc a b, HasDerivAt W (w z) z) (h : ∀ z ∈ Set.Icc a b, |f' z| ≤ w z) : |f b - f a| ≤ W b - W a := by
  have key : ∀ s : ℝ, s = 1 ∨ s = -1 → W a + s * f a ≤ W b + s * f b := by
    intro s hs
    have hmono : MonotoneOn (fun z => W z + s * f z) (Set.Icc a b) := by
      apply monotoneOn_of_hasDerivWithinAt_nonneg (f' := fun z => w z + s * f' z) (convex_Icc a b)
      · intro z hz
        exact ((hW z hz).continuousAt.add ((hf z hz).continuousAt.const_mul s)).continuousWithinAt
      · intro z hz
        rw [interior_Icc] at hz
        have hz' : z ∈ Set.Icc a b := ⟨hz.1.le, hz.2.le⟩
        exact ((hW z hz').add ((hf z hz').const_mul s)).hasDerivWithinAt
      · intro z hz
        rw [interior_Icc] at hz
        have := abs_le.1 (h z ⟨hz.1.le, hz.2.le⟩)
        rcases hs with rfl | rfl <;> linarith [this.1, this.2]
    exact hmono ⟨le_rfl, hab⟩ ⟨hab, le_rfl⟩ hab
  have h1 := key 1 (Or.inl rfl)
  have h2 := key (-1) (Or.inr rfl)
  rw [abs_le]; constructor <;> linarith

theorem h1_pos {x : ℝ} (hx : 0 ≤ x) (hx2 : x < 0.901) : |h1 x| ≤ 4 / 10 ^ 17 + (2 / 10 ^ 16 * x + 1.1 / 10 ^ 14 * (x ^ 9 / 9)) := by
  have := diff_bound (f := h1) (f' := h2) (W := fun x => 2 / 10 ^ 16 * x + 1.1 / 10 ^ 14 * (x ^ 9 / 9)) (w := wpos) hx
    (fun z hz => hasDerivAt_h1 (by linarith [hz.1]))
    (fun z _ => by
      refine (((hasDerivAt_id z).const_mul _).add ((((hasDerivAt_id z).pow 9).div_const 9).const_mul _)).congr_deriv ?_
      rw [wpos]; simp only [id]; push_cast; ring)
    (fun z hz => h2_pos hz.1 (lt_of_le_of_lt hz.2 hx2))
  have h0 := abs_le.1 h1_zero
  have := abs_le.1 this
  norm_num at this
  rw [abs_le]; constructor <;> linarith [this.1, this.2, h0.1, h0.2]

theorem h1_neg {x : ℝ} (hx : -1 / 4 ≤ x) (hx2 : x ≤ 0) :
    |h1 x| ≤ 4 / 10 ^ 17 - 1 / 10 ^ 16 * x + 9 / 10 ^ 15 * (x ^ 2 / 2) - 3.4 / 10 ^ 12 * (x ^ 5 / 5) := by
  have := diff_bound (f := h1) (f' := h2) (W := fun x => 1 / 10 ^ 16 * x - 9 / 10 ^ 15 * (x ^ 2 / 2) + 3.4 / 10 ^ 12 * (x ^ 5 / 5)) (w := wneg) hx2
    (fun z hz => hasDerivAt_h1 (hx.trans hz.1))
    (fun z _ => by
      refine ((((hasDerivAt_id z).const_mul _).sub ((((hasDerivAt_id z).pow 2).div_const 2).const_mul _)).add
        ((((hasDerivAt_id z).pow 5).div_const 5).const_mul _)).congr_deriv ?_
      rw [wneg]; simp only [id]; push_cast; ring)
    (fun z hz => h2_neg (hx.trans hz.1) hz.2)
  have h0 := abs_le.1 h1_zero
  have := abs_le.1 this
  norm_num at this
  rw [abs_le]; constructor <;> linarith [this.1, this.2, h0.1, h0.2]

theorem h0_pos {x : ℝ} (hx : 0 ≤ x) (hx2 : x < 0.901) : |h0 x - h0 0| ≤ 1.9 / 10 ^ 16 * x := by
  have := diff_bound (f := h0) (f' := h1) (W := fun x => 4 / 10 ^ 17 * x + 1 / 10 ^ 16 * x ^ 2 + 1.1 / 10 ^ 14 * (x ^ 10 / 90))
    (w := fun x => 4 / 10 ^ 17 + (2 / 10 ^ 16 * x + 1.1 / 10 ^ 14 * (x ^ 9 / 9))) hx
    (fun z hz => hasDerivAt_h0 (by linarith [hz.1]))
    (fun z _ => by
      refine ((((hasDerivAt_id z).const_mul _).add (((hasDerivAt_id z).pow 2).const_mul _)).add
        ((((hasDerivAt_id z).pow 10).div_const 90).const_mul _)).congr_deriv ?_
      simp only [id]; push_cast; ring)
    (fun z hz => h1_pos hz.1 (lt_of_le_of_lt hz.2 hx2))
  refine this.trans ?_
  have a1 : x ^ 2 ≤ 0.901 * x := by nlinarith
  have a2 : x ^ 10 ≤ 0.901 ^ 9 * x := by
    rw [pow_succ x 9]; exact mul_le_mul_of_nonneg_right (pow_le_pow_left₀ hx hx2.le 9) hx
  norm_num at a1 a2 ⊢
  linarith

theorem h0_neg {x : ℝ} (hx : -1 / 4 ≤ x) (hx2 : x ≤ 0) : |h0 x - h0 0| ≤ 2.65 / 10 ^ 16 * (-x) := by
  have := diff_bound (f := h0) (f' := h1)
    (W := fun x => 4 / 10 ^ 17 * x - 1 / 10 ^ 16 * (x ^ 2 / 2) + 9 / 10 ^ 15 * (x ^ 3 / 6) - 3.4 / 10 ^ 12 * (x ^ 6 / 30))
    (w := fun x => 4 / 10 ^ 17 - 1 / 10 ^ 16 * x + 9 / 10 ^ 15 * (x ^ 2 / 2) - 3.4 / 10 ^ 12 * (x ^ 5 / 5)) hx2
    (fun z hz => hasDerivAt_h0 (hx.trans hz.1))
    (fun z _ => by
      refine (((((hasDerivAt_id z).const_mul _).sub ((((hasDerivAt_id z).pow 2).div_const 2).const_mul _)).add
        ((((hasDerivAt_id z).pow 3).div_const 6).const_mul _)).sub ((((hasDerivAt_id z).pow 6).div_const 30).const_mul _)).congr_deriv ?_
      simp only [id]; push_cast; ring)
    (fun z hz => h1_neg (hx.trans hz.1) hz.2)
  rw [abs_sub_comm]
  refine this.trans ?_
  obtain ⟨t, rfl⟩ : ∃ t, x = -t := ⟨-x, by ring⟩
  have ht : 0 ≤ t := by linarith
  have ht2 : t ≤ 1 / 4 := by linarith
  have a1 : t ^ 2 ≤ 1 / 4 * t := by nlinarith
  have a2 : t ^ 3 ≤ (1 / 4) ^ 2 * t := by
    rw [pow_succ t 2]; exact mul_le_mul_of_nonneg_right (pow_le_pow_left₀ ht ht2 2) ht
  have a3 : t ^ 6 ≤ (1 / 4) ^ 5 * t := by
    rw [pow_succ t 5]; exact mul_le_mul_of_nonneg_right (pow_le_pow_left₀ ht ht2 5) ht
  norm_num [Even.neg_pow, Odd.neg_pow, show Odd 3 by decide, show Even 6 by decide] at a1 a2 a3 ⊢
  linarith

/-- `h0` is Lanczos's formula for `log Γ(1+x)` less the approximant, up to a constant. -/
theorem h0_Lam {x : ℝ} (hx : -1 < x) : h0 x - h0 0 = Lam (1 + x) - Lam 1 - (pade x - pade 0) := by
  rw [Lam_log (by linarith), Lam_log one_pos, h0, h0, peval_pB, peval_pS, peval_pB, peval_pS,
    show x + gR + 1 / 2 = 1 + x + gR - 1 / 2 by ring, show (0 : ℝ) + gR + 1 / 2 = 1 + gR - 1 / 2 by ring, add_comm x 1, zero_add]
  ring

theorem pade_zero : pade 0 = 0 := by
  rw [pade, head_eval, show pP.headD 0 = 0 by decide +kernel]; simp

/-- The approximant against the gamma function. -/
theorem pade_gamma {x : ℝ} (hx : -1 / 4 ≤ x) (hx2 : x < 0.901) : |pade x - log (Gamma (1 + x))| ≤ 3.35 / 10 ^ 16 * |x| := by
  have e := h0_Lam (x := x) (by linarith)
  rw [pade_zero] at e
  rcases le_total 0 x with h | h
  · have a := abs_le.1 (h0_pos h hx2)
    have b := abs_le.1 (Lam_gamma_lip one_pos (show (1 : ℝ) ≤ 1 + x by linarith))
    rw [Gamma_one, log_one] at b
    have c : v1 1 * (1 + x - 1) ≤ 0.7 / 10 ^ 16 * x := by
      rw [add_sub_cancel_left]; apply mul_le_mul_of_nonneg_right _ h; rw [v1]; norm_num
    rw [abs_of_nonneg h, abs_le]
    constructor <;> linarith [a.1, a.2, b.1, b.2]
  · have a := abs_le.1 (h0_neg hx h)
    have b := abs_le.1 (Lam_gamma_lip (show (0 : ℝ) < 1 + x by linarith) (show 1 + x ≤ 1 by linarith))
    rw [Gamma_one, log_one] at b
    have c : v1 (1 + x) * (1 - (1 + x)) ≤ 0.7 / 10 ^ 16 * (-x) := by
      rw [show (1 : ℝ) - (1 + x) = -x by ring]
      apply mul_le_mul_of_nonneg_right _ (by linarith)
      have b1 : 1 / (1 + x + 1 / 2) ^ 2 ≤ 1 / (5 / 4 : ℝ) ^ 2 := by
        apply one_div_le_one_div_of_le (by norm_num); apply pow_le_pow_left₀ <;> linarith
      have b2 : 1 / (1 + x + 199 / 2) ^ 2 ≤ 1 / (100 : ℝ) ^ 2 := by
        apply one_div_le_one_div_of_le (by norm_num); apply pow_le_pow_left₀ <;> linarith
      rw [v1, div_eq_mul_one_div _ ((1 + x + 1 / 2) ^ 2), div_eq_mul_one_div _ ((1 + x + 199 / 2) ^ 2)]
      norm_num at b1 b2 ⊢
      linarith
    rw [abs_of_nonpos h, abs_le]
    constructor <;> linarith [a.1, a.2, b.1, b.2]

end
end Ufunclab.Loggamma1p
