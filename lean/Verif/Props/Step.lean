import Verif.Proof.Step
/-! # Properties C50 (step functions) and C51 (invsmoothstep3) -/
namespace Ufunclab.Step

/-- C50: `step` selects by the position of `x`. -/
theorem C50_step (x a : ℝ) (flow fa fhigh : XF ℝ) :
    (x < a → step (.fin x) (.fin a) flow fa fhigh = flow) ∧
    (x = a → step (.fin x) (.fin a) flow fa fhigh = fa) ∧
    (a < x → step (.fin x) (.fin a) flow fa fhigh = fhigh) := by
  simp only [step, XF.lt_fin, XF.gt_fin, decide_eq_true_eq]
  refine ⟨fun h => by rw [if_pos h], fun h => ?_, fun h => ?_⟩
  · subst h; simp
  · rw [if_neg (not_lt.2 h.le), if_pos h]

/-- C50, special value: `step` does not propagate a NaN abscissa, it returns `fa`. -/
theorem C50_step_nan_violated (a flow fa fhigh : XF ℝ) : step .nan a flow fa fhigh = fa := by
  cases a <;> rfl

/-- What the three interpolating steps have in common; `F` is the function of `x` computed
with the other arguments fixed to the reals `a < b`, `fa`, `fb`. -/
structure IsStep (F : XF ℝ → XF ℝ) (a b fa fb : ℝ) : Prop where
  below : ∀ x, x ≤ a → F (.fin x) = .fin fa
  above : ∀ x, b ≤ x → F (.fin x) = .fin fb
  /-- finite everywhere, weakly between `fa` and `fb`, moving monotonically from one to the other -/
  mono : ∀ x x', x ≤ x' → ∃ t t', 0 ≤ t ∧ t ≤ t' ∧ t' ≤ 1 ∧
    F (.fin x) = .fin (fa + (fb - fa) * t) ∧ F (.fin x') = .fin (fa + (fb - fa) * t')
  /-- point symmetry about the centre of the step -/
  symm : ∀ x, ∃ y, F (.fin x) = .fin y ∧ F (.fin (a + b - x)) = .fin (fa + fb - y)

theorem isStep_of {F : XF ℝ → XF ℝ} {a b fa fb : ℝ} {P : ℝ → ℝ} (h : a < b)
    (hF : ∀ x, F (.fin x) = .fin (fa + (fb - fa) * sat P 0 1 ((x - a) / (b - a))))
    (hm : Monotone (sat P 0 1)) (h0 : P 0 = 0) (h1 : P 1 = 1) (hs : ∀ u, P (1 - u) = 1 - P u) :
    IsStep F a b fa fb := by
  have hd := sub_pos.2 h
  refine ⟨?_, ?_, ?_, ?_⟩
  · intro x hx
    rw [hF, sat, if_pos ((u_le_zero h).2 hx)]; simp
  · intro x hx
    rw [hF, sat]
    have := (one_le_u h).2 hx
    rw [if_neg (not_le.2 (zero_lt_one.trans_le this))]
    rcases this.eq_or_lt with e | l
    · rw [← e]; simp [h1]
    · rw [if_neg (not_le.2 l)]; simp
  · intro x x' hx
    refine ⟨_, _, (sat_range hm _).1, hm ?_, (sat_range hm _).2, hF x, hF x'⟩
    exact div_le_div_of_nonneg_right (by linarith) hd.le
  · intro x
    refine ⟨_, hF x, ?_⟩
    rw [hF, show (a + b - x - a) / (b - a) = 1 - (x - a) / (b - a) by field_simp; ring, sat_symm h0 h1 hs]
    congr 1; ring

/-- C50: linearstep. -/
theorem C50_linearstep (a b fa fb : ℝ) (h : a < b) :
    IsStep (fun x => linearstep x (.fin a) (.fin b) (.fin fa) (.fin fb)) a b fa fb ∧
    ∀ x, a ≤ x → x ≤ b → linearstep (.fin x) (.fin a) (.fin b) (.fin fa) (.fin fb) =
      .fin (fa + (fb - fa) * ((x - a) / (b - a))) := by
  refine ⟨isStep_of h (fun x => linearstep_eq x a b fa fb h) sat1_mono rfl rfl (fun u => rfl), ?_⟩
  intro x h1 h2
  rw [linearstep_eq x a b fa fb h, sat]
  have hd := sub_pos.2 h
  by_cases hx : (x - a) / (b - a) ≤ 0
  · rw [if_pos hx]
    have : (x - a) / (b - a) = 0 := le_antisymm hx (div_nonneg (by linarith) hd.le)
    rw [this]
  · rw [if_neg hx, if_pos (by rw [div_le_one hd]; linarith)]; rfl

/-- C50: smoothstep3 is the cubic between `a` and `b`. -/
theorem C50_smoothstep3 (a b fa fb : ℝ) (h : a < b) :
    IsStep (fun x => smoothstep3 x (.fin a) (.fin b) (.fin fa) (.fin fb)) a b fa fb ∧
    ∀ x, a ≤ x → x ≤ b → let u := (x - a) / (b - a)
      smoothstep3 (.fin x) (.fin a) (.fin b) (.fin fa) (.fin fb) = .fin (fa + (fb - fa) * (3 * u ^ 2 - 2 * u ^ 3)) := by
  refine ⟨isStep_of h (fun x => smoothstep3_eq x a b fa fb h) sat3_mono (by simp [P3]) (by norm_num [P3])
    (fun u => by simp only [P3]; ring), ?_⟩
  intro x h1 h2 u
  rw [smoothstep3_eq x a b fa fb h, sat]
  have hd := sub_pos.2 h
  have hu0 : 0 ≤ u := div_nonneg (by linarith) hd.le
  have hu1 : u ≤ 1 := by rw [div_le_one hd]; linarith
  change XF.fin (fa + (fb - fa) * if u ≤ 0 then 0 else if u ≤ 1 then P3 u else 1) = _
  by_cases hx : u ≤ 0
  · rw [if_pos hx, le_antisymm hx hu0]; simp
  · rw [if_neg hx, if_pos hu1]; congr 3; simp only [P3]; ring

/-- C50: smoothstep5 is the quintic between `a` and `b`. -/
theorem C50_smoothstep5 (a b fa fb : ℝ) (h : a < b) :
    IsStep (fun x => smoothstep5 x (.fin a) (.fin b) (.fin fa) (.fin fb)) a b fa fb ∧
    ∀ x, a ≤ x → x ≤ b → let u := (x - a) / (b - a)
      smoothstep5 (.fin x) (.fin a) (.fin b) (.fin fa) (.fin fb) =
        .fin (fa + (fb - fa) * (6 * u ^ 5 - 15 * u ^ 4 + 10 * u ^ 3)) := by
  refine ⟨isStep_of h (fun x => smoothstep5_eq x a b fa fb h) sat5_mono (by simp [P5]) (by norm_num [P5])
    (fun u => by simp only [P5]; ring), ?_⟩
  intro x h1 h2 u
  rw [smoothstep5_eq x a b fa fb h, sat]
  have hd := sub_pos.2 h
  have hu0 : 0 ≤ u := div_nonneg (by linarith) hd.le
  have hu1 : u ≤ 1 := by rw [div_le_one hd]; linarith
  change XF.fin (fa + (fb - fa) * if u ≤ 0 then 0 else if u ≤ 1 then P5 u else 1) = _
  by_cases hx : u ≤ 0
  · rw [if_pos hx, le_antisymm hx hu0]; simp
  · rw [if_neg hx, if_pos hu1]; congr 3; simp only [P5]; ring

theorem chain_u {S S' : ℝ → ℝ} (hS : ∀ u, HasDerivAt S (S' u) u) (a w fa d x : ℝ) :
    HasDerivAt (fun x => fa + d * S ((x - a) / w)) (d * S' ((x - a) / w) / w) x := by
  have h1 : HasDerivAt (fun x => (x - a) / w) (1 / w) x := ((hasDerivAt_id' x).sub_const a).div_const w
  have h2 := (((hS ((x - a) / w)).comp x h1).const_mul d).const_add fa
  refine h2.congr_deriv ?_
  ring

/-- C50: smoothstep3 is differentiable on the whole line, with derivative 0 at `a` and `b`. -/
theorem C50_smoothstep3_smooth (a b fa fb : ℝ) (h : a < b) :
    ∃ g : ℝ → ℝ, (∀ x, smoothstep3 (.fin x) (.fin a) (.fin b) (.fin fa) (.fin fb) = .fin (g x)) ∧
      Differentiable ℝ g ∧ Continuous g ∧ deriv g a = 0 ∧ deriv g b = 0 := by
  have hS := sat_hasDerivAt P3_deriv 0 1 (by simp [P3]) (by norm_num [P3]) (by simp [P3']) (by simp [P3'])
  have hg := chain_u hS a (b - a) fa (fb - fa)
  refine ⟨_, fun x => smoothstep3_eq x a b fa fb h, fun x => (hg x).differentiableAt,
    (show Differentiable ℝ _ from fun x => (hg x).differentiableAt).continuous, ?_, ?_⟩
  · rw [(hg a).deriv]; simp [sat]
  · rw [(hg b).deriv, div_self (sub_pos.2 h).ne']
    simp [sat, (by norm_num : ¬ (1:ℝ) ≤ 0), P3']

/-- C50: smoothstep5 is twice differentiable on the whole line, with first and second
derivatives 0 at `a` and `b`. -/
theorem C50_smoothstep5_smooth (a b fa fb : ℝ) (h : a < b) :
    ∃ g : ℝ → ℝ, (∀ x, smoothstep5 (.fin x) (.fin a) (.fin b) (.fin fa) (.fin fb) = .fin (g x)) ∧
      Differentiable ℝ g ∧ Differentiable ℝ (deriv g) ∧
      deriv g a = 0 ∧ deriv g b = 0 ∧ deriv (deriv g) a = 0 ∧ deriv (deriv g) b = 0 := by
  have hS := sat_hasDerivAt P5_deriv 0 1 (by simp [P5]) (by norm_num [P5]) (by simp [P5']) (by simp [P5'])
  have hS' := sat_hasDerivAt P5'_deriv 0 0 (by simp [P5']) (by norm_num [P5']) (by simp [P5'']) (by simp [P5''])
  have hg := chain_u hS a (b - a) fa (fb - fa)
  have hg' := fun x => (chain_u hS' a (b - a) 0 (fb - fa) x).div_const (b - a)
  have e : deriv (fun x => fa + (fb - fa) * sat P5 0 1 ((x - a) / (b - a))) =
      fun x => (0 + (fb - fa) * sat P5' 0 0 ((x - a) / (b - a))) / (b - a) := by
    funext x; rw [(hg x).deriv, zero_add]
  refine ⟨_, fun x => smoothstep5_eq x a b fa fb h, fun x => (hg x).differentiableAt, ?_, ?_, ?_, ?_, ?_⟩
  · rw [e]; exact fun x => (hg' x).differentiableAt
  · rw [(hg a).deriv]; simp [sat]
  · rw [(hg b).deriv, div_self (sub_pos.2 h).ne']
    simp [sat, (by norm_num : ¬ (1:ℝ) ≤ 0), P5']
  · rw [e, (hg' a).deriv]; simp [sat]
  · rw [e, (hg' b).deriv, div_self (sub_pos.2 h).ne']
    simp [sat, (by norm_num : ¬ (1:ℝ) ≤ 0), P5'']

/-- C50: `a > b` gives NaN, for every `x`, `fa` and `fb` (also special values). -/
theorem C50_invalid (a b : ℝ) (h : b < a) (x fa fb : XF ℝ) :
    linearstep x (.fin a) (.fin b) fa fb = .nan ∧ smoothstep3 x (.fin a) (.fin b) fa fb = .nan ∧
    smoothstep5 x (.fin a) (.fin b) fa fb = .nan := by
  simp [linearstep, smoothstep3, smoothstep5, h]

/-- C50: `a = b` is a jump: `fa` up to and including `x = a`, `fb` after.  The documented
midpoint value is never produced for a finite `x`. -/
theorem C50_jump (x a : ℝ) (fa fb : XF ℝ) :
    linearstep (.fin x) (.fin a) (.fin a) fa fb = (if x ≤ a then fa else fb) ∧
    smoothstep3 (.fin x) (.fin a) (.fin a) fa fb = (if x ≤ a then fa else fb) ∧
    smoothstep5 (.fin x) (.fin a) (.fin a) fa fb = (if x ≤ a then fa else fb) := by
  simp only [linearstep, smoothstep3, smoothstep5, XF.gt_fin, XF.le_fin, XF.ge_fin, decide_eq_true_eq, lt_irrefl, if_false]
  by_cases h : x ≤ a
  · simp [h]
  · simp [h, (not_le.1 h).le]

/-- C50: a NaN abscissa gives NaN when `a < b` ... -/
theorem C50_nan_partial (a b : ℝ) (h : a < b) (fa fb : XF ℝ) :
    linearstep .nan (.fin a) (.fin b) fa fb = .nan ∧ smoothstep3 .nan (.fin a) (.fin b) fa fb = .nan ∧
    smoothstep5 .nan (.fin a) (.fin b) fa fb = .nan := by
  have n1 : ∀ b : XF ℝ, XF.mul b .nan = .nan := by intro b; cases b <;> rfl
  have n2 : ∀ b : XF ℝ, XF.add b .nan = .nan := by intro b; cases b <;> rfl
  have n3 : ∀ b : XF ℝ, XF.sub .nan b = .nan := by intro b; cases b <;> rfl
  have n4 : ∀ b : XF ℝ, XF.div .nan b = .nan := by intro b; cases b <;> rfl
  have n5 : ∀ b : XF ℝ, XF.mul .nan b = .nan := by intro b; cases b <;> rfl
  have n6 : XF.le .nan (XF.fin a) = false := rfl
  have n7 : XF.ge .nan (XF.fin b) = false := rfl
  simp [linearstep, smoothstep3, smoothstep5, n1, n2, n3, n4, n5, n6, n7, h.le, h.ne]

/-- C50, special value: ... but for `a = b` it gives the midpoint `(fa+fb)/2` instead of NaN. -/
theorem C50_nan_violated (a fa fb : ℝ) :
    linearstep .nan (.fin a) (.fin a) (.fin fa) (.fin fb) = .fin ((fa + fb) / 2) ∧
    smoothstep3 .nan (.fin a) (.fin a) (.fin fa) (.fin fb) = .fin ((fa + fb) / 2) ∧
    smoothstep5 .nan (.fin a) (.fin a) (.fin fa) (.fin fb) = .fin ((fa + fb) / 2) := by
  have n6 : XF.le .nan (XF.fin a) = false := rfl
  have n7 : XF.ge .nan (XF.fin a) = false := rfl
  simp [linearstep, smoothstep3, smoothstep5, n6, n7, XF.div_fin _ (2 : ℝ) two_ne_zero]

/-! ### C51 -/

theorem cubic_solve (t : ℝ) (h0 : 0 ≤ t) (h1 : t ≤ 1) :
    let s := 0.5 - Real.sin (Real.arcsin (1 - 2 * t) / 3)
    0 ≤ s ∧ s ≤ 1 ∧ P3 s = t := by
  intro s
  set θ := Real.arcsin (1 - 2 * t) / 3 with hθ
  have hl : -(Real.pi / 2) ≤ Real.arcsin (1 - 2 * t) := Real.neg_pi_div_two_le_arcsin _
  have hu : Real.arcsin (1 - 2 * t) ≤ Real.pi / 2 := Real.arcsin_le_pi_div_two _
  have hpi := Real.pi_pos
  have h3 : Real.sin (3 * θ) = 1 - 2 * t := by
    rw [hθ, mul_div_cancel₀ _ (by norm_num), Real.sin_arcsin (by linarith) (by linarith)]
  rw [Real.sin_three_mul] at h3
  have b1 : Real.sin θ ≤ 1 / 2 := by
    rw [← Real.sin_pi_div_six]
    apply Real.sin_le_sin_of_le_of_le_pi_div_two <;> linarith
  have b2 : -(1 / 2) ≤ Real.sin θ := by
    rw [← Real.sin_pi_div_six, ← Real.sin_neg]
    apply Real.sin_le_sin_of_le_of_le_pi_div_two <;> linarith
  have hs : s = 1 / 2 - Real.sin θ := by simp only [s, ← hθ]; norm_num
  refine ⟨by rw [hs]; linarith, by rw [hs]; linarith, ?_⟩
  rw [hs]
  simp only [P3]
  linear_combination (-1 / 2) * h3

theorem P3_strictMonoOn {u v : ℝ} (hu : 0 ≤ u) (huv : u < v) (hv : v ≤ 1) : P3 u < P3 v := by
  have : P3 v - P3 u = (v - u) * ((u + v) * (3 - 2 * (u + v)) + 2 * u * v) := by simp only [P3]; ring
  have : 0 < (u + v) * (3 - 2 * (u + v)) + 2 * u * v := by nlinarith
  nlinarith [mul_pos (sub_pos.2 huv) this]

theorem inv_eq (y a b fa fb : ℝ) (hf : fa ≠ fb) (hy : min fa fb ≤ y) (hy' : y ≤ max fa fb) :
    ∃ s, invsmoothstep3 y a b fa fb = .fin (a + (b - a) * s) ∧ 0 ≤ s ∧ s ≤ 1 ∧ fa + (fb - fa) * P3 s = y := by
  have hd : fb - fa ≠ 0 := sub_ne_zero.2 (Ne.symm hf)
  unfold invsmoothstep3
  rw [if_neg hf]
  by_cases h1 : y = fa
  · rw [if_pos h1]; exact ⟨0, by simp, le_rfl, zero_le_one, by simp [P3, h1]⟩
  rw [if_neg h1]
  by_cases h2 : y = fb
  · rw [if_pos h2]; exact ⟨1, by simp, zero_le_one, le_rfl, by rw [h2]; norm_num [P3]⟩
  rw [if_neg h2]
  have hin : ¬ (y > (if fa < fb then fb else fa) ∨ y < if fa < fb then fa else fb) := by
    by_cases hlt : fa < fb
    · rw [if_pos hlt, if_pos hlt]
      rw [min_eq_left hlt.le] at hy; rw [max_eq_right hlt.le] at hy'
      rintro (h | h) <;> linarith
    · rw [if_neg hlt, if_neg hlt]
      rw [min_eq_right (not_lt.1 hlt)] at hy; rw [max_eq_left (not_lt.1 hlt)] at hy'
      rintro (h | h) <;> linarith
  simp only
  rw [if_neg hin]
  have ht0 : 0 ≤ (y - fa) / (fb - fa) := by
    rcases lt_or_gt_of_ne hf with h | h
    · rw [min_eq_left h.le] at hy; exact div_nonneg (by linarith) (by linarith)
    · rw [max_eq_left h.le] at hy'; exact div_nonneg_of_nonpos (by linarith) (by linarith)
  have ht1 : (y - fa) / (fb - fa) ≤ 1 := by
    rcases lt_or_gt_of_ne hf with h | h
    · rw [max_eq_right h.le] at hy'; rw [div_le_one (by linarith)]; linarith
    · rw [min_eq_right h.le] at hy; rw [div_le_one_of_neg (by linarith)]; linarith
  obtain ⟨p, q, r⟩ := cubic_solve _ ht0 ht1
  refine ⟨_, rfl, p, q, ?_⟩
  rw [r]; field_simp; ring

theorem smoothstep3_affine (a b fa fb s : ℝ) (h : a < b) (h0 : 0 ≤ s) (h1 : s ≤ 1) :
    smoothstep3 (.fin (a + (b - a) * s)) (.fin a) (.fin b) (.fin fa) (.fin fb) = .fin (fa + (fb - fa) * P3 s) := by
  have hd := sub_pos.2 h
  rw [smoothstep3_eq _ a b fa fb h, add_sub_cancel_left, mul_div_cancel_left₀ _ hd.ne', sat]
  by_cases hs : s ≤ 0
  · rw [if_pos hs, le_antisymm hs h0]; simp [P3]
  · rw [if_neg hs, if_pos h1]

/-- C51: right inverse: `smoothstep3(invsmoothstep3(y)) = y` for `y` between `fa` and `fb`
(in either order), and the inverse lies in `[a, b]`. -/
theorem C51_right_inverse (y a b fa fb : ℝ) (h : a < b) (hf : fa ≠ fb) (hy : min fa fb ≤ y) (hy' : y ≤ max fa fb) :
    ∃ x, a ≤ x ∧ x ≤ b ∧ invsmoothstep3 y a b fa fb = .fin x ∧
      smoothstep3 (.fin x) (.fin a) (.fin b) (.fin fa) (.fin fb) = .fin y := by
  obtain ⟨s, e, h0, h1, h2⟩ := inv_eq y a b fa fb hf hy hy'
  have hd := sub_pos.2 h
  refine ⟨_, ?_, ?_, e, ?_⟩
  · nlinarith
  · nlinarith
  · rw [smoothstep3_affine a b fa fb s h h0 h1, h2]

/-- C51: left inverse: `invsmoothstep3(smoothstep3(x)) = x` for `x` in `[a, b]`. -/
theorem C51_left_inverse (x a b fa fb : ℝ) (h : a < b) (hf : fa ≠ fb) (hx : a ≤ x) (hx' : x ≤ b) :
    ∃ y, smoothstep3 (.fin x) (.fin a) (.fin b) (.fin fa) (.fin fb) = .fin y ∧
      invsmoothstep3 y a b fa fb = .fin x := by
  have hd := sub_pos.2 h
  set u := (x - a) / (b - a) with hu
  have hu0 : 0 ≤ u := div_nonneg (by linarith) hd.le
  have hu1 : u ≤ 1 := by rw [hu, div_le_one hd]; linarith
  have ex : a + (b - a) * u = x := by rw [hu]; field_simp; ring
  have es := smoothstep3_affine a b fa fb u h hu0 hu1
  rw [ex] at es
  refine ⟨_, es, ?_⟩
  have hP0 : 0 ≤ P3 u := by simp only [P3]; have : 0 ≤ 3 - 2 * u := by linarith
                            positivity
  have hP1 : P3 u ≤ 1 := by
    rcases hu1.eq_or_lt with e | l
    · rw [e]; norm_num [P3]
    · have := P3_strictMonoOn hu0 l le_rfl
      norm_num [P3] at this ⊢; linarith
  have hlo : min fa fb ≤ fa + (fb - fa) * P3 u := by
    rcases le_total fa fb with o | o
    · rw [min_eq_left o]; nlinarith [mul_nonneg (sub_nonneg.2 o) hP0]
    · rw [min_eq_right o]; nlinarith [mul_nonneg (sub_nonneg.2 o) (sub_nonneg.2 hP1)]
  have hhi : fa + (fb - fa) * P3 u ≤ max fa fb := by
    rcases le_total fa fb with o | o
    · rw [max_eq_right o]; nlinarith [mul_nonneg (sub_nonneg.2 o) (sub_nonneg.2 hP1)]
    · rw [max_eq_left o]; nlinarith [mul_nonneg (sub_nonneg.2 o) hP0]
  obtain ⟨s, e, h0, h1, h2⟩ := inv_eq _ a b fa fb hf hlo hhi
  have hs : P3 s = P3 u := by
    have : (fb - fa) * P3 s = (fb - fa) * P3 u := by linarith
    exact mul_left_cancel₀ (sub_ne_zero.2 (Ne.symm hf)) this
  have : s = u := by
    rcases lt_trichotomy s u with l | l | l
    · exact absurd hs (P3_strictMonoOn h0 l hu1).ne
    · exact l
    · exact absurd hs.symm (P3_strictMonoOn hu0 l h1).ne
  rw [e, this, ex]

/-- C51: outside the range, and for `fa = fb`, the result is NaN. -/
theorem C51_outside (y a b fa fb : ℝ) (h : fa = fb ∨ y < min fa fb ∨ max fa fb < y) :
    invsmoothstep3 y a b fa fb = .nan := by
  unfold invsmoothstep3
  by_cases hf : fa = fb
  · rw [if_pos hf]
  rw [if_neg hf]
  have h' := h.resolve_left hf
  have h1 : y ≠ fa := by
    rintro rfl
    rcases h' with h | h
    · exact absurd h (not_lt.2 (min_le_left _ _))
    · exact absurd h (not_lt.2 (le_max_left _ _))
  have h2 : y ≠ fb := by
    rintro rfl
    rcases h' with h | h
    · exact absurd h (not_lt.2 (min_le_right _ _))
    · exact absurd h (not_lt.2 (le_max_right _ _))
  rw [if_neg h1, if_neg h2]
  simp only
  rw [if_pos]
  by_cases hlt : fa < fb
  · rw [if_pos hlt, if_pos hlt]
    rw [min_eq_left hlt.le, max_eq_right hlt.le] at h'
    exact h'.symm
  · rw [if_neg hlt, if_neg hlt]
    rw [min_eq_right (not_lt.1 hlt), max_eq_left (not_lt.1 hlt)] at h'
    exact h'.symm

/-! ### Non-vacuity: the centre of the step from 10 at x=0 to 20 at x=4 -/
example : smoothstep3 (.fin 2) (.fin 0) (.fin 4) (.fin 10) (.fin 20) = .fin 15 := by
  rw [(C50_smoothstep3 0 4 10 20 (by norm_num)).2 2 (by norm_num) (by norm_num)]; norm_num
example : ∃ x, 0 ≤ x ∧ x ≤ 4 ∧ invsmoothstep3 12 0 4 10 20 = .fin x ∧
    smoothstep3 (.fin x) (.fin 0) (.fin 4) (.fin 10) (.fin 20) = .fin 12 :=
  C51_right_inverse 12 0 4 10 20 (by norm_num) (by norm_num) (by norm_num) (by norm_num)

end Ufunclab.Step
