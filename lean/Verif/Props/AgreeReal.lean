import Verif.Props.Vnorm
import Verif.Props.Elementary
import Verif.Props.TriArea
import Verif.Props.Cross
import Verif.Props.Kbnsum
import Verif.Props.Meanvar
import Verif.Props.Means
import Verif.Props.Corr
import Verif.Props.LinearInterp
import Verif.Props.Step
import Verif.Props.Deadzone
import Verif.Props.Logistic
import Verif.Props.Softmax
import Verif.Props.YeoJohnson
import Verif.Props.Signal
import Verif.Props.Fillnan
import Verif.Props.Logfact
import Verif.Props.Loggamma1p
import Verif.Props.Gendot
/-!
# C122: functions of different modules agree (exact arithmetic)

The models of the two sides are of different source files; the arithmetic is that of the real numbers,
so these are the identities that the results of two calls satisfy up to rounding.
-/
namespace Ufunclab.Agree
open Real

theorem sum_elems {α : Type} [AddCommMonoid α] {β : Type} (f : β → α) (m : Mem β) (p s : Int) (n : Nat) :
    ((elems m p s n).map f).sum = ∑ i ∈ Finset.range n, f (get m p s i) := by
  induction n with
  | zero => simp [elems]
  | succ n ih =>
    rw [Finset.sum_range_succ, ← ih]
    simp [elems, List.range_succ]

theorem vnorm_two (x : List ℝ) : Vnorm.vnorm (fun v : ℝ => .fin |v|) x (.fin 2) = .fin (√((x.map fun v => v ^ 2).sum)) := by
  rw [Vnorm.C41_pnorm _ _ 2 two_pos (fun v _ => abs_nonneg v), Real.sqrt_eq_rpow]
  simp

/-- `vnorm(x, 2)` is the square root of `vdot(x, x)`, and `rms(x)` is `vnorm(x, 2) / sqrt(n)`. -/
theorem C122_vnorm_vdot_rms (m : Mem ℝ) (w p s out : Int) (n : Nat) (hn : 0 < n) (hout : ∀ i < n, p + (i : Int) * s ≠ out) :
    Vnorm.vnorm (fun v : ℝ => .fin |v|) (elems m p s n) (.fin 2) = .fin (√(Vnorm.vdot m w p s p s n)) ∧
    Vnorm.vnorm (fun v : ℝ => .fin |v|) (elems m p s n) (.fin 2) =
      .fin (Vnorm.rms (fun a k => √(a / (k : ℝ))) m w p s out n out * √n) := by
  rw [vnorm_two, sum_elems]
  constructor
  · rw [Vnorm.C42_vdot_sum]
    simp only [sq]
  · obtain ⟨h0, h1, -⟩ := Vnorm.C42_rms m w p s out n hn hout
    rw [← h1, Real.sqrt_mul (Nat.cast_nonneg n), Real.sqrt_sq h0, mul_comm]

/-- `hypot3(x, y, z)` is `vnorm([x, y, z], 2)`; its square with `z = 0` is `abs_squared(x + iy)`. -/
theorem C122_hypot3 (x y z : ℝ) :
    Elementary.hypot3 (.fin x) (.fin y) (.fin z) = Vnorm.vnorm (fun v : ℝ => .fin |v|) [x, y, z] (.fin 2) ∧
    XF.mul (Elementary.hypot3 (.fin x) (.fin y) (.fin 0)) (Elementary.hypot3 (.fin x) (.fin y) (.fin 0)) = Elementary.absSquaredC (.fin x, .fin y) := by
  have key : ∀ z, Elementary.hypot3 (.fin x) (.fin y) (.fin z) = .fin (√(x * x + y * y + z * z)) := by
    intro z; simp [Elementary.hypot3, Elementary.stdHypot, XF.isinf]
  rw [key, key, vnorm_two]
  constructor
  · simp only [List.map_cons, List.map_nil, List.sum_cons, List.sum_nil]
    congr 2; ring
  · simp only [XF.mul, Elementary.absSquaredC, XF.add]
    rw [Real.mul_self_sqrt (by nlinarith [mul_self_nonneg x, mul_self_nonneg y])]
    congr 1; ring

/-- In the plane `tri_area` is half the absolute value of `cross2` of two sides; in space it is half of the norm of `cross3` of two sides. -/
theorem C122_tri_area_cross (p : Int → Nat → ℝ) (m : Mem ℝ) (pu us pv vs po os : Int) (hos : os ≠ 0)
    (hu : ∀ k < 3, get m pu us k = p 1 k - p 0 k) (hv : ∀ k < 3, get m pv vs k = p 2 k - p 0 k) :
    TriArea.triArea 2 p = |Cross.cross2 m pu us pv vs| / 2 ∧
    Vnorm.vnorm (fun v : ℝ => .fin |v|) (elems (Cross.cross3 m pu us pv vs po os) po os 3) (.fin 2) = .fin (2 * TriArea.triArea 3 p) := by
  constructor
  · have h := (Cross.C43_cross2 m pu us pv vs).1
    simp only [hu 0 (by omega), hu 1 (by omega), hv 0 (by omega), hv 1 (by omega)] at h
    rw [TriArea.C44_plane, h]
  · obtain ⟨h0, h1⟩ := TriArea.C44_area 3 p
    obtain ⟨-, -, h2⟩ := Cross.C43_cross3_geometry m pu us pv vs po os hos
    simp only [hu 0 (by omega), hu 1 (by omega), hu 2 (by omega), hv 0 (by omega), hv 1 (by omega), hv 2 (by omega)] at h2
    rw [vnorm_two, sum_elems]
    congr 1
    rw [← Real.sqrt_sq (show 0 ≤ 2 * TriArea.triArea 3 p by positivity), h1]
    congr 1
    simp only [Finset.sum_range_succ, Finset.sum_range_zero, zero_add]
    linear_combination h2

/-- The sum of `kbnsum`, the mean of `meanvar` and `pmean(x, 1)` agree (the latter for non-negative data), and `pmean(x, 2)` is `rms(x)`. -/
theorem C122_means (m : Mem (XF ℝ)) (m' : Mem ℝ) (p s w p' s' out : Int) (x : List ℝ) (hne : x ≠ []) (ddof : Int)
    (h : elems m p s x.length = x.map .fin) (h' : elems m' p' s' x.length = x) (hout : ∀ i < x.length, p' + (i : Int) * s' ≠ out) :
    (Meanvar.meanvar id x ddof).1 = XF.div (Kbnsum.kbnsum id m p s w x.length) (.fin x.length) ∧
    ((∀ a ∈ x, 0 ≤ a) → Means.pmean (x.map .fin) (.fin 1) = some (Meanvar.meanvar id x ddof).1 ∧
      Means.pmean (x.map .fin) (.fin 2) = some (.fin (Vnorm.rms (fun a k => √(a / (k : ℝ))) m' w p' s' out x.length out))) := by
  have hl : (x.length : ℝ) ≠ 0 := by simpa using hne
  have hl' : 0 < x.length := List.length_pos_iff.2 hne
  rw [Meanvar.C36_meanvar x ddof hne, Kbnsum.C37_finite_sum m p s w x h]
  refine ⟨by simp [XF.div, hl, Meanvar.Spec.mean, hne], fun hx => ⟨?_, ?_⟩⟩
  · rw [Means.C65_pmean x 1 hne (by norm_num) hx (Or.inl one_pos)]
    simp [MeansSpec.power, Meanvar.Spec.mean]
  · rw [Means.C65_pmean x 2 hne (by norm_num) hx (Or.inl two_pos)]
    obtain ⟨h0, h1, -⟩ := Vnorm.C42_rms m' w p' s' out x.length hl' hout
    rw [← sum_elems (fun v : ℝ => v ^ 2), h'] at h1
    congr 2
    rw [MeansSpec.power, ← Real.sqrt_eq_rpow]
    simp only [Real.rpow_ofNat]
    rw [← h1, mul_div_cancel_left₀ _ hl, Real.sqrt_sq h0]

/-- The variance of `meanvar` with `ddof = 0` is `rms(x)^2 - mean(x)^2`. -/
theorem C122_variance_rms (m : Mem ℝ) (p s w out : Int) (x : List ℝ) (hne : x ≠ []) (h : elems m p s x.length = x)
    (hout : ∀ i < x.length, p + (i : Int) * s ≠ out) :
    ∃ μ v, Meanvar.meanvar id x 0 = (.fin μ, .fin v) ∧ v = Vnorm.rms (fun a k => √(a / (k : ℝ))) m w p s out x.length out ^ 2 - μ ^ 2 := by
  have hl : (x.length : ℝ) ≠ 0 := by simpa using hne
  obtain ⟨-, h1, -⟩ := Vnorm.C42_rms m w p s out x.length (List.length_pos_iff.2 hne) hout
  rw [← sum_elems (fun v : ℝ => v ^ 2), h] at h1
  rw [Meanvar.C36_meanvar x 0 hne]
  refine ⟨Meanvar.Spec.mean x, Meanvar.Spec.sumSq (Meanvar.Spec.mean x) x / x.length, by simp [XF.div, hne], ?_⟩
  rw [Meanvar.sumSq_expand, ← h1]
  have hm : x.sum = x.length * Meanvar.Spec.mean x := by rw [Meanvar.Spec.mean, mul_div_cancel₀ _ hl]
  rw [hm]
  field_simp
  ring

/-- `pearson_corr(x, x)` is 1, and `pearson_corr(x, a*x + b)` is the sign of `a`. -/
theorem C122_pearson_self (n : Nat) (hn : 2 ≤ n) (m : Mem (XF ℝ)) (px xs py ys : Int) (x : Nat → ℝ) (a b : ℝ) (ha : a ≠ 0)
    (hx : ∀ i < n, get m px xs i = .fin (x i)) (hy : ∀ i < n, get m py ys i = .fin (a * x i + b)) (hc : ¬ Corr.Constant n x) :
    Corr.pearson n m px xs px xs = .fin 1 ∧ Corr.pearson n m px xs py ys = .fin (SignType.sign a) := by
  have hc' : ¬ Corr.Constant n (fun i => a * x i + b) := fun h => hc fun i hi j hj => by
    have := h i hi j hj
    simpa [ha] using this
  refine ⟨?_, ?_⟩
  · rw [(Corr.C46_value n hn m px xs px xs x x hx hx).1 hc hc, (Corr.C46_extreme_iff n hn x x hc hc).1.2 ⟨1, 0, one_pos, by simp⟩]
  · rw [(Corr.C46_value n hn m px xs py ys x _ hx hy).1 hc hc']
    rcases lt_or_gt_of_ne ha with h | h
    · rw [(Corr.C46_extreme_iff n hn x _ hc hc').2.2 ⟨a, b, h, by simp⟩]; simp [h]
    · rw [(Corr.C46_extreme_iff n hn x _ hc hc').1.2 ⟨a, b, h, by simp⟩]; simp [h]

/-- `linear_interp1d` with two knots is `linearstep` between them. -/
theorem C122_interp_linearstep (x a b fa fb : ℝ) (h : a < b) (h1 : a ≤ x) (h2 : x ≤ b) :
    LinearInterp.interpOne (.fin x) [.fin a, .fin b] [.fin fa, .fin fb] = some (Step.linearstep (.fin x) (.fin a) (.fin b) (.fin fa) (.fin fb)) := by
  rw [(Step.C50_linearstep a b fa fb h).2 x h1 h2]
  have hs : [a, b].Pairwise (· < ·) := by simpa using h
  rcases h1.eq_or_lt with rfl | h1
  · have := LinearInterp.C47_knot [a, b] [.fin fa, .fin fb] rfl hs 0 (by simp)
    simpa using this
  rcases h2.eq_or_lt with rfl | h2
  · have := LinearInterp.C47_knot [a, x] [.fin fa, .fin fb] rfl hs 1 (by simp)
    have hne : x - a ≠ 0 := by linarith
    simpa [div_self hne] using this
  · have := LinearInterp.C47_between [a, b] [fa, fb] rfl hs 0 (by simp) x h1 h2
    simp only [List.map_cons, List.map_nil, List.getElem_cons_zero, List.getElem_cons_succ, Nat.zero_add] at this
    rw [this]
    congr 2
    ring

/-- `fillnan1d` gives at a NaN between two numbers what `linear_interp1d` gives there with these two as knots. -/
theorem C122_fillnan_interp (n : Nat) (x out : Nat → XF ℝ) (a i b : Nat) (va vb : ℝ) (h1 : a < i) (h2 : i < b) (h3 : b < n)
    (hva : x a = .fin va) (hvb : x b = .fin vb) (hnan : ∀ j, a < j → j < b → XF.isnan (x j) = true) :
    some (Fillnan.fillnan XF.isnan .nan Fillnan.xlerp n x out i) =
      LinearInterp.interpOne (.fin (i : ℝ)) [.fin (a : ℝ), .fin (b : ℝ)] [x a, x b] := by
  have e1 : (a : ℝ) < i := by exact_mod_cast h1
  have e2 : (i : ℝ) < b := by exact_mod_cast h2
  have := LinearInterp.C47_between [(a : ℝ), b] [va, vb] rfl (by simpa using e1.trans e2) 0 (by simp) i e1 e2
  simp only [List.map_cons, List.map_nil, List.getElem_cons_zero, List.getElem_cons_succ, Nat.zero_add] at this
  rw [Fillnan.C33_interpolation n x out a i b va vb h1 h2 h3 hva hvb hnan, hva, hvb, this]
  congr 2
  ring

/-- The two flanks of `trapezoid_pulse` are `linearstep`s. -/
theorem C122_trapezoid_linearstep (x a b c d amp : ℝ) (h1 : a ≤ b) (h2 : b ≤ c) (h3 : c < d) :
    (x ≤ c → Deadzone.trapezoid (.fin x) (.fin a) (.fin b) (.fin c) (.fin d) (.fin amp) = Step.linearstep (.fin x) (.fin a) (.fin b) (.fin 0) (.fin amp)) ∧
    (a < x → b ≤ x → Deadzone.trapezoid (.fin x) (.fin a) (.fin b) (.fin c) (.fin d) (.fin amp) = Step.linearstep (.fin x) (.fin c) (.fin d) (.fin amp) (.fin 0)) := by
  obtain ⟨v1, v2, v3, v4⟩ := Deadzone.C49_value x a b c d amp h1 h2 h3.le
  constructor
  · intro hx
    rcases le_or_gt x a with hxa | hxa
    · rw [v1 (Or.inl hxa)]
      simp [Step.linearstep, XF.gt, XF.lt, XF.le, XF.eq, h1.not_gt, hxa.lt_or_eq]
    rcases le_or_gt b x with hb | hb
    · rw [v2 hxa (by linarith) hb hx]
      simp [Step.linearstep, XF.gt, XF.ge, XF.lt, XF.le, XF.eq, h1.not_gt, hb.lt_or_eq, hxa.not_gt, hxa.ne']
    · rw [v3 hxa hb, (Step.C50_linearstep a b 0 amp (by linarith)).2 x hxa.le hb.le]
      simp
  · intro hxa hb
    rcases le_or_gt x c with hc | hc
    · rw [v2 hxa (by linarith) hb hc]
      simp [Step.linearstep, XF.gt, XF.lt, XF.le, XF.eq, h3.not_gt, hc.lt_or_eq]
    rcases le_or_gt d x with hd | hd
    · rw [v1 (Or.inr hd)]
      simp [Step.linearstep, XF.gt, XF.ge, XF.lt, XF.le, XF.eq, h3.not_gt, hd.lt_or_eq, hc.not_gt, hc.ne']
    · rw [v4 hc hd, (Step.C50_linearstep c d amp 0 h3).2 x hc.le hd.le]
      have : d - c ≠ 0 := by linarith
      congr 1
      field_simp
      ring

/-- The linear semivariogram is `linearstep` from 0 to the range. -/
theorem C122_semivar_linearstep (h nugget sill range : ℝ) (hr : 0 < range) (hh : 0 ≤ h) :
    XF.fin (Scalar.semivarLinear h nugget sill range) = Step.linearstep (.fin h) (.fin 0) (.fin range) (.fin nugget) (.fin sill) := by
  rcases le_or_gt h range with hle | hgt
  · rw [(Scalar.C55_formula h nugget sill range hr hle).2.1, (Step.C50_linearstep 0 range nugget sill hr).2 h hh hle]
    simp
  · have := hr.trans hgt
    simp [Scalar.semivarLinear, hgt, Step.linearstep, XF.gt, XF.ge, XF.lt, XF.le, XF.eq, hr.not_gt, this.not_gt, this.ne']

/-- With equal thresholds `linearstep` and `hysteresis_relay` (one sample) are `step`, but at the threshold itself. -/
theorem C122_step (x a lo hi mid init : ℝ) (h : x ≠ a) :
    Step.linearstep (.fin x) (.fin a) (.fin a) (.fin lo) (.fin hi) = Step.step (.fin x) (.fin a) (.fin lo) (.fin mid) (.fin hi) ∧
    (Signal.relay a a lo hi init [x]).map XF.fin = [Step.step (.fin x) (.fin a) (.fin lo) (.fin mid) (.fin hi)] := by
  obtain ⟨s1, -, s3⟩ := Step.C50_step x a (.fin lo) (.fin mid) (.fin hi)
  rw [(Step.C50_jump x a (.fin lo) (.fin hi)).1]
  rcases lt_or_gt_of_ne h with h | h
  · rw [s1 h, if_pos h.le]; simp [Signal.relay, h]
  · rw [s3 h, if_neg h.not_ge]; simp [Signal.relay, h, h.not_gt]

/-- One sample of `backlash` moves the output by `deadzone` of the distance; with initial value 0 it is `deadzone`. -/
theorem C122_backlash_deadzone (x y d : ℝ) (hd : 0 ≤ d) :
    (Signal.backlash d y [x]).map XF.fin = [XF.add (.fin y) (Deadzone.deadzoneXF (.fin (x - y)) (.fin (-(d / 2))) (.fin (d / 2)))] := by
  simp only [Signal.backlash, Signal.backlashLoop, Signal.backlashStep, Deadzone.deadzoneXF, Deadzone.deadzone, XF.lt, XF.sub, XF.neg, XF.add,
    decide_eq_true_eq, List.map_cons, List.map_nil, List.cons.injEq, and_true]
  by_cases h1 : y < x - d / 2
  · rw [if_pos h1, if_neg (by linarith), if_pos (by linarith)]; simp only [XF.fin.injEq]; ring
  · by_cases h2 : x + d / 2 < y
    · rw [if_neg h1, if_pos h2, if_pos (by linarith)]; simp only [XF.fin.injEq]; ring
    · rw [if_neg h1, if_neg h2, if_neg (by linarith), if_neg (by linarith)]; simp

/-- `backlash_sum` with one unit weight is `backlash`. -/
theorem C122_backlash_sum (d y : ℝ) (xs : List ℝ) : (Signal.backlashSum [⟨1, d⟩] [y] xs).1 = Signal.backlash d y xs := by
  unfold Signal.backlashSum Signal.backlash
  induction xs generalizing y with
  | nil => rfl
  | cons x xs ih => simp [Signal.sumOuter, Signal.sumInner, Signal.backlashLoop, ih]

/-- `softmax([x, 0])` is `[logistic(x), logistic(-x)]`; `swish(x, b)` is `x` times the first of `softmax([b*x, 0])`. -/
theorem C122_softmax_logistic (x b : ℝ) :
    Softmax.softmax Real.exp [.fin x, .fin 0] = [.fin (Scalar.logistic x), .fin (Scalar.logistic (-x))] ∧
    (Softmax.softmax Real.exp [.fin (b * x), .fin 0]).head?.map (XF.mul (.fin x)) = some (.fin (Scalar.swish x b)) := by
  have key : ∀ x : ℝ, Softmax.softmax Real.exp [.fin x, .fin 0] = [.fin (Scalar.logistic x), .fin (Scalar.logistic (-x))] := by
    intro x
    rw [Softmax.C35_formula _ (by simp [XF.isnan]) ⟨.fin x, by simp, rfl⟩]
    have hp := Real.exp_pos x
    have hm : exp (-x) = (exp x)⁻¹ := Real.exp_neg x
    simp only [List.map_cons, List.map_nil, Softmax.weight, List.sum_cons, List.sum_nil, Scalar.logistic, neg_neg, hm, Real.exp_zero]
    congr 2
    · field_simp
      ring
    · congr 2
      ring
  refine ⟨key x, ?_⟩
  rw [key]
  simp [XF.mul, Scalar.swish]

/-- `exponential_ramp` is a scaled `log_logistic`, so it is the logarithm of a `softmax` weight. -/
theorem C122_ramp_log_logistic (x a : ℝ) (ha : 0 < a) :
    Scalar.exponentialRamp x a = .fin (-(a / log 2) * Scalar.logLogistic (-(x / a * log 2))) := by
  rw [(Scalar.C54_exponential x a).1 ha, (Scalar.C53_log_logistic _).1, Scalar.logistic, neg_neg]
  have e : (2 : ℝ) ^ (x / a) = exp (x / a * log 2) := by rw [Real.rpow_def_of_pos two_pos, mul_comm]
  rw [one_div, Real.log_inv, e, Real.logb]
  congr 1
  ring

/-- `yeo_johnson` from `pow1pm1`. -/
theorem C122_yeo_johnson_pow1pm1 (x l : ℝ) :
    (0 ≤ x → l ≠ 0 → Elementary.pow1pm1 (.fin x) (.fin l) = .fin (l * Scalar.yeoJohnson x l)) ∧
    (x < 0 → l ≠ 2 → Elementary.pow1pm1 (.fin (-x)) (.fin (2 - l)) = .fin (-(2 - l) * Scalar.yeoJohnson x l)) := by
  constructor
  · intro hx hl
    rw [Elementary.C67_pow1pm1 x l (by linarith), Scalar.yeoJohnson, if_pos hx, if_neg hl, mul_div_cancel₀ _ hl, Scalar.expm1, Scalar.log1p,
      Real.rpow_def_of_pos (by linarith), mul_comm]
  · intro hx hl
    have h2 : 2 - l ≠ 0 := fun h => hl (by linarith)
    rw [Elementary.C67_pow1pm1 (-x) (2 - l) (by linarith), Scalar.yeoJohnson, if_neg (by linarith), if_neg hl, Scalar.expm1, Scalar.log1p,
      Real.rpow_def_of_pos (by linarith), mul_comm (log _)]
    congr 1
    field_simp

/-- `logbeta` of integers from `logfactorial`: `log B(i+1, j+1) = log i! + log j! - log (i+j+1)!`, within the accuracy of `logfactorial`. -/
theorem C122_logbeta_logfactorial (size : Int) (m : Mem (XF ℝ)) (p s pout : Int) (i j : ℕ)
    (h0 : m p = .fin ((i : ℝ) + 1)) (h1 : m (p + s) = .fin ((j : ℝ) + 1)) :
    ∃ v a b c, Logbeta.logbeta size m 2 p s pout pout = .fin v ∧ Logfact.ufunc i = some (.fin a) ∧ Logfact.ufunc j = some (.fin b) ∧
      Logfact.ufunc (i + j + 1 : ℕ) = some (.fin c) ∧ |v - (a + b - c)| ≤ 1.1e-13 := by
  obtain ⟨a, ha, ha'⟩ := Logfact.C66_logfactorial i
  obtain ⟨b, hb, hb'⟩ := Logfact.C66_logfactorial j
  obtain ⟨c, hc, hc'⟩ := Logfact.C66_logfactorial (i + j + 1)
  have hi : (0 : ℝ) < (i : ℝ) + 1 := by positivity
  have hj : (0 : ℝ) < (j : ℝ) + 1 := by positivity
  refine ⟨log (LogbetaSpec.betaFn [(i : ℝ) + 1, (j : ℝ) + 1]), a, b, c, ?_, ha, hb, hc, ?_⟩
  · rw [Logbeta.C66_logbeta size m 2 p s pout [(i : ℝ) + 1, (j : ℝ) + 1] (by simp [elems, get, List.range_succ, h0, h1]) (by omega)
      (by intro a ha; simp at ha; rcases ha with rfl | rfl <;> assumption)]
    simp only [Mem.store, if_true]
  · have e : ((i : ℝ) + 1 + ((j : ℝ) + 1 + 0)) = ((i + j + 1 : ℕ) : ℝ) + 1 := by push_cast; ring
    simp only [LogbetaSpec.betaFn, List.map_cons, List.map_nil, List.prod_cons, List.prod_nil, List.sum_cons, List.sum_nil, e, Real.Gamma_nat_eq_factorial, mul_one]
    rw [Real.log_div (by positivity) (by positivity), Real.log_mul (by positivity) (by positivity)]
    rw [abs_le] at *
    constructor <;> linarith [ha'.1, ha'.2, hb'.1, hb'.2, hc'.1, hc'.2]

/-- `loggamma1p` at an integer is `logfactorial`. -/
theorem C122_loggamma1p_logfactorial (k : ℕ) :
    ∃ v a, Loggamma1p.loggamma1p id log (.fin (k : ℝ)) = .fin v ∧ Logfact.ufunc k = some (.fin a) ∧ |v - a| ≤ 3.5e-14 := by
  obtain ⟨a, ha, ha'⟩ := Logfact.C66_logfactorial k
  obtain ⟨v, hv, hv', -⟩ := Loggamma1p.C73_exact (x := (k : ℝ)) (by have : (0 : ℝ) ≤ k := Nat.cast_nonneg k; linarith)
  refine ⟨v, a, hv, ha, ?_⟩
  rw [add_comm, Real.Gamma_nat_eq_factorial] at hv'
  rw [abs_le] at *
  constructor <;> linarith [ha'.1, ha'.2, hv'.1, hv'.2]

/-- `gendot(multiply, add)` is `vdot`, for every stride and every number of vectors: both for numbers and for any type with a neutral zero. -/
theorem C122_gendot_vdot {β : Type} [AddZeroClass β] [Mul β] (ok : Int → Bool) (C : Gendot.Codec β) (identity : Option (List UInt8))
    (x : Mem β) (w s0 s1 s2 s3 s4 tmp : Int) (L n : Nat) (hn : 0 < n) (px py pout : Int) (m : Gendot.Bytes)
    (hown : Gendot.Owned ok tmp n C.size L pout s2) (hsep : Gendot.Separate tmp n C.size L pout s2) :
    ∃ m', Gendot.gendotLoop ok C C (fun a b => a * b) (.elementwise fun a b => a + b) identity x x s0 s1 s2 s3 s4 tmp L n px py pout m = .done (some m') ∧
      ∀ j < L, C.dec (Gendot.load m' (pout + (j : Int) * s2) C.size) = Vnorm.vdot x w (px + (j : Int) * s0) s3 (py + (j : Int) * s1) s4 n := by
  obtain ⟨m', h1, h2, -⟩ := Gendot.C62_elementwise ok C (fun a b : β => a * b) (fun a b => a + b) identity x x s0 s1 s2 s3 s4 tmp L n hn px py pout m hown hsep
  refine ⟨m', h1, fun j hj => ?_⟩
  obtain ⟨p, ps, h3, h4⟩ := h2 j hj
  rw [h4, C.roundtrip, Vnorm.C42_vdot_fold]
  have e : ((List.range n).map fun i => get x (px + (j : Int) * s0) s3 i * get x (py + (j : Int) * s1) s4 i) = p :: ps := h3
  rw [e, List.foldl_cons, zero_add]

example : Step.linearstep (.fin 1) (.fin 0) (.fin 2) (.fin 0) (.fin 6) = (.fin 3 : XF ℝ) := by
  rw [(Step.C50_linearstep 0 2 0 6 two_pos).2 1 (by norm_num) (by norm_num)]; norm_num

/-- A triangle that meets the hypotheses of `C122_tri_area_cross`: both sides are in one memory. -/
example : ∃ (p : Int → Nat → ℝ) (m : Mem ℝ), (∀ k < 3, get m 0 1 k = p 1 k - p 0 k) ∧ (∀ k < 3, get m 3 1 k = p 2 k - p 0 k) ∧ Cross.cross2 m 0 1 3 1 = 12 :=
  ⟨fun i k => if i = 1 ∧ k = 0 then 3 else if i = 2 ∧ k = 1 then 4 else 0, fun a => if a = 0 then 3 else if a = 4 then 4 else 0,
    by intro k hk; interval_cases k <;> simp [get], by intro k hk; interval_cases k <;> simp [get], by norm_num [Cross.cross2, get]⟩

end Ufunclab.Agree
