import Verif.Spec.Means
import Mathlib.Analysis.Convex.SpecificFunctions.Basic
import Mathlib.Tactic.Linarith
import Mathlib.Tactic.FieldSimp
import Mathlib.Tactic.Ring
import Mathlib.Algebra.Order.BigOperators.Group.List
import Mathlib.Algebra.BigOperators.Ring.List
/-! Inequalities between the specified means. -/
namespace Ufunclab.MeansSpec

theorem sum_le (l : List (ℝ × ℝ)) (f g : ℝ → ℝ) (hw : ∀ v ∈ l, 0 ≤ v.2) (h : ∀ v ∈ l, f v.1 ≤ g v.1) :
    (l.map fun v => v.2 * f v.1).sum ≤ (l.map fun v => v.2 * g v.1).sum :=
  List.sum_le_sum fun v hv => mul_le_mul_of_nonneg_left (h v hv) (hw v hv)

theorem sum_affine (l : List (ℝ × ℝ)) (f : ℝ → ℝ) (a b : ℝ) :
    (l.map fun v => v.2 * (a + b * f v.1)).sum = a * (l.map Prod.snd).sum + b * (l.map fun v => v.2 * f v.1).sum := by
  induction l with
  | nil => simp
  | cons v l ih => simp only [List.map_cons, List.sum_cons, ih]; ring

theorem sum_const (l : List (ℝ × ℝ)) (c : ℝ) : (l.map fun v => v.2 * c).sum = c * (l.map Prod.snd).sum := by
  have := sum_affine l (fun _ => 0) c 0
  simpa using this

theorem mean_le (l : List (ℝ × ℝ)) (f : ℝ → ℝ) (c : ℝ) (hw : Weights l) (h : ∀ v ∈ l, f v.1 ≤ c) :
    (l.map fun v => v.2 * f v.1).sum / (l.map Prod.snd).sum ≤ c := by
  rw [div_le_iff₀ hw.2, ← sum_const]
  exact sum_le l f (fun _ => c) hw.1 h

theorem le_mean (l : List (ℝ × ℝ)) (f : ℝ → ℝ) (c : ℝ) (hw : Weights l) (h : ∀ v ∈ l, c ≤ f v.1) :
    c ≤ (l.map fun v => v.2 * f v.1).sum / (l.map Prod.snd).sum := by
  rw [le_div_iff₀ hw.2, ← sum_const]
  exact sum_le l (fun _ => c) f hw.1 h

theorem ne_nil (l : List (ℝ × ℝ)) (hw : Weights l) : l ≠ [] := by
  rintro rfl; have := hw.2; simp at this

/-- The least value of a positive list is positive. -/
theorem exists_lb (l : List (ℝ × ℝ)) (h : ∀ v ∈ l, 0 < v.1) : ∃ c, 0 < c ∧ ∀ v ∈ l, c ≤ v.1 := by
  induction l with
  | nil => exact ⟨1, one_pos, by simp⟩
  | cons v l ih =>
    obtain ⟨c, hc, h1⟩ := ih fun v hv => h v (by simp [hv])
    refine ⟨min c v.1, lt_min hc (h v (by simp)), ?_⟩
    intro u hu
    rcases List.mem_cons.1 hu with rfl | hu
    · exact min_le_right _ _
    · exact (min_le_left _ _).trans (h1 u hu)

theorem mean_rpow_pos (l : List (ℝ × ℝ)) (p : ℝ) (hw : Weights l) (h : ∀ v ∈ l, 0 < v.1) :
    0 < (l.map fun v => v.2 * v.1 ^ p).sum / (l.map Prod.snd).sum := by
  have : ∃ c : ℝ, 0 < c ∧ ∀ v ∈ l, c ≤ v.1 ^ p := by
    obtain ⟨c, hc, h1⟩ := exists_lb (l.map fun v => (v.1 ^ p, v.2)) (by
      intro u hu
      obtain ⟨v, hv, rfl⟩ := List.mem_map.1 hu
      exact Real.rpow_pos_of_pos (h v hv) p)
    exact ⟨c, hc, fun v hv => h1 (v.1 ^ p, v.2) (List.mem_map.2 ⟨v, hv, rfl⟩)⟩
  obtain ⟨c, hc, h1⟩ := this
  exact hc.trans_le (le_mean l (fun a => a ^ p) c hw h1)

theorem powerW_pos (l : List (ℝ × ℝ)) (p : ℝ) (hw : Weights l) (h : ∀ v ∈ l, 0 < v.1) : 0 < powerW p l :=
  Real.rpow_pos_of_pos (mean_rpow_pos l p hw h) _

/-- Means lie between any lower and upper bound of the data. -/
theorem powerW_bounds (l : List (ℝ × ℝ)) (p a b : ℝ) (hp : p ≠ 0) (ha : 0 < a) (hw : Weights l)
    (h : ∀ v ∈ l, a ≤ v.1 ∧ v.1 ≤ b) : a ≤ powerW p l ∧ powerW p l ≤ b := by
  have hpos : ∀ v ∈ l, 0 < v.1 := fun v hv => ha.trans_le (h v hv).1
  have hm := mean_rpow_pos l p hw hpos
  obtain ⟨v, hv⟩ := List.exists_mem_of_ne_nil l (ne_nil l hw)
  have hb : 0 < b := (hpos v hv).trans_le (h v hv).2
  have ea : a = (a ^ p) ^ (1 / p) := by rw [← Real.rpow_mul ha.le, mul_one_div_cancel hp, Real.rpow_one]
  have eb : b = (b ^ p) ^ (1 / p) := by rw [← Real.rpow_mul hb.le, mul_one_div_cancel hp, Real.rpow_one]
  have pa := Real.rpow_pos_of_pos ha p
  have pb := Real.rpow_pos_of_pos hb p
  rcases lt_or_gt_of_ne hp with hp' | hp'
  · have l1 := le_mean l (fun x => x ^ p) (b ^ p) hw fun v hv => Real.rpow_le_rpow_of_nonpos (hpos v hv) (h v hv).2 hp'.le
    have l2 := mean_le l (fun x => x ^ p) (a ^ p) hw fun v hv => Real.rpow_le_rpow_of_nonpos ha (h v hv).1 hp'.le
    have hq : 1 / p ≤ 0 := (one_div_neg.2 hp').le
    constructor
    · conv_lhs => rw [ea]
      exact Real.rpow_le_rpow_of_nonpos hm l2 hq
    · conv_rhs => rw [eb]
      exact Real.rpow_le_rpow_of_nonpos pb l1 hq
  · have l1 := le_mean l (fun x => x ^ p) (a ^ p) hw fun v hv => Real.rpow_le_rpow ha.le (h v hv).1 hp'.le
    have l2 := mean_le l (fun x => x ^ p) (b ^ p) hw fun v hv => Real.rpow_le_rpow (hpos v hv).le (h v hv).2 hp'.le
    have hq : 0 ≤ 1 / p := (one_div_pos.2 hp').le
    constructor
    · conv_lhs => rw [ea]
      exact Real.rpow_le_rpow pa.le l1 hq
    · conv_rhs => rw [eb]
      exact Real.rpow_le_rpow hm.le l2 hq

theorem geoW_bounds (l : List (ℝ × ℝ)) (a b : ℝ) (ha : 0 < a) (hw : Weights l)
    (h : ∀ v ∈ l, a ≤ v.1 ∧ v.1 ≤ b) : a ≤ geoW l ∧ geoW l ≤ b := by
  obtain ⟨v, hv⟩ := List.exists_mem_of_ne_nil l (ne_nil l hw)
  have hb : 0 < b := ha.trans_le ((h v hv).1.trans (h v hv).2)
  have l1 := le_mean l Real.log (Real.log a) hw fun v hv => Real.log_le_log ha (h v hv).1
  have l2 := mean_le l Real.log (Real.log b) hw fun v hv => Real.log_le_log (ha.trans_le (h v hv).1) (h v hv).2
  constructor
  · rw [← Real.exp_log ha]; exact Real.exp_le_exp.2 l1
  · rw [← Real.exp_log hb]; exact Real.exp_le_exp.2 l2

theorem scaled_snd (c : ℝ) (l : List (ℝ × ℝ)) : (scaled c l).map Prod.snd = l.map Prod.snd := by
  simp [scaled, Function.comp_def]

theorem powerW_scaled (l : List (ℝ × ℝ)) (p c : ℝ) (hp : p ≠ 0) (hc : 0 < c) (hw : Weights l) (h : ∀ v ∈ l, 0 ≤ v.1) :
    powerW p (scaled c l) = c * powerW p l := by
  have e : ((scaled c l).map fun v => v.2 * v.1 ^ p).sum = c ^ p * (l.map fun v => v.2 * v.1 ^ p).sum := by
    rw [scaled, List.map_map]
    rw [← List.sum_map_mul_left]
    congr 1
    apply List.map_congr_left
    intro v hv
    simp only [Function.comp]
    rw [Real.mul_rpow hc.le (h v hv)]; ring
  have n1 : 0 ≤ (l.map fun v => v.2 * v.1 ^ p).sum := List.sum_nonneg (by
    intro y hy
    obtain ⟨v, hv, rfl⟩ := List.mem_map.1 hy
    exact mul_nonneg (hw.1 v hv) (Real.rpow_nonneg (h v hv) p))
  rw [powerW, powerW, e, scaled_snd, mul_div_assoc, Real.mul_rpow (Real.rpow_nonneg hc.le _) (div_nonneg n1 hw.2.le),
    ← Real.rpow_mul hc.le, mul_one_div_cancel hp, Real.rpow_one]

theorem geoW_scaled (l : List (ℝ × ℝ)) (c : ℝ) (hc : 0 < c) (hs : (l.map Prod.snd).sum ≠ 0) (h : ∀ v ∈ l, 0 < v.1) :
    geoW (scaled c l) = c * geoW l := by
  have e : ((scaled c l).map fun v => v.2 * Real.log v.1).sum = (l.map fun v => v.2 * (Real.log c + 1 * Real.log v.1)).sum := by
    rw [scaled, List.map_map]
    congr 1
    apply List.map_congr_left
    intro v hv
    simp only [Function.comp]
    rw [Real.log_mul hc.ne' (h v hv).ne', one_mul]
  rw [geoW, geoW, e, scaled_snd, sum_affine, one_mul, add_div, mul_div_assoc, div_self hs, mul_one, Real.exp_add, Real.exp_log hc]

/-! ### Power mean inequality -/

theorem jensen_rpow (l : List (ℝ × ℝ)) (r : ℝ) (hr : 1 ≤ r) (hw : Weights l) (h : ∀ v ∈ l, 0 < v.1) :
    ((l.map fun v => v.2 * v.1).sum / (l.map Prod.snd).sum) ^ r ≤ (l.map fun v => v.2 * v.1 ^ r).sum / (l.map Prod.snd).sum := by
  have hA : 0 < (l.map fun v => v.2 * v.1).sum / (l.map Prod.snd).sum := by simpa using mean_rpow_pos l 1 hw h
  set A := (l.map fun v => v.2 * v.1).sum / (l.map Prod.snd).sum with hAdef
  have hAr := Real.rpow_pos_of_pos hA r
  have e : (l.map fun v => v.2 * v.1).sum = A * (l.map Prod.snd).sum := by rw [hAdef, div_mul_cancel₀ _ hw.2.ne']
  have key : ∀ v ∈ l, A ^ r * (1 - r) + A ^ r * r / A * v.1 ≤ v.1 ^ r := by
    intro v hv
    have hv0 := h v hv
    have b := one_add_mul_self_le_rpow_one_add (s := v.1 / A - 1) (by have := div_pos hv0 hA; linarith) hr
    rw [add_sub_cancel, Real.div_rpow hv0.le hA.le, le_div_iff₀ hAr] at b
    calc A ^ r * (1 - r) + A ^ r * r / A * v.1 = (1 + r * (v.1 / A - 1)) * A ^ r := by ring
      _ ≤ _ := b
  rw [le_div_iff₀ hw.2]
  have := sum_le l (fun x => A ^ r * (1 - r) + A ^ r * r / A * x) (fun x => x ^ r) hw.1 key
  rw [sum_affine l (fun x => x), e] at this
  refine le_trans (le_of_eq ?_) this
  field_simp
  ring

theorem geo_le_arith (l : List (ℝ × ℝ)) (hw : Weights l) (h : ∀ v ∈ l, 0 < v.1) :
    geoW l ≤ (l.map fun v => v.2 * v.1).sum / (l.map Prod.snd).sum := by
  have hA : 0 < (l.map fun v => v.2 * v.1).sum / (l.map Prod.snd).sum := by simpa using mean_rpow_pos l 1 hw h
  set A := (l.map fun v => v.2 * v.1).sum / (l.map Prod.snd).sum with hAdef
  have e : (l.map fun v => v.2 * v.1).sum = A * (l.map Prod.snd).sum := by rw [hAdef, div_mul_cancel₀ _ hw.2.ne']
  rw [geoW, ← Real.le_log_iff_exp_le hA, div_le_iff₀ hw.2]
  have key : ∀ v ∈ l, Real.log v.1 ≤ (Real.log A - 1) + 1 / A * v.1 := by
    intro v hv
    have b := Real.log_le_sub_one_of_pos (div_pos (h v hv) hA)
    rw [Real.log_div (h v hv).ne' hA.ne'] at b
    have : 1 / A * v.1 = v.1 / A := by ring
    linarith
  have := sum_le l Real.log (fun x => (Real.log A - 1) + 1 / A * x) hw.1 key
  rw [sum_affine l (fun x => x), e] at this
  refine this.trans (le_of_eq ?_)
  field_simp
  ring

/-- Apply a function to the values. -/
def onVals (f : ℝ → ℝ) (l : List (ℝ × ℝ)) : List (ℝ × ℝ) := l.map fun v => (f v.1, v.2)
theorem onVals_snd (f : ℝ → ℝ) (l : List (ℝ × ℝ)) : (onVals f l).map Prod.snd = l.map Prod.snd := by
  simp [onVals, Function.comp_def]
theorem onVals_weights (f : ℝ → ℝ) (l : List (ℝ × ℝ)) (hw : Weights l) : Weights (onVals f l) := by
  refine ⟨?_, by rw [onVals_snd]; exact hw.2⟩
  intro u hu
  obtain ⟨v, hv, rfl⟩ := List.mem_map.1 hu
  exact hw.1 v hv
theorem onVals_pos (f : ℝ → ℝ) (l : List (ℝ × ℝ)) (h : ∀ v ∈ l, 0 < f v.1) : ∀ v ∈ onVals f l, 0 < v.1 := by
  intro u hu
  obtain ⟨v, hv, rfl⟩ := List.mem_map.1 hu
  exact h v hv
theorem onVals_sum (f g : ℝ → ℝ) (l : List (ℝ × ℝ)) :
    ((onVals f l).map fun v => v.2 * g v.1).sum = (l.map fun v => v.2 * g (f v.1)).sum := by
  simp [onVals, Function.comp_def]

theorem power_mono_pos (l : List (ℝ × ℝ)) (p q : ℝ) (hp : 0 < p) (hpq : p ≤ q) (hw : Weights l) (h : ∀ v ∈ l, 0 < v.1) :
    powerW p l ≤ powerW q l := by
  have hq := hp.trans_le hpq
  have j := jensen_rpow (onVals (· ^ p) l) (q / p) ((one_le_div hp).2 hpq) (onVals_weights _ l hw)
    (onVals_pos _ l fun v hv => Real.rpow_pos_of_pos (h v hv) p)
  rw [onVals_snd, onVals_sum (· ^ p) (fun a => a) l, onVals_sum (· ^ p) (fun a => a ^ (q / p)) l] at j
  have e : (l.map fun v => v.2 * (v.1 ^ p) ^ (q / p)) = l.map fun v => v.2 * v.1 ^ q :=
    List.map_congr_left fun v hv => by rw [← Real.rpow_mul (h v hv).le, mul_div_cancel₀ _ hp.ne']
  rw [e] at j
  have hm := mean_rpow_pos l p hw h
  have := Real.rpow_le_rpow (Real.rpow_nonneg hm.le _) j (one_div_pos.2 hq).le
  rw [← Real.rpow_mul hm.le] at this
  have e2 : q / p * (1 / q) = 1 / p := by field_simp
  rw [e2] at this
  exact this

theorem power_neg (l : List (ℝ × ℝ)) (p : ℝ) (hw : Weights l) (h : ∀ v ∈ l, 0 < v.1) :
    powerW (-p) l = (powerW p (onVals (·⁻¹) l))⁻¹ := by
  have e : (l.map fun v => v.2 * v.1⁻¹ ^ p) = l.map fun v => v.2 * v.1 ^ (-p) :=
    List.map_congr_left fun v hv => by rw [Real.inv_rpow (h v hv).le, Real.rpow_neg (h v hv).le]
  have hm := mean_rpow_pos l (-p) hw h
  rw [powerW, powerW, onVals_snd, onVals_sum (·⁻¹) (fun a => a ^ p) l, e, one_div_neg_eq_neg_one_div, Real.rpow_neg hm.le]

theorem geo_inv (l : List (ℝ × ℝ)) : geoW l = (geoW (onVals (·⁻¹) l))⁻¹ := by
  have e : (l.map fun v => v.2 * Real.log v.1⁻¹).sum = -(l.map fun v => v.2 * Real.log v.1).sum := by
    have := sum_affine l Real.log 0 (-1)
    simpa using this
  rw [geoW, geoW, onVals_snd, onVals_sum (·⁻¹) Real.log l, e, neg_div, Real.exp_neg, inv_inv]

theorem geo_le_power (l : List (ℝ × ℝ)) (q : ℝ) (hq : 0 < q) (hw : Weights l) (h : ∀ v ∈ l, 0 < v.1) : geoW l ≤ powerW q l := by
  have j := geo_le_arith (onVals (· ^ q) l) (onVals_weights _ l hw) (onVals_pos _ l fun v hv => Real.rpow_pos_of_pos (h v hv) q)
  rw [onVals_snd, onVals_sum (· ^ q) (fun a => a) l, geoW, onVals_snd, onVals_sum (· ^ q) Real.log l] at j
  have e : (l.map fun v => v.2 * Real.log (v.1 ^ q)).sum = q * (l.map fun v => v.2 * Real.log v.1).sum := by
    rw [← List.sum_map_mul_left]
    congr 1
    exact List.map_congr_left fun v hv => by rw [Real.log_rpow (h v hv)]; ring
  rw [e, mul_div_assoc, mul_comm, Real.exp_mul] at j
  have := Real.rpow_le_rpow (Real.rpow_nonneg (Real.exp_pos _).le _) j (one_div_pos.2 hq).le
  rw [← Real.rpow_mul (Real.exp_pos _).le, mul_one_div_cancel hq.ne', Real.rpow_one] at this
  exact this

theorem power_le_geo (l : List (ℝ × ℝ)) (p : ℝ) (hp : p < 0) (hw : Weights l) (h : ∀ v ∈ l, 0 < v.1) : powerW p l ≤ geoW l := by
  have hi := onVals_pos (·⁻¹) l fun v hv => inv_pos.2 (h v hv)
  have := geo_le_power (onVals (·⁻¹) l) (-p) (by linarith) (onVals_weights _ l hw) hi
  have e := power_neg l (-p) hw h
  rw [neg_neg] at e
  rw [e, geo_inv l]
  exact inv_anti₀ (Real.exp_pos _) this

theorem mean_mono (l : List (ℝ × ℝ)) (p q : ℝ) (hpq : p ≤ q) (hw : Weights l) (h : ∀ v ∈ l, 0 < v.1) : mean p l ≤ mean q l := by
  have hi := onVals_pos (·⁻¹) l fun v hv => inv_pos.2 (h v hv)
  unfold mean
  split_ifs with h1 h2 h2
  · exact le_rfl
  · exact geo_le_power l q (lt_of_le_of_ne (h1 ▸ hpq) (Ne.symm h2)) hw h
  · exact power_le_geo l p (lt_of_le_of_ne (h2 ▸ hpq) h1) hw h
  · rcases lt_or_gt_of_ne h1 with hp | hp
    · rcases lt_or_gt_of_ne h2 with hq | hq
      · have := power_mono_pos (onVals (·⁻¹) l) (-q) (-p) (by linarith) (by linarith) (onVals_weights _ l hw) hi
        have e1 := power_neg l (-p) hw h
        have e2 := power_neg l (-q) hw h
        rw [neg_neg] at e1 e2
        rw [e1, e2]
        exact inv_anti₀ (powerW_pos _ _ (onVals_weights _ l hw) hi) this
      · exact (power_le_geo l p hp hw h).trans (geo_le_power l q hq hw h)
    · exact power_mono_pos l p q hp hpq hw h

/-! ### The approximation for tiny orders -/

theorem avg_add (l : List (ℝ × ℝ)) (f g : ℝ → ℝ) : avg l (fun x => f x + g x) = avg l f + avg l g := by
  rw [avg, avg, avg, ← add_div]
  congr 1
  induction l with
  | nil => simp
  | cons v l ih => simp only [List.map_cons, List.sum_cons, ih]; ring
theorem avg_affine (l : List (ℝ × ℝ)) (hw : Weights l) (f : ℝ → ℝ) (a b : ℝ) : avg l (fun x => a + b * f x) = a + b * avg l f := by
  rw [avg, sum_affine, add_div, mul_div_assoc, mul_div_assoc, div_self hw.2.ne', mul_one]; rfl
theorem avg_congr (l : List (ℝ × ℝ)) (f g : ℝ → ℝ) (h : ∀ v ∈ l, f v.1 = g v.1) : avg l f = avg l g := by
  rw [avg, avg, List.map_congr_left fun v hv => by rw [h v hv]]
theorem avg_abs (l : List (ℝ × ℝ)) (hw : Weights l) (f : ℝ → ℝ) (c : ℝ) (h : ∀ v ∈ l, |f v.1| ≤ c) : |avg l f| ≤ c :=
  abs_le.2 ⟨le_mean l f (-c) hw fun v hv => (abs_le.1 (h v hv)).1, mean_le l f c hw fun v hv => (abs_le.1 (h v hv)).2⟩

theorem exp_third (t : ℝ) (h : |t| ≤ 1) : |Real.exp t - 1 - t - t ^ 2 / 2| ≤ |t| ^ 3 * (2 / 9) := by
  have := Real.exp_bound h (n := 3) (by norm_num)
  simp only [Finset.sum_range_succ, Finset.sum_range_zero, Nat.factorial] at this
  norm_num at this
  have e : Real.exp t - 1 - t - t ^ 2 / 2 = Real.exp t - (1 + t + t ^ 2 / 2) := by ring
  rw [e]; exact this

theorem log_bound (u : ℝ) (h : |u| ≤ 1 / 2) : |Real.log (1 + u) - u| ≤ 2 * u ^ 2 := by
  have h1 := (abs_le.1 h).1
  have hpos : 0 < 1 + u := by linarith
  have a := Real.log_le_sub_one_of_pos hpos
  have b := Real.one_sub_inv_le_log_of_pos hpos
  have c : 1 - (1 + u)⁻¹ = u - u ^ 2 / (1 + u) := by field_simp; ring
  have d : u ^ 2 / (1 + u) ≤ 2 * u ^ 2 := by
    rw [div_le_iff₀ hpos]
    nlinarith [sq_nonneg u]
  rw [abs_le]
  constructor <;> nlinarith [sq_nonneg u]

set_option maxHeartbeats 800000 in
/-- Error of `gm·(1 + p/2·var(log x))` as an approximation of the power mean. -/
theorem small_p (l : List (ℝ × ℝ)) (p R : ℝ) (hp : p ≠ 0) (hw : Weights l) (h : ∀ v ∈ l, 0 < v.1)
    (hR : ∀ v ∈ l, |Real.log v.1 - avg l Real.log| ≤ R) (h1 : |p| * R ≤ 1 / 4) (h2 : |p| * R ^ 2 ≤ 1) :
    |geoW l * (1 + p / 2 * (avg l (fun x => Real.log x ^ 2) - avg l Real.log ^ 2)) - powerW p l| ≤
      geoW l * (p ^ 2 * R ^ 3 * (1 + R)) := by
  obtain ⟨v0, hv0⟩ := List.exists_mem_of_ne_nil l (ne_nil l hw)
  have hR0 : 0 ≤ R := (abs_nonneg _).trans (hR v0 hv0)
  set m := avg l Real.log with hm
  have hp' : 0 < |p| := abs_pos.2 hp
  -- the variance
  have hv : avg l (fun x => Real.log x ^ 2) - m ^ 2 = avg l (fun x => (Real.log x - m) ^ 2) := by
    have e : (fun x : ℝ => (Real.log x - m) ^ 2) = fun x => (m ^ 2 + (-2 * m) * Real.log x) + Real.log x ^ 2 := by
      funext x; ring
    rw [e, avg_add, avg_affine l hw, ← hm]; ring
  set v := avg l (fun x => (Real.log x - m) ^ 2) with hvd
  have hv0' : 0 ≤ v := le_mean l (fun x => (Real.log x - m) ^ 2) 0 hw fun _ _ => sq_nonneg _
  have hvR : v ≤ R ^ 2 := mean_le l (fun x => (Real.log x - m) ^ 2) (R ^ 2) hw fun a ha => by
    have := hR a ha
    exact sq_le_sq' (by linarith [(abs_le.1 this).1]) (abs_le.1 this).2
  -- the moment generating function
  set u := avg l (fun x => Real.exp (p * (Real.log x - m))) - 1 with hu
  have hudev : |u - p ^ 2 / 2 * v| ≤ (|p| * R) ^ 3 * (2 / 9) := by
    have e : u - p ^ 2 / 2 * v = avg l (fun x => Real.exp (p * (Real.log x - m)) - 1 - p * (Real.log x - m) - (p * (Real.log x - m)) ^ 2 / 2) := by
      have e2 : (fun x : ℝ => Real.exp (p * (Real.log x - m)) - 1 - p * (Real.log x - m) - (p * (Real.log x - m)) ^ 2 / 2)
          = fun x => (((-1 + p * m) + (-p) * Real.log x) + (0 + (-(p ^ 2 / 2)) * (Real.log x - m) ^ 2)) + Real.exp (p * (Real.log x - m)) := by
        funext x; ring
      rw [e2, avg_add, avg_add, avg_affine l hw, avg_affine l hw, ← hm, ← hvd]
      have : avg l (fun x => Real.exp (p * (Real.log x - m))) = u + 1 := by rw [hu]; ring
      rw [this]; ring
    rw [e]
    apply avg_abs l hw
    intro a ha
    have b : |p * (Real.log a.1 - m)| ≤ |p| * R := by
      rw [abs_mul]; exact mul_le_mul_of_nonneg_left (hR a ha) (abs_nonneg _)
    refine (exp_third _ (by linarith)).trans ?_
    exact mul_le_mul_of_nonneg_right (pow_le_pow_left₀ (abs_nonneg _) b 3) (by norm_num)
  set k := |p| * R with hk
  have hk0 : 0 ≤ k := mul_nonneg hp'.le hR0
  have hp2 : p ^ 2 = |p| ^ 2 := (sq_abs p).symm
  have hpv0 : 0 ≤ p ^ 2 / 2 * v := by positivity
  have hpv : p ^ 2 / 2 * v ≤ k ^ 2 / 2 := by
    rw [hp2, hk, mul_pow]
    have := mul_le_mul_of_nonneg_left hvR (by positivity : 0 ≤ |p| ^ 2 / 2)
    linarith
  have hk3 : k ^ 3 ≤ k ^ 2 * (1 / 4) := by
    have := mul_le_mul_of_nonneg_left h1 (sq_nonneg k)
    calc k ^ 3 = k ^ 2 * k := by ring
      _ ≤ _ := this
  have hub : |u| ≤ k ^ 2 := by
    have := abs_le.1 hudev
    have := sq_nonneg k
    rw [abs_le]; constructor <;> linarith
  have hk16 : k ^ 2 ≤ 1 / 16 := by nlinarith
  have hlog := log_bound u (by linarith)
  have hu2 : u ^ 2 ≤ k ^ 4 := by
    have := pow_le_pow_left₀ (abs_nonneg u) hub 2
    rw [sq_abs] at this
    calc u ^ 2 ≤ (k ^ 2) ^ 2 := this
      _ = k ^ 4 := by ring
  have hk4 : k ^ 4 ≤ k ^ 3 * (1 / 4) := by
    have := mul_le_mul_of_nonneg_left h1 (pow_nonneg hk0 3)
    calc k ^ 4 = k ^ 3 * k := by ring
      _ ≤ _ := this
  set z := Real.log (1 + u) / p with hz
  have hdel : |z - p / 2 * v| ≤ p ^ 2 * R ^ 3 := by
    have e : z - p / 2 * v = (Real.log (1 + u) - p ^ 2 / 2 * v) / p := by rw [hz]; field_simp
    rw [e, abs_div, div_le_iff₀ hp']
    have t : |Real.log (1 + u) - p ^ 2 / 2 * v| ≤ k ^ 3 := by
      have a := abs_le.1 hlog
      have b := abs_le.1 hudev
      have c := pow_nonneg hk0 3
      rw [abs_le]; constructor <;> linarith
    refine t.trans (le_of_eq ?_)
    rw [hk, hp2]; ring
  have hzb : |z| ≤ |p| * R ^ 2 := by
    have a : |p / 2 * v| ≤ |p| / 2 * R ^ 2 := by
      rw [abs_mul, abs_div, abs_of_nonneg hv0', abs_two]
      exact mul_le_mul_of_nonneg_left hvR (by positivity)
    have b : p ^ 2 * R ^ 3 ≤ |p| * R ^ 2 * (1 / 4) := by
      have := mul_le_mul_of_nonneg_left h1 (by positivity : 0 ≤ |p| * R ^ 2)
      calc p ^ 2 * R ^ 3 = |p| * R ^ 2 * k := by rw [hk, hp2]; ring
        _ ≤ _ := this
    have c : |z| ≤ |z - p / 2 * v| + |p / 2 * v| := by
      calc |z| = |(z - p / 2 * v) + p / 2 * v| := by ring_nf
        _ ≤ _ := abs_add_le _ _
    have d : 0 ≤ |p| * R ^ 2 := by positivity
    linarith
  have hexp := Real.abs_exp_sub_one_sub_id_le (hzb.trans h2)
  have hz2 : z ^ 2 ≤ p ^ 2 * R ^ 4 := by
    have := pow_le_pow_left₀ (abs_nonneg z) hzb 2
    rw [sq_abs] at this
    calc z ^ 2 ≤ (|p| * R ^ 2) ^ 2 := this
      _ = _ := by rw [hp2]; ring
  -- the power mean
  have hpow : powerW p l = geoW l * Real.exp z := by
    have hpos : 0 < 1 + u := by
      have := (abs_le.1 hub).1; linarith
    have e : (l.map fun a => a.2 * a.1 ^ p).sum / (l.map Prod.snd).sum = Real.exp (p * m) * (1 + u) := by
      have e1 : avg l (fun x => x ^ p) = avg l (fun x => 0 + Real.exp (p * m) * Real.exp (p * (Real.log x - m))) := by
        apply avg_congr
        intro a ha
        rw [Real.rpow_def_of_pos (h a ha), zero_add, ← Real.exp_add]
        congr 1; ring
      have e2 := avg_affine l hw (fun x => Real.exp (p * (Real.log x - m))) 0 (Real.exp (p * m))
      rw [e2] at e1
      show avg l (fun x => x ^ p) = _
      rw [e1, hu]; ring
    rw [powerW, e, Real.mul_rpow (Real.exp_pos _).le hpos.le, ← Real.exp_mul, Real.rpow_def_of_pos hpos]
    have e3 : p * m * (1 / p) = m := by field_simp
    have e4 : Real.log (1 + u) * (1 / p) = z := by rw [hz]; ring
    rw [e3, e4]; rfl
  have hg : 0 < geoW l := Real.exp_pos _
  rw [hpow, hv, ← mul_sub, abs_mul, abs_of_pos hg]
  apply mul_le_mul_of_nonneg_left _ hg.le
  have a := abs_le.1 hexp
  have b := abs_le.1 hdel
  have e5 : p ^ 2 * R ^ 3 * (1 + R) = p ^ 2 * R ^ 3 + p ^ 2 * R ^ 4 := by ring
  rw [e5, abs_le]
  constructor <;> linarith

end Ufunclab.MeansSpec
