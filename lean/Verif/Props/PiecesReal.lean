import Verif.Props.Vnorm
import Verif.Props.Meanvar
import Verif.Props.Means
import Verif.Props.Kbnsum
import Verif.Props.Softmax
import Verif.Props.Logfact
/-!
# Property C124: the result for an array made of two pieces follows from the results for the pieces

The numerical functions, in exact arithmetic.
-/
namespace Ufunclab.Pieces
open Ufunclab XF

/-- C124: vdot of two pieces is the sum of the pieces' dot products. -/
theorem C124_vdot {α : Type _} [Semiring α] (m : Mem α) (w px sx py sy : Int) (n k : Nat) :
    Vnorm.vdot m w px sx py sy (n + k) =
      Vnorm.vdot m w px sx py sy n + Vnorm.vdot m w (px + (n : Int) * sx) sx (py + (n : Int) * sy) sy k := by
  rw [Vnorm.C42_vdot_sum, Vnorm.C42_vdot_sum, Vnorm.C42_vdot_sum, Finset.sum_range_add]
  congr 1
  apply Finset.sum_congr rfl
  intro i _
  simp only [get]
  congr 2 <;> push_cast <;> ring

/-- C124: the mean squares are averaged with the lengths as weights. -/
theorem C124_rms (m : Mem ℝ) (w p s out : Int) (n k : Nat) (hn : 0 < n) (hk : 0 < k) (hout : ∀ i < n + k, p + (i : Int) * s ≠ out) :
    let r := fun p n => Vnorm.rms (fun a k => √(a / (k : ℝ))) m w p s out n out
    ((n : ℝ) + k) * r p (n + k) ^ 2 = n * r p n ^ 2 + k * r (p + (n : Int) * s) k ^ 2 := by
  intro r
  have h1 := (Vnorm.C42_rms m w p s out (n + k) (by omega) hout).2.1
  have h2 := (Vnorm.C42_rms m w p s out n hn fun i hi => hout i (by omega)).2.1
  have h3 := (Vnorm.C42_rms m w (p + (n : Int) * s) s out k hk fun i hi => by
    have := hout (n + i) (by omega)
    rwa [show p + (n : Int) * s + (i : Int) * s = p + ((n + i : Nat) : Int) * s by push_cast; ring]).2.1
  simp only [r]
  rw [h2, h3, ← Nat.cast_add, h1, Finset.sum_range_add]
  congr 1
  apply Finset.sum_congr rfl
  intro i _
  simp only [get]
  congr 2; push_cast; ring

/-- C124: vnorm: the p-th powers of the norms add up; for order inf the larger one is taken. -/
theorem C124_vnorm (x y : List ℝ) (p : ℝ) (hp : 0 < p) :
    (∃ N A B : ℝ, Vnorm.vnorm (fun v : ℝ => .fin |v|) (x ++ y) (.fin p) = .fin N ∧ Vnorm.vnorm (fun v : ℝ => .fin |v|) x (.fin p) = .fin A ∧
      Vnorm.vnorm (fun v : ℝ => .fin |v|) y (.fin p) = .fin B ∧ N ^ p = A ^ p + B ^ p) ∧
    (∃ N A B : ℝ, Vnorm.vnorm (fun v : ℝ => .fin |v|) (x ++ y) .pinf = .fin N ∧ Vnorm.vnorm (fun v : ℝ => .fin |v|) x .pinf = .fin A ∧
      Vnorm.vnorm (fun v : ℝ => .fin |v|) y .pinf = .fin B ∧ N = max A B) := by
  refine ⟨⟨_, _, _, Vnorm.C41_pnorm _ _ p hp fun v _ => abs_nonneg v, Vnorm.C41_pnorm _ _ p hp fun v _ => abs_nonneg v,
    Vnorm.C41_pnorm _ _ p hp fun v _ => abs_nonneg v, ?_⟩, ?_⟩
  · have pos : ∀ l : List ℝ, 0 ≤ (l.map fun v : ℝ => |v| ^ p).sum := by
      intro l
      apply List.sum_nonneg
      simp only [List.mem_map]
      rintro _ ⟨v, _, rfl⟩
      positivity
    have e : ∀ l : List ℝ, ((l.map fun v : ℝ => |v| ^ p).sum ^ (1 / p)) ^ p = (l.map fun v : ℝ => |v| ^ p).sum := by
      intro l
      rw [← Real.rpow_mul (pos l), one_div_mul_cancel hp.ne', Real.rpow_one]
    rw [e, e, e, List.map_append, List.sum_append]
  · obtain ⟨N, n1, n2, n3, n4⟩ := Vnorm.C41_maxnorm (fun v : ℝ => |v|) (x ++ y) fun v _ => abs_nonneg v
    obtain ⟨A, a1, a2, a3, a4⟩ := Vnorm.C41_maxnorm (fun v : ℝ => |v|) x fun v _ => abs_nonneg v
    obtain ⟨B, b1, b2, b3, b4⟩ := Vnorm.C41_maxnorm (fun v : ℝ => |v|) y fun v _ => abs_nonneg v
    refine ⟨N, A, B, n1, a1, b1, le_antisymm ?_ ?_⟩
    · rcases n4 with rfl | ⟨v, hv, rfl⟩
      · exact a2.trans (le_max_left _ _)
      · rcases List.mem_append.1 hv with h | h
        · exact (a3 v h).trans (le_max_left _ _)
        · exact (b3 v h).trans (le_max_right _ _)
    · apply max_le
      · rcases a4 with rfl | ⟨v, hv, rfl⟩
        · exact n2
        · exact n3 v (List.mem_append_left _ hv)
      · rcases b4 with rfl | ⟨v, hv, rfl⟩
        · exact n2
        · exact n3 v (List.mem_append_right _ hv)

/-- C124: kbnsum of two pieces is the sum of the pieces' sums, wherever the three arrays lie. -/
theorem C124_kbnsum {K : Type _} [Field K] [LinearOrder K] [IsStrictOrderedRing K] (m : Mem (XF K)) (p s w p1 s1 w1 p2 s2 w2 : Int)
    (x y : List K) (h : elems m p s (x ++ y).length = (x ++ y).map .fin) (h1 : elems m p1 s1 x.length = x.map .fin)
    (h2 : elems m p2 s2 y.length = y.map .fin) :
    Kbnsum.kbnsum id m p s w (x ++ y).length = XF.add (Kbnsum.kbnsum id m p1 s1 w1 x.length) (Kbnsum.kbnsum id m p2 s2 w2 y.length) := by
  rw [Kbnsum.C37_finite_sum m p s w _ h, Kbnsum.C37_finite_sum m p1 s1 w1 _ h1, Kbnsum.C37_finite_sum m p2 s2 w2 _ h2, List.sum_append]
  rfl

/-- C124: meanvar with ddof = 0: the means are averaged with the lengths as weights, and so are the
variances, plus the variance of the two means. -/
theorem C124_meanvar {K : Type _} [Field K] [LinearOrder K] [IsStrictOrderedRing K] (x y : List K) (hx : x ≠ []) (hy : y ≠ []) :
    ∃ m v m1 v1 m2 v2 : K, Meanvar.meanvar id (x ++ y) 0 = (.fin m, .fin v) ∧ Meanvar.meanvar id x 0 = (.fin m1, .fin v1) ∧
      Meanvar.meanvar id y 0 = (.fin m2, .fin v2) ∧
      m = ((x.length : K) * m1 + y.length * m2) / (x.length + y.length) ∧
      v = ((x.length : K) * v1 + y.length * v2) / (x.length + y.length) +
        (x.length : K) * y.length * (m1 - m2) ^ 2 / (x.length + y.length) ^ 2 := by
  have lx : (0 : K) < x.length := by exact_mod_cast List.length_pos_iff.2 hx
  have ly : (0 : K) < y.length := by exact_mod_cast List.length_pos_iff.2 hy
  have key : ∀ l : List K, l ≠ [] → Meanvar.meanvar id l 0 =
      (.fin (l.sum / l.length), .fin ((l.map (· ^ 2)).sum / l.length - (l.sum / l.length) ^ 2)) := by
    intro l hl
    have hn : (l.length : K) ≠ 0 := by simpa using hl
    rw [Meanvar.C36_meanvar l 0 hl, Meanvar.sumSq_expand]
    simp only [Meanvar.Spec.mean, Int.cast_zero, sub_zero]
    rw [XF.div_fin _ _ hn]
    congr 2
    field_simp
    ring
  refine ⟨_, _, _, _, _, _, key _ (by simp [hx]), key x hx, key y hy, ?_, ?_⟩
  · rw [List.sum_append, List.length_append]; push_cast; field_simp
  · rw [List.sum_append, List.length_append, List.map_append, List.sum_append]
    push_cast
    generalize x.sum = a, y.sum = b, (x.map (· ^ 2)).sum = c, (y.map (· ^ 2)).sum = d
    field_simp
    ring

/-- C124: hmean, gmean and pmean of two pieces of positive numbers are combined by adding `n/hmean`,
`n log gmean` and `n pmean^p`. -/
theorem C124_means (x y : List ℝ) (hx : x ≠ []) (hy : y ≠ []) (px : ∀ a ∈ x, 0 < a) (py : ∀ a ∈ y, 0 < a) (p : ℝ) (hp : 2e-6 ≤ |p|) :
    let n : ℝ := x.length
    let k : ℝ := y.length
    (∃ H A B, Means.hmean ((x ++ y).map .fin) = some (.fin H) ∧ Means.hmean (x.map .fin) = some (.fin A) ∧ Means.hmean (y.map .fin) = some (.fin B) ∧
      (n + k) / H = n / A + k / B) ∧
    (∃ G A B, Means.gmean ((x ++ y).map .fin) = some (.fin G) ∧ Means.gmean (x.map .fin) = some (.fin A) ∧ Means.gmean (y.map .fin) = some (.fin B) ∧
      (n + k) * Real.log G = n * Real.log A + k * Real.log B) ∧
    (∃ P A B, Means.pmean ((x ++ y).map .fin) (.fin p) = some (.fin P) ∧ Means.pmean (x.map .fin) (.fin p) = some (.fin A) ∧
      Means.pmean (y.map .fin) (.fin p) = some (.fin B) ∧ (n + k) * P ^ p = n * A ^ p + k * B ^ p) := by
  intro n k
  have pxy : ∀ a ∈ x ++ y, 0 < a := fun a ha => (List.mem_append.1 ha).elim (px a) (py a)
  have hxy : x ++ y ≠ [] := by simp [hx]
  have len : ∀ l : List ℝ, l ≠ [] → (l.length : ℝ) ≠ 0 := by intro l hl; simpa using hl
  have p0 : p ≠ 0 := by rintro rfl; norm_num at hp
  refine ⟨⟨_, _, _, Means.C65_hmean _ hxy pxy, Means.C65_hmean _ hx px, Means.C65_hmean _ hy py, ?_⟩,
    ⟨_, _, _, Means.C65_gmean _ hxy pxy, Means.C65_gmean _ hx px, Means.C65_gmean _ hy py, ?_⟩,
    ⟨_, _, _, Means.C65_pmean _ p hxy hp (fun a ha => (pxy a ha).le) (.inr pxy), Means.C65_pmean _ p hx hp (fun a ha => (px a ha).le) (.inr px),
      Means.C65_pmean _ p hy hp (fun a ha => (py a ha).le) (.inr py), ?_⟩⟩
  · have e : ∀ l : List ℝ, l ≠ [] → (l.length : ℝ) / MeansSpec.harm l = (l.map fun a => 1 / a).sum := by
      intro l hl; rw [MeansSpec.harm, div_div_cancel₀ (len l hl)]
    have := e _ hxy
    rw [List.length_append, Nat.cast_add] at this
    rw [this, e x hx, e y hy, List.map_append, List.sum_append]
  · have e : ∀ l : List ℝ, l ≠ [] → (l.length : ℝ) * Real.log (MeansSpec.geo l) = (l.map Real.log).sum := by
      intro l hl; rw [MeansSpec.geo, Real.log_exp, mul_div_cancel₀ _ (len l hl)]
    have := e _ hxy
    rw [List.length_append, Nat.cast_add] at this
    rw [this, e x hx, e y hy, List.map_append, List.sum_append]
  · have e : ∀ l : List ℝ, l ≠ [] → (∀ a ∈ l, 0 < a) → (l.length : ℝ) * MeansSpec.power p l ^ p = (l.map fun a => a ^ p).sum := by
      intro l hl pl
      have h0 : 0 ≤ (l.map fun a => a ^ p).sum := by
        apply List.sum_nonneg
        simp only [List.mem_map]
        rintro _ ⟨v, hv, rfl⟩
        exact Real.rpow_nonneg (pl v hv).le p
      rw [MeansSpec.power, ← Real.rpow_mul (by positivity), one_div_mul_cancel p0, Real.rpow_one, mul_div_cancel₀ _ (len l hl)]
    have := e _ hxy pxy
    rw [List.length_append, Nat.cast_add] at this
    rw [this, e x hx px, e y hy py, List.map_append, List.sum_append]

/-- C124: softmax: inside a piece the proportions do not depend on the other piece: softmax of the
whole is softmax of each piece times the piece's share, and the shares add up to 1. -/
theorem C124_softmax (x y : List ℝ) (hx : x ≠ []) (hy : y ≠ []) :
    ∃ (c d : ℝ) (u v : List ℝ), 0 < c ∧ 0 < d ∧ c + d = 1 ∧ Softmax.softmax Real.exp (x.map .fin) = u.map .fin ∧
      Softmax.softmax Real.exp (y.map .fin) = v.map .fin ∧
      Softmax.softmax Real.exp ((x ++ y).map .fin) = (u.map (c * ·) ++ v.map (d * ·)).map .fin := by
  have key : ∀ l : List ℝ, l ≠ [] → Softmax.softmax Real.exp (l.map .fin) = (l.map fun a => Real.exp a / (l.map Real.exp).sum).map .fin := by
    intro l hl
    obtain ⟨a, ha⟩ := List.exists_mem_of_ne_nil l hl
    rw [Softmax.C35_formula (l.map .fin) (by simp) ⟨.fin a, by simpa using ha, rfl⟩, List.map_map, List.map_map, List.map_map]
    rfl
  have pos : ∀ l : List ℝ, l ≠ [] → 0 < (l.map Real.exp).sum := by
    intro l hl
    apply List.sum_pos
    · simp only [List.mem_map]; rintro _ ⟨a, _, rfl⟩; exact Real.exp_pos a
    · simpa using hl
  have hX := pos x hx
  have hY := pos y hy
  refine ⟨(x.map Real.exp).sum / ((x.map Real.exp).sum + (y.map Real.exp).sum), (y.map Real.exp).sum / ((x.map Real.exp).sum + (y.map Real.exp).sum),
    _, _, by positivity, by positivity, by field_simp, key x hx, key y hy, ?_⟩
  rw [key _ (by simp [hx])]
  congr 1
  rw [List.map_append, List.map_append, List.sum_append, List.map_map, List.map_map]
  congr 1
  · apply List.map_congr_left; intro a _; simp only [Function.comp]; field_simp
  · apply List.map_congr_left; intro a _; simp only [Function.comp]; field_simp

/-- C124: multivariate_logbeta of two pieces of positive parameters is the sum of the pieces' values and
the value for the two sums. -/
theorem C124_logbeta (size : Int) (m : Mem (XF ℝ)) (p s p1 s1 p2 s2 p3 s3 out : Int) (x y : List ℝ) (hx : x ≠ []) (hy : y ≠ [])
    (px : ∀ a ∈ x, 0 < a) (py : ∀ a ∈ y, 0 < a)
    (h : elems m p s (x ++ y).length = (x ++ y).map .fin) (h1 : elems m p1 s1 x.length = x.map .fin)
    (h2 : elems m p2 s2 y.length = y.map .fin) (h3 : elems m p3 s3 2 = [.fin x.sum, .fin y.sum]) :
    Logbeta.logbeta size m (x ++ y).length p s out out =
      XF.add (XF.add (Logbeta.logbeta size m x.length p1 s1 out out) (Logbeta.logbeta size m y.length p2 s2 out out))
        (Logbeta.logbeta size m 2 p3 s3 out out) := by
  have sx := Logbeta.sum_pos x hx px
  have sy := Logbeta.sum_pos y hy py
  rw [Logbeta.C66_logbeta size m _ p s out (x ++ y) h (by simp [hx]) (fun a ha => (List.mem_append.1 ha).elim (px a) (py a)),
    Logbeta.C66_logbeta size m _ p1 s1 out x h1 (by simpa using hx) px, Logbeta.C66_logbeta size m _ p2 s2 out y h2 (by simpa using hy) py,
    Logbeta.C66_logbeta size m 2 p3 s3 out [x.sum, y.sum] (by simpa using h3) (by simp) (by simp [sx, sy])]
  simp only [Mem.store, if_true, XF.add, LogbetaSpec.betaFn]
  congr 1
  have g : ∀ l : List ℝ, (∀ a ∈ l, 0 < a) → (l.map Real.Gamma).prod ≠ 0 := by
    intro l hl
    have : 0 < (l.map Real.Gamma).prod := by
      apply List.prod_pos
      simp only [List.mem_map]; rintro _ ⟨a, ha, rfl⟩; exact Real.Gamma_pos_of_pos (hl a ha)
    exact this.ne'
  have gx := (Real.Gamma_pos_of_pos sx).ne'
  have gy := (Real.Gamma_pos_of_pos sy).ne'
  have gz := (Real.Gamma_pos_of_pos (add_pos sx sy)).ne'
  simp only [List.map_append, List.prod_append, List.sum_append, List.map_cons, List.map_nil, List.prod_cons, List.prod_nil, List.sum_cons, List.sum_nil,
    mul_one, add_zero]
  rw [Real.log_div (mul_ne_zero (g x px) (g y py)) gz, Real.log_div (g x px) gx, Real.log_div (g y py) gy, Real.log_div (mul_ne_zero gx gy) gz,
    Real.log_mul (g x px) (g y py), Real.log_mul gx gy]
  ring

/-! ## Non-vacuity -/

example : ∃ m v : ℚ, Meanvar.meanvar id ([1, 3] ++ [8]) 0 = (.fin m, .fin v) ∧ m = 4 ∧ v = 26 / 3 := by
  refine ⟨4, 26 / 3, ?_, rfl, rfl⟩
  rw [Meanvar.C36_meanvar _ 0 (by simp)]
  simp [Meanvar.Spec.mean, Meanvar.Spec.sumSq, XF.div]
  norm_num
example : ∃ m : Mem (XF ℝ), elems m 0 1 ([1, 2] ++ [3]).length = ([1, 2] ++ [3] : List ℝ).map .fin ∧
    elems m 0 1 [(1 : ℝ), 2].length = [1, 2].map .fin ∧ elems m 2 1 [(3 : ℝ)].length = [3].map .fin ∧
    elems m 10 1 2 = [.fin ([1, 2] : List ℝ).sum, .fin ([3] : List ℝ).sum] :=
  ⟨fun a => if a = 0 then .fin 1 else if a = 1 then .fin 2 else if a = 2 then .fin 3 else if a = 10 then .fin (1 + 2) else .fin 3,
    by simp [elems, get, List.range_succ], by simp [elems, get, List.range_succ], by simp [elems, get, List.range_succ],
    by simp [elems, get, List.range_succ]⟩

end Ufunclab.Pieces
