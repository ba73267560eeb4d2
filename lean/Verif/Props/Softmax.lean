import Verif.Proof.Softmax
/-! # Property C35: softmax

`weight` (Proof/Softmax.lean) is `exp` with `exp(-inf) = 0`; the spec of softmax is
`weight x_i / sum_j weight x_j`. -/
namespace Ufunclab.Softmax

/-- C35: without NaN and +inf, and with at least one finite element, softmax is
`exp x_i / sum_j exp x_j` (an element -inf counts as `exp = 0`). -/
theorem C35_formula (x : List (XF ℝ)) (h : ∀ v ∈ x, XF.isnan v = false ∧ v ≠ .pinf)
    (hf : ∃ v ∈ x, XF.isfinite v = true) :
    softmax Real.exp x = x.map (fun v => .fin (weight v / (x.map weight).sum)) :=
  (softmax_formula x h hf).choose_spec.2.2.2

/-- C35 for finite data: the outputs are in (0,1], sum to 1, have ratios
`exp(x_i - x_j)`. -/
theorem C35_probability (x : List ℝ) (hne : x ≠ []) :
    ∃ y : List ℝ, softmax Real.exp (x.map .fin) = y.map .fin ∧ y.length = x.length ∧
      (∀ v ∈ y, 0 < v ∧ v ≤ 1) ∧ y.sum = 1 ∧
      ∀ i j (hi : i < y.length) (hj : j < y.length) (hi' : i < x.length) (hj' : j < x.length),
        y[i] / y[j] = Real.exp (x[i] - x[j]) := by
  have h := C35_formula (x.map .fin) (by simp) (by
    cases x with
    | nil => exact absurd rfl hne
    | cons a l => exact ⟨.fin a, by simp, rfl⟩)
  set S := ((x.map XF.fin).map weight).sum with hS
  have hS' : S = (x.map Real.exp).sum := by rw [hS, List.map_map]; rfl
  have hpos : 0 < S := sum_weight_pos _ (by
    cases x with
    | nil => exact absurd rfl hne
    | cons a l => exact ⟨.fin a, by simp, rfl⟩)
  refine ⟨x.map (fun a => Real.exp a / S), ?_, by simp, ?_, ?_, ?_⟩
  · rw [h, List.map_map, List.map_map]; rfl
  · intro v hv
    obtain ⟨a, ha, rfl⟩ := List.mem_map.1 hv
    refine ⟨div_pos (Real.exp_pos a) hpos, ?_⟩
    rw [div_le_one hpos, hS']
    exact List.single_le_sum (by intro y hy; obtain ⟨w, _, rfl⟩ := List.mem_map.1 hy; exact (Real.exp_pos w).le)
      _ (List.mem_map_of_mem ha)
  · have : ∀ (S : ℝ) (l : List ℝ),
        (l.map (fun a => Real.exp a / S)).sum = (l.map Real.exp).sum / S := by
      intro S l
      induction l with
      | nil => simp
      | cons a l ih => simp only [List.map_cons, List.sum_cons]; rw [ih]; ring
    rw [this, hS', div_self]; rw [← hS']; exact hpos.ne'
  · intro i j hi hj hi' hj'
    simp only [List.getElem_map]
    rw [div_div_div_cancel_right₀ hpos.ne', Real.exp_sub]

/-- C35 with some -inf elements: still a probability vector, with exact zeros at the
-inf positions. -/
theorem C35_probability_ninf (x : List (XF ℝ)) (h : ∀ v ∈ x, XF.isnan v = false ∧ v ≠ .pinf)
    (hf : ∃ v ∈ x, XF.isfinite v = true) :
    ∃ y : List ℝ, softmax Real.exp x = y.map .fin ∧ y.length = x.length ∧
      (∀ v ∈ y, 0 ≤ v ∧ v ≤ 1) ∧ y.sum = 1 ∧
      ∀ i (hi : i < y.length) (hi' : i < x.length), x[i] = .ninf → y[i] = 0 := by
  have hpos := sum_weight_pos x hf
  refine ⟨x.map (fun v => weight v / (x.map weight).sum), ?_, by simp, ?_, ?_, ?_⟩
  · rw [C35_formula x h hf, List.map_map]; rfl
  · intro v hv
    obtain ⟨a, ha, rfl⟩ := List.mem_map.1 hv
    refine ⟨div_nonneg (weight_nonneg a) hpos.le, ?_⟩
    rw [div_le_one hpos]
    exact List.single_le_sum (by intro y hy; obtain ⟨w, _, rfl⟩ := List.mem_map.1 hy; exact weight_nonneg w)
      _ (List.mem_map_of_mem ha)
  · have : ∀ (S : ℝ) (l : List (XF ℝ)),
        (l.map (fun v => weight v / S)).sum = (l.map weight).sum / S := by
      intro S l
      induction l with
      | nil => simp
      | cons a l ih => simp only [List.map_cons, List.sum_cons]; rw [ih]; ring
    rw [this, div_self hpos.ne']
  · intro i hi hi' hx
    simp [hx, weight]

/-- C35: order preserving. -/
theorem C35_order (x : List ℝ) (y : List ℝ) (hy : softmax Real.exp (x.map .fin) = y.map .fin)
    (i j : Nat) (hi : i < x.length) (hj : j < x.length) :
    ∃ (hi' : i < y.length) (hj' : j < y.length), y[i] < y[j] ↔ x[i] < x[j] := by
  have hne : x ≠ [] := by rintro rfl; simp at hi
  obtain ⟨z, h1, h2, h3, _, h5⟩ := C35_probability x hne
  have hzy : z = y := by
    rw [hy] at h1
    exact (List.map_injective_iff.2 (fun a b h => by cases h; rfl) h1).symm
  subst hzy
  refine ⟨by omega, by omega, ?_⟩
  have h6 := h5 i j (by omega) (by omega) hi hj
  have hp := (h3 (z[j]'(by omega)) (List.getElem_mem _)).1
  rw [div_eq_iff hp.ne'] at h6
  rw [h6]
  constructor
  · intro h
    have : Real.exp (x[i] - x[j]) < 1 := by
      by_contra hc
      have := mul_le_mul_of_nonneg_right (not_lt.1 hc) hp.le
      linarith
    rw [Real.exp_lt_one_iff] at this; linarith
  · intro h
    have : Real.exp (x[i] - x[j]) < 1 := by rw [Real.exp_lt_one_iff]; linarith
    have := mul_lt_mul_of_pos_right this hp
    linarith

/-- C35: adding a constant to all elements does not change the result. -/
theorem C35_shift (x : List ℝ) (c : ℝ) :
    softmax Real.exp ((x.map (· + c)).map .fin) = softmax Real.exp (x.map .fin) := by
  cases x with
  | nil => rfl
  | cons a l =>
    rw [C35_formula ((a :: l).map .fin) (by simp) ⟨.fin a, by simp, rfl⟩,
      C35_formula (((a :: l).map (· + c)).map .fin) (by simp) ⟨.fin (a + c), by simp, rfl⟩]
    have hs : ((((a :: l).map (· + c)).map XF.fin).map weight).sum =
        (((a :: l).map XF.fin).map weight).sum * Real.exp c := by
      generalize a :: l = m
      induction m with
      | nil => simp
      | cons b m ih =>
        simp only [List.map_cons, List.sum_cons] at ih ⊢
        rw [ih]; simp only [weight, Real.exp_add]; ring
    rw [hs]
    simp only [List.map_map]
    apply List.map_congr_left
    intro b _
    simp only [Function.comp, weight, Real.exp_add]
    rw [mul_div_mul_right _ _ (Real.exp_pos c).ne']

/-- C35, numerical safety of the algorithm: every exponent passed to `exp` is `≤ 0`
and one of them is 0, because the subtracted value is the maximum. -/
theorem C35_exponents (x : List (XF ℝ)) (h : ∀ v ∈ x, XF.isnan v = false ∧ v ≠ .pinf)
    (hf : ∃ v ∈ x, XF.isfinite v = true) :
    ∃ M : ℝ, (scan 0 0 0 (.fin 0) x).xmax = .fin M ∧ .fin M ∈ x ∧ ∀ a, .fin a ∈ x → a - M ≤ 0 := by
  obtain ⟨M, h1, h2, h3, _⟩ := softmax_formula x h hf
  exact ⟨M, h3, h1, fun a ha => by linarith [h2 a ha]⟩

variable {K : Type _} [Field K] [LinearOrder K]

/-- C35: exactly one +inf (and no NaN) gives the one-hot vector there. -/
theorem C35_one_inf (exp : K → K) (a b : List (XF K))
    (ha : ∀ v ∈ a ++ b, XF.isnan v = false ∧ v ≠ .pinf) :
    softmax exp (a ++ .pinf :: b) =
      List.replicate a.length (.fin 0) ++ .fin 1 :: List.replicate b.length (.fin 0) := by
  have hnan : ∀ v ∈ a ++ .pinf :: b, XF.isnan v = false := by
    intro v hv
    simp only [List.mem_append, List.mem_cons] at hv ha
    rcases hv with h | rfl | h
    · exact (ha v (.inl h)).1
    · rfl
    · exact (ha v (.inr h)).1
  have hp : ∀ v ∈ a ++ b, isPosInf v = false := by
    intro v hv
    have := (ha v hv).2
    cases hq : isPosInf v with
    | false => rfl
    | true => exact absurd ((isPosInf_iff v).1 hq) this
  have hc : (a ++ .pinf :: b).countP isPosInf = 1 := by
    rw [List.countP_append, List.countP_cons,
      List.countP_eq_zero.2 (fun v hv => by simp [hp v (by simp [hv])]),
      List.countP_eq_zero.2 (fun v hv => by simp [hp v (by simp [hv])])]
    simp [(isPosInf_iff (XF.pinf : XF K)).2 rfl]
  have hnn : (a ++ .pinf :: b).any XF.isnan = false := by
    rw [List.any_eq_false]; intro v hv; simp [hnan v hv]
  obtain ⟨hm1, hm2⟩ := scan_max0 (a ++ .pinf :: b) (by simp) hnan
  have hmax : XF.eq (scan 0 0 0 (.fin 0) (a ++ .pinf :: b)).xmax .ninf = false := by
    have h2 := hm2 .pinf (by simp)
    cases hx : (scan 0 0 0 (.fin 0) (a ++ .pinf :: b)).xmax with
    | ninf => rw [hx] at h2; simp [XF.lt] at h2
    | _ => rfl
  simp only [softmax, scan_hasNan, scan_nposinf 0 0 0 _ _ hnan, hnn, hc, hmax,
    scan_index_one 0 0 0 _ a b (fun v hv => (ha v (by simp [hv])).1) (fun v hv => hp v (by simp [hv]))]
  simp only [Nat.zero_add, gt_iff_lt, Nat.lt_irrefl, decide_false, Bool.or_false, Bool.false_eq_true,
    if_false, if_true]
  apply List.ext_getElem
  · simp
  · intro i h1 h2
    rw [List.getElem_set]
    rcases Nat.lt_trichotomy i a.length with h | h | h
    · rw [if_neg (by omega), List.getElem_append_left (by simpa using h)]; simp
    · rw [if_pos (by omega), List.getElem_append_right (by simp; omega)]; simp [h]
    · rw [if_neg (by omega), List.getElem_append_right (by simp; omega)]
      rw [List.getElem_cons, dif_neg (by simp; omega)]
      simp

/-- C35: NaN, two or more +inf, or all -inf: every output is NaN. -/
theorem C35_nan (exp : K → K) (x : List (XF K))
    (h : .nan ∈ x ∨ 1 < x.countP (fun v => decide (v = .pinf)) ∨ (x ≠ [] ∧ ∀ v ∈ x, v = .ninf)) :
    softmax exp x = List.replicate x.length .nan := by
  have hcond : ((scan 0 0 0 (.fin 0) x).hasNan || decide ((scan 0 0 0 (.fin 0) x).nposinf > 1) ||
      XF.eq (scan 0 0 0 (.fin 0) x).xmax .ninf) = true := by
    by_cases hn : x.any XF.isnan = true
    · simp [scan_hasNan, hn]
    · have hnan : ∀ v ∈ x, XF.isnan v = false := by
        intro v hv
        cases hq : XF.isnan v with
        | false => rfl
        | true => exact absurd (List.any_eq_true.2 ⟨v, hv, hq⟩) hn
      rcases h with h | h | ⟨h1, h2⟩
      · have := hnan _ h; simp [XF.isnan] at this
      · have : x.countP isPosInf = x.countP (fun v => decide (v = .pinf)) := by
          apply List.countP_congr
          intro v _
          simp [isPosInf_iff]
        simp only [scan_nposinf 0 0 0 _ x hnan, this, Nat.zero_add]
        simp [h]
      · have := (scan_max0 x h1 hnan).1
        rw [h2 _ this]
        simp [XF.eq]
  simp only [softmax, hcond, if_true]

/-! ### Non-vacuity -/
example : softmax (K := ℚ) (fun a => a) [.fin 3, .pinf, .ninf] = [.fin 0, .fin 1, .fin 0] := by
  simpa using C35_one_inf (K := ℚ) (fun a => a) [.fin 3] [.ninf] (by simp [XF.isnan])
example : ∃ y : List ℝ, softmax Real.exp [.fin 1, .fin 2] = y.map .fin ∧ y.sum = 1 := by
  obtain ⟨y, h1, _, _, h2, _⟩ := C35_probability [1, 2] (by simp)
  exact ⟨y, h1, h2⟩
example : ∀ v ∈ [XF.ninf, XF.fin (0 : ℝ)], XF.isnan v = false ∧ v ≠ .pinf := by simp [XF.isnan]

end Ufunclab.Softmax
