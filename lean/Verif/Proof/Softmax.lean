import Verif.Model.Softmax
import Verif.Proof.XF
import Mathlib.Analysis.SpecialFunctions.Exp
import Mathlib.Algebra.Order.BigOperators.Group.List
import Mathlib.Algebra.BigOperators.Ring.List
namespace Ufunclab.Softmax

theorem isPosInf_iff {K : Type _} [LinearOrder K] [Field K] (x : XF K) :
    isPosInf x = true ↔ x = .pinf := by
  cases x <;> simp [isPosInf, XF.isinf, XF.lt]

section
variable {K : Type _} [Field K] [LinearOrder K]

theorem scan_hasNan (k np idx : Nat) (m : XF K) (xs : List (XF K)) :
    (scan k np idx m xs).hasNan = xs.any XF.isnan := by
  induction xs generalizing k np idx m with
  | nil => rfl
  | cons x xs ih =>
    simp only [scan, List.any_cons]
    cases h : XF.isnan x <;> simp [ih]

theorem scan_nposinf (k np idx : Nat) (m : XF K) (xs : List (XF K)) (hn : ∀ x ∈ xs, XF.isnan x = false) :
    (scan k np idx m xs).nposinf = np + xs.countP isPosInf := by
  induction xs generalizing k np idx m with
  | nil => rfl
  | cons x xs ih =>
    have hx := hn x (by simp)
    simp only [scan, hx, Bool.false_eq_true, if_false]
    rw [ih _ _ _ _ (fun y hy => hn y (by simp [hy])), List.countP_cons]
    split <;> omega

theorem scan_index (k np idx : Nat) (m : XF K) (xs : List (XF K)) (h : ∀ x ∈ xs, isPosInf x = false) :
    (scan k np idx m xs).posinfIndex = idx := by
  induction xs generalizing k np idx m with
  | nil => rfl
  | cons x xs ih =>
    simp only [scan]
    split
    · rfl
    · rw [ih _ _ _ _ (fun y hy => h y (by simp [hy]))]
      simp [h x (by simp)]

theorem scan_index_one (k np idx : Nat) (m : XF K) (xs ys : List (XF K))
    (hn : ∀ x ∈ xs, XF.isnan x = false) (h : ∀ x ∈ ys, isPosInf x = false) :
    (scan k np idx m (xs ++ .pinf :: ys)).posinfIndex = k + xs.length := by
  induction xs generalizing k np idx m with
  | nil =>
    have : isPosInf (.pinf : XF K) = true := (isPosInf_iff _).2 rfl
    have hb : XF.isnan (.pinf : XF K) = false := rfl
    simp only [List.nil_append, scan, hb, Bool.false_eq_true, if_false]
    rw [scan_index _ _ _ _ _ h]; simp [this]
  | cons x xs ih =>
    have hx := hn x (by simp)
    simp only [List.cons_append, scan, hx, Bool.false_eq_true, if_false]
    rw [ih _ _ _ _ (fun y hy => hn y (by simp [hy]))]
    simp; omega

theorem lt_trans_ff {a b c : XF K} (h1 : XF.lt a b = false) (h2 : XF.lt b c = false)
    (hb : XF.isnan b = false) : XF.lt a c = false := by
  cases a <;> cases b <;> cases c <;> simp [XF.lt, XF.isnan] at *
  exact le_trans h2 h1

theorem lt_asymm {a b : XF K} (h : XF.lt a b = true) : XF.lt b a = false := by
  cases a <;> cases b <;> simp [XF.lt] at *
  exact h.le

theorem lt_irrefl (a : XF K) : XF.lt a a = false := by cases a <;> simp [XF.lt]

theorem scan_max (k np idx : Nat) (hk : 0 < k) (m : XF K) (xs : List (XF K)) (hm : XF.isnan m = false)
    (hn : ∀ x ∈ xs, XF.isnan x = false) :
    (scan k np idx m xs).xmax ∈ m :: xs ∧ ∀ x ∈ m :: xs, XF.lt (scan k np idx m xs).xmax x = false := by
  induction xs generalizing k np idx m with
  | nil => simp [scan, lt_irrefl]
  | cons x xs ih =>
    have hx := hn x (by simp)
    simp only [scan, hx, Bool.false_eq_true, if_false]
    have hk0 : k ≠ 0 := by omega
    have hns : ∀ y ∈ xs, XF.isnan y = false := fun y hy => hn y (by simp [hy])
    cases hlt : XF.lt m x with
    | true =>
      simp only [or_true, if_true]
      obtain ⟨h1, h2⟩ := ih (k + 1) _ _ (by omega) x hx hns
      refine ⟨List.mem_cons_of_mem _ h1, ?_⟩
      intro y hy
      rcases List.mem_cons.1 hy with rfl | hy
      · exact lt_trans_ff (h2 x (by simp)) (lt_asymm hlt) hx
      · exact h2 y hy
    | false =>
      simp only [hk0, Bool.false_eq_true, or_false, if_false]
      obtain ⟨h1, h2⟩ := ih (k + 1) (if isPosInf x then np + 1 else np) (if isPosInf x then k else idx) (by omega) m hm hns
      refine ⟨?_, ?_⟩
      · rcases List.mem_cons.1 h1 with h | h
        · rw [h]; simp
        · simp [h]
      · intro y hy
        rcases List.mem_cons.1 hy with rfl | hy
        · exact h2 y (by simp)
        rcases List.mem_cons.1 hy with rfl | hy
        · exact lt_trans_ff (h2 m (by simp)) hlt hm
        · exact h2 y (by simp [hy])

/-- The running maximum is the maximum. -/
theorem scan_max0 (xs : List (XF K)) (hne : xs ≠ []) (hn : ∀ x ∈ xs, XF.isnan x = false) :
    (scan 0 0 0 (.fin 0) xs).xmax ∈ xs ∧
      ∀ x ∈ xs, XF.lt (scan 0 0 0 (.fin 0) xs).xmax x = false := by
  cases xs with
  | nil => exact absurd rfl hne
  | cons x xs =>
    have hx := hn x (by simp)
    simp only [scan, hx, Bool.false_eq_true, if_false, true_or, if_true]
    exact scan_max 1 _ _ (by omega) x xs hx (fun y hy => hn y (by simp [hy]))

end

/-- Weight of an input: `exp x`, with `exp(-inf) = 0`. -/
noncomputable def weight : XF ℝ → ℝ
  | .fin a => Real.exp a
  | _ => 0

theorem xexp_sub (v : XF ℝ) (M : ℝ) (hn : XF.isnan v = false) (hp : v ≠ .pinf) :
    xexp Real.exp (XF.sub v (.fin M)) = .fin (weight v * Real.exp (-M)) := by
  cases v with
  | nan => simp [XF.isnan] at hn
  | pinf => simp at hp
  | ninf => simp [XF.sub, XF.add, XF.neg, xexp, weight]
  | fin a => simp [xexp, weight, sub_eq_add_neg, Real.exp_add]

theorem foldl_exp (M : ℝ) (x : List (XF ℝ)) (acc : ℝ)
    (h : ∀ v ∈ x, XF.isnan v = false ∧ v ≠ .pinf) :
    x.foldl (fun acc v => XF.add acc (xexp Real.exp (XF.sub v (.fin M)))) (.fin acc) =
      .fin (acc + (x.map weight).sum * Real.exp (-M)) := by
  induction x generalizing acc with
  | nil => simp
  | cons v x ih =>
    have hv := h v (by simp)
    simp only [List.foldl_cons, xexp_sub v M hv.1 hv.2, XF.add_fin, List.map_cons, List.sum_cons]
    rw [ih _ (fun w hw => h w (by simp [hw]))]
    congr 1; ring

theorem weight_nonneg (v : XF ℝ) : 0 ≤ weight v := by
  cases v <;> simp [weight, Real.exp_nonneg]

theorem sum_weight_pos (x : List (XF ℝ)) (hf : ∃ v ∈ x, XF.isfinite v = true) :
    0 < (x.map weight).sum := by
  obtain ⟨v, hv, hfin⟩ := hf
  obtain ⟨a, rfl⟩ := (XF.isfinite_iff v).1 hfin
  have h1 : weight (.fin a) ≤ (x.map weight).sum :=
    List.single_le_sum (by intro y hy; obtain ⟨w, _, rfl⟩ := List.mem_map.1 hy; exact weight_nonneg w)
      _ (List.mem_map_of_mem hv)
  exact lt_of_lt_of_le (Real.exp_pos a) h1

theorem softmax_formula (x : List (XF ℝ)) (h : ∀ v ∈ x, XF.isnan v = false ∧ v ≠ .pinf)
    (hf : ∃ v ∈ x, XF.isfinite v = true) :
    ∃ M : ℝ, .fin M ∈ x ∧ (∀ a, .fin a ∈ x → a ≤ M) ∧ (scan 0 0 0 (.fin 0) x).xmax = .fin M ∧
    softmax Real.exp x = x.map (fun v => .fin (weight v / (x.map weight).sum)) := by
  have hne : x ≠ [] := by rintro rfl; simp at hf
  have hnan : ∀ v ∈ x, XF.isnan v = false := fun v hv => (h v hv).1
  obtain ⟨hm1, hm2⟩ := scan_max0 x hne hnan
  have hfm : ∃ M, (scan 0 0 0 (.fin 0) x).xmax = .fin M := by
    obtain ⟨v, hv, hfin⟩ := hf
    obtain ⟨a, rfl⟩ := (XF.isfinite_iff v).1 hfin
    have h1 := hm2 _ hv
    have h2 := h _ hm1
    cases hx : (scan 0 0 0 (.fin 0) x).xmax with
    | fin M => exact ⟨M, rfl⟩
    | nan => rw [hx] at h2; simp [XF.isnan] at h2
    | pinf => rw [hx] at h2; simp at h2
    | ninf => rw [hx] at h1; simp [XF.lt] at h1
  obtain ⟨M, hM⟩ := hfm
  rw [hM] at hm1 hm2
  refine ⟨M, hm1, ?_, hM, ?_⟩
  · intro a ha
    have := hm2 _ ha
    simpa using this
  · have hc : x.countP isPosInf = 0 := by
      rw [List.countP_eq_zero]; intro v hv hp
      exact (h v hv).2 ((isPosInf_iff v).1 hp)
    have hnn : x.any XF.isnan = false := by
      rw [List.any_eq_false]; intro v hv; simp [hnan v hv]
    simp only [softmax, scan_hasNan, scan_nposinf 0 0 0 _ x hnan, hM, hnn, hc]
    have : XF.eq (XF.fin M) XF.ninf = false := rfl
    simp only [this]
    simp only [Bool.or_false, Nat.zero_add, Nat.not_lt_zero, gt_iff_lt, Bool.false_or, decide_eq_true_eq]
    rw [if_neg (by simp), if_neg (by simp), foldl_exp M x 0 h, zero_add]
    apply List.map_congr_left
    intro v hv
    have hs := sum_weight_pos x hf
    have he := Real.exp_pos (-M)
    rw [xexp_sub v M (h v hv).1 (h v hv).2, XF.div_fin _ _ (by positivity)]
    congr 1
    rw [mul_div_mul_right _ _ he.ne']

end Ufunclab.Softmax
