import Verif.Model.Wjaccard
import Verif.Proof.XF
import Mathlib.Algebra.Order.BigOperators.Group.List
import Mathlib.Algebra.Order.Field.Rat
import Mathlib.Algebra.Field.Rat
import Mathlib.Tactic.Ring
import Mathlib.Tactic.Linarith
import Mathlib.Tactic.NormNum
/-! # Property C40: wjaccard -/
namespace Ufunclab.Wjaccard
variable {K : Type _} [Field K] [LinearOrder K] [IsStrictOrderedRing K]

omit [Field K] [IsStrictOrderedRing K] in
theorem stdMin_fin (a b : K) : stdMin (.fin a) (.fin b) = .fin (min a b) := by
  simp only [stdMin, XF.lt_fin, decide_eq_true_eq]
  split_ifs with h
  · rw [min_eq_right h.le]
  · rw [min_eq_left (not_lt.1 h)]
omit [Field K] [IsStrictOrderedRing K] in
theorem stdMax_fin (a b : K) : stdMax (.fin a) (.fin b) = .fin (max a b) := by
  simp only [stdMax, XF.lt_fin, decide_eq_true_eq]
  split_ifs with h
  · rw [max_eq_right h.le]
  · rw [max_eq_left (not_lt.1 h)]

/-- A pair of finite numbers. -/
def finPair (p : K × K) : XF K × XF K := (.fin p.1, .fin p.2)

theorem loop_exact (l : List (K × K)) (a b : K) :
    loop XF.add (.fin a) (.fin b) (l.map finPair) =
      some (.fin (a + (l.map (fun p => min p.1 p.2)).sum), .fin (b + (l.map (fun p => max p.1 p.2)).sum)) := by
  induction l generalizing a b with
  | nil => simp [loop]
  | cons p l ih =>
    simp only [List.map_cons, loop, finPair, XF.isnan_fin, Bool.or_self, Bool.false_eq_true, if_false,
      stdMin_fin, stdMax_fin, XF.add_fin, List.sum_cons]
    have := ih (a + min p.1 p.2) (b + max p.1 p.2)
    rw [this, add_assoc, add_assoc]

theorem wjaccard_exact (l : List (K × K)) (hne : l ≠ []) :
    wjaccard XF.add XF.div (l.map finPair) =
      if (l.map (fun p => max p.1 p.2)).sum = 0 then
        (if (l.map (fun p => min p.1 p.2)).sum = 0 then .nan else .ninf)
      else .fin ((l.map (fun p => min p.1 p.2)).sum / (l.map (fun p => max p.1 p.2)).sum) := by
  cases l with
  | nil => exact absurd rfl hne
  | cons p l =>
    have h1 : ((p :: l).map (fun p => max p.1 p.2)).sum =
      max p.1 p.2 + (l.map (fun p => max p.1 p.2)).sum := by simp
    have h2 : ((p :: l).map (fun p => min p.1 p.2)).sum =
      min p.1 p.2 + (l.map (fun p => min p.1 p.2)).sum := by simp
    have := loop_exact l (min p.1 p.2) (max p.1 p.2)
    rw [← h1, ← h2] at this
    generalize ((p :: l).map (fun p => max p.1 p.2)).sum = D at this ⊢
    generalize ((p :: l).map (fun p => min p.1 p.2)).sum = N at this ⊢
    simp only [List.map_cons, wjaccard, finPair, XF.isnan_fin, Bool.or_self, Bool.false_eq_true, if_false,
      stdMin_fin, stdMax_fin]
    simp only [this, XF.eq_fin, decide_eq_true_eq]
    split_ifs with h3
    · rfl
    · rfl
    · exact XF.div_fin _ _ h3

/-- C40: `wjaccard(x, y) = sum min(x,y) / sum max(x,y)` when the denominator is
positive; for non-negative data it is 0/0 = NaN exactly when all elements are 0. -/
theorem C40_formula (l : List (K × K)) (hne : l ≠ []) (hnn : ∀ p ∈ l, 0 ≤ p.1 ∧ 0 ≤ p.2) :
    ((∃ p ∈ l, p.1 ≠ 0 ∨ p.2 ≠ 0) → wjaccard XF.add XF.div (l.map finPair) =
      .fin ((l.map (fun p => min p.1 p.2)).sum / (l.map (fun p => max p.1 p.2)).sum)) ∧
    ((∀ p ∈ l, p.1 = 0 ∧ p.2 = 0) → wjaccard XF.add XF.div (l.map finPair) = .nan) := by
  constructor
  · rintro ⟨p, hp, hor⟩
    have hpos : 0 < (l.map (fun p => max p.1 p.2)).sum := by
      have h1 : max p.1 p.2 ≤ (l.map (fun p => max p.1 p.2)).sum :=
        List.single_le_sum (by
          intro z hz; obtain ⟨q, hq, rfl⟩ := List.mem_map.1 hz
          exact le_max_of_le_left (hnn q hq).1) _ (List.mem_map_of_mem (f := fun p => max p.1 p.2) hp)
      have h2 : 0 < max p.1 p.2 := by
        rcases hor with h | h
        · exact lt_max_of_lt_left (lt_of_le_of_ne (hnn p hp).1 h.symm)
        · exact lt_max_of_lt_right (lt_of_le_of_ne (hnn p hp).2 h.symm)
      linarith
    rw [wjaccard_exact l hne]
    simp [hpos.ne']
  · intro h0
    rw [wjaccard_exact l hne]
    have h1 : (l.map (fun p => max p.1 p.2)).sum = 0 := List.sum_eq_zero (by
      intro z hz; obtain ⟨q, hq, rfl⟩ := List.mem_map.1 hz; simp [h0 q hq])
    have h2 : (l.map (fun p => min p.1 p.2)).sum = 0 := List.sum_eq_zero (by
      intro z hz; obtain ⟨q, hq, rfl⟩ := List.mem_map.1 hz; simp [h0 q hq])
    simp [h1, h2]

omit [IsStrictOrderedRing K] in
theorem loop_rounded (rnd : K → K) (hmono : Monotone rnd) (h0 : rnd 0 = 0) [IsStrictOrderedRing K]
    (l : List (K × K)) (hnn : ∀ p ∈ l, 0 ≤ p.1 ∧ 0 ≤ p.2) (a b : K) (ha : 0 ≤ a) (hab : a ≤ b) :
    ∃ N D, loop (rounded rnd XF.add) (.fin a) (.fin b) (l.map finPair) = some (.fin N, .fin D) ∧
      0 ≤ N ∧ N ≤ D := by
  induction l generalizing a b with
  | nil => exact ⟨a, b, rfl, ha, hab⟩
  | cons p l ih =>
    obtain ⟨p1, p2⟩ := hnn p (by simp)
    have hmin : 0 ≤ min p.1 p.2 := le_min p1 p2
    have hmm : min p.1 p.2 ≤ max p.1 p.2 := min_le_max
    have n1 : 0 ≤ rnd (a + min p.1 p.2) := by rw [← h0]; exact hmono (by linarith)
    have n2 : rnd (a + min p.1 p.2) ≤ rnd (b + max p.1 p.2) := hmono (by linarith)
    obtain ⟨N, D, h1, h2, h3⟩ := ih (fun q hq => hnn q (by simp [hq])) _ _ n1 n2
    refine ⟨N, D, ?_, h2, h3⟩
    simp only [List.map_cons, loop, finPair, XF.isnan_fin, Bool.or_self, Bool.false_eq_true, if_false,
      stdMin_fin, stdMax_fin, rounded, XF.add_fin]
    exact h1

/-- C40: with non-negative data the result is NaN or in [0, 1], for exact arithmetic
(`rnd = id`) and for every monotone rounding with `rnd 0 = 0`, `rnd 1 = 1`. -/
theorem C40_range (rnd : K → K) (hmono : Monotone rnd) (h0 : rnd 0 = 0) (h1 : rnd 1 = 1)
    (l : List (K × K)) (hnn : ∀ p ∈ l, 0 ≤ p.1 ∧ 0 ≤ p.2) :
    wjaccard (rounded rnd XF.add) (rounded rnd XF.div) (l.map finPair) = .nan ∨
    ∃ v, wjaccard (rounded rnd XF.add) (rounded rnd XF.div) (l.map finPair) = .fin v ∧ 0 ≤ v ∧ v ≤ 1 := by
  cases l with
  | nil => left; rfl
  | cons p l =>
    obtain ⟨p1, p2⟩ := hnn p (by simp)
    obtain ⟨N, D, e1, e2, e3⟩ := loop_rounded rnd hmono h0 l (fun q hq => hnn q (by simp [hq]))
      (min p.1 p.2) (max p.1 p.2) (le_min p1 p2) min_le_max
    have hsimp : wjaccard (rounded rnd XF.add) (rounded rnd XF.div) ((p :: l).map finPair) =
        if D = 0 then (if N = 0 then .nan else .ninf) else rounded rnd XF.div (.fin N) (.fin D) := by
      simp only [List.map_cons, wjaccard, finPair, XF.isnan_fin, Bool.or_self, Bool.false_eq_true,
        if_false, stdMin_fin, stdMax_fin]
      simp only [e1, XF.eq_fin, decide_eq_true_eq]
    rw [hsimp]
    by_cases hD : D = 0
    · left
      have : N = 0 := le_antisymm (hD ▸ e3) e2
      simp [hD, this]
    · right
      have hDp : 0 < D := lt_of_le_of_ne (le_trans e2 e3) (Ne.symm hD)
      refine ⟨rnd (N / D), ?_, ?_, ?_⟩
      · rw [if_neg hD]; simp [rounded, XF.div_fin _ _ hD]
      · rw [← h0]; exact hmono (div_nonneg e2 hDp.le)
      · rw [← h1]; exact hmono ((div_le_one hDp).2 e3)

omit [Field K] [IsStrictOrderedRing K] in
theorem stdMin_comm (a b : XF K) (ha : XF.isnan a = false) (hb : XF.isnan b = false) :
    stdMin a b = stdMin b a := by
  cases a <;> cases b <;> simp_all [stdMin, XF.lt, XF.isnan]
  rename_i x y
  rcases lt_trichotomy x y with h | h | h
  · simp [h, not_lt.2 h.le]
  · simp [h]
  · simp [h, not_lt.2 h.le]
omit [Field K] [IsStrictOrderedRing K] in
theorem stdMax_comm (a b : XF K) (ha : XF.isnan a = false) (hb : XF.isnan b = false) :
    stdMax a b = stdMax b a := by
  cases a <;> cases b <;> simp_all [stdMax, XF.lt, XF.isnan]
  rename_i x y
  rcases lt_trichotomy x y with h | h | h
  · simp [h, not_lt.2 h.le]
  · simp [h]
  · simp [h, not_lt.2 h.le]

omit [Field K] [IsStrictOrderedRing K] in
theorem loop_swap (add : XF K → XF K → XF K) (l : List (XF K × XF K)) (a b : XF K) :
    loop add a b (l.map Prod.swap) = loop add a b l := by
  induction l generalizing a b with
  | nil => rfl
  | cons p l ih =>
    obtain ⟨x, y⟩ := p
    simp only [List.map_cons, Prod.swap, loop, Bool.or_comm (XF.isnan y) (XF.isnan x)]
    by_cases h : (XF.isnan x || XF.isnan y) = true
    · simp only [h, if_true]
    · simp only [h, Bool.false_eq_true, if_false]
      have hx : XF.isnan x = false := by cases hq : XF.isnan x <;> simp_all
      have hy : XF.isnan y = false := by cases hq : XF.isnan y <;> simp_all
      rw [stdMin_comm y x hy hx, stdMax_comm y x hy hx]
      exact ih _ _

omit [IsStrictOrderedRing K] in
/-- C40: symmetric, for all inputs (negative, infinite, NaN) and any arithmetic. -/
theorem C40_symmetric (add div : XF K → XF K → XF K) (l : List (XF K × XF K)) :
    wjaccard add div (l.map Prod.swap) = wjaccard add div l := by
  cases l with
  | nil => rfl
  | cons p l =>
    obtain ⟨x, y⟩ := p
    simp only [List.map_cons, Prod.swap, wjaccard, Bool.or_comm (XF.isnan y) (XF.isnan x)]
    by_cases h : (XF.isnan x || XF.isnan y) = true
    · simp only [h, if_true]
    · simp only [h, Bool.false_eq_true, if_false]
      have hx : XF.isnan x = false := by cases hq : XF.isnan x <;> simp_all
      have hy : XF.isnan y = false := by cases hq : XF.isnan y <;> simp_all
      rw [stdMin_comm y x hy hx, stdMax_comm y x hy hx]
      have hl := loop_swap add l (stdMin x y) (stdMax x y)
      rw [hl]

/-- C40: for non-negative data, not all zero, the similarity is 1 iff `x = y`. -/
theorem C40_one_iff (l : List (K × K)) (hnn : ∀ p ∈ l, 0 ≤ p.1 ∧ 0 ≤ p.2)
    (hpos : ∃ p ∈ l, p.1 ≠ 0 ∨ p.2 ≠ 0) :
    wjaccard XF.add XF.div (l.map finPair) = .fin 1 ↔ ∀ p ∈ l, p.1 = p.2 := by
  have hne : l ≠ [] := by rintro rfl; simp at hpos
  rw [(C40_formula l hne hnn).1 hpos]
  have hD : (l.map (fun p => max p.1 p.2)).sum ≠ 0 := by
    intro h
    obtain ⟨p, hp, hor⟩ := hpos
    have h1 : max p.1 p.2 ≤ (l.map (fun p => max p.1 p.2)).sum :=
      List.single_le_sum (by
        intro z hz; obtain ⟨q, hq, rfl⟩ := List.mem_map.1 hz
        exact le_max_of_le_left (hnn q hq).1) _ (List.mem_map_of_mem (f := fun p => max p.1 p.2) hp)
    rw [h] at h1
    have a := le_trans (le_max_left p.1 p.2) h1
    have b := le_trans (le_max_right p.1 p.2) h1
    rcases hor with h | h
    · exact h (le_antisymm a (hnn p hp).1)
    · exact h (le_antisymm b (hnn p hp).2)
  rw [XF.fin.injEq, div_eq_one_iff_eq hD]
  clear hD hpos hne hnn
  have hle : ∀ l : List (K × K), (l.map (fun p => min p.1 p.2)).sum ≤ (l.map (fun p => max p.1 p.2)).sum := by
    intro l
    induction l with
    | nil => simp
    | cons p l ih => simp only [List.map_cons, List.sum_cons]; linarith [min_le_max (a := p.1) (b := p.2)]
  induction l with
  | nil => simp
  | cons p l ih =>
    simp only [List.map_cons, List.sum_cons, List.mem_cons, forall_eq_or_imp]
    have h1 : min p.1 p.2 ≤ max p.1 p.2 := min_le_max
    have h2 := hle l
    refine Iff.trans ?_ (and_congr Iff.rfl ih)
    constructor
    · intro h
      have e1 : min p.1 p.2 = max p.1 p.2 := by linarith
      exact ⟨le_antisymm (le_trans (le_max_left _ _) (e1 ▸ min_le_right _ _)) (le_trans (le_max_right _ _) (e1 ▸ min_le_left _ _)), by linarith⟩
    · rintro ⟨e1, e2⟩
      rw [e1, e2]; simp

omit [Field K] [IsStrictOrderedRing K] in
theorem loop_nan (add : XF K → XF K → XF K) (l : List (XF K × XF K)) (a b : XF K)
    (h : ∃ p ∈ l, p.1 = .nan ∨ p.2 = .nan) : loop add a b l = none := by
  induction l generalizing a b with
  | nil => simp at h
  | cons p l ih =>
    obtain ⟨x, y⟩ := p
    simp only [loop]
    by_cases hn : (XF.isnan x || XF.isnan y) = true
    · rw [if_pos hn]
    · rw [if_neg hn]
      apply ih
      obtain ⟨q, hq, hor⟩ := h
      rcases List.mem_cons.1 hq with rfl | hq
      · exfalso; apply hn
        rcases hor with h | h <;> simp only at h <;> subst h <;> simp
      · exact ⟨q, hq, hor⟩

omit [IsStrictOrderedRing K] in
/-- C40: any NaN in `x` or `y` gives NaN. -/
theorem C40_nan (add div : XF K → XF K → XF K) (l : List (XF K × XF K))
    (h : ∃ p ∈ l, p.1 = .nan ∨ p.2 = .nan) : wjaccard add div l = .nan := by
  cases l with
  | nil => rfl
  | cons p l =>
    obtain ⟨x, y⟩ := p
    simp only [wjaccard]
    by_cases hn : (XF.isnan x || XF.isnan y) = true
    · rw [if_pos hn]
    · rw [if_neg hn, loop_nan]
      obtain ⟨q, hq, hor⟩ := h
      rcases List.mem_cons.1 hq with rfl | hq
      · exfalso; apply hn
        rcases hor with h | h <;> simp only at h <;> subst h <;> simp
      · exact ⟨q, hq, hor⟩

/-! ### Non-vacuity: x = [1, 0, 3], y = [2, 0, 1]: (1+0+1)/(2+0+3) -/
example : wjaccard XF.add XF.div ([((1 : ℚ), 2), (0, 0), (3, 1)].map finPair) = .fin (2 / 5) := by
  rw [(C40_formula _ (by simp) (by simp)).1 ⟨(1, 2), by simp⟩]; norm_num
example : Monotone (id : ℚ → ℚ) ∧ (id : ℚ → ℚ) 0 = 0 ∧ (id : ℚ → ℚ) 1 = 1 := ⟨monotone_id, rfl, rfl⟩

end Ufunclab.Wjaccard
