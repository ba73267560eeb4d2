import Verif.Model.MinMax
import Verif.Spec.MinMax
namespace Ufunclab.MinMax
open Spec
variable {α : Type _}

theorem maxArgmaxLoop_eq (lt : α → α → Bool) (k : Nat) (v : α) (i : Nat) (xs : List α) :
    maxArgmaxLoop lt k v i xs = minArgminLoop (fun a b => lt b a) k v i xs := by
  induction xs generalizing k v i with
  | nil => rfl
  | cons x xs ih => simp only [maxArgmaxLoop, minArgminLoop, ih]

theorem argminLoop_eq (lt : α → α → Bool) (k : Nat) (v : α) (i : Nat) (xs : List α) :
    argminLoop lt k v i xs = (minArgminLoop lt k v i xs).2 := by
  induction xs generalizing k v i with
  | nil => rfl
  | cons x xs ih => simp only [argminLoop, minArgminLoop, ih]; split <;> rfl

theorem argmaxLoop_eq (lt : α → α → Bool) (k : Nat) (v : α) (i : Nat) (xs : List α) :
    argmaxLoop lt k v i xs = (maxArgmaxLoop lt k v i xs).2 := by
  induction xs generalizing k v i with
  | nil => rfl
  | cons x xs ih => simp only [argmaxLoop, maxArgmaxLoop, ih]; split <;> rfl

theorem minmaxLoop_eq (lt : α → α → Bool) (k : Nat) (a b : α) (i j : Nat) (xs : List α) :
    minmaxLoop lt a b xs = ((minArgminLoop lt k a i xs).1, (maxArgmaxLoop lt k b j xs).1) := by
  induction xs generalizing k a b i j with
  | nil => rfl
  | cons x xs ih =>
    simp only [minmaxLoop, minArgminLoop, maxArgmaxLoop, stdMin, stdMax]
    rw [ih (k + 1) _ _ (if lt x a then k else i) (if lt b x then k else j)]
    split <;> split <;> rfl

theorem argminmaxLoop_eq (lt : α → α → Bool)
    (htrans : ∀ a b c, lt a b = true → lt b c = true → lt a c = true)
    (k : Nat) (a b : α) (hab : lt b a = false) (i j : Nat) (xs : List α) :
    argminmaxLoop lt k a b i j xs = ((minArgminLoop lt k a i xs).2, (maxArgmaxLoop lt k b j xs).2) := by
  induction xs generalizing k a b i j with
  | nil => rfl
  | cons x xs ih =>
    simp only [argminmaxLoop, minArgminLoop, maxArgmaxLoop]
    by_cases h1 : lt x a = true
    · have h2 : lt b x = false := by
        cases h : lt b x with
        | false => rfl
        | true => exact absurd (htrans b x a h h1) (by simp [hab])
      simp only [h1, h2, if_true, Bool.false_eq_true, if_false]
      exact ih _ _ _ h2 _ _
    · by_cases h2 : lt b x = true
      · simp only [h1, h2, if_true, Bool.false_eq_true, if_false]
        exact ih _ _ _ (by simpa using h1) _ _
      · simp only [h1, h2, Bool.false_eq_true, if_false]
        exact ih _ _ _ hab _ _

theorem minArgminLoop_spec (lt : α → α → Bool) (isnan : α → Bool) (h : NanOrder lt isnan)
    (xs : List α) (pre : List α) (i : Nat) (v : α) (hi : IsFirstMin lt isnan pre i v) :
    IsFirstMin lt isnan (pre ++ xs) (minArgminLoop lt pre.length v i xs).2
      (minArgminLoop lt pre.length v i xs).1 := by
  induction xs generalizing pre i v with
  | nil => simpa [minArgminLoop] using hi
  | cons x xs ih =>
    have hlen : pre.length + 1 = (pre ++ [x]).length := by simp
    have happ : pre ++ x :: xs = (pre ++ [x]) ++ xs := by simp
    simp only [minArgminLoop]
    rw [happ, hlen]
    by_cases hx : lt x v = true
    · simp only [hx, if_true]
      apply ih
      refine ⟨by simp, h.nan_left x v hx, ?_, ?_⟩
      · intro y hy
        rcases List.mem_append.1 hy with hy | hy
        · cases hyx : lt y x with
          | false => rfl
          | true =>
            have := h.trans y x v hyx hx
            rw [hi.least y hy] at this; simp at this
        · simp only [List.mem_singleton] at hy; subst hy; exact h.irrefl _
      · intro j hj y hy
        rw [List.getElem?_append_left hj] at hy
        by_cases hyn : isnan y = true
        · exact Or.inl hyn
        · right
          cases hxy : lt x y with
          | true => rfl
          | false =>
            have := h.negTrans x y v (by simpa using hyn) hxy (hi.least y (List.mem_of_getElem? hy))
            rw [hx] at this; simp at this
    · simp only [hx, Bool.false_eq_true, if_false]
      apply ih
      have hil : i < pre.length := by
        have := hi.at_index
        rcases Nat.lt_or_ge i pre.length with h | h
        · exact h
        · rw [List.getElem?_eq_none h] at this; simp at this
      refine ⟨by rw [List.getElem?_append_left hil]; exact hi.at_index, hi.not_nan, ?_, ?_⟩
      · intro y hy
        rcases List.mem_append.1 hy with hy | hy
        · exact hi.least y hy
        · simp only [List.mem_singleton] at hy; subst hy; simpa using hx
      · intro j hj y hy
        rw [List.getElem?_append_left (by omega)] at hy
        exact hi.first j hj y hy

theorem minArgmin_first (lt : α → α → Bool) (isnan : α → Bool) (h : NanOrder lt isnan)
    (x0 : α) (xs : List α) (hn : isnan x0 = false) :
    IsFirstMin lt isnan (x0 :: xs) (minArgmin lt x0 xs).2 (minArgmin lt x0 xs).1 := by
  have := minArgminLoop_spec lt isnan h xs [x0] 0 x0
    ⟨rfl, hn, by simp [h.irrefl], by omega⟩
  simpa [minArgmin] using this

theorem minArgminLoop_nan (lt : α → α → Bool) (isnan : α → Bool) (h : NanOrder lt isnan)
    (k : Nat) (v : α) (i : Nat) (hn : isnan v = true) (xs : List α) :
    minArgminLoop lt k v i xs = (v, i) := by
  induction xs generalizing k with
  | nil => rfl
  | cons x xs ih =>
    have : lt x v = false := by
      cases hx : lt x v with
      | false => rfl
      | true => have := h.nan_right x v hx; rw [hn] at this; simp at this
    simp only [minArgminLoop, this, Bool.false_eq_true, if_false, ih]

theorem argextObjLoop_eq (test : α → α → Option Bool) (k : Nat) (v : α) (i : Nat) (xs : List α) :
    argextObjLoop test k v i xs = (extArgextObjLoop test k v i xs).map Prod.snd := by
  induction xs generalizing k v i with
  | nil => rfl
  | cons x xs ih =>
    simp only [argextObjLoop, extArgextObjLoop]
    split <;> simp [ih]

theorem extArgextObjLoop_pure (lt : α → α → Bool) (k : Nat) (v : α) (i : Nat) (xs : List α) :
    extArgextObjLoop (fun a b => some (lt a b)) k v i xs = some (minArgminLoop lt k v i xs) := by
  induction xs generalizing k v i with
  | nil => rfl
  | cons x xs ih =>
    simp only [extArgextObjLoop, minArgminLoop]
    cases lt x v <;> simp [ih]

theorem minmaxObjLoop_pure (lt : α → α → Bool)
    (htrans : ∀ a b c, lt a b = true → lt b c = true → lt a c = true)
    (a b : α) (hab : lt b a = false) (xs : List α) :
    minmaxObjLoop (fun a b => some (lt a b)) (fun a b => some (lt b a)) a b xs
      = some (minmaxLoop lt a b xs) := by
  induction xs generalizing a b with
  | nil => rfl
  | cons x xs ih =>
    simp only [minmaxObjLoop, minmaxLoop, stdMin, stdMax]
    cases h1 : lt x a with
    | true =>
      have h2 : lt b x = false := by
        cases h : lt b x with
        | false => rfl
        | true => exact absurd (htrans b x a h h1) (by simp [hab])
      simp only [h2, if_true, Bool.false_eq_true, if_false]
      exact ih _ _ h2
    | false =>
      cases h2 : lt b x with
      | true => simp only [if_true, Bool.false_eq_true, if_false]; exact ih _ _ h1
      | false => simp only [Bool.false_eq_true, if_false]; exact ih _ _ hab

theorem argminmaxObjLoop_pure (lt : α → α → Bool) (k : Nat) (a b : α) (i j : Nat) (xs : List α) :
    argminmaxObjLoop (fun a b => some (lt a b)) (fun a b => some (lt b a)) k a b i j xs
      = some (argminmaxLoop lt k a b i j xs) := by
  induction xs generalizing k a b i j with
  | nil => rfl
  | cons x xs ih =>
    simp only [argminmaxObjLoop, argminmaxLoop]
    cases h1 : lt x a with
    | true => simp [ih]
    | false => cases h2 : lt b x <;> simp [ih]

/-- The search fails iff some comparison with the running extreme raises. -/
theorem extArgextObjLoop_none (test : α → α → Option Bool) (k : Nat) (v : α) (i : Nat)
    (xs : List α) :
    extArgextObjLoop test k v i xs = none ↔
      ∃ pre x post w j, xs = pre ++ x :: post ∧
        extArgextObjLoop test k v i pre = some (w, j) ∧ test x w = none := by
  induction xs generalizing k v i with
  | nil => simp [extArgextObjLoop]
  | cons y ys ih =>
    simp only [extArgextObjLoop]
    constructor
    · intro h
      cases ht : test y v with
      | none => exact ⟨[], y, ys, v, i, rfl, rfl, ht⟩
      | some b =>
        cases b <;> simp only [ht] at h
        · obtain ⟨pre, x, post, w, j, h1, h2, h3⟩ := (ih _ _ _).1 h
          exact ⟨y :: pre, x, post, w, j, by simp [h1], by simp [extArgextObjLoop, ht, h2], h3⟩
        · obtain ⟨pre, x, post, w, j, h1, h2, h3⟩ := (ih _ _ _).1 h
          exact ⟨y :: pre, x, post, w, j, by simp [h1], by simp [extArgextObjLoop, ht, h2], h3⟩
    · rintro ⟨pre, x, post, w, j, h1, h2, h3⟩
      cases pre with
      | nil =>
        simp only [List.nil_append, List.cons.injEq] at h1
        simp only [extArgextObjLoop, Option.some.injEq, Prod.mk.injEq] at h2
        rw [h1.1, h2.1, h3]
      | cons p pre =>
        simp only [List.cons_append, List.cons.injEq] at h1
        obtain ⟨rfl, h1⟩ := h1
        simp only [extArgextObjLoop] at h2
        cases ht : test y v with
        | none => rfl
        | some b =>
          cases b <;> simp only [ht] at h2 ⊢
          · exact (ih _ _ _).2 ⟨pre, x, post, w, j, h1, h2, h3⟩
          · exact (ih _ _ _).2 ⟨pre, x, post, w, j, h1, h2, h3⟩

end Ufunclab.MinMax
