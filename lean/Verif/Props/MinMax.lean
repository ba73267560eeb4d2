import Verif.Proof.MinMax
/-! # Properties C14-C17: the minmax family

`minmax = (m.1, m.2)` is the pair (minimum, maximum); `argminmax` the pair of
indices; `minArgmin`/`maxArgmax` are (value, index). -/
namespace Ufunclab.MinMax
open Spec
variable {α : Type _}

/-- C14: argmin is the first index of a minimal element. -/
theorem C14_argmin (lt : α → α → Bool) (h : StrictWeak lt) (x0 : α) (xs : List α) :
    ∃ v, (x0 :: xs)[argmin lt x0 xs]? = some v ∧ (∀ y ∈ x0 :: xs, lt y v = false) ∧
      ∀ j < argmin lt x0 xs, ∀ y, (x0 :: xs)[j]? = some y → lt v y = true := by
  have := minArgmin_first lt _ h.nanOrder x0 xs rfl
  rw [argmin, argminLoop_eq]
  exact ⟨_, this.at_index, this.least, fun j hj y hy => by simpa using this.first j hj y hy⟩

/-- C14: argmax is the first index of a maximal element. -/
theorem C14_argmax (lt : α → α → Bool) (h : StrictWeak lt) (x0 : α) (xs : List α) :
    ∃ v, (x0 :: xs)[argmax lt x0 xs]? = some v ∧ (∀ y ∈ x0 :: xs, lt v y = false) ∧
      ∀ j < argmax lt x0 xs, ∀ y, (x0 :: xs)[j]? = some y → lt y v = true := by
  have := minArgmin_first _ _ h.nanOrder.flip x0 xs rfl
  rw [argmax, argmaxLoop_eq, maxArgmaxLoop_eq]
  exact ⟨_, this.at_index, this.least, fun j hj y hy => by simpa using this.first j hj y hy⟩

/-- C14: the values of minmax are elements of the array and bound it. -/
theorem C14_minmax (lt : α → α → Bool) (h : StrictWeak lt) (x0 : α) (xs : List α) :
    let m := minmax lt x0 xs
    m.1 ∈ x0 :: xs ∧ m.2 ∈ x0 :: xs ∧ ∀ y ∈ x0 :: xs, lt y m.1 = false ∧ lt m.2 y = false := by
  intro m
  have h1 := minArgmin_first lt _ h.nanOrder x0 xs rfl
  have h2 := minArgmin_first _ _ h.nanOrder.flip x0 xs rfl
  have hm : m = ((minArgmin lt x0 xs).1, (minArgmin (fun a b => lt b a) x0 xs).1) := by
    simp only [m, minmax, minArgmin]
    rw [minmaxLoop_eq lt 1 x0 x0 0 0, maxArgmaxLoop_eq]
  rw [hm]
  exact ⟨List.mem_of_getElem? h1.at_index, List.mem_of_getElem? h2.at_index,
    fun y hy => ⟨h1.least y hy, h2.least y hy⟩⟩

/-- C15: the six functions agree with each other, for every comparison that is
irreflexive and transitive (so also on float arrays containing NaN). -/
theorem C15_consistent (lt : α → α → Bool) (hirr : ∀ a, lt a a = false)
    (htrans : ∀ a b c, lt a b = true → lt b c = true → lt a c = true) (x0 : α) (xs : List α) :
    argminmax lt x0 xs = (argmin lt x0 xs, argmax lt x0 xs) ∧
    minArgmin lt x0 xs = ((minmax lt x0 xs).1, argmin lt x0 xs) ∧
    maxArgmax lt x0 xs = ((minmax lt x0 xs).2, argmax lt x0 xs) := by
  refine ⟨?_, ?_, ?_⟩
  · rw [argminmax, argminmaxLoop_eq lt htrans _ _ _ (hirr x0), argmin, argmax, argminLoop_eq,
      argmaxLoop_eq]
  · rw [minmax, minmaxLoop_eq lt 1 x0 x0 0 0, argmin, argminLoop_eq]; rfl
  · rw [minmax, minmaxLoop_eq lt 1 x0 x0 0 0, argmax, argmaxLoop_eq]; rfl

theorem minArgminLoop_at (lt : α → α → Bool) (pre xs : List α) (i : Nat) (v : α)
    (hi : pre[i]? = some v) :
    (pre ++ xs)[(minArgminLoop lt pre.length v i xs).2]? = some (minArgminLoop lt pre.length v i xs).1 := by
  induction xs generalizing pre i v with
  | nil => simpa [minArgminLoop] using hi
  | cons x xs ih =>
    have hlen : pre.length + 1 = (pre ++ [x]).length := by simp
    have happ : pre ++ x :: xs = (pre ++ [x]) ++ xs := by simp
    simp only [minArgminLoop]
    rw [happ, hlen]
    split
    · apply ih; simp
    · apply ih
      rw [List.getElem?_append_left]
      · exact hi
      · rcases Nat.lt_or_ge i pre.length with h | h
        · exact h
        · rw [List.getElem?_eq_none h] at hi; simp at hi

/-- C15: the values are the elements at the returned indices - for every
comparison whatsoever. -/
theorem C15_value_at_index (lt : α → α → Bool) (x0 : α) (xs : List α) :
    (x0 :: xs)[argmin lt x0 xs]? = some (minmax lt x0 xs).1 ∧
    (x0 :: xs)[argmax lt x0 xs]? = some (minmax lt x0 xs).2 := by
  rw [minmax, minmaxLoop_eq lt 1 x0 x0 0 0, argmin, argmax, argminLoop_eq, argmaxLoop_eq,
    maxArgmaxLoop_eq]
  exact ⟨minArgminLoop_at lt [x0] xs 0 x0 rfl, minArgminLoop_at _ [x0] xs 0 x0 rfl⟩

/-- C16: if the first element is NaN, every function returns that NaN / index 0
whatever the other elements are. -/
theorem C16_nan_first (lt : α → α → Bool) (isnan : α → Bool) (h : NanOrder lt isnan)
    (x0 : α) (xs : List α) (hn : isnan x0 = true) :
    minmax lt x0 xs = (x0, x0) ∧ argminmax lt x0 xs = (0, 0) ∧ argmin lt x0 xs = 0 ∧
    argmax lt x0 xs = 0 ∧ minArgmin lt x0 xs = (x0, 0) ∧ maxArgmax lt x0 xs = (x0, 0) := by
  have h1 := minArgminLoop_nan lt isnan h 1 x0 0 hn xs
  have h2 := minArgminLoop_nan _ isnan h.flip 1 x0 0 hn xs
  rw [← maxArgmaxLoop_eq] at h2
  refine ⟨?_, ?_, ?_, ?_, h1, h2⟩
  · rw [minmax, minmaxLoop_eq lt 1 x0 x0 0 0, h1, h2]
  · rw [argminmax, argminmaxLoop_eq lt h.trans _ _ _ (h.irrefl x0), h1, h2]
  · rw [argmin, argminLoop_eq, h1]
  · rw [argmax, argmaxLoop_eq, h2]

/-- C16: if the first element is not NaN, later NaNs are ignored: the indices
are those of the first minimal/maximal element among the non-NaN ones. -/
theorem C16_nan_ignored (lt : α → α → Bool) (isnan : α → Bool) (h : NanOrder lt isnan)
    (x0 : α) (xs : List α) (hn : isnan x0 = false) :
    IsFirstMin lt isnan (x0 :: xs) (argmin lt x0 xs) (minmax lt x0 xs).1 ∧
    IsFirstMax lt isnan (x0 :: xs) (argmax lt x0 xs) (minmax lt x0 xs).2 := by
  rw [minmax, minmaxLoop_eq lt 1 x0 x0 0 0, argmin, argmax, argminLoop_eq, argmaxLoop_eq,
    maxArgmaxLoop_eq]
  exact ⟨minArgmin_first lt isnan h x0 xs hn, minArgmin_first _ isnan h.flip x0 xs hn⟩

/-- C16: the values are those of the array with the NaNs removed. -/
theorem C16_nan_filtered (lt : α → α → Bool) (isnan : α → Bool) (h : NanOrder lt isnan)
    (x0 : α) (xs : List α) (hn : isnan x0 = false) :
    minmax lt x0 xs = minmax lt x0 (xs.filter (fun x => !isnan x)) := by
  unfold minmax
  have gen : ∀ a b : α, minmaxLoop lt a b xs = minmaxLoop lt a b (xs.filter (fun x => !isnan x)) := by
    induction xs with
    | nil => intro a b; rfl
    | cons x xs ih =>
      intro a b
      by_cases hx : isnan x = true
      · have h1 : lt x a = false := by
          cases hh : lt x a with
          | false => rfl
          | true => have := h.nan_left x a hh; simp [hx] at this
        have h2 : lt b x = false := by
          cases hh : lt b x with
          | false => rfl
          | true => have := h.nan_right b x hh; simp [hx] at this
        simp only [minmaxLoop, stdMin, stdMax, h1, h2, Bool.false_eq_true, if_false,
          List.filter_cons, hx, Bool.not_true]
        exact ih a b
      · simp only [minmaxLoop, List.filter_cons, hx, Bool.not_false, if_true]
        exact ih _ _
  exact gen x0 x0

/-- C17: on object arrays whose comparisons do not raise, with `x > y` meaning
`y < x`, the object versions return what the typed versions return. -/
theorem C17_object_agrees (lt : α → α → Bool) (hirr : ∀ a, lt a a = false)
    (htrans : ∀ a b c, lt a b = true → lt b c = true → lt a c = true) (x0 : α) (xs : List α) :
    let olt := fun a b => some (lt a b)
    let ogt := fun a b => some (lt b a)
    minmaxObj olt ogt x0 xs = some (minmax lt x0 xs) ∧
    argminmaxObj olt ogt x0 xs = some (argminmax lt x0 xs) ∧
    argminObj olt x0 xs = some (argmin lt x0 xs) ∧
    argmaxObj ogt x0 xs = some (argmax lt x0 xs) ∧
    minArgminObj olt x0 xs = some (minArgmin lt x0 xs) ∧
    maxArgmaxObj ogt x0 xs = some (maxArgmax lt x0 xs) := by
  intro olt ogt
  refine ⟨minmaxObjLoop_pure lt htrans x0 x0 (hirr x0) xs, argminmaxObjLoop_pure lt 1 x0 x0 0 0 xs,
    ?_, ?_, extArgextObjLoop_pure lt 1 x0 0 xs, ?_⟩
  · rw [argminObj, argextObjLoop_eq, extArgextObjLoop_pure, argmin, argminLoop_eq]; rfl
  · rw [argmaxObj, argextObjLoop_eq, extArgextObjLoop_pure (fun a b => lt b a), argmax,
      argmaxLoop_eq, maxArgmaxLoop_eq]; rfl
  · rw [maxArgmaxObj, extArgextObjLoop_pure (fun a b => lt b a), maxArgmax, maxArgmaxLoop_eq]

/-- C17: nothing is returned iff a comparison made with the running minimum
(maximum) raises; the running extreme is the result on the elements before. -/
theorem C17_object_raises_iff (test : α → α → Option Bool) (x0 : α) (xs : List α) :
    (minArgminObj test x0 xs = none ↔
      ∃ pre x post w j, xs = pre ++ x :: post ∧ minArgminObj test x0 pre = some (w, j) ∧
        test x w = none) ∧
    (argminObj test x0 xs = none ↔ minArgminObj test x0 xs = none) ∧
    (argmaxObj test x0 xs = none ↔ maxArgmaxObj test x0 xs = none) := by
  refine ⟨extArgextObjLoop_none test 1 x0 0 xs, ?_, ?_⟩
  · rw [argminObj, argextObjLoop_eq, minArgminObj]; simp
  · rw [argmaxObj, argextObjLoop_eq, maxArgmaxObj]; simp

/-! ### Non-vacuity -/
def intLt : Int → Int → Bool := fun a b => decide (a < b)
/-- Integers with a NaN, as `Option Int`. -/
def optLt : Option Int → Option Int → Bool
  | some a, some b => decide (a < b)
  | _, _ => false
def optNan : Option Int → Bool := fun a => a.isNone

theorem optOrder : NanOrder optLt optNan := by
  refine ⟨?_, ?_, ?_, ?_, ?_⟩
  · intro a; cases a <;> simp [optLt]
  · intro a b c; cases a <;> cases b <;> cases c <;> simp [optLt]; omega
  · intro a b; cases a <;> cases b <;> simp [optLt, optNan]
  · intro a b; cases a <;> cases b <;> simp [optLt, optNan]
  · intro a b c; cases a <;> cases b <;> cases c <;> simp [optLt, optNan]; omega

example : argmin intLt 3 [1, 4, 1, 4] = 1 ∧ argmax intLt 3 [1, 4, 1, 4] = 2 ∧
    argminmax intLt 3 [1, 4, 1, 4] = (1, 2) := by decide
example : minmax optLt (some 3) [none, some 1, none, some 9] = (some 1, some 9) ∧
    argminmax optLt (some 3) [none, some 1, none, some 9] = (2, 4) ∧
    minmax optLt none [some 1, some 9] = (none, none) := by decide

end Ufunclab.MinMax
