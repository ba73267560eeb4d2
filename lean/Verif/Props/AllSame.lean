import Verif.Model.AllSame
import Verif.Spec.Cmp
/-! # Property C21: all_same -/
namespace Ufunclab.AllSame
open Spec
variable {α : Type _}

theorem loop_iff (ne : α → α → Bool) (f : α) (xs : List α) :
    loop ne f xs = true ↔ ∀ x ∈ xs, ne x f = false := by
  induction xs with
  | nil => simp [loop]
  | cons x xs ih => simp only [loop]; cases h : ne x f <;> simp [ih, h]

/-- C21: for any equality test that is symmetric and transitive (`==` of
integers, of floats including NaN, ...) all_same is true iff the array has at
most one element or any two elements (an element and itself included) compare
equal. -/
theorem C21_all_same (eq : α → α → Bool) (hs : ∀ a b, eq a b = true → eq b a = true)
    (ht : ∀ a b c, eq a b = true → eq b c = true → eq a c = true) (xs : List α) :
    allSame (fun a b => !eq a b) xs = true ↔
      xs.length ≤ 1 ∨ ∀ x ∈ xs, ∀ y ∈ xs, eq x y = true := by
  match xs with
  | [] => simp [allSame]
  | [a] => simp [allSame]
  | a :: b :: ys =>
    simp only [allSame, loop_iff, List.length_cons]
    constructor
    · intro h
      right
      have hall : ∀ x ∈ b :: ys, eq x a = true := fun x hx => by simpa using h x hx
      have haa : eq a a = true := ht _ _ _ (hs _ _ (hall b (by simp))) (hall b (by simp))
      have hall' : ∀ x ∈ a :: b :: ys, eq x a = true := by
        intro x hx
        rcases List.mem_cons.1 hx with rfl | hx
        · exact haa
        · exact hall x hx
      exact fun x hx y hy => ht _ _ _ (hall' x hx) (hs _ _ (hall' y hy))
    · rintro (h | h)
      · omega
      · intro x hx
        simp [h x (by simp [List.mem_cons.1 hx]) a (by simp)]

/-- C21 for a type with decidable equality: all elements are equal. -/
theorem C21_all_same_eq [DecidableEq α] (xs : List α) :
    allSame (fun a b => decide (a ≠ b)) xs = true ↔ ∀ x ∈ xs, ∀ y ∈ xs, x = y := by
  have := C21_all_same (fun a b : α => decide (a = b)) (by simp) (by simp) xs
  simp only [decide_eq_true_eq] at this
  have e : (fun a b : α => !decide (a = b)) = fun a b => decide (a ≠ b) := by
    funext a b; simp
  rw [e] at this
  rw [this]
  constructor
  · rintro (h | h)
    · match xs, h with
      | [], _ => simp
      | [a], _ => simp
    · exact h
  · exact Or.inr

/-- C21: a float array of length at least 2 containing a NaN gives False. -/
theorem C21_nan {K : Type _} [LinearOrder K] (xs : List (XF K)) (h2 : 2 ≤ xs.length)
    (hn : XF.nan ∈ xs) : allSame XF.ne xs = false := by
  have := C21_all_same (α := XF K) XF.eq
    (by intro a b; cases a <;> cases b <;> simp [XF.eq]; exact fun h => h.symm)
    (by intro a b c; cases a <;> cases b <;> cases c <;> simp [XF.eq]; exact fun h => h.trans) xs
  cases h : allSame XF.ne xs with
  | false => rfl
  | true =>
    rcases this.1 h with h | h
    · omega
    · have := h _ hn _ hn; simp [XF.eq] at this

/-- C21: the object version agrees when `!=` does not raise. -/
theorem C21_object (ne : α → α → Bool) (xs : List α) :
    allSameObj (fun a b => some (ne a b)) xs = some (allSame ne xs) := by
  have hl : ∀ (f : α) (ys : List α), objLoop (fun a b => some (ne a b)) f ys = some (loop ne f ys) := by
    intro f ys
    induction ys with
    | nil => rfl
    | cons y ys ih => simp only [objLoop, loop]; cases ne y f <;> simp [ih]
  match xs with
  | [] => rfl
  | [a] => rfl
  | a :: b :: ys => exact hl a (b :: ys)

/-- C21: the object version raises iff a comparison with the first element
raises before any comparison came out unequal. -/
theorem C21_object_raises (ne : α → α → Option Bool) (a : α) (xs : List α) :
    allSameObj ne (a :: xs) = none ↔
      ∃ pre x post, xs = pre ++ x :: post ∧ (∀ y ∈ pre, ne y a = some false) ∧ ne x a = none := by
  have hl : ∀ ys : List α, objLoop ne a ys = none ↔
      ∃ pre x post, ys = pre ++ x :: post ∧ (∀ y ∈ pre, ne y a = some false) ∧ ne x a = none := by
    intro ys
    induction ys with
    | nil => simp [objLoop]
    | cons y ys ih =>
      simp only [objLoop]
      cases hy : ne y a with
      | none => simp only [true_iff]; exact ⟨[], y, ys, rfl, by simp, hy⟩
      | some b =>
        cases b with
        | true =>
          simp only [reduceCtorEq, false_iff]
          rintro ⟨pre, x, post, h1, h2, h3⟩
          cases pre with
          | nil => simp at h1; rw [h1.1] at hy; simp [hy] at h3
          | cons p pre =>
            simp at h1
            have := h2 p (by simp)
            rw [← h1.1, hy] at this; simp at this
        | false =>
          simp only
          rw [ih]
          constructor
          · rintro ⟨pre, x, post, h1, h2, h3⟩
            exact ⟨y :: pre, x, post, by simp [h1], by simpa [hy] using h2, h3⟩
          · rintro ⟨pre, x, post, h1, h2, h3⟩
            cases pre with
            | nil => simp at h1; rw [h1.1] at hy; simp [hy] at h3
            | cons p pre =>
              simp at h1
              exact ⟨pre, x, post, h1.2, fun z hz => h2 z (by simp [hz]), h3⟩
  cases xs with
  | nil => simp [allSameObj]
  | cons b ys => exact hl (b :: ys)

/-! ### Non-vacuity -/
example : allSame (fun a b : Int => decide (a ≠ b)) [4, 4, 4] = true ∧
    allSame (fun a b : Int => decide (a ≠ b)) [4, 4, 5, 4] = false ∧
    allSame XF.ne [XF.nan, XF.nan (K := Int)] = false ∧ allSame XF.ne [XF.nan (K := Int)] = true := by
  decide

end Ufunclab.AllSame
