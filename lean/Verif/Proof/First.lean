import Verif.Model.First
import Verif.Spec.Cmp
namespace Ufunclab.First
open Spec
variable {α : Type _}

theorem argfirstOp_spec (c : CmpOps α) (op : Op) (target : α) (k : Nat) (xs : List α) :
    (argfirstOp c op target k xs = -1 ∧ ∀ x ∈ xs, c.holds op x target = false) ∨
    ∃ i : Nat, argfirstOp c op target k xs = ((k + i : Nat) : Int) ∧
      IsFirstIdx (fun x => c.holds op x target = true) xs i := by
  induction xs generalizing k with
  | nil => left; simp [argfirstOp]
  | cons x xs ih =>
    simp only [argfirstOp]
    cases hx : c.holds op x target with
    | true => right; exact ⟨0, by simp, ⟨x, rfl, hx⟩, by omega⟩
    | false =>
      simp only [Bool.false_eq_true, if_false]
      rcases ih (k + 1) with ⟨h1, h2⟩ | ⟨i, h1, h2, h3⟩
      · left; exact ⟨h1, by simpa [hx] using h2⟩
      · right
        refine ⟨i + 1, by rw [h1]; congr 1; omega, by simpa using h2, ?_⟩
        intro j hj y hy
        cases j with
        | zero => simp at hy; subst hy; simp [hx]
        | succ j => exact h3 j (by omega) y (by simpa using hy)

theorem firstOp_spec (c : CmpOps α) (op : Op) (target otherwise : α) (k : Nat) (xs : List α) :
    firstOp c op target otherwise xs =
      if argfirstOp c op target k xs = -1 then otherwise
      else (xs[(argfirstOp c op target k xs - k).toNat]?).getD otherwise := by
  induction xs generalizing k with
  | nil => simp [firstOp, argfirstOp]
  | cons x xs ih =>
    simp only [firstOp, argfirstOp]
    by_cases hx : c.holds op x target = true
    · simp only [hx, if_true]
      rw [if_neg (by omega)]
      simp
    · simp only [hx, if_false, Bool.false_eq_true]
      rw [ih (k + 1)]
      rcases argfirstOp_spec c op target (k + 1) xs with ⟨h1, _⟩ | ⟨i, h1, _⟩
      · simp [h1]
      · rw [h1, if_neg (by omega), if_neg (by omega)]
        have e1 : (((k + 1 + i : Nat) : Int) - ((k + 1 : Nat) : Int)).toNat = i := by omega
        have e2 : (((k + 1 + i : Nat) : Int) - (k : Int)).toNat = i + 1 := by omega
        rw [e1, e2]; simp

theorem firstObjLoop_pure (p : α → α → Int → Bool) (code : Int) (target otherwise : α)
    (c : CmpOps α) (op : Op) (h : ∀ a b, p a b code = c.holds op a b) (xs : List α) :
    firstObjLoop (fun a b o => some (p a b o)) code target otherwise xs
      = some (firstOp c op target otherwise xs) := by
  induction xs with
  | nil => rfl
  | cons x xs ih =>
    simp only [firstObjLoop, firstOp, h]
    cases c.holds op x target <;> simp [ih]

theorem argfirstObjLoop_pure (p : α → α → Int → Bool) (code : Int) (target : α)
    (c : CmpOps α) (op : Op) (h : ∀ a b, p a b code = c.holds op a b) (k : Nat) (xs : List α) :
    argfirstObjLoop (fun a b o => some (p a b o)) code target k xs
      = argfirstOp c op target k xs := by
  induction xs generalizing k with
  | nil => rfl
  | cons x xs ih =>
    simp only [argfirstObjLoop, argfirstOp, h]
    cases c.holds op x target <;> simp [ih]

theorem argfirstObjLoop_err (cmp : α → α → Int → Option Bool) (code : Int) (target : α) (k : Nat)
    (xs : List α) :
    argfirstObjLoop cmp code target k xs = -2 ↔
      ∃ pre x post, xs = pre ++ x :: post ∧ (∀ y ∈ pre, cmp y target code = some false) ∧
        cmp x target code = none := by
  induction xs generalizing k with
  | nil => simp [argfirstObjLoop]
  | cons y ys ih =>
    simp only [argfirstObjLoop]
    cases hy : cmp y target code with
    | none => simp only [true_iff]; exact ⟨[], y, ys, rfl, by simp, hy⟩
    | some b =>
      cases b with
      | true =>
        simp only
        constructor
        · intro h; omega
        · rintro ⟨pre, x, post, h1, h2, h3⟩
          cases pre with
          | nil => simp at h1; rw [h1.1] at hy; simp [hy] at h3
          | cons p pre =>
            simp at h1
            have := h2 p (by simp)
            rw [← h1.1, hy] at this; simp at this
      | false =>
        simp only
        rw [ih]
        constructor
        · rintro ⟨pre, x, post, h1, h2, h3⟩
          exact ⟨y :: pre, x, post, by simp [h1], by simpa [hy] using h2, h3⟩
        · rintro ⟨pre, x, post, h1, h2, h3⟩
          cases pre with
          | nil => simp at h1; rw [h1.1] at hy; simp [hy] at h3
          | cons p pre =>
            simp at h1
            exact ⟨pre, x, post, h1.2, fun z hz => h2 z (by simp [hz]), h3⟩

end Ufunclab.First
