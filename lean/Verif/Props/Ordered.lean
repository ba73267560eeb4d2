import Verif.Model.Ordered
import Verif.Spec.Cmp
/-! # Properties C22-C23: ordered -/
namespace Ufunclab.Ordered
open Spec
variable {α : Type _}

/-- Every adjacent pair satisfies `r`. -/
def Adjacent (r : α → α → Prop) (xs : List α) : Prop :=
  ∀ i x y, xs[i]? = some x → xs[i + 1]? = some y → r x y

theorem adjacent_cons (r : α → α → Prop) (a b : α) (xs : List α) :
    Adjacent r (a :: b :: xs) ↔ r a b ∧ Adjacent r (b :: xs) := by
  constructor
  · intro h
    exact ⟨h 0 a b rfl rfl, fun i x y hx hy => h (i + 1) x y (by simpa using hx) (by simpa using hy)⟩
  · rintro ⟨h1, h2⟩ i x y hx hy
    cases i with
    | zero => simp at hx hy; subst hx hy; exact h1
    | succ i => exact h2 i x y (by simpa using hx) (by simpa using hy)

theorem adjacent_single (r : α → α → Prop) (a : α) : Adjacent r [a] := by
  intro i x y hx hy; simp at hy

theorem checkOrdered_iff (c : CmpOps α) (op : Op) (a : α) (xs : List α) :
    checkOrdered c op a xs = true ↔ Adjacent (fun x y => failTest c op x y = false) (a :: xs) := by
  induction xs generalizing a with
  | nil => simp [checkOrdered, adjacent_single]
  | cons b xs ih =>
    rw [adjacent_cons, ← ih]
    simp only [checkOrdered]
    cases failTest c op a b <;> simp

/-- C22 (any element type, any comparison functions): ordered is True iff no
adjacent pair satisfies the complementary comparison (`>=` for `<`, ...). -/
theorem C22_ordered_general (c : CmpOps α) (op : Op) (code : Int) (hc : Op.ofCode code = some op)
    (xs : List α) :
    ordered c code xs = true ↔ Adjacent (fun x y => failTest c op x y = false) xs := by
  match xs with
  | [] => simp [ordered, Adjacent]
  | [a] => simp [ordered, adjacent_single]
  | a :: b :: ys =>
    simp only [ordered, hc]
    cases op <;> exact checkOrdered_iff c _ a (b :: ys)

/-- C22: on a linear order, ordered(x, op) is True iff every adjacent pair
satisfies `x[i] op x[i+1]`.  (`_partial`: for float arrays with NaN it does not
hold, see `C22_nan_violated`.) -/
theorem C22_ordered_partial {β : Type _} [LinearOrder β] (op : Op) (code : Int)
    (hc : Op.ofCode code = some op) (xs : List β) :
    ordered (linOps β) code xs = true ↔ Adjacent (Op.rel op) xs := by
  rw [C22_ordered_general _ op code hc]
  have : (fun x y => failTest (linOps β) op x y = false) = Op.rel op := by
    funext x y
    cases op <;> simp [failTest, linOps, Op.rel]
  rw [this]

/-- C22: float arrays without NaN (infinities allowed): the same. -/
theorem C22_no_nan {K : Type _} [LinearOrder K] (op : Op) (code : Int)
    (hc : Op.ofCode code = some op) (xs : List (XF K)) (hn : ∀ x ∈ xs, x ≠ XF.nan) :
    ordered (xfOps K) code xs = true ↔
      Adjacent (fun x y => (xfOps K).holds op x y = true) xs := by
  rw [C22_ordered_general _ op code hc]
  have key : ∀ x y : XF K, x ≠ .nan → y ≠ .nan →
      (failTest (xfOps K) op x y = false ↔ (xfOps K).holds op x y = true) := by
    intro x y hx hy
    cases op <;> cases x <;> cases y <;>
      simp_all [failTest, xfOps, CmpOps.holds, XF.lt, XF.le, XF.eq, XF.ne, XF.gt, XF.ge] <;>
      grind
  constructor
  · intro h i x y hx hy
    exact (key x y (hn x (List.mem_of_getElem? hx)) (hn y (List.mem_of_getElem? hy))).1 (h i x y hx hy)
  · intro h i x y hx hy
    exact (key x y (hn x (List.mem_of_getElem? hx)) (hn y (List.mem_of_getElem? hy))).2 (h i x y hx hy)

/-- C22: for the five transitive operators, equivalently every pair `i < j`
satisfies it. -/
theorem C22_all_pairs {β : Type _} [LinearOrder β] (op : Op) (hop : op ≠ .NE) (code : Int)
    (hc : Op.ofCode code = some op) (xs : List β) :
    ordered (linOps β) code xs = true ↔ xs.Pairwise (Op.rel op) := by
  rw [C22_ordered_partial op code hc]
  have htr : ∀ a b c : β, Op.rel op a b → Op.rel op b c → Op.rel op a c := by
    intro a b c
    cases op <;> simp only [Op.rel]
    · exact lt_trans
    · exact le_trans
    · exact Eq.trans
    · exact absurd rfl hop
    · exact fun h1 h2 => lt_trans h2 h1
    · exact fun h1 h2 => le_trans h2 h1
  match xs with
  | [] => simp [Adjacent]
  | a :: ys =>
    induction ys generalizing a with
    | nil => simp [adjacent_single]
    | cons b ys ih =>
      rw [adjacent_cons, List.pairwise_cons]
      refine (and_congr Iff.rfl (ih b)).trans ?_
      constructor
      · rintro ⟨h1, h2⟩
        refine ⟨?_, h2⟩
        intro y hy
        rcases List.mem_cons.1 hy with rfl | hy
        · exact h1
        · exact htr _ _ _ h1 ((List.pairwise_cons.1 h2).1 y hy)
      · rintro ⟨h1, h2⟩
        exact ⟨h1 b (by simp), h2⟩

/-- C22: at most one element gives True for any op. -/
theorem C22_short (c : CmpOps α) (code : Int) (xs : List α) (h : xs.length ≤ 1) :
    ordered c code xs = true := by
  match xs, h with
  | [], _ => rfl
  | [_], _ => rfl

/-- C22 fails with NaN: `ordered([nan, 1], LT)` is True although NaN < 1 is
false. -/
theorem C22_nan_violated : ∃ xs : List (XF Int), ordered (xfOps Int) 0 xs = true ∧
    ¬ Adjacent (fun x y => (xfOps Int).holds .LT x y = true) xs := by
  refine ⟨[.nan, .fin 1], by decide, ?_⟩
  intro h
  have := h 0 .nan (.fin 1) rfl rfl
  simp [xfOps, CmpOps.holds, XF.lt] at this

/-- C22: an op code outside 0..5 is silently treated as GE. -/
theorem C22_unknown_op (c : CmpOps α) (code : Int) (h : code < 0 ∨ 5 < code) (xs : List α) :
    ordered c code xs = ordered c 5 xs := by
  have : Op.ofCode code = none := by
    unfold Op.ofCode; split <;> first | omega | rfl
  match xs with
  | [] => rfl
  | [a] => rfl
  | a :: b :: ys => simp only [ordered, this]; rfl

theorem objLoop_iff (cmp : α → α → Bool) (a : α) (xs : List α) :
    objLoop (fun x y => some (cmp x y)) a xs = some true ↔ ∀ x ∈ xs, cmp a x = true := by
  induction xs with
  | nil => simp [objLoop]
  | cons b xs ih => simp only [objLoop]; cases h : cmp a b <;> simp [h, ih]

theorem objLoop_some (cmp : α → α → Bool) (a : α) (xs : List α) :
    ∃ b, objLoop (fun x y => some (cmp x y)) a xs = some b := by
  induction xs with
  | nil => exact ⟨_, rfl⟩
  | cons b xs ih => simp only [objLoop]; cases h : cmp a b <;> simp [ih]

/-- C23, what the code does: on object arrays (comparisons not raising) the
result is True iff every later element is in the relation with the *first*
element. -/
theorem C23_object_exact (cmp : α → α → Bool) (a : α) (xs : List α) :
    orderedObj (fun x y => some (cmp x y)) (a :: xs) = some (decide (∀ x ∈ xs, cmp a x = true)) := by
  cases xs with
  | nil => simp [orderedObj]
  | cons b xs =>
    simp only [orderedObj]
    obtain ⟨r, hr⟩ := objLoop_some cmp a (b :: xs)
    have := objLoop_iff cmp a (b :: xs)
    rw [hr] at this ⊢
    congr 1
    by_cases h : ∀ x ∈ b :: xs, cmp a x = true
    · rw [decide_eq_true h]; exact Option.some.inj (this.2 h)
    · rw [decide_eq_false h]
      cases r with
      | false => rfl
      | true => exact absurd (this.1 rfl) h

/-- C23: an exception raised by a comparison is the result of the call; it is raised exactly when
the comparisons before it were all true. -/
theorem C23_object_raises (cmp : α → α → Option Bool) (a : α) (xs : List α) :
    orderedObj cmp (a :: xs) = none ↔
      ∃ ys y zs, xs = ys ++ y :: zs ∧ cmp a y = none ∧ ∀ z ∈ ys, cmp a z = some true := by
  have key : ∀ xs, objLoop cmp a xs = none ↔
      ∃ ys y zs, xs = ys ++ y :: zs ∧ cmp a y = none ∧ ∀ z ∈ ys, cmp a z = some true := by
    intro xs
    induction xs with
    | nil => simp [objLoop]
    | cons b xs ih =>
      rw [objLoop]
      cases h : cmp a b with
      | none => exact ⟨fun _ => ⟨[], b, xs, rfl, h, by simp⟩, fun _ => rfl⟩
      | some v =>
        cases v with
        | false =>
          simp only [reduceCtorEq, false_iff]
          rintro ⟨ys, y, zs, e, hy, hz⟩
          cases ys with
          | nil => simp at e; rw [← e.1, h] at hy; simp at hy
          | cons w ys =>
            simp at e
            have := hz w (by simp)
            rw [← e.1, h] at this; simp at this
        | true =>
          simp only [ih]
          constructor
          · rintro ⟨ys, y, zs, rfl, hy, hz⟩
            exact ⟨b :: ys, y, zs, rfl, hy, by simpa [h] using hz⟩
          · rintro ⟨ys, y, zs, e, hy, hz⟩
            cases ys with
            | nil => simp at e; rw [← e.1, h] at hy; simp at hy
            | cons w ys =>
              simp at e
              exact ⟨ys, y, zs, e.2, hy, fun z hz' => hz z (by simp [hz'])⟩
  cases xs with
  | nil => simp [orderedObj]
  | cons b xs => rw [orderedObj]; exact key _; simp

example : orderedObj (fun x y : Int => if y = 7 then none else some (decide (x < y))) [1, 3, 7, 0] = none := by decide

/-- C23 fails: `ordered` of the object array [1, 3, 2] with LT is True, but the
typed array gives False; and [1, 2, 1] with NE is False, the typed one True. -/
theorem C23_object_violated :
    orderedObj (fun x y : Int => some (decide (x < y))) [1, 3, 2] = some true ∧
    ordered (linOps Int) 0 [1, 3, 2] = false ∧
    orderedObj (fun x y : Int => some (decide (x ≠ y))) [1, 2, 1] = some false ∧
    ordered (linOps Int) 3 [1, 2, 1] = true := by
  decide

/-- C23, the part that holds: for operators other than NE a typed True implies
an object True, and for EQ or at most two elements the answers are equal. -/
theorem C23_object_partial {β : Type _} [LinearOrder β] (op : Op) (hop : op ≠ .NE) (code : Int)
    (hc : Op.ofCode code = some op) (xs : List β) :
    (ordered (linOps β) code xs = true →
      orderedObj (fun x y => some ((linOps β).holds op x y)) xs = some true) ∧
    (op = .EQ ∨ xs.length ≤ 2 →
      orderedObj (fun x y => some ((linOps β).holds op x y)) xs
        = some (ordered (linOps β) code xs)) := by
  have hfwd : ordered (linOps β) code xs = true →
      orderedObj (fun x y => some ((linOps β).holds op x y)) xs = some true := by
    intro h
    rw [C22_all_pairs op hop code hc] at h
    cases xs with
    | nil => rfl
    | cons a xs =>
      rw [C23_object_exact]
      have := (List.pairwise_cons.1 h).1
      simp only [Option.some.injEq, decide_eq_true_eq]
      exact fun x hx => (linOps_holds op a x).2 (this x hx)
  refine ⟨hfwd, ?_⟩
  intro hcase
  cases hord : ordered (linOps β) code xs with
  | true => exact hfwd hord
  | false =>
    have hnp : ¬ xs.Pairwise (Op.rel op) := by
      rw [← C22_all_pairs op hop code hc, hord]; simp
    cases xs with
    | nil => simp at hnp
    | cons a xs =>
      rw [C23_object_exact]
      simp only [Option.some.injEq, decide_eq_false_iff_not]
      intro hall
      apply hnp
      have hall' : ∀ x ∈ xs, Op.rel op a x := fun x hx => (linOps_holds op a x).1 (hall x hx)
      rcases hcase with rfl | hlen
      · simp only [Op.rel] at hall' ⊢
        refine List.pairwise_cons.2 ⟨hall', List.pairwise_of_forall_mem_list ?_⟩
        intro x hx y hy; rw [← hall' x hx, ← hall' y hy]
      · match xs, hlen with
        | [], _ => simp
        | [b], _ => simpa using hall' b (by simp)

/-! ### Non-vacuity -/
example : ordered (linOps Int) 0 [1, 3, 7] = true ∧ ordered (linOps Int) 1 [1, 1, 0] = false ∧
    ordered (linOps Int) 4 [3, 2, 1] = true ∧ ordered (linOps Int) 3 [1, 2, 1] = true := by decide

end Ufunclab.Ordered
