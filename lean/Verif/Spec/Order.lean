/-!
# Specification vocabulary: orders given by Boolean comparison functions
-/
namespace Ufunclab.Spec

/-- `lt` is a strict weak order: irreflexive, transitive, and "not less" is
transitive too (so incomparability is an equivalence).  `<` on integers, on
non-NaN floats, and on well-behaved Python objects is one. -/
structure StrictWeak {α : Type _} (lt : α → α → Bool) : Prop where
  irrefl : ∀ a, lt a a = false
  trans : ∀ a b c, lt a b = true → lt b c = true → lt a c = true
  negTrans : ∀ a b c, lt a b = false → lt b c = false → lt a c = false

/-- The array is sorted in non-decreasing order: no element is strictly less
than an earlier one. -/
def Sorted {α : Type _} (lt : α → α → Bool) (xs : List α) : Prop :=
  xs.Pairwise (fun x y => lt y x = false)

/-- Inserting `v` at position `r`. -/
def insertAt {α : Type _} (r : Nat) (v : α) (xs : List α) : List α := xs.take r ++ v :: xs.drop r

theorem StrictWeak.int : StrictWeak (fun a b : Int => decide (a < b)) :=
  ⟨by simp, by intro a b c; simp; omega, by intro a b c; simp; omega⟩

theorem StrictWeak.nat : StrictWeak (fun a b : Nat => decide (a < b)) :=
  ⟨by simp, by intro a b c; simp; omega, by intro a b c; simp; omega⟩

end Ufunclab.Spec
