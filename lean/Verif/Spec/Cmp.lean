import Verif.Model.Cmp
import Verif.Model.XF
/-! # Comparisons of concrete element types -/
namespace Ufunclab.Spec

/-- The comparisons of a linear order (integers, NaN-free floats). -/
def linOps (α : Type _) [LinearOrder α] : CmpOps α where
  lt a b := decide (a < b)
  le a b := decide (a ≤ b)
  eq a b := decide (a = b)
  ne a b := decide (a ≠ b)
  gt a b := decide (a > b)
  ge a b := decide (a ≥ b)

/-- The IEEE comparisons, with NaN. -/
def xfOps (K : Type _) [LinearOrder K] : CmpOps (XF K) where
  lt := XF.lt
  le := XF.le
  eq := XF.eq
  ne := XF.ne
  gt := XF.gt
  ge := XF.ge

/-- The mathematical relation denoted by an operator on a linear order. -/
def Op.rel {α : Type _} [LinearOrder α] : Op → α → α → Prop
  | .LT => (· < ·)
  | .LE => (· ≤ ·)
  | .EQ => (· = ·)
  | .NE => (· ≠ ·)
  | .GT => (· > ·)
  | .GE => (· ≥ ·)

theorem linOps_holds {α : Type _} [LinearOrder α] (op : Op) (a b : α) :
    (linOps α).holds op a b = true ↔ Op.rel op a b := by
  cases op <;> simp [linOps, CmpOps.holds, Op.rel]

/-- `i` is the least index of an element satisfying `p`. -/
def IsFirstIdx {α : Type _} (p : α → Prop) (xs : List α) (i : Nat) : Prop :=
  (∃ x, xs[i]? = some x ∧ p x) ∧ ∀ j < i, ∀ x, xs[j]? = some x → ¬ p x

end Ufunclab.Spec
