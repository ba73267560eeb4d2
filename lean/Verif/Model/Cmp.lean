/-! # Comparison operators and their codes -/
namespace Ufunclab

/-- The six comparisons of an element type, as Boolean functions (no law
assumed): `<`, `<=`, `==`, `!=`, `>`, `>=`. -/
structure CmpOps (α : Type _) where
  lt : α → α → Bool
  le : α → α → Bool
  eq : α → α → Bool
  ne : α → α → Bool
  gt : α → α → Bool
  ge : α → α → Bool

/-- `enum comparison_op`, src/first/first_gufunc.h lines 13-20 and
src/ordered/ordered_gufunc.h lines 15-22. -/
inductive Op where | LT | LE | EQ | NE | GT | GE
deriving DecidableEq, Repr

/-- Values of Py_LT, ..., Py_GE (CPython Include/object.h: 0..5); these are
the codes exposed as ufunclab.op.LT, .... -/
def Op.ofCode : Int → Option Op
  | 0 => some .LT
  | 1 => some .LE
  | 2 => some .EQ
  | 3 => some .NE
  | 4 => some .GT
  | 5 => some .GE
  | _ => none

/-- The comparison `a op b`. -/
def CmpOps.holds {α : Type _} (c : CmpOps α) : Op → α → α → Bool
  | .LT => c.lt
  | .LE => c.le
  | .EQ => c.eq
  | .NE => c.ne
  | .GT => c.gt
  | .GE => c.ge

end Ufunclab
