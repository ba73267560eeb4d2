import Verif.Model.Cmp
/-! # Model of src/ordered/ordered_gufunc.h -/
namespace Ufunclab.Ordered
variable {α : Type _}

/-- The comparison tested (and answered with `return false`) by
`check_ordered<T, OP>`, lines 24-90: the *negated* operator. -/
def failTest (c : CmpOps α) : Op → α → α → Bool
  | .LT => c.ge
  | .LE => c.gt
  | .EQ => c.ne
  | .NE => c.eq
  | .GT => c.le
  | .GE => c.lt

/-- `check_ordered<T, OP>`, lines 24-90 (the six branches are the same loop
with a different test): `x1` is the previous element. -/
def checkOrdered (c : CmpOps α) (op : Op) : (x1 : α) → List α → Bool
  | _, [] => true
  | x1, x2 :: xs => if failTest c op x1 x2 then false else checkOrdered c op x2 xs

/-- `ordered_core`, lines 92-122: any code that is not 0..4 is treated as GE. -/
def ordered (c : CmpOps α) (code : Int) : List α → Bool
  | [] => true
  | [_] => true
  | x1 :: xs =>
    match Op.ofCode code with
    | some .LT => checkOrdered c .LT x1 xs
    | some .LE => checkOrdered c .LE x1 xs
    | some .EQ => checkOrdered c .EQ x1 xs
    | some .NE => checkOrdered c .NE x1 xs
    | some .GT => checkOrdered c .GT x1 xs
    | _ => checkOrdered c .GE x1 xs

/-- Loop of `ordered_core_object`, lines 135-146.  `x1` is **not** updated in
the loop.  `none`: exception. -/
def objLoop (cmp : α → α → Option Bool) (x1 : α) : List α → Option Bool
  | [] => some true
  | x2 :: xs =>
    match cmp x1 x2 with
    | none => none
    | some false => some false
    | some true => objLoop cmp x1 xs

/-- `ordered_core_object`, lines 125-148; `cmp` is `PyObject_RichCompareBool`
with the given op. -/
def orderedObj (cmp : α → α → Option Bool) : List α → Option Bool
  | [] => some true
  | [_] => some true
  | x1 :: xs => objLoop cmp x1 xs

end Ufunclab.Ordered
