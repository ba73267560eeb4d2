import Verif.Model.Cmp
/-!
# Model of src/first/first_gufunc.h

`xs` is the list of the `n` logical elements of the strided input.
`enum comparison_op` is `Op`, `cmp<T, OP>` (lines 22-45) is `CmpOps.holds`.
-/
namespace Ufunclab.First
variable {α : Type _}

/-- `first<T, OP>`, lines 51-69. -/
def firstOp (c : CmpOps α) (op : Op) (target otherwise : α) : List α → α
  | [] => otherwise
  | x :: xs => if c.holds op x target then x else firstOp c op target otherwise xs

/-- `first_core_calc`, lines 76-112: the switch on the op code; an unknown code
leaves `result = *p_otherwise`. -/
def first (c : CmpOps α) (code : Int) (target otherwise : α) (xs : List α) : α :=
  match Op.ofCode code with
  | some op => firstOp c op target otherwise xs
  | none => otherwise

/-- `argfirst<T, OP>`, lines 183-201; `k` is the loop counter. -/
def argfirstOp (c : CmpOps α) (op : Op) (target : α) : (k : Nat) → List α → Int
  | _, [] => -1
  | k, x :: xs => if c.holds op x target then (k : Int) else argfirstOp c op target (k + 1) xs

/-- `argfirst_core_calc`, lines 208-242. -/
def argfirst (c : CmpOps α) (code : Int) (target : α) (xs : List α) : Int :=
  match Op.ofCode code with
  | some op => argfirstOp c op target 0 xs
  | none => -1

/-- Loop of `first_core_calc_object`, lines 158-171.  `cmp x target code` models
`PyObject_RichCompareBool` with `none` for an exception; the result `none` is
the NULL pointer. -/
def firstObjLoop (cmp : α → α → Int → Option Bool) (code : Int) (target otherwise : α) :
    List α → Option α
  | [] => some otherwise
  | x :: xs =>
    match cmp x target code with
    | none => none
    | some true => some x
    | some false => firstObjLoop cmp code target otherwise xs

/-- `first_core_calc_object`, lines 143-176. -/
def firstObj (cmp : α → α → Int → Option Bool) (code : Int) (target otherwise : α) (xs : List α) :
    Option α :=
  if 0 ≤ code ∧ code ≤ 5 then firstObjLoop cmp code target otherwise xs else some otherwise

/-- Loop of `argfirst_core_calc_object`, lines 259-272. -/
def argfirstObjLoop (cmp : α → α → Int → Option Bool) (code : Int) (target : α) :
    (k : Nat) → List α → Int
  | _, [] => -1
  | k, x :: xs =>
    match cmp x target code with
    | none => -2
    | some true => (k : Int)
    | some false => argfirstObjLoop cmp code target (k + 1) xs

/-- `argfirst_core_calc_object`, lines 244-275. -/
def argfirstObj (cmp : α → α → Int → Option Bool) (code : Int) (target : α) (xs : List α) : Int :=
  if 0 ≤ code ∧ code ≤ 5 then argfirstObjLoop cmp code target 0 xs else -1

end Ufunclab.First
