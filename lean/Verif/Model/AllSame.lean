/-! # Model of src/all_same/all_same_gufunc.h -/
namespace Ufunclab.AllSame
variable {α : Type _}

/-- Loop of `all_same_core`, lines 24-30; `ne` is `!=`. -/
def loop (ne : α → α → Bool) (first : α) : List α → Bool
  | [] => true
  | x :: xs => if ne x first then false else loop ne first xs

/-- `all_same_core`, lines 15-33 (`n > 1` guard: fewer elements give true). -/
def allSame (ne : α → α → Bool) : List α → Bool
  | [] => true
  | [_] => true
  | first :: xs => loop ne first xs

/-- Loop of `all_same_core_object`, lines 45-55; `none`: an exception is set
(the output cell holds `true` but the call raises). -/
def objLoop (ne : α → α → Option Bool) (first : α) : List α → Option Bool
  | [] => some true
  | x :: xs =>
    match ne x first with
    | none => none
    | some true => some false
    | some false => objLoop ne first xs

/-- `all_same_core_object`, lines 36-57. -/
def allSameObj (ne : α → α → Option Bool) : List α → Option Bool
  | [] => some true
  | [_] => some true
  | first :: xs => objLoop ne first xs

end Ufunclab.AllSame
