import Verif.Model.PyStr
import Verif.Spec.Text
/-!
# Model of tools/uwrap/uwrap.py (text generation)

Text is a list of characters.  `repr` of default values is taken as given text.
-/
namespace Ufunclab.Uwrap
open PyStr

abbrev Str := List Char

/-- The inner loop of `to_lines`, lines 86-90: the final value of `k`. -/
def fit (pad : Nat) : (n : Nat) → List Str → Nat
  | _, [] => 0
  | n, p :: ps => if n + pad + p.length + 2 < 80 then fit pad (n + (p.length + 2)) ps + 1 else 0

/-- The outer loop of `to_lines`, lines 85-97; `none` when it has not ended after `fuel`
iterations. -/
def linesLoop (offset : Nat) : (fuel : Nat) → (pad : Nat) → List Str → Option (List Str)
  | _, _, [] => some []
  | 0, _, _ :: _ => none
  | fuel + 1, pad, p :: ps =>
    let parts := p :: ps
    let k := fit pad 0 parts
    let final : Str := if k = parts.length then [] else [',']
    let line := List.replicate pad ' ' ++ join [',', ' '] (parts.take k) ++ final
    (linesLoop offset fuel offset (parts.drop k)).map (line :: ·)

/-- `to_lines`, lines 81-99, with a bound on the iterations. -/
def toLines (fuel : Nat) (line : Str) (offset : Nat) : Option (List Str) :=
  linesLoop offset fuel 0 (split [',', ' '] line)

/-- `get_input_sig_strings`, lines 27-39. -/
def getInputSigStrings (signature : Option Str) (nin : Nat) : List Str :=
  match signature with
  | some s =>
    let left := (split ['-', '>'] s).headD []
    split [')', ',', '('] ((left.drop 1).dropLast)
  | none => List.replicate nin []

/-- `make_self_assignment`, lines 42-49; `none` is ValueError (not exactly one `=`). -/
def makeSelfAssignment (s : Str) : Option Str :=
  match split ['='] s with
  | [left, _] => some (join ['='] [left, left])
  | _ => none

/-- An item of `params`: a string, or a pair (name, default). -/
inductive Param where
  | pos (name : Str)
  | kw (name value : Str)
  deriving DecidableEq

def Param.name : Param → Str
  | .pos n => n
  | .kw n _ => n

/-- Decimal digits of a positive number, as `str(k)`. -/
def decimal (k : Nat) : Str := (toString k).toList

/-- `all_ufunc_params`, lines 53-62. -/
def allUfuncParams (nout : Nat) : List Str :=
  (["out", "casting", "order", "dtype", "subok", "signature", "extobj", "where",
    "axis", "axes", "keepdims"].map String.toList) ++
  (if nout > 1 then (List.range nout).map (fun k => "out".toList ++ decimal (k + 1)) else [])

inductive Err where
  | mustHaveDefault (name : Str)
  | isUfuncParam (name : Str)
  deriving DecidableEq

/-- The loop of `check_params`, lines 65-78. -/
def checkLoop (reserved : List Str) : List Param → List Str → List (Str × Str) →
    Except Err (List Str × List (Str × Str))
  | [], args, kwargs => .ok (args, kwargs)
  | .pos n :: ps, args, kwargs =>
    if kwargs.length > 0 then .error (.mustHaveDefault n)
    else if n ∈ reserved then .error (.isUfuncParam n)
    else checkLoop reserved ps (args ++ [n]) kwargs
  | .kw n v :: ps, args, kwargs =>
    if n ∈ reserved then .error (.isUfuncParam n)
    else checkLoop reserved ps args (kwargs ++ [(n, v)])

/-- `check_params`, lines 52-78. -/
def checkParams (params : List Param) (nout : Nat) : Except Err (List Str × List (Str × Str)) :=
  checkLoop (allUfuncParams nout) params [] []

/-- What `get_def_and_call_sig` reads from the ufunc: `nout`, whether it has a signature (a
gufunc), and whether its name is in `set_reduction_funcs` (lines 23-24). -/
structure Ufunc where
  nout : Nat
  isGufunc : Bool
  setReduction : Bool

/-- Text of the tuple `(None,)*n` for `n > 1`. -/
def noneTuple (n : Nat) : Str := '(' :: (join [',', ' '] (List.replicate n "None".toList) ++ [')'])

/-- `control_args`, lines 103-121, as (name, default) pairs; each is the text `name=default`. -/
def controlArgs (u : Ufunc) : List (Str × Str) :=
  [("out".toList, if u.nout > 1 then noneTuple u.nout else "None".toList),
   ("casting".toList, "'same_kind'".toList), ("order".toList, "'K'".toList), ("subok".toList, "True".toList)] ++
  (if u.isGufunc then (if u.setReduction then [("axis".toList, "None".toList)] else [])
   else [("where".toList, "True".toList)])

/-- The text `name=default`. -/
def assign (a : Str × Str) : Str := a.1 ++ '=' :: a.2

/-- `get_def_and_call_sig`, lines 102-128.  The comprehension over `make_self_assignment` raises
ValueError if one of the calls does (`none`). -/
def getDefAndCallSig (u : Ufunc) (params : List Param) : Option (Except Err (Str × Str)) :=
  match checkParams params u.nout with
  | .error e => some (.error e)
  | .ok (args, kwargs) =>
    match (controlArgs u).mapM (fun a => makeSelfAssignment (assign a)) with
    | none => none
    | some selfs =>
      let kwdstrs := kwargs.map assign ++ (controlArgs u).map assign
      let defSig := join [',', ' '] (args ++ [['*']] ++ kwdstrs ++ ["dtype=None".toList]) ++ ", **kwargs".toList
      let callSig := join [',', ' '] (args ++ kwargs.map Prod.fst ++ selfs ++ ["**kwargs".toList])
      some (.ok (defSig, callSig))

/-! ## `_process_axis_for_set_reduction_func` (in `wrapper_preamble`, lines 221-237)

Shapes only, for a tuple of distinct non-negative axes. -/

/-- `tuple(range(-1, -1-len, -1))`, normalised for `ndim` dimensions. -/
def destinations (ndim len : Nat) : List Nat := (List.range len).map (fun i => ndim - 1 - i)

/-- Python `list.insert`. -/
def insertAt (l : List Nat) (i x : Nat) : List Nat := l.take i ++ x :: l.drop i

/-- Insertion of a (destination, source) pair into a list sorted by destination. -/
def insertPair (p : Nat × Nat) : List (Nat × Nat) → List (Nat × Nat)
  | [] => [p]
  | q :: l => if p.1 ≤ q.1 then p :: q :: l else q :: insertPair p l

/-- The order of the old axes in `np.moveaxis(x, source, destination)`: NumPy takes
`order = [n for n in range(x.ndim) if n not in source]`, then for `dest, src` in
`sorted(zip(destination, source))` does `order.insert(dest, src)`. -/
def moveOrder (ndim : Nat) (source destination : List Nat) : List Nat :=
  ((destination.zip source).foldr insertPair []).foldl (fun order p => insertAt order p.1 p.2)
    ((List.range ndim).filter (· ∉ source))

/-- The shape after `moveaxis` (line 232) and `reshape(x.shape[:ndim - len(axis)] + (-1,))` (line 234). -/
def processShape (shape : List Nat) (axis : List Nat) : List Nat :=
  let moved := (moveOrder shape.length axis (destinations shape.length axis.length)).map (fun a => shape.getD a 0)
  moved.take (shape.length - axis.length) ++ [(moved.drop (shape.length - axis.length)).prod]

end Ufunclab.Uwrap
