/-!
# Model of ufunclab/_wrapped.py: axis and shape handling of the Python wrappers

Shapes are lists of naturals.  What NumPy does with the call of the underlying gufunc is
modelled as far as needed: it raises AxisError when `axis` is out of range for the output.
-/
namespace Ufunclab.Wrapped

inductive Err where
  | axisError
  | valueError
  deriving DecidableEq, Repr

/-- `_normalize_axis`, lines 18-24. -/
def normalizeAxis (ndim : Nat) (axis : Int) : Except Err Nat :=
  if axis < -(ndim : Int) ∨ axis ≥ ndim then .error .axisError
  else .ok (if axis < 0 then axis + ndim else axis).toNat

/-- `_shape_remove_axis`, lines 27-30. -/
def shapeRemoveAxis (shape : List Nat) (axis : Int) : Except Err (List Nat) :=
  match normalizeAxis shape.length axis with
  | .error e => .error e
  | .ok a => .ok (shape.take a ++ shape.drop (a + 1))

/-- `_shape_insert_axis`, lines 33-36. -/
def shapeInsertAxis (shape : List Nat) (axis : Int) (n : Nat) : Except Err (List Nat) :=
  match normalizeAxis (shape.length + 1) axis with
  | .error e => .error e
  | .ok a => .ok (shape.take a ++ [n] ++ shape.drop a)

/-- NumPy's treatment of `axis` for a gufunc with one shared core dimension in the output. -/
def gufuncAxis (outNdim : Nat) (axis : Int) : Except Err Unit :=
  if axis < -(outNdim : Int) ∨ axis ≥ outNdim then .error .axisError else .ok ()

/-- The common code of `convert_to_base` (lines 247-274, on the broadcast shape), `nextn_greater`
(lines 292-309), `nextn_less` (lines 327-344) and `one_hot` (lines 359-375): the shape of the
output, or the exception.  `out` is the shape of the `out` argument if given; a negative `n`
makes `np.empty` (or the comparison with `out.shape`) raise ValueError. -/
def insertWrapper (shape : List Nat) (axis : Int) (n : Int) (out : Option (List Nat)) : Except Err (List Nat) :=
  let adjusted : Int := if axis < 0 then axis + 1 + shape.length else axis
  if adjusted < 0 ∨ adjusted > 1 + shape.length then .error .axisError
  else if n < 0 then .error .valueError
  else
    let outShape := shape.take adjusted.toNat ++ [n.toNat] ++ shape.drop adjusted.toNat
    match out with
    | some s => if s ≠ outShape then .error .valueError else
        match gufuncAxis s.length axis with | .error e => .error e | .ok _ => .ok outShape
    | none => match gufuncAxis outShape.length axis with | .error e => .error e | .ok _ => .ok outShape

/-- `np.broadcast_shapes` on reversed shapes. -/
def broadcastRev : List Nat → List Nat → Option (List Nat)
  | [], t => some t
  | s, [] => some s
  | a :: s, b :: t =>
    match broadcastRev s t with
    | none => none
    | some r => if a = b then some (a :: r) else if a = 1 then some (b :: r) else if b = 1 then some (a :: r) else none

/-- `np.broadcast_shapes`. -/
def broadcastShapes (s t : List Nat) : Option (List Nat) := (broadcastRev s.reverse t.reverse).map List.reverse

/-- Output shape of `bincount` without weights, lines 186-199. -/
def bincountShape (xShape : List Nat) (axis : Int) (m : Nat) (out : Option (List Nat)) : Except Err (List Nat) :=
  match normalizeAxis xShape.length axis with
  | .error e => .error e
  | .ok a =>
    let outShape := xShape.set a m
    match out with
    | some s => if s ≠ outShape then .error .valueError else .ok outShape
    | none => .ok outShape

/-- Output shape of `bincount` with weights, lines 168-184. -/
def bincountwShape (xShape wShape : List Nat) (axis : Int) (m : Nat) (out : Option (List Nat)) : Except Err (List Nat) :=
  match shapeRemoveAxis xShape axis, shapeRemoveAxis wShape axis with
  | .error e, _ => .error e
  | _, .error e => .error e
  | .ok xb, .ok wb =>
    match broadcastShapes xb wb with
    | none => .error .valueError
    | some bc =>
      match shapeInsertAxis bc axis m with
      | .error e => .error e
      | .ok outShape =>
        match out with
        | some s => if s ≠ outShape then .error .valueError else .ok outShape
        | none => .ok outShape

end Ufunclab.Wrapped
