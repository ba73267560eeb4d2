/-!
# Model of src/minmax/minmax_gufunc.h

All functions of the family are declared with `nonzero_coredims=['n']`, so
`n ≥ 1`: the array is `x0 :: xs` (its logical elements in order; the strided
reads are `get(p_x, x_stride, k)`, see Model/Mem.lean `elems`).  `lt` is the
`<` of the element type (for floats it is false when an operand is NaN);
`x > y` on the built-in types is `lt y x`.  Every loop is modelled
separately, as in the source; `k` is the loop counter.
-/
namespace Ufunclab.MinMax
variable {α : Type _}

/-- `std::min(a, b)` is `(b < a) ? b : a`. -/
def stdMin (lt : α → α → Bool) (a b : α) : α := if lt b a then b else a
/-- `std::max(a, b)` is `(a < b) ? b : a`. -/
def stdMax (lt : α → α → Bool) (a b : α) : α := if lt a b then b else a

/-- Loop of `minmax_core`, lines 29-33. -/
def minmaxLoop (lt : α → α → Bool) : (xmin xmax : α) → List α → α × α
  | xmin, xmax, [] => (xmin, xmax)
  | xmin, xmax, x :: xs => minmaxLoop lt (stdMin lt xmin x) (stdMax lt xmax x) xs

/-- `minmax_core`, lines 17-36. -/
def minmax (lt : α → α → Bool) (x0 : α) (xs : List α) : α × α := minmaxLoop lt x0 x0 xs

/-- Loop of `argminmax_core`, lines 90-100 (note the `else if`). -/
def argminmaxLoop (lt : α → α → Bool) :
    (k : Nat) → (xmin xmax : α) → (imin imax : Nat) → List α → Nat × Nat
  | _, _, _, imin, imax, [] => (imin, imax)
  | k, xmin, xmax, imin, imax, x :: xs =>
    if lt x xmin then argminmaxLoop lt (k + 1) x xmax k imax xs
    else if lt xmax x then argminmaxLoop lt (k + 1) xmin x imin k xs
    else argminmaxLoop lt (k + 1) xmin xmax imin imax xs

/-- `argminmax_core`, lines 76-103. -/
def argminmax (lt : α → α → Bool) (x0 : α) (xs : List α) : Nat × Nat :=
  argminmaxLoop lt 1 x0 x0 0 0 xs

/-- Loop of `argmin_core`, lines 159-165. -/
def argminLoop (lt : α → α → Bool) : (k : Nat) → (xmin : α) → (imin : Nat) → List α → Nat
  | _, _, imin, [] => imin
  | k, xmin, imin, x :: xs =>
    if lt x xmin then argminLoop lt (k + 1) x k xs else argminLoop lt (k + 1) xmin imin xs

/-- `argmin_core`, lines 148-167. -/
def argmin (lt : α → α → Bool) (x0 : α) (xs : List α) : Nat := argminLoop lt 1 x0 0 xs

/-- Loop of `argmax_core`, lines 205-211. -/
def argmaxLoop (lt : α → α → Bool) : (k : Nat) → (xmax : α) → (imax : Nat) → List α → Nat
  | _, _, imax, [] => imax
  | k, xmax, imax, x :: xs =>
    if lt xmax x then argmaxLoop lt (k + 1) x k xs else argmaxLoop lt (k + 1) xmax imax xs

/-- `argmax_core`, lines 194-213. -/
def argmax (lt : α → α → Bool) (x0 : α) (xs : List α) : Nat := argmaxLoop lt 1 x0 0 xs

/-- Loop of `min_argmin_core`, lines 252-258. -/
def minArgminLoop (lt : α → α → Bool) : (k : Nat) → (xmin : α) → (imin : Nat) → List α → α × Nat
  | _, xmin, imin, [] => (xmin, imin)
  | k, xmin, imin, x :: xs =>
    if lt x xmin then minArgminLoop lt (k + 1) x k xs else minArgminLoop lt (k + 1) xmin imin xs

/-- `min_argmin_core`, lines 240-261. -/
def minArgmin (lt : α → α → Bool) (x0 : α) (xs : List α) : α × Nat := minArgminLoop lt 1 x0 0 xs

/-- Loop of `max_argmax_core`, lines 303-309. -/
def maxArgmaxLoop (lt : α → α → Bool) : (k : Nat) → (xmax : α) → (imax : Nat) → List α → α × Nat
  | _, xmax, imax, [] => (xmax, imax)
  | k, xmax, imax, x :: xs =>
    if lt xmax x then maxArgmaxLoop lt (k + 1) x k xs else maxArgmaxLoop lt (k + 1) xmax imax xs

/-- `max_argmax_core`, lines 291-312. -/
def maxArgmax (lt : α → α → Bool) (x0 : α) (xs : List α) : α × Nat := maxArgmaxLoop lt 1 x0 0 xs

/-! ## Object versions
`lt`/`gt` model `PyObject_RichCompareBool(.., Py_LT / Py_GT)`: `none` is the
return value -1 (exception).  The result `none` means that the core function
returned early, without writing its outputs and with the exception set. -/

/-- Loop of `minmax_object_core`, lines 50-68. -/
def minmaxObjLoop (lt gt : α → α → Option Bool) : (xmin xmax : α) → List α → Option (α × α)
  | xmin, xmax, [] => some (xmin, xmax)
  | xmin, xmax, x :: xs =>
    match lt x xmin with
    | none => none
    | some true => minmaxObjLoop lt gt x xmax xs
    | some false =>
      match gt x xmax with
      | none => none
      | some true => minmaxObjLoop lt gt xmin x xs
      | some false => minmaxObjLoop lt gt xmin xmax xs

/-- `minmax_object_core`, lines 39-73. -/
def minmaxObj (lt gt : α → α → Option Bool) (x0 : α) (xs : List α) := minmaxObjLoop lt gt x0 x0 xs

/-- Loop of `argminmax_object_core`, lines 119-139. -/
def argminmaxObjLoop (lt gt : α → α → Option Bool) :
    (k : Nat) → (xmin xmax : α) → (imin imax : Nat) → List α → Option (Nat × Nat)
  | _, _, _, imin, imax, [] => some (imin, imax)
  | k, xmin, xmax, imin, imax, x :: xs =>
    match lt x xmin with
    | none => none
    | some true => argminmaxObjLoop lt gt (k + 1) x xmax k imax xs
    | some false =>
      match gt x xmax with
      | none => none
      | some true => argminmaxObjLoop lt gt (k + 1) xmin x imin k xs
      | some false => argminmaxObjLoop lt gt (k + 1) xmin xmax imin imax xs

/-- `argminmax_object_core`, lines 106-142. -/
def argminmaxObj (lt gt : α → α → Option Bool) (x0 : α) (xs : List α) :=
  argminmaxObjLoop lt gt 1 x0 x0 0 0 xs

/-- Loop of `argmin_object_core`, lines 179-189 (`test` is `Py_LT`), and of
`argmax_object_core`, lines 225-235 (`test` is `Py_GT`): the two loops are the
same text up to the comparison. -/
def argextObjLoop (test : α → α → Option Bool) : (k : Nat) → (xe : α) → (ie : Nat) → List α → Option Nat
  | _, _, ie, [] => some ie
  | k, xe, ie, x :: xs =>
    match test x xe with
    | none => none
    | some true => argextObjLoop test (k + 1) x k xs
    | some false => argextObjLoop test (k + 1) xe ie xs

/-- `argmin_object_core`, lines 169-191. -/
def argminObj (lt : α → α → Option Bool) (x0 : α) (xs : List α) := argextObjLoop lt 1 x0 0 xs
/-- `argmax_object_core`, lines 215-237. -/
def argmaxObj (gt : α → α → Option Bool) (x0 : α) (xs : List α) := argextObjLoop gt 1 x0 0 xs

/-- Loop of `min_argmin_object_core`, lines 274-284 (`Py_LT`) and of
`max_argmax_object_core`, lines 325-335 (`Py_GT`). -/
def extArgextObjLoop (test : α → α → Option Bool) :
    (k : Nat) → (xe : α) → (ie : Nat) → List α → Option (α × Nat)
  | _, xe, ie, [] => some (xe, ie)
  | k, xe, ie, x :: xs =>
    match test x xe with
    | none => none
    | some true => extArgextObjLoop test (k + 1) x k xs
    | some false => extArgextObjLoop test (k + 1) xe ie xs

/-- `min_argmin_object_core`, lines 263-288. -/
def minArgminObj (lt : α → α → Option Bool) (x0 : α) (xs : List α) := extArgextObjLoop lt 1 x0 0 xs
/-- `max_argmax_object_core`, lines 314-339. -/
def maxArgmaxObj (gt : α → α → Option Bool) (x0 : α) (xs : List α) := extArgextObjLoop gt 1 x0 0 xs

end Ufunclab.MinMax
