import Verif.Spec.Refs
/-!
# Model of the reference counting of the loops for object arrays

The results of these functions are modelled elsewhere (Model/MinMax, First, Cross, PeakToPeak); here
only what happens to references.  `cmp`, `mul`, `sub` are the Python code behind
`PyObject_RichCompareBool` and `PyNumber_*`; it may do anything to the state.
-/
namespace Ufunclab.Refs

/-- `Py_INCREF(o)`. -/
def incref (o : Option Obj) (s : St) : St :=
  match o with
  | none => { s with dead := true }
  | some o => { s with rc := fun q => if q = o then s.rc q + 1 else s.rc q, dead := s.dead || decide (s.rc o ≤ 0) }

/-- `Py_XINCREF(o)`: nothing for NULL. -/
def xincref (o : Option Obj) (s : St) : St := if o = none then s else incref o s

/-- `Py_DECREF(o)`. -/
def decref (o : Obj) (s : St) : St :=
  { s with rc := fun q => if q = o then s.rc q - 1 else s.rc q, dead := s.dead || decide (s.rc o ≤ 0) }

/-- `*p = v` for a cell of an object array: the old contents are overwritten, not released. -/
def store (a : Int) (v : Option Obj) (s : St) : St := { s with cell := fun b => if b = a then v else s.cell b }

/-- A call of a C API function on two objects: using NULL or a freed object is recorded, and so is a call with an
exception set. -/
def api {β : Type _} (f : Obj → Obj → St → St × Option β) (a b : Option Obj) (s : St) : St × Option β :=
  match a, b with
  | some a, some b => f a b { s with dead := s.dead || decide (s.rc a ≤ 0) || decide (s.rc b ≤ 0), pend := s.pend || s.err }
  | _, _ => ({ s with dead := true }, none)

abbrev Cmp := Obj → Obj → St → St × Option Bool
abbrev Num := Obj → Obj → St → St × Option Obj

/-- The loop of `minmax_object_core` (src/minmax/minmax_gufunc.h lines 50-68) and of
`peaktopeak_object_loop` (src/peaktopeak/peaktopeak_gufunc.c.src lines 203-221); `none` = return after an error. -/
def minmaxLoop (lt gt : Cmp) (p stride : Int) : (fuel k : Nat) → Option Obj → Option Obj → St → St × Option (Option Obj × Option Obj)
  | 0, _, xmin, xmax, s => (s, some (xmin, xmax))
  | fuel + 1, k, xmin, xmax, s =>
    let x := s.cell (p + (k : Int) * stride)
    match api lt x xmin s with
    | (s, none) => (s, none)
    | (s, some true) => minmaxLoop lt gt p stride fuel (k + 1) x xmax s
    | (s, some false) =>
      match api gt x xmax s with
      | (s, none) => (s, none)
      | (s, some true) => minmaxLoop lt gt p stride fuel (k + 1) xmin x s
      | (s, some false) => minmaxLoop lt gt p stride fuel (k + 1) xmin xmax s

/-- `minmax_object_core`, src/minmax/minmax_gufunc.h lines 38-73. -/
def minmaxObject (lt gt : Cmp) (n : Nat) (p stride po so : Int) (s : St) : St :=
  match minmaxLoop lt gt p stride (n - 1) 1 (s.cell p) (s.cell p) s with
  | (s, none) => s
  | (s, some (xmin, xmax)) =>
    let s := incref xmin s
    let s := incref xmax s
    let s := store po xmin s
    store (po + so) xmax s

/-- The loop of `min_argmin_object_core` and `max_argmax_object_core` (src/minmax/minmax_gufunc.h lines
274-284, 325-335), and of the functions that return only the index. -/
def extremeLoop (cmp : Cmp) (p stride : Int) : (fuel k : Nat) → Option Obj → St → St × Option (Option Obj)
  | 0, _, xm, s => (s, some xm)
  | fuel + 1, k, xm, s =>
    let x := s.cell (p + (k : Int) * stride)
    match api cmp x xm s with
    | (s, none) => (s, none)
    | (s, some true) => extremeLoop cmp p stride fuel (k + 1) x s
    | (s, some false) => extremeLoop cmp p stride fuel (k + 1) xm s

/-- `min_argmin_object_core` and `max_argmax_object_core`, lines 263-288 and 314-339; the index output is not an
object. -/
def extremeObject (cmp : Cmp) (n : Nat) (p stride po : Int) (s : St) : St :=
  match extremeLoop cmp p stride (n - 1) 1 (s.cell p) s with
  | (s, none) => s
  | (s, some xm) => store po xm (incref xm s)

/-- The loop of `first_core_calc_object`, src/first/first_gufunc.h lines 160-172. -/
def firstLoop (cmp : Cmp) (p stride : Int) (target : Option Obj) : (fuel k : Nat) → Option Obj → St → St × Option Obj
  | 0, _, result, s => (s, result)
  | fuel + 1, k, result, s =>
    let x := s.cell (p + (k : Int) * stride)
    match api cmp x target s with
    | (s, none) => (s, none)
    | (s, some true) => (s, x)
    | (s, some false) => firstLoop cmp p stride target fuel (k + 1) result s

/-- `first_core_calc_object`, lines 143-176; `valid` is `py_op >= 0 && py_op <= 5`. -/
def firstObject (cmp : Cmp) (valid : Bool) (n : Nat) (p stride pt pw po : Int) (s : St) : St :=
  let result := s.cell pw
  let (s, result) := if valid then firstLoop cmp p stride (s.cell pt) n 0 result s else (s, result)
  store po result (xincref result s)

/-- `det2`, src/cross/cross_gufunc.h lines 50-67. -/
def det2 (mul sub : Num) (a b c d : Option Obj) (s : St) : St × Option Obj :=
  match api mul a d s with
  | (s, none) => (s, none)
  | (s, some p0) =>
    match api mul b c s with
    | (s, none) => (decref p0 s, none)
    | (s, some p1) =>
      let (s, diff) := api sub (some p0) (some p1) s
      (decref p1 (decref p0 s), diff)

/-- `cross2_core_calc_object`, lines 141-160. -/
def cross2Object (mul sub : Num) (pu us pv vs po : Int) (s : St) : St :=
  match det2 mul sub (s.cell pu) (s.cell (pu + us)) (s.cell pv) (s.cell (pv + vs)) s with
  | (s, none) => s
  | (s, some out) => store po (some out) s

/-- `cross3_core_calc_object`, lines 74-112. -/
def cross3Object (mul sub : Num) (pu us pv vs po os : Int) (s : St) : St :=
  let u0 := s.cell pu
  let u1 := s.cell (pu + us)
  let u2 := s.cell (pu + 2 * us)
  let v0 := s.cell pv
  let v1 := s.cell (pv + vs)
  let v2 := s.cell (pv + 2 * vs)
  match det2 mul sub u1 u2 v1 v2 s with
  | (s, none) => s
  | (s, some out0) =>
    match det2 mul sub u2 u0 v2 v0 s with
    | (s, none) => decref out0 s
    | (s, some out1) =>
      match det2 mul sub u0 u1 v0 v1 s with
      | (s, none) => decref out1 (decref out0 s)
      | (s, some out2) =>
        store (po + 2 * os) (some out2) (store (po + os) (some out1) (store po (some out0) s))

/-- The body of the outer loop of `peaktopeak_object_loop`, src/peaktopeak/peaktopeak_gufunc.c.src lines 198-231; `false` = return. -/
def peakObject (lt gt : Cmp) (sub : Num) (n : Nat) (p stride po : Int) (s : St) : St × Bool :=
  match minmaxLoop lt gt p stride (n - 1) 1 (s.cell p) (s.cell p) s with
  | (s, none) => (s, false)
  | (s, some (xmin, xmax)) =>
    let s := incref xmin s
    let s := incref xmax s
    match api sub xmax xmin s with
    | (s, diff) =>
      let s := match xmin with | some o => decref o s | none => { s with dead := true }
      let s := match xmax with | some o => decref o s | none => { s with dead := true }
      match diff with
      | none => (s, false)
      | some d => (store po (some d) s, true)

/-- `peaktopeak_object_loop`, lines 182-233: the loop over the `cnt` items returns at the first error. -/
def peakLoop (lt gt : Cmp) (sub : Num) (n : Nat) (stride step ostep : Int) : (cnt : Nat) → (p po : Int) → St → St
  | 0, _, _, s => s
  | cnt + 1, p, po, s =>
    match peakObject lt gt sub n p stride po s with
    | (s, false) => s
    | (s, true) => peakLoop lt gt sub n stride step ostep cnt (p + step) (po + ostep) s

/-- The loop over the items in a generated gufunc (tools/cxxgen/gufuncgen.py lines 315-363, `generate_concrete_loop`): the core function
is called for each item, whatever happened in the items before. -/
def itemLoop (core : Nat → St → St) : (cnt i : Nat) → St → St
  | 0, _, s => s
  | cnt + 1, i, s => itemLoop core cnt (i + 1) (core i s)

end Ufunclab.Refs
