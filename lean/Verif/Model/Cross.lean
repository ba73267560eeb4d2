import Verif.Model.Mem
/-!
# Model of src/cross/cross_gufunc.h

`mul`/`sub` of the object versions may fail (`none` = a Python exception was set).
Reference counting is modelled separately, in Model/Refs.
-/
namespace Ufunclab.Cross
variable {α : Type _}

/-- `cross3_core_calc`, lines 24-44. -/
def cross3 [Mul α] [Sub α] (m : Mem α) (pu us pv vs po os : Int) : Mem α :=
  let u0 := get m pu us 0
  let u1 := get m pu us 1
  let u2 := get m pu us 2
  let v0 := get m pv vs 0
  let v1 := get m pv vs 1
  let v2 := get m pv vs 2
  let m := set m po os 0 (u1 * v2 - u2 * v1)
  let m := set m po os 1 (u2 * v0 - u0 * v2)
  set m po os 2 (u0 * v1 - u1 * v0)

/-- `det2`, lines 50-67: `a*d - b*c`, `none` when a Python operation raises. -/
def det2 (mul sub : α → α → Option α) (a b c d : α) : Option α :=
  match mul a d with
  | none => none
  | some p0 => match mul b c with
    | none => none
    | some p1 => sub p0 p1

/-- `cross3_core_calc_object`, lines 74-112: the memory afterwards and whether an
exception was set. -/
def cross3Object (mul sub : α → α → Option α) (m : Mem α) (pu us pv vs po os : Int) : Mem α × Bool :=
  let u0 := get m pu us 0
  let u1 := get m pu us 1
  let u2 := get m pu us 2
  let v0 := get m pv vs 0
  let v1 := get m pv vs 1
  let v2 := get m pv vs 2
  match det2 mul sub u1 u2 v1 v2 with
  | none => (m, true)
  | some out0 => match det2 mul sub u2 u0 v2 v0 with
    | none => (m, true)
    | some out1 => match det2 mul sub u0 u1 v0 v1 with
      | none => (m, true)
      | some out2 =>
        let m := set m po os 0 out0
        let m := set m po os 1 out1
        (set m po os 2 out2, false)

/-- `cross2_core_calc`, lines 119-134. -/
def cross2 [Mul α] [Sub α] (m : Mem α) (pu us pv vs : Int) : α :=
  let u0 := get m pu us 0
  let u1 := get m pu us 1
  let v0 := get m pv vs 0
  let v1 := get m pv vs 1
  u0 * v1 - u1 * v0

/-- `cross2_core_calc_object`, lines 141-160: `none` = exception, output not written. -/
def cross2Object (mul sub : α → α → Option α) (m : Mem α) (pu us pv vs : Int) : Option α :=
  det2 mul sub (get m pu us 0) (get m pu us 1) (get m pv vs 0) (get m pv vs 1)

end Ufunclab.Cross
