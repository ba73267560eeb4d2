import Verif.Model.IntTy
import Mathlib.Algebra.Field.Defs
/-! # Model of src/percentileofscore/percentileofscore_gufunc.h -/
namespace Ufunclab.Percentile
variable {α : Type _}

/-- `count`, lines 21-46, from given counters: (nless, nequal, ngreater). -/
def countLoop (lt eq : α → α → Bool) (score : α) : (Nat × Nat × Nat) → List α → Nat × Nat × Nat
  | c, [] => c
  | (l, e, g), x :: xs =>
    if lt x score then countLoop lt eq score (l + 1, e, g) xs
    else if eq x score then countLoop lt eq score (l, e + 1, g) xs
    else countLoop lt eq score (l, e, g + 1) xs

/-- `count`, lines 21-46. -/
def count (lt eq : α → α → Bool) (score : α) (xs : List α) : Nat × Nat × Nat :=
  countLoop lt eq score (0, 0, 0) xs

/-- `percentileofscore_core_calc`, lines 52-85.  `kind` is an `npy_intp`, cast
to `int`; RANK = 0, WEAK = 1, STRICT = 2, MEAN = 3 (lines 12-17).  `none`: the
output is not written.  Arithmetic on doubles is modelled in a field; counts
do not overflow (`n ≤ 2^62`). -/
def percentileofscore {K : Type _} [Field K] (lt eq : α → α → Bool) (xs : List α) (score : α)
    (kind : Int) : Option K :=
  let c := count lt eq score xs
  let nless := c.1
  let nequal := c.2.1
  let n := (xs.length : K)
  let k := IntTy.i32.wrap kind
  if k = 0 then
    let sum := 2 * nless + nequal
    let sum := if 0 < nequal then sum + 1 else sum
    some ((sum : Nat) * 50 / n)
  else if k = 1 then some ((nless + nequal : Nat) * 100 / n)
  else if k = 2 then some ((nless : Nat) * 100 / n)
  else if k = 3 then some ((2 * nless + nequal : Nat) * 50 / n)
  else none

/-- `percentileofscore_core_calc`, lines 52-85, with the conversions of the counts to `double` and the two
operations rounded by `rd`. -/
def percentileofscoreR {K : Type _} [Field K] (rd : K → K) (lt eq : α → α → Bool) (xs : List α) (score : α)
    (kind : Int) : Option K :=
  let c := count lt eq score xs
  let nless := c.1
  let nequal := c.2.1
  let n := rd (xs.length : K)
  let k := IntTy.i32.wrap kind
  if k = 0 then
    let sum := 2 * nless + nequal
    let sum := if 0 < nequal then sum + 1 else sum
    some (rd (rd (rd ((sum : Nat) : K) * 50) / n))
  else if k = 1 then some (rd (rd (rd ((nless + nequal : Nat) : K) * 100) / n))
  else if k = 2 then some (rd (rd (rd ((nless : Nat) : K) * 100) / n))
  else if k = 3 then some (rd (rd (rd ((2 * nless + nequal : Nat) : K) * 50) / n))
  else none

end Ufunclab.Percentile
