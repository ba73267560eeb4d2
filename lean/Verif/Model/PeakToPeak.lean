import Verif.Model.Mem
import Verif.Model.IntTy
/-! # Model of src/peaktopeak/peaktopeak_gufunc.c.src -/
namespace Ufunclab.PeakToPeak
variable {α ρ : Type _}

/-- The type in which C evaluates `xmax - xmin` and `-xmin` for a signed input
type of the given width: integer promotion makes narrower types `int`. -/
def promoted (bits : Nat) : IntTy := if bits < 32 then IntTy.i32 else ⟨bits, true⟩

/-- The type of `xmax + (uintN_t) (-xmin)`: `int` for the narrow types,
otherwise the unsigned type. -/
def sumType (bits : Nat) : IntTy := if bits < 32 then IntTy.i32 else ⟨bits, false⟩

/-- `max_diff_@typename@`, lines 31-40: the value, and whether the evaluation performs a signed
operation whose exact result is not representable (undefined behaviour in ISO C).  The value is
that of a machine on which signed overflow wraps around. -/
def maxDiffC (bits : Nat) (xmax xmin : Int) : Int × Bool :=
  let out : IntTy := ⟨bits, false⟩
  if (xmax > 0 ∧ xmin > 0) ∨ (xmax ≤ 0 ∧ xmin ≤ 0) then
    let d := xmax - xmin
    (out.wrap ((promoted bits).wrap d), !decide ((promoted bits).InRange d))
  else
    let nmin := -xmin
    let v := xmax + out.wrap ((promoted bits).wrap nmin)
    (out.wrap ((sumType bits).wrap v),
      !decide ((promoted bits).InRange nmin) || ((sumType bits).signed && !decide ((sumType bits).InRange v)))

/-- The value of `max_diff_@typename@`, lines 31-40. -/
def maxDiff (bits : Nat) (xmax xmin : Int) : Int := (maxDiffC bits xmax xmin).1

/-- The evaluation of lines 33-38 is undefined in ISO C. -/
def overflows (bits : Nat) (xmax xmin : Int) : Prop := (maxDiffC bits xmax xmin).2 = true

/-- Loop of `peaktopeak_@typename@_contig`, lines 47-51: `fuel` iterations from
index `i`; `x[i]` is at `p + i*size`. -/
def contigLoop (lt : α → α → Bool) (m : Mem α) (p size : Int) :
    (fuel i : Nat) → (xmin xmax : α) → α × α
  | 0, _, xmin, xmax => (xmin, xmax)
  | fuel + 1, i, xmin, xmax =>
    let xi := m (p + (i : Int) * size)
    contigLoop lt m p size fuel (i + 1) (if lt xi xmin then xi else xmin)
      (if lt xmax xi then xi else xmax)

/-- Inner loop of `peaktopeak_@typename@_loop`, lines 105-113, with the
advancing pointer `inner` and the `else if`. -/
def stridedLoop (lt : α → α → Bool) (m : Mem α) (step : Int) :
    (fuel : Nat) → (inner : Int) → (xmin xmax : α) → α × α
  | 0, _, xmin, xmax => (xmin, xmax)
  | fuel + 1, inner, xmin, xmax =>
    let x := m inner
    if lt x xmin then stridedLoop lt m step fuel (inner + step) x xmax
    else if lt xmax x then stridedLoop lt m step fuel (inner + step) xmin x
    else stridedLoop lt m step fuel (inner + step) xmin xmax

/-- One iteration of the outer loop of `peaktopeak_@typename@_loop`, lines
77-121, for `n = dimensions[1]`; `diff xmax xmin` is `max_diff_...` or the
subtraction of the type.  `none`: ValueError (n = 0).  The contiguous branch is
lines 95-98 with `peaktopeak_..._contig`, lines 43-58. -/
def peaktopeak (lt : α → α → Bool) (diff : α → α → ρ) (size : Int) (m : Mem α) (inp innerStep : Int)
    (n : Nat) : Option ρ :=
  if n = 0 then none
  else if innerStep = size then
    let r := contigLoop lt m inp size (n - 1) 1 (m inp) (m inp)
    some (diff r.2 r.1)
  else
    let r := stridedLoop lt m innerStep (n - 1) (inp + innerStep) (m inp) (m inp)
    some (diff r.2 r.1)

/-- Signed integer types. -/
def peaktopeakSigned (bits : Nat) := peaktopeak (fun a b : Int => decide (a < b)) (maxDiff bits)

/-- Unsigned integer types: `xmax - xmin` (line 56/117), converted to the
output type. -/
def peaktopeakUnsigned (bits : Nat) :=
  peaktopeak (fun a b : Int => decide (a < b))
    (fun a b => (IntTy.mk bits false).wrap ((if bits < 32 then IntTy.i32 else ⟨bits, false⟩).wrap (a - b)))

/-- Loop of `peaktopeak_object_loop`, lines 203-218. -/
def objLoop (lt gt : α → α → Option Bool) : (xmin xmax : α) → List α → Option (α × α)
  | xmin, xmax, [] => some (xmin, xmax)
  | xmin, xmax, x :: xs =>
    match lt x xmin with
    | none => none
    | some true => objLoop lt gt x xmax xs
    | some false =>
      match gt x xmax with
      | none => none
      | some true => objLoop lt gt xmin x xs
      | some false => objLoop lt gt xmin xmax xs

/-- `peaktopeak_object_loop`, lines 183-232, one outer iteration; `sub` is
`PyNumber_Subtract`. -/
def peaktopeakObj (lt gt : α → α → Option Bool) (sub : α → α → Option α) : List α → Option α
  | [] => none
  | x0 :: xs =>
    match objLoop lt gt x0 x0 xs with
    | none => none
    | some (xmin, xmax) => sub xmax xmin

end Ufunclab.PeakToPeak
