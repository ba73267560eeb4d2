import Verif.Model.Mem
/-!
# Model of src/hysteresis_relay/hysteresis_relay_gufunc.h and
# src/backlash/backlash_gufunc.h

Type classes `Add`, `Sub`, `Mul`, `Div`, `LT` are used without any law, so the
definitions apply to IEEE floats as well as to exact fields.
-/
namespace Ufunclab.Signal
variable {α : Type _}

section Relay
variable [LT α] [DecidableLT α]

/-- Loop of `hysteresis_relay_core`, lines 13-51, `fuel` iterations from `k`.
`mx` holds the input, `mo` the output (the loop reads back `out[k-1]`). -/
def relayLoop (lowT highT lowV highV init : α) (mx : Mem α) (px xs : Int) (po os : Int) :
    (fuel k : Nat) → (mo : Mem α) → Mem α
  | 0, _, mo => mo
  | fuel + 1, k, mo =>
    let x := get mx px xs k
    let mo' :=
      if x < lowT then set mo po os k lowV
      else if highT < x then set mo po os k highV
      else if k = 0 then set mo po os k init
      else set mo po os k (get mo po os (k - 1))
    relayLoop lowT highT lowV highV init mx px xs po os fuel (k + 1) mo'

/-- `hysteresis_relay_core`, lines 13-51. -/
def relayCore (lowT highT lowV highV init : α) (mx : Mem α) (px xs : Int) (mo : Mem α) (po os : Int)
    (n : Nat) : Mem α := relayLoop lowT highT lowV highV init mx px xs po os n 0 mo

/-- The same on the list of logical elements: `prev` is `out[k-1]`, initially
`init`. -/
def relay (lowT highT lowV highV : α) : (prev : α) → List α → List α
  | _, [] => []
  | prev, x :: xs =>
    let y := if x < lowT then lowV else if highT < x then highV else prev
    y :: relay lowT highT lowV highV y xs

end Relay

section Backlash
variable [Add α] [Sub α] [LT α] [DecidableLT α]

/-- Body of the loop of `backlash_core`, lines 29-40 (and of the inner loop of
`backlash_sum_core`, lines 72-82): the new `current_y`. -/
def backlashStep (halfband y x : α) : α :=
  let xminus := x - halfband
  if y < xminus then xminus
  else
    let xplus := x + halfband
    if xplus < y then xplus else y

/-- Loop of `backlash_core`, lines 28-42: the list of outputs. -/
def backlashLoop (halfband : α) : (current_y : α) → List α → List α
  | _, [] => []
  | y, x :: xs =>
    let y' := backlashStep halfband y x
    y' :: backlashLoop halfband y' xs

/-- `backlash_core`, lines 13-43. -/
def backlash [Div α] [OfNat α 2] (deadband initial : α) (xs : List α) : List α :=
  backlashLoop (deadband / 2) initial xs

/-- One element of the arrays `w`, `deadband` of `backlash_sum_core`. -/
structure Channel (α : Type _) where
  w : α
  deadband : α

variable [Mul α] [Div α] [OfNat α 2] [OfNat α 0]

/-- Inner loop (over j) of `backlash_sum_core`, lines 69-87: the new contents of
`final` and `y_total`. -/
def sumInner (x : α) : (chs : List (Channel α)) → (ys : List α) → (total : α) → List α × α
  | c :: chs, y :: ys, total =>
    let y' := backlashStep (c.deadband / 2) y x
    let r := sumInner x chs ys (total + c.w * y')
    (y' :: r.1, r.2)
  | _, _, total => ([], total)

/-- Outer loop of `backlash_sum_core`, lines 66-89: outputs and `final`. -/
def sumOuter (chs : List (Channel α)) : (final : List α) → List α → List α × List α
  | final, [] => ([], final)
  | final, x :: xs =>
    let r := sumInner x chs final 0
    let rest := sumOuter chs r.1 xs
    (r.2 :: rest.1, rest.2)

/-- `backlash_sum_core`, lines 46-90: `(out, final)`; lines 63-65 copy `initial`
to `final`. -/
def backlashSum (chs : List (Channel α)) (initial : List α) (xs : List α) : List α × List α :=
  sumOuter chs initial xs

end Backlash
end Ufunclab.Signal
