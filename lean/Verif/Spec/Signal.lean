/-! # Specification of the relay -/
namespace Ufunclab.Spec
variable {α : Type _} [LT α] [DecidableLT α]

/-- The most recent element (the last in the list) outside the band, if any. -/
def lastOutside (lowT highT : α) (xs : List α) : Option α :=
  xs.reverse.find? (fun x => decide (x < lowT) || decide (highT < x))

/-- Relay value decided by a history of samples: the value for the side of the
most recent decisive sample, `init` if there is none. -/
def relayValue (lowT highT lowV highV init : α) (history : List α) : α :=
  match lastOutside lowT highT history with
  | none => init
  | some x => if x < lowT then lowV else highV

end Ufunclab.Spec
