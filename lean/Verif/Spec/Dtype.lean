import Verif.Spec.Float
import Mathlib.Data.Real.Basic
/-!
# NumPy's built-in numeric types, their values and its "safe" casts

Only what the loop selection of a ufunc needs.  A platform is given by the width of C `long` and by whether `long double` is
wider than `double` (Linux x86-64: 64, wider; Windows: 32, not wider; macOS arm64: 64, not wider).
-/
namespace Ufunclab.Dispatch

/-- The types by their NumPy character; `bool_` is `?`. -/
inductive DT where
  | bool_ | b | B | h | H | i | I | l | L | q | Q | e | f | d | g | F | D | G | O
  deriving DecidableEq, Repr

structure Platform where
  long64 : Bool
  wideLD : Bool
  deriving DecidableEq, Repr

def linux : Platform := ⟨true, true⟩
def windows : Platform := ⟨false, false⟩
def macos : Platform := ⟨true, false⟩

inductive Kind where
  | boolean | signed | unsigned | float | complex | object
  deriving DecidableEq, Repr

def DT.kind : DT → Kind
  | .bool_ => .boolean
  | .b | .h | .i | .l | .q => .signed
  | .B | .H | .I | .L | .Q => .unsigned
  | .e | .f | .d | .g => .float
  | .F | .D | .G => .complex
  | .O => .object

/-- Number of bits of an integer type. -/
def DT.bits (P : Platform) : DT → ℕ
  | .b | .B => 8
  | .h | .H => 16
  | .i | .I => 32
  | .l | .L => if P.long64 then 64 else 32
  | .q | .Q => 64
  | _ => 0

/-- Precision (bits of the significand) of a float type, or of the parts of a complex type. -/
def DT.prec (P : Platform) : DT → ℕ
  | .e => 11
  | .f | .F => 24
  | .d | .D => 53
  | .g | .G => if P.wideLD then 64 else 53
  | _ => 0

/-- Is the integer `v` a value of the type?  The ranges of the C integer types; for a float, an integer that is a multiple of
a power of two with at most `prec` significant bits.  (Every integer of a C integer type is below the overflow threshold of
`float`, and of `half` if the type has at most 8 bits; larger types are never cast to `half`.) -/
def DT.HasInt (P : Platform) (t : DT) (v : ℤ) : Prop :=
  match t.kind with
  | .boolean => v = 0 ∨ v = 1
  | .signed => -2 ^ (t.bits P - 1) ≤ v ∧ v < 2 ^ (t.bits P - 1)
  | .unsigned => 0 ≤ v ∧ v < 2 ^ t.bits P
  | .float | .complex => ∃ (m : ℤ) (k : ℕ), v = m * 2 ^ k ∧ |m| ≤ 2 ^ t.prec P
  | .object => True

/-- NumPy's table of safe casts (`numpy.can_cast(s, t)`).  The cast from a 64 bit integer to `double` is "safe". -/
def canCast (P : Platform) (s t : DT) : Bool :=
  match s.kind, t.kind with
  | .boolean, _ => true
  | _, .object => true
  | .object, _ => false
  | _, .boolean => false
  | .signed, .signed => s.bits P ≤ t.bits P
  | .signed, .unsigned => false
  | .unsigned, .unsigned => s.bits P ≤ t.bits P
  | .unsigned, .signed => s.bits P < t.bits P
  | .signed, .float | .signed, .complex | .unsigned, .float | .unsigned, .complex =>
      s.bits P ≤ 8 || (s.bits P ≤ 16 && 24 ≤ t.prec P) || 53 ≤ t.prec P
  | .float, .float | .float, .complex | .complex, .complex => s.prec P ≤ t.prec P
  | .float, _ | .complex, _ => false

end Ufunclab.Dispatch
