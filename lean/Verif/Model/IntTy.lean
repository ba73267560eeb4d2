/-!
# Fixed-width C integer types (LP64 / NumPy integer dtypes)

Values of a type are represented by the mathematical integer they denote.
-/
namespace Ufunclab

/-- An integer type: number of bits and signedness (NumPy codes b,B,h,H,i,I,l,L). -/
structure IntTy where
  bits : Nat
  signed : Bool
deriving DecidableEq, Repr

namespace IntTy

def min (t : IntTy) : Int := if t.signed then -(2 ^ (t.bits - 1) : Int) else 0
def max (t : IntTy) : Int := if t.signed then (2 ^ (t.bits - 1) : Int) - 1 else 2 ^ t.bits - 1

/-- The value is representable in the type. -/
def InRange (t : IntTy) (z : Int) : Prop := t.min ≤ z ∧ z ≤ t.max

instance (t : IntTy) (z : Int) : Decidable (t.InRange z) := by unfold InRange; infer_instance

/-- Conversion to the type (modulo `2^bits`, two's complement). -/
def wrap (t : IntTy) (z : Int) : Int :=
  if t.signed then (z + 2 ^ (t.bits - 1)) % 2 ^ t.bits - 2 ^ (t.bits - 1) else z % 2 ^ t.bits

def i8 : IntTy := ⟨8, true⟩
def u8 : IntTy := ⟨8, false⟩
def i32 : IntTy := ⟨32, true⟩
def i64 : IntTy := ⟨64, true⟩

/-- `npy_intp` on a 64-bit platform. -/
def intp : IntTy := i64

end IntTy
end Ufunclab
