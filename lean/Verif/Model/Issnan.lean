import Verif.Model.Mem
/-! # Model of src/issnan/issnan_ufunc.c.src -/
namespace Ufunclab.Issnan

/-- `issnanh`, lines 40-47, masks lines 20, 24, 31. -/
def issnan16 (v : BitVec 16) : Bool :=
  (v &&& 0x7E00#16 == 0x7C00#16) && (v &&& 0x01FF#16 != 0#16)

/-- `issnanf`, lines 49-56, masks lines 21, 25, 32. -/
def issnan32 (v : BitVec 32) : Bool :=
  (v &&& 0x7FC00000#32 == 0x7F800000#32) && (v &&& 0x003FFFFF#32 != 0#32)

/-- `issnan`, lines 58-65, masks lines 22, 26, 33. -/
def issnan64 (v : BitVec 64) : Bool :=
  (v &&& 0x7FF8000000000000#64 == 0x7FF0000000000000#64) && (v &&& 0x0007FFFFFFFFFFFF#64 != 0#64)

/-- `issnan_@typename@_loop`, lines 78-95, for any element type and predicate; input and
output live in different memories (they have different types). -/
def loop {α : Type _} (f : α → Bool) (min : Mem α) (mout : Mem Bool) (px sx pout sout : Int) : Nat → Mem Bool
  | 0 => mout
  | n + 1 => loop f min (mout.store pout (f (min px))) (px + sx) sx (pout + sout) sout n

end Ufunclab.Issnan
