/-!
# Memory and strided access

Models src/util/strided.hpp.

Simplification: a memory holds one typed cell per address; an element of any
type occupies exactly the cell at its address.  Overlap of *partially*
intersecting elements is therefore not modelled (NumPy strides are multiples
of the item size for aligned arrays, and NumPy copies overlapping operands).
Strides are signed, zero strides (broadcast) and negative strides included.
-/
namespace Ufunclab

/-- Memory: one value per (byte) address. -/
abbrev Mem (α : Type _) := Int → α

/-- Store one cell. Models `*p = v`. -/
def Mem.store {α : Type _} (m : Mem α) (addr : Int) (v : α) : Mem α :=
  fun b => if b = addr then v else m b

/-- src/util/strided.hpp lines 10-15: `get(px, stride, index)` reads
`*(T *)((char *)px + index*stride)`. -/
def get {α : Type _} (m : Mem α) (p stride : Int) (i : Nat) : α :=
  m (p + (i : Int) * stride)

/-- src/util/strided.hpp lines 17-22: `set(px, stride, index, value)`. -/
def set {α : Type _} (m : Mem α) (p stride : Int) (i : Nat) (v : α) : Mem α :=
  m.store (p + (i : Int) * stride) v

/-- src/util/strided.hpp lines 24-29: `get2d(px, stride, index1, index2)`:
reads at `px + i*strides[0] + j*strides[1]`. -/
def get2d {α : Type _} (m : Mem α) (p s0 s1 : Int) (i j : Nat) : α :=
  m (p + (i : Int) * s0 + (j : Int) * s1)

/-- src/util/strided.hpp lines 31-36: `set2d`. -/
def set2d {α : Type _} (m : Mem α) (p s0 s1 : Int) (i j : Nat) (v : α) : Mem α :=
  m.store (p + (i : Int) * s0 + (j : Int) * s1) v

/-- The `n` logical elements of the 1-d strided array `(p, stride)`: this is
the list on which the read-only cores are modelled. -/
def elems {α : Type _} (m : Mem α) (p stride : Int) (n : Nat) : List α :=
  (List.range n).map (fun i => get m p stride i)

end Ufunclab
