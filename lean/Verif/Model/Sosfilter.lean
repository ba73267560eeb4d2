import Verif.Model.Mem
/-!
# Model of src/sosfilter/sosfilter_gufunc.h

Arithmetic is law-free (`Add`, `Sub`, `Mul` without laws).  The arrays `sos`,
`x`, `y` live in separate memories (NumPy copies overlapping operands); `zi`
and `zf` share one memory because `sosfilter_core` passes the same buffer for
both.
-/
namespace Ufunclab.Sosfilter
variable {α : Type _} [Add α] [Sub α] [Mul α]

/-- A 2-d strided array: base address and the two strides. -/
structure View2 where
  p : Int
  s0 : Int
  s1 : Int

def View2.addr (v : View2) (i j : Nat) : Int := v.p + (i : Int) * v.s0 + (j : Int) * v.s1

/-- Inner loop of `sosfilter_ic_core` (over the sections `k`), lines 42-57 and
65-80: the two copies differ only in how `x[i]`, `y[i]` are addressed; `ya` is
the address of `y[i]`.  Returns the memories of `zf` and `y`. -/
def icInner (mS : Mem α) (S Z : View2) (ya : Int) :
    (fuel k : Nat) → (xi : α) → (mz my : Mem α) → Mem α × Mem α
  | 0, _, _, mz, my => (mz, my)
  | fuel + 1, k, xi, mz, my =>
    let yi := get2d mS S.p S.s0 S.s1 k 0 * xi + get2d mz Z.p Z.s0 Z.s1 k 0
    let my := my.store ya yi
    let tmp1 := get2d mz Z.p Z.s0 Z.s1 k 1 + get2d mS S.p S.s0 S.s1 k 1 * xi
      - get2d mS S.p S.s0 S.s1 k 4 * yi
    let mz := set2d mz Z.p Z.s0 Z.s1 k 0 tmp1
    let tmp2 := get2d mS S.p S.s0 S.s1 k 2 * xi - get2d mS S.p S.s0 S.s1 k 5 * yi
    let mz := set2d mz Z.p Z.s0 Z.s1 k 1 tmp2
    icInner mS S Z ya fuel (k + 1) yi mz my

/-- Outer loop of `sosfilter_ic_core` (over the samples), lines 40-59 with
`p_x[i]`, `p_y[i]` (`xs = ys = size`) and 62-83 with `get`/`set`. -/
def icOuter (m : Nat) (mS : Mem α) (S : View2) (mx : Mem α) (px xs : Int) (Z : View2)
    (py ys : Int) : (fuel i : Nat) → (mz my : Mem α) → Mem α × Mem α
  | 0, _, mz, my => (mz, my)
  | fuel + 1, i, mz, my =>
    let r := icInner mS S Z (py + (i : Int) * ys) m 0 (mx (px + (i : Int) * xs)) mz my
    icOuter m mS S mx px xs Z py ys fuel (i + 1) r.1 r.2

/-- Lines 31-36: copy `zi` to `zf`, row by row. -/
def copyRows (ZI ZF : View2) : (fuel k : Nat) → (mz : Mem α) → Mem α
  | 0, _, mz => mz
  | fuel + 1, k, mz =>
    let mz := set2d mz ZF.p ZF.s0 ZF.s1 k 0 (get2d mz ZI.p ZI.s0 ZI.s1 k 0)
    let mz := set2d mz ZF.p ZF.s0 ZF.s1 k 1 (get2d mz ZI.p ZI.s0 ZI.s1 k 1)
    copyRows ZI ZF fuel (k + 1) mz

/-- `sosfilter_ic_core`, lines 13-84. `size` is `sizeof(T)`. -/
def icCore (size : Int) (m n : Nat) (mS : Mem α) (S : View2) (mx : Mem α) (px xs : Int)
    (ZI : View2) (my : Mem α) (py ys : Int) (ZF : View2) (mz : Mem α) : Mem α × Mem α :=
  let mz := if ZI.p ≠ ZF.p then copyRows ZI ZF m 0 mz else mz
  if xs = size ∧ ys = size then icOuter m mS S mx px size ZF py size n 0 mz my
  else icOuter m mS S mx px xs ZF py ys n 0 mz my

/-- Inner loop of `sosfilter_ic_contig_core`, lines 111-124: pointer arithmetic
`p_sos + 6*k + c`, `p_zf + 2*k + c` in units of `size`. -/
def contigInner (size : Int) (mS : Mem α) (pS pZ : Int) (ya : Int) :
    (fuel k : Nat) → (xi : α) → (mz my : Mem α) → Mem α × Mem α
  | 0, _, _, mz, my => (mz, my)
  | fuel + 1, k, xi, mz, my =>
    let yi := mS (pS + 6 * (k : Int) * size) * xi + mz (pZ + 2 * (k : Int) * size)
    let my := my.store ya yi
    let mz := mz.store (pZ + 2 * (k : Int) * size)
      (mz (pZ + (2 * (k : Int) + 1) * size) + mS (pS + (6 * (k : Int) + 1) * size) * xi
        - mS (pS + (6 * (k : Int) + 4) * size) * yi)
    let mz := mz.store (pZ + (2 * (k : Int) + 1) * size)
      (mS (pS + (6 * (k : Int) + 2) * size) * xi - mS (pS + (6 * (k : Int) + 5) * size) * yi)
    contigInner size mS pS pZ ya fuel (k + 1) yi mz my

/-- Outer loop of `sosfilter_ic_contig_core`, lines 108-127. -/
def contigOuter (size : Int) (m : Nat) (mS : Mem α) (pS : Int) (mx : Mem α) (px : Int) (pZ : Int)
    (py : Int) : (fuel i : Nat) → (mz my : Mem α) → Mem α × Mem α
  | 0, _, mz, my => (mz, my)
  | fuel + 1, i, mz, my =>
    let r := contigInner size mS pS pZ (py + (i : Int) * size) m 0 (mx (px + (i : Int) * size)) mz my
    contigOuter size m mS pS mx px pZ py fuel (i + 1) r.1 r.2

/-- `memcpy` of `k` items of the given size, as a forward copy (the ranges do
not overlap). -/
def memcpy (size : Int) (dst src : Int) : (fuel i : Nat) → (mz : Mem α) → Mem α
  | 0, _, mz => mz
  | fuel + 1, i, mz =>
    memcpy size dst src fuel (i + 1) (mz.store (dst + (i : Int) * size) (mz (src + (i : Int) * size)))

/-- `sosfilter_ic_contig_core`, lines 89-128. -/
def contigCore (size : Int) (m n : Nat) (mS : Mem α) (pS : Int) (mx : Mem α) (px : Int)
    (pZI : Int) (my : Mem α) (py : Int) (pZF : Int) (mz : Mem α) : Mem α × Mem α :=
  let mz := if pZF ≠ pZI then memcpy size pZF pZI (2 * m) 0 mz else mz
  contigOuter size m mS pS mx px pZF py n 0 mz my

/-- `sosfilter_core`, lines 130-162; `zero` is the value of all-zero bytes
(`calloc`), `pz` the address returned by `calloc` (assumed to succeed).
Returns the memory of `out`. -/
def sosfilterCore (size : Int) (zero : α) (m n : Nat) (mS : Mem α) (S : View2) (mx : Mem α)
    (px xs : Int) (my : Mem α) (po os : Int) (pz : Int) : Mem α :=
  let mz : Mem α := fun _ => zero
  if S.s0 = 6 * size ∧ S.s1 = size ∧ xs = size ∧ os = size then
    (contigCore size m n mS S.p mx px pz my po pz mz).2
  else
    (icCore size m n mS S mx px xs ⟨pz, 2 * size, size⟩ my po os ⟨pz, 2 * size, size⟩ mz).2

/-! ## The same on logical elements -/

/-- One row of `sos`: b0 b1 b2 a0 a1 a2 (a0 is never read). -/
structure Section (α : Type _) where
  b0 : α
  b1 : α
  b2 : α
  a0 : α
  a1 : α
  a2 : α

/-- One row of `zi`/`zf`. -/
structure State (α : Type _) where
  z0 : α
  z1 : α

/-- One section, one sample (body of the inner loops). -/
def secOut (s : Section α) (z : State α) (x : α) : α := s.b0 * x + z.z0
def secState (s : Section α) (z : State α) (x : α) : State α :=
  ⟨z.z1 + s.b1 * x - s.a1 * secOut s z x, s.b2 * x - s.a2 * secOut s z x⟩

/-- All sections, one sample: the value passed out of the last section and the
new states. -/
def sampleStep : List (Section α) → List (State α) → α → α × List (State α)
  | s :: ss, z :: zs, x =>
    let r := sampleStep ss zs (secOut s z x)
    (r.1, secState s z x :: r.2)
  | _, _, x => (x, [])

/-- All samples: outputs and final states. -/
def filter (ss : List (Section α)) : List (State α) → List α → List α × List (State α)
  | zs, [] => ([], zs)
  | zs, x :: xs =>
    let r := sampleStep ss zs x
    let rest := filter ss r.2 xs
    (r.1 :: rest.1, rest.2)

/-- Row `k` of the `sos` array. -/
def sectionAt (mS : Mem α) (S : View2) (k : Nat) : Section α :=
  ⟨get2d mS S.p S.s0 S.s1 k 0, get2d mS S.p S.s0 S.s1 k 1, get2d mS S.p S.s0 S.s1 k 2,
   get2d mS S.p S.s0 S.s1 k 3, get2d mS S.p S.s0 S.s1 k 4, get2d mS S.p S.s0 S.s1 k 5⟩

def stateAt (mz : Mem α) (Z : View2) (k : Nat) : State α :=
  ⟨get2d mz Z.p Z.s0 Z.s1 k 0, get2d mz Z.p Z.s0 Z.s1 k 1⟩

/-- The rows of `sos` and `zi`/`zf` as lists. -/
def sections (mS : Mem α) (S : View2) (m : Nat) : List (Section α) :=
  (List.range m).map (sectionAt mS S)
def states (mz : Mem α) (Z : View2) (m : Nat) : List (State α) := (List.range m).map (stateAt mz Z)

end Ufunclab.Sosfilter
