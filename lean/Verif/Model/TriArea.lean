import Verif.Model.Mem
import Verif.Model.XF
import Mathlib.Analysis.SpecialFunctions.Sqrt
/-!
# Model of src/tri_area/tri_area_gufunc.h

Exact real arithmetic.  `p i k` is coordinate `k` of point `i`, that is
`get2d(p_p, p_strides, i, k)`.  The `int` loop counter of line 19 is unbounded.
-/
namespace Ufunclab.TriArea

/-- Lines 18-25: the loop of `norm_diff`. -/
def sumSqDiff (p : Int → Nat → ℝ) (i1 i2 : Int) : (fuel k : Nat) → ℝ → ℝ
  | 0, _, s => s
  | fuel + 1, k, s =>
    let dx := p i2 k - p i1 k
    sumSqDiff p i1 i2 fuel (k + 1) (s + dx * dx)

/-- `norm_diff`, lines 16-27. -/
noncomputable def normDiff (n : Nat) (p : Int → Nat → ℝ) (i1 i2 : Int) : ℝ :=
  Real.sqrt (sumSqDiff p i1 i2 n 0 0)

/-- Lines 46-62: sort three lengths in decreasing order. -/
noncomputable def sort3 (a b c : ℝ) : ℝ × ℝ × ℝ :=
  let (a, b) := if b > a then (b, a) else (a, b)
  if c > a then (c, a, b)
  else if c > b then (a, c, b)
  else (a, b, c)

/-- Lines 69-73: Kahan's form of Heron's formula. -/
noncomputable def kahan (a b c : ℝ) : ℝ :=
  let f1 := a + (b + c)
  let f2 := c - (a - b)
  let f3 := c + (a - b)
  let f4 := a + (b - c)
  Real.sqrt (f1 * f2 * f3 * f4) / 4

/-- `tri_area_common_calc`, lines 32-77. -/
noncomputable def triAreaCommon (n : Nat) (p : Int → Nat → ℝ) (i0 i1 i2 : Int) : ℝ :=
  let a := normDiff n p i0 i1
  let b := normDiff n p i0 i2
  let c := normDiff n p i1 i2
  let s := sort3 a b c
  kahan s.1 s.2.1 s.2.2

/-- `tri_area_core_calc`, lines 84-93. -/
noncomputable def triArea (n : Nat) (p : Int → Nat → ℝ) : ℝ := triAreaCommon n p 0 1 2

/-- `get_index`, lines 96-107. -/
def getIndex (i m : Int) : Int :=
  let i := if i < 0 then i + m else i
  if i < 0 ∨ i ≥ m then -1 else i

/-- `tri_area_indexed_core_calc`, lines 114-136. -/
noncomputable def triAreaIndexed (m : Int) (n : Nat) (p : Int → Nat → ℝ) (i0 i1 i2 : Int) : XF ℝ :=
  let i0 := getIndex i0 m
  let i1 := getIndex i1 m
  let i2 := getIndex i2 m
  if i0 = -1 ∨ i1 = -1 ∨ i2 = -1 then .nan
  else .fin (triAreaCommon n p i0 i1 i2)

/-! ## The same functions with rounding

`rd` rounds every operation of type `T` (no excess precision, no fused multiply-add, no overflow). -/

/-- Lines 18-25 with rounding. -/
def sumSqDiffR (rd : ℝ → ℝ) (p : Int → Nat → ℝ) (i1 i2 : Int) : (fuel k : Nat) → ℝ → ℝ
  | 0, _, s => s
  | fuel + 1, k, s =>
    let dx := rd (p i2 k - p i1 k)
    sumSqDiffR rd p i1 i2 fuel (k + 1) (rd (s + rd (dx * dx)))

/-- `norm_diff`, lines 16-27, with rounding. -/
noncomputable def normDiffR (rd : ℝ → ℝ) (n : Nat) (p : Int → Nat → ℝ) (i1 i2 : Int) : ℝ :=
  rd (Real.sqrt (sumSqDiffR rd p i1 i2 n 0 0))

/-- Lines 69-73 with rounding; `std::sqrt` of a negative number is NaN. -/
noncomputable def kahanR (rd : ℝ → ℝ) (a b c : ℝ) : XF ℝ :=
  let f1 := rd (a + rd (b + c))
  let f2 := rd (c - rd (a - b))
  let f3 := rd (c + rd (a - b))
  let f4 := rd (a + rd (b - c))
  let q := rd (rd (rd (f1 * f2) * f3) * f4)
  if q < 0 then .nan else .fin (rd (rd (Real.sqrt q) / 4))

/-- `tri_area_common_calc`, lines 32-77, with rounding. -/
noncomputable def triAreaCommonR (rd : ℝ → ℝ) (n : Nat) (p : Int → Nat → ℝ) (i0 i1 i2 : Int) : XF ℝ :=
  let a := normDiffR rd n p i0 i1
  let b := normDiffR rd n p i0 i2
  let c := normDiffR rd n p i1 i2
  let s := sort3 a b c
  kahanR rd s.1 s.2.1 s.2.2

/-- `tri_area_core_calc`, lines 84-93, with rounding. -/
noncomputable def triAreaR (rd : ℝ → ℝ) (n : Nat) (p : Int → Nat → ℝ) : XF ℝ := triAreaCommonR rd n p 0 1 2

end Ufunclab.TriArea
