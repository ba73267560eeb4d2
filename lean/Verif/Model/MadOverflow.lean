import Verif.Model.Mad
import Verif.Model.TriArea
import Verif.Model.Corr
/-!
# mad, gini, rmad and tri_area with a rounding that may overflow

The functions of src/mad/mad_gufunc.h and src/tri_area/tri_area_gufunc.h on finite data, with the result
of every operation, and of every conversion of an integer to the type `T`, passed through `r`: `ov rd Ω` (Spec/Overflow) rounds and
overflows.  No excess precision, no fused multiply-add.  The `npy_intp` product `n*n` is exact.
-/
namespace Ufunclab.Mad

/-- Lines 60-67 of mad_gufunc.h: the loop over `tmp[1..]` with state `(sum, total)`. -/
noncomputable def scanO (r : XF ℝ → XF ℝ) : (k : Nat) → (sum total : XF ℝ) → List ℝ → XF ℝ × XF ℝ
  | _, sum, total, [] => (sum, total)
  | k, sum, total, t :: ts =>
    scanO r (k + 1) (r (sum.add (r ((r ((r (.fin (k : ℝ))).mul (.fin t))).sub total)))) (r (total.add (.fin t))) ts

/-- `unnormalized_mad`, lines 24-69. -/
noncomputable def unnormalizedMadO (r : XF ℝ → XF ℝ) (x : List ℝ) : XF ℝ × XF ℝ :=
  match sort x with
  | [] => (.fin 0, .fin 0)  -- not reachable: n ≥ 1
  | t :: ts => scanO r 1 (.fin 0) (.fin t) ts

/-- `mad_core`, lines 76-96. -/
noncomputable def madO (r : XF ℝ → XF ℝ) (x : List ℝ) (unbiased : Bool) : XF ℝ :=
  let s := unnormalizedMadO r x
  if unbiased then
    r ((r ((r (XF.mul (.fin 2) s.1)).div (r (.fin (x.length : ℝ))))).div (r (.fin ((x.length : ℝ) - 1))))
  else r ((r (XF.mul (.fin 2) s.1)).div (r (.fin ((x.length : ℝ) * (x.length : ℝ)))))

/-- `gini_core`, lines 103-133. -/
noncomputable def giniO (r : XF ℝ → XF ℝ) (x : List ℝ) (unbiased : Bool) : XF ℝ :=
  let s := unnormalizedMadO r x
  let denom := if unbiased then r ((r (.fin ((x.length : ℝ) - 1))).mul s.2) else r ((r (.fin (x.length : ℝ))).mul s.2)
  if s.1.eq (.fin 0) && denom.eq (.fin 0) then .nan
  else if denom.eq (.fin 0) then .pinf
  else r (s.1.div denom)

/-- `rmad_core`, lines 140-154. -/
noncomputable def rmadO (r : XF ℝ → XF ℝ) (x : List ℝ) (unbiased : Bool) : XF ℝ :=
  let g := giniO r x unbiased
  if !XF.isnan g then r (XF.mul g (.fin 2)) else g

end Ufunclab.Mad

namespace Ufunclab.TriArea

/-- Lines 18-25 of tri_area_gufunc.h: the loop of `norm_diff`. -/
noncomputable def sumSqDiffO (r : XF ℝ → XF ℝ) (p : Int → Nat → ℝ) (i1 i2 : Int) : (fuel k : Nat) → XF ℝ → XF ℝ
  | 0, _, s => s
  | fuel + 1, k, s =>
    let dx := r (XF.sub (.fin (p i2 k)) (.fin (p i1 k)))
    sumSqDiffO r p i1 i2 fuel (k + 1) (r (s.add (r (dx.mul dx))))

/-- `norm_diff`, lines 16-27. -/
noncomputable def normDiffO (r : XF ℝ → XF ℝ) (n : Nat) (p : Int → Nat → ℝ) (i1 i2 : Int) : XF ℝ :=
  r (Corr.xsqrt (sumSqDiffO r p i1 i2 n 0 (.fin 0)))

/-- Lines 46-62: sort three lengths in decreasing order. -/
noncomputable def sort3O (a b c : XF ℝ) : XF ℝ × XF ℝ × XF ℝ :=
  let (a, b) := if b.gt a then (b, a) else (a, b)
  if c.gt a then (c, a, b)
  else if c.gt b then (a, c, b)
  else (a, b, c)

/-- Lines 69-73: Kahan's form of Heron's formula. -/
noncomputable def kahanO (r : XF ℝ → XF ℝ) (a b c : XF ℝ) : XF ℝ :=
  let f1 := r (a.add (r (b.add c)))
  let f2 := r (c.sub (r (a.sub b)))
  let f3 := r (c.add (r (a.sub b)))
  let f4 := r (a.add (r (b.sub c)))
  let q := r ((r ((r (f1.mul f2)).mul f3)).mul f4)
  r ((r (Corr.xsqrt q)).div (.fin 4))

/-- `tri_area_common_calc`, lines 32-77. -/
noncomputable def triAreaCommonO (r : XF ℝ → XF ℝ) (n : Nat) (p : Int → Nat → ℝ) (i0 i1 i2 : Int) : XF ℝ :=
  let a := normDiffO r n p i0 i1
  let b := normDiffO r n p i0 i2
  let c := normDiffO r n p i1 i2
  let s := sort3O a b c
  kahanO r s.1 s.2.1 s.2.2

/-- `tri_area_core_calc`, lines 84-93. -/
noncomputable def triAreaO (r : XF ℝ → XF ℝ) (n : Nat) (p : Int → Nat → ℝ) : XF ℝ := triAreaCommonO r n p 0 1 2

end Ufunclab.TriArea
