import Verif.Model.XF
/-!
# Model of src/mad/mad_gufunc.h

Exact arithmetic on finite data (`std::sort` on data with NaN has undefined
behaviour in C++).  `std::sort` is modelled by `List.mergeSort`: any sorting
algorithm gives the same list, since equal numbers are identical.  The core
dimension is at least 1 (nonzero_coredims).  The overflow of `n*n` (line 94) for
`n > 3*10^9` and the allocation failures are not modelled.
-/
namespace Ufunclab.Mad
variable {K : Type _} [Field K] [LinearOrder K]

/-- `std::sort(tmp.begin(), tmp.end())`, line 50. -/
def sort (x : List K) : List K := x.mergeSort (fun a b => decide (a ≤ b))

/-- Lines 60-67: the loop over `tmp[1..]` with state `(sum, total)`. -/
def scan : (k : Nat) → (sum total : K) → List K → K × K
  | _, sum, total, [] => (sum, total)
  | k, sum, total, t :: ts => scan (k + 1) (sum + ((k : K) * t - total)) (total + t) ts

/-- `unnormalized_mad`, lines 24-69: `(sum, total)`. -/
def unnormalizedMad (x : List K) : K × K :=
  match sort x with
  | [] => (0, 0)  -- not reachable: n ≥ 1
  | t :: ts => scan 1 0 t ts

/-- `mad_core`, lines 76-96. -/
def mad (x : List K) (unbiased : Bool) : XF K :=
  let r := unnormalizedMad x
  let n : K := (x.length : K)
  if unbiased then XF.div (XF.div (.fin (2 * r.1)) (.fin n)) (.fin (n - 1))
  else XF.div (.fin (2 * r.1)) (.fin (n * n))

/-- `gini_core`, lines 103-133. -/
def gini (x : List K) (unbiased : Bool) : XF K :=
  let r := unnormalizedMad x
  let n : K := (x.length : K)
  let denom := if unbiased then (n - 1) * r.2 else n * r.2
  if r.1 = 0 ∧ denom = 0 then .nan
  else if denom = 0 then .pinf
  else .fin (r.1 / denom)

/-- `rmad_core`, lines 140-154. -/
def rmad (x : List K) (unbiased : Bool) : XF K :=
  let g := gini x unbiased
  if !XF.isnan g then XF.mul g (.fin 2) else g

/-! ## The same functions with rounding

`rd` rounds every operation of type `T`, and every conversion of an integer to `T` (no excess
precision, no fused multiply-add, no overflow).  Finite data. -/

/-- The rounding, applied to a finite result. -/
def rnd (rd : K → K) : XF K → XF K
  | .fin v => .fin (rd v)
  | v => v

/-- Lines 60-67 with rounding: `k` is converted to `T`. -/
def scanR (rd : K → K) : (k : Nat) → (sum total : K) → List K → K × K
  | _, sum, total, [] => (sum, total)
  | k, sum, total, t :: ts =>
    scanR rd (k + 1) (rd (sum + rd (rd (rd (k : K) * t) - total))) (rd (total + t)) ts

/-- `unnormalized_mad`, lines 24-69, with rounding. -/
def unnormalizedMadR (rd : K → K) (x : List K) : K × K :=
  match sort x with
  | [] => (0, 0)  -- not reachable: n ≥ 1
  | t :: ts => scanR rd 1 0 t ts

/-- `mad_core`, lines 76-96, with rounding: `n`, `n - 1` and `n*n` are integers converted to `T`. -/
def madR (rd : K → K) (x : List K) (unbiased : Bool) : XF K :=
  let r := unnormalizedMadR rd x
  let n : K := rd (x.length : K)
  if unbiased then
    rnd rd (XF.div (rnd rd (XF.div (.fin (rd (2 * r.1))) (.fin n))) (.fin (rd ((x.length : K) - 1))))
  else rnd rd (XF.div (.fin (rd (2 * r.1))) (.fin (rd ((x.length : K) * (x.length : K)))))

/-- `gini_core`, lines 103-133, with rounding. -/
def giniR (rd : K → K) (x : List K) (unbiased : Bool) : XF K :=
  let r := unnormalizedMadR rd x
  let denom := if unbiased then rd (rd ((x.length : K) - 1) * r.2) else rd (rd (x.length : K) * r.2)
  if r.1 = 0 ∧ denom = 0 then .nan
  else if denom = 0 then .pinf
  else .fin (rd (r.1 / denom))

/-- `rmad_core`, lines 140-154, with rounding. -/
def rmadR (rd : K → K) (x : List K) (unbiased : Bool) : XF K :=
  let g := giniR rd x unbiased
  if !XF.isnan g then rnd rd (XF.mul g (.fin 2)) else g

end Ufunclab.Mad
