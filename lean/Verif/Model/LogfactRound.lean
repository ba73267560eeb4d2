import Verif.Model.Logfact
/-!
# Model of src/logfactorial/logfactorial.c, with rounding

`rd` is the rounding of `double`, `lg` the library function `log`.  The literals of the table and of `halfln2pi`, the quotient
`1/12.0` and the conversion of `k` to double are rounded too.  No overflow (the arguments are 64 bit integers), no excess
precision, no fused multiply-add.
-/
namespace Ufunclab.Logfact

/-- `logfactorial`, logfactorial.c lines 142-159, with rounding. -/
noncomputable def logfactorialR (rd lg : ℝ → ℝ) (k : Int) : Option ℝ :=
  if k < (table.length : Int) then (lookup k).map rd
  else
    let kf : ℝ := rd (k : ℝ)
    some (rd (rd (rd (rd (kf + 0.5) * lg kf) - kf) +
      rd (rd halfln2pi + rd (rd (1 / kf) * rd (rd (1 / 12) - rd (1 / rd (rd (360 * kf) * kf)))))))

/-- The body of both loops, logfactorial_ufunc.c lines 38-46 and 59-65, with rounding. -/
noncomputable def ufuncR (rd lg : ℝ → ℝ) (x : Int) : Option (XF ℝ) :=
  if x < 0 then some .nan else (logfactorialR rd lg x).map .fin

end Ufunclab.Logfact
