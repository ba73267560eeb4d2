import Verif.Model.Step
import Verif.Model.Deadzone
import Verif.Model.LinearInterp
/-!
# The interpolating functions with a rounding that may overflow

The functions of src/step/step.h, src/trapezoid_pulse/trapezoid_pulse.h and
src/linear_interp1d/linear_interp1d_gufunc.c.src on all floats, with the result of every operation
passed through `r`: `ov rd Ω` (Spec/Overflow) rounds and overflows.  No excess precision, no fused multiply-add.
-/
namespace Ufunclab.Step

/-- `linearstep`, src/step/step.h lines 24-41. -/
noncomputable def linearstepO (r : XF ℝ → XF ℝ) (x a b fa fb : XF ℝ) : XF ℝ :=
  if a.gt b then .nan
  else if x.le a then fa
  else if x.ge b then fb
  else if a.eq b then r ((r (fa.add fb)).div (.fin 2))
  else
    let u := r ((r (x.sub a)).div (r (b.sub a)))
    r ((r (fa.mul (r (XF.sub (.fin 1) u)))).add (r (fb.mul u)))

/-- `smoothstep3`, lines 51-68. -/
noncomputable def smoothstep3O (r : XF ℝ → XF ℝ) (x a b fa fb : XF ℝ) : XF ℝ :=
  if a.gt b then .nan
  else if x.le a then fa
  else if x.ge b then fb
  else if a.eq b then r ((r (fa.add fb)).div (.fin 2))
  else
    let u := r ((r (x.sub a)).div (r (b.sub a)))
    r (fa.add (r ((r ((r ((r (fb.sub fa)).mul u)).mul u)).mul (r (XF.sub (.fin 3) (r (XF.mul (.fin 2) u)))))))

/-- `smoothstep5`, lines 103-120. -/
noncomputable def smoothstep5O (r : XF ℝ → XF ℝ) (x a b fa fb : XF ℝ) : XF ℝ :=
  if a.gt b then .nan
  else if x.le a then fa
  else if x.ge b then fb
  else if a.eq b then r ((r (fa.add fb)).div (.fin 2))
  else
    let u := r ((r (x.sub a)).div (r (b.sub a)))
    r (fa.add (r ((r ((r ((r ((r (fb.sub fa)).mul u)).mul u)).mul u)).mul
      (r ((r (u.mul (r ((r (XF.mul (.fin 6) u)).sub (.fin 15))))).add (.fin 10))))))

end Ufunclab.Step

namespace Ufunclab.Deadzone

/-- `trapezoid_pulse`, src/trapezoid_pulse/trapezoid_pulse.h lines 7-29. -/
noncomputable def trapezoidO (r : XF ℝ → XF ℝ) (x a b c d amp : XF ℝ) : XF ℝ :=
  if !(a.le b && b.le c && c.le d) then .nan
  else if x.le a || x.ge d then .fin 0
  else if x.ge b && x.le c then amp
  else if x.lt b then r (amp.mul (r ((r (x.sub a)).div (r (b.sub a)))))
  else r (amp.mul (r ((r (d.sub x)).div (r (d.sub c)))))

end Ufunclab.Deadzone

namespace Ufunclab.LinearInterp

/-- src/linear_interp1d/linear_interp1d_gufunc.c.src lines 126-154, one iteration of the general loop. -/
noncomputable def interpOneO (r : XF ℝ → XF ℝ) (x : XF ℝ) (xp fp : List (XF ℝ)) : Option (XF ℝ) :=
  if xp.length < 1 then some .nan
  else
    match xp[0]?, xp[xp.length - 1]? with
    | some left, some right =>
      if x.lt left || x.gt right then some .nan
      else
        match search x xp with
        | none => none
        | some k =>
          match xp[k]?, fp[k]? with
          | some xpk, some fpk =>
            if x.eq xpk then some fpk
            else
              match xp[k + 1]?, fp[k + 1]? with
              | some xpkNext, some fpkNext =>
                let slope := r ((r (fpkNext.sub fpk)).div (r (xpkNext.sub xpk)))
                some (r (fpk.add (r (slope.mul (r (x.sub xpk))))))
              | _, _ => none
          | _, _ => none
    | _, _ => none

/-- Lines 91-122 for one item: the path taken when one `x` and one table `xp` serve all items. -/
noncomputable def fastOneO (r : XF ℝ → XF ℝ) (x : XF ℝ) (xp fp : List (XF ℝ)) : Option (XF ℝ) :=
  match xp[0]?, xp[xp.length - 1]? with
  | some left, some right =>
    if x.lt left || x.gt right then some .nan
    else
      match search x xp with
      | none => none
      | some k =>
        match xp[k]? with
        | none => none
        | some xpk =>
          if x.eq xpk then fp[k]?
          else
            match xp[k + 1]? with
            | none => none
            | some xpkNext =>
              let q := r ((r (x.sub xpk)).div (r (xpkNext.sub xpk)))
              match fp[k]?, fp[k + 1]? with
              | some fpk, some fpkNext => some (r (fpk.add (r (q.mul (r (fpkNext.sub fpk))))))
              | _, _ => none
  | _, _ => none

end Ufunclab.LinearInterp
