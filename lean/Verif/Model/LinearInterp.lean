import Verif.Model.XF
/-!
# Model of src/linear_interp1d/linear_interp1d_gufunc.c.src

A strided 1-d array of `n` elements is the list of its elements; a read at an index
outside `[0, n)` gives `none` (undefined behaviour).  Floats are `XF K`.
-/
namespace Ufunclab.LinearInterp
variable {K : Type _} [Field K] [LinearOrder K]

/-- Lines 54-66: the bisection loop of `search_@typename@`. -/
def searchLoop (key : XF K) (arr : List (XF K)) (klow khigh : Nat) : Option Nat :=
  if h : khigh > klow + 1 then
    let k := (klow + khigh) / 2
    match arr[k]? with
    | none => none
    | some val =>
      if val.eq key then some k
      else if val.lt key then searchLoop key arr k khigh
      else searchLoop key arr klow k
  else some klow
termination_by khigh - klow
decreasing_by all_goals omega

/-- `search_@typename@`, lines 34-69. -/
def search (key : XF K) (arr : List (XF K)) : Option Nat :=
  let len := arr.length
  if len = 1 then some 0
  else
    match arr[0]? with
    | none => none
    | some low =>
      if key.eq low then some 0
      else match arr[len - 1]? with
        | none => none
        | some high =>
          if key.eq high then some (len - 1)
          else if len = 2 then some 0
          else searchLoop key arr 0 (len - 1)

/-- Lines 126-154: one iteration of the general loop. -/
def interpOne (x : XF K) (xp fp : List (XF K)) : Option (XF K) :=
  if xp.length < 1 then some .nan
  else
    match xp[0]?, xp[xp.length - 1]? with
    | some left, some right =>
      if x.lt left || x.gt right then some .nan
      else
        match search x xp with
        | none => none
        | some k =>
          match xp[k]?, fp[k]? with
          | some xpk, some fpk =>
            if x.eq xpk then some fpk
            else
              match xp[k + 1]?, fp[k + 1]? with
              | some xpkNext, some fpkNext =>
                let slope := (fpkNext.sub fpk).div (xpkNext.sub xpk)
                some (fpk.add (slope.mul (x.sub xpk)))
              | _, _ => none
          | _, _ => none
    | _, _ => none

/-- Lines 124-155: the general loop over `nloops` items. -/
def general (nloops : Nat) (xs : Nat → XF K) (xps fps : Nat → List (XF K)) : Option (List (XF K)) :=
  (List.range nloops).mapM (fun j => interpOne (xs j) (xps j) (fps j))

/-- Lines 112-120: one iteration of the fast loop. -/
def fastOne (k : Nat) (x xpk r : XF K) (fp : List (XF K)) : Option (XF K) :=
  match fp[k]? with
  | none => none
  | some fpk =>
    if x.eq xpk then some fpk
    else
      match fp[k + 1]? with
      | none => none
      | some fpkNext => some (fpk.add (r.mul (fpkNext.sub fpk)))

/-- Lines 91-122: the path taken when `steps[0] == 0 && steps[1] == 0`, that is, one `x`
and one table `xp` for all items. -/
def fast (nloops : Nat) (x : XF K) (xp : List (XF K)) (fps : Nat → List (XF K)) : Option (List (XF K)) :=
  match xp[0]?, xp[xp.length - 1]? with
  | some left, some right =>
    if x.lt left || x.gt right then some (List.replicate nloops .nan)
    else
      match search x xp with
      | none => none
      | some k =>
        match xp[k]? with
        | none => none
        | some xpk =>
          if x.eq xpk then (List.range nloops).mapM (fun j => fastOne k x xpk (.fin 0) (fps j))
          else
            match xp[k + 1]? with
            | none => none
            | some xpkNext =>
              let r := (x.sub xpk).div (xpkNext.sub xpk)
              (List.range nloops).mapM (fun j => fastOne k x xpk r (fps j))
  | _, _ => none

/-! ## The same loops with rounding

Finite data; `rd` rounds every operation (no overflow).  The search only compares. -/

/-- Lines 126-154, one iteration of the general loop, with rounding. -/
def interpOneR (rd : K → K) (x : K) (xp fp : List K) : Option (XF K) :=
  if xp.length < 1 then some .nan
  else
    match xp[0]?, xp[xp.length - 1]? with
    | some left, some right =>
      if x < left ∨ x > right then some .nan
      else
        match search (.fin x) (xp.map .fin) with
        | none => none
        | some k =>
          match xp[k]?, fp[k]? with
          | some xpk, some fpk =>
            if x = xpk then some (.fin fpk)
            else
              match xp[k + 1]?, fp[k + 1]? with
              | some xpkNext, some fpkNext =>
                let slope := rd (rd (fpkNext - fpk) / rd (xpkNext - xpk))
                some (.fin (rd (fpk + rd (slope * rd (x - xpk)))))
              | _, _ => none
          | _, _ => none
    | _, _ => none

/-- Lines 91-122 for one item, with rounding: the path taken when one `x` and one table `xp`
serve all items. -/
def fastOneR (rd : K → K) (x : K) (xp fp : List K) : Option (XF K) :=
  match xp[0]?, xp[xp.length - 1]? with
  | some left, some right =>
    if x < left ∨ x > right then some .nan
    else
      match search (.fin x) (xp.map .fin) with
      | none => none
      | some k =>
        match xp[k]? with
        | none => none
        | some xpk =>
          if x = xpk then fp[k]?.map .fin
          else
            match xp[k + 1]? with
            | none => none
            | some xpkNext =>
              let r := rd (rd (x - xpk) / rd (xpkNext - xpk))
              match fp[k]?, fp[k + 1]? with
              | some fpk, some fpkNext => some (.fin (rd (fpk + rd (r * rd (fpkNext - fpk)))))
              | _, _ => none
  | _, _ => none

end Ufunclab.LinearInterp
