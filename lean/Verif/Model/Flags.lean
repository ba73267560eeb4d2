import Verif.Model.XF
/-!
# Model of what the loops do to the floating-point status flags

NumPy clears the flags before it runs the inner loops of a call, and afterwards turns the flags that
are set into the warnings or exceptions chosen with `numpy.errstate`.  An operation only ever sets flags (IEEE 754).
-/
namespace Ufunclab.Flags

/-- The exceptions of <fenv.h>. -/
inductive Exc where
  | divByZero | overflow | underflow | invalid | inexact
  deriving DecidableEq

abbrev Flags := Exc → Bool

def none : Flags := fun _ => false
def only (e : Exc) : Flags := fun e' => decide (e' = e)
/-- Setting the flags `g`. -/
def raise (f g : Flags) : Flags := fun e => f e || g e

/-- `clear_floatstatus_barrier`, tools/cxxgen/generate_ufunc_extmod.py lines 123-140: four flags are tested, and cleared if one
of them is set. -/
def clearFloatstatus (f : Flags) : Flags :=
  if f .divByZero || f .overflow || f .underflow || f .invalid then
    fun e => if e = .divByZero ∨ e = .overflow ∨ e = .underflow ∨ e = .invalid then false else f e
  else f

variable {α β : Type}

/-- The `for` loop of a generated elementwise loop function, lines 220-237: `op` is the C++ function, with the flags that it sets. -/
def items (op : α → β × Flags) : List α → Flags → List β × Flags
  | [], f => ([], f)
  | x :: xs, f =>
    let r := items op xs (raise f (op x).2)
    ((op x).1 :: r.1, r.2)

/-- The generated loop function, lines 216-240: after the `for` loop, `clear_floatstatus()`. -/
def ufuncLoop (op : α → β × Flags) (xs : List α) (f : Flags) : List β × Flags :=
  let r := items op xs f
  (r.1, clearFloatstatus r.2)

/-- The generated loop function of a gufunc (tools/cxxgen/gufuncgen.py lines 315-363): the core function is called for each item, with the flags as they are; nothing follows. -/
def gufuncLoop (core : α → Flags → β × Flags) : List α → Flags → List β × Flags
  | [], f => ([], f)
  | x :: xs, f =>
    let r := core x f
    let rs := gufuncLoop core xs r.2
    (r.1 :: rs.1, rs.2)

/-- A call in NumPy (not in /repo): the items come in chunks; for each chunk the arguments are converted (flags `cin`), the inner loop runs, and
the results are converted (`cout`). -/
def chunks (loop : List α → Flags → List β × Flags) (cin cout : List α → Flags) : List (List α) → Flags → List β × Flags
  | [], f => ([], f)
  | xs :: xss, f =>
    let r := loop xs (raise f (cin xs))
    let rs := chunks loop cin cout xss (raise r.2 (cout xs))
    (r.1 ++ rs.1, rs.2)

/-- What is reported to the user: the four flags that NumPy looks at, after clearing them first. -/
def reported (loop : List α → Flags → List β × Flags) (cin cout : List α → Flags) (xss : List (List α)) (e : Exc) : Bool :=
  decide (e ≠ .inexact) && (chunks loop cin cout xss none).2 e

/-! ## gini and rmad, src/mad/mad_gufunc.h

Data with infinities and NaN; as in Model/Mad there is no rounding and no overflow, so that only the flags `invalid` and `divByZero` occur.  `std::sort` is
`List.mergeSort` with `<=`. -/

variable {K : Type} [Field K] [LinearOrder K]

/-- The flags of an operation with operands `a`, `b` and result `r`: `invalid` if a NaN comes from operands that are not NaN. -/
def flagsOf (a b r : XF K) : Flags := if !a.isnan && !b.isnan && r.isnan then only .invalid else none

/-- The additional flag of a division: a finite number that is not 0, by 0. -/
def flagsDiv (a b : XF K) : Flags :=
  match a, b with
  | .fin a, .fin b => if a ≠ 0 ∧ b = 0 then only .divByZero else none
  | _, _ => none

/-- Lines 60-67: the loop, with the flags. -/
def scan : (k : Nat) → (sum total : XF K) → List (XF K) → Flags → XF K × XF K × Flags
  | _, sum, total, [], f => (sum, total, f)
  | k, sum, total, t :: ts, f =>
    let p := XF.mul (.fin (k : K)) t
    let d := XF.sub p total
    let s := XF.add sum d
    let u := XF.add total t
    scan (k + 1) s u ts (raise (raise (raise (raise f (flagsOf (.fin (k : K)) t p)) (flagsOf p total d)) (flagsOf sum d s)) (flagsOf total t u))

/-- `unnormalized_mad`, lines 24-69. -/
def unnormalized (x : List (XF K)) (f : Flags) : XF K × XF K × Flags :=
  match x.mergeSort (fun a b => XF.le a b) with
  | [] => (.fin 0, .fin 0, f)
  | t :: ts => scan 1 (.fin 0) t ts f

/-- `gini_core`, lines 103-133; `clang` says whether `__clang__` is defined. -/
def gini (clang : Bool) (x : List (XF K)) (unbiased : Bool) (f : Flags) : XF K × Flags :=
  let (sum, total, f) := unnormalized x f
  let n : XF K := .fin (if unbiased then (x.length : K) - 1 else (x.length : K))
  let denom := XF.mul n total
  let f := raise f (flagsOf n total denom)
  if XF.eq sum (.fin 0) && XF.eq denom (.fin 0) then
    (.nan, if clang then fun e => if e = .invalid then false else f e else f)
  else if XF.eq denom (.fin 0) then (.pinf, f)
  else (XF.div sum denom, raise (raise f (flagsOf sum denom (XF.div sum denom))) (flagsDiv sum denom))

/-- `rmad_core`, lines 140-154. -/
def rmad (clang : Bool) (x : List (XF K)) (unbiased : Bool) (f : Flags) : XF K × Flags :=
  let r := gini clang x unbiased f
  if !r.1.isnan then (XF.mul r.1 (.fin 2), raise r.2 (flagsOf r.1 (.fin 2) (XF.mul r.1 (.fin 2)))) else r

end Ufunclab.Flags
