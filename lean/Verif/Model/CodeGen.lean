import Verif.Spec.CExpr
import Verif.Model.Debye1
/-!
# Model of the scripts that generate debye1_generated.c and erfcx_funcs.cxx

`mpmath.chebyfit` is not modelled: its results are the arguments `fit`.  Text is modelled as tokens
within expressions, and as data (comparison bounds, labels, called names) for the `if`/`switch` code.
The comments in the generated code are left out.
-/
namespace Ufunclab.CodeGen
variable {K : Type}

/-! ## src/debye1/generate_debye1_c.py -/

/-- The loop `for i, mp_coeff in enumerate(coeffs[::-1])`, lines 47-56; the argument is `coeffs[i:]` of the reversed list. -/
def polyLoop (scale : Bool) (nterms : Nat) : (i : Nat) → List K → List (Tok K)
  | _, [] => []
  | i, c :: cs =>
    .num c :: ((if i = nterms - 1 then List.replicate (nterms - 1) .rp ++ (if scale then [.rp, .div, .var] else [])
      else [.plus, .var, .times, .lp]) ++ polyLoop scale nterms (i + 1) cs)

/-- The expression printed by `generate_polynomial_function`, lines 35-58: what is between `const double y = ` and `;`. -/
def polyText (scale : Bool) (coeffs : List K) : List (Tok K) :=
  (if scale then [.lp] else []) ++ polyLoop scale coeffs.length 0 coeffs.reverse

/-- One line of `intervals`, lines 114-120: `(a, b, n, order, scale_by_x)`; `order` is only used by `chebyfit`. -/
structure Interval where
  a : ℝ
  b : ℝ
  n : Nat
  scale : Bool

/-- `f'debye1_{i}_{k:02}'`, lines 83 and 99. -/
def name (i k : Nat) : List Char :=
  "debye1_".toList ++ (Nat.toDigits 10 i ++ '_' :: ((if k < 10 then ['0'] else []) ++ Nat.toDigits 10 k))

/-- `if (x < bound) { int k = (int) (n*((x - lo)/width)); switch (k) { case label: return name(x); ... } }` -/
structure Branch where
  bound : ℝ
  n : Nat
  lo : ℝ
  width : ℝ
  cases : List (Int × List Char)

/-- The generated file: the functions with one expression each, and the branches of `debye1` for `x >= 0`. -/
structure Prog (K : Type) where
  funcs : List (List Char × List (Tok K))
  branches : List Branch

/-- The body of the first loop of `generate_code` for interval `i`, lines 68-87; `fit i k` is the list `poly` for the
piece `k`. -/
def genFuncs (fit : Nat → Nat → List K) (iv : Interval) (i : Nat) : List (List Char × List (Tok K)) :=
  (List.range iv.n).map fun k => (name i k, polyText iv.scale (fit i k))

/-- The body of the second loop for interval `i`, lines 94-102; `{b - a}` is computed in double arithmetic. -/
def genBranch (rd : ℝ → ℝ) (iv : Interval) (i : Nat) : Branch :=
  ⟨iv.b, iv.n, iv.a, rd (iv.b - iv.a), (List.range iv.n).map fun (k : Nat) => ((k : Int), name i k)⟩

/-- The two loops over `enumerate(intervals)`, from number `i`. -/
def genFrom (rd : ℝ → ℝ) (fit : Nat → Nat → List K) : (i : Nat) → List Interval → Prog K
  | _, [] => ⟨[], []⟩
  | i, iv :: ivs =>
    let rest := genFrom rd fit (i + 1) ivs
    ⟨genFuncs fit iv i ++ rest.funcs, genBranch rd iv i :: rest.branches⟩

/-- `generate_code`, lines 61-105. -/
def generate (rd : ℝ → ℝ) (fit : Nat → Nat → List K) (ivs : List Interval) : Prog K := genFrom rd fit 0 ivs

/-- Running the branches for `x >= 0`: the name of the function that is called; `none` reaches the last `return`. -/
noncomputable def select (rd : ℝ → ℝ) (x : ℝ) : List Branch → Option (List Char)
  | [] => none
  | br :: brs =>
    if x < br.bound then
      match br.cases.lookup (Debye1.trunc (rd (br.n * rd (rd (x - br.lo) / br.width)))) with
      | some f => some f
      | none => select rd x brs
    else select rd x brs

/-- `v` is what the generated `debye1` returns for `x >= 0`: the value of the expression of the selected function, or
`DEBYE1_ASYMP_CONST/x`. -/
def Returns (rd : ℝ → ℝ) (val : K → ℝ) (asymp : ℝ) (P : Prog K) (x v : ℝ) : Prop :=
  match select rd x P.branches with
  | some f => ∃ ts e, P.funcs.lookup f = some ts ∧ Parses .sum ts e ∧ v = e.eval rd val x
  | none => v = rd (rd asymp / x)

/-- `intervals` of the script, lines 114-120. -/
def shipped : List Interval :=
  [⟨0, 10, 50, false⟩, ⟨10, 20, 50, true⟩, ⟨20, 30, 10, true⟩, ⟨30, 40, 10, true⟩]

/-! ## src/normal/generate_erfcx_code.py -/

/-- The expression `s` of one `case`, lines 105-107; the list is `poly`, which is not empty. -/
def caseText : List K → List (Tok K)
  | [] => []
  | p0 :: ps => ps.foldl (fun s c => [.num c, .plus, .lp] ++ s ++ [.rp, .times, .var]) [.num p0]

/-- The `switch` of the generated `erfcx_y100` for `y100 >= 0`, lines 65-111: `case k: t = 2*y100 - (2*k+1); return s;`, and
`1.0` after it. -/
noncomputable def CaseReturns (rd : ℝ → ℝ) (val : K → ℝ) (poly : Nat → List K) (y v : ℝ) : Prop :=
  if ⌊y⌋.toNat < 100 then
    ∃ e, Parses .sum (caseText (poly ⌊y⌋.toNat)) e ∧ v = e.eval rd val (rd (rd (2 * y) - ((2 * ⌊y⌋.toNat + 1 : ℕ) : ℝ)))
  else v = 1

/-- `func(t, k)`, lines 49-55, the function that `chebyfit` is given, for `F x = erfc(x)*exp(x**2)`. -/
noncomputable def fitTarget (F : ℝ → ℝ) (t : ℝ) (k : Nat) : ℝ := F (4 / (((t + 2 * k + 1) / 2) / 100) - 4)

/-- The loop of `find_lower_bound`, lines 28-40, with a bound on the number of steps (`none`: not finished).  `isinf x` is the test of line 36, for the value
of line 35. -/
noncomputable def search (rd : ℝ → ℝ) (isinf : ℝ → Prop) : (fuel : Nat) → (x0 x1 : ℝ) → Option ℝ
  | 0, _, _ => none
  | fuel + 1, x0, x1 =>
    open Classical in
    let xmid := rd (rd (x0 + x1) / 2)
    if xmid = x0 ∨ xmid = x1 then some x0
    else if isinf xmid then search rd isinf fuel x0 xmid
    else search rd isinf fuel xmid x1

/-- `find_lower_bound`, lines 20-40: it returns `x`. -/
def FindsLowerBound (rd : ℝ → ℝ) (isinf : ℝ → Prop) (x : ℝ) : Prop := ∃ fuel, search rd isinf fuel (rd (-1)) (rd (-150)) = some x

end Ufunclab.CodeGen
