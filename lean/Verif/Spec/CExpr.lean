import Mathlib.Data.Real.Basic
/-!
# Arithmetic expressions of C in one variable

The tokens of an expression, its syntax tree by the grammar of C (`*` and `/` bind more tightly than
`+`, all three associate to the left), and its value.  A literal is a token with its decimal value in
`K`; a sign in front of a literal belongs to it.
-/
namespace Ufunclab.CodeGen

inductive Tok (K : Type) where
  | num (c : K) | var | plus | times | div | lp | rp
  deriving DecidableEq

inductive Expr (K : Type) where
  | lit (c : K) | var
  | add (a b : Expr K) | mul (a b : Expr K) | div (a b : Expr K)

inductive Level where
  | primary | product | sum

/-- `Parses l ts e`: the tokens `ts` are an expression of level `l` with the syntax tree `e`. -/
inductive Parses {K : Type} : Level → List (Tok K) → Expr K → Prop
  | num (c : K) : Parses .primary [.num c] (.lit c)
  | var : Parses .primary [.var] .var
  | paren {ts e} : Parses .sum ts e → Parses .primary (.lp :: (ts ++ [.rp])) e
  | product {ts e} : Parses .primary ts e → Parses .product ts e
  | mul {ts us a b} : Parses .product ts a → Parses .primary us b → Parses .product (ts ++ .times :: us) (.mul a b)
  | div {ts us a b} : Parses .product ts a → Parses .primary us b → Parses .product (ts ++ .div :: us) (.div a b)
  | sum {ts e} : Parses .product ts e → Parses .sum ts e
  | add {ts us a b} : Parses .sum ts a → Parses .product us b → Parses .sum (ts ++ .plus :: us) (.add a b)

/-- The value with every operation and literal rounded by `rd`; `val` is the value of a literal. -/
noncomputable def Expr.eval {K : Type} (rd : ℝ → ℝ) (val : K → ℝ) (x : ℝ) : Expr K → ℝ
  | .lit c => rd (val c)
  | .var => x
  | .add a b => rd (a.eval rd val x + b.eval rd val x)
  | .mul a b => rd (a.eval rd val x * b.eval rd val x)
  | .div a b => rd (a.eval rd val x / b.eval rd val x)

/-- The polynomial with the coefficients `cs`, that of the highest power first (the order of
`numpy.polyval` and of the results of `mpmath.chebyfit`). -/
def polyval (cs : List ℝ) (x : ℝ) : ℝ := cs.foldl (fun s c => s * x + c) 0

end Ufunclab.CodeGen
