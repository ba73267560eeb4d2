import Verif.Proof.Debye1Poly
import Verif.Proof.Debye1Cert
import Verif.Model.Debye1Table
/-! # The kernel-evaluated check of the debye1 tables -/
namespace Ufunclab.Debye1

/-- The polynomial that `debye1` uses for `x` in `[j/5, (j+1)/5]`, and whether it is divided by x. -/
def piece (j : ℕ) : List (ℤ × ℕ) :=
  if j < 50 then table0.getD j []
  else if j < 100 then table1.getD (j - 50) []
  else if j < 150 then table2.getD ((j - 100) / 5) []
  else table3.getD ((j - 150) / 5) []

def pint (i : ℤ) : List ℤ → List ℤ
  | [] => []
  | a :: p => 360360 / (i + 1) * a :: pint (i + 1) p

/-- `10^(40+n) p(X/10)` as a polynomial, `n` the number of coefficients. -/
def hI (X : List ℤ) : List (ℤ × ℕ) → List ℤ
  | [] => []
  | c :: cs => padd [c.1 * 10 ^ (40 - c.2) * 10 ^ (cs.length + 1)] (pmul X (hI X cs))

/-- `10^(40+n)` times the sum of the absolute values of the terms at `m/10`. -/
def hA (m : ℤ) : List (ℤ × ℕ) → ℤ
  | [] => 0
  | c :: cs => |c.1| * 10 ^ (40 - c.2) * 10 ^ (cs.length + 1) + m * hA m cs

/-- The bound on the sum of the absolute values of the terms, relative to the sum. -/
def cond (j : ℕ) : ℤ := if j < 15 ∨ 90 ≤ j then 5 else 130

def checkG (j : ℕ) (b : ℤ) (g : List ℤ) : Bool :=
  let R := padd (psmul (10 * 10 ^ 60) g)
    (psmul (-b) (pmul sCert (padd (psmul 10 g) (psmul (10 ^ 30) [2 * j + 1, 1]))))
  decide (0 ≤ b) && decide (b ≤ 10 ^ 30) && decide (R.length ≤ 40) && decide (pabs R ≤ 10 ^ 68) &&
  decide (g.length ≤ 40) && decide (pabs g ≤ 2 * 10 ^ 30)

def checkH (g : List ℤ) (w w' : ℤ) : Bool :=
  let H := 0 :: pint 0 g
  decide (pder H = psmul 360360 g ++ [0]) &&
  decide (|(w' - w) * 3603600 - (pevalZ H 1 - pevalZ H (-1))| ≤ 7207200) && decide (10 ^ 29 < w)

def checkP (j : ℕ) (g : List ℤ) (w : ℤ) (cs : List (ℤ × ℕ)) : Bool :=
  let H := 0 :: pint 0 g
  let F := padd H [w * 3603600 - pevalZ H (-1)]
  let X : List ℤ := [2 * j + 1, 1]
  let s := 40 + cs.length + (if j < 50 then 1 else 0)
  let P := if j < 50 then pmul X (hI X cs) else hI X cs
  let Dh := padd (psmul (10 ^ s) F) (psmul (-(3603600 * 10 ^ 30)) P)
  let A := if j < 50 then (2 * j + 2) * hA (2 * j + 2) cs else hA (2 * j + 2) cs
  decide (Dh.length ≤ 40) && decide (pabs Dh * 10 ^ 15 ≤ 9 * (w * 3603600 * 10 ^ s)) &&
  decide (A * 10 ^ 30 ≤ cond j * 10 ^ s * w) && cs.all (fun c => decide (c.2 ≤ 40)) && decide (cs.length ≤ 8)

def checkFrom (j : ℕ) : List (ℤ × List ℤ × ℤ) → Bool
  | [] => true
  | (b, g, w) :: rest =>
    checkG j b g && checkP j g w (piece j) &&
    match rest with
    | [] => checkH g w wLast
    | (b', _, w') :: _ =>
      decide (|b * (pevalZ sCert 1 * pevalZ sCert 1) - b' * 10 ^ 60| ≤ 3000 * 10 ^ 60) && checkH g w w' &&
        checkFrom (j + 1) rest

theorem check_all : checkFrom 1 (cells0 ++ cells1 ++ cells2 ++ cells3) = true := by decide +kernel

end Ufunclab.Debye1
