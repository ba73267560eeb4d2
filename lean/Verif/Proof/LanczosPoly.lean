import Verif.Model.Loggamma1p
import Verif.Proof.PolyPos
/-!
# The Lanczos formula: polynomial inequalities, checked by the kernel

All polynomials are in one variable `y` (or `x = y - 1`) with integer coefficients.
-/
namespace Ufunclab.Loggamma1p
open Ufunclab.Debye1 Ufunclab.PolyPos

/-- Integer coefficients of a list of literals, multiplied by `10^n`. -/
def scaled (n : ℕ) (cs : List (ℤ × ℕ)) : List ℤ := cs.map fun c => c.1 * 10 ^ (n - c.2)

/-- The numerator of the Lanczos sum, times `10^49`. -/
def pA : List ℤ := scaled 49 numCoeffs
/-- The same at `y + 1`. -/
def pB : List ℤ := (comp 1 1 1 0 pA).1
def pC : List ℤ := [12, 1]
/-- `2^27 (y + g + 1/2)` and `2^27 (y + g - 1/2)`. -/
def pU : List ℤ := [808618867 + 2 ^ 26, 2 ^ 27]
def pV : List ℤ := [808618867 - 2 ^ 26, 2 ^ 27]
def pG : List ℤ := [808618867]

def psub (p q : List ℤ) : List ℤ := padd p (psmul (-1) q)
def psq (p : List ℤ) : List ℤ := pmul p p
/-- Numerator of `(log p)''`. -/
def pL (p : List ℤ) : List ℤ := psub (pmul (pder (pder p)) p) (psq (pder p))

/-- Numerator and denominator of `k''`. -/
def pT : List ℤ :=
  padd (padd (pmul (psub (pmul (pL pB) (psq pA)) (pmul (pL pA) (psq pB))) (pmul (psq pC) (pmul (psq pU) (psq pV))))
    (pmul (psq pA) (pmul (psq pB) (pmul (psq pU) (psq pV)))))
    (pmul (psmul (2 ^ 27) (psub (pmul (padd pU pG) (psq pV)) (pmul (padd pV pG) (psq pU)))) (pmul (psq pA) (pmul (psq pB) (psq pC))))
def pD : List ℤ := pmul (psq pA) (pmul (psq pB) (pmul (psq pC) (pmul (psq pU) (psq pV))))
/-- `(y+1)^4` and `(y+100)^4`. -/
def p1 : List ℤ := psq (psq [1, 1])
def p100 : List ℤ := psq (psq [100, 1])
def pW : List ℤ := padd (psmul 600 p100) (psmul 120000 p1)
def pF (s : ℤ) : List ℤ := padd (pmul pW pD) (psmul (s * 10 ^ 18) (pmul (pmul p1 p100) pT))

theorem pF_pos_cells : cells (pF 1) 2 [0, 500, 1000, 2000, 4000] = true := by decide +kernel
theorem pF_pos_tail : cell (pF 1) 2000 1 1 0 = true := by decide +kernel
theorem pF_neg_cells : cells (pF (-1)) 2 [0, 125, 250, 500, 1000, 2000, 4000] = true := by decide +kernel
theorem pF_neg_tail : cell (pF (-1)) 2000 1 1 0 = true := by decide +kernel

/-- `(x+1) ... (x+12)`. -/
def pS : List ℤ := pmul [1, 1] (pmul [2, 1] (pmul [3, 1] (pmul [4, 1] (pmul [5, 1] (pmul [6, 1] (pmul [7, 1] (pmul [8, 1]
  (pmul [9, 1] (pmul [10, 1] (pmul [11, 1] [12, 1]))))))))))
def pP : List ℤ := scaled 22 pCoeffs
def pQ : List ℤ := scaled 22 qCoeffs
/-- Numerator of `(P/Q)''`. -/
def pPade : List ℤ :=
  psub (pmul (psub (pmul (pder (pder pP)) pQ) (pmul pP (pder (pder pQ)))) pQ)
    (psmul 2 (pmul (pder pQ) (psub (pmul (pder pP) pQ) (pmul pP (pder pQ)))))
def pQ3 : List ℤ := pmul pQ (psq pQ)
/-- Numerator and denominator of the second derivative of the difference. -/
def pT2 : List ℤ :=
  psub (padd (psub (pmul (pL pB) (pmul (psq pS) (pmul (psq pU) pQ3))) (pmul (pL pS) (pmul (psq pB) (pmul (psq pU) pQ3))))
    (pmul (psmul (2 ^ 27) (padd pU pG)) (pmul (psq pB) (pmul (psq pS) pQ3))))
    (pmul pPade (pmul (psq pB) (pmul (psq pS) (psq pU))))
def pD2 : List ℤ := pmul (psq pB) (pmul (psq pS) (pmul (psq pU) pQ3))
def pWneg : List ℤ := [10000, -900000, 0, 0, 340000000]
def pWpos : List ℤ := [20000, 0, 0, 0, 0, 0, 0, 0, 1100000]
def pF2 (w : List ℤ) (s : ℤ) : List ℤ := padd (pmul w pD2) (psmul (s * 10 ^ 20) pT2)

theorem pF2_neg1 : cell (pF2 pWneg 1) (-2500) 1 10000 10000 = true := by decide +kernel
theorem pF2_neg2 : cell (pF2 pWneg (-1)) (-2500) 1 10000 10000 = true := by decide +kernel
theorem pF2_pos1 : cell (pF2 pWpos 1) 0 901 1000 1000 = true := by decide +kernel
theorem pF2_pos2 : cell (pF2 pWpos (-1)) 0 901 1000 1000 = true := by decide +kernel

end Ufunclab.Loggamma1p
