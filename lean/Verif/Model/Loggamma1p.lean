import Verif.Model.XF
import Verif.Model.Mem
import Mathlib.Analysis.SpecialFunctions.Log.Basic
/-!
# Model of src/loggamma1p/loggamma1p.c

Every arithmetic operator and every decimal literal is followed by the rounding `rd` of the type
`double`; `lg` is the C library's `log` (`rd = id` and `lg = Real.log` is exact arithmetic).
Overflow is not described.
-/
namespace Ufunclab.Loggamma1p
open XF

/-- `lanczos_num_coeffs`, lines 72-86: the literal `m * 10^-e` is written `(m, e)`. -/
def numCoeffs : List (ℤ × ℕ) :=
  [(2353137688041075968857200767445163675473484680494, 38),
   (42919803642649098768957899047001988850926355848959, 39),
   (35711959237355668049440185451547166705960488635843, 39),
   (1792103442603720969991975575445893111267140326539, 38),
   (60395425863520280050642916443072979210699388420708, 40),
   (14397204073117216736632230727949123939715485786772, 40),
   (24887455786205415651146038641322942321632125127801, 41),
   (3142641558540019438061423162831820536287468498764, 41),
   (28763706289353724412254090516208496135991145378768, 43),
   (18605626539522349504029498971604569928220784236328, 44),
   (80716720023658162106380029022722506138218516325024, 46),
   (21082427775157934587250973392071336271166969580291, 47),
   (25066282746310002701649081771338373386264310793408, 49)]

/-- `lanczos_den_coeffs`, lines 89-91. -/
def denCoeffs : List (ℤ × ℕ) :=
  [(0, 0),
   (39916800, 0),
   (120543840, 0),
   (150917976, 0),
   (105258076, 0),
   (45995730, 0),
   (13339535, 0),
   (2637558, 0),
   (357423, 0),
   (32670, 0),
   (1925, 0),
   (66, 0),
   (1, 0)]

/-- `loggamma1p_small_x_p_coeff`, lines 194-201. -/
def pCoeffs : List (ℤ × ℕ) :=
  [(0, 0),
   (-5772156649015329, 16),
   (-2198602239247181, 15),
   (-28835804898328345, 16),
   (-7093852391116942, 16),
   (2054674619926225, 15),
   (25151727627777807, 16),
   (13458863118876616, 16),
   (38837050891168406, 17),
   (6011155167110235, 17),
   (4451819276845639, 18),
   (11582239270882403, 20),
   (2362492383650223, 22)]

/-- `loggamma1p_small_x_q_coeff`, lines 205-211. -/
def qCoeffs : List (ℤ × ℕ) :=
  [(1, 0),
   (523386570457449, 14),
   (11759169522860718, 15),
   (14820042213972009, 15),
   (11488581652651515, 15),
   (5650511133519242, 15),
   (1754785949617669, 15),
   (33151383879069596, 17),
   (351480730651527, 16),
   (17788484304635968, 19),
   (29167070790354156, 21)]

noncomputable section

/-- A decimal literal. -/
def lit (c : ℤ × ℕ) : ℝ := c.1 / 10 ^ c.2

/-- `lanczos_g`, line 70. -/
def lanczosG : ℤ × ℕ := (6024680040776729583740234375, 27)

/-- A loop `for (i = n; --i >= 0; ) acc = acc*x + c[i]` (lines 120-123, 217-222), from `acc = 0`. -/
def hornerDown (rd : ℝ → ℝ) (x : ℝ) (cs : List (ℤ × ℕ)) : ℝ :=
  cs.foldr (fun c acc => rd (rd (acc * x) + rd (lit c))) 0

/-- The loop `for (i = 0; i < n; i++) acc = acc/x + c[i]` (lines 126-129), from `acc = 0`. -/
def hornerUp (rd : ℝ → ℝ) (x : ℝ) (cs : List (ℤ × ℕ)) : ℝ :=
  cs.foldl (fun acc c => rd (rd (acc / x) + rd (lit c))) 0

/-- `lanczos_sum`, lines 105-132. -/
def lanczosSum (rd : ℝ → ℝ) (x : ℝ) : ℝ :=
  if x < 5 then rd (hornerDown rd x numCoeffs / hornerDown rd x denCoeffs)
  else rd (hornerUp rd x numCoeffs / hornerUp rd x denCoeffs)

/-- `m_lgamma`, lines 145-170, for a finite argument. -/
def mLgamma (rd lg : ℝ → ℝ) (x : ℝ) : ℝ :=
  if x = 0 ∨ x = 1 then 0
  else
    let absx := |x|
    if absx < rd (lit (1, 20)) then -lg absx
    else
      let r := rd (lg (lanczosSum rd absx) - rd (lit lanczosG))
      rd (r + rd (rd (absx - 1 / 2) * rd (lg (rd (rd (absx + rd (lit lanczosG)) - 1 / 2)) - 1)))

/-- `loggamma1p_small_x`, lines 213-224. -/
def smallX (rd : ℝ → ℝ) (x : ℝ) : ℝ := rd (hornerDown rd x pCoeffs / hornerDown rd x qCoeffs)

/-- `loggamma1p`, lines 226-242, for a finite argument. -/
def finite (rd lg : ℝ → ℝ) (x : ℝ) : XF ℝ :=
  if x ≤ -1 then .nan
  else if x = 0 ∨ x = 1 then .fin 0
  else if -1 / 4 < x ∧ x < rd (lit (9, 1)) then .fin (smallX rd x)
  else .fin (mLgamma rd lg (rd (1 + x)))

/-- `loggamma1p`, lines 226-242. -/
def loggamma1p (rd lg : ℝ → ℝ) : XF ℝ → XF ℝ
  | .nan => .nan
  | .ninf => .nan
  | .pinf => .pinf
  | .fin x => finite rd lg x

end

/-- `loggamma1p_double_loop` and `loggamma1p_float_loop` (loggamma1p_ufunc.c, lines 18-44): `f` is
`loggamma1p`, for the float loop between the conversions to double and to float. -/
def loop {α : Type _} (f : α → α) (is os : Int) : (n : Nat) → (pin pout : Int) → Mem α → Mem α
  | 0, _, _, m => m
  | n + 1, pin, pout, m => loop f is os n (pin + is) (pout + os) (m.store pout (f (m pin)))

end Ufunclab.Loggamma1p
