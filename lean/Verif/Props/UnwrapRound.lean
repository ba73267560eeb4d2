import Verif.Model.UnwrapRound
import Verif.Proof.SignalRound
import Verif.Props.Unwrap
/-!
# C95: unwrap in floating point

`rd` rounds to a nearest value of the element type (`Nearest p emin rd`, `u = 2^-p`), `rs` to one of the
type of the sum (`Nearest ps es rs`), which has at least the same precision and range.
-/
namespace Ufunclab.Unwrap
open Ufunclab.Float
variable {p ps : ℕ} {emin es : ℤ} {rd rs : ℝ → ℝ}

/-- The number of periods that is taken away. -/
noncomputable def quot (rd rs : ℝ → ℝ) (P x0 x1 : ℝ) : ℤ :=
  trunc (rs (rd (rd (x1 - x0) / P) + if rd (x1 - x0) < 0 then -(1 / 2) else 1 / 2))

/-- The value of a step on numbers. -/
noncomputable def stepR (rd rs : ℝ → ℝ) (P x0 x1 : ℝ) : ℝ := rd (x1 - rd (rd (quot rd rs P x0 x1) * P))

theorem unwrap1R_fin (P x0 x1 : ℝ) (hP : P ≠ 0) :
    unwrap1R rd rs (.fin x0) (.fin x1) (.fin P) =
      if -(2 ^ 31) ≤ quot rd rs P x0 x1 ∧ quot rd rs P x0 x1 < 2 ^ 31 then some (.fin (stepR rd rs P x0 x1)) else none := by
  have h1 : rndX rs (XF.add (rndX rd (XF.div (rndX rd (XF.sub (.fin x1) (.fin x0))) (.fin P)))
        (copysignHalf (rndX rd (XF.sub (.fin x1) (.fin x0)))))
      = XF.fin (rs (rd (rd (x1 - x0) / P) + if rd (x1 - x0) < 0 then -(1 / 2) else 1 / 2)) := by
    simp only [XF.sub_fin, rndX, XF.div_fin _ _ hP, copysignHalf, XF.lt_fin, decide_eq_true_eq]
    split_ifs <;> rfl
  simp only [unwrap1R, h1, toInt32]
  change (match (if -(2 ^ 31) ≤ quot rd rs P x0 x1 ∧ quot rd rs P x0 x1 < 2 ^ 31
    then some (quot rd rs P x0 x1) else none : Option Int) with
    | none => none | some q => some (rndX rd (XF.sub (.fin x1) (rndX rd (XF.mul (rndX rd (.fin (q : ℝ))) (.fin P)))))) = _
  split_ifs
  · simp only [rndX, XF.mul_fin, XF.sub_fin, stepR]
  · rfl

theorem unit_small (hp : 8 ≤ p) : ((2 : ℝ) ^ p)⁻¹ ≤ 1 / 256 := by
  have : (2 : ℝ) ^ 8 ≤ 2 ^ p := pow_le_pow_right₀ (by norm_num) hp
  rw [one_div]; exact inv_anti₀ (by norm_num) (by norm_num at this ⊢; linarith)

theorem eta_unit (he : emin ≤ -(p : ℤ)) : (2 : ℝ) ^ emin ≤ (2 ^ p)⁻¹ := by
  have : ((2 : ℝ) ^ p)⁻¹ = 2 ^ (-(p : ℤ)) := by rw [zpow_neg, zpow_natCast]
  rw [this]; exact zpow_le_zpow_right₀ (by norm_num) he

/-- The integer is a nearest one to the quotient, up to rounding. -/
theorem quot_near (h : Nearest p emin rd) (hs : Nearest ps es rs) (hp : 8 ≤ p) (hps : p ≤ ps) (he : emin ≤ -(p : ℤ)) (hes : es ≤ emin)
    {P x0 x1 : ℝ} (hP : 0 < P) (f0 : IsFloat p emin x0) (f1 : IsFloat p emin x1) :
    |(quot rd rs P x0 x1 : ℝ) - (x1 - x0) / P| ≤ 1 / 2 + (3.1 * ((2 ^ p)⁻¹ * |(x1 - x0) / P|) + 1.2 * (2 ^ p)⁻¹) := by
  have u0 : (0 : ℝ) < (2 ^ p)⁻¹ := by positivity
  have u1 := unit_small hp
  have ηu := eta_unit he
  have η0 := two_zpow_pos (K := ℝ) emin
  have e1 := h.rel_error (by omega) (f1.grid.sub f0.grid)
  have e2 := h.error (by omega) (rd (x1 - x0) / P)
  have fhalf : IsFloat p emin ((1 : ℝ) / 2) := by
    have := isFloat_zpow (K := ℝ) (p := p) (by omega) (show emin ≤ -1 by omega)
    convert this using 1; norm_num
  have ghalf : OnGrid es (if rd (x1 - x0) < 0 then -(1 / 2) else (1 : ℝ) / 2) := by
    split_ifs
    · exact fhalf.neg.grid.mono hes
    · exact fhalf.grid.mono hes
  have e3 := hs.rel_error (by omega) (((h (rd (x1 - x0) / P)).1.grid.mono hes).add ghalf)
  have us : ((2 : ℝ) ^ ps)⁻¹ ≤ (2 ^ p)⁻¹ := inv_anti₀ (by positivity) (pow_le_pow_right₀ (by norm_num) hps)
  have e1' : |rd (x1 - x0) / P - (x1 - x0) / P| ≤ (2 ^ p)⁻¹ * |(x1 - x0) / P| := by
    rw [← sub_div, abs_div, abs_div, abs_of_pos hP, ← mul_div_assoc]
    exact div_le_div_of_nonneg_right e1 hP.le
  -- the sign of the sum
  have sgn : (rd (x1 - x0) < 0 → rs (rd (rd (x1 - x0) / P) + -(1 / 2)) ≤ 0) ∧
      (¬ rd (x1 - x0) < 0 → 0 ≤ rs (rd (rd (x1 - x0) / P) + 1 / 2)) := by
    constructor
    · intro hn
      have : rd (rd (x1 - x0) / P) ≤ 0 := h.mono_float' isFloat_zero (div_nonpos_of_nonpos_of_nonneg hn.le hP.le)
      exact hs.mono_float' isFloat_zero (by linarith)
    · intro hn
      have : 0 ≤ rd (rd (x1 - x0) / P) := h.mono_float isFloat_zero (div_nonneg (not_lt.1 hn) hP.le)
      exact hs.mono_float isFloat_zero (by linarith)
  have tr : ∀ s : ℝ, (s ≤ 0 → s ≤ trunc s ∧ (trunc s : ℝ) < s + 1) ∧ (0 ≤ s → s - 1 < trunc s ∧ (trunc s : ℝ) ≤ s) := by
    intro s
    constructor
    · intro h0
      unfold trunc
      split_ifs with h1
      · have : s = 0 := le_antisymm h0 h1
        rw [this]; simp
      · exact ⟨Int.le_ceil s, Int.ceil_lt_add_one s⟩
    · intro h0
      unfold trunc
      rw [if_pos h0]
      exact ⟨Int.sub_one_lt_floor s, Int.floor_le s⟩
  generalize hD : (x1 - x0) / P = D at *
  unfold quot
  generalize rd (x1 - x0) / P = D1 at *
  generalize rd D1 = r at *
  have d1 : |D1| ≤ (1 + (2 ^ p)⁻¹) * |D| := by
    calc |D1| = |(D1 - D) + D| := by congr 1; ring
      _ ≤ _ := abs_add_le _ _
      _ ≤ _ := by linarith
  have rD : |r - D| ≤ 2.01 * ((2 ^ p)⁻¹ * |D|) + 2 ^ emin / 2 := by
    have k1 := mul_le_mul_of_nonneg_left d1 u0.le
    have k2 : (2 ^ p)⁻¹ * ((1 + (2 ^ p)⁻¹) * |D|) ≤ 1.01 * ((2 ^ p)⁻¹ * |D|) := by
      have k3 := mul_le_mul_of_nonneg_right (by norm_num at *; linarith : 1 + ((2 : ℝ) ^ p)⁻¹ ≤ 1.01) (by positivity : 0 ≤ (2 ^ p)⁻¹ * |D|)
      linarith
    calc _ ≤ _ := abs_sub_le _ D1 _
      _ ≤ _ := by clear * - k1 k2 e2 e1'; linarith
  have rA : |r| ≤ 1.01 * |D| + 2 ^ emin / 2 := by
    have k1 := mul_le_mul_of_nonneg_right u1 (abs_nonneg D)
    have k2 := abs_nonneg D
    calc |r| = |(r - D) + D| := by congr 1; ring
      _ ≤ _ := abs_add_le _ _
      _ ≤ _ := by clear * - k1 k2 rD; linarith
  have sum : ∀ c : ℝ, |c| = 1 / 2 → |rs (r + c) - (r + c)| ≤ (2 ^ ps)⁻¹ * |r + c| →
      |rs (r + c) - (D + c)| ≤ 3.1 * ((2 ^ p)⁻¹ * |D|) + 1.2 * (2 ^ p)⁻¹ := by
    intro c hc e3
    have k1 : |r + c| ≤ 1.01 * |D| + 2 ^ emin / 2 + 1 / 2 := (abs_add_le _ _).trans (by linarith)
    have k2 : (2 ^ ps)⁻¹ * |r + c| ≤ (2 ^ p)⁻¹ * (1.01 * |D| + 2 ^ emin / 2 + 1 / 2) := mul_le_mul us k1 (abs_nonneg _) u0.le
    have k3 : (2 ^ p)⁻¹ * (1.01 * |D| + 2 ^ emin / 2 + 1 / 2) = 1.01 * ((2 ^ p)⁻¹ * |D|) + (2 ^ p)⁻¹ * (2 ^ emin / 2) + (2 ^ p)⁻¹ / 2 := by ring
    have k4 : ((2 : ℝ) ^ p)⁻¹ * (2 ^ emin / 2) ≤ 1 / 256 * (2 ^ emin / 2) := mul_le_mul_of_nonneg_right u1 (by positivity)
    have k5 : 0 ≤ (2 ^ p)⁻¹ * |D| := by positivity
    calc |rs (r + c) - (D + c)| = |(rs (r + c) - (r + c)) + (r - D)| := by congr 1; ring
      _ ≤ _ := abs_add_le _ _
      _ ≤ (2 ^ p)⁻¹ * (1.01 * |D| + 2 ^ emin / 2 + 1 / 2) + (2.01 * ((2 ^ p)⁻¹ * |D|) + 2 ^ emin / 2) := add_le_add (e3.trans k2) rD
      _ ≤ _ := by
        rw [k3]
        generalize ((2 : ℝ) ^ p)⁻¹ * |D| = ud at *
        generalize ((2 : ℝ) ^ p)⁻¹ * (2 ^ emin / 2) = uη at *
        generalize ((2 : ℝ) ^ p)⁻¹ = u at *
        clear * - k4 k5 ηu u0 η0
        norm_num at *; linarith
  split_ifs at * with hneg
  · have t1 := (tr _).1 (sgn.1 hneg)
    have t2 := abs_le.1 (sum (-(1 / 2)) (by rw [abs_neg, abs_of_pos (by norm_num)]) e3)
    rw [abs_le]; constructor <;> linarith [t1.1, t1.2, t2.1, t2.2]
  · have t1 := (tr _).2 (sgn.2 hneg)
    have t2 := abs_le.1 (sum (1 / 2) (by rw [abs_of_pos (by norm_num)]) e3)
    rw [abs_le]; constructor <;> linarith [t1.1, t1.2, t2.1, t2.2]

theorem quot_unique (h : Nearest p emin rd) (hs : Nearest ps es rs) (hp : 8 ≤ p) (hps : p ≤ ps) (he : emin ≤ -(p : ℤ)) (hes : es ≤ emin)
    {P x0 x1 : ℝ} (hP : 0 < P) (f0 : IsFloat p emin x0) (f1 : IsFloat p emin x1) (m : ℤ)
    (hm : |(x1 - x0) / P - m| + (3.1 * ((2 ^ p)⁻¹ * |(x1 - x0) / P|) + 1.2 * (2 ^ p)⁻¹) < 1 / 2) : quot rd rs P x0 x1 = m := by
  have h1 := quot_near h hs hp hps he hes hP f0 f1
  have h2 : |((quot rd rs P x0 x1 : ℤ) : ℝ) - m| < 1 := by
    calc _ ≤ _ := abs_sub_le _ ((x1 - x0) / P) _
      _ < _ := by linarith
  have h3 : |quot rd rs P x0 x1 - m| < 1 := by exact_mod_cast h2
  rw [Int.abs_lt_one_iff] at h3
  omega

/-- The output is the input less the multiple of the period, up to rounding. -/
theorem stepR_cong (h : Nearest p emin rd) (hp : 8 ≤ p) (he : emin ≤ -(p : ℤ)) {P x0 x1 : ℝ} (f1 : IsFloat p emin x1) :
    |stepR rd rs P x0 x1 - (x1 - quot rd rs P x0 x1 * P)| ≤
      (2 ^ p)⁻¹ * |x1 - quot rd rs P x0 x1 * P| + 2.02 * ((2 ^ p)⁻¹ * |quot rd rs P x0 x1 * P|) + 0.51 * 2 ^ emin := by
  have u0 : (0 : ℝ) < (2 ^ p)⁻¹ := by positivity
  have u1 := unit_small hp
  have η0 := two_zpow_pos (K := ℝ) emin
  unfold stepR
  generalize quot rd rs P x0 x1 = q
  have gq : OnGrid emin (q : ℝ) := OnGrid.mono (show emin ≤ 0 by omega) ⟨q, by simp⟩
  have e1 := h.rel_error (by omega) gq
  have e2 := h.error (by omega) (rd q * P)
  have e3 := h.rel_error (by omega) (f1.grid.sub (h (rd q * P)).1.grid)
  generalize ((2 : ℝ) ^ p)⁻¹ = u at *
  generalize (2 : ℝ) ^ emin = η at *
  generalize hT : rd (rd q * P) = t at *
  have k1 : |rd q * P - q * P| ≤ u * |q * P| := by
    rw [← sub_mul, abs_mul, abs_mul, ← mul_assoc]; exact mul_le_mul_of_nonneg_right e1 (abs_nonneg P)
  have k2 : |rd q * P| ≤ (1 + u) * |q * P| := by
    calc |rd q * P| = |(rd q * P - q * P) + q * P| := by congr 1; ring
      _ ≤ _ := abs_add_le _ _
      _ ≤ _ := by linarith
  have n0 : 0 ≤ u * |q * P| := by positivity
  have k3 : u * |rd q * P| ≤ 1.004 * (u * |q * P|) := by
    have h1 := mul_le_mul_of_nonneg_left k2 u0.le
    have h2 := mul_le_mul_of_nonneg_right (by norm_num; linarith : 1 + u ≤ 1.004) n0
    linarith
  have k4 : |t - q * P| ≤ 2.004 * (u * |q * P|) + η / 2 := by
    calc _ ≤ _ := abs_sub_le _ (rd q * P) _
      _ ≤ _ := by norm_num at *; linarith
  have k5 : |x1 - t| ≤ |x1 - q * P| + (2.004 * (u * |q * P|) + η / 2) := by
    calc |x1 - t| = |(x1 - q * P) - (t - q * P)| := by congr 1; ring
      _ ≤ _ := abs_sub _ _
      _ ≤ _ := by linarith
  have k6 := mul_le_mul_of_nonneg_left k5 u0.le
  have k7 := mul_le_mul_of_nonneg_right u1 n0
  have k8 : u * η ≤ 1 / 256 * η := mul_le_mul_of_nonneg_right u1 η0.le
  have k9 : u * (|x1 - q * P| + (2.004 * (u * |q * P|) + η / 2)) = u * |x1 - q * P| + 2.004 * (u * (u * |q * P|)) + (u * η) / 2 := by ring
  calc |rd (x1 - t) - (x1 - q * P)| = |(rd (x1 - t) - (x1 - t)) - (t - q * P)| := by congr 1; ring
    _ ≤ _ := abs_sub _ _
    _ ≤ u * (|x1 - q * P| + (2.004 * (u * |q * P|) + η / 2)) + (2.004 * (u * |q * P|) + η / 2) := add_le_add (e3.trans k6) k4
    _ ≤ _ := by rw [k9]; norm_num at *; linarith

theorem stepR_float (h : Nearest p emin rd) (P x0 x1 : ℝ) : IsFloat p emin (stepR rd rs P x0 x1) := (h _).1

/-- Consecutive outputs differ by at most half a period, up to rounding. -/
theorem stepR_near (h : Nearest p emin rd) (hs : Nearest ps es rs) (hp : 8 ≤ p) (hps : p ≤ ps) (he : emin ≤ -(p : ℤ)) (hes : es ≤ emin)
    {P x0 x1 : ℝ} (hP : 0 < P) (f0 : IsFloat p emin x0) (f1 : IsFloat p emin x1) :
    |stepR rd rs P x0 x1 - x0| ≤ P / 2 + (2 ^ p)⁻¹ * (|x0| + 6 * |x1 - x0| + 3 * P) + 2 ^ emin := by
  have u0 : (0 : ℝ) < (2 ^ p)⁻¹ := by positivity
  have u1 := unit_small hp
  have η0 := two_zpow_pos (K := ℝ) emin
  have h1 := quot_near h hs hp hps he hes hP f0 f1
  have h2 := stepR_cong (rs := rs) h hp he (P := P) (x0 := x0) f1
  generalize stepR rd rs P x0 x1 = y at *
  generalize quot rd rs P x0 x1 = q at *
  generalize ((2 : ℝ) ^ p)⁻¹ = u at *
  generalize (2 : ℝ) ^ emin = η at *
  have d0 := abs_nonneg (x1 - x0)
  have k1 : |x1 - q * P - x0| ≤ P / 2 + 3.1 * (u * |x1 - x0|) + 1.2 * (u * P) := by
    have e : x1 - q * P - x0 = -((q - (x1 - x0) / P) * P) := by field_simp; ring
    have h3 := mul_le_mul_of_nonneg_right h1 hP.le
    have e2 : (1 / 2 + (3.1 * (u * |(x1 - x0) / P|) + 1.2 * u)) * P = P / 2 + 3.1 * (u * |x1 - x0|) + 1.2 * (u * P) := by
      rw [abs_div, abs_of_pos hP]; field_simp; ring
    rw [e, abs_neg, abs_mul, abs_of_pos hP]; linarith
  have k0 := mul_le_mul_of_nonneg_right u1 d0
  have k0' := mul_le_mul_of_nonneg_right u1 hP.le
  have k2 : |x1 - q * P| ≤ |x0| + 0.02 * |x1 - x0| + 0.51 * P := by
    calc |x1 - q * P| = |(x1 - q * P - x0) + x0| := by congr 1; ring
      _ ≤ _ := abs_add_le _ _
      _ ≤ _ := by linarith
  have k3 : |q * P| ≤ 1.02 * |x1 - x0| + 0.51 * P := by
    calc |q * P| = |(x1 - x0) - (x1 - q * P - x0)| := by congr 1; ring
      _ ≤ _ := abs_sub _ _
      _ ≤ _ := by linarith
  have k4 := mul_le_mul_of_nonneg_left k2 u0.le
  have k5 := mul_le_mul_of_nonneg_left k3 u0.le
  have e4 : u * (|x0| + 0.02 * |x1 - x0| + 0.51 * P) = u * |x0| + 0.02 * (u * |x1 - x0|) + 0.51 * (u * P) := by ring
  have e5 : u * (1.02 * |x1 - x0| + 0.51 * P) = 1.02 * (u * |x1 - x0|) + 0.51 * (u * P) := by ring
  have e6 : u * (|x0| + 6 * |x1 - x0| + 3 * P) = u * |x0| + 6 * (u * |x1 - x0|) + 3 * (u * P) := by ring
  have n1 : 0 ≤ u * |x1 - x0| := by positivity
  have n2 : 0 ≤ u * P := by positivity
  rw [e6]
  calc |y - x0| = |(y - (x1 - q * P)) + (x1 - q * P - x0)| := by congr 1; ring
    _ ≤ _ := abs_add_le _ _
    _ ≤ _ := by rw [e4] at k4; rw [e5] at k5; linarith

/-- C95: whatever the (finite) input, if no conversion to `int` overflows, then every output is the input
less a multiple of the period up to rounding, and consecutive outputs differ by at most half a period up
to rounding.  The errors do not add up. -/
theorem C95_unwrap (h : Nearest p emin rd) (hs : Nearest ps es rs) (hp : 8 ≤ p) (hps : p ≤ ps) (he : emin ≤ -(p : ℤ)) (hes : es ≤ emin)
    (P : ℝ) (hP : 0 < P) (x : List ℝ) (fx : ∀ v ∈ x, IsFloat p emin v) (r : List (XF ℝ))
    (hr : unwrapCoreR rd rs (.fin P) (x.map .fin) = some r) :
    ∃ y : List ℝ, r = y.map .fin ∧ y.head? = x.head? ∧
      List.Forall₂ (fun x y => ∃ m : ℤ, |y - (x - m * P)| ≤ (2 ^ p)⁻¹ * |x - m * P| + 2.02 * ((2 ^ p)⁻¹ * |m * P|) + 0.51 * 2 ^ emin) x y ∧
      List.Forall₂ (fun a q => |q.2 - a| ≤ P / 2 + (2 ^ p)⁻¹ * (|a| + 6 * |q.1 - a| + 3 * P) + 2 ^ emin) y.dropLast (x.tail.zip y.tail) := by
  have η0 := two_zpow_pos (K := ℝ) emin
  have loop : ∀ (xs : List ℝ) (x0 : ℝ) (r : List (XF ℝ)), IsFloat p emin x0 → (∀ v ∈ xs, IsFloat p emin v) →
      unwrapLoopR rd rs (.fin P) (.fin x0) (xs.map .fin) = some r → ∃ ys : List ℝ, r = ys.map .fin ∧ ys.length = xs.length ∧
      List.Forall₂ (fun x y => ∃ m : ℤ, |y - (x - m * P)| ≤ (2 ^ p)⁻¹ * |x - m * P| + 2.02 * ((2 ^ p)⁻¹ * |m * P|) + 0.51 * 2 ^ emin) xs ys ∧
      List.Forall₂ (fun a q => |q.2 - a| ≤ P / 2 + (2 ^ p)⁻¹ * (|a| + 6 * |q.1 - a| + 3 * P) + 2 ^ emin) (x0 :: ys).dropLast (xs.zip ys) := by
    intro xs
    induction xs with
    | nil => intro x0 r _ _ hr; simp [unwrapLoopR] at hr; exact ⟨[], by simp [hr], rfl, .nil, .nil⟩
    | cons x1 xs ih =>
      intro x0 r f0 fx hr
      have f1 := fx x1 (by simp)
      simp only [List.map_cons, unwrapLoopR, XF.isfinite, Bool.not_true, Bool.false_eq_true, if_false, unwrap1R_fin P x0 x1 hP.ne'] at hr
      split_ifs at hr with hq
      · simp only at hr
        cases hl : unwrapLoopR rd rs (.fin P) (.fin (stepR rd rs P x0 x1)) (xs.map .fin) with
        | none => rw [hl] at hr; simp at hr
        | some r' =>
          rw [hl] at hr
          simp only [Option.some.injEq] at hr
          obtain ⟨ys, e1, e2, e3, e4⟩ := ih _ r' (stepR_float h P x0 x1) (fun v hv => fx v (by simp [hv])) hl
          refine ⟨stepR rd rs P x0 x1 :: ys, by rw [← hr, e1]; rfl, by simp [e2], .cons ⟨_, stepR_cong h hp he f1⟩ e3, ?_⟩
          rw [List.dropLast_cons_of_ne_nil (by simp), List.zip_cons_cons]
          exact .cons (stepR_near h hs hp hps he hes hP f0 f1) e4
  cases x with
  | nil => simp [unwrapCoreR] at hr; exact ⟨[], by simp [hr], rfl, .nil, .nil⟩
  | cons x0 xs =>
    simp only [List.map_cons, unwrapCoreR] at hr
    cases hl : unwrapLoopR rd rs (.fin P) (.fin x0) (xs.map .fin) with
    | none => rw [hl] at hr; simp at hr
    | some r' =>
      rw [hl] at hr; simp only [Option.some.injEq] at hr
      obtain ⟨ys, e1, _, e3, e4⟩ := loop xs x0 r' (fx x0 (by simp)) (fun v hv => fx v (by simp [hv])) hl
      refine ⟨x0 :: ys, by rw [← hr, e1]; rfl, rfl, .cons ⟨0, ?_⟩ e3, e4⟩
      simp only [Int.cast_zero, zero_mul, sub_zero, sub_self, abs_zero]
      positivity

/-- C95: a signal whose consecutive differences stay clearly below half a period is returned
unchanged, bit for bit. -/
theorem C95_unwrap_unchanged (h : Nearest p emin rd) (hs : Nearest ps es rs) (hp : 8 ≤ p) (hps : p ≤ ps) (he : emin ≤ -(p : ℤ))
    (hes : es ≤ emin) (P : ℝ) (hP : 0 < P) (y : List ℝ) (fy : ∀ v ∈ y, IsFloat p emin v)
    (hc : List.IsChain (fun a b => |b - a| ≤ (1 / 2 - 3 * (2 ^ p)⁻¹) * P) y) :
    unwrapCoreR rd rs (.fin P) (y.map .fin) = some (y.map .fin) := by
  have u0 : (0 : ℝ) < (2 ^ p)⁻¹ := by positivity
  have loop : ∀ (ys : List ℝ) (y0 : ℝ), IsFloat p emin y0 → (∀ v ∈ ys, IsFloat p emin v) →
      List.IsChain (fun a b => |b - a| ≤ (1 / 2 - 3 * (2 ^ p)⁻¹) * P) (y0 :: ys) →
      unwrapLoopR rd rs (.fin P) (.fin y0) (ys.map .fin) = some (ys.map .fin) := by
    intro ys
    induction ys with
    | nil => intro y0 _ _ _; rfl
    | cons y1 ys ih =>
      intro y0 f0 fy hc
      rw [List.isChain_cons_cons] at hc
      have f1 := fy y1 (by simp)
      have hD : |(y1 - y0) / P| ≤ 1 / 2 - 3 * (2 ^ p)⁻¹ := by
        rw [abs_div, abs_of_pos hP, div_le_iff₀ hP]; exact hc.1
      have hq : quot rd rs P y0 y1 = 0 := by
        apply quot_unique h hs hp hps he hes hP f0 f1
        rw [Int.cast_zero, sub_zero]
        have := mul_le_mul_of_nonneg_left (hD.trans (by linarith : 1 / 2 - 3 * ((2 : ℝ) ^ p)⁻¹ ≤ 1 / 2)) u0.le
        linarith
      have hstep : stepR rd rs P y0 y1 = y1 := by
        rw [stepR, hq]
        simp only [Int.cast_zero, h.round_zero, zero_mul, sub_zero]
        exact h.exact f1
      simp only [List.map_cons, unwrapLoopR, XF.isfinite, Bool.not_true, Bool.false_eq_true, if_false, unwrap1R_fin P y0 y1 hP.ne', hq, hstep]
      rw [if_pos (by norm_num)]
      simp only
      rw [ih y1 f1 (fun v hv => fy v (by simp [hv])) hc.2]
  cases y with
  | nil => rfl
  | cons y0 ys =>
    simp only [List.map_cons, unwrapCoreR]
    rw [loop ys y0 (fy y0 (by simp)) (fun v hv => fy v (by simp [hv])) hc]

/-- C95: unwrap recovers, up to `6 u B` and independently of the length, any signal `w` whose consecutive
differences stay clearly below half a period, from samples that differ from it by multiples of the period.
`B` bounds the samples and the signal. -/
theorem C95_unwrap_recovers (h : Nearest p emin rd) (hs : Nearest ps es rs) (hp : 8 ≤ p) (hps : p ≤ ps) (he : emin ≤ -(p : ℤ))
    (hes : es ≤ emin) (P : ℝ) (hP : 0 < P) {B : ℝ} (w0 : ℝ) (w x : List ℝ) (f0 : IsFloat p emin w0) (fx : ∀ v ∈ x, IsFloat p emin v)
    (hB0 : |w0| ≤ B) (hBw : ∀ v ∈ w, |v| ≤ B) (hBx : ∀ v ∈ x, |v| ≤ B)
    (hc : List.IsChain (fun a b => |b - a| + 13 * ((2 ^ p)⁻¹ * B) + 2 * ((2 ^ p)⁻¹ * P) + 2 * 2 ^ emin ≤ P / 2) (w0 :: w))
    (hcong : List.Forall₂ (fun x w => ∃ m : ℤ, |m| < 2 ^ 31 ∧ x = w + m * P) x w) :
    ∃ y : List ℝ, unwrapCoreR rd rs (.fin P) ((w0 :: x).map .fin) = some ((w0 :: y).map .fin) ∧
      List.Forall₂ (fun w y => |y - w| ≤ 6 * ((2 ^ p)⁻¹ * B) + 2 ^ emin) w y := by
  have u0 : (0 : ℝ) < (2 ^ p)⁻¹ := by positivity
  have u1 := unit_small hp
  have ηu := eta_unit he
  have η0 := two_zpow_pos (K := ℝ) emin
  have B0 : 0 ≤ B := (abs_nonneg w0).trans hB0
  have loop : ∀ (x w : List ℝ) (w0 y0 : ℝ), IsFloat p emin y0 → (∀ v ∈ x, IsFloat p emin v) → |w0| ≤ B → (∀ v ∈ w, |v| ≤ B) →
      (∀ v ∈ x, |v| ≤ B) → |y0 - w0| ≤ 6 * ((2 ^ p)⁻¹ * B) + 2 ^ emin →
      List.IsChain (fun a b => |b - a| + 13 * ((2 ^ p)⁻¹ * B) + 2 * ((2 ^ p)⁻¹ * P) + 2 * 2 ^ emin ≤ P / 2) (w0 :: w) →
      List.Forall₂ (fun x w => ∃ m : ℤ, |m| < 2 ^ 31 ∧ x = w + m * P) x w →
      ∃ y : List ℝ, unwrapLoopR rd rs (.fin P) (.fin y0) (x.map .fin) = some (y.map .fin) ∧
        List.Forall₂ (fun w y => |y - w| ≤ 6 * ((2 ^ p)⁻¹ * B) + 2 ^ emin) w y := by
    intro x w w0 y0 f0 fx hB0 hBw hBx hy0 hc hcong
    induction hcong generalizing w0 y0 with
    | nil => exact ⟨[], rfl, .nil⟩
    | @cons x1 w1 xs ws hm hrest ih =>
      obtain ⟨m, hm31, hxm⟩ := hm
      rw [List.isChain_cons_cons] at hc
      have f1 := fx x1 (by simp)
      have bx := hBx x1 (by simp)
      have bw := hBw w1 (by simp)
      have c1 := hc.1
      have hq : quot rd rs P y0 x1 = m := by
        apply quot_unique h hs hp hps he hes hP f0 f1
        have a0 : |x1 - y0| ≤ 2.03 * B + 2 ^ emin := by
          have : |y0| ≤ |y0 - w0| + |w0| := by
            calc |y0| = |(y0 - w0) + w0| := by congr 1; ring
              _ ≤ _ := abs_add_le _ _
          have k := mul_le_mul_of_nonneg_right u1 B0
          have := abs_sub x1 y0
          norm_num at *; linarith
        have e1 : (x1 - y0) / P - m = ((w1 - w0) - (y0 - w0)) / P := by rw [hxm]; field_simp; ring
        have a1 : |(x1 - y0) / P - m| ≤ (|w1 - w0| + (6 * ((2 ^ p)⁻¹ * B) + 2 ^ emin)) / P := by
          rw [e1, abs_div, abs_of_pos hP]
          exact div_le_div_of_nonneg_right ((abs_sub _ _).trans (by linarith)) hP.le
        have a2 : (2 ^ p)⁻¹ * |(x1 - y0) / P| ≤ (2.03 * ((2 ^ p)⁻¹ * B) + (2 ^ p)⁻¹ * 2 ^ emin) / P := by
          rw [abs_div, abs_of_pos hP, ← mul_div_assoc]
          have := mul_le_mul_of_nonneg_left a0 u0.le
          exact div_le_div_of_nonneg_right (by linarith) hP.le
        have a3 : ((2 : ℝ) ^ p)⁻¹ * 2 ^ emin ≤ 1 / 256 * 2 ^ emin := mul_le_mul_of_nonneg_right u1 η0.le
        have a4 : (|w1 - w0| + (6 * ((2 ^ p)⁻¹ * B) + 2 ^ emin)) / P + (3.1 * ((2.03 * ((2 ^ p)⁻¹ * B) + (2 ^ p)⁻¹ * 2 ^ emin) / P) + 1.2 * (2 ^ p)⁻¹) < 1 / 2 := by
          have e : (|w1 - w0| + (6 * ((2 ^ p)⁻¹ * B) + 2 ^ emin)) / P + (3.1 * ((2.03 * ((2 ^ p)⁻¹ * B) + (2 ^ p)⁻¹ * 2 ^ emin) / P) + 1.2 * (2 ^ p)⁻¹) =
            (|w1 - w0| + (6 * ((2 ^ p)⁻¹ * B) + 2 ^ emin) + 3.1 * (2.03 * ((2 ^ p)⁻¹ * B) + (2 ^ p)⁻¹ * 2 ^ emin) + 1.2 * ((2 ^ p)⁻¹ * P)) / P := by
              field_simp; ring
          rw [e, div_lt_iff₀ hP]
          have n1 : 0 ≤ (2 ^ p)⁻¹ * B := by positivity
          have n2 : 0 < (2 ^ p)⁻¹ * P := by positivity
          generalize ((2 : ℝ) ^ p)⁻¹ * B = uB at *
          generalize ((2 : ℝ) ^ p)⁻¹ * P = uP at *
          generalize ((2 : ℝ) ^ p)⁻¹ * 2 ^ emin = uη at *
          clear * - c1 n1 n2 a3 η0
          norm_num at *; linarith
        have a5 : 3.1 * ((2 ^ p)⁻¹ * |(x1 - y0) / P|) ≤ 3.1 * ((2.03 * ((2 ^ p)⁻¹ * B) + (2 ^ p)⁻¹ * 2 ^ emin) / P) :=
          mul_le_mul_of_nonneg_left a2 (by norm_num)
        linarith
      have hy1 : |stepR rd rs P y0 x1 - w1| ≤ 6 * ((2 ^ p)⁻¹ * B) + 2 ^ emin := by
        have h2 := stepR_cong (rs := rs) h hp he (P := P) (x0 := y0) f1
        have e : x1 - m * P = w1 := by rw [hxm]; ring
        rw [hq, e] at h2
        have k1 : |(m : ℝ) * P| ≤ 2 * B := by
          have : (m : ℝ) * P = x1 - w1 := by rw [hxm]; ring
          rw [this]; exact (abs_sub _ _).trans (by linarith)
        have k2 := mul_le_mul_of_nonneg_left k1 u0.le
        have k3 := mul_le_mul_of_nonneg_left bw u0.le
        have n1 : 0 ≤ (2 ^ p)⁻¹ * B := by positivity
        have k4 : (2 ^ p)⁻¹ * (2 * B) = 2 * ((2 ^ p)⁻¹ * B) := by ring
        rw [k4] at k2
        refine h2.trans ?_
        generalize ((2 : ℝ) ^ p)⁻¹ * B = uB at *
        clear * - k2 k3 n1 η0
        norm_num at *; linarith
      obtain ⟨ys, e1, e2⟩ := ih w1 _ (stepR_float h P y0 x1) (fun v hv => fx v (by simp [hv])) bw
        (fun v hv => hBw v (by simp [hv])) (fun v hv => hBx v (by simp [hv])) hy1 hc.2
      refine ⟨stepR rd rs P y0 x1 :: ys, ?_, .cons hy1 e2⟩
      have hm' := abs_lt.1 hm31
      simp only [List.map_cons, unwrapLoopR, XF.isfinite, Bool.not_true, Bool.false_eq_true, if_false, unwrap1R_fin P y0 x1 hP.ne', hq]
      rw [if_pos ⟨by omega, by omega⟩]
      simp only
      rw [e1]
  obtain ⟨y, e1, e2⟩ := loop x w w0 w0 f0 fx hB0 hBw hBx (by rw [sub_self, abs_zero]; positivity) hc hcong
  exact ⟨y, by simp only [List.map_cons, unwrapCoreR]; rw [e1], e2⟩

/-- In floating point a difference below half a period is not always left alone: with `period = 1` and ties
rounded to even, the samples `0` and the largest number below `1/2` come out as `0` and `-1/2`, a whole
period (up to rounding) off. -/
theorem C95_unwrap_half_violated (h : Nearest p emin rd) (hp : 2 ≤ p) (he : emin ≤ -(p : ℤ) - 1) (tie : rd (1 - 2 ^ (-(p : ℤ) - 1)) = 1) :
    ∃ x y : ℝ, IsFloat p emin x ∧ 0 < x ∧ x < 1 / 2 ∧ unwrapCoreR rd rd (.fin 1) [.fin 0, .fin x] = some [.fin 0, .fin y] ∧ y ≤ -(1 / 2) := by
  have t0 := two_zpow_pos (K := ℝ) (-(p : ℤ) - 1)
  have e2 : (2 : ℝ) ^ p * 2 ^ (-(p : ℤ) - 1) = 1 / 2 := by
    rw [pow_zpow, show (p : ℤ) + (-(p : ℤ) - 1) = -1 by ring]; norm_num
  have p4 : (2 : ℝ) ^ 2 ≤ 2 ^ p := pow_le_pow_right₀ (by norm_num) hp
  have p4' : (2 : ℤ) ^ 2 ≤ 2 ^ p := pow_le_pow_right₀ (by norm_num) hp
  have small : (2 : ℝ) ^ (-(p : ℤ) - 1) ≤ 1 / 8 := by
    have := mul_le_mul_of_nonneg_right p4 t0.le
    rw [e2] at this; norm_num at this ⊢; linarith
  have fx : IsFloat p emin ((1 : ℝ) / 2 - 2 ^ (-(p : ℤ) - 1)) :=
    ⟨2 ^ p - 1, -(p : ℤ) - 1, by rw [abs_of_pos (by omega)]; omega, he, by push_cast; rw [sub_mul, e2]; ring⟩
  obtain ⟨a, ha⟩ : ∃ a, a = (1 : ℝ) / 2 - 2 ^ (-(p : ℤ) - 1) := ⟨_, rfl⟩
  rw [← ha] at fx
  have hq : quot rd rd 1 0 a = 1 := by
    unfold quot
    rw [sub_zero, h.exact fx, div_one, h.exact fx, if_neg (by linarith)]
    have : a + 1 / 2 = 1 - 2 ^ (-(p : ℤ) - 1) := by rw [ha]; ring
    rw [this, tie]
    norm_num [trunc]
  have f1 : IsFloat p emin (1 : ℝ) := isFloat_one (by omega) (by omega)
  refine ⟨a, rd (a - 1), fx, by linarith, by linarith, ?_, ?_⟩
  · simp only [unwrapCoreR, unwrapLoopR, XF.isfinite, unwrap1R_fin (1 : ℝ) _ _ one_ne_zero, hq, stepR]
    simp [h.exact f1]
  · exact h.mono_float' (by
      have := isFloat_zpow (K := ℝ) (p := p) (by omega) (show emin ≤ -1 by omega)
      convert this.neg using 1; norm_num) (by linarith)

/-- There is such a rounding: a nearest one that rounds that tie to 1. -/
theorem exists_tie (hp : 2 ≤ p) (he : emin ≤ -(p : ℤ) - 1) : ∃ rd : ℝ → ℝ, Nearest p emin rd ∧ rd (1 - 2 ^ (-(p : ℤ) - 1)) = 1 := by
  classical
  obtain ⟨r0, h0⟩ := exists_nearest (K := ℝ) (p := p) (by omega) emin
  have t0 := two_zpow_pos (K := ℝ) (-(p : ℤ) - 1)
  refine ⟨fun z => if z = 1 - 2 ^ (-(p : ℤ) - 1) then 1 else r0 z, fun z => ?_, if_pos rfl⟩
  simp only
  split_ifs with hz
  · refine ⟨isFloat_one (by omega) (by omega), fun y hy => ?_⟩
    have e1 : |1 - z| = 2 ^ (-(p : ℤ) - 1) := by
      rw [hz, show (1 : ℝ) - (1 - 2 ^ (-(p : ℤ) - 1)) = 2 ^ (-(p : ℤ) - 1) by ring, abs_of_pos t0]
    rw [e1]
    have e2 : (2 : ℝ) ^ p * 2 ^ (-(p : ℤ) - 1) = 1 / 2 := by
      rw [pow_zpow, show (p : ℤ) + (-(p : ℤ) - 1) = -1 by ring]; norm_num
    have small : (2 : ℝ) ^ (-(p : ℤ) - 1) ≤ 1 / 8 := by
      have p4 : (2 : ℝ) ^ 2 ≤ 2 ^ p := pow_le_pow_right₀ (by norm_num) hp
      have := mul_le_mul_of_nonneg_right p4 t0.le
      rw [e2] at this; norm_num at this ⊢; linarith
    by_cases hy2 : 1 / 2 ≤ |y|
    · obtain ⟨n, hn⟩ := hy.big_grid (k := -(p : ℤ) - 1) (by rw [e2]; exact hy2)
      have e3 : y - z = ((2 * n - 2 ^ (p + 1) + 1 : ℤ) : ℝ) * 2 ^ (-(p : ℤ) - 1) := by
        have e4 : (2 : ℝ) ^ (-(p : ℤ) - 1 + 1) = 2 * 2 ^ (-(p : ℤ) - 1) := by rw [zpow_add_one₀ (by norm_num)]; ring
        have e5 : (2 : ℝ) ^ (p + 1) * 2 ^ (-(p : ℤ) - 1) = 1 := by rw [pow_succ]; linarith
        rw [hn, hz, e4]; push_cast
        linear_combination (-1 : ℝ) * (-e5)
      rw [e3, abs_mul, abs_of_pos t0]
      have : (2 * n - 2 ^ (p + 1) + 1 : ℤ) ≠ 0 := by rw [pow_succ]; omega
      exact le_mul_of_one_le_left t0.le (by exact_mod_cast Int.one_le_abs this)
    · have hy3 := abs_lt.1 (not_le.1 hy2)
      rw [abs_of_neg (by rw [hz]; linarith), hz]; linarith
  · exact h0 z

/-! ### Non-vacuity: doubles -/
example : ∃ rd : ℝ → ℝ, Nearest 53 (-1074) rd ∧ rd (1 - 2 ^ (-((53 : ℕ) : ℤ) - 1)) = 1 ∧
    (∃ x y : ℝ, IsFloat 53 (-1074) x ∧ 0 < x ∧ x < 1 / 2 ∧ unwrapCoreR rd rd (.fin 1) [.fin 0, .fin x] = some [.fin 0, .fin y] ∧
      y ≤ -(1 / 2)) ∧
    unwrapCoreR rd rd (.fin 10) [.fin 0, .fin 4, .fin 8] = some [.fin 0, .fin 4, .fin 8] ∧
    (∃ y : List ℝ, unwrapCoreR rd rd (.fin 10) [.fin 0, .fin 4, .fin 8, .fin 2] = some ((0 :: y).map .fin) ∧
      List.Forall₂ (fun w y => |y - w| ≤ 6 * ((2 ^ 53)⁻¹ * 12) + 2 ^ (-1074 : ℤ)) [4, 8, 12] y) := by
  obtain ⟨rd, h, tie⟩ := exists_tie (p := 53) (emin := -1074) (by norm_num) (by norm_num)
  have fi : ∀ n : ℤ, |n| < 2 ^ 53 → IsFloat 53 (-1074) (n : ℝ) := fun n hn => ⟨n, 0, hn, by norm_num, by simp⟩
  have f4 : IsFloat 53 (-1074) (4 : ℝ) := by exact_mod_cast fi 4 (by norm_num)
  have f8 : IsFloat 53 (-1074) (8 : ℝ) := by exact_mod_cast fi 8 (by norm_num)
  have f2 : IsFloat 53 (-1074) (2 : ℝ) := by exact_mod_cast fi 2 (by norm_num)
  have η1 : (2 : ℝ) ^ (-1074 : ℤ) ≤ 2 ^ (-10 : ℤ) := zpow_le_zpow_right₀ (by norm_num) (by norm_num)
  have η2 : (2 : ℝ) ^ (-10 : ℤ) = 1 / 1024 := by norm_num
  refine ⟨rd, h, tie, C95_unwrap_half_violated h (by norm_num) (by norm_num) tie, ?_, ?_⟩
  · refine C95_unwrap_unchanged h h (by norm_num) le_rfl (by norm_num) le_rfl 10 (by norm_num) [0, 4, 8] ?_ ?_
    · intro v hv
      simp only [List.mem_cons, List.not_mem_nil, or_false] at hv
      rcases hv with rfl | rfl | rfl
      exacts [isFloat_zero, f4, f8]
    · refine .cons_cons ?_ (.cons_cons ?_ (.singleton _)) <;> norm_num [abs]
  · refine C95_unwrap_recovers h h (by norm_num) le_rfl (by norm_num) le_rfl 10 (by norm_num) (B := 12) 0 [4, 8, 12] [4, 8, 2] isFloat_zero ?_
      (by norm_num) ?_ ?_ ?_ ?_
    · intro v hv
      simp only [List.mem_cons, List.not_mem_nil, or_false] at hv
      rcases hv with rfl | rfl | rfl
      exacts [f4, f8, f2]
    · intro v hv
      simp only [List.mem_cons, List.not_mem_nil, or_false] at hv
      rcases hv with rfl | rfl | rfl <;> norm_num [abs]
    · intro v hv
      simp only [List.mem_cons, List.not_mem_nil, or_false] at hv
      rcases hv with rfl | rfl | rfl <;> norm_num [abs]
    · rw [η2] at η1
      generalize (2 : ℝ) ^ (-1074 : ℤ) = η at *
      have a4 : |(4 : ℝ) - 0| = 4 := by norm_num
      have a8 : |(8 : ℝ) - 4| = 4 := by norm_num [abs]
      have a12 : |(12 : ℝ) - 8| = 4 := by norm_num [abs]
      refine .cons_cons ?_ (.cons_cons ?_ (.cons_cons ?_ (.singleton _)))
      · rw [a4]; norm_num; linarith
      · rw [a8]; norm_num; linarith
      · rw [a12]; norm_num; linarith
    · exact .cons ⟨0, by norm_num, by norm_num⟩ (.cons ⟨0, by norm_num, by norm_num⟩ (.cons ⟨-1, by norm_num, by norm_num⟩ .nil))

end Ufunclab.Unwrap
