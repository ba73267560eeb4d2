import Verif.Props.LogisticRound
import Verif.Proof.TriAreaWhole
import Verif.Props.RampRound
import Verif.Proof.ErfcxOverflow
import Verif.Props.OverflowMeans
/-!
# C100: the semivariograms in floating point

`h`, `nugget`, `sill` and `range` are numbers of the format, `range > 0`; `f` is the exact value.
-/
namespace Ufunclab.Scalar
open Real Ufunclab.Float Ufunclab.Means
variable {p P : ℕ} {emin Emin : ℤ} {rd rT rD ex : ℝ → ℝ} {ε : ℝ}

/-- `A` is `a` up to a relative error `α` and an absolute error `β`. -/
def Ap (α β a A : ℝ) : Prop := |A - a| ≤ α * |a| + β

variable {α β γ δ a b A B : ℝ}

theorem Ap.mono (h : Ap α β a A) (h1 : α ≤ γ) (h2 : β ≤ δ) : Ap γ δ a A :=
  le_trans h (add_le_add (mul_le_mul_of_nonneg_right h1 (abs_nonneg a)) h2)

theorem Ap.rnd (hr : Nearest p emin rd) (hp : 1 ≤ p) (h : Ap α β a A) :
    Ap (α + (2 ^ p)⁻¹ + α * (2 ^ p)⁻¹) ((1 + (2 ^ p)⁻¹) * β + 2 ^ emin / 2) a (rd A) := by
  have e := hr.error hp A
  have t := abs_sub_le (rd A) A a
  have u0 : (0 : ℝ) < (2 ^ p)⁻¹ := by positivity
  have s : |A| ≤ |a| + |A - a| := by linarith [abs_sub_abs_le_abs_sub A a]
  have h' : |A - a| ≤ α * |a| + β := h
  show |rd A - a| ≤ _
  generalize (2 ^ p : ℝ)⁻¹ = u at *
  have := mul_le_mul_of_nonneg_left s u0.le
  have := mul_le_mul_of_nonneg_left h' u0.le
  nlinarith

theorem Ap.rndGrid (hr : Nearest p emin rd) (hp : 1 ≤ p) (h : Ap α β a A) (hg : OnGrid emin A) :
    Ap (α + (2 ^ p)⁻¹ + α * (2 ^ p)⁻¹) ((1 + (2 ^ p)⁻¹) * β) a (rd A) := by
  have e := hr.rel_error hp hg
  have t := abs_sub_le (rd A) A a
  have u0 : (0 : ℝ) < (2 ^ p)⁻¹ := by positivity
  have s : |A| ≤ |a| + |A - a| := by linarith [abs_sub_abs_le_abs_sub A a]
  have h' : |A - a| ≤ α * |a| + β := h
  show |rd A - a| ≤ _
  generalize (2 ^ p : ℝ)⁻¹ = u at *
  have := mul_le_mul_of_nonneg_left s u0.le
  have := mul_le_mul_of_nonneg_left h' u0.le
  nlinarith

theorem Ap.mul (h : Ap α β a A) (h' : Ap γ δ b B) (hα : 0 ≤ α) (hβ : 0 ≤ β) (hγ : 0 ≤ γ) (hδ : 0 ≤ δ) {M N : ℝ} (ha : |a| ≤ M) (hb : |b| ≤ N) :
    Ap (α + γ + α * γ) ((1 + α) * δ * M + β * ((1 + γ) * N + δ)) (a * b) (A * B) := by
  have h1 : |A - a| ≤ α * |a| + β := h
  have h2 : |B - b| ≤ γ * |b| + δ := h'
  show |A * B - a * b| ≤ _
  have e : A * B - a * b = (A - a) * B + a * (B - b) := by ring
  have s : |B| ≤ |b| + |B - b| := by linarith [abs_sub_abs_le_abs_sub B b]
  have t : |A * B - a * b| ≤ |A - a| * |B| + |a| * |B - b| := by
    rw [e, ← abs_mul, ← abs_mul]; exact abs_add_le _ _
  have a0 := abs_nonneg a
  have b0 := abs_nonneg b
  have B0 := abs_nonneg B
  rw [abs_mul]
  generalize |A - a| = x at *
  generalize |B - b| = y at *
  generalize |a| = a' at *
  generalize |b| = b' at *
  generalize |B| = B' at *
  calc _ ≤ _ := t
    _ ≤ (α * a' + β) * ((1 + γ) * b' + δ) + a' * (γ * b' + δ) := by
        apply add_le_add
        · exact mul_le_mul h1 (by linarith) B0 (by positivity)
        · exact mul_le_mul_of_nonneg_left h2 a0
    _ = (α + γ + α * γ) * (a' * b') + (1 + α) * δ * a' + β * ((1 + γ) * b' + δ) := by ring
    _ ≤ (α + γ + α * γ) * (a' * b') + (1 + α) * δ * M + β * ((1 + γ) * N + δ) := by
        have := mul_le_mul_of_nonneg_left ha (show 0 ≤ (1 + α) * δ by positivity)
        have := mul_le_mul_of_nonneg_left hb (show 0 ≤ β * (1 + γ) by positivity)
        nlinarith
    _ = _ := by ring

theorem diff_ap (hr : Nearest p emin rd) (hp : 1 ≤ p) {s n : ℝ} (fs : IsFloat p emin s) (fn : IsFloat p emin n) :
    Ap (2 ^ p)⁻¹ 0 (s - n) (rd (s - n)) := by
  have := hr.rel_error hp (fs.grid.sub fn.grid)
  show _ ≤ _
  linarith

/-- C100: semivar_linear. -/
theorem C100_linear_accuracy (hr : Nearest p emin rd) (hp : 8 ≤ p) (h n s r : ℝ) (fn : IsFloat p emin n) (fs : IsFloat p emin s)
    (hr0 : 0 < r) (h0 : 0 ≤ h) (hh : h ≤ r) :
    let f := n + (s - n) / r * h
    |semivarLinearR rd h n s r - f| ≤ (2 ^ p)⁻¹ * |f| + 3.2 * (2 ^ p)⁻¹ * |f - n| + 0.7 * (h + 1) * 2 ^ emin := by
  intro f
  obtain ⟨u0, u1⟩ := u_small hp
  have η0 := two_zpow_pos (K := ℝ) emin
  have a1 := diff_ap hr (by omega) fs fn
  have a2 : Ap (2 ^ p)⁻¹ 0 ((s - n) / r) (rd (s - n) / r) := by
    have : |rd (s - n) - (s - n)| ≤ (2 ^ p)⁻¹ * |s - n| + 0 := a1
    show |rd (s - n) / r - (s - n) / r| ≤ _
    rw [← sub_div, abs_div, abs_div, abs_of_pos hr0, div_le_iff₀ hr0]
    rw [add_zero] at this ⊢
    calc _ ≤ _ := this
      _ = _ := by field_simp
  have a3 := a2.rnd hr (by omega)
  have a4 : Ap (2.01 * (2 ^ p)⁻¹) (2 ^ emin / 2 * h) ((s - n) / r * h) (rd (rd (s - n) / r) * h) := by
    have a3' : |rd (rd (s - n) / r) - (s - n) / r| ≤ _ := a3
    show |rd (rd (s - n) / r) * h - (s - n) / r * h| ≤ _
    rw [← sub_mul, abs_mul, abs_mul ((s - n) / r), abs_of_nonneg h0]
    have := mul_le_mul_of_nonneg_right a3' h0
    refine this.trans ?_
    have k := mul_nonneg (abs_nonneg ((s - n) / r)) h0
    generalize (2 ^ p : ℝ)⁻¹ = u at *
    generalize |(s - n) / r| = t at *
    have k2 := mul_nonneg u0.le k
    have k3 := mul_le_mul_of_nonneg_right u1 k2
    clear * - k k2 k3
    nlinarith
  have a5 := a4.rnd hr (by omega)
  have e1 : |rd (rd (rd (s - n) / r) * h) - (s - n) / r * h| ≤ _ := a5
  have e2 := hr.rel_error (z := n + rd (rd (rd (s - n) / r) * h)) (by omega) (fn.grid.add (hr _).1.grid)
  unfold semivarLinearR
  rw [if_neg (by linarith)]
  have fe : f - n = (s - n) / r * h := by simp only [f]; ring
  show |rd (n + rd (rd (rd (s - n) / r) * h)) - f| ≤ _
  rw [← fe] at e1
  have ef : n + rd (rd (rd (s - n) / r) * h) - f = rd (rd (rd (s - n) / r) * h) - (f - n) := by ring
  have t := abs_sub_le (rd (n + rd (rd (rd (s - n) / r) * h))) (n + rd (rd (rd (s - n) / r) * h)) f
  have t2 := abs_sub_abs_le_abs_sub (n + rd (rd (rd (s - n) / r) * h)) f
  rw [ef] at t t2
  generalize rd (n + rd (rd (rd (s - n) / r) * h)) = V at *
  generalize |rd (rd (rd (s - n) / r) * h) - (f - n)| = E at *
  generalize |n + rd (rd (rd (s - n) / r) * h)| = X at *
  have T0 := abs_nonneg (f - n)
  have F0 := abs_nonneg f
  generalize |f - n| = T at *
  generalize |f| = F at *
  generalize (2 ^ p : ℝ)⁻¹ = u at *
  generalize (2 : ℝ) ^ emin = η at *
  generalize |V - f| = G at *
  generalize |V - (n + rd (rd (rd (s - n) / r) * h))| = H at *
  clear * - e1 e2 t t2 T0 F0 u0 u1 η0 h0
  have i1 : u * T * u ≤ 1 / 256 * (u * T) := by nlinarith [mul_nonneg u0.le T0]
  have i2 : u * (η * h) ≤ 1 / 256 * (η * h) := mul_le_mul_of_nonneg_right u1 (by positivity)
  have i3 : u * η ≤ 1 / 256 * η := mul_le_mul_of_nonneg_right u1 η0.le
  have e1' : E ≤ 3.05 * (u * T) + 0.55 * (η * h) + η / 2 := by nlinarith
  have i4 := mul_le_mul_of_nonneg_left t2 u0.le
  have i5 := mul_le_mul_of_nonneg_left e1' u0.le
  nlinarith [mul_nonneg u0.le T0, mul_nonneg η0.le h0]

/-- Adding the nugget and converting to the element type. -/
theorem final_ap (hT : Nearest p emin rT) (hD : Nearest P Emin rD) (hp : 8 ≤ p) (hP : p ≤ P) (hE : Emin ≤ emin) {n c t : ℝ}
    (fn : IsFloat p emin n) (fc : IsFloat P Emin c) (hc : Ap α β t c) :
    |rT (rD (n + c)) - (n + t)| ≤ 2.01 * (2 ^ p)⁻¹ * |n + t| + 1.01 * (α * |t| + β) + 2 ^ emin / 2 := by
  obtain ⟨u0, u1⟩ := u_small hp
  have uU : ((2 : ℝ) ^ P)⁻¹ ≤ (2 ^ p)⁻¹ := U_le hP
  have U0 : (0 : ℝ) < (2 ^ P)⁻¹ := by positivity
  have e1 := hD.rel_error (z := n + c) (by omega) ((isFloat_widen hP hE fn).grid.add fc.grid)
  have e2 := hT.error (by omega) (rD (n + c))
  have hc' : |c - t| ≤ α * |t| + β := hc
  have t1 : |n + c| ≤ |n + t| + |c - t| := by
    have := abs_sub_abs_le_abs_sub (n + c) (n + t)
    rw [show n + c - (n + t) = c - t by ring] at this
    linarith
  have t2 : |rD (n + c)| ≤ |n + c| + |rD (n + c) - (n + c)| := by linarith [abs_sub_abs_le_abs_sub (rD (n + c)) (n + c)]
  have t3 := abs_sub_le (rT (rD (n + c))) (rD (n + c)) (n + t)
  have t4 := abs_sub_le (rD (n + c)) (n + c) (n + t)
  rw [show n + c - (n + t) = c - t by ring] at t4
  have f0 := abs_nonneg (n + t)
  have x0 := abs_nonneg (n + c)
  have c0 := abs_nonneg (c - t)
  generalize α * |t| + β = Q at *
  generalize |n + t| = F at *
  generalize |n + c| = X at *
  generalize |c - t| = E at *
  generalize |rD (n + c) - (n + c)| = K at *
  generalize |rD (n + c)| = L at *
  generalize |rD (n + c) - (n + t)| = I at *
  generalize |rT (rD (n + c)) - rD (n + c)| = J at *
  generalize |rT (rD (n + c)) - (n + t)| = R at *
  generalize (2 ^ p : ℝ)⁻¹ = u at *
  generalize (2 ^ P : ℝ)⁻¹ = U at *
  generalize (2 : ℝ) ^ emin = η at *
  have k1 : K ≤ u * X := e1.trans (mul_le_mul_of_nonneg_right uU x0)
  have k2 := mul_le_mul_of_nonneg_left t2 u0.le
  have k3 := mul_le_mul_of_nonneg_left k1 u0.le
  have k4 : u * (u * X) ≤ 1 / 256 * (u * X) := mul_le_mul_of_nonneg_right u1 (by positivity)
  have k5 := mul_le_mul_of_nonneg_left t1 u0.le
  have k6 : u * E ≤ 1 / 256 * E := mul_le_mul_of_nonneg_right u1 c0
  clear * - e2 t3 t4 k1 k2 k3 k4 k5 k6 hc' c0 u0 f0
  nlinarith

/-- The quotient `h / range`. -/
theorem hor_ap (hr : Nearest p emin rd) (hp : 1 ≤ p) (he : emin ≤ 0) {h r : ℝ} (hr0 : 0 < r) (h0 : 0 ≤ h) (hh : h ≤ r) :
    Ap (2 ^ p)⁻¹ (2 ^ emin / 2) (h / r) (rd (h / r)) ∧ 0 ≤ h / r ∧ h / r ≤ 1 ∧ 0 ≤ rd (h / r) ∧ rd (h / r) ≤ 1 := by
  have q0 : 0 ≤ h / r := by positivity
  have q1 : h / r ≤ 1 := by rw [div_le_one hr0]; exact hh
  exact ⟨hr.error hp _, q0, q1, hr.mono_float isFloat_zero q0, hr.mono_float' (isFloat_one hp he) q1⟩

/-- C100: semivar_parabolic. -/
theorem C100_parabolic_accuracy (hT : Nearest p emin rT) (hD : Nearest P Emin rD) (hp : 8 ≤ p) (hP : p ≤ P) (hE : Emin ≤ emin) (he : emin ≤ -10)
    (h n s r : ℝ) (fn : IsFloat p emin n) (fs : IsFloat p emin s) (hr0 : 0 < r) (h0 : 0 ≤ h) (hh : h ≤ r) :
    let f := n + (s - n) * (h / r) * (2 - h / r)
    |semivarParabolicR rT rD h n s r - f| ≤
      2.01 * (2 ^ p)⁻¹ * |f| + 6.3 * (2 ^ p)⁻¹ * |f - n| + (2.5 * |s - n| + 2.5) * 2 ^ emin := by
  intro f
  obtain ⟨u0, u1⟩ := u_small hp
  obtain ⟨η0, η1⟩ := η_small he
  have uU : ((2 : ℝ) ^ P)⁻¹ ≤ (2 ^ p)⁻¹ := U_le hP
  have U0 : (0 : ℝ) < (2 ^ P)⁻¹ := by positivity
  have H0 := two_zpow_pos (K := ℝ) Emin
  have Hη : (2 : ℝ) ^ Emin ≤ 2 ^ emin := H_le hE
  obtain ⟨a2, q0, q1, k0, k1⟩ := hor_ap hT (by omega) (by omega) hr0 h0 hh
  have a1 := diff_ap hT (by omega) fs fn
  have d0 := abs_nonneg (s - n)
  have uu : (2 ^ p : ℝ)⁻¹ * (2 ^ p)⁻¹ ≤ 1 / 256 * (2 ^ p)⁻¹ := mul_le_mul_of_nonneg_right u1 u0.le
  have a3 : Ap (3.02 * (2 ^ p)⁻¹) ((0.51 * |s - n| + 0.5) * 2 ^ emin) ((s - n) * (h / r)) (rT (rT (s - n) * rT (h / r))) := by
    refine ((a1.mul a2 u0.le le_rfl u0.le (by positivity) le_rfl (le_of_eq (abs_of_nonneg q0))).rnd hT (by omega)).mono ?_ ?_
    · generalize (2 ^ p : ℝ)⁻¹ = u at *
      nlinarith
    · generalize (2 ^ p : ℝ)⁻¹ = u at *
      generalize |s - n| = d at *
      generalize (2 : ℝ) ^ emin = η at *
      have := mul_nonneg d0 η0.le
      have := mul_le_mul_of_nonneg_right u1 this
      have := mul_le_mul_of_nonneg_right uu (mul_nonneg d0 η0.le)
      nlinarith
  have a4 : Ap (2.02 * (2 ^ p)⁻¹) (1.1 * 2 ^ emin) (2 - h / r) (rD (2 - rT (h / r))) := by
    have : Ap (2 ^ p)⁻¹ (2 ^ emin / 2) (2 - h / r) (2 - rT (h / r)) := by
      have a2' : |rT (h / r) - h / r| ≤ (2 ^ p)⁻¹ * |h / r| + 2 ^ emin / 2 := a2
      show |2 - rT (h / r) - (2 - h / r)| ≤ _
      rw [show 2 - rT (h / r) - (2 - h / r) = -(rT (h / r) - h / r) by ring, abs_neg]
      rw [abs_of_nonneg q0] at a2'
      rw [abs_of_nonneg (show 0 ≤ 2 - h / r by linarith)]
      nlinarith
    refine (this.rnd hD (by omega)).mono ?_ ?_
    · have := mul_le_mul_of_nonneg_left uU u0.le
      linarith
    · have := mul_le_mul_of_nonneg_right uU η0.le
      have := mul_le_mul_of_nonneg_right u1 η0.le
      linarith
  have a5 : Ap (6.2 * (2 ^ p)⁻¹) ((2.4 * |s - n| + 1.7) * 2 ^ emin) ((s - n) * (h / r) * (2 - h / r))
      (rD (rT (rT (s - n) * rT (h / r)) * rD (2 - rT (h / r)))) := by
    have ma : |(s - n) * (h / r)| ≤ |s - n| := by
      rw [abs_mul, abs_of_nonneg q0]; exact mul_le_of_le_one_right d0 q1
    have mb : |2 - h / r| ≤ 2 := by rw [abs_of_nonneg (by linarith)]; linarith
    refine ((a3.mul a4 (by positivity) (by positivity) (by positivity) (by positivity) ma mb).rnd hD (by omega)).mono ?_ ?_
    · generalize (2 ^ p : ℝ)⁻¹ = u at *
      generalize (2 ^ P : ℝ)⁻¹ = U at *
      have := mul_le_mul_of_nonneg_left uU u0.le
      have := mul_le_mul_of_nonneg_left uu u0.le
      have := mul_le_mul_of_nonneg_left uU (mul_nonneg u0.le u0.le)
      nlinarith
    · generalize (2 ^ p : ℝ)⁻¹ = u at *
      generalize (2 ^ P : ℝ)⁻¹ = U at *
      generalize |s - n| = d at *
      generalize (2 : ℝ) ^ emin = η at *
      generalize (2 : ℝ) ^ Emin = Η at *
      have w0 := mul_nonneg d0 η0.le
      have b1 : (1 + 3.02 * u) * (1.1 * η) * d + (0.51 * d + 0.5) * η * ((1 + 2.02 * u) * 2 + 1.1 * η) ≤ 2.23 * (d * η) + 1.05 * η := by
        have c1 := mul_le_mul_of_nonneg_right u1 w0
        have c2 : (1 + 2.02 * u) * 2 + 1.1 * η ≤ 2.02 := by linarith
        have c3 := mul_le_mul_of_nonneg_left c2 (show 0 ≤ (0.51 * d + 0.5) * η by positivity)
        nlinarith
      have b2 : (1 + U) ≤ 1.004 := by linarith
      have b3 := mul_le_mul b2 b1 (by positivity) (by norm_num)
      nlinarith
  have e := final_ap hT hD hp hP hE fn (hD _).1 a5
  unfold semivarParabolicR
  rw [if_neg (by linarith)]
  have fe : f - n = (s - n) * (h / r) * (2 - h / r) := by simp only [f]; ring
  rw [fe]
  refine e.trans ?_
  have := abs_nonneg ((s - n) * (h / r) * (2 - h / r))
  show 2.01 * (2 ^ p)⁻¹ * |f| + _ + _ ≤ _
  generalize |(s - n) * (h / r) * (2 - h / r)| = T at *
  generalize |s - n| = d at *
  generalize (2 : ℝ) ^ emin = η at *
  generalize (2 ^ p : ℝ)⁻¹ = u at *
  have := mul_nonneg u0.le this
  have := mul_nonneg d0 η0.le
  nlinarith

set_option maxHeartbeats 1000000 in
/-- C100: semivar_spherical. -/
theorem C100_spherical_accuracy (hT : Nearest p emin rT) (hD : Nearest P Emin rD) (hp : 8 ≤ p) (hP : p ≤ P) (hE : Emin ≤ emin) (he : emin ≤ -10)
    (h n s r : ℝ) (fn : IsFloat p emin n) (fs : IsFloat p emin s) (hr0 : 0 < r) (h0 : 0 ≤ h) (hh : h ≤ r) :
    let f := n + (s - n) * (3 / 2 * (h / r) - 1 / 2 * (h / r) ^ 3)
    |semivarSphericalR rT rD h n s r - f| ≤
      2.01 * (2 ^ p)⁻¹ * |f| + 8.2 * (2 ^ p)⁻¹ * |f - n| + (4.5 * |s - n| + 3) * 2 ^ emin := by
  intro f
  obtain ⟨u0, u1⟩ := u_small hp
  obtain ⟨η0, η1⟩ := η_small he
  have uU : ((2 : ℝ) ^ P)⁻¹ ≤ (2 ^ p)⁻¹ := U_le hP
  have U0 : (0 : ℝ) < (2 ^ P)⁻¹ := by positivity
  have H0 := two_zpow_pos (K := ℝ) Emin
  have Hη : (2 : ℝ) ^ Emin ≤ 2 ^ emin := H_le hE
  obtain ⟨a2, q0, q1, k0, k1⟩ := hor_ap hT (by omega) (by omega) hr0 h0 hh
  have a1 := diff_ap hT (by omega) fs fn
  have d0 := abs_nonneg (s - n)
  have uu : (2 ^ p : ℝ)⁻¹ * (2 ^ p)⁻¹ ≤ 1 / 256 * (2 ^ p)⁻¹ := mul_le_mul_of_nonneg_right u1 u0.le
  have uη : (2 ^ p : ℝ)⁻¹ * 2 ^ emin ≤ 1 / 256 * 2 ^ emin := mul_le_mul_of_nonneg_right u1 η0.le
  have Uη := mul_le_mul_of_nonneg_right uU η0.le
  have uU2 := mul_le_mul_of_nonneg_left uU u0.le
  have a3 : Ap (2.01 * (2 ^ p)⁻¹) (0.8 * 2 ^ emin) (h / r / 2) (rD (rT (h / r) / 2)) := by
    have : Ap (2 ^ p)⁻¹ (2 ^ emin / 4) (h / r / 2) (rT (h / r) / 2) := by
      have a2' : |rT (h / r) - h / r| ≤ (2 ^ p)⁻¹ * |h / r| + 2 ^ emin / 2 := a2
      show |rT (h / r) / 2 - h / r / 2| ≤ _
      rw [← sub_div, abs_div, abs_div (h / r), abs_of_pos (by norm_num : (0 : ℝ) < 2)]
      linarith
    refine (this.rnd hD (by omega)).mono ?_ ?_ <;> linarith
  have a4 : Ap (4.1 * (2 ^ p)⁻¹) ((0.82 * |s - n| + 0.5) * 2 ^ emin) ((s - n) * (h / r / 2)) (rD (rT (s - n) * rD (rT (h / r) / 2))) := by
    refine ((a1.mul a3 u0.le le_rfl (by positivity) (by positivity) le_rfl (le_of_eq (abs_of_nonneg (by positivity)))).rnd hD (by omega)).mono ?_ ?_
    · generalize (2 ^ p : ℝ)⁻¹ = u at *
      generalize (2 ^ P : ℝ)⁻¹ = U at *
      have := mul_le_mul_of_nonneg_left uU (mul_nonneg u0.le u0.le)
      have := mul_le_mul_of_nonneg_left uu u0.le
      nlinarith
    · generalize (2 ^ p : ℝ)⁻¹ = u at *
      generalize (2 ^ P : ℝ)⁻¹ = U at *
      generalize |s - n| = d at *
      generalize (2 : ℝ) ^ emin = η at *
      generalize (2 : ℝ) ^ Emin = Η at *
      have w0 := mul_nonneg d0 η0.le
      have c1 := mul_le_mul_of_nonneg_right u1 w0
      have b1 : (1 + u) * (0.8 * η) * d ≤ 0.805 * (d * η) := by nlinarith
      have b2 : (1 + U) ≤ 1.004 := by linarith
      have b3 := mul_le_mul b2 b1 (by positivity) (by norm_num)
      nlinarith
  have a5 : Ap (3.04 * (2 ^ p)⁻¹) (1.7 * 2 ^ emin) (h / r * (h / r)) (rT (rT (h / r) * rT (h / r))) := by
    refine ((a2.mul a2 (M := 1) (N := 1) u0.le (by positivity) u0.le (by positivity) (by rw [abs_of_nonneg q0]; exact q1) (by rw [abs_of_nonneg q0]; exact q1)).rnd hT (by omega)).mono ?_ ?_
    · generalize (2 ^ p : ℝ)⁻¹ = u at *
      have := mul_le_mul_of_nonneg_left uu u0.le
      nlinarith
    · generalize (2 ^ p : ℝ)⁻¹ = u at *
      generalize (2 : ℝ) ^ emin = η at *
      have b1 : (1 + u) * (η / 2) * 1 + η / 2 * ((1 + u) * 1 + η / 2) ≤ 1.01 * η := by
        have := mul_le_mul_of_nonneg_left η1 η0.le
        nlinarith
      have b3 := mul_le_mul (show 1 + u ≤ 1.004 by linarith) b1 (by positivity) (by norm_num)
      linarith
  have a6 : Ap (2.6 * (2 ^ p)⁻¹) (2.3 * 2 ^ emin) (3 - h / r * (h / r)) (rD (3 - rT (rT (h / r) * rT (h / r)))) := by
    have qq : h / r * (h / r) ≤ 1 := mul_le_one₀ q1 q0 q1
    have : Ap (1.52 * (2 ^ p)⁻¹) (1.7 * 2 ^ emin) (3 - h / r * (h / r)) (3 - rT (rT (h / r) * rT (h / r))) := by
      have a5' : |rT (rT (h / r) * rT (h / r)) - h / r * (h / r)| ≤ _ := a5
      show |3 - rT (rT (h / r) * rT (h / r)) - (3 - h / r * (h / r))| ≤ _
      rw [show 3 - rT (rT (h / r) * rT (h / r)) - (3 - h / r * (h / r)) = -(rT (rT (h / r) * rT (h / r)) - h / r * (h / r)) by ring, abs_neg]
      have z0 : 0 ≤ h / r * (h / r) := mul_nonneg q0 q0
      rw [abs_of_nonneg z0] at a5'
      rw [abs_of_nonneg (show 0 ≤ 3 - h / r * (h / r) by linarith)]
      generalize h / r * (h / r) = z at *
      nlinarith
    refine (this.rnd hD (by omega)).mono ?_ ?_ <;> linarith
  have te : (s - n) * (3 / 2 * (h / r) - 1 / 2 * (h / r) ^ 3) = (s - n) * (h / r / 2) * (3 - h / r * (h / r)) := by ring
  have a7 : Ap (8.1 * (2 ^ p)⁻¹) ((4.4 * |s - n| + 2.3) * 2 ^ emin) ((s - n) * (h / r / 2) * (3 - h / r * (h / r)))
      (rD (rD (rT (s - n) * rD (rT (h / r) / 2)) * rD (3 - rT (rT (h / r) * rT (h / r))))) := by
    have ma : |(s - n) * (h / r / 2)| ≤ |s - n| * (1 / 2) := by
      rw [abs_mul, abs_of_nonneg (by positivity : 0 ≤ h / r / 2)]; exact mul_le_mul_of_nonneg_left (by linarith) d0
    have qq : h / r * (h / r) ≤ 1 := mul_le_one₀ q1 q0 q1
    have mb : |3 - h / r * (h / r)| ≤ 3 := by
      rw [abs_of_nonneg (by linarith)]; linarith [mul_nonneg q0 q0]
    refine ((a4.mul a6 (by positivity) (by positivity) (by positivity) (by positivity) ma mb).rnd hD (by omega)).mono ?_ ?_
    · generalize (2 ^ p : ℝ)⁻¹ = u at *
      generalize (2 ^ P : ℝ)⁻¹ = U at *
      have := mul_le_mul_of_nonneg_left uu u0.le
      have := mul_le_mul_of_nonneg_left uU (mul_nonneg u0.le u0.le)
      nlinarith
    · generalize (2 ^ p : ℝ)⁻¹ = u at *
      generalize (2 ^ P : ℝ)⁻¹ = U at *
      generalize |s - n| = d at *
      generalize (2 : ℝ) ^ emin = η at *
      generalize (2 : ℝ) ^ Emin = Η at *
      have w0 := mul_nonneg d0 η0.le
      have b1 : (1 + 4.1 * u) * (2.3 * η) * (d * (1 / 2)) + (0.82 * d + 0.5) * η * ((1 + 2.6 * u) * 3 + 2.3 * η) ≤ 3.75 * (d * η) + 1.7 * η := by
        have c1 := mul_le_mul_of_nonneg_right u1 w0
        have c2 : (1 + 2.6 * u) * 3 + 2.3 * η ≤ 3.04 := by linarith
        have c3 := mul_le_mul_of_nonneg_left c2 (show 0 ≤ (0.82 * d + 0.5) * η by positivity)
        nlinarith
      have b2 : (1 + U) ≤ 1.004 := by linarith
      have b3 := mul_le_mul b2 b1 (by positivity) (by norm_num)
      nlinarith
  have e := final_ap hT hD hp hP hE fn (hD _).1 a7
  unfold semivarSphericalR
  rw [if_neg (by linarith)]
  have fe : f - n = (s - n) * (h / r / 2) * (3 - h / r * (h / r)) := by rw [← te]; simp only [f]; ring
  have ff : f = n + (s - n) * (h / r / 2) * (3 - h / r * (h / r)) := by linarith
  rw [fe, ff]
  refine e.trans ?_
  have := abs_nonneg ((s - n) * (h / r / 2) * (3 - h / r * (h / r)))
  generalize |(s - n) * (h / r / 2) * (3 - h / r * (h / r))| = T at *
  generalize |s - n| = d at *
  generalize (2 : ℝ) ^ emin = η at *
  generalize (2 ^ p : ℝ)⁻¹ = u at *
  have := mul_nonneg u0.le this
  have := mul_nonneg d0 η0.le
  nlinarith

/-- The exponential of the computed exponent. -/
theorem semi_exp (hr : Nearest p emin rd) (hex : GoodExp emin ε ex) (hp : 8 ≤ p) (he : emin ≤ -10) (hε0 : 0 ≤ ε) (hε : ε ≤ 1 / 1000)
    {h r : ℝ} (fh : IsFloat p emin h) (hr0 : 0 < r) (h0 : 0 ≤ h) :
    |ex (rd (rd (-3 * h) / r)) - exp (-3 * h / r)| ≤ 0.85 * (2 ^ p)⁻¹ + 1.01 * ε + 1.6 * 2 ^ emin := by
  obtain ⟨u0, u1⟩ := u_small hp
  obtain ⟨η0, η1⟩ := η_small he
  have g : OnGrid emin (-3 * h) := by
    obtain ⟨m, hm⟩ := fh.grid
    exact ⟨-3 * m, by rw [hm]; push_cast; ring⟩
  have y0 : 0 ≤ 3 * h / r := by positivity
  obtain ⟨y, hy⟩ : ∃ y, y = 3 * h / r := ⟨_, rfl⟩
  have ye : -3 * h / r = -y := by rw [hy]; ring
  rw [← hy] at y0
  have a1 : Ap (2 ^ p)⁻¹ 0 (-y) (rd (-3 * h) / r) := by
    have := hr.rel_error (by omega : 1 ≤ p) g
    show |rd (-3 * h) / r - -y| ≤ _
    rw [← ye, ← sub_div, abs_div, abs_div (-3 * h), abs_of_pos hr0, add_zero, div_le_iff₀ hr0]
    calc _ ≤ _ := this
      _ = _ := by field_simp
  have a2 : |rd (rd (-3 * h) / r) - -y| ≤ _ := a1.rnd hr (by omega)
  rw [abs_neg, abs_of_nonneg y0, mul_zero, zero_add] at a2
  have a3 : |rd (rd (-3 * h) / r) - -y| ≤ 2.01 * (2 ^ p)⁻¹ * y + 2 ^ emin / 2 := by
    refine a2.trans ?_
    have : (2 ^ p : ℝ)⁻¹ * (2 ^ p)⁻¹ ≤ 1 / 256 * (2 ^ p)⁻¹ := mul_le_mul_of_nonneg_right u1 u0.le
    have := mul_le_mul_of_nonneg_right this y0
    have := mul_nonneg u0.le y0
    nlinarith
  have Y0 : rd (rd (-3 * h) / r) ≤ 0 := by
    apply hr.mono_float' isFloat_zero
    apply div_nonpos_of_nonpos_of_nonneg _ hr0.le
    exact hr.mono_float' isFloat_zero (by linarith)
  rw [ye]
  have e1 := hex.error (rd (rd (-3 * h) / r))
  generalize rd (rd (-3 * h) / r) = Y at *
  have e2 : |exp Y - exp (-y)| ≤ 0.84 * (2 ^ p)⁻¹ + 0.55 * 2 ^ emin := by
    have a3' := abs_le.1 a3
    have top : Y ≤ -(0.97 * y) + 2 ^ emin / 2 := by
      have := mul_le_mul_of_nonneg_right u1 y0
      linarith [a3'.2]
    have M : exp Y ≤ 1.001 * exp (-(0.97 * y)) ∧ exp (-y) ≤ 1.001 * exp (-(0.97 * y)) := by
      constructor
      · calc exp Y ≤ exp (-(0.97 * y) + 2 ^ emin / 2) := exp_le_exp.2 top
          _ = exp (2 ^ emin / 2) * exp (-(0.97 * y)) := by rw [exp_add, mul_comm]
          _ ≤ 1.001 * exp (-(0.97 * y)) := by
            apply mul_le_mul_of_nonneg_right _ (exp_pos _).le
            have := abs_exp_sub_one_sub_id_le (x := (2 : ℝ) ^ emin / 2) (by rw [abs_of_pos (by positivity)]; linarith)
            have := (abs_le.1 this).2
            generalize (2 : ℝ) ^ emin = η at *
            nlinarith
      · have : exp (-y) ≤ exp (-(0.97 * y)) := exp_le_exp.2 (by linarith)
        linarith [exp_pos (-(0.97 * y))]
    have lip : |exp Y - exp (-y)| ≤ |Y - -y| * (1.001 * exp (-(0.97 * y))) := by
      have L : ∀ a b : ℝ, a ≤ b → exp b - exp a ≤ (b - a) * exp b := by
        intro a b _
        have := add_one_le_exp (a - b)
        have h2 := mul_le_mul_of_nonneg_right this (exp_pos b).le
        rw [← exp_add, sub_add_cancel] at h2
        linarith
      rcases le_total Y (-y) with hc | hc
      · rw [abs_of_nonpos (by linarith [exp_le_exp.2 hc]), abs_of_nonpos (by linarith)]
        have := L _ _ hc
        have := mul_le_mul_of_nonneg_left M.2 (show 0 ≤ -y - Y by linarith)
        linarith
      · rw [abs_of_nonneg (by linarith [exp_le_exp.2 hc]), abs_of_nonneg (by linarith)]
        have := L _ _ hc
        have := mul_le_mul_of_nonneg_left M.1 (show 0 ≤ Y - -y by linarith)
        linarith
    have z1 : exp (-(0.97 * y)) ≤ 1 := exp_le_one_iff.2 (by linarith)
    have z2 : y * exp (-(0.97 * y)) ≤ 0.4 := by
      have b1 := add_one_le_exp (0.97 * y - 1)
      have b2 := mul_le_mul_of_nonneg_right b1 (exp_pos (-(0.97 * y))).le
      rw [← exp_add, show 0.97 * y - 1 + -(0.97 * y) = -1 by ring] at b2
      have b3 : exp (-1) < 0.3679 := by
        have := Real.exp_one_gt_d9
        rw [exp_neg, inv_lt_comm₀ (exp_pos 1) (by norm_num)]
        norm_num at *; linarith
      linarith
    have m := mul_le_mul_of_nonneg_right a3 (show 0 ≤ 1.001 * exp (-(0.97 * y)) by positivity)
    refine (lip.trans m).trans ?_
    have n1 := mul_le_mul_of_nonneg_left z2 (show 0 ≤ 2.01 * 1.001 * (2 ^ p : ℝ)⁻¹ by positivity)
    have n2 := mul_le_mul_of_nonneg_left z1 (show 0 ≤ 1.001 * ((2 : ℝ) ^ emin / 2) by positivity)
    linarith
  have e3 : exp Y ≤ 1 := exp_le_one_iff.2 Y0
  have t := abs_sub_le (ex Y) (exp Y) (exp (-y))
  have := mul_le_mul_of_nonneg_left e3 hε0
  linarith

/-- C100: semivar_exponential; the error is relative to `sill - nugget`, not to the increment. -/
theorem C100_exponential_accuracy (hr : Nearest p emin rd) (hex : GoodExp emin ε ex) (hp : 8 ≤ p) (he : emin ≤ -10) (hε0 : 0 ≤ ε) (hε : ε ≤ 1 / 1000)
    (h n s r : ℝ) (fh : IsFloat p emin h) (fn : IsFloat p emin n) (fs : IsFloat p emin s) (hr0 : 0 < r) (h0 : 0 ≤ h) :
    let f := n + (s - n) * (1 - exp (-3 * h / r))
    |semivarExponentialR rd ex h n s r - f| ≤ (2 ^ p)⁻¹ * |f| + (4.1 * (2 ^ p)⁻¹ + 1.1 * ε + 2.5 * 2 ^ emin) * |s - n| + 0.6 * 2 ^ emin := by
  intro f
  obtain ⟨u0, u1⟩ := u_small hp
  obtain ⟨η0, η1⟩ := η_small he
  have e1 := semi_exp hr hex hp he hε0 hε fh hr0 h0
  have E0 : 0 < exp (-3 * h / r) := exp_pos _
  have E1 : exp (-3 * h / r) ≤ 1 := exp_le_one_iff.2 (by
    have : 0 ≤ h / r := by positivity
    have e : -3 * h / r = -3 * (h / r) := by ring
    linarith)
  have a1 := diff_ap hr (by omega) fs fn
  have d0 := abs_nonneg (s - n)
  have uu : (2 ^ p : ℝ)⁻¹ * (2 ^ p)⁻¹ ≤ 1 / 256 * (2 ^ p)⁻¹ := mul_le_mul_of_nonneg_right u1 u0.le
  have a2 : Ap 0 (1.9 * (2 ^ p)⁻¹ + 1.02 * ε + 2.2 * 2 ^ emin) (1 - exp (-3 * h / r)) (rd (1 - ex (rd (rd (-3 * h) / r)))) := by
    have r1 := hr.error (by omega) (1 - ex (rd (rd (-3 * h) / r)))
    show |rd (1 - ex (rd (rd (-3 * h) / r))) - (1 - exp (-3 * h / r))| ≤ _
    generalize ex (rd (rd (-3 * h) / r)) = X at *
    generalize exp (-3 * h / r) = E at *
    have e1' := abs_le.1 e1
    have m : |1 - X| ≤ 1.01 := by rw [abs_le]; constructor <;> linarith [e1'.1, e1'.2]
    have m2 := mul_le_mul_of_nonneg_left m u0.le
    have t := abs_sub_le (rd (1 - X)) (1 - X) (1 - E)
    rw [show 1 - X - (1 - E) = -(X - E) by ring, abs_neg] at t
    linarith
  have mb : |1 - exp (-3 * h / r)| ≤ 1 := by rw [abs_le]; constructor <;> linarith
  have s0 : 0 ≤ 1.9 * (2 ^ p : ℝ)⁻¹ + 1.02 * ε + 2.2 * 2 ^ emin := by positivity
  have a3 := (a1.mul a2 u0.le le_rfl le_rfl s0 le_rfl mb).rnd hr (by omega)
  have a4 : |rd (rd (s - n) * rd (1 - ex (rd (rd (-3 * h) / r)))) - (s - n) * (1 - exp (-3 * h / r))| ≤
      (4.06 * (2 ^ p)⁻¹ + 1.05 * ε + 2.3 * 2 ^ emin) * |s - n| + 0.5 * 2 ^ emin := by
    have a3' : |rd (rd (s - n) * rd (1 - ex (rd (rd (-3 * h) / r)))) - (s - n) * (1 - exp (-3 * h / r))| ≤ _ := a3
    refine a3'.trans ?_
    rw [abs_mul]
    have m := mul_le_mul_of_nonneg_left mb d0
    generalize |1 - exp (-3 * h / r)| = X at *
    generalize |s - n| = d at *
    generalize (2 : ℝ) ^ emin = η at *
    generalize (2 ^ p : ℝ)⁻¹ = u at *
    have c1 : (u + 0 + u * 0 + u + (u + 0 + u * 0) * u) * (d * X) ≤ (2.01 * u) * d := by
      have := mul_le_mul_of_nonneg_left m (show 0 ≤ 2 * u + u * u by positivity)
      have := mul_le_mul_of_nonneg_right uu d0
      nlinarith
    have c2 : (1 + u) * ((1 + u) * (1.9 * u + 1.02 * ε + 2.2 * η) * d) ≤ 1.02 * ((1.9 * u + 1.02 * ε + 2.2 * η) * d) := by
      have : (1 + u) * (1 + u) ≤ 1.02 := by nlinarith
      have := mul_le_mul_of_nonneg_right this (mul_nonneg s0 d0)
      linarith
    have := mul_nonneg u0.le d0
    have := mul_nonneg hε0 d0
    have := mul_nonneg η0.le d0
    nlinarith
  have e2 := hr.rel_error (z := n + rd (rd (s - n) * rd (1 - ex (rd (rd (-3 * h) / r))))) (by omega) (fn.grid.add (hr _).1.grid)
  have fe : f = n + (s - n) * (1 - exp (-3 * h / r)) := rfl
  unfold semivarExponentialR
  rw [show rd (s - n) * rd (1 - ex (rd (rd (-3 * h) / r))) = rd (s - n) * rd (1 - ex (rd (rd (-3 * h) / r))) from rfl]
  generalize rd (rd (s - n) * rd (1 - ex (rd (rd (-3 * h) / r)))) = c at *
  generalize (s - n) * (1 - exp (-3 * h / r)) = t at *
  have t1 := abs_sub_le (rd (n + c)) (n + c) f
  have t2 := abs_sub_abs_le_abs_sub (n + c) f
  rw [show n + c - f = c - t by rw [fe]; ring] at t1 t2
  have c0 := abs_nonneg (c - t)
  have f0 := abs_nonneg f
  generalize |c - t| = E at *
  generalize |n + c| = X at *
  generalize |f| = F at *
  generalize |s - n| = d at *
  generalize (2 : ℝ) ^ emin = η at *
  generalize (2 ^ p : ℝ)⁻¹ = u at *
  have k1 := mul_le_mul_of_nonneg_left t2 u0.le
  have k2 : u * E ≤ 1 / 256 * E := mul_le_mul_of_nonneg_right u1 c0
  have k3 : E ≤ 4.06 * (u * d) + 1.05 * (ε * d) + 2.3 * (η * d) + 0.5 * η := by linarith
  have k4 := mul_nonneg u0.le d0
  have k5 := mul_nonneg hε0 d0
  have k6 := mul_nonneg η0.le d0
  have goal : |rd (n + c) - f| ≤ u * F + 1.004 * E := by linarith
  nlinarith

/-! ### Order -/

/-- C100: beyond the range the value is the sill; at 0 it is the nugget. -/
theorem C100_ends (hT : Nearest p emin rT) (hD : Nearest P Emin rD) (hP : p ≤ P) (hE : Emin ≤ emin) (h n s r : ℝ) (fn : IsFloat p emin n)
    (hr0 : 0 < r) (h1 : ex 0 = 1) :
    (r < h → semivarLinearR rT h n s r = s ∧ semivarSphericalR rT rD h n s r = s ∧ semivarParabolicR rT rD h n s r = s) ∧
    semivarLinearR rT 0 n s r = n ∧ semivarSphericalR rT rD 0 n s r = n ∧ semivarParabolicR rT rD 0 n s r = n ∧
    semivarExponentialR rT ex 0 n s r = n := by
  have z1 := hT.round_zero
  have z2 := hD.round_zero
  have e1 := hT.exact fn
  have e2 := hD.exact (isFloat_widen hP hE fn)
  refine ⟨fun hh => ⟨if_pos hh, if_pos hh, if_pos hh⟩, ?_, ?_, ?_, ?_⟩
  · unfold semivarLinearR
    rw [if_neg (by linarith)]
    simp only [mul_zero, z1, add_zero, e1]
  · unfold semivarSphericalR
    rw [if_neg (by linarith)]
    simp only [zero_div, z1, z2, mul_zero, zero_mul, add_zero, e1, e2]
  · unfold semivarParabolicR
    rw [if_neg (by linarith)]
    simp only [zero_div, z1, z2, mul_zero, zero_mul, add_zero, e1, e2]
  · unfold semivarExponentialR
    simp only [mul_zero, z1, zero_div, h1, sub_self, add_zero, e1]

/-- C100: at the range, spherical and parabolic return the sill if its difference from the nugget is exact. -/
theorem C100_at_range (hT : Nearest p emin rT) (hD : Nearest P Emin rD) (hp : 2 ≤ p) (hP : p ≤ P) (hE : Emin ≤ emin) (he : emin ≤ -1)
    (n s r : ℝ) (fs : IsFloat p emin s) (hr0 : 0 < r) (hd : IsFloat p emin (s - n)) :
    semivarParabolicR rT rD r n s r = s ∧ (IsFloat P Emin ((s - n) / 2) → semivarSphericalR rT rD r n s r = s) := by
  have one := hT.exact (isFloat_one (K := ℝ) (p := p) (by omega) (by omega : emin ≤ 0))
  have One := hD.exact (isFloat_one (K := ℝ) (p := P) (by omega) (by omega : Emin ≤ 0))
  have fs' := hD.exact (isFloat_widen hP hE fs)
  have fd := isFloat_widen hP hE hd
  constructor
  · unfold semivarParabolicR
    rw [if_neg (lt_irrefl r)]
    simp only [div_self hr0.ne', one, hT.exact hd, mul_one, show (2 : ℝ) - 1 = 1 by norm_num, One, hD.exact fd, add_sub_cancel, fs', hT.exact fs]
  · intro hh
    have two : IsFloat P Emin (2 : ℝ) := by simpa using isFloat_zpow (K := ℝ) (p := P) (by omega) (emin := Emin) (e := 1) (by omega)
    have half : IsFloat P Emin (1 / 2 : ℝ) := by
      have := isFloat_zpow (K := ℝ) (p := P) (by omega) (emin := Emin) (e := -1) (by omega)
      norm_num at this ⊢; exact this
    unfold semivarSphericalR
    rw [if_neg (lt_irrefl r)]
    simp only [div_self hr0.ne', one, hT.exact hd, mul_one, show (3 : ℝ) - 1 = 2 by norm_num, hD.exact two, hD.exact half]
    rw [mul_one_div, hD.exact hh, div_mul_cancel₀ _ (by norm_num : (2 : ℝ) ≠ 0), hD.exact fd, add_sub_cancel, fs', hT.exact fs]

/-- C100: with `nugget ≤ sill` no value is below the nugget. -/
theorem C100_lower (hT : Nearest p emin rT) (hD : Nearest P Emin rD) (hp : 2 ≤ p) (hP : p ≤ P) (hE : Emin ≤ emin) (he : emin ≤ 0)
    (h n s r : ℝ) (fn : IsFloat p emin n) (hns : n ≤ s) (hr0 : 0 < r) (h0 : 0 ≤ h) (hex : ∀ y ≤ 0, ex y ≤ 1) :
    n ≤ semivarLinearR rT h n s r ∧ n ≤ semivarSphericalR rT rD h n s r ∧ n ≤ semivarParabolicR rT rD h n s r ∧
    n ≤ semivarExponentialR rT ex h n s r := by
  have nn : ∀ z : ℝ, 0 ≤ z → 0 ≤ rT z := fun z hz => hT.mono_float isFloat_zero hz
  have NN : ∀ z : ℝ, 0 ≤ z → 0 ≤ rD z := fun z hz => hD.mono_float isFloat_zero hz
  have fin1 : ∀ z : ℝ, 0 ≤ z → n ≤ rT (n + z) := fun z hz => hT.mono_float fn (by linarith)
  have fin2 : ∀ z : ℝ, 0 ≤ z → n ≤ rT (rD (n + z)) := fun z hz =>
    hT.mono_float fn (hD.mono_float (isFloat_widen hP hE fn) (by linarith))
  have d0 := nn (s - n) (by linarith)
  have one1 : ∀ z : ℝ, z ≤ 1 → rT z ≤ 1 := fun z hz => hT.mono_float' (isFloat_one (by omega) he) hz
  refine ⟨?_, ?_, ?_, ?_⟩
  · unfold semivarLinearR
    split_ifs
    · exact hns
    · exact fin1 _ (nn _ (mul_nonneg (nn _ (by positivity)) h0))
  · unfold semivarSphericalR
    split_ifs with c
    · exact hns
    · have q0 := nn (h / r) (by positivity)
      have q1 := one1 (h / r) (by rw [div_le_one hr0]; linarith)
      have q2 := one1 (rT (h / r) * rT (h / r)) (mul_le_one₀ q1 q0 q1)
      exact fin2 _ (NN _ (mul_nonneg (NN _ (mul_nonneg d0 (NN _ (by linarith)))) (NN _ (by linarith))))
  · unfold semivarParabolicR
    split_ifs with c
    · exact hns
    · have q0 := nn (h / r) (by positivity)
      have q1 := one1 (h / r) (by rw [div_le_one hr0]; linarith)
      exact fin2 _ (NN _ (mul_nonneg (nn _ (mul_nonneg d0 q0)) (NN _ (by linarith))))
  · unfold semivarExponentialR
    refine fin1 _ (nn _ (mul_nonneg d0 (nn _ ?_)))
    have : rT (rT (-3 * h) / r) ≤ 0 := hT.mono_float' isFloat_zero
      (div_nonpos_of_nonpos_of_nonneg (hT.mono_float' isFloat_zero (by linarith)) hr0.le)
    linarith [hex _ this]

/-- C100: with `nugget ≤ sill`, linear is nondecreasing up to the range, and exponential everywhere if `exp` is. -/
theorem C100_monotone (hr : Nearest p emin rd) (n s r : ℝ) (hns : n ≤ s) (hr0 : 0 < r) (hm : Monotone ex) {h h' : ℝ} (h0 : 0 ≤ h) (hh : h ≤ h') :
    (h' ≤ r → semivarLinearR rd h n s r ≤ semivarLinearR rd h' n s r) ∧
    semivarExponentialR rd ex h n s r ≤ semivarExponentialR rd ex h' n s r := by
  have d0 : 0 ≤ rd (s - n) := hr.mono_float isFloat_zero (by linarith)
  constructor
  · intro hh'
    unfold semivarLinearR
    rw [if_neg (by linarith), if_neg (by linarith)]
    apply hr.monotone
    apply add_le_add_right
    apply hr.monotone
    exact mul_le_mul_of_nonneg_left hh (hr.mono_float isFloat_zero (by positivity))
  · unfold semivarExponentialR
    apply hr.monotone
    apply add_le_add_right
    apply hr.monotone
    apply mul_le_mul_of_nonneg_left _ d0
    apply hr.monotone
    have : ex (rd (rd (-3 * h') / r)) ≤ ex (rd (rd (-3 * h) / r)) := by
      apply hm
      apply hr.monotone
      exact div_le_div_of_nonneg_right (hr.monotone (by linarith)) hr0.le
    linarith

/-! ### What fails -/

/-- C100 fails: in double precision `semivar_linear` exceeds the sill at the range, for nugget 0, sill 7, range 25. -/
theorem C100_linear_exceeds_violated (hr : Nearest 53 (-1074) rd) : semivarLinearR rd 25 0 7 25 = 7 + 2 ^ (-50 : ℤ) := by
  have f7 : IsFloat 53 (-1074) (7 : ℝ) := ⟨7, 0, by norm_num, by norm_num, by norm_num⟩
  have fq : IsFloat 53 (-1074) (1261007895663739 * 2 ^ (-52 : ℤ) : ℝ) := ⟨1261007895663739, -52, by norm_num, by norm_num, by norm_num⟩
  have fv : IsFloat 53 (-1074) (7 + 2 ^ (-50 : ℤ) : ℝ) := ⟨7881299347898369, -50, by norm_num, by norm_num, by norm_num⟩
  have f4 : IsFloat 53 (-1074) (1 / 4 : ℝ) := ⟨1, -2, by norm_num, by norm_num, by norm_num⟩
  have r1 : rd (7 / 25) = 1261007895663739 * 2 ^ (-52 : ℤ) := by
    refine TriArea.pin hr (k := -54) fq ⟨5044031582654956, by norm_num⟩ ?_ ?_
    · apply Erfcx.onGrid_of_big (by norm_num) (hr _).1
      have := hr.mono_float f4 (show (1 / 4 : ℝ) ≤ 7 / 25 by norm_num)
      rw [abs_of_nonneg (le_trans (by norm_num) this)]
      refine le_trans ?_ this
      norm_num
    · norm_num [abs_lt]
  have r2 : rd (1261007895663739 * 2 ^ (-52 : ℤ) * 25) = 7 + 2 ^ (-50 : ℤ) := by
    refine TriArea.pin hr (k := -50) fv ⟨7881299347898369, by norm_num⟩ ?_ ?_
    · apply Erfcx.onGrid_of_big (by norm_num) (hr _).1
      have := hr.mono_float f7 (show (7 : ℝ) ≤ 1261007895663739 * 2 ^ (-52 : ℤ) * 25 by norm_num)
      rw [abs_of_nonneg (le_trans (by norm_num) this)]
      refine le_trans ?_ this
      norm_num
    · norm_num [abs_lt]
  unfold semivarLinearR
  rw [if_neg (lt_irrefl _)]
  simp only [sub_zero, zero_add]
  rw [hr.exact f7, r1, r2, hr.exact fv]

/-- C100 fails for large ranges: the slope underflows, and at the range `semivar_linear` is 20 percent below the sill. -/
theorem C100_linear_underflow_violated (hr : Nearest 53 (-1074) rd) :
    semivarLinearR rd (2 ^ (1000 : ℤ)) 0 (5 * 2 ^ (-76 : ℤ)) (2 ^ (1000 : ℤ)) = 4 * 2 ^ (-76 : ℤ) := by
  have f5 : IsFloat 53 (-1074) (5 * 2 ^ (-76 : ℤ) : ℝ) := ⟨5, -76, by norm_num, by norm_num, by norm_num⟩
  have f4 : IsFloat 53 (-1074) (4 * 2 ^ (-76 : ℤ) : ℝ) := ⟨4, -76, by norm_num, by norm_num, by norm_num⟩
  have fη : IsFloat 53 (-1074) ((2 : ℝ) ^ (-1074 : ℤ)) := isFloat_zpow (by norm_num) le_rfl
  have η0 := two_zpow_pos (K := ℝ) (-1074)
  have e1 : (5 * 2 ^ (-76 : ℤ) / 2 ^ (1000 : ℤ) : ℝ) = 5 / 4 * 2 ^ (-1074 : ℤ) := by
    rw [mul_div_assoc, ← zpow_sub₀ (by norm_num), show (-76 - 1000 : ℤ) = -1074 + -2 by norm_num, zpow_add₀ (by norm_num), show (2 : ℝ) ^ (-2 : ℤ) = 1 / 4 by norm_num]
    ring
  have r1 : rd (5 / 4 * 2 ^ (-1074 : ℤ)) = 2 ^ (-1074 : ℤ) := by
    refine TriArea.pin hr fη fη.grid (hr _).1.grid ?_
    generalize (2 : ℝ) ^ (-1074 : ℤ) = η at *
    rw [abs_lt]; constructor <;> linarith
  have e2 : (2 ^ (-1074 : ℤ) * 2 ^ (1000 : ℤ) : ℝ) = 4 * 2 ^ (-76 : ℤ) := by
    rw [← zpow_add₀ (by norm_num), show (-1074 + 1000 : ℤ) = 2 + -76 by norm_num, zpow_add₀ (by norm_num)]
    norm_num
  unfold semivarLinearR
  rw [if_neg (lt_irrefl _)]
  simp only [sub_zero, zero_add]
  rw [hr.exact f5, e1, r1, e2, hr.exact f4, hr.exact f4]

/-- C100 fails: in double precision (ties to even) `semivar_parabolic` decreases between two numbers below the range. -/
theorem C100_parabolic_monotone_violated (hr : Nearest 53 (-1074) rd) (htie : rd (1 + 2 ^ (-53 : ℤ)) = 1) :
    (1 - 2 ^ (-52 : ℤ) : ℝ) < 1 - 2 ^ (-53 : ℤ) ∧
    semivarParabolicR rd rd (1 - 2 ^ (-53 : ℤ)) 0 1 1 < semivarParabolicR rd rd (1 - 2 ^ (-52 : ℤ)) 0 1 1 := by
  have f1 : IsFloat 53 (-1074) (1 : ℝ) := isFloat_one (by norm_num) (by norm_num)
  have fa : IsFloat 53 (-1074) (1 - 2 ^ (-53 : ℤ) : ℝ) := ⟨9007199254740991, -53, by norm_num, by norm_num, by norm_num⟩
  have fb : IsFloat 53 (-1074) (1 - 2 ^ (-52 : ℤ) : ℝ) := ⟨9007199254740990, -53, by norm_num, by norm_num, by norm_num⟩
  have fc : IsFloat 53 (-1074) (1 + 2 ^ (-52 : ℤ) : ℝ) := ⟨4503599627370497, -52, by norm_num, by norm_num, by norm_num⟩
  have fh : IsFloat 53 (-1074) (1 / 2 : ℝ) := ⟨1, -1, by norm_num, by norm_num, by norm_num⟩
  have r1 : rd ((1 - 2 ^ (-52 : ℤ)) * (1 + 2 ^ (-52 : ℤ))) = 1 := by
    refine TriArea.pin hr (k := -53) f1 ⟨9007199254740992, by norm_num⟩ ?_ ?_
    · apply Erfcx.onGrid_of_big (by norm_num) (hr _).1
      have := hr.mono_float fh (show (1 / 2 : ℝ) ≤ (1 - 2 ^ (-52 : ℤ)) * (1 + 2 ^ (-52 : ℤ)) by norm_num)
      rw [abs_of_nonneg (le_trans (by norm_num) this)]
      refine le_trans ?_ this
      norm_num
    · norm_num [abs_lt]
  refine ⟨by norm_num, ?_⟩
  have va : semivarParabolicR rd rd (1 - 2 ^ (-53 : ℤ)) 0 1 1 = 1 - 2 ^ (-53 : ℤ) := by
    unfold semivarParabolicR
    rw [if_neg (by norm_num)]
    simp only [sub_zero, zero_add, div_one, hr.exact fa, hr.exact f1, one_mul]
    rw [show (2 : ℝ) - (1 - 2 ^ (-53 : ℤ)) = 1 + 2 ^ (-53 : ℤ) by ring, htie, mul_one, hr.exact fa, hr.exact fa, hr.exact fa]
  have vb : semivarParabolicR rd rd (1 - 2 ^ (-52 : ℤ)) 0 1 1 = 1 := by
    unfold semivarParabolicR
    rw [if_neg (by norm_num)]
    simp only [sub_zero, zero_add, div_one, hr.exact fb, hr.exact f1, one_mul]
    rw [show (2 : ℝ) - (1 - 2 ^ (-52 : ℤ)) = 1 + 2 ^ (-52 : ℤ) by ring, hr.exact fc, r1, hr.exact f1, hr.exact f1]
  rw [va, vb]
  norm_num

/-- Such a rounding exists. -/
example : ∃ rd : ℝ → ℝ, Nearest 53 (-1074) rd ∧ rd (1 + 2 ^ (-53 : ℤ)) = 1 := by
  obtain ⟨rd, h⟩ := exists_nearest (K := ℝ) (p := 53) (by norm_num) (-1074)
  have f1 : IsFloat 53 (-1074) (1 : ℝ) := isFloat_one (by norm_num) (by norm_num)
  classical
  refine ⟨fun z => if z = 1 + 2 ^ (-53 : ℤ) then 1 else rd z, fun z => ?_, if_pos rfl⟩
  by_cases hz : z = 1 + 2 ^ (-53 : ℤ)
  · simp only [hz, if_true]
    refine ⟨f1, fun y fy => ?_⟩
    rw [show (1 : ℝ) - (1 + 2 ^ (-53 : ℤ)) = -2 ^ (-53 : ℤ) by ring, abs_neg, abs_of_pos (two_zpow_pos _)]
    by_contra hc
    have hc' := abs_lt.1 (not_le.1 hc)
    have hy : 1 < y := by linarith [hc'.1]
    have g : OnGrid (-52) y := Erfcx.onGrid_of_big (by norm_num) fy (by
      rw [abs_of_pos (by linarith)]
      refine le_trans ?_ hy.le
      norm_num)
    have := Erfcx.grid_lt (m := 4503599627370497) g (by
      have e : ((4503599627370497 : ℤ) : ℝ) * 2 ^ (-52 : ℤ) = 1 + 2 ^ (-53 : ℤ) + 2 ^ (-53 : ℤ) := by norm_num
      rw [e]; linarith [hc'.2])
    norm_num at this
    linarith
  · simp only [hz, if_false]
    exact h z

/-- C100 fails for small distances: with `exp` correctly rounded, `semivar_exponential(2^-60, 0, 1, 1)` is 0; the value is
positive and representable to full accuracy. -/
theorem C100_exponential_small_violated (hr : Nearest 53 (-1074) rd) :
    semivarExponentialR rd (fun y => rd (exp y)) (2 ^ (-60 : ℤ)) 0 1 1 = 0 ∧ 2 ^ (-59 : ℤ) < 0 + (1 - 0) * (1 - exp (-3 * 2 ^ (-60 : ℤ) / 1)) := by
  have f1 : IsFloat 53 (-1074) (1 : ℝ) := isFloat_one (by norm_num) (by norm_num)
  have fh : IsFloat 53 (-1074) (1 / 2 : ℝ) := ⟨1, -1, by norm_num, by norm_num, by norm_num⟩
  have f3 : IsFloat 53 (-1074) (-3 * 2 ^ (-60 : ℤ) : ℝ) := ⟨-3, -60, by norm_num, by norm_num, by norm_num⟩
  have b1 := add_one_le_exp (-3 * 2 ^ (-60 : ℤ) : ℝ)
  have b2 := abs_exp_sub_one_sub_id_le (x := (-3 * 2 ^ (-60 : ℤ) : ℝ)) (by norm_num [abs_le])
  have b3 := (abs_le.1 b2).2
  have r1 : rd (exp (-3 * 2 ^ (-60 : ℤ))) = 1 := by
    refine TriArea.pin hr (k := -53) f1 ⟨9007199254740992, by norm_num⟩ ?_ ?_
    · apply Erfcx.onGrid_of_big (by norm_num) (hr _).1
      have := hr.mono_float fh (show (1 / 2 : ℝ) ≤ exp (-3 * 2 ^ (-60 : ℤ)) by
        refine le_trans ?_ b1; norm_num)
      rw [abs_of_nonneg (le_trans (by norm_num) this)]
      refine le_trans ?_ this
      norm_num
    · generalize exp (-3 * 2 ^ (-60 : ℤ)) = E at *
      rw [abs_lt]
      norm_num at *
      constructor <;> linarith
  constructor
  · unfold semivarExponentialR
    simp only [sub_zero, zero_add, div_one, hr.exact f3, hr.exact f1, one_mul, r1, sub_self, hr.round_zero]
  · rw [div_one]
    generalize exp (-3 * 2 ^ (-60 : ℤ)) = E at *
    norm_num at *
    linarith

example : ∃ rd : ℝ → ℝ, Nearest 53 (-1074) rd ∧ |semivarSphericalR rd rd 1 0 1 2 - 11 / 16| ≤ 1 / 10 ^ 14 := by
  obtain ⟨rd, h⟩ := exists_nearest (K := ℝ) (p := 53) (by norm_num) (-1074)
  refine ⟨rd, h, ?_⟩
  have := C100_spherical_accuracy h h (by norm_num) le_rfl le_rfl (by norm_num) 1 0 1 2 isFloat_zero (isFloat_one (by norm_num) (by norm_num))
    (by norm_num) (by norm_num) (by norm_num)
  have e : (0 : ℝ) + (1 - 0) * (3 / 2 * (1 / 2) - 1 / 2 * (1 / 2) ^ 3) = 11 / 16 := by norm_num
  simp only [e] at this
  refine this.trans ?_
  have η1 : (2 : ℝ) ^ (-1074 : ℤ) ≤ 1 / 10 ^ 16 := by
    calc (2 : ℝ) ^ (-1074 : ℤ) ≤ 2 ^ (-54 : ℤ) := zpow_le_zpow_right₀ (by norm_num) (by norm_num)
      _ ≤ _ := by norm_num
  generalize (2 : ℝ) ^ (-1074 : ℤ) = η at *
  rw [sub_zero, sub_zero, abs_of_pos (by norm_num), abs_of_pos (by norm_num)]
  norm_num at *
  linarith

end Ufunclab.Scalar
