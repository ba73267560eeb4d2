import Verif.Model.MeansRound
import Verif.Spec.Means
import Verif.Proof.VnormPow
import Verif.Proof.Means
import Verif.Proof.TriAreaRound
/-!
# C84: hmean and gmean in floating point

`rd` rounds to the type of the result (`p` bits, `u = 2^-p`), `rx` to long double (`P ≥ p` bits,
`2^-P`); for long double data the two are the same.
-/
namespace Ufunclab.Means
open Ufunclab.Float Ufunclab.Corr MeansSpec
variable {p P : ℕ} {emin Emin : ℤ} {rd rx lg ex : ℝ → ℝ} {ε : ℝ}

theorem rnd_fin (a : ℝ) : rnd rd (.fin a) = .fin (rd a) := rfl
theorem rnd_id : ∀ v : XF ℝ, rnd id v = v := fun v => by cases v <;> rfl
theorem xlogR_exact (v : XF ℝ) : xlogR Real.log v = xlog v := by cases v <;> rfl
theorem xexpR_exact (v : XF ℝ) : xexpR Real.exp v = xexp v := by cases v <;> rfl

theorem hmeanSumR_exact (x : List (XF ℝ)) : ∀ s, hmeanSumR (rnd id) (rnd id) s x = hmeanSum s x := by
  induction x with
  | nil => intro s; rfl
  | cons v x ih => intro s; simp only [hmeanSumR, hmeanSum, rnd_id, ih]

theorem gmeanLoopR_exact (x : List (XF ℝ)) : ∀ k s, gmeanLoopR (rnd id) Real.log k s x = gmeanLoop k s x := by
  induction x with
  | nil => intro k s; rfl
  | cons v x ih => intro k s; simp only [gmeanLoopR, gmeanLoop, rnd_id, xlogR_exact, ih]

/-- C84: without rounding and with the exact functions the code is the one of C65. -/
theorem C84_exact_arithmetic (x : List (XF ℝ)) : hmean1dR (rnd id) (rnd id) x = hmean1d x ∧ gmean1dR (rnd id) Real.log (xexpR Real.exp) x = gmean1d x := by
  constructor
  · simp only [hmean1dR, hmean1d, rnd_id, hmeanSumR_exact]
  · simp only [gmean1dR, gmean1d, gmeanFinishR, gmeanFinish, rnd_id, xexpR_exact, gmeanLoopR_exact]

/-! ### hmean -/

/-- The sum of the reciprocals as computed. -/
noncomputable def rsumX (rd rx : ℝ → ℝ) : ℝ → List ℝ → ℝ
  | s, [] => s
  | s, a :: l => rsumX rd rx (rd (rx (s + rx (1 / a)))) l

theorem hmeanSumR_fin (x : List ℝ) (hx : ∀ a ∈ x, a ≠ 0) : ∀ s, hmeanSumR (rnd rd) (rnd rx) (.fin s) (x.map XF.fin) = .fin (rsumX rd rx s x) := by
  induction x with
  | nil => intro s; rfl
  | cons a x ih =>
    intro s
    have ha := hx a (by simp)
    simp only [List.map_cons, hmeanSumR, XF.eq_fin, ha, decide_false, Bool.false_eq_true, if_false, XF.div_fin _ _ ha, rnd_fin, XF.add_fin, rsumX]
    exact ih (fun b hb => hx b (by simp [hb])) _

/-- The range in which reciprocals are normal numbers in both formats. -/
def RecipNormal (p : ℕ) (emin : ℤ) (a : ℝ) : Prop := 0 < a ∧ 2 ^ p * 2 ^ emin ≤ 1 / a

theorem rsumX_error (h : Nearest p emin rd) (hX : Nearest P Emin rx) (hp : 1 ≤ p) (hP : p ≤ P) (hE : (P : ℤ) + Emin ≤ p + emin) (x : List ℝ)
    (hx : ∀ a ∈ x, RecipNormal p emin a) : ∀ (s S : ℝ) (k : ℕ), 0 ≤ s → 0 ≤ S →
    (1 - (2 ^ p)⁻¹) ^ k * (1 - (2 ^ P)⁻¹) ^ (k + 1) * S ≤ s → s ≤ (1 + (2 ^ p)⁻¹) ^ k * (1 + (2 ^ P)⁻¹) ^ (k + 1) * S →
    let T := S + (x.map fun a => 1 / a).sum
    0 ≤ rsumX rd rx s x ∧ (1 - (2 ^ p)⁻¹) ^ (k + x.length) * (1 - (2 ^ P)⁻¹) ^ (k + x.length + 1) * T ≤ rsumX rd rx s x ∧
      rsumX rd rx s x ≤ (1 + (2 ^ p)⁻¹) ^ (k + x.length) * (1 + (2 ^ P)⁻¹) ^ (k + x.length + 1) * T := by
  have hu0 : (0 : ℝ) ≤ (2 ^ p)⁻¹ := by positivity
  have hv0 : (0 : ℝ) ≤ (2 ^ P)⁻¹ := by positivity
  have hu1 : ((2 : ℝ) ^ p)⁻¹ ≤ 1 := inv_le_one_of_one_le₀ (one_le_pow₀ (by norm_num))
  have hv1 : ((2 : ℝ) ^ P)⁻¹ ≤ 1 := inv_le_one_of_one_le₀ (one_le_pow₀ (by norm_num))
  induction x with
  | nil => intro s S k hs hS h1 h2; simpa [rsumX] using ⟨hs, h1, h2⟩
  | cons a x ih =>
    intro s S k hs hS h1 h2
    obtain ⟨ha, han⟩ := hx a (by simp)
    have hlow : (2 : ℝ) ^ P * 2 ^ Emin ≤ 2 ^ p * 2 ^ emin := by
      rw [pow_zpow, pow_zpow]; exact zpow_le_zpow_right₀ (by norm_num) hE
    have hfl : IsFloat P Emin ((2 : ℝ) ^ p * 2 ^ emin) := by
      rw [pow_zpow]; exact isFloat_zpow (by omega) (by omega)
    have hfs : IsFloat p emin ((2 : ℝ) ^ p * 2 ^ emin) := by
      rw [pow_zpow]; exact isFloat_zpow (by omega) (by omega)
    have ra0 : (0 : ℝ) < 1 / a := by positivity
    have q1 := TriArea.rel_normal hX (by omega) (z := 1 / a) (by rw [abs_of_pos ra0]; exact hlow.trans han)
    have q2 : (2 : ℝ) ^ p * 2 ^ emin ≤ rx (1 / a) := hX.mono_float hfl han
    have q3 : (2 : ℝ) ^ p * 2 ^ emin ≤ s + rx (1 / a) := by linarith
    have pos0 : (0 : ℝ) < 2 ^ p * 2 ^ emin := by positivity
    have q4 := TriArea.rel_normal hX (by omega) (z := s + rx (1 / a)) (by rw [abs_of_pos (by linarith)]; exact hlow.trans q3)
    have q5 : (2 : ℝ) ^ p * 2 ^ emin ≤ rx (s + rx (1 / a)) := hX.mono_float hfl q3
    have q6 := TriArea.rel_normal h (by omega) (z := rx (s + rx (1 / a))) (by rw [abs_of_pos (by linarith)]; exact q5)
    have q7 : (2 : ℝ) ^ p * 2 ^ emin ≤ rd (rx (s + rx (1 / a))) := h.mono_float hfs q5
    rw [abs_of_pos ra0] at q1
    rw [abs_of_pos (by linarith : 0 < s + rx (1 / a))] at q4
    rw [abs_of_pos (by linarith : 0 < rx (s + rx (1 / a)))] at q6
    have key := ih (fun b hb => hx b (by simp [hb])) (rd (rx (s + rx (1 / a)))) (S + 1 / a) (k + 1) (by linarith) (by positivity) ?_ ?_
    · rw [List.map_cons, List.sum_cons, rsumX, ← add_assoc, List.length_cons, show k + (x.length + 1) = k + 1 + x.length by ring]
      exact key
    · -- lower
      have e1 : (1 - (2 ^ P)⁻¹) * (1 / a) ≤ rx (1 / a) := by have := (abs_le.1 q1).1; linarith
      have e2 : (1 - (2 ^ P)⁻¹) * (s + rx (1 / a)) ≤ rx (s + rx (1 / a)) := by have := (abs_le.1 q4).1; linarith
      have e3 : (1 - (2 ^ p)⁻¹) * rx (s + rx (1 / a)) ≤ rd (rx (s + rx (1 / a))) := by have := (abs_le.1 q6).1; linarith
      clear q1 q2 q3 q4 q5 q6 q7 hlow hfl hfs han ih h2 pos0
      generalize rd (rx (s + rx (1 / a))) = w at *
      generalize rx (s + rx (1 / a)) = z at *
      generalize rx (1 / a) = y at *
      generalize 1 / a = b at *
      generalize ((2 : ℝ) ^ p)⁻¹ = u at *
      generalize ((2 : ℝ) ^ P)⁻¹ = v at *
      have c1 : (1 - u) ^ k * (1 - v) ^ k ≤ 1 := by
        have := pow_le_one₀ (n := k) (by linarith : 0 ≤ 1 - u) (by linarith)
        have := pow_le_one₀ (n := k) (by linarith : 0 ≤ 1 - v) (by linarith)
        exact mul_le_one₀ (by assumption) (pow_nonneg (by linarith) _) (by assumption)
      have c2 : (1 - u) ^ k * (1 - v) ^ (k + 1) * b ≤ y := by
        refine le_trans ?_ e1
        apply mul_le_mul_of_nonneg_right _ ra0.le
        rw [pow_succ, ← mul_assoc]
        have := mul_le_mul_of_nonneg_right c1 (by linarith : 0 ≤ 1 - v)
        linarith
      calc (1 - u) ^ (k + 1) * (1 - v) ^ (k + 1 + 1) * (S + b)
          = (1 - u) * ((1 - v) * ((1 - u) ^ k * (1 - v) ^ (k + 1) * S + (1 - u) ^ k * (1 - v) ^ (k + 1) * b)) := by ring
        _ ≤ (1 - u) * ((1 - v) * (s + y)) :=
          mul_le_mul_of_nonneg_left (mul_le_mul_of_nonneg_left (by linarith) (by linarith)) (by linarith)
        _ ≤ (1 - u) * z := mul_le_mul_of_nonneg_left e2 (by linarith)
        _ ≤ w := e3
    · -- upper
      have e1 : rx (1 / a) ≤ (1 + (2 ^ P)⁻¹) * (1 / a) := by have := (abs_le.1 q1).2; linarith
      have e2 : rx (s + rx (1 / a)) ≤ (1 + (2 ^ P)⁻¹) * (s + rx (1 / a)) := by have := (abs_le.1 q4).2; linarith
      have e3 : rd (rx (s + rx (1 / a))) ≤ (1 + (2 ^ p)⁻¹) * rx (s + rx (1 / a)) := by have := (abs_le.1 q6).2; linarith
      clear q1 q2 q3 q4 q5 q6 q7 hlow hfl hfs han ih h1 pos0
      generalize rd (rx (s + rx (1 / a))) = w at *
      generalize rx (s + rx (1 / a)) = z at *
      generalize rx (1 / a) = y at *
      generalize 1 / a = b at *
      generalize ((2 : ℝ) ^ p)⁻¹ = u at *
      generalize ((2 : ℝ) ^ P)⁻¹ = v at *
      have c1 : 1 ≤ (1 + u) ^ k * (1 + v) ^ k := by
        have := one_le_pow₀ (n := k) (by linarith : 1 ≤ 1 + u)
        have := one_le_pow₀ (n := k) (by linarith : 1 ≤ 1 + v)
        exact one_le_mul_of_one_le_of_one_le (by assumption) (by assumption)
      have c2 : y ≤ (1 + u) ^ k * (1 + v) ^ (k + 1) * b := by
        refine le_trans e1 ?_
        apply mul_le_mul_of_nonneg_right _ ra0.le
        rw [pow_succ, ← mul_assoc]
        have := mul_le_mul_of_nonneg_right c1 (by linarith : 0 ≤ 1 + v)
        linarith
      calc w ≤ (1 + u) * z := e3
        _ ≤ (1 + u) * ((1 + v) * (s + y)) := mul_le_mul_of_nonneg_left e2 (by linarith)
        _ ≤ (1 + u) * ((1 + v) * ((1 + u) ^ k * (1 + v) ^ (k + 1) * S + (1 + u) ^ k * (1 + v) ^ (k + 1) * b)) :=
          mul_le_mul_of_nonneg_left (mul_le_mul_of_nonneg_left (by linarith) (by linarith)) (by linarith)
        _ = (1 + u) ^ (k + 1) * (1 + v) ^ (k + 1 + 1) * (S + b) := by ring

/-- C84: hmean of positive numbers: the relative error is at most `1.1 (n+1) (2^-p + 2^-P)`, plus
half a least subnormal. -/
theorem C84_hmean_accuracy (h : Nearest p emin rd) (hX : Nearest P Emin rx) (hp : 10 ≤ p) (he : emin ≤ 0) (hP : p ≤ P)
    (hE : (P : ℤ) + Emin ≤ p + emin) (x : List ℝ) (hne : x ≠ []) (hn : 200 * ((x.length : ℝ) + 1) ≤ 2 ^ p)
    (hx : ∀ a ∈ x, RecipNormal p emin a) :
    ∃ r, hmean1dR (rnd rd) (rnd rx) (x.map XF.fin) = .fin r ∧ 0 ≤ r ∧
      |r - harm x| ≤ 1.1 * (x.length + 1) * ((2 ^ p)⁻¹ + (2 ^ P)⁻¹) * harm x + 2 ^ emin / 2 := by
  obtain ⟨k0, k1, k2⟩ := rsumX_error h hX (by omega) hP hE x hx 0 0 0 le_rfl le_rfl (by simp) (by simp)
  have hnl : 0 < x.length := List.length_pos_iff.2 hne
  have hn0 : (0 : ℝ) < x.length := by exact_mod_cast hnl
  have hnr : rd x.length = x.length := by
    apply h.exact; apply Mad.isFloat_nat (by omega) he
    have : (x.length : ℝ) ≤ 2 ^ p := by linarith
    exact_mod_cast this
  have hS : 0 < (x.map fun a => 1 / a).sum := by
    obtain ⟨a, l, rfl⟩ := List.exists_cons_of_ne_nil hne
    rw [List.map_cons, List.sum_cons]
    have := (hx a (by simp)).1
    have : 0 ≤ (l.map fun a => 1 / a).sum := List.sum_nonneg (by
      intro y hy; obtain ⟨v, hv, rfl⟩ := List.mem_map.1 hy; have := (hx v (by simp [hv])).1; positivity)
    positivity
  rw [zero_add, zero_add] at k1 k2
  have hu0 : (0 : ℝ) < (2 ^ p)⁻¹ := by positivity
  have hv0 : (0 : ℝ) < (2 ^ P)⁻¹ := by positivity
  have hvu : ((2 : ℝ) ^ P)⁻¹ ≤ (2 ^ p)⁻¹ := inv_anti₀ (by positivity) (pow_le_pow_right₀ (by norm_num) hP)
  have hu := Mad.unit_le_thousandth (K := ℝ) hp
  have hnu : ((x.length : ℝ) + 1) * (2 ^ p)⁻¹ ≤ 1 / 200 := by rw [← div_eq_mul_inv, div_le_iff₀ (by positivity)]; linarith
  have hnv : ((x.length : ℝ) + 1) * (2 ^ P)⁻¹ ≤ 1 / 200 := (mul_le_mul_of_nonneg_left hvu (by positivity)).trans hnu
  have hpu := Mad.pow_bound (u := ((2 : ℝ) ^ p)⁻¹) hu0.le x.length (by linarith)
  have hpv := Mad.pow_bound (u := ((2 : ℝ) ^ P)⁻¹) hv0.le (x.length + 1) (by push_cast; linarith)
  have hlu := one_add_mul_le_pow (a := -((2 : ℝ) ^ p)⁻¹) (by linarith) x.length
  have hlv := one_add_mul_le_pow (a := -((2 : ℝ) ^ P)⁻¹) (by linarith) (x.length + 1)
  rw [← sub_eq_add_neg] at hlu hlv
  push_cast at hpv hlv
  have herr := fun z => h.error (by omega : 1 ≤ p) z
  have hform : hmean1dR (rnd rd) (rnd rx) (x.map XF.fin) = rnd rd (XF.div (.fin x.length) (.fin (rsumX rd rx 0 x))) := by
    rw [hmean1dR, hmeanSumR_fin x (fun a ha => (hx a ha).1.ne'), List.length_map, rnd_fin, hnr]
  rw [hform]
  clear hform
  have hharm : harm x = x.length / (x.map fun a => 1 / a).sum := rfl
  rw [hharm]
  generalize (x.map fun a => 1 / a).sum = S at *
  generalize rsumX rd rx 0 x = s at *
  obtain ⟨t, ht⟩ : ∃ t : ℝ, t = 1.04 * ((x.length + 1) * ((2 ^ p)⁻¹ + (2 ^ P)⁻¹)) - (2 ^ p)⁻¹ := ⟨_, rfl⟩
  have hs : |s - S| ≤ t * S := by
    clear hn hx hharm hnr hP hE h hX herr
    have e : t = 1.04 * (x.length * (2 ^ p)⁻¹) + 0.04 * (2 ^ p)⁻¹ + 1.04 * ((x.length + 1) * (2 ^ P)⁻¹) := by rw [ht]; ring
    generalize ((2 : ℝ) ^ p)⁻¹ = u at *
    generalize ((2 : ℝ) ^ P)⁻¹ = v at *
    have pn := pow_nonneg (by linarith : 0 ≤ 1 + u) x.length
    have pl := pow_nonneg (by linarith : 0 ≤ 1 - u) x.length
    have pl' := pow_nonneg (by linarith : 0 ≤ 1 - v) (x.length + 1)
    generalize (1 + u) ^ x.length = A at *
    generalize (1 + v) ^ (x.length + 1) = B at *
    generalize (1 - u) ^ x.length = C at *
    generalize (1 - v) ^ (x.length + 1) = D at *
    generalize (x.length : ℝ) = n at *
    have nu0 : 0 ≤ n * u := by positivity
    have nv0 : 0 ≤ (n + 1) * v := by positivity
    have hAB : A * B ≤ 1 + t := by
      have a1 : A ≤ 1 + 1.02 * (n * u) := by linarith
      have b1 : B ≤ 1 + 1.02 * ((n + 1) * v) := by linarith
      have ab : A * B ≤ (1 + 1.02 * (n * u)) * (1 + 1.02 * ((n + 1) * v)) :=
        (mul_le_mul_of_nonneg_left b1 pn).trans (mul_le_mul_of_nonneg_right a1 (by positivity))
      have c : (n * u) * ((n + 1) * v) ≤ 1 / 200 * ((n + 1) * v) := mul_le_mul_of_nonneg_right (by linarith) nv0
      rw [e]
      generalize n * u = X at *
      generalize (n + 1) * v = Y at *
      norm_num at *; nlinarith
    have hCD : 1 - t ≤ C * D := by
      have a1 : 1 - n * u ≤ C := by linarith
      have b1 : 1 - (n + 1) * v ≤ D := by linarith
      have a2 : 0 ≤ 1 - n * u := by linarith
      have cd : (1 - n * u) * (1 - (n + 1) * v) ≤ C * D := by
        by_cases hh : 0 ≤ 1 - (n + 1) * v
        · exact mul_le_mul a1 b1 hh pl
        · have := mul_nonneg pl pl'
          nlinarith
      have c : 0 ≤ (n * u) * ((n + 1) * v) := by positivity
      rw [e]
      generalize n * u = X at *
      generalize (n + 1) * v = Y at *
      norm_num at *; nlinarith
    have := mul_le_mul_of_nonneg_right hAB hS.le
    have := mul_le_mul_of_nonneg_right hCD hS.le
    rw [abs_le]; constructor <;> linarith
  have ht1 : t ≤ 0.0104 := by rw [ht, mul_add]; linarith
  have ht0 : 0 ≤ t := by
    by_contra hh; have := (abs_nonneg _).trans hs; nlinarith
  have hs0 : 0.98 * S ≤ s := by
    have a1 := (abs_le.1 hs).1
    have a2 := mul_le_mul_of_nonneg_right ht1 hS.le
    clear * - a1 a2 hS
    norm_num at *; linarith
  have hsp : 0 < s := lt_of_lt_of_le (by positivity) hs0
  refine ⟨rd (x.length / s), by rw [XF.div_fin _ _ hsp.ne', rnd_fin], h.mono_float isFloat_zero (by positivity), ?_⟩
  have hq : |x.length / s - x.length / S| ≤ 1.0206 * t * (x.length / S) := by
    have e1 : (x.length : ℝ) / s - x.length / S = -((x.length / S) * ((s - S) / s)) := by field_simp; ring
    rw [e1, abs_neg, abs_mul, abs_of_pos (by positivity : 0 < (x.length : ℝ) / S), mul_comm]
    apply mul_le_mul_of_nonneg_right _ (by positivity)
    rw [abs_div, abs_of_pos hsp, div_le_iff₀ hsp]
    refine hs.trans ?_
    have a1 := mul_le_mul_of_nonneg_left hs0 ht0
    have a2 : 0 ≤ t * S := by positivity
    clear * - a1 a2
    norm_num at a1 ⊢; linarith
  have hr := herr (x.length / s)
  rw [abs_of_pos (by positivity : 0 < (x.length : ℝ) / s)] at hr
  have hH : 0 < (x.length : ℝ) / S := by positivity
  generalize (x.length : ℝ) / S = H at *
  generalize (x.length : ℝ) / s = H' at *
  have hH' : H' ≤ 1.02 * H := by
    have a1 := (abs_le.1 hq).2
    have a2 := mul_le_mul_of_nonneg_right ht1 hH.le
    clear * - a1 a2 hH
    norm_num at *; linarith
  have huH := mul_le_mul_of_nonneg_left hH' hu0.le
  have hfin : 1.0206 * t + 1.02 * (2 ^ p)⁻¹ ≤ 1.1 * (x.length + 1) * ((2 ^ p)⁻¹ + (2 ^ P)⁻¹) := by
    rw [ht]
    have e : 0 ≤ ((x.length : ℝ) + 1) * ((2 ^ p)⁻¹ + (2 ^ P)⁻¹) := by positivity
    rw [mul_assoc 1.1]
    clear * - e hu0
    generalize ((x.length : ℝ) + 1) * ((2 ^ p)⁻¹ + (2 ^ P)⁻¹) = z at *
    generalize ((2 : ℝ) ^ p)⁻¹ = u at *
    norm_num at *; linarith
  have hfinH := mul_le_mul_of_nonneg_right hfin hH.le
  calc |rd H' - H| = |(rd H' - H') + (H' - H)| := by congr 1; ring
    _ ≤ _ := abs_add_le _ _
    _ ≤ _ := by linarith

/-- `1.9` and `0.9` as stored. -/
noncomputable def x19 : ℝ := 8556839292003942 * 2 ^ (-52 : ℤ)
noncomputable def x09 : ℝ := 8106479329266893 * 2 ^ (-53 : ℤ)

/-- Rounding to long double and then to double, when the exact value is not close to the middle
between two doubles. -/
theorem double_round (h : Nearest 53 (-1074) rd) (hX : Nearest P Emin rx) (hP : P = 53 ∧ Emin = -1074 ∨ 64 ≤ P ∧ (P : ℤ) + Emin ≤ -1) {z : ℝ}
    (m : ℤ) (hm : |m| < 2 ^ 53) (hz1 : 1 / 2 ≤ z) (hz2 : z ≤ 2) (k : ℤ) (hk : -60 ≤ k) (hz : 2 ^ 53 * 2 ^ k ≤ z) (hz' : 2 ^ 53 * 2 ^ k ≤ z - 2 ^ (-63 : ℤ))
    (hd : |(m : ℝ) * 2 ^ (k + 1) - z| < 2 ^ k - 2 ^ (-63 : ℤ)) : rd (rx z) = m * 2 ^ (k + 1) := by
  have h63 : (0 : ℝ) < 2 ^ (-63 : ℤ) := by positivity
  rcases hP with ⟨rfl, rfl⟩ | ⟨hP, hE⟩
  · have : rx z = m * 2 ^ (k + 1) := by
      apply hX.pin (by norm_num) m k hm (by omega)
      · rw [abs_of_nonneg (by linarith)]; exact hz
      · linarith
    rw [this]
    exact h.exact ⟨m, k + 1, hm, by omega, rfl⟩
  · have e1 : |rx z - z| ≤ 2 ^ (-63 : ℤ) := by
      have e2 := TriArea.rel_normal hX (by omega) (z := z) (by
        rw [abs_of_nonneg (by linarith), pow_zpow]
        refine (zpow_le_zpow_right₀ (by norm_num) hE).trans ?_
        norm_num at *; linarith)
      have e3 : ((2 : ℝ) ^ P)⁻¹ ≤ (2 ^ 64)⁻¹ := inv_anti₀ (by positivity) (pow_le_pow_right₀ (by norm_num) hP)
      rw [abs_of_nonneg (by linarith : 0 ≤ z)] at e2
      refine e2.trans ((mul_le_mul e3 hz2 (by linarith) (by positivity)).trans ?_)
      norm_num
    obtain ⟨e4, e5⟩ := abs_le.1 e1
    have e6 : 0 ≤ rx z := hX.mono_float isFloat_zero (by linarith)
    apply h.pin (by norm_num) m k hm (by omega)
    · rw [abs_of_nonneg e6]; linarith
    · calc |(m : ℝ) * 2 ^ (k + 1) - rx z| = |((m : ℝ) * 2 ^ (k + 1) - z) + (z - rx z)| := by congr 1; ring
        _ ≤ _ := abs_add_le _ _
        _ < _ := by rw [abs_sub_comm z]; linarith

/-- `hmean` of one number. -/
theorem hmean_one (h : Nearest 53 (-1074) rd) (hX : Nearest P Emin rx) (hP : P = 53 ∧ Emin = -1074 ∨ 64 ≤ P ∧ (P : ℤ) + Emin ≤ -1) {a s : ℝ} (ha : a ≠ 0)
    (hs : rd (rx (1 / a)) = s) (hs0 : s ≠ 0) : hmean1dR (rnd rd) (rnd rx) [.fin a] = .fin (rd (1 / s)) := by
  have i : rx (rx (1 / a)) = rx (1 / a) := hX.exact (hX _).1
  have o : rd 1 = 1 := h.exact (isFloat_one (by norm_num) (by norm_num))
  rw [hmean1dR, show [XF.fin a] = [a].map XF.fin from rfl, hmeanSumR_fin [a] (by simpa using ha)]
  simp only [rsumX, zero_add, i, hs, rnd_fin, List.map_cons, List.map_nil, List.length_cons, List.length_nil, Nat.cast_one, o]
  rw [XF.div_fin _ _ hs0, rnd_fin]

/-- C84: the harmonic mean of a single number need not be that number: in double it is one unit
above it for 1.9 and one unit below it for 0.9, whatever the format of long double. -/
theorem C84_hmean_range_violated (h : Nearest 53 (-1074) rd) (hX : Nearest P Emin rx) (hP : P = 53 ∧ Emin = -1074 ∨ 64 ≤ P ∧ (P : ℤ) + Emin ≤ -1) :
    hmean1dR (rnd rd) (rnd rx) [.fin x19] = .fin (x19 + 2 ^ (-52 : ℤ)) ∧ hmean1dR (rnd rd) (rnd rx) [.fin x09] = .fin (x09 - 2 ^ (-53 : ℤ)) := by
  constructor
  · have s : rd (rx (1 / x19)) = 4740631186705785 * 2 ^ (-53 : ℤ) := by
      have := double_round h hX hP (z := 1 / x19) 4740631186705785 (by norm_num) (by unfold x19; norm_num) (by unfold x19; norm_num) (-54) (by norm_num)
        (by unfold x19; norm_num) (by unfold x19; norm_num) (by unfold x19; norm_num [abs_lt])
      exact_mod_cast this
    rw [hmean_one h hX hP (by unfold x19; positivity) s (by positivity)]
    congr 1
    have := h.pin (by norm_num) (z := 1 / (4740631186705785 * 2 ^ (-53 : ℤ))) 8556839292003943 (-53) (by norm_num) (by norm_num)
      (by rw [abs_of_pos (by positivity)]; norm_num) (by norm_num [abs_lt])
    rw [this]; unfold x19; norm_num
  · have s : rd (rx (1 / x09)) = 5003999585967218 * 2 ^ (-52 : ℤ) := by
      have := double_round h hX hP (z := 1 / x09) 5003999585967218 (by norm_num) (by unfold x09; norm_num) (by unfold x09; norm_num) (-53) (by norm_num)
        (by unfold x09; norm_num) (by unfold x09; norm_num) (by unfold x09; norm_num [abs_lt])
      exact_mod_cast this
    rw [hmean_one h hX hP (by unfold x09; positivity) s (by positivity)]
    congr 1
    have := h.pin (by norm_num) (z := 1 / (5003999585967218 * 2 ^ (-52 : ℤ))) 8106479329266892 (-54) (by norm_num) (by norm_num)
      (by rw [abs_of_pos (by positivity)]; norm_num) (by norm_num [abs_lt])
    rw [this]; unfold x09; norm_num

/-! ### gmean -/

/-- A library logarithm on positive numbers of the format: its values are numbers of the format, with relative
error at most `ε`. -/
structure GoodLog (p : ℕ) (emin : ℤ) (ε : ℝ) (lg : ℝ → ℝ) : Prop where
  float : ∀ a, IsFloat p emin a → 0 < a → IsFloat p emin (lg a)
  error : ∀ a, IsFloat p emin a → 0 < a → |lg a - Real.log a| ≤ ε * |Real.log a|

/-- A library exponential: relative error at most `ε`, up to underflow. -/
structure GoodExp (emin : ℤ) (ε : ℝ) (ex : ℝ → ℝ) : Prop where
  nonneg : ∀ y, 0 ≤ ex y
  error : ∀ y, |ex y - Real.exp y| ≤ ε * Real.exp y + 2 ^ emin

theorem gmeanLoopR_pos (l : List ℝ) (k : Nat) (s : GState) (a : ℝ) (h : ∀ v ∈ l, 0 < v) (hs : s.sumlog = .fin a) :
    ∃ (B : Bool) (Q : XF ℝ), gmeanLoopR (rnd rd) lg k s (l.map XF.fin) = { s with allSame := B, prev := Q, sumlog := .fin (rsum rd a (l.map lg)) } ∧
      (B = true ↔ s.allSame = true ∧ (∀ v ∈ l, Q = .fin v) ∧ (k ≠ 0 → l ≠ [] → Q = s.prev)) ∧ Q = (l.map XF.fin).getLastD s.prev := by
  induction l generalizing k s a with
  | nil => exact ⟨s.allSame, s.prev, by simp [gmeanLoopR, ← hs, rsum], by simp, by simp⟩
  | cons x l ih =>
    have hx : 0 < x := h x (by simp)
    have hl : xlogR lg (.fin x) = .fin (lg x) := by simp [xlogR, hx.not_gt, hx.ne']
    have e : gmeanLoopR (rnd rd) lg k s ((x :: l).map XF.fin) = gmeanLoopR (rnd rd) lg (k + 1) (GState.mk s.hasZero s.hasNeg s.hasNan s.hasInf
        (s.allSame && XF.eq (if k = 0 then .fin x else s.prev) (.fin x)) (.fin x) (.fin (rd (a + lg x))) s.sumw) (l.map XF.fin) := by
      rw [List.map_cons]
      simp only [gmeanLoopR, hs, hl, XF.add_fin, rnd_fin]
      generalize (if k = 0 then XF.fin x else s.prev) = pv
      simp [XF.isnan, XF.isinf, hx.ne', hx.le]
    generalize hpv : (if k = 0 then XF.fin x else s.prev) = pv at e
    obtain ⟨B, Q, h1, h2, h3⟩ := ih (k + 1) (GState.mk s.hasZero s.hasNeg s.hasNan s.hasInf
        (s.allSame && XF.eq pv (.fin x)) (.fin x) (.fin (rd (a + lg x))) s.sumw) (rd (a + lg x)) (fun v hv => h v (by simp [hv])) rfl
    refine ⟨B, Q, ?_, ?_, by rw [List.map_cons, List.getLastD_cons]; exact h3⟩
    · rw [e, h1]; simp [rsum]
    · have hpx : XF.eq pv (.fin x) = true ↔ pv = .fin x := by cases pv <;> simp [XF.eq]
      rw [h2]
      simp only [Bool.and_eq_true, hpx]
      constructor
      · rintro ⟨⟨g1, g2⟩, g3, g4⟩
        have g5 : Q = .fin x := by
          by_cases hl : l = []
          · rw [h3, hl]; rfl
          · exact g4 (by omega) hl
        refine ⟨g1, ?_, fun hk _ => ?_⟩
        · intro v hv
          rcases List.mem_cons.1 hv with rfl | hv
          · exact g5
          · exact g3 v hv
        · rw [if_neg hk] at hpv; rw [g5, hpv, g2]
      · rintro ⟨g1, g2, g3⟩
        have g5 : Q = .fin x := g2 x (by simp)
        refine ⟨⟨g1, ?_⟩, fun v hv => g2 v (by simp [hv]), fun _ _ => g5⟩
        by_cases hk : k = 0
        · rw [← hpv, if_pos hk]
        · rw [← hpv, if_neg hk, ← g3 hk (by simp), g5]

/-- C84: the geometric mean of equal numbers is that number, whatever the library. -/
theorem C84_gmean_equal (x : List ℝ) (a : ℝ) (ha : 0 < a) (hne : x ≠ []) (hx : ∀ v ∈ x, v = a) : gmean1dR (rnd rd) lg (xexpR ex) (x.map XF.fin) = .fin a := by
  obtain ⟨B, Q, h1, h2, h3⟩ := gmeanLoopR_pos (rd := rd) (lg := lg) x 0 {} 0 (by intro v hv; rw [hx v hv]; exact ha) rfl
  have hQ : Q = .fin a := by
    rw [h3, List.getLastD_eq_getLast?, List.getLast?_map, List.getLast?_eq_getLast_of_ne_nil hne, hx _ (List.getLast_mem hne)]; rfl
  have hB : B = true := h2.2 ⟨rfl, fun v hv => by rw [hQ, hx v hv], by simp⟩
  rw [gmean1dR, h1, gmeanFinishR]
  simp [hB, hQ]

theorem abs_sum_map_le (x : List ℝ) (f : ℝ → ℝ) : |(x.map f).sum| ≤ (x.map fun a => |f a|).sum := by
  induction x with
  | nil => simp
  | cons a x ih => simp only [List.map_cons, List.sum_cons]; exact (abs_add_le _ _).trans (by linarith)

theorem gmean_finish {n u ε η L M m y r : ℝ} (hu0 : 0 ≤ u) (hnu : n * u ≤ 1 / 100) (hε0 : 0 ≤ ε) (hε : ε ≤ 1 / 1000) (hη0 : 0 < η) (hη : η ≤ 1 / 1000)
    (hL0 : 0 ≤ L) (hb : ((n + 1) * u + ε) * L ≤ 1 / 50) (hM : |M| ≤ L) (t4 : |m - M| ≤ (1.02 * (n * u) + 1.02 * ε) * L) (t2 : |y - m| ≤ u * |m| + η / 2)
    (t3 : |r - Real.exp y| ≤ ε * Real.exp y + η) :
    |r - Real.exp M| ≤ (1.1 * ((n + 1) * u + ε) * L + 1.1 * ε + η) * Real.exp M + η := by
  have hm : |m| ≤ 1.02 * L := by
    have : |m| ≤ |m - M| + |M| := by
      calc |m| = |(m - M) + M| := by congr 1; ring
        _ ≤ _ := abs_add_le _ _
    have q : (1.02 * (n * u) + 1.02 * ε) * L ≤ 0.02 * L := by
      apply mul_le_mul_of_nonneg_right _ hL0; norm_num at *; linarith
    norm_num at *; linarith
  have hum := mul_le_mul_of_nonneg_left hm hu0
  have hD : |y - M| ≤ 1.02 * (((n + 1) * u + ε) * L) + η / 2 := by
    calc |y - M| = |(y - m) + (m - M)| := by congr 1; ring
      _ ≤ _ := abs_add_le _ _
      _ ≤ (u * (1.02 * L) + η / 2) + (1.02 * (n * u) + 1.02 * ε) * L := by linarith
      _ = _ := by ring
  have hE : 0 ≤ ((n + 1) * u + ε) * L := by
    by_contra hh
    have := (abs_nonneg _).trans t4
    have h2 : 0 ≤ u * L := by positivity
    have h3 : ((n + 1) * u + ε) * L = (n * u + ε) * L + u * L := by ring
    have h4 : (1.02 * (n * u) + 1.02 * ε) * L = 1.02 * ((n * u + ε) * L) := by ring
    rw [h4] at this
    norm_num at *; linarith
  have e1 := abs_exp_sub_one_le (D := y - M) (c := 1.03) (by norm_num) (by norm_num at *; linarith)
  have hG := Real.exp_pos M
  have e2 : Real.exp y = Real.exp M * Real.exp (y - M) := by rw [← Real.exp_add]; congr 1; ring
  have e3 : |Real.exp y - Real.exp M| ≤ 1.03 * |y - M| * Real.exp M := by
    rw [e2, show Real.exp M * Real.exp (y - M) - Real.exp M = Real.exp M * (Real.exp (y - M) - 1) by ring, abs_mul, abs_of_pos hG, mul_comm]
    exact mul_le_mul_of_nonneg_right e1 hG.le
  have e4 : 1.03 * |y - M| ≤ 1.0506 * (((n + 1) * u + ε) * L) + 0.515 * η := by norm_num at *; linarith
  have e5 := e3.trans (mul_le_mul_of_nonneg_right e4 hG.le)
  have e6 : Real.exp y ≤ 1.1 * Real.exp M := by
    have := (abs_le.1 e5).2
    have k : (1.0506 * (((n + 1) * u + ε) * L) + 0.515 * η) * Real.exp M ≤ 0.1 * Real.exp M := by
      apply mul_le_mul_of_nonneg_right _ hG.le; norm_num at *; linarith
    norm_num at *; linarith
  have e7 := mul_le_mul_of_nonneg_left e6 hε0
  have e8 : 0 ≤ ((n + 1) * u + ε) * L * Real.exp M := by positivity
  have e9 : 0 ≤ η * Real.exp M := by positivity
  calc |r - Real.exp M| = |(r - Real.exp y) + (Real.exp y - Real.exp M)| := by congr 1; ring
    _ ≤ _ := abs_add_le _ _
    _ ≤ (ε * (1.1 * Real.exp M) + η) + (1.0506 * (((n + 1) * u + ε) * L) + 0.515 * η) * Real.exp M := by linarith
    _ ≤ _ := by
      rw [mul_assoc 1.1]
      generalize ((n + 1) * u + ε) * L = E at *
      norm_num at *; nlinarith

/-- C84: gmean of positive numbers.  With `L` the mean of the magnitudes of the logarithms, the
relative error is at most `1.1 ((n+1) 2^-p + ε) L + 1.1 ε`, up to underflow. -/
theorem C84_gmean_accuracy (h : Nearest p emin rd) (hp : 10 ≤ p) (he : (p : ℤ) + emin ≤ 0) (hε0 : 0 ≤ ε) (hε : ε ≤ 1 / 1000)
    (hl : GoodLog p emin ε lg) (hexp : GoodExp emin ε ex) (x : List ℝ) (hne : x ≠ []) (hn : 100 * (x.length : ℝ) ≤ 2 ^ p)
    (hx : ∀ a ∈ x, 0 < a) (hxf : ∀ a ∈ x, IsFloat p emin a) {L : ℝ} (hL : L = (x.map fun a => |Real.log a|).sum / x.length)
    (hb : ((x.length + 1) * (2 ^ p)⁻¹ + ε) * L ≤ 1 / 50) :
    ∃ r, gmean1dR (rnd rd) lg (xexpR ex) (x.map XF.fin) = .fin r ∧ 0 ≤ r ∧
      |r - geo x| ≤ (1.1 * ((x.length + 1) * (2 ^ p)⁻¹ + ε) * L + 1.1 * ε + 2 ^ emin) * geo x + 2 ^ emin := by
  obtain ⟨B, Q, h1, h2, -⟩ := gmeanLoopR_pos (rd := rd) (lg := lg) x 0 {} 0 hx rfl
  have hnl : 0 < x.length := List.length_pos_iff.2 hne
  have hn0 : (0 : ℝ) < x.length := by exact_mod_cast hnl
  have hη : (0 : ℝ) < 2 ^ emin := by positivity
  have hu0 : (0 : ℝ) < (2 ^ p)⁻¹ := by positivity
  have hL0 : 0 ≤ L := by
    rw [hL]; exact div_nonneg (List.sum_nonneg (by intro y hy; obtain ⟨v, -, rfl⟩ := List.mem_map.1 hy; positivity)) hn0.le
  have hG : 0 < geo x := Real.exp_pos _
  by_cases hB : B = true
  · obtain ⟨-, g2, -⟩ := h2.1 hB
    obtain ⟨v, hv⟩ := List.exists_mem_of_ne_nil x hne
    have hall : ∀ a ∈ x, a = v := fun a ha => by
      have : XF.fin a = XF.fin v := by rw [← g2 a ha, g2 v hv]
      exact XF.fin.inj this
    have hgeo : geo x = v := by
      rw [geo, List.map_congr_left (g := fun _ => Real.log v) (fun a ha => by rw [hall a ha])]
      rw [List.map_const', List.sum_replicate, nsmul_eq_mul, mul_div_cancel_left₀ _ hn0.ne', Real.exp_log (hx v hv)]
    refine ⟨v, C84_gmean_equal x v (hx v hv) hne hall, (hx v hv).le, ?_⟩
    rw [hgeo, sub_self, abs_zero]
    have := hx v hv
    positivity
  · have hnr : rd x.length = x.length := by
      apply h.exact; apply Mad.isFloat_nat (by omega) (by omega)
      have : (x.length : ℝ) ≤ 2 ^ p := by linarith
      exact_mod_cast this
    have hform : gmean1dR (rnd rd) lg (xexpR ex) (x.map XF.fin) = .fin (ex (rd (rsum rd 0 (x.map lg) / x.length))) := by
      rw [gmean1dR, h1, gmeanFinishR]
      simp only [Bool.false_or, Bool.false_and, Bool.false_eq_true, if_false, if_neg hB, List.length_map, rnd_fin, hnr]
      rw [XF.div_fin _ _ hn0.ne', rnd_fin]; rfl
    refine ⟨_, hform, hexp.nonneg _, ?_⟩
    have hu := Mad.unit_le_thousandth (K := ℝ) hp
    have hηu : (2 : ℝ) ^ emin ≤ (2 ^ p)⁻¹ := by
      rw [← zpow_natCast, ← zpow_neg]; exact zpow_le_zpow_right₀ (by norm_num) (by omega)
    have hnu : (x.length : ℝ) * (2 ^ p)⁻¹ ≤ 1 / 100 := by rw [← div_eq_mul_inv, div_le_iff₀ (by positivity)]; linarith
    have t1 := rsum_terms_list h (by omega) x lg Real.log (fun v hv => hl.float v (hxf v hv) (hx v hv)) (a := ε) (b := 0)
      (fun v hv => by rw [add_zero]; exact hl.error v (hxf v hv) (hx v hv))
    rw [mul_zero, mul_zero, add_zero] at t1
    have hpu := Mad.pow_bound (u := ((2 : ℝ) ^ p)⁻¹) hu0.le x.length hnu
    have t2 := h.error (by omega : 1 ≤ p) (rsum rd 0 (x.map lg) / x.length)
    have t3 := hexp.error (rd (rsum rd 0 (x.map lg) / x.length))
    have hM : |(x.map Real.log).sum / x.length| ≤ L := by
      rw [abs_div, abs_of_pos hn0, hL]
      exact div_le_div_of_nonneg_right (abs_sum_map_le x Real.log) hn0.le
    have t4 : |rsum rd 0 (x.map lg) / x.length - (x.map Real.log).sum / x.length| ≤ (1.02 * (x.length * (2 ^ p)⁻¹) + 1.02 * ε) * L := by
      rw [← sub_div, abs_div, abs_of_pos hn0, hL, ← mul_div_assoc]
      apply div_le_div_of_nonneg_right (t1.trans _) hn0.le
      apply mul_le_mul_of_nonneg_right _ (List.sum_nonneg (by intro y hy; obtain ⟨v, -, rfl⟩ := List.mem_map.1 hy; positivity))
      have q1 := mul_le_mul_of_nonneg_right hpu (by linarith : 0 ≤ 1 + ε)
      have q2 : (x.length * (2 ^ p)⁻¹ : ℝ) * ε ≤ 1 / 100 * ε := mul_le_mul_of_nonneg_right hnu hε0
      rw [mul_assoc 1.02] at q1
      clear * - q1 q2 hε0
      generalize (x.length * (2 ^ p)⁻¹ : ℝ) = X at *
      norm_num at *; linarith
    have hgeo : geo x = Real.exp ((x.map Real.log).sum / x.length) := rfl
    rw [hgeo]
    clear hgeo hG t1 hpu hform h1 h2 hn hnr
    generalize (x.map Real.log).sum / x.length = M at *
    generalize rsum rd 0 (x.map lg) / x.length = m at *
    generalize rd m = y at *
    generalize ex y = r at *
    exact gmean_finish hu0.le hnu hε0 hε hη (hηu.trans hu) hL0 hb hM t4 t2 t3

/-! ### Non-vacuity: doubles with an 80-bit long double -/

example : ∃ rd rx : ℝ → ℝ, Nearest 53 (-1074) rd ∧ Nearest 64 (-16445) rx := by
  obtain ⟨rd, h⟩ := exists_nearest (K := ℝ) (p := 53) (by norm_num) (-1074)
  obtain ⟨rx, hX⟩ := exists_nearest (K := ℝ) (p := 64) (by norm_num) (-16445)
  exact ⟨rd, rx, h, hX⟩

/-- The harmonic mean of (1, 2, 4) is 12/7 up to `1e-14`. -/
example (h : Nearest 53 (-1074) rd) (hX : Nearest 64 (-16445) rx) :
    ∃ r, hmean1dR (rnd rd) (rnd rx) [.fin 1, .fin 2, .fin 4] = .fin r ∧ |r - 12 / 7| ≤ 1 / 10 ^ 14 := by
  have hlow : (2 : ℝ) ^ 53 * 2 ^ (-1074 : ℤ) ≤ 1 / 4 := by
    rw [pow_zpow, show (1 / 4 : ℝ) = 2 ^ (-2 : ℤ) by norm_num]; exact zpow_le_zpow_right₀ (by norm_num) (by norm_num)
  obtain ⟨r, e, -, hr⟩ := C84_hmean_accuracy h hX (by norm_num) (by norm_num) (by norm_num) (by norm_num) [1, 2, 4] (by simp) (by norm_num)
    (by
      simp only [List.mem_cons, List.not_mem_nil, or_false]
      rintro a (rfl | rfl | rfl)
      · exact ⟨by norm_num, hlow.trans (by norm_num)⟩
      · exact ⟨by norm_num, hlow.trans (by norm_num)⟩
      · exact ⟨by norm_num, hlow⟩)
  refine ⟨r, e, ?_⟩
  have hh : harm [1, 2, 4] = 12 / 7 := by rw [harm]; norm_num
  have hη : (2 : ℝ) ^ (-1074 : ℤ) ≤ 2 ^ (-60 : ℤ) := zpow_le_zpow_right₀ (by norm_num) (by norm_num)
  rw [hh] at hr
  refine hr.trans ?_
  generalize (2 : ℝ) ^ (-1074 : ℤ) = η at *
  norm_num at *; linarith

/-- Logarithm and exponential rounded to nearest are admissible. -/
theorem goodExp_round (h : Nearest p emin rd) (hp : 1 ≤ p) : GoodExp emin (2 ^ p)⁻¹ (fun y => rd (Real.exp y)) where
  nonneg y := h.mono_float isFloat_zero (Real.exp_pos y).le
  error y := by
    have := h.error hp (Real.exp y)
    rw [abs_of_pos (Real.exp_pos y)] at this
    have : (0 : ℝ) < 2 ^ emin := by positivity
    linarith

/-- The logarithm of a number of the format other than 1 is not too small. -/
theorem log_lower (hp : 1 ≤ p) (he : emin ≤ -p) {a : ℝ} (hf : IsFloat p emin a) (ha : 0 < a) (h1 : a ≠ 1) : (2 : ℝ) ^ (-(p : ℤ) - 1) ≤ |Real.log a| := by
  have hpos : (0 : ℝ) < 2 ^ (-(p : ℤ) - 1) := by positivity
  have hle : (2 : ℝ) ^ (-(p : ℤ) - 1) ≤ 1 / 4 := by
    rw [show (1 / 4 : ℝ) = 2 ^ (-2 : ℤ) by norm_num]; exact zpow_le_zpow_right₀ (by norm_num) (by omega)
  have hlog1 := Real.log_le_sub_one_of_pos ha
  have hlog2 := Real.one_sub_inv_le_log_of_pos ha
  have gap : 2 * (2 : ℝ) ^ (-(p : ℤ) - 1) ≤ |a - 1| := by
    rcases le_or_gt (1 / 2) a with hb | hb
    · have hg : OnGrid (-(p : ℤ)) a := by
        have e : (2 : ℝ) ^ p * 2 ^ (-(p : ℤ) - 1) = 1 / 2 := by
          rw [pow_zpow, show (p : ℤ) + (-(p : ℤ) - 1) = -1 by ring]; norm_num
        have := hf.big_grid (k := -(p : ℤ) - 1) (by rw [e, abs_of_pos ha]; exact hb)
        simpa using this
      obtain ⟨n, hn⟩ := hg
      have e2 : (2 : ℝ) ^ p * 2 ^ (-(p : ℤ)) = 1 := by rw [pow_zpow]; simp
      have e3 : a - 1 = ((n - 2 ^ p : ℤ) : ℝ) * 2 ^ (-(p : ℤ)) := by
        push_cast; rw [sub_mul, e2, hn]
      have hz : n - 2 ^ p ≠ 0 := by
        intro h0; rw [h0] at e3; simp at e3; exact h1 (by linarith)
      have h2 : (1 : ℝ) ≤ |((n - 2 ^ p : ℤ) : ℝ)| := by
        rw [← Int.cast_abs]; exact_mod_cast Int.one_le_abs hz
      rw [e3, abs_mul, abs_of_pos (by positivity : (0 : ℝ) < 2 ^ (-(p : ℤ)))]
      have e4 : 2 * (2 : ℝ) ^ (-(p : ℤ) - 1) = 2 ^ (-(p : ℤ)) := by
        rw [zpow_sub₀ (by norm_num), zpow_one]; ring
      rw [e4]
      exact le_mul_of_one_le_left (by positivity) h2
    · rw [abs_of_neg (by linarith)]; linarith
  generalize (2 : ℝ) ^ (-(p : ℤ) - 1) = t at *
  rcases lt_or_gt_of_ne h1 with h | h
  · rw [abs_of_neg (by linarith)] at gap
    rw [abs_of_neg (by linarith)]; linarith
  · rw [abs_of_pos (by linarith)] at gap
    have h0 : 0 < Real.log a := Real.log_pos h
    rw [abs_of_pos h0]
    refine le_trans ?_ hlog2
    have : a⁻¹ ≤ 1 - t := by
      rw [inv_le_iff_one_le_mul₀ ha]
      nlinarith
    linarith

/-- The logarithm rounded to nearest is admissible, with `ε = 2^-p`. -/
theorem goodLog_round (h : Nearest p emin rd) (hp : 1 ≤ p) (he : emin ≤ -(2 * p) - 1) : GoodLog p emin (2 ^ p)⁻¹ (fun a => rd (Real.log a)) where
  float _ _ _ := (h _).1
  error a hf ha := by
    by_cases h1 : a = 1
    · subst h1; rw [Real.log_one, h.exact isFloat_zero]; simp
    · apply TriArea.rel_normal h hp
      refine le_trans ?_ (log_lower hp (by omega) hf ha h1)
      rw [pow_zpow]; exact zpow_le_zpow_right₀ (by norm_num) (by omega)

/-- The geometric mean of (1, 4) is 2 up to `1e-14`, with both functions rounded to nearest. -/
example (h : Nearest 53 (-1074) rd) : ∃ r, gmean1dR (rnd rd) (fun a => rd (Real.log a)) (xexpR fun y => rd (Real.exp y)) [.fin 1, .fin 4] = .fin r ∧ |r - 2| ≤ 1 / 10 ^ 14 := by
  have hl4 : Real.log 4 ≤ 3 := (Real.log_le_sub_one_of_pos (by norm_num)).trans (by norm_num)
  have hl0 : 0 ≤ Real.log 4 := Real.log_nonneg (by norm_num)
  obtain ⟨r, e, -, hr⟩ := C84_gmean_accuracy h (by norm_num) (by norm_num) (by positivity) (by norm_num) (goodLog_round h (by norm_num) (by norm_num))
    (goodExp_round h (by norm_num)) [1, 4] (by simp) (by norm_num)
    (by simp)
    (by
      simp only [List.mem_cons, List.not_mem_nil, or_false]
      rintro a (rfl | rfl)
      · exact ⟨1, 0, by norm_num, by norm_num, by norm_num⟩
      · exact ⟨4, 0, by norm_num, by norm_num, by norm_num⟩) (L := Real.log 4 / 2)
    (by simp [abs_of_nonneg hl0]) (by norm_num; linarith)
  refine ⟨r, e, ?_⟩
  have hg : geo [1, 4] = 2 := by
    rw [geo]
    simp only [List.map_cons, List.map_nil, Real.log_one, List.sum_cons, List.sum_nil, List.length_cons, List.length_nil]
    rw [show (4 : ℝ) = 2 ^ 2 by norm_num, Real.log_pow]
    norm_num [Real.exp_log]
  have hη : (2 : ℝ) ^ (-1074 : ℤ) ≤ 2 ^ (-60 : ℤ) := zpow_le_zpow_right₀ (by norm_num) (by norm_num)
  have hη0 : (0 : ℝ) < 2 ^ (-1074 : ℤ) := by positivity
  rw [hg] at hr
  refine hr.trans ?_
  clear hr e
  generalize (2 : ℝ) ^ (-1074 : ℤ) = η at *
  norm_num at *; linarith

end Ufunclab.Means
