import Verif.Model.MadOverflow
import Verif.Proof.Overflow
import Verif.Proof.MadRound
import Verif.Props.OverflowStep
import Verif.Props.Mad
import Verif.Props.TriAreaRound
/-!
# C89: overflow in mad, gini, rmad and tri_area

`ov rd Ω` rounds and replaces what is beyond `Ω`, the largest number of the format, by an infinity.
-/
namespace Ufunclab.Mad
open Ufunclab.Float Ufunclab.Step
variable {p : ℕ} {emin : ℤ} {rd : ℝ → ℝ} {Ω : ℝ}

theorem scanO_id (ts : List ℝ) : ∀ (k : ℕ) (s t : ℝ), scanO id k (.fin s) (.fin t) ts = (.fin (scan k s t ts).1, .fin (scan k s t ts).2) := by
  induction ts with
  | nil => intro k s t; rfl
  | cons v ts ih =>
    intro k s t
    rw [scanO, scan]
    simp only [id, XF.mul_fin, XF.sub_fin, XF.add_fin]
    exact ih _ _ _

/-- C89: without rounding the models are those of C38. -/
theorem C89_exact_arithmetic (x : List ℝ) (unbiased : Bool) :
    madO id x unbiased = mad x unbiased ∧ giniO id x unbiased = gini x unbiased ∧ rmadO id x unbiased = rmad x unbiased := by
  have e : unnormalizedMadO id x = (.fin (unnormalizedMad x).1, .fin (unnormalizedMad x).2) := by
    unfold unnormalizedMadO unnormalizedMad
    cases sort x with
    | nil => rfl
    | cons t ts => exact scanO_id ts 1 0 t
  have g : giniO id x unbiased = gini x unbiased := by
    unfold giniO gini
    simp only [e, id, XF.mul_fin]
    cases unbiased <;> simp only [if_true, Bool.false_eq_true, if_false, XF.eq_fin, Bool.and_eq_true, decide_eq_true_eq]
    · by_cases h : (x.length : ℝ) * (unnormalizedMad x).2 = 0
      · simp [h]
      · simp only [h, and_false, if_false]; exact XF.div_fin _ _ h
    · by_cases h : ((x.length : ℝ) - 1) * (unnormalizedMad x).2 = 0
      · simp [h]
      · simp only [h, and_false, if_false]; exact XF.div_fin _ _ h
  refine ⟨?_, g, ?_⟩
  · unfold madO mad
    simp only [e, id, XF.mul_fin]
  · unfold rmadO rmad
    rw [g]; rfl

/-- A multiple of a power of two by a number of at most `p` bits. -/
theorem isFloat_natMul (hp : 1 ≤ p) {k : ℤ} (hk : emin ≤ k) {n : ℕ} (hn : n ≤ 2 ^ p) : IsFloat p emin ((n : ℝ) * 2 ^ k) := by
  refine isFloat_of_grid hp hk ⟨n, by push_cast; rfl⟩ ?_
  rw [abs_of_nonneg (by positivity)]
  exact mul_le_mul_of_nonneg_right (by exact_mod_cast hn) (by positivity)

theorem ov_nat (h : Nearest p emin rd) (hp : 1 ≤ p) {k : ℤ} (hk : emin ≤ k) {n : ℕ} (hn : n ≤ 2 ^ p) (hΩ : (n : ℝ) * 2 ^ k ≤ Ω) {z : ℝ}
    (hz : |z| ≤ n * 2 ^ k) : ov rd Ω (.fin z) = .fin (rd z) ∧ |rd z| ≤ n * 2 ^ k := by
  have := abs_round_le h (isFloat_natMul hp hk hn) hz
  exact ⟨ov_fin (this.trans hΩ), this⟩

/-- The loop in the range. -/
theorem scanO_in_range (h : Nearest p emin rd) (hp : 1 ≤ p) (he : emin ≤ 0) (m j : ℕ) (hj : j ≤ p) (hΩ : 2 ^ (2 * j + m + 2) ≤ Ω) (ts : List ℝ) :
    ∀ (k : ℕ) (s t : ℝ), 1 ≤ k → k + ts.length ≤ 2 ^ j → (∀ v ∈ ts, |v| ≤ 2 ^ m) → |s| ≤ k * 2 ^ (j + m + 1 : ℤ) → |t| ≤ k * 2 ^ (m : ℤ) →
    scanO (ov rd Ω) k (.fin s) (.fin t) ts = (.fin (scanR rd k s t ts).1, .fin (scanR rd k s t ts).2) ∧
    |(scanR rd k s t ts).1| ≤ 2 ^ (2 * j + m + 1 : ℤ) ∧ |(scanR rd k s t ts).2| ≤ 2 ^ (j + m : ℤ) := by
  have hjp : 2 ^ j ≤ 2 ^ p := Nat.pow_le_pow_right (by norm_num) hj
  have hjr : ∀ {k : ℕ}, k ≤ 2 ^ j → ∀ i : ℤ, (k : ℝ) * 2 ^ i ≤ 2 ^ (j + i : ℤ) := by
    intro k hk i
    rw [← two_zpow_mul]
    refine mul_le_mul_of_nonneg_right ?_ (by positivity)
    rw [zpow_natCast]; exact_mod_cast hk
  have hΩ' : ∀ i : ℤ, i ≤ 2 * j + m + 2 → (2 : ℝ) ^ i ≤ Ω := fun i hi => by
    refine le_trans (zpow_le_zpow_right₀ (by norm_num) hi) ?_
    exact_mod_cast hΩ
  induction ts with
  | nil =>
    intro k s t _ hk _ hs ht
    rw [List.length_nil, Nat.add_zero] at hk
    refine ⟨rfl, hs.trans ((hjr hk _).trans_eq ?_), ht.trans (hjr hk _)⟩
    congr 1; ring
  | cons v ts ih =>
    intro k s t hk1 hk hv hs ht
    rw [List.length_cons] at hk
    have hk' : k ≤ 2 ^ j := by omega
    have hk2 : k + 1 ≤ 2 ^ j := by omega
    have kf : IsFloat p emin (k : ℝ) := isFloat_nat hp he (hk'.trans hjp)
    have vm : |v| ≤ 2 ^ (m : ℤ) := by rw [zpow_natCast]; exact hv v (by simp)
    have k0 : (0 : ℝ) ≤ k := by positivity
    have e0 : ov rd Ω (.fin (k : ℝ)) = .fin (rd (k : ℝ)) := by
      refine ov_fin ?_
      rw [h.exact kf, abs_of_nonneg k0]
      have := (hjr hk' 0).trans (hΩ' _ (by omega))
      simpa using this
    have rk : rd (k : ℝ) = k := h.exact kf
    have b1 : |rd (k : ℝ) * v| ≤ k * 2 ^ (m : ℤ) := by
      rw [rk, abs_mul, abs_of_nonneg k0]; exact mul_le_mul_of_nonneg_left vm k0
    obtain ⟨e1, c1⟩ := ov_nat h hp (by omega) (hk'.trans hjp) ((hjr hk' m).trans (hΩ' _ (by omega))) b1
    have b2 : |rd (rd (k : ℝ) * v) - t| ≤ 2 ^ (j + m + 1 : ℤ) := by
      refine (abs_sub _ _).trans ?_
      have := hjr hk' m
      rw [zpow_add_one₀ (by norm_num)]; linarith
    obtain ⟨e2, c2⟩ := ov_two h hp (by omega) (hΩ' _ (by omega)) b2
    have b3 : |s + rd (rd (rd (k : ℝ) * v) - t)| ≤ ((k + 1 : ℕ) : ℝ) * 2 ^ (j + m + 1 : ℤ) := by
      refine (abs_add_le _ _).trans ?_
      push_cast; linarith
    obtain ⟨e3, c3⟩ := ov_nat h hp (by omega) (hk2.trans hjp) ((hjr hk2 _).trans (hΩ' _ (by omega))) b3
    have b4 : |t + v| ≤ ((k + 1 : ℕ) : ℝ) * 2 ^ (m : ℤ) := by
      refine (abs_add_le _ _).trans ?_
      push_cast; linarith
    obtain ⟨e4, c4⟩ := ov_nat h hp (by omega) (hk2.trans hjp) ((hjr hk2 _).trans (hΩ' _ (by omega))) b4
    rw [scanO, scanR]
    simp only [e0, XF.mul_fin, e1, XF.sub_fin, e2, XF.add_fin, e3, e4]
    exact ih (k + 1) _ _ (by omega) (by omega) (fun w hw => hv w (by simp [hw])) c3 c4

theorem unnormalizedMadO_in_range (h : Nearest p emin rd) (hp : 1 ≤ p) (he : emin ≤ 0) (m j : ℕ) (hj : j ≤ p) (hΩ : 2 ^ (2 * j + m + 2) ≤ Ω)
    (x : List ℝ) (hn : x.length ≤ 2 ^ j) (hx : ∀ v ∈ x, |v| ≤ 2 ^ m) :
    unnormalizedMadO (ov rd Ω) x = (.fin (unnormalizedMadR rd x).1, .fin (unnormalizedMadR rd x).2) ∧
    |(unnormalizedMadR rd x).1| ≤ 2 ^ (2 * j + m + 1 : ℤ) ∧ |(unnormalizedMadR rd x).2| ≤ 2 ^ (j + m : ℤ) := by
  have hm : ∀ v ∈ sort x, |v| ≤ 2 ^ m := fun v hv => hx v (by simpa [sort] using hv)
  have hl : (sort x).length = x.length := by simp [sort]
  unfold unnormalizedMadO unnormalizedMadR
  cases hs : sort x with
  | nil => refine ⟨rfl, ?_, ?_⟩ <;> simp only [abs_zero] <;> positivity
  | cons t ts =>
    rw [hs] at hm hl
    rw [List.length_cons] at hl
    exact scanO_in_range h hp he m j hj hΩ ts 1 0 t le_rfl (by omega) (fun v hv => hm v (by simp [hv])) (by rw [abs_zero]; positivity)
      (by have := hm t (by simp); simpa using this)

theorem ov_of_le {a b : ℝ} (h : Nearest p emin rd) (hΩ : IsFloat p emin Ω) (ha : |a| ≤ Ω) (hb : 1 ≤ b) : ov rd Ω (.fin (a / b)) = .fin (rd (a / b)) := by
  refine ov_le h hΩ ?_
  rw [abs_div, abs_of_pos (show 0 < b by linarith)]
  exact (div_le_self (abs_nonneg _) hb).trans ha

/-- C89: data of magnitude at most `2^m`, `n ≤ 2^j` of them: if `2^(2j+m+2)` is in the range, `mad` does not
overflow, and `gini` and `rmad` overflow only in the last operation. -/
theorem C89_mad (h : Nearest p emin rd) (hp : 1 ≤ p) (he : emin ≤ 0) (hΩf : IsFloat p emin Ω) (m j : ℕ) (hj : j ≤ p) (hΩ : 2 ^ (2 * j + m + 2) ≤ Ω)
    (x : List ℝ) (hne : x ≠ []) (hn : x.length ≤ 2 ^ j) (hx : ∀ v ∈ x, |v| ≤ 2 ^ m) (unbiased : Bool) :
    madO (ov rd Ω) x unbiased = madR rd x unbiased ∧ giniO (ov rd Ω) x unbiased = ov id Ω (giniR rd x unbiased) ∧
    rmadO (ov rd Ω) x unbiased = ov id Ω (rmadR rd x unbiased) := by
  obtain ⟨e, b1, b2⟩ := unnormalizedMadO_in_range h hp he m j hj hΩ x hn hx
  have hΩ' : ∀ i : ℤ, i ≤ 2 * j + m + 2 → (2 : ℝ) ^ i ≤ Ω := fun i hi => by
    refine le_trans (zpow_le_zpow_right₀ (by norm_num) hi) ?_
    exact_mod_cast hΩ
  have n1 : 1 ≤ x.length := List.length_pos_iff.2 hne
  have hnr : (x.length : ℝ) ≤ 2 ^ (j : ℤ) := by rw [zpow_natCast]; exact_mod_cast hn
  have n1r : (1 : ℝ) ≤ x.length := by exact_mod_cast n1
  have rn1 : 1 ≤ rd (x.length : ℝ) := h.mono_float (isFloat_one hp he) n1r
  have rn2 : 1 ≤ rd ((x.length : ℝ) * x.length) := h.mono_float (isFloat_one hp he) (by nlinarith)
  have nabs : |(x.length : ℝ)| ≤ 2 ^ (j : ℤ) := by rw [abs_of_nonneg (by linarith)]; exact hnr
  obtain ⟨en, cn⟩ := ov_two h hp (by omega) (hΩ' _ (by omega)) nabs
  obtain ⟨en1, cn1⟩ := ov_two h hp (by omega) (hΩ' _ (by omega))
    (show |(x.length : ℝ) - 1| ≤ 2 ^ (j : ℤ) by rw [abs_of_nonneg (by linarith)]; linarith)
  obtain ⟨enn, -⟩ := ov_two h hp (by omega) (hΩ' _ (by omega)) (abs_mul_two nabs nabs)
  have b3 : |2 * (unnormalizedMadR rd x).1| ≤ 2 ^ (2 * j + m + 1 + 1 : ℤ) := by
    rw [abs_mul, abs_two, zpow_add_one₀ (by norm_num)]; linarith
  obtain ⟨es, cs⟩ := ov_two h hp (by omega) (hΩ' _ (by omega)) b3
  have cs' := cs.trans (hΩ' _ (by omega))
  have g : giniO (ov rd Ω) x unbiased = ov id Ω (giniR rd x unbiased) := by
    unfold giniO giniR
    simp only [e, en, en1, XF.mul_fin]
    obtain ⟨d1, -⟩ := ov_two h hp (by omega) (hΩ' _ (by omega)) (abs_mul_two cn b2)
    obtain ⟨d2, -⟩ := ov_two h hp (by omega) (hΩ' _ (by omega)) (abs_mul_two cn1 b2)
    have key : ∀ d : ℝ, (if (XF.fin (unnormalizedMadR rd x).1).eq (.fin 0) && (XF.fin d).eq (.fin 0) then XF.nan
        else if (XF.fin d).eq (.fin 0) then .pinf else ov rd Ω ((XF.fin (unnormalizedMadR rd x).1).div (.fin d))) =
        ov id Ω (if (unnormalizedMadR rd x).1 = 0 ∧ d = 0 then .nan else if d = 0 then .pinf else .fin (rd ((unnormalizedMadR rd x).1 / d))) := by
      intro d
      simp only [XF.eq_fin, Bool.and_eq_true, decide_eq_true_eq]
      by_cases hd : d = 0
      · by_cases hu : (unnormalizedMadR rd x).1 = 0 <;> simp [hd, hu, ov]
      · simp only [hd, and_false, if_false, XF.div_fin _ _ hd]; rfl
    cases unbiased
    · simp only [Bool.false_eq_true, if_false, d1]; exact key _
    · simp only [if_true, d2]; exact key _
  refine ⟨?_, g, ?_⟩
  · unfold madO madR
    simp only [e, XF.mul_fin, es, en, en1, enn]
    cases unbiased
    · simp only [Bool.false_eq_true, if_false]
      rw [XF.div_fin _ _ (by linarith), ov_of_le h hΩf cs' rn2]; rfl
    · simp only [if_true]
      rw [XF.div_fin _ _ (show rd (x.length : ℝ) ≠ 0 by linarith), ov_of_le h hΩf cs' rn1]
      show ov rd Ω ((XF.fin (rd (rd (2 * (unnormalizedMadR rd x).1) / rd ↑x.length))).div (.fin (rd (↑x.length - 1)))) =
        rnd rd ((XF.fin (rd (rd (2 * (unnormalizedMadR rd x).1) / rd ↑x.length))).div (.fin (rd (↑x.length - 1))))
      have ha : |rd (rd (2 * (unnormalizedMadR rd x).1) / rd ↑x.length)| ≤ Ω := by
        refine abs_round_le h hΩf ?_
        rw [abs_div, abs_of_pos (show 0 < rd (x.length : ℝ) by linarith)]
        exact (div_le_self (abs_nonneg _) rn1).trans cs'
      generalize rd (rd (2 * (unnormalizedMadR rd x).1) / rd ↑x.length) = a at *
      rcases Nat.lt_or_ge 1 x.length with h2 | h2
      · have h3 : (1 : ℝ) ≤ (x.length : ℝ) - 1 := by
          have : (2 : ℝ) ≤ x.length := by exact_mod_cast h2
          linarith
        have h4 := h.mono_float (isFloat_one hp he) h3
        rw [XF.div_fin _ _ (by linarith), ov_of_le h hΩf ha h4]; rfl
      · have h3 : x.length = 1 := by omega
        rw [h3, Nat.cast_one, sub_self, h.round_zero]
        simp only [XF.div, if_true]
        split_ifs <;> rfl
  · have gf : ∀ v, giniR rd x unbiased = .fin v → IsFloat p emin v := by
      intro v hv
      unfold giniR at hv
      cases unbiased <;> simp only [Bool.false_eq_true, if_false, if_true] at hv <;> split_ifs at hv <;> cases hv <;> exact (h _).1
    unfold rmadO rmadR
    rw [g]
    cases hg : giniR rd x unbiased with
    | nan => rfl
    | pinf => simp [XF.isnan, ov, XF.mul, XF.infMul, rnd]
    | ninf => simp [XF.isnan, ov, XF.mul, XF.infMul, rnd]
    | fin v =>
      have fv := gf v hg
      have h0 : 0 ≤ Ω := le_trans (by positivity) hΩ
      show (if !XF.isnan (ov id Ω (.fin v)) then ov rd Ω (XF.mul (ov id Ω (.fin v)) (.fin 2)) else ov id Ω (.fin v)) = ov id Ω (.fin (rd (v * 2)))
      rcases lt_trichotomy (0 : ℝ) v with hv | rfl | hv
      · by_cases c : Ω < v
        · have e1 : ov id Ω (.fin v) = .pinf := by simp [ov, c]
          have e2 : Ω < rd (v * 2) := lt_of_lt_of_le c (h.mono_float fv (by linarith))
          rw [e1]
          simp [XF.isnan, XF.mul, XF.infMul, ov, e2]
        · have e1 : ov id Ω (.fin v) = .fin v := by
            have : ¬ v < -Ω := by linarith
            simp [ov, c, this]
          rw [e1]; rfl
      · rw [zero_mul, h.round_zero]
        have e1 : ov id Ω (.fin 0) = .fin 0 := by
          have : ¬ Ω < 0 := by linarith
          simp [ov, this]
        rw [e1]
        have : ¬ Ω < 0 := by linarith
        simp [XF.isnan, ov, h.round_zero, this]
      · by_cases c : v < -Ω
        · have c1 : ¬ Ω < v := by linarith
          have e1 : ov id Ω (.fin v) = .ninf := by simp [ov, c, c1]
          have e2 : rd (v * 2) < -Ω := lt_of_le_of_lt (h.mono_float' fv (by linarith)) c
          have e3 : ¬ Ω < rd (v * 2) := by linarith
          rw [e1]
          simp [XF.isnan, XF.mul, XF.infMul, ov, e2, e3]
        · have e1 : ov id Ω (.fin v) = .fin v := by
            have : ¬ Ω < v := by linarith
            simp [ov, c, this]
          rw [e1]; rfl

end Ufunclab.Mad

namespace Ufunclab.Mad
open Ufunclab.Float Ufunclab.Step
variable {rd : ℝ → ℝ}

/-- C89 in double precision: up to 1024 numbers of magnitude at most `2^1000`. -/
theorem C89_mad_double (h : Nearest 53 (-1074) rd) (x : List ℝ) (hne : x ≠ []) (hn : x.length ≤ 1024) (hx : ∀ v ∈ x, |v| ≤ 2 ^ 1000) (unbiased : Bool) :
    madO (ov rd maxDouble) x unbiased = madR rd x unbiased :=
  (C89_mad h (by norm_num) (by norm_num) isFloat_maxDouble 1000 10 (by norm_num)
    (le_trans (by rw [← zpow_natCast]; exact zpow_le_zpow_right₀ (by norm_num) (by norm_num)) maxDouble_ge) x hne (by norm_num; exact hn) hx unbiased).1

theorem two_mul_1023 : (2 : ℝ) * 2 ^ (1023 : ℤ) = 2 ^ (1024 : ℤ) := by
  rw [show (1024 : ℤ) = 1023 + 1 by norm_num, zpow_add_one₀ (by norm_num)]; ring

theorem add_1023 : (2 : ℝ) ^ (1023 : ℤ) + 2 ^ (1023 : ℤ) = 2 ^ (1024 : ℤ) := by rw [← two_mul_1023]; ring

/-- C89 fails for large data: in double precision `mad([0, 2^1023, 2^1023])` is inf, not `4/9*2^1023`; the Gini index of
the same data is NaN, not 1/3; and `mad` of three equal numbers `2^1023` is NaN, not 0. -/
theorem C89_mad_violated (h : Nearest 53 (-1074) rd) :
    madO (ov rd maxDouble) [0, 2 ^ (1023 : ℤ), 2 ^ (1023 : ℤ)] false = .pinf ∧
    mad [0, (2 : ℝ) ^ (1023 : ℤ), 2 ^ (1023 : ℤ)] false = .fin (4 / 9 * 2 ^ (1023 : ℤ)) ∧
    giniO (ov rd maxDouble) [0, 2 ^ (1023 : ℤ), 2 ^ (1023 : ℤ)] false = .nan ∧
    gini [0, (2 : ℝ) ^ (1023 : ℤ), 2 ^ (1023 : ℤ)] false = .fin (1 / 3) ∧
    madO (ov rd maxDouble) [2 ^ (1023 : ℤ), 2 ^ (1023 : ℤ), 2 ^ (1023 : ℤ)] false = .nan ∧
    mad [(2 : ℝ) ^ (1023 : ℤ), 2 ^ (1023 : ℤ), 2 ^ (1023 : ℤ)] false = .fin 0 := by
  have hp := pos_1023
  have hM : (16 : ℝ) ≤ maxDouble := le_trans (by
    rw [show (16 : ℝ) = 2 ^ (4 : ℤ) by norm_num]; exact zpow_le_zpow_right₀ (by norm_num) (by norm_num)) maxDouble_ge
  have e23 := ov_exact h (isFloat_zpow (by norm_num) (show (-1074 : ℤ) ≤ 1023 by norm_num)) (by rw [abs_of_pos hp]; exact maxDouble_ge)
  have en : ∀ n : ℕ, n ≤ 16 → ov rd maxDouble (.fin (n : ℝ)) = .fin (n : ℝ) := by
    intro n hn
    refine ov_exact h (isFloat_nat (by norm_num) (by norm_num) (hn.trans (by norm_num))) ?_
    have : (n : ℝ) ≤ 16 := by exact_mod_cast hn
    rw [abs_of_nonneg (by positivity)]; linarith
  have e2 : ov rd maxDouble (.fin 2) = .fin 2 := by simpa using en 2 (by norm_num)
  have e3 : ov rd maxDouble (.fin 3) = .fin 3 := by simpa using en 3 (by norm_num)
  have e9 : ov rd maxDouble (.fin 9) = .fin 9 := by simpa using en 9 (by norm_num)
  have s1 : sort [0, (2 : ℝ) ^ (1023 : ℤ), 2 ^ (1023 : ℤ)] = [0, 2 ^ (1023 : ℤ), 2 ^ (1023 : ℤ)] := by
    apply List.mergeSort_of_pairwise
    simp
  have s2 : sort [(2 : ℝ) ^ (1023 : ℤ), 2 ^ (1023 : ℤ), 2 ^ (1023 : ℤ)] = [2 ^ (1023 : ℤ), 2 ^ (1023 : ℤ), 2 ^ (1023 : ℤ)] := by
    apply List.mergeSort_of_pairwise
    simp
  have u1 : unnormalizedMadO (ov rd maxDouble) [0, 2 ^ (1023 : ℤ), 2 ^ (1023 : ℤ)] = (.pinf, .pinf) := by
    unfold unnormalizedMadO
    rw [s1]
    simp only [scanO, Nat.cast_one, Nat.reduceAdd, Nat.cast_ofNat, ov_one h, XF.mul_fin, one_mul, e23, XF.sub_fin, sub_zero, XF.add_fin, zero_add, e2,
      two_mul_1023, ov_1024 h, add_1023]
    rfl
  have u2 : unnormalizedMadO (ov rd maxDouble) [2 ^ (1023 : ℤ), 2 ^ (1023 : ℤ), 2 ^ (1023 : ℤ)] = (.nan, .pinf) := by
    unfold unnormalizedMadO
    rw [s2]
    simp only [scanO, Nat.cast_one, Nat.reduceAdd, Nat.cast_ofNat, ov_one h, XF.mul_fin, one_mul, e23, XF.sub_fin, sub_self, XF.add_fin, zero_add, e2,
      two_mul_1023, ov_1024 h, add_1023, ov_zero h]
    rfl
  have l : ∀ a b c : ℝ, (([a, b, c] : List ℝ).length : ℝ) = 3 := fun _ _ _ => by norm_num
  have n9 : (3 : ℝ) * 3 = 9 := by norm_num
  refine ⟨?_, ?_, ?_, ?_, ?_, ?_⟩
  · unfold madO
    simp only [u1, l, n9, e9, Bool.false_eq_true, if_false]
    norm_num [XF.mul, XF.infMul, ov, XF.div]
  · rw [C38_mad _ (by simp)]
    congr 1
    generalize (2 : ℝ) ^ (1023 : ℤ) = t at hp
    simp [Spec.meanAbsDiff, Spec.pairSum, abs_of_pos hp]
    ring
  · unfold giniO
    simp only [u1, l, e3, Bool.false_eq_true, if_false]
    norm_num [XF.mul, XF.infMul, ov, XF.div, XF.eq]
  · unfold gini unnormalizedMad
    rw [s1]
    simp only [scan, l, Bool.false_eq_true, if_false]
    generalize (2 : ℝ) ^ (1023 : ℤ) = t at hp
    have : 3 * (0 + t + t) ≠ 0 := by positivity
    rw [if_neg (fun hc => this hc.2), if_neg this]
    congr 1
    push_cast
    field_simp
    ring
  · unfold madO
    simp only [u2, Bool.false_eq_true, if_false]
    rfl
  · rw [C38_mad _ (by simp)]
    congr 1
    simp [Spec.meanAbsDiff, Spec.pairSum]

/-- Data that meet the hypotheses. -/
example : ∃ rd : ℝ → ℝ, Nearest 53 (-1074) rd ∧ madO (ov rd maxDouble) [1, 2, 2 ^ 900] true = madR rd [1, 2, 2 ^ 900] true := by
  obtain ⟨rd, h⟩ := exists_nearest (K := ℝ) (p := 53) (by norm_num) (-1074)
  have l : (2 : ℝ) ^ 900 ≤ 2 ^ 1000 := pow_le_pow_right₀ (by norm_num) (by norm_num)
  have l1 : (1 : ℝ) ≤ 2 ^ 1000 := one_le_pow₀ (by norm_num)
  have l2 : (2 : ℝ) ≤ 2 ^ 1000 := le_self_pow₀ (by norm_num) (by norm_num)
  refine ⟨rd, h, C89_mad_double h _ (by simp) (by simp) ?_ true⟩
  intro v hv
  simp only [List.mem_cons, List.not_mem_nil, or_false] at hv
  rcases hv with rfl | rfl | rfl
  · rw [abs_one]; exact l1
  · rw [abs_two]; exact l2
  · rw [abs_of_pos (by positivity)]; exact l

end Ufunclab.Mad

namespace Ufunclab.TriArea
open Ufunclab.Float Ufunclab.Step Ufunclab.Mad
variable {p : ℕ} {emin : ℤ} {rd : ℝ → ℝ} {Ω : ℝ}

theorem sumSqDiffO_id (P : Int → Nat → ℝ) (i1 i2 : Int) (fuel : ℕ) : ∀ (k : ℕ) (s : ℝ),
    sumSqDiffO id P i1 i2 fuel k (.fin s) = .fin (sumSqDiff P i1 i2 fuel k s) := by
  induction fuel with
  | zero => intro k s; rfl
  | succ f ih =>
    intro k s
    rw [sumSqDiffO, sumSqDiff]
    simp only [id, XF.mul_fin, XF.sub_fin, XF.add_fin]
    exact ih _ _

theorem sort3O_fin (a b c : ℝ) : sort3O (.fin a) (.fin b) (.fin c) = (.fin (sort3 a b c).1, .fin (sort3 a b c).2.1, .fin (sort3 a b c).2.2) := by
  unfold sort3O sort3
  simp only [XF.gt_fin, decide_eq_true_eq, gt_iff_lt]
  by_cases h1 : a < b
  · simp only [h1, if_true, XF.gt_fin, decide_eq_true_eq]
    split_ifs <;> rfl
  · simp only [h1, if_false, XF.gt_fin, decide_eq_true_eq]
    split_ifs <;> rfl

theorem sumSqDiff_nonneg (P : Int → Nat → ℝ) (i1 i2 : Int) (fuel : ℕ) : ∀ (k : ℕ) (s : ℝ), 0 ≤ s → 0 ≤ sumSqDiff P i1 i2 fuel k s := by
  induction fuel with
  | zero => intro k s hs; exact hs
  | succ f ih => intro k s hs; exact ih _ _ (add_nonneg hs (mul_self_nonneg _))

theorem normDiffO_id (n : ℕ) (P : Int → Nat → ℝ) (i1 i2 : Int) : normDiffO id n P i1 i2 = .fin (normDiff n P i1 i2) := by
  unfold normDiffO normDiff
  rw [sumSqDiffO_id]
  show (if sumSqDiff P i1 i2 n 0 0 < 0 then XF.nan else .fin (Real.sqrt (sumSqDiff P i1 i2 n 0 0))) = _
  rw [if_neg (not_lt.2 (sumSqDiff_nonneg P i1 i2 n 0 0 le_rfl))]

/-- The loop in the range. -/
theorem sumSqDiffO_in_range (h : Nearest p emin rd) (hp : 1 ≤ p) (he : emin ≤ 0) (m j : ℕ) (hj : j ≤ p) (hΩ : 2 ^ (j + (2 * m + 2)) ≤ Ω)
    (P : Int → Nat → ℝ) (i1 i2 : Int) (n : ℕ) (hn : n ≤ 2 ^ j) (hP1 : ∀ k < n, |P i1 k| ≤ 2 ^ m) (hP2 : ∀ k < n, |P i2 k| ≤ 2 ^ m) :
    ∀ (fuel k : ℕ) (s : ℝ), k + fuel = n → 0 ≤ s → s ≤ k * 2 ^ (2 * m + 2 : ℤ) →
    sumSqDiffO (ov rd Ω) P i1 i2 fuel k (.fin s) = .fin (sumSqDiffR rd P i1 i2 fuel k s) ∧
    0 ≤ sumSqDiffR rd P i1 i2 fuel k s ∧ sumSqDiffR rd P i1 i2 fuel k s ≤ 2 ^ (j + (2 * m + 2) : ℤ) := by
  have hjp : 2 ^ j ≤ 2 ^ p := Nat.pow_le_pow_right (by norm_num) hj
  have hjr : ∀ {k : ℕ}, k ≤ 2 ^ j → ∀ i : ℤ, (k : ℝ) * 2 ^ i ≤ 2 ^ (j + i : ℤ) := by
    intro k hk i
    rw [← two_zpow_mul]
    refine mul_le_mul_of_nonneg_right ?_ (by positivity)
    rw [zpow_natCast]; exact_mod_cast hk
  have hΩ' : ∀ i : ℤ, i ≤ j + (2 * m + 2) → (2 : ℝ) ^ i ≤ Ω := fun i hi => by
    refine le_trans (zpow_le_zpow_right₀ (by norm_num) hi) ?_
    exact_mod_cast hΩ
  intro fuel
  induction fuel with
  | zero =>
    intro k s hk hs hs2
    exact ⟨rfl, hs, hs2.trans (hjr (by omega) _)⟩
  | succ f ih =>
    intro k s hk hs hs2
    have h1 : |P i1 k| ≤ 2 ^ (m : ℤ) := by rw [zpow_natCast]; exact hP1 k (by omega)
    have h2 : |P i2 k| ≤ 2 ^ (m : ℤ) := by rw [zpow_natCast]; exact hP2 k (by omega)
    obtain ⟨e1, c1⟩ := ov_two h hp (by omega) (hΩ' _ (by omega)) (abs_sub_two h2 h1)
    obtain ⟨e2, c2⟩ := ov_two h hp (by omega) (hΩ' _ (by omega)) (abs_mul_two c1 c1)
    have q0 : 0 ≤ rd (rd (P i2 k - P i1 k) * rd (P i2 k - P i1 k)) := h.mono_float isFloat_zero (mul_self_nonneg _)
    have hk2 : k + 1 ≤ 2 ^ j := by omega
    have b3 : |s + rd (rd (P i2 k - P i1 k) * rd (P i2 k - P i1 k))| ≤ ((k + 1 : ℕ) : ℝ) * 2 ^ (2 * m + 2 : ℤ) := by
      rw [abs_of_nonneg q0, show ((m : ℤ) + 1 + (m + 1)) = 2 * m + 2 by ring] at c2
      rw [abs_of_nonneg (by linarith)]
      push_cast; linarith
    obtain ⟨e3, c3⟩ := ov_nat h hp (by omega) (hk2.trans hjp) ((hjr hk2 _).trans (hΩ' _ (by omega))) b3
    have r0 : 0 ≤ rd (s + rd (rd (P i2 k - P i1 k) * rd (P i2 k - P i1 k))) := h.mono_float isFloat_zero (by linarith)
    rw [abs_of_nonneg r0] at c3
    rw [sumSqDiffO, sumSqDiffR]
    simp only [XF.sub_fin, e1, XF.mul_fin, e2, XF.add_fin, e3]
    exact ih (k + 1) _ (by omega) r0 c3

theorem normDiffO_in_range (h : Nearest p emin rd) (hp : 1 ≤ p) (he : emin ≤ 0) (m i : ℕ) (hj : 2 * i ≤ p) (hΩ : 2 ^ (2 * i + (2 * m + 2)) ≤ Ω)
    (P : Int → Nat → ℝ) (i1 i2 : Int) (n : ℕ) (hn : n ≤ 4 ^ i) (hP1 : ∀ k < n, |P i1 k| ≤ 2 ^ m) (hP2 : ∀ k < n, |P i2 k| ≤ 2 ^ m) :
    normDiffO (ov rd Ω) n P i1 i2 = .fin (normDiffR rd n P i1 i2) ∧ 0 ≤ normDiffR rd n P i1 i2 ∧ normDiffR rd n P i1 i2 ≤ 2 ^ (i + m + 1 : ℤ) := by
  have hn' : n ≤ 2 ^ (2 * i) := by rw [pow_mul]; exact hn
  obtain ⟨e, s0, s1⟩ := sumSqDiffO_in_range h hp he m (2 * i) hj hΩ P i1 i2 n hn' hP1 hP2 n 0 0 (by omega) le_rfl (by simp)
  have hΩ' : (2 : ℝ) ^ (i + m + 1 : ℤ) ≤ Ω := by
    refine le_trans (zpow_le_zpow_right₀ (by norm_num) (show (i + m + 1 : ℤ) ≤ ((2 * i + (2 * m + 2) : ℕ) : ℤ) by push_cast; omega)) ?_
    rw [zpow_natCast]; exact hΩ
  have hs : Real.sqrt (sumSqDiffR rd P i1 i2 n 0 0) ≤ 2 ^ (i + m + 1 : ℤ) := by
    refine Real.sqrt_le_iff.2 ⟨by positivity, s1.trans_eq ?_⟩
    rw [sq, two_zpow_mul]; congr 1; push_cast; ring
  obtain ⟨e1, c1⟩ := ov_two h hp (by omega) hΩ' (show |Real.sqrt (sumSqDiffR rd P i1 i2 n 0 0)| ≤ 2 ^ (i + m + 1 : ℤ) by
    rw [abs_of_nonneg (Real.sqrt_nonneg _)]; exact hs)
  have r0 : 0 ≤ rd (Real.sqrt (sumSqDiffR rd P i1 i2 n 0 0)) := h.mono_float isFloat_zero (Real.sqrt_nonneg _)
  rw [abs_of_nonneg r0] at c1
  refine ⟨?_, r0, c1⟩
  unfold normDiffO normDiffR
  rw [e]
  have : Corr.xsqrt (.fin (sumSqDiffR rd P i1 i2 n 0 0)) = .fin (Real.sqrt (sumSqDiffR rd P i1 i2 n 0 0)) := if_neg (not_lt.2 s0)
  rw [this, e1]

/-- C89: without rounding the area is that of C44. -/
theorem C89_tri_area_exact_arithmetic (n : ℕ) (P : Int → Nat → ℝ) : triAreaO id n P = .fin (triArea n P) := by
  rw [← (C76_exact_arithmetic n P).2]
  have e : ∀ i j, normDiffR id n P i j = normDiff n P i j := by
    intro i j; simp only [normDiffR, normDiff, sumSqDiffR_id, id]
  unfold triAreaO triAreaCommonO triAreaR triAreaCommonR
  simp only [normDiffO_id, sort3O_fin, e]
  unfold kahanO kahanR
  simp only [id, XF.add_fin, XF.sub_fin, XF.mul_fin]
  rw [show ∀ q : ℝ, Corr.xsqrt (.fin q) = if q < 0 then .nan else .fin (Real.sqrt q) from fun _ => rfl]
  split_ifs
  · rfl
  · exact XF.div_fin _ _ (by norm_num)

/-- C89: points with coordinates of magnitude at most `2^m` in a space of dimension at most `4^i`: the area does not
overflow if `2^(4(i+m+2))` is in the range. -/
theorem C89_tri_area (h : Nearest p emin rd) (hp : 1 ≤ p) (he : emin ≤ 0) (m i : ℕ) (hi : 2 * i ≤ p) (hΩ : 2 ^ (4 * (i + m + 2)) ≤ Ω)
    (hΩf : IsFloat p emin Ω) (P : Int → Nat → ℝ) (n : ℕ) (hn : n ≤ 4 ^ i) (hP : ∀ a : Int, 0 ≤ a → a < 3 → ∀ k < n, |P a k| ≤ 2 ^ m) :
    triAreaO (ov rd Ω) n P = triAreaR rd n P := by
  have hΩ' : ∀ j : ℤ, j ≤ 4 * (i + m + 2) → (2 : ℝ) ^ j ≤ Ω := fun j hj => by
    refine le_trans (zpow_le_zpow_right₀ (by norm_num) hj) ?_
    exact_mod_cast hΩ
  have hΩ2 : (2 : ℝ) ^ (2 * i + (2 * m + 2)) ≤ Ω := le_trans (pow_le_pow_right₀ (by norm_num) (by omega)) hΩ
  have V : ∀ {k : ℤ} {z : ℝ}, 0 ≤ k → k ≤ 4 * (i + m + 2) → |z| ≤ 2 ^ k → ov rd Ω (.fin z) = .fin (rd z) ∧ |rd z| ≤ 2 ^ k :=
    fun hk hk' hz => ov_two h hp (by omega) (hΩ' _ hk') hz
  have side := fun a b : Int => fun (ha : 0 ≤ a ∧ a < 3) (hb : 0 ≤ b ∧ b < 3) =>
    normDiffO_in_range h hp he m i hi hΩ2 P a b n hn (hP a ha.1 ha.2) (hP b hb.1 hb.2)
  obtain ⟨ea, a0, a1⟩ := side 0 1 (by norm_num) (by norm_num)
  obtain ⟨eb, b0, b1⟩ := side 0 2 (by norm_num) (by norm_num)
  obtain ⟨ec, c0, c1⟩ := side 1 2 (by norm_num) (by norm_num)
  unfold triAreaO triAreaCommonO triAreaR triAreaCommonR
  simp only [ea, eb, ec, sort3O_fin]
  obtain ⟨o1, o2, hperm⟩ := C44_sides_sorted (normDiffR rd n P 0 1) (normDiffR rd n P 0 2) (normDiffR rd n P 1 2)
  generalize normDiffR rd n P 0 1 = x at *
  generalize normDiffR rd n P 0 2 = y at *
  generalize normDiffR rd n P 1 2 = z at *
  generalize ha : (sort3 x y z).1 = a at *
  generalize hb : (sort3 x y z).2.1 = b at *
  generalize hc : (sort3 x y z).2.2 = c at *
  have hall : ∀ w ∈ [x, y, z], 0 ≤ w ∧ w ≤ (2 : ℝ) ^ (i + m + 1 : ℤ) := by
    intro w hw
    simp only [List.mem_cons, List.not_mem_nil, or_false] at hw
    rcases hw with rfl | rfl | rfl
    exacts [⟨a0, a1⟩, ⟨b0, b1⟩, ⟨c0, c1⟩]
  have A := (hall a (hperm.mem_iff.1 (by simp))).2
  have C := (hall c (hperm.mem_iff.1 (by simp))).1
  clear hall hperm ha hb hc a0 a1 b0 b1 c0 c1 side ea eb ec
  unfold kahanO kahanR
  simp only [XF.add_fin, XF.sub_fin]
  set e : ℤ := i + m + 1 with hee
  have Aa : |a| ≤ 2 ^ e := by rw [abs_of_nonneg (by linarith)]; exact A
  have Ba : |b| ≤ 2 ^ e := by rw [abs_of_nonneg (by linarith)]; linarith
  have Ca : |c| ≤ 2 ^ e := by rw [abs_of_nonneg C]; linarith
  have two : (2 : ℝ) ^ e ≤ 2 ^ (e + 1) := zpow_le_zpow_right₀ (by norm_num) (by omega)
  obtain ⟨s1, t1⟩ := V (by omega) (by omega) (abs_add_two Ba Ca)
  obtain ⟨s2, t2⟩ := V (by omega) (by omega) (abs_add_two (Aa.trans two) t1)
  obtain ⟨s3, t3⟩ := V (by omega) (by omega) (show |a - b| ≤ 2 ^ e by rw [abs_of_nonneg (by linarith)]; linarith)
  have d0 : 0 ≤ rd (a - b) := h.mono_float isFloat_zero (by linarith)
  rw [abs_of_nonneg d0] at t3
  obtain ⟨s4, t4⟩ := V (by omega) (by omega) (show |c - rd (a - b)| ≤ 2 ^ e by rw [abs_le]; constructor <;> linarith)
  obtain ⟨s5, t5⟩ := V (by omega) (by omega) (abs_add_two Ca (show |rd (a - b)| ≤ 2 ^ e by rw [abs_of_nonneg d0]; exact t3))
  obtain ⟨s6, t6⟩ := V (by omega) (by omega) (show |b - c| ≤ 2 ^ e by rw [abs_of_nonneg (by linarith)]; linarith)
  obtain ⟨s7, t7⟩ := V (by omega) (by omega) (abs_add_two Aa t6)
  obtain ⟨s8, t8⟩ := V (by omega) (by omega) (abs_mul_two t2 t4)
  obtain ⟨s9, t9⟩ := V (by omega) (by omega) (abs_mul_two t8 t5)
  obtain ⟨s10, t10⟩ := V (by omega) (by omega) (abs_mul_two t9 t7)
  simp only [s1, s2, s3, s4, s5, s6, s7, XF.add_fin, XF.sub_fin, XF.mul_fin, s8, s9, s10]
  generalize rd (rd (rd (rd (a + rd (b + c)) * rd (c - rd (a - b))) * rd (c + rd (a - b))) * rd (a + rd (b - c))) = q at *
  rw [show Corr.xsqrt (.fin q) = if q < 0 then .nan else .fin (Real.sqrt q) from rfl]
  split_ifs with hq
  · rfl
  · have hs : |Real.sqrt q| ≤ 2 ^ (2 * e + 2) := by
      rw [abs_of_nonneg (Real.sqrt_nonneg _)]
      refine Real.sqrt_le_iff.2 ⟨by positivity, ((le_abs_self q).trans t10).trans_eq ?_⟩
      rw [sq, two_zpow_mul]; congr 1; ring
    obtain ⟨s11, t11⟩ := V (by omega) (by omega) hs
    rw [s11, XF.div_fin _ _ (by norm_num), ov_of_le h hΩf (t11.trans (hΩ' _ (by omega))) (by norm_num)]

/-- A right triangle with legs `2^256`. -/
noncomputable def bigRight : Int → Nat → ℝ := fun i k => if i = k + 1 then 2 ^ (256 : ℤ) else 0

/-- C89 fails for large triangles: in double precision the area of the right triangle with legs `2^256` is inf,
not `2^511`. -/
theorem C89_tri_area_violated (h : Nearest 53 (-1074) rd) : triAreaO (ov rd maxDouble) 2 bigRight = .pinf ∧ triArea 2 bigRight = 2 ^ (511 : ℤ) := by
  have hM : ∀ k : ℤ, k ≤ 1023 → (2 : ℝ) ^ k ≤ maxDouble := fun k hk => le_trans (zpow_le_zpow_right₀ (by norm_num) hk) maxDouble_ge
  have ex : ∀ k : ℤ, -1074 ≤ k → k ≤ 1023 → ov rd maxDouble (.fin (2 ^ k)) = .fin (2 ^ k) := fun k h1 h2 =>
    ov_exact h (isFloat_zpow (by norm_num) h1) (by rw [abs_of_pos (by positivity)]; exact hM k h2)
  have sq : (2 : ℝ) ^ (256 : ℤ) * 2 ^ (256 : ℤ) = 2 ^ (512 : ℤ) := by rw [two_zpow_mul]; norm_num
  have add : ∀ k : ℤ, (2 : ℝ) ^ k + 2 ^ k = 2 ^ (k + 1) := fun k => by rw [zpow_add_one₀ (by norm_num)]; ring
  have z := ov_zero h
  have e256 := ex 256 (by norm_num) (by norm_num)
  have e512 := ex 512 (by norm_num) (by norm_num)
  have em256 : ov rd maxDouble (.fin (-2 ^ (256 : ℤ))) = .fin (-2 ^ (256 : ℤ)) :=
    ov_exact h (isFloat_zpow (by norm_num) (by norm_num)).neg (by rw [abs_neg, abs_of_pos (by positivity)]; exact hM _ (by norm_num))
  have e513 : ov rd maxDouble (.fin (2 ^ (512 : ℤ) + 2 ^ (512 : ℤ))) = .fin (2 ^ (513 : ℤ)) := by rw [add]; exact ex 513 (by norm_num) (by norm_num)
  have xs : ∀ q : ℝ, 0 ≤ q → Corr.xsqrt (.fin q) = .fin (Real.sqrt q) := fun q hq => if_neg (not_lt.2 hq)
  have s512 : Real.sqrt ((2 : ℝ) ^ (512 : ℤ)) = 2 ^ (256 : ℤ) := by rw [← sq]; exact Real.sqrt_mul_self (by positivity)
  have p00 : bigRight 0 0 = 0 := by simp [bigRight]
  have p01 : bigRight 0 1 = 0 := if_neg (by norm_num)
  have p10 : bigRight 1 0 = 2 ^ (256 : ℤ) := if_pos (by norm_num)
  have p11 : bigRight 1 1 = 0 := if_neg (by norm_num)
  have p20 : bigRight 2 0 = 0 := if_neg (by norm_num)
  have p21 : bigRight 2 1 = 2 ^ (256 : ℤ) := if_pos (by norm_num)
  have pos512 : (0 : ℝ) ≤ 2 ^ (512 : ℤ) := by positivity
  have pos513 : (0 : ℝ) ≤ 2 ^ (513 : ℤ) := by positivity
  have n01 : normDiffO (ov rd maxDouble) 2 bigRight 0 1 = .fin (2 ^ (256 : ℤ)) := by
    simp only [normDiffO, sumSqDiffO, p00, p01, p10, p11, XF.sub_fin, XF.add_fin, XF.mul_fin, sub_zero, e256, sq, e512, zero_add, add_zero, mul_zero, z,
      xs _ pos512, s512]
  have n02 : normDiffO (ov rd maxDouble) 2 bigRight 0 2 = .fin (2 ^ (256 : ℤ)) := by
    simp only [normDiffO, sumSqDiffO, p00, p01, p20, p21, XF.sub_fin, XF.add_fin, XF.mul_fin, sub_zero, e256, sq, e512, zero_add, mul_zero, z,
      xs _ pos512, s512]
  have lo : 5 * (2 : ℝ) ^ (254 : ℤ) ≤ Real.sqrt (2 ^ (513 : ℤ)) := by
    refine Real.le_sqrt_of_sq_le ?_
    rw [mul_pow, show (513 : ℤ) = 5 + (254 + 254) by norm_num, zpow_add₀ (by norm_num), ← two_zpow_mul, ← _root_.sq]
    exact mul_le_mul_of_nonneg_right (by norm_num) (by positivity)
  have hi : Real.sqrt (2 ^ (513 : ℤ)) ≤ 3 * (2 : ℝ) ^ (255 : ℤ) := by
    refine Real.sqrt_le_iff.2 ⟨by positivity, ?_⟩
    rw [mul_pow, show (513 : ℤ) = 3 + (255 + 255) by norm_num, zpow_add₀ (by norm_num), ← two_zpow_mul, ← _root_.sq]
    exact mul_le_mul_of_nonneg_right (by norm_num) (by positivity)
  have lo' := h.mono_float (⟨5, 254, by norm_num, by norm_num, by norm_num⟩ : IsFloat 53 (-1074) (5 * (2 : ℝ) ^ (254 : ℤ))) lo
  have hi' := h.mono_float' (⟨3, 255, by norm_num, by norm_num, by norm_num⟩ : IsFloat 53 (-1074) (3 * (2 : ℝ) ^ (255 : ℤ))) hi
  have W : ∀ (lo hi : ℤ) (z : ℝ), -1074 ≤ lo → lo ≤ hi → hi ≤ 1023 → 2 ^ lo ≤ z → z ≤ 2 ^ hi →
      ov rd maxDouble (.fin z) = .fin (rd z) ∧ 2 ^ lo ≤ rd z ∧ rd z ≤ 2 ^ hi := by
    intro lo hi z h1 h2 h3 h4 h5
    have k1 := h.mono_float (isFloat_zpow (K := ℝ) (by norm_num) h1) h4
    have k2 := h.mono_float' (isFloat_zpow (K := ℝ) (by norm_num) (h1.trans h2)) h5
    have p0 : (0 : ℝ) < 2 ^ lo := by positivity
    refine ⟨ov_fin ?_, k1, k2⟩
    rw [abs_of_nonneg (p0.le.trans k1)]
    exact k2.trans (hM _ h3)
  have e254 : (2 : ℝ) ^ (256 : ℤ) = 4 * 2 ^ (254 : ℤ) := by
    rw [show (256 : ℤ) = 2 + 254 by norm_num, zpow_add₀ (by norm_num)]; norm_num
  have e255 : (2 : ℝ) ^ (255 : ℤ) = 2 * 2 ^ (254 : ℤ) := by
    rw [show (255 : ℤ) = 1 + 254 by norm_num, zpow_add₀ (by norm_num)]; norm_num
  have e257 : (2 : ℝ) ^ (257 : ℤ) = 8 * 2 ^ (254 : ℤ) := by
    rw [show (257 : ℤ) = 3 + 254 by norm_num, zpow_add₀ (by norm_num)]; norm_num
  have e258 : (2 : ℝ) ^ (258 : ℤ) = 16 * 2 ^ (254 : ℤ) := by
    rw [show (258 : ℤ) = 4 + 254 by norm_num, zpow_add₀ (by norm_num)]; norm_num
  have t0 : (0 : ℝ) < 2 ^ (254 : ℤ) := by positivity
  have W' := W 256 257 (Real.sqrt (2 ^ (513 : ℤ))) (by norm_num) (by norm_num) (by norm_num) (by rw [e254]; linarith) (by rw [e257]; linarith)
  have n12 : normDiffO (ov rd maxDouble) 2 bigRight 1 2 = .fin (rd (Real.sqrt (2 ^ (513 : ℤ)))) := by
    simp only [normDiffO, sumSqDiffO, p10, p11, p20, p21, XF.sub_fin, XF.add_fin, XF.mul_fin, sub_zero, zero_sub, em256, neg_mul_neg, e256, sq, e512,
      zero_add, e513, xs _ pos513, W'.1]
  constructor
  · unfold triAreaO triAreaCommonO
    simp only [n01, n02, n12]
    have fa : ov rd maxDouble (.fin (rd (Real.sqrt (2 ^ (513 : ℤ))))) = .fin (rd (Real.sqrt (2 ^ (513 : ℤ)))) := by
      rw [ov_id, h.exact (h _).1, ← ov_id, W'.1]
    generalize rd (Real.sqrt (2 ^ (513 : ℤ))) = a at *
    have hs : sort3O (.fin (2 ^ (256 : ℤ))) (.fin (2 ^ (256 : ℤ))) (.fin a) = (.fin a, .fin (2 ^ (256 : ℤ)), .fin (2 ^ (256 : ℤ))) := by
      have : (2 : ℝ) ^ (256 : ℤ) < a := by rw [e254]; linarith
      simp only [sort3O, XF.gt_fin, lt_irrefl, decide_false, Bool.false_eq_true, if_false, this, decide_true, if_true]
    rw [hs]
    unfold kahanO
    have e1 : ov rd maxDouble (.fin (2 ^ (256 : ℤ) + 2 ^ (256 : ℤ))) = .fin (2 ^ (257 : ℤ)) := by rw [add]; exact ex 257 (by norm_num) (by norm_num)
    obtain ⟨g1, l1, u1⟩ := W 257 258 (a + 2 ^ (257 : ℤ)) (by norm_num) (by norm_num) (by norm_num) (by linarith) (by rw [e257, e258]; linarith)
    obtain ⟨g2, l2, u2⟩ := W 254 255 (a - 2 ^ (256 : ℤ)) (by norm_num) (by norm_num) (by norm_num) (by rw [e254]; linarith) (by rw [e254, e255]; linarith)
    obtain ⟨g3, l3, u3⟩ := W 255 256 (2 ^ (256 : ℤ) - rd (a - 2 ^ (256 : ℤ))) (by norm_num) (by norm_num) (by norm_num) (by rw [e254] at *; linarith) (by linarith)
    obtain ⟨g4, l4, u4⟩ := W 256 257 (2 ^ (256 : ℤ) + rd (a - 2 ^ (256 : ℤ))) (by norm_num) (by norm_num) (by norm_num) (by linarith) (by rw [e257]; rw [e254] at *; linarith)
    have la : (2 : ℝ) ^ (256 : ℤ) ≤ a := W'.2.1
    have ua : a ≤ (2 : ℝ) ^ (257 : ℤ) := W'.2.2
    have prod : ∀ {a b c d : ℤ} {y w : ℝ}, 2 ^ a ≤ y → y ≤ 2 ^ b → 2 ^ c ≤ w → w ≤ 2 ^ d → (2 : ℝ) ^ (a + c) ≤ y * w ∧ y * w ≤ 2 ^ (b + d) := by
      intro a b c d y w h1 h2 h3 h4
      have pa : (0 : ℝ) < 2 ^ a := by positivity
      have pc : (0 : ℝ) < 2 ^ c := by positivity
      have pb : (0 : ℝ) < 2 ^ b := by positivity
      rw [← two_zpow_mul, ← two_zpow_mul]
      exact ⟨mul_le_mul h1 h3 pc.le (pa.le.trans h1), mul_le_mul h2 h4 (pc.le.trans h3) pb.le⟩
    obtain ⟨q1, q2⟩ := prod l1 u1 l3 u3
    obtain ⟨g5, l5, u5⟩ := W _ _ _ (by norm_num) (by norm_num) (by norm_num) q1 q2
    obtain ⟨q3, q4⟩ := prod l5 u5 l4 u4
    obtain ⟨g6, l6, u6⟩ := W _ _ _ (by norm_num) (by norm_num) (by norm_num) q3 q4
    obtain ⟨q5, q6⟩ := prod l6 u6 la ua
    have g7 := ov_pos h (k := 1024) (by norm_num) (by norm_num) maxDouble_lt (le_trans (zpow_le_zpow_right₀ (by norm_num) (by norm_num)) q5)
    simp only [XF.add_fin, XF.sub_fin, e1, g1, g2, g3, g4, sub_self, z, add_zero, fa, XF.mul_fin, g5, g6, g7]
    show ov rd maxDouble ((ov rd maxDouble .pinf).div (.fin 4)) = .pinf
    norm_num [ov, XF.div]
  · rw [C44_plane]
    simp only [p00, p01, p10, p11, p20, p21, sub_zero, mul_zero, sq]
    rw [abs_of_pos (by positivity), show (512 : ℤ) = 511 + 1 by norm_num, zpow_add_one₀ (by norm_num)]
    ring

/-- Data that meet the hypotheses: triangles in the plane or in space with coordinates up to `2^252`. -/
theorem C89_tri_area_double (h : Nearest 53 (-1074) rd) (P : Int → Nat → ℝ) (n : ℕ) (hn : n ≤ 4)
    (hP : ∀ a : Int, 0 ≤ a → a < 3 → ∀ k < n, |P a k| ≤ 2 ^ 252) : triAreaO (ov rd maxDouble) n P = triAreaR rd n P :=
  C89_tri_area h (by norm_num) (by norm_num) 252 1 (by norm_num)
    (le_trans (by rw [← zpow_natCast]; exact zpow_le_zpow_right₀ (by norm_num) (by norm_num)) maxDouble_ge) isFloat_maxDouble P n (by simpa using hn) hP

example : ∃ rd : ℝ → ℝ, Nearest 53 (-1074) rd ∧ triAreaO (ov rd maxDouble) 2 (fun i k => if i = k + 1 then 2 ^ 252 else 0) =
    triAreaR rd 2 (fun i k => if i = k + 1 then 2 ^ 252 else 0) := by
  obtain ⟨rd, h⟩ := exists_nearest (K := ℝ) (p := 53) (by norm_num) (-1074)
  refine ⟨rd, h, C89_tri_area_double h _ 2 (by norm_num) ?_⟩
  intro a _ _ k _
  split_ifs
  · rw [abs_of_pos (by positivity)]
  · rw [abs_zero]; positivity

end Ufunclab.TriArea
