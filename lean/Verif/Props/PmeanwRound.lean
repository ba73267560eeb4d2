import Verif.Props.MeansWRound
import Verif.Proof.PmeanwRound
import Verif.Props.VnormSmall
import Verif.Props.PmeanSmall
/-!
# C93: pmeanw in floating point

Double data; the library function `pow` is a parameter.
-/
namespace Ufunclab.Means
open Ufunclab.Float Ufunclab.Corr MeansSpec
variable {p : ℕ} {emin : ℤ} {rd lg : ℝ → ℝ} {ex : XF ℝ → XF ℝ} {pw : ℝ → ℝ → ℝ} {ε : ℝ}

set_option quotPrecheck false
/-- A finite weighted vector as the functions receive it. -/
local notation "W " l => List.map (fun a : ℝ × ℝ => (XF.fin a.1, XF.fin a.2)) l

theorem powSumWR_fin {sc q : ℝ} (hsc : sc ≠ 0) (hq : q ≠ 0) (l : List (ℝ × ℝ)) (hx : ∀ v ∈ l, 0 ≤ rd (v.1 / sc) ∧ (0 < q ∨ 0 < rd (v.1 / sc))) :
    ∀ a b, powSumWR (rnd rd) (xpowR pw) (.fin sc) (.fin q) (.fin a) (.fin b) (W l) =
      (.fin (rsum rd a (l.map Prod.snd)), .fin (rsum rd b (l.map fun v => rd (v.2 * pw (rd (v.1 / sc)) q)))) := by
  induction l with
  | nil => intro a b; rfl
  | cons v l ih =>
    intro a b
    obtain ⟨h1, h2⟩ := hx v (by simp)
    simp only [List.map_cons, powSumWR, XF.div_fin _ _ hsc, rnd_fin, rsum]
    rw [xpowR_fin h1 hq h2, XF.mul_fin, rnd_fin, XF.add_fin, XF.add_fin, rnd_fin, rnd_fin]
    exact ih (fun b hb => hx b (by simp [hb])) _ _

/-- What pmeanw does with finite data that are not negative (positive when `q < 0`), for any rounding and any `pow`. -/
theorem pmeanw_general (r : XF ℝ → XF ℝ) (pow : XF ℝ → XF ℝ → XF ℝ) (l : List (ℝ × ℝ)) (hne : l ≠ []) (q : ℝ) (hq : 2e-6 ≤ |q|) (hq1 : q ≠ -1)
    (hx : ∀ v ∈ l, 0 ≤ v.1) (hpos : 0 < q ∨ ∀ v ∈ l, 0 < v.1) :
    ∃ M ∈ l.map Prod.fst, ∃ m ∈ l.map Prod.fst, (∀ v ∈ l, v.1 ≤ M ∧ m ≤ v.1) ∧
      pmeanw1dR r lg ex pow (W l) (.fin q) =
        if M = m then .fin M
        else r (XF.mul (.fin (if 0 < q then M else m)) (pow
          (r (XF.div (powSumWR r pow (.fin (if 0 < q then M else m)) (.fin q) (.fin 0) (.fin 0) (W l)).2
            (powSumWR r pow (.fin (if 0 < q then M else m)) (.fin q) (.fin 0) (.fin 0) (W l)).1)) (r (XF.div (.fin 1) (.fin q))))) := by
  have hmap : (W l).map Prod.fst = (l.map Prod.fst).map XF.fin := by simp [Function.comp_def]
  have hnn : ∀ v ∈ (l.map Prod.fst).map XF.fin, NN v := by
    intro v hv
    obtain ⟨a, ha, rfl⟩ := List.mem_map.1 hv
    obtain ⟨w, hw, rfl⟩ := List.mem_map.1 ha
    exact ⟨rfl, by simpa using hx w hw⟩
  obtain ⟨i1, i2, i3, i4, i5, i6, i7, -⟩ := scan_good ((l.map Prod.fst).map XF.fin) 0 {} hnn (by simp) (by simpa using hne)
  have hform : ∀ st, st = pmeanScan 0 {} ((l.map Prod.fst).map XF.fin) → pmeanw1dR r lg ex pow (W l) (.fin q) = (match pmeanSpecial st (.fin q) with
    | some v => v
    | none => r (XF.mul (if XF.gt (.fin q) (.fin 0) then st.xmax else st.xmin)
        (pow (r (XF.div (powSumWR r pow (if XF.gt (.fin q) (.fin 0) then st.xmax else st.xmin) (.fin q) (.fin 0) (.fin 0) (W l)).2
          (powSumWR r pow (if XF.gt (.fin q) (.fin 0) then st.xmax else st.xmin) (.fin q) (.fin 0) (.fin 0) (W l)).1)) (r (XF.div (.fin 1) (.fin q)))))) := by
    intro st hst
    rw [pmeanw1dR, hmap, ← hst]
    simp only [XF.isnan_fin, XF.abs_fin, XF.lt_fin, Bool.false_eq_true, if_false, decide_eq_true_eq, XF.eq_fin, if_neg (not_lt.2 hq), if_neg hq1]
    rfl
  have hform := hform _ rfl
  generalize pmeanScan 0 {} ((l.map Prod.fst).map XF.fin) = st at *
  have j5 : st.xmax ∈ (l.map Prod.fst).map XF.fin := by rcases i5 with h | h; exact h; exact absurd rfl h.1
  have j6 : st.xmin ∈ (l.map Prod.fst).map XF.fin := by rcases i6 with h | h; exact h; exact absurd rfl h.1
  obtain ⟨M, hM, eM⟩ := List.mem_map.1 j5
  obtain ⟨m, hm, em⟩ := List.mem_map.1 j6
  have hb : ∀ v ∈ l, v.1 ≤ M ∧ m ≤ v.1 := by
    intro v hv
    have := i7 (.fin v.1) (List.mem_map.2 ⟨v.1, List.mem_map.2 ⟨v, hv, rfl⟩, rfl⟩)
    rw [← eM, ← em] at this
    simpa using this
  refine ⟨M, hM, m, hm, hb, ?_⟩
  have hInf : st.hasInf = false := by rw [i3]; simp
  have hsp : pmeanSpecial st (.fin q) = if M = m then some (.fin M) else none := by
    rw [pmeanSpecial, i1, i2, hInf, ← eM, ← em]
    simp only [Bool.or_self, Bool.false_eq_true, if_false, Bool.false_and, XF.eq_fin, decide_eq_true_eq, XF.isinf_fin, XF.lt_fin]
    by_cases c : M = m
    · rw [if_pos c, if_pos c]
    · rw [if_neg c, if_neg c, if_neg]
      rintro h
      rw [i4] at h
      simp only [Bool.false_or, Bool.and_eq_true, List.any_eq_true, List.mem_map, decide_eq_true_eq] at h
      obtain ⟨⟨x, ⟨v, ⟨w, hv, rfl⟩, rfl⟩, hz⟩, hneg⟩ := h
      simp only [XF.eq_fin, decide_eq_true_eq] at hz
      rcases hpos with h | h
      · linarith
      · exact absurd hz (h w hv).ne'
  rw [hform, hsp]
  by_cases c : M = m
  · rw [if_pos c, if_pos c]
  · rw [if_neg c, if_neg c]
    have hsc : (if XF.gt (.fin q) (.fin 0) then st.xmax else st.xmin) = XF.fin (if 0 < q then M else m) := by
      rw [← eM, ← em]
      by_cases h0 : 0 < q
      · simp [XF.gt, h0]
      · simp [XF.gt, h0]
    simp only [hsc]

/-- C93: the weighted power mean of equal numbers is that number, for every order of magnitude at least
`2e-6` other than -1 and for all weights. -/
theorem C93_pmeanw_equal_partial (r : XF ℝ → XF ℝ) (pow : XF ℝ → XF ℝ → XF ℝ) (l : List (ℝ × ℝ)) (hne : l ≠ []) (q : ℝ) (hq : 2e-6 ≤ |q|) (hq1 : q ≠ -1)
    (c : ℝ) (hc : 0 < c) (hx : ∀ v ∈ l, v.1 = c) : pmeanw1dR r lg ex pow (W l) (.fin q) = .fin c := by
  obtain ⟨M, hM, m, hm, -, e⟩ := pmeanw_general (lg := lg) (ex := ex) r pow l hne q hq hq1 (fun v hv => by rw [hx v hv]; exact hc.le) (.inr fun v hv => by rw [hx v hv]; exact hc)
  obtain ⟨v, hv, rfl⟩ := List.mem_map.1 hM
  obtain ⟨w, hw, rfl⟩ := List.mem_map.1 hm
  rw [e, hx v hv, hx w hw, if_pos rfl]

/-- What pmeanw computes for finite data that are not negative (positive when `q < 0`). -/
theorem pmeanw_formula (h : Nearest p emin rd) (hp : 1 ≤ p) (he : emin ≤ 0) (l : List (ℝ × ℝ)) (hne : l ≠ []) (q : ℝ) (hq : 2e-6 ≤ |q|) (hq1 : q ≠ -1)
    (hx : ∀ v ∈ l, 0 ≤ v.1) (hpos : 0 < q ∨ ∀ v ∈ l, 0 < v.1) :
    ∃ M ∈ l.map Prod.fst, ∃ m ∈ l.map Prod.fst, (∀ v ∈ l, v.1 ≤ M ∧ m ≤ v.1) ∧
      pmeanw1dR (rnd rd) lg ex (xpowR pw) (W l) (.fin q) =
        if M = m then .fin M
        else rnd rd (XF.mul (.fin (if 0 < q then M else m)) (xpowR pw
          (rnd rd (XF.div (.fin (rsum rd 0 (l.map fun v => rd (v.2 * pw (rd (v.1 / if 0 < q then M else m)) q)))) (.fin (rsum rd 0 (l.map Prod.snd))))) (.fin (rd (1 / q))))) := by
  have hq0 : q ≠ 0 := by rintro rfl; norm_num at hq
  obtain ⟨M, hM, m, hm, hb, e⟩ := pmeanw_general (lg := lg) (ex := ex) (rnd rd) (xpowR pw) l hne q hq hq1 hx hpos
  refine ⟨M, hM, m, hm, hb, ?_⟩
  rw [e]
  by_cases c : M = m
  · rw [if_pos c, if_pos c]
  · rw [if_neg c, if_neg c]
    have hmM : m < M := by
      obtain ⟨w, hw, rfl⟩ := List.mem_map.1 hM
      exact lt_of_le_of_ne (hb w hw).2 (Ne.symm c)
    have hm0 : 0 ≤ m := by obtain ⟨w, hw, rfl⟩ := List.mem_map.1 hm; exact hx w hw
    have hsc0 : 0 < (if 0 < q then M else m) := by
      by_cases h0 : 0 < q
      · rw [if_pos h0]; linarith
      · rw [if_neg h0]; obtain ⟨w, hw, rfl⟩ := List.mem_map.1 hm; exact hpos.resolve_left h0 w hw
    rw [powSumWR_fin hsc0.ne' hq0 l ?_, XF.div_fin _ _ hq0, rnd_fin]
    intro v hv
    refine ⟨h.mono_float isFloat_zero (div_nonneg (hx v hv) hsc0.le), ?_⟩
    by_cases h0 : 0 < q
    · exact .inl h0
    · right
      rw [if_neg h0] at hsc0 ⊢
      have : 1 ≤ rd (v.1 / m) := h.mono_float (isFloat_one hp he) ((one_le_div hsc0).2 (hb v hv).2)
      linarith

theorem powerW_scaled {q c : ℝ} (hq : q ≠ 0) (hc : 0 < c) (l : List (ℝ × ℝ)) (hx : ∀ v ∈ l, 0 ≤ v.1) (hw : Weights l) :
    powerW q l = c * (avg l fun a => (a / c) ^ q) ^ (1 / q) := by
  have hs : (l.map fun v => v.2 * (v.1 / c) ^ q).sum = (l.map (fun v => v.2 * v.1 ^ q)).sum / c ^ q := by
    rw [div_eq_mul_inv, mul_comm, ← List.sum_map_mul_left]
    congr 1
    apply List.map_congr_left
    intro v hv
    rw [Real.div_rpow (hx v hv) hc.le]; ring
  have hsn : 0 ≤ (l.map (fun v => v.2 * v.1 ^ q)).sum := List.sum_nonneg (by
    intro y hy; obtain ⟨v, hv, rfl⟩ := List.mem_map.1 hy; exact mul_nonneg (hw.1 v hv) (Real.rpow_nonneg (hx v hv) q))
  have hW := hw.2
  rw [powerW, avg, hs, div_right_comm, Real.div_rpow (x := (l.map (fun v => v.2 * v.1 ^ q)).sum / (l.map Prod.snd).sum) (y := c ^ q) (by positivity) (by positivity),
    ← Real.rpow_mul hc.le, mul_one_div_cancel hq, Real.rpow_one]
  field_simp

theorem powerW_equal {q c : ℝ} (hq : q ≠ 0) (hc : 0 ≤ c) (l : List (ℝ × ℝ)) (hw : Weights l) (hx : ∀ v ∈ l, v.1 = c) : powerW q l = c := by
  have e : (l.map fun v => v.2 * v.1 ^ q) = l.map fun v => v.2 * c ^ q := List.map_congr_left fun a ha => by rw [hx a ha]
  have e2 : (l.map fun v => v.2 * c ^ q).sum = (l.map Prod.snd).sum * c ^ q := List.sum_map_mul_right ..
  rw [powerW, e, e2, mul_div_assoc, mul_comm, div_mul_cancel₀ _ hw.2.ne', ← Real.rpow_mul hc, mul_one_div_cancel hq, Real.rpow_one]

/-- The quotient of the two sums. -/
theorem wmean_error (h : Nearest p emin rd) (hp : 10 ≤ p) (hpw : SignedPow p emin ε pw) (hpw0 : ∀ e, 0 < e → pw 0 e = 0)
    (hε0 : 0 ≤ ε) (hε : ε ≤ 1 / 100) (l : List (ℝ × ℝ)) (hn : 200 * ((l.length : ℝ) + 1) ≤ 2 ^ p) (hw : Weights l) (hwf : ∀ v ∈ l, IsFloat p emin v.2)
    (r : ℝ → ℝ) (hr : ∀ v ∈ l, 0 ≤ r v.1) {q : ℝ} (hq0 : q ≠ 0) (hqu : |q| * (2 ^ p)⁻¹ ≤ 1 / 200)
    (hnorm : ∀ v ∈ l, r v.1 = 0 ∧ 0 < q ∨ v.2 = 0 ∨ 2 ^ (emin + p + 9) ≤ r v.1 ∧ 2 ^ (emin + p + 9) ≤ (r v.1) ^ q ∧ 2 ^ (emin + p + 9) ≤ v.2 * (r v.1) ^ q)
    (hT : 2 ^ (emin + p + 9) ≤ avg l fun a => (r a) ^ q) :
    0 < rsum rd 0 (l.map Prod.snd) ∧ ∃ E : ℝ, E = 2.12 * ((l.length + 1) * (2 ^ p)⁻¹) + 1.07 * (|q| * (2 ^ p)⁻¹) + 1.07 * ε ∧
      |rd (rsum rd 0 (l.map fun v => rd (v.2 * pw (rd (r v.1)) q)) / rsum rd 0 (l.map Prod.snd)) - avg l fun a => (r a) ^ q| ≤ E * avg l fun a => (r a) ^ q := by
  have hu0 : (0 : ℝ) < (2 ^ p)⁻¹ := by positivity
  have hu := Mad.unit_le_thousandth (K := ℝ) hp
  have hnu : ((l.length : ℝ) + 1) * (2 ^ p)⁻¹ ≤ 1 / 200 := by rw [← div_eq_mul_inv, div_le_iff₀ (by positivity)]; linarith
  have t0 := weight_sum_error h (by omega) l hw.1 hwf (by linarith)
  have t1 := rsum_terms_list h (by omega) l (fun v => rd (v.2 * pw (rd (r v.1)) q)) (fun v => v.2 * (r v.1) ^ q) (fun v _ => (h _).1)
    (a := 1.025 * (|q| * (2 ^ p)⁻¹) + 1.02 * ε + 1.04 * (2 ^ p)⁻¹) (b := 0)
    (fun v hv => by rw [add_zero]; exact wpow_error h hp hpw hpw0 hε0 hε hq0 hqu (hnorm v hv))
  have hz0 : ∀ v ∈ l, 0 ≤ v.2 * (r v.1) ^ q := fun v hv => mul_nonneg (hw.1 v hv) (Real.rpow_nonneg (hr v hv) q)
  have eabs : (l.map fun v => |v.2 * (r v.1) ^ q|).sum = (l.map fun v => v.2 * (r v.1) ^ q).sum := by
    congr 1; apply List.map_congr_left; intro v hv; exact abs_of_nonneg (hz0 v hv)
  rw [mul_zero, mul_zero, add_zero, eabs] at t1
  have hS0 : 0 ≤ (l.map fun v => v.2 * (r v.1) ^ q).sum := List.sum_nonneg (by
    intro y hy; obtain ⟨v, hv, rfl⟩ := List.mem_map.1 hy; exact hz0 v hv)
  have hpu := Mad.pow_bound (u := ((2 : ℝ) ^ p)⁻¹) hu0.le l.length (by linarith)
  have hW := hw.2
  have herr := fun z => h.error (by omega : 1 ≤ p) z
  have havg : (avg l fun a => (r a) ^ q) = (l.map fun v => v.2 * (r v.1) ^ q).sum / (l.map Prod.snd).sum := rfl
  rw [havg] at hT ⊢
  generalize rsum rd 0 (l.map fun v => rd (v.2 * pw (rd (r v.1)) q)) = A' at *
  generalize rsum rd 0 (l.map Prod.snd) = B' at *
  generalize (l.map fun v => v.2 * (r v.1) ^ q).sum = A at *
  generalize (l.map Prod.snd).sum = D at *
  clear havg eabs hz0 hnorm hr hwf hw hn hpw hpw0
  obtain ⟨a, ha⟩ : ∃ a : ℝ, a = 1.02 * (l.length * (2 ^ p)⁻¹) + 1.0311 * (|q| * (2 ^ p)⁻¹) + 1.0261 * ε + 1.047 * (2 ^ p)⁻¹ := ⟨_, rfl⟩
  have t2 : |A' - A| ≤ a * A + 0 := by
    rw [add_zero]
    refine t1.trans (mul_le_mul_of_nonneg_right ?_ hS0)
    have k := mul_le_mul_of_nonneg_right hpu (by positivity : 0 ≤ 1 + (1.025 * (|q| * (2 ^ p)⁻¹) + 1.02 * ε + 1.04 * (2 ^ p)⁻¹))
    have k2 : (l.length * (2 ^ p)⁻¹) * (1.025 * (|q| * (2 ^ p)⁻¹) + 1.02 * ε + 1.04 * (2 ^ p)⁻¹) ≤ 1 / 200 * (1.025 * (|q| * (2 ^ p)⁻¹) + 1.02 * ε + 1.04 * (2 ^ p)⁻¹) :=
      mul_le_mul_of_nonneg_right (by linarith) (by positivity)
    have k3 : 0 ≤ |q| * ((2 : ℝ) ^ p)⁻¹ := by positivity
    rw [ha]
    clear * - k k2 k3 hu0 hε0
    generalize (1 + ((2 : ℝ) ^ p)⁻¹) ^ l.length = P at *
    rw [mul_assoc 1.02] at k
    generalize ((2 : ℝ) ^ p)⁻¹ = u at *
    generalize (l.length : ℝ) * u = X at *
    generalize |q| * u = Y at *
    norm_num at *; linarith
  obtain ⟨hB', t4⟩ := quot_error t2 (abs_of_nonneg hS0).le hW t0 (by
    clear * - hnu hu0
    generalize ((2 : ℝ) ^ p)⁻¹ = u at *
    norm_num at *; linarith)
  refine ⟨hB', _, rfl, ?_⟩
  rw [zero_div, add_zero] at t4
  have t5 := herr (A' / B')
  have hT0 : 0 < A / D := lt_of_lt_of_le (by positivity) hT
  have hη : 512 * 2 ^ emin ≤ (2 ^ p)⁻¹ * (A / D) := by
    have := mul_le_mul_of_nonneg_left hT hu0.le
    have e9 : (2 : ℝ) ^ (emin + p + 9) = 512 * (2 ^ emin * 2 ^ p) := by
      rw [zpow_add₀ (by norm_num), zpow_add₀ (by norm_num), zpow_natCast]; norm_num; ring
    rw [e9, show ((2 : ℝ) ^ p)⁻¹ * (512 * (2 ^ emin * 2 ^ p)) = 512 * 2 ^ emin * (((2 : ℝ) ^ p)⁻¹ * 2 ^ p) by ring, inv_mul_cancel₀ (by positivity), mul_one] at this
    exact this
  generalize A' / B' = m at *
  generalize A / D = T at *
  have hq' : 0 ≤ |q| * ((2 : ℝ) ^ p)⁻¹ := by positivity
  have hn' : 0 ≤ (l.length : ℝ) * ((2 : ℝ) ^ p)⁻¹ := by positivity
  rw [ha] at t4
  clear t0 t1 t2 hpu herr ha
  have e6 : ((l.length : ℝ) + 1) * (2 ^ p)⁻¹ = l.length * (2 ^ p)⁻¹ + (2 ^ p)⁻¹ := by ring
  rw [e6] at hnu ⊢
  generalize (l.length : ℝ) * (2 ^ p)⁻¹ = X at *
  generalize |q| * ((2 : ℝ) ^ p)⁻¹ = Y at *
  generalize (2 : ℝ) ^ emin = η at *
  generalize ((2 : ℝ) ^ p)⁻¹ = u at *
  obtain ⟨b, hb⟩ : ∃ b, b = 1.02 * X + 1.0311 * Y + 1.0261 * ε + 1.047 * u + 1.02 * X := ⟨_, rfl⟩
  rw [← hb] at t4
  have hb1 : b ≤ 0.028 := by rw [hb]; norm_num at *; linarith
  have hbT := mul_le_mul_of_nonneg_right hb1 hT0.le
  have k1 : |m| ≤ 1.03 * T := by
    have : |m| ≤ |m - T| + |T| := by
      calc |m| = |(m - T) + T| := by congr 1; ring
        _ ≤ _ := abs_add_le _ _
    rw [abs_of_pos hT0] at this
    clear * - this t4 hbT hT0
    norm_num at *; linarith
  have k2 := mul_le_mul_of_nonneg_left k1 hu0.le
  have k3 : 1.03 * b + 1.032 * u ≤ 2.12 * (X + u) + 1.07 * Y + 1.07 * ε := by rw [hb]; clear * - hn' hq' hε0 hu0; norm_num at *; linarith
  have k4 := mul_le_mul_of_nonneg_right k3 hT0.le
  have k5 : 0 ≤ u * T := by positivity
  calc |rd m - T| = |(rd m - m) + (m - T)| := by congr 1; ring
    _ ≤ _ := abs_add_le _ _
    _ ≤ _ := by
      clear * - t4 t5 k2 k4 k5 hη hu0
      rw [add_mul, mul_assoc 1.03, mul_assoc 1.032] at k4
      generalize b * T = bT at *
      norm_num at *; linarith

/-- C93: pmeanw for orders of both signs, of magnitude at least `2e-6`.  `c` is the scale, the largest
element for `q > 0` and the smallest for `q < 0`.  The relative error is at most
`(2.4 (n+1)/|q| + 2.3 + 1.1 Λ) u + (1.2/|q| + 1.1) ε` with `Λ = |log(mean/c)|`; added to it is a least
subnormal times the scale, because the last `pow` may underflow.  The terms of the sum and its
quotient by the sum of the weights must not underflow (see `C93_pmeanw_zero_weight_violated`).
(Missing: the orders below `2e-6`.) -/
theorem C93_pmeanw_accuracy_partial (h : Nearest p emin rd) (hp : 10 ≤ p) (he : emin ≤ -4 * p) (hpw : SignedPow p emin ε pw)
    (hpw0 : ∀ e, 0 < e → pw 0 e = 0) (hε0 : 0 ≤ ε) (hε : ε ≤ 1 / 100) (l : List (ℝ × ℝ)) (hn : 200 * ((l.length : ℝ) + 1) ≤ 2 ^ p)
    (hw : Weights l) (hwf : ∀ v ∈ l, IsFloat p emin v.2) (hx : ∀ v ∈ l, 0 ≤ v.1) (q : ℝ) (hpos : 0 < q ∨ ∀ v ∈ l, 0 < v.1)
    (hq : 2e-6 ≤ |q|) (hq1 : q ≠ -1) (hqu : 200 * |q| ≤ 2 ^ p) (hsmall : 30 * (2.2 * ((l.length + 1) * (2 ^ p)⁻¹) + 1.1 * ε) ≤ |q|)
    {c : ℝ} (hc : c ∈ l.map Prod.fst) (hcb : ∀ v ∈ l, 0 < q ∧ v.1 ≤ c ∨ q < 0 ∧ c ≤ v.1)
    (hnorm : ∀ v ∈ l, v.1 = 0 ∧ 0 < q ∨ v.2 = 0 ∨
      2 ^ (emin + p + 9) ≤ v.1 / c ∧ 2 ^ (emin + p + 9) ≤ (v.1 / c) ^ q ∧ 2 ^ (emin + p + 9) ≤ v.2 * (v.1 / c) ^ q)
    (hT : 2 ^ (emin + p + 9) ≤ avg l fun a => (a / c) ^ q) (hΛ : (2 ^ p)⁻¹ * |Real.log (powerW q l / c)| ≤ 1 / 100) :
    ∃ r, pmeanw1dR (rnd rd) lg ex (xpowR pw) (W l) (.fin q) = .fin r ∧
      |r - powerW q l| ≤ ((2.4 * (l.length + 1) / |q| + 2.3 + 1.1 * |Real.log (powerW q l / c)|) * (2 ^ p)⁻¹ + (1.2 / |q| + 1.1) * ε) * powerW q l +
        1.01 * (2 ^ emin * c) + 2 ^ emin / 2 := by
  have hq0 : q ≠ 0 := by rintro rfl; norm_num at hq
  have hs0 : 0 < |q| := abs_pos.2 hq0
  have hne : l ≠ [] := by rintro rfl; exact absurd hw.2 (by simp)
  obtain ⟨M, hM, m, hm, hb, e⟩ := pmeanw_formula (lg := lg) (ex := ex) (pw := pw) h (by omega) (by omega) l hne q hq hq1 hx hpos
  have hη0 : (0 : ℝ) < 2 ^ emin := by positivity
  have hu0 : (0 : ℝ) < (2 ^ p)⁻¹ := by positivity
  have hMl : M ∈ l.map Prod.fst := hM
  obtain ⟨vM, hvM, eM⟩ := List.mem_map.1 hM
  obtain ⟨vm, hvm, em⟩ := List.mem_map.1 hm
  obtain ⟨vc, hvc, ec⟩ := List.mem_map.1 hc
  have hc0' : 0 ≤ c := ec ▸ hx vc hvc
  have hcs : (if 0 < q then M else m) = c := by
    by_cases h0 : 0 < q
    · rw [if_pos h0]
      have a := (hb vc hvc).1
      rw [ec] at a
      rcases hcb vM hvM with k | k
      · rw [eM] at k; exact le_antisymm k.2 a
      · linarith [k.1]
    · rw [if_neg h0]
      have a := (hb vc hvc).2
      rw [ec] at a
      rcases hcb vm hvm with k | k
      · exact absurd k.1 h0
      · rw [em] at k; exact le_antisymm a k.2
  by_cases hMm : M = m
  · have hall : ∀ v ∈ l, v.1 = M := fun v hv => le_antisymm (hb v hv).1 (hMm ▸ (hb v hv).2)
    refine ⟨M, by rw [e, if_pos hMm], ?_⟩
    have hM0 : 0 ≤ M := eM ▸ hx vM hvM
    rw [powerW_equal hq0 hM0 l hw hall, sub_self, abs_zero]
    have := abs_nonneg (Real.log (M / c))
    positivity
  rw [if_neg hMm, hcs] at e
  have hmM : m < M := by rw [← eM]; exact lt_of_le_of_ne (hb vM hvM).2 (by rw [eM]; exact Ne.symm hMm)
  have hc0 : 0 < c := by
    rw [← hcs]
    by_cases h0 : 0 < q
    · rw [if_pos h0]; exact lt_of_le_of_lt (em ▸ hx vm hvm) hmM
    · rw [if_neg h0, ← em]; exact hpos.resolve_left h0 vm hvm
  have hu := Mad.unit_le_thousandth (K := ℝ) hp
  have hnu : ((l.length : ℝ) + 1) * (2 ^ p)⁻¹ ≤ 1 / 200 := by rw [← div_eq_mul_inv, div_le_iff₀ (by positivity)]; linarith
  have hqu' : |q| * (2 ^ p)⁻¹ ≤ 1 / 200 := by rw [← div_eq_mul_inv, div_le_iff₀ (by positivity)]; linarith
  obtain ⟨hB', E, hEdef, hE⟩ := wmean_error h hp hpw hpw0 hε0 hε l hn hw hwf (fun a => a / c) (fun v hv => div_nonneg (hx v hv) hc0.le) hq0 hqu'
    (fun v hv => by
      rcases hnorm v hv with k | k | k
      · exact .inl ⟨by simp only [k.1, zero_div], k.2⟩
      · exact .inr (.inl k)
      · exact .inr (.inr k)) hT
  have hpow := powerW_scaled hq0 hc0 l hx hw
  have hT0 : 0 < avg l fun a => (a / c) ^ q := lt_of_lt_of_le (by positivity) hT
  generalize (avg l fun a => (a / c) ^ q) = T at *
  obtain ⟨hηu, hηuu⟩ := eta_small hp he
  have herr := fun z => h.error (by omega : 1 ≤ p) z
  have hexp := exponent_error_signed hq0 hu0 (by linarith) (by norm_num at hηuu ⊢; linarith) (herr (1 / q))
  have he'0 : rd (1 / q) ≠ 0 := by
    intro h0
    rw [h0, zero_sub, abs_neg, abs_div, abs_one] at hexp
    have := mul_le_mul_of_nonneg_right hexp hs0.le
    rw [div_mul_cancel₀ _ hs0.ne', div_mul_cancel₀ _ hs0.ne'] at this
    clear * - this hu
    norm_num at *; linarith
  have hE1 : E ≤ 0.036 := by rw [hEdef]; clear * - hnu hqu' hε; norm_num at *; linarith
  have hE0 : 0 ≤ E := by rw [hEdef]; positivity
  have hE2 : E ≤ 0.035 * |q| := by
    rw [hEdef]
    have k : |q| * (2 ^ p)⁻¹ ≤ |q| * (1 / 1000) := mul_le_mul_of_nonneg_left hu hs0.le
    have k2 : 0 ≤ ((l.length : ℝ) + 1) * (2 ^ p)⁻¹ := by positivity
    clear * - k k2 hsmall hε0 hs0
    generalize ((l.length : ℝ) + 1) * (2 ^ p)⁻¹ = X at *
    generalize |q| * ((2 : ℝ) ^ p)⁻¹ = Y at *
    generalize |q| = s at *
    norm_num at *; linarith
  rw [XF.div_fin _ _ hB'.ne', rnd_fin] at e
  generalize rd (rsum rd 0 (l.map fun v => rd (v.2 * pw (rd (v.1 / c)) q)) / rsum rd 0 (l.map Prod.snd)) = T' at *
  have hT'0 : 0 < T' := by
    have := (abs_le.1 hE).1
    have k := mul_le_mul_of_nonneg_right hE1 hT0.le
    clear * - this k hT0
    norm_num at *; linarith
  rw [xpowR_fin hT'0.le he'0 (.inr hT'0), XF.mul_fin, rnd_fin] at e
  refine ⟨_, e, ?_⟩
  have hlogT : |Real.log T| ≤ |Real.log (powerW q l / c)| * |q| := by
    rw [hpow, mul_div_cancel_left₀ _ hc0.ne', Real.log_rpow hT0, abs_mul, abs_div, abs_one]
    apply le_of_eq; field_simp
  have fin := finish_gen hu0 hu hε0 hε hη0.le hηu hq0 hc0 hT0 hlogT hΛ hE0 hE hE1 hE2 hexp (fun k => hpw.error _ _ k.le he'0 (.inr k)) (herr (c * pw T' (rd (1 / q))))
  have hP0 : 0 ≤ powerW q l := by rw [hpow]; positivity
  rw [← hpow] at fin
  refine fin.trans ?_
  have hΛ0 := abs_nonneg (Real.log (powerW q l / c))
  have key : 1.056 * ((2 ^ p)⁻¹ * |Real.log (powerW q l / c)|) + 1.1 * (E / |q|) + 1.05 * ε + 1.065 * (2 ^ p)⁻¹ ≤
      (2.4 * (l.length + 1) / |q| + 2.3 + 1.1 * |Real.log (powerW q l / c)|) * (2 ^ p)⁻¹ + (1.2 / |q| + 1.1) * ε := by
    have e1 : E / |q| = 2.12 * (((l.length + 1) * (2 ^ p)⁻¹) / |q|) + 1.07 * (2 ^ p)⁻¹ + 1.07 * (ε / |q|) := by rw [hEdef]; field_simp
    have e2 : (2.4 * (l.length + 1) / |q| + 2.3 + 1.1 * |Real.log (powerW q l / c)|) * ((2 : ℝ) ^ p)⁻¹ + (1.2 / |q| + 1.1) * ε =
        2.4 * (((l.length + 1) * (2 ^ p)⁻¹) / |q|) + 2.3 * (2 ^ p)⁻¹ + 1.1 * ((2 ^ p)⁻¹ * |Real.log (powerW q l / c)|) + 1.2 * (ε / |q|) + 1.1 * ε := by ring
    rw [e1, e2]
    have k1 : 0 ≤ (((l.length : ℝ) + 1) * (2 ^ p)⁻¹) / |q| := by positivity
    have k2 : 0 ≤ ε / |q| := by positivity
    have k3 : 0 ≤ ((2 : ℝ) ^ p)⁻¹ * |Real.log (powerW q l / c)| := by positivity
    clear * - k1 k2 k3 hu0 hε0
    generalize (((l.length : ℝ) + 1) * (2 ^ p)⁻¹) / |q| = a at *
    generalize ((2 : ℝ) ^ p)⁻¹ * |Real.log (powerW q l / c)| = b at *
    generalize ε / |q| = d at *
    generalize ((2 : ℝ) ^ p)⁻¹ = u at *
    norm_num at *; linarith
  have := mul_le_mul_of_nonneg_right key hP0
  linarith

/-! ### What does not hold -/

theorem zero_weight_aux (h : Nearest 53 (-1074) rd) {c q : ℝ} (hc : 0 < c) (hcf : IsFloat 53 (-1074) c) (hd : IsFloat 53 (-1074) (1 / c)) (hq : 2e-6 ≤ |q|) (hq1 : q ≠ -1)
    (hs : 0 < q ∧ 1 < c ∨ q < 0 ∧ c < 1) (hlow : (1 / c) ^ q ≤ 2 ^ (-1174 : ℤ)) :
    pmeanw1dR (rnd rd) lg ex (xpowR fun b e => rd (b ^ e)) [(.fin c, .fin 0), (.fin 1, .fin 1)] (.fin q) =
      rnd rd (XF.mul (.fin c) (xpowR (fun b e => rd (b ^ e)) (.fin 0) (.fin (rd (1 / q))))) := by
  have f0 : rd 0 = 0 := h.round_zero
  have f1 : rd 1 = 1 := h.exact (isFloat_one (by norm_num) (by norm_num))
  obtain ⟨M, hM, m, hm, hb, e⟩ := pmeanw_formula (lg := lg) (ex := ex) (pw := fun b e => rd (b ^ e)) h (by norm_num) (by norm_num) [(c, 0), (1, 1)] (by simp) q hq hq1
    (by simp [hc.le]) (.inr (by simp [hc]))
  have hb1 := hb (c, 0) (by simp)
  have hb2 := hb (1, 1) (by simp)
  simp only at hb1 hb2
  have hMm : M ≠ m := by rintro rfl; rcases hs with k | k <;> linarith [k.2, hb1.1, hb1.2, hb2.1, hb2.2]
  have hsc : (if 0 < q then M else m) = c := by
    simp only [List.map_cons, List.map_nil, List.mem_cons, List.not_mem_nil, or_false] at hM hm
    rcases hs with k | k
    · rw [if_pos k.1]
      rcases hM with k2 | k2
      · exact k2
      · linarith [k.2, hb1.1]
    · rw [if_neg (not_lt.2 k.1.le)]
      rcases hm with k2 | k2
      · exact k2
      · linarith [k.2, hb1.2]
  rw [if_neg hMm, hsc] at e
  have g : rd ((1 / c) ^ q) = 0 := Vnorm.round_tiny h (by positivity) hlow
  simp only [List.map_cons, List.map_nil, rsum, zero_add, add_zero, mul_zero, zero_mul, one_mul, f0, f1, h.exact hd, g] at e
  rw [XF.div_fin _ _ one_ne_zero, zero_div, rnd_fin, f0] at e
  exact e

/-- C93: an element of weight 0 can spoil pmeanw in double.  All the weight is on the element 1, so the mean of any order is 1;
but `pmeanw([2**1000, 1], [0, 1], 2)` is 0 and `pmeanw([2**-1000, 1], [0, 1], -2)` is infinite, because the data are
divided by an element of weight 0.  `pow` is correctly rounded. -/
theorem C93_pmeanw_zero_weight_violated (h : Nearest 53 (-1074) rd) :
    (pmeanw1dR (rnd rd) lg ex (xpowR fun b e => rd (b ^ e)) [(.fin (2 ^ (1000 : ℤ)), .fin 0), (.fin 1, .fin 1)] (.fin 2) = .fin 0 ∧
      powerW 2 [(2 ^ (1000 : ℤ), 0), (1, 1)] = 1) ∧
    (pmeanw1dR (rnd rd) lg ex (xpowR fun b e => rd (b ^ e)) [(.fin (2 ^ (-1000 : ℤ)), .fin 0), (.fin 1, .fin 1)] (.fin (-2)) = .pinf ∧
      powerW (-2) [(2 ^ (-1000 : ℤ), 0), (1, 1)] = 1) := by
  have f0 : rd 0 = 0 := h.round_zero
  have fh : rd (1 / 2) = 1 / 2 := h.exact ⟨1, -1, by norm_num, by norm_num, by norm_num⟩
  have fh' : rd (1 / (-2)) = 1 / (-2) := h.exact ⟨-1, -1, by norm_num, by norm_num, by norm_num⟩
  have pw1 : ∀ q : ℝ, ∀ c : ℝ, powerW q [(c, 0), (1, 1)] = 1 := by intro q c; simp [powerW]
  refine ⟨⟨?_, pw1 _ _⟩, ⟨?_, pw1 _ _⟩⟩
  · rw [zero_weight_aux h (by positivity) ⟨1, 1000, by norm_num, by norm_num, by simp⟩
      ⟨1, -1000, by norm_num, by norm_num, by simp⟩ (by rw [abs_of_pos (by norm_num)]; norm_num) (by norm_num) (.inl ⟨by norm_num, one_lt_zpow₀ (by norm_num) (by norm_num)⟩) ?_]
    · rw [fh, xpowR_fin le_rfl (by norm_num) (.inl (by norm_num)), Real.zero_rpow (by norm_num), f0, XF.mul_fin, mul_zero, rnd_fin, f0]
    · rw [one_div, ← zpow_neg, show (2 : ℝ) = ((2 : ℤ) : ℝ) by norm_num, Real.rpow_intCast, ← zpow_mul]
      exact zpow_le_zpow_right₀ (by norm_num) (by norm_num)
  · rw [zero_weight_aux h (by positivity) ⟨1, -1000, by norm_num, by norm_num, by simp⟩
      ⟨1, 1000, by norm_num, by norm_num, by simp⟩ (by rw [abs_of_neg (by norm_num)]; norm_num) (by norm_num) (.inr ⟨by norm_num, zpow_lt_one_of_neg₀ (by norm_num) (by norm_num)⟩) ?_]
    · rw [fh']
      have : xpowR (fun b e => rd (b ^ e)) (.fin 0) (.fin (1 / (-2))) = .pinf := by simp [xpowR]
      have hpos : (0 : ℝ) < 2 ^ (-1000 : ℤ) := by positivity
      rw [this]
      generalize (2 : ℝ) ^ (-1000 : ℤ) = z at *
      have e : XF.mul (.fin z) .pinf = XF.pinf := by simp [XF.mul, XF.infMul, hpos, hpos.ne']
      rw [e]; rfl
    · rw [one_div, ← zpow_neg, show (-2 : ℝ) = ((-2 : ℤ) : ℝ) by norm_num, Real.rpow_intCast, ← zpow_mul]
      exact zpow_le_zpow_right₀ (by norm_num) (by norm_num)

/-! ### Non-vacuity: doubles -/

/-- The quadratic mean of 1 and 7 with weights 2 and 2 is 5 up to `1e-13`. -/
example (h : Nearest 53 (-1074) rd) :
    ∃ r, pmeanw1dR (rnd rd) lg ex (xpowR fun b e => rd (b ^ e)) [(.fin 1, .fin 2), (.fin 7, .fin 2)] (.fin 2) = .fin r ∧ |r - 5| ≤ 1 / 10 ^ 13 := by
  have hlow : (2 : ℝ) ^ ((-1074 : ℤ) + (53 : ℕ) + 9) ≤ 1 / 64 := by
    rw [show (1 / 64 : ℝ) = 2 ^ (-6 : ℤ) by norm_num]
    exact zpow_le_zpow_right₀ (by norm_num) (by norm_num)
  have r2 : ∀ a : ℝ, a ^ (2 : ℝ) = a ^ 2 := fun a => by rw [← Real.rpow_natCast]; norm_num
  have hpw : powerW 2 [(1, 2), (7, 2)] = 5 := by
    have e : ([((1 : ℝ), (2 : ℝ)), (7, 2)].map fun a => a.2 * a.1 ^ (2 : ℝ)).sum / ([((1 : ℝ), (2 : ℝ)), (7, 2)].map Prod.snd).sum = 5 ^ (2 : ℝ) := by
      simp only [List.map_cons, List.map_nil, List.sum_cons, List.sum_nil, r2]; norm_num
    rw [powerW, e, ← Real.rpow_mul (by norm_num)]; norm_num
  have hΛ : |Real.log (5 / 7)| ≤ 1 := by
    have a1 := Real.one_sub_inv_le_log_of_pos (x := 5 / 7) (by norm_num)
    have a2 := Real.log_le_sub_one_of_pos (x := 5 / 7) (by norm_num)
    rw [abs_le]; constructor <;> norm_num at * <;> linarith
  obtain ⟨r, e, hr⟩ := C93_pmeanw_accuracy_partial (lg := lg) (ex := ex) h (by norm_num) (by norm_num) (signedPow_round h (by norm_num))
    (fun e he => by rw [Real.zero_rpow he.ne', h.round_zero]) (by positivity) (by norm_num) [(1, 2), (7, 2)] (by norm_num) ⟨by simp, by norm_num⟩
    (by
      simp only [List.mem_cons, List.not_mem_nil, or_false]
      rintro a (rfl | rfl) <;> exact ⟨2, 0, by norm_num, by norm_num, by norm_num⟩)
    (by simp) 2 (.inl (by norm_num)) (by norm_num) (by norm_num) (by norm_num) (by norm_num) (c := 7) (by simp)
    (by
      simp only [List.mem_cons, List.not_mem_nil, or_false]
      rintro a (rfl | rfl) <;> left <;> norm_num)
    (by
      simp only [List.mem_cons, List.not_mem_nil, or_false, r2]
      rintro a (rfl | rfl)
      · exact .inr (.inr ⟨hlow.trans (by norm_num), hlow.trans (by norm_num), hlow.trans (by norm_num)⟩)
      · exact .inr (.inr ⟨hlow.trans (by norm_num), hlow.trans (by norm_num), hlow.trans (by norm_num)⟩))
    (by
      simp only [avg, List.map_cons, List.map_nil, List.sum_cons, List.sum_nil, r2]
      exact hlow.trans (by norm_num))
    (by
      rw [hpw]
      generalize |Real.log (5 / 7)| = z at *
      norm_num; linarith)
  refine ⟨r, e, ?_⟩
  have hη : (2 : ℝ) ^ (-1074 : ℤ) ≤ 2 ^ (-60 : ℤ) := zpow_le_zpow_right₀ (by norm_num) (by norm_num)
  have hη0 : (0 : ℝ) < 2 ^ (-1074 : ℤ) := by positivity
  rw [hpw] at hr
  refine hr.trans ?_
  clear hr e hlow
  generalize (2 : ℝ) ^ (-1074 : ℤ) = η at *
  have := abs_nonneg (Real.log (5 / 7))
  generalize |Real.log (5 / 7)| = z at *
  rw [show |(2 : ℝ)| = 2 by norm_num]
  norm_num at *; linarith

end Ufunclab.Means
