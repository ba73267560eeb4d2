import Verif.Props.PmeanTiny
import Verif.Props.PmeanwRound
/-!
# C93: pmeanw in floating point for tiny orders

`0 < |q| < 2e-6`: the code returns `gmeanw(x, w)·(1 + q/2·var(log x))`.
-/
namespace Ufunclab.Means
open Ufunclab.Float Ufunclab.Corr MeansSpec
variable {p : ℕ} {emin : ℤ} {rd lg ex : ℝ → ℝ} {pow : XF ℝ → XF ℝ → XF ℝ} {ε : ℝ}

set_option quotPrecheck false
/-- A finite weighted vector as the functions receive it. -/
local notation "W " l => List.map (fun a : ℝ × ℝ => (XF.fin a.1, XF.fin a.2)) l

theorem logSumsWR_fin (l : List (ℝ × ℝ)) (hx : ∀ v ∈ l, 0 < v.1) : ∀ a s t, logSumsWR (rnd rd) lg (.fin a) (.fin s) (.fin t) (W l) =
    (.fin (rsum rd a (l.map Prod.snd)), .fin (rsum rd s (l.map fun v => rd (v.2 * lg v.1))),
      .fin (rsum rd t (l.map fun v => rd (rd (v.2 * lg v.1) * lg v.1)))) := by
  induction l with
  | nil => intro a s t; rfl
  | cons v l ih =>
    intro a s t
    have ha := hx v (by simp)
    have e : xlogR lg (.fin v.1) = .fin (lg v.1) := by simp only [xlogR]; rw [if_neg ha.not_gt, if_neg ha.ne']
    simp only [List.map_cons, logSumsWR, e, XF.add_fin, XF.mul_fin, rnd_fin, rsum]
    exact ih (fun b hb => hx b (by simp [hb])) _ _ _

/-- A quotient of a rounded sum of terms and the rounded sum of the weights. -/
theorem wavg_error (h : Nearest p emin rd) (hp : 10 ≤ p) (l : List (ℝ × ℝ)) (hn : 300 * ((l.length : ℝ) + 1) ≤ 2 ^ p)
    (hw : Weights l) (hwf : ∀ v ∈ l, IsFloat p emin v.2) (hwn : ∀ v ∈ l, v.2 = 0 ∨ 2 ^ (emin + 2 * p + 2) ≤ v.2)
    (t : ℝ × ℝ → ℝ) (f : ℝ → ℝ) (ht : ∀ v ∈ l, IsFloat p emin (t v)) {δ Z : ℝ} (hδ0 : 0 ≤ δ) (hδ : δ ≤ 1 / 100) (hZ : 1 ≤ Z) (hf : ∀ v ∈ l, |f v.1| ≤ Z)
    (herrt : ∀ v ∈ l, |t v - v.2 * f v.1| ≤ δ * |v.2 * f v.1| + 2 ^ emin / 2) :
    0 < rsum rd 0 (l.map Prod.snd) ∧ |rd (rsum rd 0 (l.map t) / rsum rd 0 (l.map Prod.snd)) - avg l f| ≤ (2.11 * (l.length * (2 ^ p)⁻¹) + 1.05 * δ + 1.05 * (2 ^ p)⁻¹) * Z + 2 ^ emin / 2 := by
  have hu0 : (0 : ℝ) < (2 ^ p)⁻¹ := by positivity
  have hu := Mad.unit_le_thousandth (K := ℝ) hp
  have hη : (0 : ℝ) < 2 ^ emin := by positivity
  have hnu : ((l.length : ℝ) + 1) * (2 ^ p)⁻¹ ≤ 1 / 300 := by rw [← div_eq_mul_inv, div_le_iff₀ (by positivity)]; linarith
  have t0 := weight_sum_error h (by omega) l hw.1 hwf (by linarith)
  have t1 := rsum_terms_list h (by omega) l t (fun v => v.2 * f v.1) ht herrt
  have hpu := Mad.pow_bound (u := ((2 : ℝ) ^ p)⁻¹) hu0.le l.length (by linarith)
  have hAL := abs_sum_map_le' l fun v => v.2 * f v.1
  have hΛ0 := (abs_nonneg _).trans hAL
  have hW := hw.2
  have hΛZ : (l.map fun v => |v.2 * f v.1|).sum ≤ Z * (l.map Prod.snd).sum := by
    rw [← List.sum_map_mul_left]
    apply List.sum_le_sum
    intro v hv
    rw [abs_mul, abs_of_nonneg (hw.1 v hv), mul_comm]
    exact mul_le_mul_of_nonneg_right (hf v hv) (hw.1 v hv)
  -- the sum of the weights is not tiny
  have hbig : (2 : ℝ) ^ (emin + 2 * p + 2) ≤ (l.map Prod.snd).sum := by
    by_contra hh
    have : ∀ v ∈ l, v.2 = 0 := by
      intro v hv
      rcases hwn v hv with k | k
      · exact k
      · have := List.single_le_sum (l := l.map Prod.snd) (by intro y hy; obtain ⟨w, hw', rfl⟩ := List.mem_map.1 hy; exact hw.1 w hw') v.2 (List.mem_map.2 ⟨v, hv, rfl⟩)
        exact absurd (k.trans this) hh
    have e : (l.map Prod.snd).sum = 0 := List.sum_eq_zero (by intro y hy; obtain ⟨w, hw', rfl⟩ := List.mem_map.1 hy; exact this w hw')
    rw [e] at hW; exact lt_irrefl _ hW
  have hηW : (2 : ℝ) ^ emin / (l.map Prod.snd).sum ≤ (2 ^ p)⁻¹ * (2 ^ p)⁻¹ := by
    rw [div_le_iff₀ hW]
    calc (2 : ℝ) ^ emin ≤ (2 ^ p)⁻¹ * (2 ^ p)⁻¹ * 2 ^ (emin + 2 * p + 2) := by
          rw [← zpow_natCast, ← zpow_neg, ← zpow_add₀ (by norm_num), ← zpow_add₀ (by norm_num)]
          exact zpow_le_zpow_right₀ (by norm_num) (by omega)
      _ ≤ _ := mul_le_mul_of_nonneg_left hbig (by positivity)
  have herr := fun z => h.error (by omega : 1 ≤ p) z
  have havg : avg l f = (l.map fun v => v.2 * f v.1).sum / (l.map Prod.snd).sum := rfl
  rw [havg]
  generalize rsum rd 0 (l.map t) = A' at *
  generalize rsum rd 0 (l.map Prod.snd) = B' at *
  generalize (l.map fun a => a.2 * f a.1).sum = A at *
  generalize (l.map Prod.snd).sum = D at *
  generalize (l.map fun v => |v.2 * f v.1|).sum = Λ at *
  clear havg herrt hf ht hwn hwf hw hbig
  have hP2 : (1 + ((2 : ℝ) ^ p)⁻¹) ^ l.length ≤ 1.004 := by
    clear * - hpu hnu hu0
    generalize (1 + ((2 : ℝ) ^ p)⁻¹) ^ l.length = P at *
    rw [mul_assoc] at hpu
    generalize ((2 : ℝ) ^ p)⁻¹ = u at *
    norm_num at *; linarith
  obtain ⟨a, ha⟩ : ∃ a : ℝ, a = 1.02 * (l.length * (2 ^ p)⁻¹) + 1.004 * δ := ⟨_, rfl⟩
  have ha0 : 0 ≤ a := by rw [ha]; positivity
  have t2 : |A' - A| ≤ a * Λ + 1.004 * (l.length * (2 ^ emin / 2)) := by
    refine t1.trans (add_le_add (mul_le_mul_of_nonneg_right ?_ hΛ0) (mul_le_mul_of_nonneg_right hP2 (by positivity)))
    have k := mul_le_mul_of_nonneg_right hP2 hδ0
    rw [ha]
    clear * - k hpu
    generalize (1 + ((2 : ℝ) ^ p)⁻¹) ^ l.length = P at *
    rw [mul_assoc 1.02] at hpu
    linarith
  obtain ⟨hB', t4⟩ := quot_error t2 hAL hW t0 (by
    clear * - hnu hu0
    generalize ((2 : ℝ) ^ p)⁻¹ = u at *
    norm_num at *; linarith)
  refine ⟨hB', ?_⟩
  have t5 := herr (A' / B')
  have hZ0 : 0 < Z := by linarith
  have hQ : |A / D| ≤ Z := by
    rw [abs_div, abs_of_pos hW, div_le_iff₀ hW]; exact hAL.trans hΛZ
  have hΛD : Λ / D ≤ Z := by rw [div_le_iff₀ hW]; exact hΛZ
  have hX0 : 0 ≤ (l.length : ℝ) * (2 ^ p)⁻¹ := by positivity
  have k1 : (a + 1.02 * (l.length * (2 ^ p)⁻¹)) * (Λ / D) ≤ (a + 1.02 * (l.length * (2 ^ p)⁻¹)) * Z := mul_le_mul_of_nonneg_left hΛD (by positivity)
  have k2 : 1.004 * (l.length * ((2 : ℝ) ^ emin / 2)) / D ≤ 0.001 * (l.length * (2 ^ p)⁻¹ * Z) := by
    have e : 1.004 * (l.length * ((2 : ℝ) ^ emin / 2)) / D = 0.502 * l.length * (2 ^ emin / D) := by ring
    rw [e]
    have c1 := mul_le_mul_of_nonneg_left hηW (by positivity : (0 : ℝ) ≤ 0.502 * l.length)
    have c2 : (0.502 : ℝ) * l.length * ((2 ^ p)⁻¹ * (2 ^ p)⁻¹) = 0.502 * (l.length * (2 ^ p)⁻¹) * (2 ^ p)⁻¹ := by ring
    have c3 := mul_le_mul_of_nonneg_left hu (by positivity : (0 : ℝ) ≤ 0.502 * (l.length * (2 ^ p)⁻¹))
    have c4 := mul_le_mul_of_nonneg_left hZ hX0
    clear * - c1 c2 c3 c4 hX0
    rw [c2] at c1
    generalize ((2 : ℝ) ^ p)⁻¹ = u at *
    norm_num at *; linarith
  generalize A' / B' = z at *
  generalize A / D = m at *
  generalize 1.004 * (l.length * ((2 : ℝ) ^ emin / 2)) / D = y at *
  generalize Λ / D = w at *
  have k3 : |z - m| ≤ (2.103 * (l.length * (2 ^ p)⁻¹) + 1.035 * δ) * Z := by
    refine t4.trans ?_
    have c0 : 0 ≤ δ * Z := by positivity
    have c1 : 0 ≤ (l.length : ℝ) * (2 ^ p)⁻¹ * Z := by positivity
    rw [ha] at k1 ⊢
    clear * - k1 k2 c0 c1
    generalize (l.length : ℝ) * (2 ^ p)⁻¹ = X at *
    norm_num at *; linarith
  have k4 : |z| ≤ 1.02 * Z := by
    have c0 : |z| ≤ |z - m| + |m| := by
      calc |z| = |(z - m) + m| := by congr 1; ring
        _ ≤ _ := abs_add_le _ _
    have c1 : (2.103 * (l.length * (2 ^ p)⁻¹) + 1.035 * δ) * Z ≤ 0.0175 * Z := by
      apply mul_le_mul_of_nonneg_right _ hZ0.le
      clear * - hnu hδ hu0
      generalize ((2 : ℝ) ^ p)⁻¹ = u at *
      norm_num at *; linarith
    clear * - c0 c1 k3 hQ hZ0
    norm_num at *; linarith
  have k5 := mul_le_mul_of_nonneg_left k4 hu0.le
  have c0 : 0 ≤ δ * Z := by positivity
  have c1 : 0 ≤ (l.length : ℝ) * (2 ^ p)⁻¹ * Z := by positivity
  have c2 : 0 ≤ ((2 : ℝ) ^ p)⁻¹ * Z := by positivity
  calc |rd z - m| = |(rd z - z) + (z - m)| := by congr 1; ring
    _ ≤ _ := abs_add_le _ _
    _ ≤ _ := by
      clear * - t5 k3 k5 c0 c1 c2
      generalize (l.length : ℝ) * (2 ^ p)⁻¹ = X at *
      generalize ((2 : ℝ) ^ p)⁻¹ = u at *
      norm_num at *; linarith

/-- The rounded `(w*lnx)*lnx`. -/
theorem wlogsq_error (h : Nearest p emin rd) (hp : 10 ≤ p) (he : emin ≤ -p) (hε0 : 0 ≤ ε) (hε : ε ≤ 1 / 2000)
    (hl : GoodLog p emin ε lg) {x w : ℝ} (hx : 0 < x) (hxf : IsFloat p emin x) (hw0 : 0 ≤ w) (hw : w = 0 ∨ 2 ^ (emin + 2 * p + 2) ≤ w) :
    |rd (rd (w * lg x) * lg x) - w * Real.log x ^ 2| ≤ (2.01 * (2 ^ p)⁻¹ + 2.01 * ε) * |w * Real.log x ^ 2| + 2 ^ emin / 2 := by
  have hu0 : (0 : ℝ) < (2 ^ p)⁻¹ := by positivity
  have hu := Mad.unit_le_thousandth (K := ℝ) hp
  have e1 := wlog_error h hp he hε0 hε hl hx hxf hw
  have e2 := hl.error x hxf hx
  have e3 := h.error (by omega : 1 ≤ p) (rd (w * lg x) * lg x)
  generalize rd (w * lg x) = t at *
  generalize lg x = g at *
  rw [abs_mul, abs_of_nonneg hw0] at e1
  rw [abs_of_nonneg (by positivity : 0 ≤ w * Real.log x ^ 2)]
  rw [← sq_abs (Real.log x)]
  have e4 : t * g - w * Real.log x ^ 2 = (t - w * Real.log x) * ((g - Real.log x) + Real.log x) + w * Real.log x * (g - Real.log x) := by ring
  have e5 : |(g - Real.log x) + Real.log x| ≤ (1 + ε) * |Real.log x| := (abs_add_le _ _).trans (by linarith)
  have e6 : |t * g - w * |Real.log x| ^ 2| ≤ (1.001 * (2 ^ p)⁻¹ + ε) * (w * |Real.log x|) * ((1 + ε) * |Real.log x|) + w * |Real.log x| * (ε * |Real.log x|) := by
    rw [sq_abs, e4]
    refine (abs_add_le _ _).trans (add_le_add ?_ ?_)
    · rw [abs_mul]; exact mul_le_mul e1 e5 (abs_nonneg _) (by positivity)
    · rw [abs_mul, abs_mul, abs_of_nonneg hw0]; exact mul_le_mul_of_nonneg_left e2 (by positivity)
  have e7 : (1.001 * (2 ^ p)⁻¹ + ε) * (w * |Real.log x|) * ((1 + ε) * |Real.log x|) + w * |Real.log x| * (ε * |Real.log x|) =
      ((1.001 * (2 ^ p)⁻¹ + ε) * (1 + ε) + ε) * (w * |Real.log x| ^ 2) := by ring
  rw [e7] at e6
  have hz0 : 0 ≤ w * |Real.log x| ^ 2 := by positivity
  have e8 : (1.001 * (2 ^ p)⁻¹ + ε) * (1 + ε) + ε ≤ 1.002 * (2 ^ p)⁻¹ + 2.001 * ε := by
    have a1 : (2 ^ p)⁻¹ * ε ≤ (2 ^ p)⁻¹ * (1 / 2000) := mul_le_mul_of_nonneg_left hε hu0.le
    have a2 : ε * ε ≤ ε * (1 / 2000) := mul_le_mul_of_nonneg_left hε hε0
    generalize ((2 : ℝ) ^ p)⁻¹ = u at *
    norm_num at *; linarith
  have e9 := e6.trans (mul_le_mul_of_nonneg_right e8 hz0)
  generalize w * |Real.log x| ^ 2 = z at *
  have k1 : |t * g| ≤ 1.003 * z := by
    have c0 : |t * g| ≤ |t * g - z| + |z| := by
      calc |t * g| = |(t * g - z) + z| := by congr 1; ring
        _ ≤ _ := abs_add_le _ _
    rw [abs_of_nonneg hz0] at c0
    have c1 : (1.002 * (2 ^ p)⁻¹ + 2.001 * ε) * z ≤ 0.003 * z := by
      apply mul_le_mul_of_nonneg_right _ hz0
      clear * - hu hε; norm_num at *; linarith
    clear * - c0 c1 e9
    norm_num at *; linarith
  have k2 := mul_le_mul_of_nonneg_left k1 hu0.le
  have k3 : 0 ≤ ((2 : ℝ) ^ p)⁻¹ * z := by positivity
  have k4 : 0 ≤ ε * z := by positivity
  generalize t * g = y at *
  calc |rd y - z| = |(rd y - y) + (y - z)| := by congr 1; ring
    _ ≤ _ := abs_add_le _ _
    _ ≤ _ := by
      clear * - e3 e9 k2 k3 k4
      generalize ((2 : ℝ) ^ p)⁻¹ = u at *
      norm_num at *; linarith

/-- C93: pmeanw for tiny orders, as an approximation of what the code sets out to compute. -/
theorem C93_pmeanw_tiny_formula (h : Nearest p emin rd) (hp : 10 ≤ p) (he : emin ≤ -4 * p) (hε0 : 0 ≤ ε) (hε : ε ≤ 1 / 2000)
    (hl : GoodLog p emin ε lg) (hexp : GoodExp emin ε ex) (l : List (ℝ × ℝ)) (hn : 300 * ((l.length : ℝ) + 1) ≤ 2 ^ p)
    (hw : Weights l) (hwf : ∀ v ∈ l, IsFloat p emin v.2) (hwn : ∀ v ∈ l, v.2 = 0 ∨ 2 ^ (emin + 2 * p + 2) ≤ v.2)
    (hx : ∀ v ∈ l, 0 < v.1) (hxf : ∀ v ∈ l, IsFloat p emin v.1) (Λ : ℝ) (hΛ1 : 1 ≤ Λ) (hΛ : ∀ v ∈ l, |Real.log v.1| ≤ Λ)
    (hb : (2.1 * (l.length + 2) * (2 ^ p)⁻¹ + 1.1 * ε) * Λ ≤ 1 / 50) (q : ℝ) (hq0 : q ≠ 0) (hq : |q| < 2e-6) (hqΛ : |q| * Λ ^ 2 ≤ 1) {v : ℝ}
    (hv : v = avg l (fun a => Real.log a ^ 2) - avg l Real.log ^ 2) :
    ∃ r, pmeanw1dR (rnd rd) lg (xexpR ex) pow (W l) (.fin q) = .fin r ∧ (0 < 1 + q / 2 * v ∧ 1 + q / 2 * v ≤ 3 / 2) ∧
      |r - geoW l * (1 + q / 2 * v)| ≤ ((1.3 * Λ + 8 * (|q| * Λ ^ 2)) * (2.1 * (l.length + 2) * (2 ^ p)⁻¹ + 1.1 * ε) + 1.5 * ε + 6 * (2 ^ p)⁻¹) *
        (geoW l * (1 + q / 2 * v)) + 2.3 * 2 ^ emin := by
  have hη : (0 : ℝ) < 2 ^ emin := by positivity
  have hu0 : (0 : ℝ) < (2 ^ p)⁻¹ := by positivity
  have hu := Mad.unit_le_thousandth (K := ℝ) hp
  have hΛ0 : 0 < Λ := by linarith
  have hX0 : 0 ≤ (l.length : ℝ) * (2 ^ p)⁻¹ := by positivity
  have hηs := eta_small hp he
  have hη4 : (2 : ℝ) ^ emin ≤ (2 ^ p)⁻¹ * (2 ^ p)⁻¹ * (2 ^ p)⁻¹ * (2 ^ p)⁻¹ := by
    rw [← zpow_natCast, ← zpow_neg, ← zpow_add₀ (by norm_num), ← zpow_add₀ (by norm_num), ← zpow_add₀ (by norm_num)]
    exact zpow_le_zpow_right₀ (by norm_num) (by omega)
  obtain ⟨K, hK⟩ : ∃ K : ℝ, K = 2.1 * (l.length + 2) * (2 ^ p)⁻¹ + 1.1 * ε := ⟨_, rfl⟩
  have hKe : K = 2.1 * (l.length * (2 ^ p)⁻¹) + 4.2 * (2 ^ p)⁻¹ + 1.1 * ε := by rw [hK]; ring
  have hK0 : 0 < K := by rw [hK]; positivity
  have huK : ((2 : ℝ) ^ p)⁻¹ ≤ K := by
    rw [hKe]; clear * - hX0 hu0 hε0
    generalize ((2 : ℝ) ^ p)⁻¹ = u at *
    norm_num at *; linarith
  have hLΛ : (avg l fun a => |Real.log a|) ≤ Λ := mean_le l (fun a => |Real.log a|) Λ hw hΛ
  have hL0 : 0 ≤ avg l fun a => |Real.log a| := le_mean l (fun a => |Real.log a|) 0 hw fun _ _ => abs_nonneg _
  obtain ⟨g', eg, hg'0, hg'⟩ := C93_gmeanw_accuracy h hp (by omega) hε0 hε hl hexp l hn hw hwf hwn hx hxf rfl
    ((mul_le_mul_of_nonneg_left hLΛ (by rw [← hK]; exact hK0.le)).trans hb)
  rw [← hK] at hb hg' ⊢
  have hg : 0 < geoW l := Real.exp_pos _
  have hg'' : |g' - geoW l| ≤ (1.1 * (K * Λ) + 1.1 * (1.1 * ε) + 2 ^ emin) * geoW l + 2 ^ emin := by
    refine hg'.trans ?_
    have k := mul_le_mul_of_nonneg_right (mul_le_mul_of_nonneg_left hLΛ hK0.le) hg.le
    clear * - k
    norm_num at *; linarith
  have herr := fun z => h.error (by omega : 1 ≤ p) z
  have hlog2 : ∀ v ∈ l, |Real.log v.1 ^ 2| ≤ Λ ^ 2 := fun v hv => by
    rw [abs_of_nonneg (sq_nonneg _), ← sq_abs]; exact pow_le_pow_left₀ (abs_nonneg _) (hΛ v hv) 2
  have hΛ2 : 1 ≤ Λ ^ 2 := one_le_pow₀ hΛ1
  obtain ⟨hB', hm1⟩ := wavg_error h hp l hn hw hwf hwn (fun v => rd (v.2 * lg v.1)) Real.log (fun v _ => (h _).1) (δ := 1.001 * (2 ^ p)⁻¹ + ε) (Z := Λ) (by positivity)
    (by clear * - hu hε; norm_num at *; linarith) hΛ1 hΛ
    (fun v hv => (wlog_error h hp (by omega) hε0 hε hl (hx v hv) (hxf v hv) (hwn v hv)).trans (by linarith))
  obtain ⟨-, hQ1⟩ := wavg_error h hp l hn hw hwf hwn (fun v => rd (rd (v.2 * lg v.1) * lg v.1)) (fun a => Real.log a ^ 2) (fun v _ => (h _).1) (δ := 2.01 * (2 ^ p)⁻¹ + 2.01 * ε) (Z := Λ ^ 2) (by positivity)
    (by clear * - hu hε; norm_num at *; linarith) hΛ2 hlog2
    (fun v hv => wlogsq_error h hp (by omega) hε0 hε hl (hx v hv) (hxf v hv) (hw.1 v hv) (hwn v hv))
  have hform : pmeanw1dR (rnd rd) lg (xexpR ex) pow (W l) (.fin q) =
      .fin (rd (g' * rd (1 + rd (rd (1 / 2 * q) * rd (rd (rsum rd 0 (l.map fun v => rd (rd (v.2 * lg v.1) * lg v.1)) / rsum rd 0 (l.map Prod.snd)) -
        rd (rd (rsum rd 0 (l.map fun v => rd (v.2 * lg v.1)) / rsum rd 0 (l.map Prod.snd)) * rd (rsum rd 0 (l.map fun v => rd (v.2 * lg v.1)) / rsum rd 0 (l.map Prod.snd)))))))) := by
    have hne0 : XF.ne (.fin q) (.fin 0) = true := by simp [XF.ne, hq0]
    rw [pmeanw1dR]
    simp only [XF.isnan_fin, XF.abs_fin, XF.lt_fin, Bool.false_eq_true, if_false, decide_eq_true_eq, if_pos hq, hne0, if_true]
    rw [eg, logSumsWR_fin l hx]
    simp only
    rw [XF.div_fin _ _ hB'.ne', XF.div_fin _ _ hB'.ne']
    simp only [rnd_fin, XF.mul_fin, XF.sub_fin, XF.add_fin]
  have hma : |avg l Real.log| ≤ Λ := avg_abs l hw _ _ hΛ
  have hQΛ : (avg l fun a => Real.log a ^ 2) ≤ Λ ^ 2 := (le_abs_self _).trans (avg_abs l hw _ _ hlog2)
  have hmQ : avg l Real.log ^ 2 ≤ avg l fun a => Real.log a ^ 2 := by
    have e : (fun x : ℝ => (Real.log x - avg l Real.log) ^ 2) = fun x => (avg l Real.log ^ 2 + (-2 * avg l Real.log) * Real.log x) + Real.log x ^ 2 := by
      funext x; ring
    have k := le_mean l (fun x => (Real.log x - avg l Real.log) ^ 2) 0 hw fun _ _ => sq_nonneg _
    have k2 : 0 ≤ avg l fun x => (Real.log x - avg l Real.log) ^ 2 := k
    rw [e, avg_add, avg_affine l hw] at k2
    linarith
  have hm' : |rd (rsum rd 0 (l.map fun v => rd (v.2 * lg v.1)) / rsum rd 0 (l.map Prod.snd)) - avg l Real.log| ≤ 1.03 * (K * Λ) := by
    refine hm1.trans ?_
    have k1 : 0 ≤ ((2 : ℝ) ^ p)⁻¹ * (Λ - 1) := mul_nonneg hu0.le (by linarith)
    have k2 : 0 ≤ (l.length : ℝ) * (2 ^ p)⁻¹ * Λ := by positivity
    have k3 : 0 ≤ ((2 : ℝ) ^ p)⁻¹ * Λ := by positivity
    have k4 : 0 ≤ ε * Λ := by positivity
    have k5 := hηs.1
    rw [hKe]
    clear * - k1 k2 k3 k4 k5 hη
    generalize (2 : ℝ) ^ emin = η at *
    generalize (l.length : ℝ) * (2 ^ p)⁻¹ = X at *
    generalize ((2 : ℝ) ^ p)⁻¹ = u at *
    norm_num at *; linarith
  have hQ' : |rd (rsum rd 0 (l.map fun v => rd (rd (v.2 * lg v.1) * lg v.1)) / rsum rd 0 (l.map Prod.snd)) - avg l fun a => Real.log a ^ 2| ≤ 2.2 * (K * Λ ^ 2) := by
    refine hQ1.trans ?_
    generalize Λ ^ 2 = Z at *
    have k1 : 0 ≤ ((2 : ℝ) ^ p)⁻¹ * (Z - 1) := mul_nonneg hu0.le (by linarith)
    have k2 : 0 ≤ (l.length : ℝ) * (2 ^ p)⁻¹ * Z := by positivity
    have k3 : 0 ≤ ((2 : ℝ) ^ p)⁻¹ * Z := by positivity
    have k4 : 0 ≤ ε * Z := by positivity
    have k5 := hηs.1
    rw [hKe]
    clear * - k1 k2 k3 k4 k5 hη
    generalize (2 : ℝ) ^ emin = η at *
    generalize (l.length : ℝ) * (2 ^ p)⁻¹ = X at *
    generalize ((2 : ℝ) ^ p)⁻¹ = u at *
    norm_num at *; linarith
  refine ⟨_, hform, ?_⟩
  generalize rd (rsum rd 0 (l.map fun v => rd (rd (v.2 * lg v.1) * lg v.1)) / rsum rd 0 (l.map Prod.snd)) = Q' at *
  generalize rd (rsum rd 0 (l.map fun v => rd (v.2 * lg v.1)) / rsum rd 0 (l.map Prod.snd)) = m' at *
  obtain ⟨hv1, hv2⟩ := tiny_var hu0.le hΛ1 huK hb hη.le hηs.1 hQΛ hma hmQ hQ' hm' (herr _) (herr _)
  rw [← hv] at hv1
  have hf := tiny_finish (ε := 1.1 * ε) hu0 hu hΛ1 huK hb (by positivity) (by clear * - hε; norm_num at *; linarith) hη.le hη4 hqΛ (by rw [hv]; linarith)
    (by rw [hv]; have := sq_nonneg (avg l Real.log); linarith) hv1 hv2 (herr _) (herr _) (herr _) hg hg'' (herr _)
  refine ⟨hf.1, hf.2.trans ?_⟩
  have k : 0 ≤ ε * (geoW l * (1 + q / 2 * v)) := mul_nonneg hε0 (mul_nonneg hg.le hf.1.1.le)
  clear * - k
  norm_num at *; linarith

/-- C93: pmeanw for tiny orders against the weighted power mean itself: `R` bounds the deviations of the
logarithms from their mean; the last term of the coefficient is the error of the approximation. -/
theorem C93_pmeanw_accuracy_tiny (h : Nearest p emin rd) (hp : 10 ≤ p) (he : emin ≤ -4 * p) (hε0 : 0 ≤ ε) (hε : ε ≤ 1 / 2000)
    (hl : GoodLog p emin ε lg) (hexp : GoodExp emin ε ex) (l : List (ℝ × ℝ)) (hn : 300 * ((l.length : ℝ) + 1) ≤ 2 ^ p)
    (hw : Weights l) (hwf : ∀ v ∈ l, IsFloat p emin v.2) (hwn : ∀ v ∈ l, v.2 = 0 ∨ 2 ^ (emin + 2 * p + 2) ≤ v.2)
    (hx : ∀ v ∈ l, 0 < v.1) (hxf : ∀ v ∈ l, IsFloat p emin v.1) (Λ : ℝ) (hΛ1 : 1 ≤ Λ) (hΛ : ∀ v ∈ l, |Real.log v.1| ≤ Λ)
    (hb : (2.1 * (l.length + 2) * (2 ^ p)⁻¹ + 1.1 * ε) * Λ ≤ 1 / 50) (q : ℝ) (hq0 : q ≠ 0) (hq : |q| < 2e-6) (hqΛ : |q| * Λ ^ 2 ≤ 1)
    (R : ℝ) (hR : ∀ v ∈ l, |Real.log v.1 - avg l Real.log| ≤ R) (hR2 : R ≤ 700) :
    ∃ r, pmeanw1dR (rnd rd) lg (xexpR ex) pow (W l) (.fin q) = .fin r ∧
      |r - powerW q l| ≤ ((2 * Λ + 21) * (2.1 * (l.length + 2) * (2 ^ p)⁻¹ + 1.1 * ε) + 3 * ε + q ^ 2 * R ^ 3 * (1 + R)) * geoW l + 2.3 * 2 ^ emin := by
  obtain ⟨r, e, ⟨h1, hw1⟩, h2⟩ := C93_pmeanw_tiny_formula (pow := pow) h hp he hε0 hε hl hexp l hn hw hwf hwn hx hxf Λ hΛ1 hΛ hb q hq0 hq hqΛ rfl
  refine ⟨r, e, ?_⟩
  have hne : l ≠ [] := by rintro rfl; exact absurd hw.2 (by simp)
  obtain ⟨a0, ha0⟩ := List.exists_mem_of_ne_nil l hne
  have hR0 : 0 ≤ R := (abs_nonneg _).trans (hR a0 ha0)
  have k := small_p l q R hq0 hw hx hR ((mul_le_mul hq.le hR2 hR0 (by norm_num)).trans (by norm_num))
    ((mul_le_mul hq.le (pow_le_pow_left₀ hR0 hR2 2) (by positivity) (by norm_num)).trans (by norm_num))
  have hg : 0 < geoW l := Real.exp_pos _
  generalize avg l (fun a => Real.log a ^ 2) - avg l Real.log ^ 2 = v at *
  have hu0 : (0 : ℝ) < (2 ^ p)⁻¹ := by positivity
  obtain ⟨K, hK⟩ : ∃ K : ℝ, K = 2.1 * (l.length + 2) * (2 ^ p)⁻¹ + 1.1 * ε := ⟨_, rfl⟩
  have hKe : K = 2.1 * (l.length * (2 ^ p)⁻¹) + 4.2 * (2 ^ p)⁻¹ + 1.1 * ε := by rw [hK]; ring
  have huK : ((2 : ℝ) ^ p)⁻¹ ≤ K := by
    have hX0 : 0 ≤ (l.length : ℝ) * (2 ^ p)⁻¹ := by positivity
    rw [hKe]; clear * - hX0 hu0 hε0
    generalize ((2 : ℝ) ^ p)⁻¹ = u at *
    norm_num at *; linarith
  rw [← hK] at h2 ⊢
  have hK0 : 0 < K := lt_of_lt_of_le hu0 huK
  have c1 : (1.3 * Λ + 8 * (|q| * Λ ^ 2)) * K + 1.5 * ε + 6 * (2 ^ p)⁻¹ ≤ (1.3 * Λ + 14) * K + 1.5 * ε := by
    have := mul_le_mul_of_nonneg_right hqΛ hK0.le
    linarith
  have c2 : ((1.3 * Λ + 8 * (|q| * Λ ^ 2)) * K + 1.5 * ε + 6 * (2 ^ p)⁻¹) * (geoW l * (1 + q / 2 * v)) ≤ ((1.3 * Λ + 14) * K + 1.5 * ε) * (geoW l * (3 / 2)) :=
    mul_le_mul c1 (mul_le_mul_of_nonneg_left hw1 hg.le) (by positivity) (by positivity)
  have c3 : ((1.3 * Λ + 14) * K + 1.5 * ε) * (geoW l * (3 / 2)) ≤ ((2 * Λ + 21) * K + 3 * ε) * geoW l := by
    have a1 : 0 ≤ Λ * K * geoW l := by positivity
    have a2 : 0 ≤ ε * geoW l := by positivity
    norm_num; nlinarith
  calc |r - powerW q l| = |(r - geoW l * (1 + q / 2 * v)) + (geoW l * (1 + q / 2 * v) - powerW q l)| := by congr 1; ring
    _ ≤ _ := abs_add_le _ _
    _ ≤ _ := by linarith

/-- C93: order 0 is the weighted geometric mean and order -1 the weighted harmonic mean, for all data, with
the bounds of `C93_gmeanw_accuracy` and `C93_hmeanw_accuracy`. -/
theorem C93_pmeanw_zero_minus_one (r : XF ℝ → XF ℝ) (e : XF ℝ → XF ℝ) (x : List (XF ℝ × XF ℝ)) :
    pmeanw1dR r lg e pow x (.fin 0) = gmeanw1dR r lg e x ∧ pmeanw1dR r lg e pow x (.fin (-1)) = hmeanw1dR r x := by
  constructor
  · rw [pmeanw1dR]
    simp only [XF.isnan_fin, XF.abs_fin, XF.lt_fin, Bool.false_eq_true, if_false, abs_zero]
    rw [if_pos (by norm_num), if_neg (by simp [XF.ne])]
  · rw [pmeanw1dR]
    simp only [XF.isnan_fin, XF.abs_fin, XF.lt_fin, Bool.false_eq_true, if_false, XF.eq_fin]
    rw [if_neg (by norm_num), if_pos (by simp)]

/-- `pmeanw([1, 4], [1, 3], 2**-20)` in double. -/
example (h : Nearest 53 (-1074) rd) : ∃ r, pmeanw1dR (rnd rd) (fun a => rd (Real.log a)) (xexpR fun y => rd (Real.exp y)) pow [(.fin 1, .fin 1), (.fin 4, .fin 3)] (.fin (1 / 2 ^ 20)) = .fin r ∧
    |r - powerW (1 / 2 ^ 20) [(1, 1), (4, 3)]| ≤ 1 / 10 ^ 9 := by
  have hl4 : Real.log 4 ≤ 3 := (Real.log_le_sub_one_of_pos (by norm_num)).trans (by norm_num)
  have hl0 : 0 ≤ Real.log 4 := Real.log_nonneg (by norm_num)
  have hgeo : geoW [(1, 1), (4, 3)] ≤ 4 := by
    have e : geoW [(1, 1), (4, 3)] = Real.exp (3 * Real.log 4 / 4) := by
      simp [geoW]; norm_num
    rw [e]
    calc Real.exp (3 * Real.log 4 / 4) ≤ Real.exp (Real.log 4) := Real.exp_le_exp.2 (by linarith)
      _ ≤ 4 := by rw [Real.exp_log (by norm_num)]
  have havg : avg [(1, 1), (4, 3)] Real.log = 3 * Real.log 4 / 4 := by simp [avg]; norm_num
  have hlow : (2 : ℝ) ^ ((-1074 : ℤ) + 2 * (53 : ℕ) + 2) ≤ 1 := zpow_le_one_of_nonpos₀ (by norm_num) (by norm_num)
  obtain ⟨r, e, hr⟩ := C93_pmeanw_accuracy_tiny (pow := pow) h (by norm_num) (by norm_num) (by positivity) (by norm_num) (goodLog_round h (by norm_num) (by norm_num))
    (goodExp_round h (by norm_num)) [(1, 1), (4, 3)] (by norm_num) ⟨by simp, by norm_num⟩
    (by
      simp only [List.mem_cons, List.not_mem_nil, or_false]
      rintro a (rfl | rfl)
      · exact isFloat_one (by norm_num) (by norm_num)
      · exact ⟨3, 0, by norm_num, by norm_num, by norm_num⟩)
    (by
      simp only [List.mem_cons, List.not_mem_nil, or_false]
      rintro a (rfl | rfl)
      · exact .inr hlow
      · exact .inr (hlow.trans (by norm_num)))
    (by simp)
    (by
      simp only [List.mem_cons, List.not_mem_nil, or_false]
      rintro a (rfl | rfl)
      · exact isFloat_one (by norm_num) (by norm_num)
      · exact ⟨4, 0, by norm_num, by norm_num, by norm_num⟩)
    3 (by norm_num)
    (by
      simp only [List.mem_cons, List.not_mem_nil, or_false]
      rintro a (rfl | rfl)
      · simp
      · rw [abs_of_nonneg hl0]; exact hl4)
    (by norm_num) (1 / 2 ^ 20) (by norm_num) (by rw [abs_of_pos (by positivity)]; norm_num) (by rw [abs_of_pos (by positivity)]; norm_num)
    3
    (by
      simp only [List.mem_cons, List.not_mem_nil, or_false]
      rw [havg]
      rintro a (rfl | rfl)
      · rw [Real.log_one, abs_le]; constructor <;> linarith
      · rw [abs_le]; constructor <;> linarith)
    (by norm_num)
  refine ⟨r, e, hr.trans ?_⟩
  have hg0 : 0 < geoW [(1, 1), (4, 3)] := Real.exp_pos _
  have h74 : (2 : ℝ) ^ (-1074 : ℤ) ≤ 1 / 10 ^ 18 := by
    calc (2 : ℝ) ^ (-1074 : ℤ) ≤ 2 ^ (-64 : ℤ) := zpow_le_zpow_right₀ (by norm_num) (by norm_num)
      _ ≤ _ := by norm_num
  simp only [List.length_cons, List.length_nil]
  generalize (2 : ℝ) ^ (-1074 : ℤ) = η at *
  generalize geoW [(1, 1), (4, 3)] = g at *
  norm_num at h74 ⊢
  linarith

end Ufunclab.Means
