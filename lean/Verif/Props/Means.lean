import Verif.Proof.Means
import Verif.Proof.MeansIneq
/-!
# C65: geometric, harmonic and power means

`XF.fin` embeds the real numbers in the numbers with NaN and infinities.  A weighted vector is a
list of pairs (value, weight).
-/
namespace Ufunclab.Means
open XF MeansSpec

set_option quotPrecheck false
/-- A finite weighted vector as the functions receive it. -/
local notation "W " l => List.map (fun a : ℝ × ℝ => (XF.fin a.1, XF.fin a.2)) l
/-- A finite vector as the functions receive it. -/
local notation "V " l => List.map (fun a : ℝ => XF.fin a) l

theorem W_unit (x : List ℝ) : (W (x.map fun a => (a, (1 : ℝ)))) = (V x).map fun v => (v, XF.fin 1) := by
  simp [Function.comp_def]
theorem unit_sum (x : List ℝ) : ((x.map fun a => (a, (1 : ℝ))).map Prod.snd).sum = x.length := by
  simp [Function.comp_def]
theorem unit_weights (x : List ℝ) (hne : x ≠ []) : Weights (x.map fun a => (a, (1 : ℝ))) := by
  refine ⟨?_, ?_⟩
  · intro v hv
    obtain ⟨a, -, rfl⟩ := List.mem_map.1 hv
    exact zero_le_one
  · rw [unit_sum]; exact_mod_cast List.length_pos_iff.2 hne
theorem unit_geo (x : List ℝ) : geoW (x.map fun a => (a, (1 : ℝ))) = geo x := by
  simp [geoW, geo, Function.comp_def]
theorem unit_harm (x : List ℝ) : harmW (x.map fun a => (a, (1 : ℝ))) = harm x := by
  simp [harmW, harm, Function.comp_def]
theorem unit_power (x : List ℝ) (p : ℝ) : powerW p (x.map fun a => (a, (1 : ℝ))) = power p x := by
  simp [powerW, power, Function.comp_def]

/-! ### The definitions -/

/-- `gmeanw(x, w) = exp(Σ w·log x / Σ w)` for positive `x` and any weights with non-zero sum:
the all-equal shortcut included. -/
theorem C65_gmeanw (l : List (ℝ × ℝ)) (h : ∀ v ∈ l, 0 < v.1) (hw : (l.map Prod.snd).sum ≠ 0) :
    gmeanw (W l) = some (.fin (geoW l)) := by
  have hne : l ≠ [] := by rintro rfl; simp at hw
  rw [gmeanw, if_neg (by simpa using hne)]
  exact congrArg some (gmeanw1d_pos l hne h hw)

/-- `gmean(x) = exp(mean(log x))` for positive `x`. -/
theorem C65_gmean (x : List ℝ) (hne : x ≠ []) (h : ∀ a ∈ x, 0 < a) : gmean (V x) = some (.fin (geo x)) := by
  have h1 := C65_gmeanw (x.map fun a => (a, 1)) (by simpa using h) (unit_weights x hne).2.ne'
  rw [gmeanw, W_unit, if_neg (by simpa using hne), gmeanw1d_unit _ (by simpa using hne), unit_geo] at h1
  rw [gmean, if_neg (by simpa using hne), h1]

/-- `hmeanw(x, w) = Σw / Σ(w/x)` for positive `x` and non-negative weights. -/
theorem C65_hmeanw (l : List (ℝ × ℝ)) (h : ∀ v ∈ l, 0 < v.1) (hw : Weights l) : hmeanw (W l) = some (.fin (harmW l)) := by
  have hd := sum_mul_pos l (fun a => 1 / a) hw.1 (fun v hv => one_div_pos.2 (h v hv)) hw.2
  have e : (l.map fun v => v.2 * (1 / v.1)) = l.map fun v => v.2 / v.1 := List.map_congr_left fun v _ => by rw [mul_one_div]
  rw [e] at hd
  rw [hmeanw, if_neg (by simpa using ne_nil l hw)]
  exact congrArg some (hmeanw1d_fin l (fun v hv => (h v hv).ne') hd.ne')

/-- `hmean(x) = n / Σ(1/x)` for positive `x`. -/
theorem C65_hmean (x : List ℝ) (hne : x ≠ []) (h : ∀ a ∈ x, 0 < a) : hmean (V x) = some (.fin (harm x)) := by
  have h1 := C65_hmeanw (x.map fun a => (a, 1)) (by simpa using h) (unit_weights x hne)
  rw [hmeanw, W_unit, if_neg (by simpa using hne), hmeanw1d_unit, unit_harm] at h1
  rw [hmean, if_neg (by simpa using hne), h1]

/-- `pmeanw(x, w, p) = (Σ w·x^p / Σ w)^(1/p)` for `|p| ≥ 2e-6`, non-negative `x` (positive when
`p < 0`) and non-negative weights: the harmonic shortcut, the all-equal shortcut and the scaling
by the largest or smallest element all give the defined value. -/
theorem C65_pmeanw (l : List (ℝ × ℝ)) (p : ℝ) (hp : 2e-6 ≤ |p|) (h : ∀ v ∈ l, 0 ≤ v.1)
    (hpos : 0 < p ∨ ∀ v ∈ l, 0 < v.1) (hw : Weights l) : pmeanw (W l) (.fin p) = some (.fin (powerW p l)) := by
  rw [pmeanw, if_neg (by simpa using ne_nil l hw)]
  exact congrArg some (pmeanw1d_fin l p hp h hpos hw.1 hw.2)

/-- `pmean(x, p) = (mean(x^p))^(1/p)`. -/
theorem C65_pmean (x : List ℝ) (p : ℝ) (hne : x ≠ []) (hp : 2e-6 ≤ |p|) (h : ∀ a ∈ x, 0 ≤ a)
    (hpos : 0 < p ∨ ∀ a ∈ x, 0 < a) : pmean (V x) (.fin p) = some (.fin (power p x)) := by
  have h1 := C65_pmeanw (x.map fun a => (a, 1)) p hp (by simpa using h) (by simpa using hpos) (unit_weights x hne)
  rw [pmeanw, W_unit, if_neg (by simpa using hne), pmeanw1d_unit _ (by simpa using hne), unit_power] at h1
  rw [pmean, if_neg (by simpa using hne), h1]

/-- `p = 0` is the geometric mean, `p = -1` the harmonic mean and a NaN order gives NaN: for every
input whatsoever. -/
theorem C65_order (x : List (XF ℝ)) (l : List (XF ℝ × XF ℝ)) :
    pmean x (.fin 0) = gmean x ∧ pmeanw l (.fin 0) = gmeanw l ∧ pmean x (.fin (-1)) = hmean x ∧ pmeanw l (.fin (-1)) = hmeanw l ∧
    (x ≠ [] → pmean x .nan = some .nan) ∧ (l ≠ [] → pmeanw l .nan = some .nan) := by
  have a1 : ¬ |(-1 : ℝ)| < 2e-6 := by norm_num
  refine ⟨?_, ?_, ?_, ?_, ?_, ?_⟩
  · simp only [pmean, gmean, pmean1d, isnan_fin, XF.ne, abs_fin, lt_fin, eq_fin]; norm_num
  · simp only [pmeanw, gmeanw, pmeanw1d, isnan_fin, XF.ne, abs_fin, lt_fin, eq_fin]; norm_num
  · simp only [pmean, hmean, pmean1d, isnan_fin, abs_fin, lt_fin, eq_fin, decide_eq_true_eq, if_neg a1]; norm_num
  · simp only [pmeanw, hmeanw, pmeanw1d, isnan_fin, abs_fin, lt_fin, eq_fin, decide_eq_true_eq, if_neg a1]; norm_num
  · intro h; rw [pmean, if_neg (by simpa using h)]; rfl
  · intro h; rw [pmeanw, if_neg (by simpa using h)]; rfl

/-- An infinite order selects the largest (`+∞`) or smallest (`-∞`) element of non-negative data,
zeros and infinities included. -/
theorem C65_pmean_inf (x : List (XF ℝ)) (hne : x ≠ []) (h : ∀ v ∈ x, isnan v = false ∧ XF.lt v (.fin 0) = false) :
    (∃ M ∈ x, pmean x .pinf = some M ∧ ∀ v ∈ x, XF.le v M = true) ∧
    (∃ m ∈ x, pmean x .ninf = some m ∧ ∀ v ∈ x, XF.le m v = true) := by
  obtain ⟨i1, i2, i3, i4, i5, i6, i7, -⟩ := scan_good x 0 {} h (by simp) (by simpa using hne)
  have hl : ¬ x.length = 0 := by simpa using hne
  have p1 : pmean1d x .pinf = (match pmeanSpecial (pmeanScan 0 {} x) .pinf with | some v => v | none => mul (pmeanScan 0 {} x).xmax (xpow (div (powSum (pmeanScan 0 {} x).xmax .pinf (.fin 0) x) (.fin (x.length : ℝ))) (div (.fin 1) .pinf))) := rfl
  have p2 : pmean1d x .ninf = (match pmeanSpecial (pmeanScan 0 {} x) .ninf with | some v => v | none => mul (pmeanScan 0 {} x).xmin (xpow (div (powSum (pmeanScan 0 {} x).xmin .ninf (.fin 0) x) (.fin (x.length : ℝ))) (div (.fin 1) .ninf))) := rfl
  rw [pmean, pmean, if_neg hl, if_neg hl, p1, p2]
  generalize pmeanScan 0 {} x = r at *
  have j5 : r.xmax ∈ x := by rcases i5 with h | h; exact h; exact absurd rfl h.1
  have j6 : r.xmin ∈ x := by rcases i6 with h | h; exact h; exact absurd rfl h.1
  have hM := fun v hv => (i7 v hv).1
  have hm := fun v hv => (i7 v hv).2
  simp only [pmeanSpecial, i1, i2, Bool.or_self, Bool.false_eq_true, if_false]
  constructor
  · refine ⟨r.xmax, j5, ?_, hM⟩
    by_cases c : XF.eq r.xmax r.xmin = true
    · rw [if_pos c]
    · rw [if_neg c]
      cases hI : r.hasInf
      · simp [XF.gt, XF.lt, isinf]
      · have : r.xmax = .pinf := by
          rw [hI] at i3
          obtain ⟨v, hv, hvi⟩ := List.any_eq_true.1 (by simpa using i3.symm : x.any isinf = true)
          have hvp : v = .pinf := by
            have := (h v hv).2
            cases v <;> simp_all [isinf, XF.lt]
          have := hM v hv
          rw [hvp] at this
          cases hx : r.xmax <;> simp_all [XF.le, XF.lt, XF.eq]
        simp [XF.gt, XF.lt, isinf, this]
  · refine ⟨r.xmin, j6, ?_, hm⟩
    by_cases c : XF.eq r.xmax r.xmin = true
    · rw [if_pos c]
      have := (eq_iff' _ _ (h _ j5).1).1 c
      simp [this]
    · rw [if_neg c]
      cases hZ : r.hasZero
      · simp [XF.gt, XF.lt, isinf]
      · have : r.xmin = .fin 0 := by
          rw [hZ] at i4
          obtain ⟨v, hv, hvi⟩ := List.any_eq_true.1 (by simpa using i4.symm : (x.any fun v => XF.eq v (.fin 0)) = true)
          have hv0 := (eq_iff' _ _ (h _ hv).1).1 hvi
          have a := hm v hv
          rw [hv0] at a
          have b := le_of_not_lt' _ _ (h _ j6).1 rfl (h _ j6).2
          exact le_antisymm' _ _ a b
        simp [XF.gt, XF.lt, isinf, this]

/-! ### Properties of the returned values -/

/-- With unit weights the weighted functions equal the unweighted ones, for every vector (NaN,
infinities, zeros and negative numbers included) and every order. -/
theorem C65_unit_weights (x : List (XF ℝ)) (p : XF ℝ) :
    gmeanw (x.map fun v => (v, .fin 1)) = gmean x ∧ hmeanw (x.map fun v => (v, .fin 1)) = hmean x ∧
    pmeanw (x.map fun v => (v, .fin 1)) p = pmean x p := by
  by_cases hne : x = []
  · subst hne; simp [gmeanw, gmean, hmeanw, hmean, pmeanw, pmean]
  · have h1 : ¬ x.length = 0 := by simpa using hne
    simp only [gmeanw, gmean, hmeanw, hmean, pmeanw, pmean, List.length_map, if_neg h1,
      gmeanw1d_unit x hne, hmeanw1d_unit, pmeanw1d_unit x hne, and_self]

/-- The orders with an exact formula. -/
def ExactOrder (p : ℝ) : Prop := p = 0 ∨ 2e-6 ≤ |p|

/-- For positive data and exact orders, the code's value is the mean of order `p`. -/
theorem C65_value (l : List (ℝ × ℝ)) (p : ℝ) (hp : ExactOrder p) (h : ∀ v ∈ l, 0 < v.1) (hw : Weights l) :
    pmeanw (W l) (.fin p) = some (.fin (mean p l)) := by
  rcases hp with rfl | hp
  · rw [(C65_order [] _).2.1, C65_gmeanw l h hw.2.ne']; simp [mean]
  · have : p ≠ 0 := by rintro rfl; norm_num at hp
    rw [C65_pmeanw l p hp (fun v hv => (h v hv).le) (.inr h) hw, mean, if_neg this]

/-- Every mean of positive data lies between any lower and any upper bound of the data. -/
theorem C65_bounds (l : List (ℝ × ℝ)) (p a b : ℝ) (hp : ExactOrder p) (ha : 0 < a) (hw : Weights l)
    (h : ∀ v ∈ l, a ≤ v.1 ∧ v.1 ≤ b) : ∃ M, pmeanw (W l) (.fin p) = some (.fin M) ∧ a ≤ M ∧ M ≤ b := by
  refine ⟨_, C65_value l p hp (fun v hv => ha.trans_le (h v hv).1) hw, ?_⟩
  unfold mean
  split_ifs with h0
  · exact geoW_bounds l a b ha hw h
  · exact powerW_bounds l p a b h0 ha hw h

/-- Scaling the data by `c > 0` scales the mean by `c`. -/
theorem C65_homogeneous (l : List (ℝ × ℝ)) (p c : ℝ) (hp : ExactOrder p) (hc : 0 < c) (hw : Weights l) (h : ∀ v ∈ l, 0 < v.1) :
    ∃ M, pmeanw (W l) (.fin p) = some (.fin M) ∧ pmeanw (W (scaled c l)) (.fin p) = some (.fin (c * M)) := by
  refine ⟨_, C65_value l p hp h hw, ?_⟩
  have hw' : Weights (scaled c l) := onVals_weights (c * ·) l hw
  have h' : ∀ v ∈ scaled c l, 0 < v.1 := onVals_pos (c * ·) l fun v hv => mul_pos hc (h v hv)
  rw [C65_value _ p hp h' hw']
  unfold mean
  split_ifs with h0
  · rw [geoW_scaled l c hc hw.2.ne' h]
  · rw [powerW_scaled l p c h0 hc hw fun v hv => (h v hv).le]

/-- The mean does not decrease when the order increases; in particular harmonic ≤ geometric ≤
arithmetic. -/
theorem C65_monotone (l : List (ℝ × ℝ)) (p q : ℝ) (hp : ExactOrder p) (hq : ExactOrder q) (hpq : p ≤ q) (hw : Weights l)
    (h : ∀ v ∈ l, 0 < v.1) :
    ∃ M N, pmeanw (W l) (.fin p) = some (.fin M) ∧ pmeanw (W l) (.fin q) = some (.fin N) ∧ M ≤ N :=
  ⟨_, _, C65_value l p hp h hw, C65_value l q hq h hw, mean_mono l p q hpq hw h⟩

/-- Reordering the data does not change any mean of positive data. -/
theorem C65_perm (l l' : List (ℝ × ℝ)) (p : ℝ) (hp : ExactOrder p) (hw : Weights l) (h : ∀ v ∈ l, 0 < v.1) (hl : l.Perm l') :
    pmeanw (W l) (.fin p) = pmeanw (W l') (.fin p) := by
  have hw' : Weights l' := ⟨fun v hv => hw.1 v (hl.mem_iff.2 hv), by rw [← (hl.map Prod.snd).sum_eq]; exact hw.2⟩
  rw [C65_value l p hp h hw, C65_value l' p hp (fun v hv => h v (hl.mem_iff.2 hv)) hw']
  simp only [mean, geoW, powerW, (hl.map _).sum_eq]

/-! ### Tiny orders -/

theorem logSumsW_fin (l : List (ℝ × ℝ)) (a b c : ℝ) (h : ∀ v ∈ l, 0 < v.1) :
    logSumsW (.fin a) (.fin b) (.fin c) (W l) = (.fin (a + (l.map Prod.snd).sum),
      .fin (b + (l.map fun v => v.2 * Real.log v.1).sum), .fin (c + (l.map fun v => v.2 * Real.log v.1 ^ 2).sum)) := by
  induction l generalizing a b c with
  | nil => simp [logSumsW]
  | cons v l ih =>
    rcases v with ⟨x, w⟩
    have hx : 0 < x := h (x, w) (by simp)
    have hl : xlog (.fin x) = .fin (Real.log x) := by simp [xlog, hx.not_gt, hx.ne']
    rw [List.map_cons, logSumsW, hl]
    simp only [mul_fin, add_fin]
    rw [ih _ _ _ (fun v hv => h v (by simp [hv]))]
    simp only [List.map_cons, List.sum_cons]
    refine Prod.ext ?_ (Prod.ext ?_ ?_) <;> simp only [XF.fin.injEq] <;> ring

/-- For a tiny order `0 < |p| < 2e-6` the code returns `gm·(1 + p/2·var(log x))`. -/
theorem C65_small_p (l : List (ℝ × ℝ)) (p : ℝ) (h0 : p ≠ 0) (hp : |p| < 2e-6) (h : ∀ v ∈ l, 0 < v.1) (hw : (l.map Prod.snd).sum ≠ 0) :
    pmeanw (W l) (.fin p) = some (.fin (geoW l * (1 + p / 2 * (avg l (fun x => Real.log x ^ 2) - avg l Real.log ^ 2)))) := by
  have hne : l ≠ [] := by rintro rfl; simp at hw
  have hg : gmeanw1d (W l) = .fin (geoW l) := gmeanw1d_pos l hne h hw
  have hn : XF.ne (.fin p) (.fin 0) = true := by simp [XF.ne, h0]
  rw [pmeanw, if_neg (by simpa using hne), pmeanw1d]
  simp only [isnan_fin, abs_fin, lt_fin, hn, decide_eq_true_eq, if_pos hp, Bool.false_eq_true, if_false, if_true]
  rw [hg, logSumsW_fin l 0 0 0 h]
  simp only [zero_add]
  rw [div_fin _ _ hw, div_fin _ _ hw]
  simp only [mul_fin, sub_fin, add_fin]
  congr 2
  rw [avg, avg]; ring

/-- The error of that approximation relative to the true power mean: when the logarithms deviate
from their mean by at most `R`, it is at most `gm·p²·R³·(1 + R)`. -/
theorem C65_small_p_error (l : List (ℝ × ℝ)) (p R : ℝ) (h0 : p ≠ 0) (hp : |p| < 2e-6) (hw : Weights l) (h : ∀ v ∈ l, 0 < v.1)
    (hR : ∀ v ∈ l, |Real.log v.1 - avg l Real.log| ≤ R) (hR2 : R ≤ 700) :
    ∃ M, pmeanw (W l) (.fin p) = some (.fin M) ∧ |M - powerW p l| ≤ geoW l * (p ^ 2 * R ^ 3 * (1 + R)) := by
  refine ⟨_, C65_small_p l p h0 hp h hw.2.ne', small_p l p R h0 hw h hR ?_ ?_⟩
  · obtain ⟨v0, hv0⟩ := List.exists_mem_of_ne_nil l (ne_nil l hw)
    have hR0 : 0 ≤ R := (abs_nonneg _).trans (hR v0 hv0)
    have := mul_le_mul hp.le hR2 hR0 (by norm_num)
    refine this.trans (by norm_num)
  · obtain ⟨v0, hv0⟩ := List.exists_mem_of_ne_nil l (ne_nil l hw)
    have hR0 : 0 ≤ R := (abs_nonneg _).trans (hR v0 hv0)
    have := mul_le_mul hp.le (pow_le_pow_left₀ hR0 hR2 2) (by positivity) (by norm_num)
    refine this.trans (by norm_num)

/-! ### Special values -/

/-- Empty vectors are rejected. -/
theorem C65_empty (p : XF ℝ) : gmean [] = none ∧ gmeanw [] = none ∧ hmean [] = none ∧ hmeanw [] = none ∧
    pmean [] p = none ∧ pmeanw [] p = none := by
  simp [gmean, gmeanw, hmean, hmeanw, pmean, pmeanw]

open Classical in
/-- The geometric mean of a vector with special values: NaN or a negative finite number anywhere
gives NaN; otherwise an infinity together with a zero gives NaN, an infinity alone `+∞`, a zero
alone 0. -/
theorem C65_gmean_special (x : List (XF ℝ)) :
    ((∃ v ∈ x, v = .nan ∨ ∃ a : ℝ, a < 0 ∧ v = .fin a) → gmean x = some .nan) ∧
    ((∀ v ∈ x, v ≠ .nan ∧ ∀ a : ℝ, v = .fin a → 0 ≤ a) →
      ((∃ v ∈ x, isinf v = true) → XF.fin 0 ∈ x → gmean x = some .nan) ∧
      ((∃ v ∈ x, isinf v = true) → XF.fin 0 ∉ x → gmean x = some .pinf) ∧
      ((∀ v ∈ x, isinf v = false) → XF.fin 0 ∈ x → gmean x = some (.fin 0))) := by
  have hu : ∀ y : List (XF ℝ), y ≠ [] → gmean y = some (gmeanwFinish (gmeanwLoop 0 {} (y.map fun v => (v, .fin 1)))) := by
    intro y hy
    rw [gmean, if_neg (by simpa using hy), ← gmeanw1d_unit y hy]; rfl
  constructor
  · rintro ⟨v, hv, hb⟩
    rw [hu x (List.ne_nil_of_mem hv)]
    have := gmeanwLoop_bad (x.map fun v => (v, XF.fin 1)) 0 {} ⟨(v, .fin 1), List.mem_map.2 ⟨v, hv, rfl⟩, hb⟩
    rw [gmeanwFinish]
    rcases this with h | h <;> simp [h]
  · intro hgood
    have hg : ∀ v ∈ x.map (fun v => (v, (XF.fin 1 : XF ℝ))), ¬ Bad v.1 := by
      intro u hu
      obtain ⟨v, hv, rfl⟩ := List.mem_map.1 hu
      rintro (h | ⟨a, ha, h⟩)
      · exact (hgood v hv).1 h
      · exact absurd ((hgood v hv).2 a h) (not_le.2 ha)
    obtain ⟨i1, i2, i3, i4⟩ := gmeanwLoop_good (x.map fun v => (v, XF.fin 1)) 0 {} hg
    simp only [Bool.false_or, List.any_map, Function.comp_def] at i3 i4
    have hz : (x.any fun v => XF.eq v (.fin 0)) = true ↔ XF.fin 0 ∈ x := by
      rw [List.any_eq_true]
      constructor
      · rintro ⟨v, hv, h⟩
        have : v = .fin 0 := by cases v <;> simp_all [XF.eq]
        exact this ▸ hv
      · exact fun h => ⟨_, h, by simp⟩
    refine ⟨?_, ?_, ?_⟩
    · rintro ⟨v, hv, hi⟩ h0
      rw [hu x (List.ne_nil_of_mem hv), gmeanwFinish, i1, i2, i3, i4, hz.2 h0, List.any_eq_true.2 ⟨v, hv, hi⟩]
      simp
    · rintro ⟨v, hv, hi⟩ h0
      have h0' : (x.any fun v => XF.eq v (.fin 0)) = false := by
        cases h : (x.any fun v => XF.eq v (.fin 0))
        · rfl
        · exact absurd (hz.1 h) h0
      rw [hu x (List.ne_nil_of_mem hv), gmeanwFinish, i1, i2, i3, i4, h0', List.any_eq_true.2 ⟨v, hv, hi⟩]
      simp
    · intro hi h0
      have hi' : (x.any fun v => isinf v) = false := by
        rw [List.any_eq_false]; intro v hv; simp [hi v hv]
      rw [hu x (List.ne_nil_of_mem h0), gmeanwFinish, i1, i2, i3, i4, hz.2 h0, hi']
      simp

/-- The power mean for an order with `|p| ≥ 2e-6`, `p ≠ -1` (infinite orders included): NaN or a
negative number (even `-∞`) anywhere gives NaN. -/
theorem C65_pmean_nan (x : List (XF ℝ)) (p : XF ℝ) (hp : isnan p = false) (hp1 : XF.lt (XF.abs p) (.fin 2e-6) = false)
    (hp2 : XF.eq p (.fin (-1)) = false) (h : ∃ v ∈ x, isnan v = true ∨ XF.lt v (.fin 0) = true) :
    pmean x p = some .nan := by
  have hne : x ≠ [] := by obtain ⟨v, hv, -⟩ := h; exact List.ne_nil_of_mem hv
  have hb := scan_bad x 0 {} h
  rw [pmean, if_neg (by simpa using hne), pmean1d]
  simp only [hp, hp1, hp2, Bool.false_eq_true, if_false]
  have : pmeanSpecial (pmeanScan 0 {} x) p = some .nan := by
    rw [pmeanSpecial]
    rcases hb with h | h <;> simp [h]
  rw [this]

/-- Non-negative data with an infinity and `p ≥ 2e-6`: the power mean is `+∞`.  Non-negative data
with a zero and `p ≤ -2e-6` (harmonic mean included): it is 0. -/
theorem C65_pmean_special (x : List (XF ℝ)) (p : ℝ) (h : ∀ v ∈ x, isnan v = false ∧ XF.lt v (.fin 0) = false) :
    (2e-6 ≤ p → .pinf ∈ x → pmean x (.fin p) = some .pinf) ∧
    (p ≤ -2e-6 → .fin 0 ∈ x → pmean x (.fin p) = some (.fin 0)) := by
  have main : ∀ (hne : x ≠ []) (hp : 2e-6 ≤ |p|) (hp1 : p ≠ -1), pmean x (.fin p) =
      some (match pmeanSpecial (pmeanScan 0 {} x) (.fin p) with
        | some v => v
        | none => mul (if 0 < p then (pmeanScan 0 {} x).xmax else (pmeanScan 0 {} x).xmin) (xpow (div (powSum (if 0 < p then (pmeanScan 0 {} x).xmax else (pmeanScan 0 {} x).xmin) (.fin p) (.fin 0) x) (.fin (x.length : ℝ))) (div (.fin 1) (.fin p)))) := by
    intro hne hp hp1
    rw [pmean, if_neg (by simpa using hne), pmean1d]
    simp only [isnan_fin, abs_fin, lt_fin, Bool.false_eq_true, if_false, decide_eq_true_eq, eq_fin, gt_fin]
    rw [if_neg (not_lt.2 hp), if_neg hp1]
    rfl
  constructor
  · intro hp hinf
    have hne := List.ne_nil_of_mem hinf
    have hp0 : 0 < p := lt_of_lt_of_le (by norm_num) hp
    obtain ⟨i1, i2, i3, i4, i5, i6, i7, -⟩ := scan_good x 0 {} h (by simp) (by simpa using hne)
    rw [main hne (by rw [abs_of_pos hp0]; exact hp) (by intro h1; linarith)]
    generalize pmeanScan 0 {} x = r at *
    have hM : r.xmax = .pinf := by
      have := (i7 _ hinf).1
      cases hx : r.xmax <;> simp_all [XF.le, XF.lt, XF.eq]
    have hI : r.hasInf = true := by
      rw [i3]; simp only [Bool.false_or, List.any_eq_true]; exact ⟨_, hinf, rfl⟩
    simp only [pmeanSpecial, i1, i2, hI, hM, Bool.or_self, Bool.false_eq_true, if_false, gt_fin, decide_eq_true hp0, Bool.and_self, if_true]
    cases XF.eq XF.pinf r.xmin <;> rfl
  · intro hp h0
    have hne := List.ne_nil_of_mem h0
    have hp0 : p < 0 := lt_of_le_of_lt hp (by norm_num)
    by_cases hp1 : p = -1
    · subst hp1
      rw [(C65_order x []).2.2.1, hmean, if_neg (by simpa using hne), hmean1d]
      have : ∀ (y : List (XF ℝ)) (s : XF ℝ), XF.fin 0 ∈ y → hmeanSum s y = .pinf := by
        intro y
        induction y with
        | nil => simp
        | cons v y ih =>
          intro s hv
          rw [hmeanSum]
          by_cases c : XF.eq v (.fin 0) = true
          · rw [if_pos c]
          · rw [if_neg c]
            apply ih
            rcases List.mem_cons.1 hv with rfl | hv
            · simp at c
            · exact hv
      rw [this x _ h0]; rfl
    · obtain ⟨i1, i2, i3, i4, i5, i6, i7, -⟩ := scan_good x 0 {} h (by simp) (by simpa using hne)
      rw [main hne (by rw [abs_of_neg hp0]; linarith) hp1]
      generalize pmeanScan 0 {} x = r at *
      have j6 : r.xmin ∈ x := by rcases i6 with h | h; exact h; exact absurd rfl h.1
      have hm : r.xmin = .fin 0 := by
        have a := (i7 _ h0).2
        have b := le_of_not_lt' _ _ (h _ j6).1 rfl (h _ j6).2
        exact le_antisymm' _ _ a b
      have hZ : r.hasZero = true := by
        rw [i4]; simp only [Bool.false_or, List.any_eq_true]; exact ⟨_, h0, by simp⟩
      have hng : ¬ 0 < p := not_lt.2 hp0.le
      simp only [pmeanSpecial, i1, i2, hZ, hm, Bool.or_self, Bool.false_eq_true, if_false, gt_fin, lt_fin, decide_eq_false hng, decide_eq_true hp0, Bool.and_self, Bool.and_false, if_true]
      cases hc : XF.eq r.xmax (.fin 0)
      · rfl
      · have : r.xmax = .fin 0 := by cases hx : r.xmax <;> simp_all [XF.eq]
        rw [if_pos rfl, this]

/-- `some a` is the element `a`, `none` the element `+∞`. -/
def orInf : Option ℝ → XF ℝ
  | some a => .fin a
  | none => .pinf

/-- Positive data with infinities and an order `p ≤ -2e-6` (harmonic mean included), at least one
element finite: an infinite element contributes 0 to the mean of the powers. -/
theorem C65_pmean_infinite_elements (x : List (Option ℝ)) (p : ℝ) (hp : p ≤ -2e-6) (h : ∀ a, some a ∈ x → 0 < a)
    (hex : ∃ a, some a ∈ x) :
    pmean (x.map orInf) (.fin p) =
      some (.fin (((x.map fun o => match o with | some a => a ^ p | none => 0).sum / x.length) ^ (1 / p))) := by
  obtain ⟨a0, ha0⟩ := hex
  have hne : x ≠ [] := List.ne_nil_of_mem ha0
  have hn0 : (0 : ℝ) < x.length := by exact_mod_cast List.length_pos_of_ne_nil hne
  have hp0 : p < 0 := lt_of_le_of_lt hp (by norm_num)
  have hpn : p ≠ 0 := hp0.ne
  have sumpos : ∀ (g : ℝ → ℝ), (∀ a, 0 < a → 0 < g a) →
      0 < (x.map fun o => match o with | some a => g a | none => (0 : ℝ)).sum := by
    intro g hg
    clear hne hn0
    induction x with
    | nil => simp at ha0
    | cons o x ih =>
      rw [List.map_cons, List.sum_cons]
      have hrest : 0 ≤ (x.map fun o => match o with | some a => g a | none => (0 : ℝ)).sum := by
        apply List.sum_nonneg
        intro v hv
        obtain ⟨o', ho', rfl⟩ := List.mem_map.1 hv
        cases o' with
        | none => exact le_rfl
        | some b => exact (hg b (h b (by simp [ho']))).le
      rcases List.mem_cons.1 ha0 with e | e
      · rw [← e]
        exact add_pos_of_pos_of_nonneg (hg a0 (h a0 (by rw [e]; simp))) hrest
      · refine add_pos_of_nonneg_of_pos ?_ (ih (fun a ha => h a (by simp [ha])) e)
        cases o with
        | none => exact le_rfl
        | some b => exact (hg b (h b (by simp))).le
  by_cases hp1 : p = -1
  · subst hp1
    rw [(C65_order _ []).2.2.1, hmean, if_neg (by simpa using hne), hmean1d]
    have hs : ∀ (y : List (Option ℝ)) (s : ℝ), (∀ a, some a ∈ y → 0 < a) →
        hmeanSum (.fin s) (y.map orInf) = .fin (s + (y.map fun o => match o with | some a => a⁻¹ | none => (0 : ℝ)).sum) := by
      intro y
      induction y with
      | nil => intro s _; simp [hmeanSum]
      | cons o y ih =>
        intro s hy
        cases o with
        | none =>
          rw [List.map_cons, hmeanSum]
          have e : add (.fin s) (div (.fin 1) (orInf none)) = .fin s := by
            rw [orInf, show div (.fin (1:ℝ)) .pinf = .fin 0 from rfl, add_fin, add_zero]
          rw [if_neg (by simp [orInf, XF.eq]), e, ih s fun a ha => hy a (by simp [ha])]
          simp
        | some a =>
          have ha := hy a (by simp)
          rw [List.map_cons, hmeanSum, orInf, if_neg (by simpa using ha.ne'), div_fin _ _ ha.ne', add_fin,
            ih _ fun a ha => hy a (by simp [ha])]
          simp [add_assoc]
    rw [hs x 0 h, zero_add, List.length_map, div_fin _ _ (sumpos _ fun a ha => inv_pos.2 ha).ne']
    congr 2
    have e : (x.map fun o => match o with | some a => a ^ (-1 : ℝ) | none => (0 : ℝ)) =
        x.map fun o => match o with | some a => a⁻¹ | none => (0 : ℝ) := by
      apply List.map_congr_left
      intro o _
      cases o with
      | none => rfl
      | some a => exact Real.rpow_neg_one a
    rw [e, show (1 : ℝ) / -1 = -1 by norm_num, Real.rpow_neg_one, inv_div]
  · have hnn : ∀ v ∈ x.map orInf, isnan v = false ∧ XF.lt v (.fin 0) = false := by
      intro v hv
      obtain ⟨o, ho, rfl⟩ := List.mem_map.1 hv
      cases o with
      | none => exact ⟨rfl, rfl⟩
      | some a => exact ⟨rfl, by simpa [orInf] using (h a ho).le⟩
    obtain ⟨i1, i2, i3, i4, i5, i6, i7, -⟩ := scan_good (x.map orInf) 0 {} hnn (by simp) (by simpa using hne)
    rw [pmean, if_neg (by simpa using hne), pmean1d]
    simp only [isnan_fin, abs_fin, lt_fin, Bool.false_eq_true, if_false, decide_eq_true_eq, eq_fin, gt_fin]
    rw [if_neg (by rw [abs_of_neg hp0]; linarith), if_neg hp1, if_neg (not_lt.2 hp0.le)]
    generalize pmeanScan 0 {} (x.map orInf) = r at *
    have j5 : r.xmax ∈ x.map orInf := by rcases i5 with h | h; exact h; exact absurd rfl h.1
    have j6 : r.xmin ∈ x.map orInf := by rcases i6 with h | h; exact h; exact absurd rfl h.1
    -- the minimum is finite and positive
    obtain ⟨m, hm0, hm⟩ : ∃ m : ℝ, 0 < m ∧ r.xmin = .fin m := by
      obtain ⟨o, ho, e⟩ := List.mem_map.1 j6
      cases o with
      | some a => exact ⟨a, h a ho, e.symm⟩
      | none =>
        have := (i7 _ (List.mem_map.2 ⟨_, ha0, rfl⟩)).2
        rw [← e] at this
        simp [orInf, XF.le, XF.lt, XF.eq] at this
    have hZ : r.hasZero = false := by
      rw [i4]
      simp only [Bool.false_or, List.any_eq_false, List.mem_map]
      rintro v ⟨o, ho, rfl⟩
      cases o with
      | none => simp [orInf, XF.eq]
      | some a => simpa [orInf] using (h a ho).ne'
    have hsp : pmeanSpecial r (.fin p) = if XF.eq r.xmax (.fin m) = true then some r.xmax else none := by
      rw [pmeanSpecial, i1, i2, hZ, hm]
      simp [not_lt.2 hp0.le]
    have hpow : ∀ (y : List (Option ℝ)) (s : ℝ), (∀ a, some a ∈ y → 0 < a) →
        powSum (.fin m) (.fin p) (.fin s) (y.map orInf) =
          .fin (s + m ^ (-p) * (y.map fun o => match o with | some a => a ^ p | none => (0 : ℝ)).sum) := by
      intro y
      induction y with
      | nil => intro s _; simp [powSum]
      | cons o y ih =>
        intro s hy
        cases o with
        | none =>
          have e : xpow (div (orInf none) (.fin m)) (.fin p) = .fin 0 := by
            have : div (orInf none) (.fin m) = .pinf := by
              simp [orInf, XF.div, hm0.not_gt]
            rw [this]
            simp [xpow, hpn, hp0]
          rw [List.map_cons, powSum, e, add_fin, ih _ fun a ha => hy a (by simp [ha])]
          simp
        | some a =>
          have ha := hy a (by simp)
          have hq : 0 < a / m := div_pos ha hm0
          have e : xpow (div (orInf (some a)) (.fin m)) (.fin p) = .fin (m ^ (-p) * a ^ p) := by
            rw [orInf, div_fin _ _ hm0.ne', xpow]
            simp only [hpn, if_false, hq.not_gt, hq.ne']
            rw [Real.div_rpow ha.le hm0.le, Real.rpow_neg hm0.le, div_eq_inv_mul]
          rw [List.map_cons, powSum, e, add_fin, ih _ fun a ha => hy a (by simp [ha])]
          congr 1
          rw [List.map_cons, List.sum_cons]
          ring
    have hS := sumpos (fun a => a ^ p) fun a ha => Real.rpow_pos_of_pos ha p
    simp only [hsp]
    congr 1
    by_cases c : XF.eq r.xmax (.fin m) = true
    · rw [if_pos c]
      simp only []
      have hM : r.xmax = .fin m := by cases hx : r.xmax <;> simp_all [XF.eq]
      have hall : ∀ o ∈ x, o = some m := by
        intro o ho
        have := i7 _ (List.mem_map.2 ⟨o, ho, rfl⟩)
        rw [hM, hm] at this
        cases o with
        | none => simp [orInf, XF.le, XF.lt, XF.eq] at this
        | some a =>
          simp only [orInf, le_fin, decide_eq_true_eq] at this
          rw [le_antisymm this.1 this.2]
      have e : (x.map fun o => match o with | some a => a ^ p | none => (0 : ℝ)) = x.map fun _ => m ^ p :=
        List.map_congr_left fun o ho => by rw [hall o ho]
      rw [hM, e]
      simp only [List.map_const', List.sum_replicate, nsmul_eq_mul]
      rw [mul_div_cancel_left₀ _ hn0.ne', ← Real.rpow_mul hm0.le, mul_one_div_cancel hpn, Real.rpow_one]
    · rw [if_neg c]
      simp only [hm]
      rw [hpow x 0 h, zero_add, List.length_map, div_fin _ _ hn0.ne', div_fin _ _ hpn]
      set S := (x.map fun o => match o with | some a => a ^ p | none => (0 : ℝ)).sum with hSd
      have hmp : 0 < m ^ (-p) := Real.rpow_pos_of_pos hm0 _
      have hq : 0 < m ^ (-p) * S / x.length := div_pos (mul_pos hmp hS) hn0
      have h1p : (1 : ℝ) / p ≠ 0 := one_div_ne_zero hpn
      rw [xpow]
      simp only [h1p, if_false, hq.not_gt, hq.ne', mul_fin]
      congr 1
      rw [mul_div_assoc, Real.mul_rpow hmp.le (div_pos hS hn0).le, ← Real.rpow_mul hm0.le]
      rw [show -p * (1 / p) = -1 by field_simp, Real.rpow_neg_one, ← mul_assoc, mul_inv_cancel₀ hm0.ne', one_mul]

/-! ### Where the special cases are not consistent -/

/-- A negative infinity is not treated as negative by `gmean`: the geometric mean of `[-∞]` and of
`[1, -∞]` is `+∞`, although `pmean` with any order `|p| ≥ 2e-6`, `p ≠ -1` gives NaN. -/
theorem C65_gmean_neginf_violated : gmean [.ninf] = some .pinf ∧ gmean [.fin 1, .ninf] = some .pinf ∧
    pmean [.fin 1, .ninf] (.fin 1) = some .nan := by
  refine ⟨?_, ?_, ?_⟩
  · exact ((C65_gmean_special [.ninf]).2 (by simp)).2.1 ⟨.ninf, by simp, rfl⟩ (by simp)
  · refine ((C65_gmean_special [.fin 1, .ninf]).2 ?_).2.1 ⟨.ninf, by simp, rfl⟩ (by simp)
    intro v hv
    simp only [List.mem_cons, List.not_mem_nil, or_false] at hv
    rcases hv with rfl | rfl
    · exact ⟨by simp, fun a ha => by rw [← XF.fin.inj ha]; exact zero_le_one⟩
    · exact ⟨by simp, by simp⟩
  · refine C65_pmean_nan _ _ rfl ?_ ?_ ⟨.ninf, by simp, .inr rfl⟩
    · simp only [abs_fin, lt_fin]; norm_num
    · simp only [eq_fin]; norm_num

/-- A tiny order spoils data with a zero: the result is NaN although both the geometric mean
(`p = 0`) and every `p ≥ 2e-6` are finite. -/
theorem C65_tiny_zero_violated (p : ℝ) (h0 : 0 < p) (hp : p < 2e-6) :
    pmean [.fin 0, .fin 1] (.fin p) = some .nan ∧ pmean [.fin 0, .fin 1] (.fin 0) = some (.fin 0) ∧
    ∃ M, pmean [.fin 0, .fin 1] (.fin 2e-6) = some (.fin M) := by
  have g0 : gmean [.fin 0, .fin 1] = some (.fin 0) := by
    refine ((C65_gmean_special [.fin 0, .fin 1]).2 ?_).2.2 (by simp [isinf]) (by simp)
    intro v hv
    simp only [List.mem_cons, List.not_mem_nil, or_false] at hv
    rcases hv with rfl | rfl
    · exact ⟨by simp, fun a ha => (XF.fin.inj ha).le⟩
    · exact ⟨by simp, fun a ha => by rw [← XF.fin.inj ha]; exact zero_le_one⟩
  refine ⟨?_, ?_, _, C65_pmean [0, 1] 2e-6 (by simp) (by norm_num) (by simp) (.inl (by norm_num))⟩
  · have e : gmean1d [.fin 0, .fin 1] = .fin 0 := by simpa [gmean] using g0
    rw [pmean, if_neg (by simp), pmean1d, e]
    have hn : XF.ne (.fin p) (.fin 0) = true := by simp [XF.ne, h0.ne']
    have l0 : xlog (.fin 0) = .ninf := by simp [xlog]
    have l1 : xlog (.fin 1) = .fin 0 := by
      have : ¬ (1 : ℝ) < 0 := by norm_num
      simp [xlog, this]
    have e2 : logSums (.fin 0) (.fin 0) [.fin 0, .fin 1] = (.ninf, .pinf) := by
      simp [logSums, l0, l1, XF.add, XF.mul]
    have d : ∀ n : ℝ, 0 ≤ n → XF.div (.ninf : XF ℝ) (.fin n) = .ninf ∧ XF.div (.pinf : XF ℝ) (.fin n) = .pinf := by
      intro n hn
      simp [XF.div, not_lt.2 hn]
    have d2 := d (([.fin 0, .fin 1] : List (XF ℝ)).length : ℝ) (Nat.cast_nonneg _)
    simp only [isnan_fin, abs_fin, lt_fin, abs_of_pos h0, decide_eq_true hp, hn, e2, Bool.false_eq_true, if_false, if_true, d2.1, d2.2]
    simp [XF.add, XF.mul, XF.sub, XF.neg]
  · rw [(C65_order _ []).1, g0]

/-- The order -1 does not reject negative data: `pmean([-1, -1], -1) = -1`, while neighbouring
orders give NaN; and `hmean([0, NaN]) = 0` hides the NaN. -/
theorem C65_hmean_violated : pmean [.fin (-1), .fin (-1)] (.fin (-1)) = some (.fin (-1)) ∧
    (∀ p : ℝ, p ≠ -1 → 2e-6 ≤ |p| → pmean [.fin (-1), .fin (-1)] (.fin p) = some .nan) ∧
    hmean [.fin 0, .nan] = some (.fin 0) := by
  refine ⟨?_, ?_, ?_⟩
  · rw [(C65_order _ []).2.2.1, hmean, if_neg (by simp), hmean1d]
    simp only [hmeanSum, eq_fin]
    norm_num [XF.div, XF.add]
  · intro p hp1 hp
    refine C65_pmean_nan _ _ rfl ?_ (by simpa using hp1) ⟨.fin (-1), by simp, .inr (by simp)⟩
    simp only [abs_fin, lt_fin, decide_eq_false_iff_not, not_lt]; exact hp
  · simp [hmean, hmean1d, hmeanSum, XF.div]

/-- Equal data hide a zero weight sum in `gmeanw`, which is NaN otherwise. -/
theorem C65_gmeanw_zero_weights_violated : gmeanw [(.fin 2, .fin 1), (.fin 2, .fin (-1))] = some (.fin 2) ∧
    gmeanw [(.fin 2, .fin 1), (.fin 3, .fin (-1))] = some .nan := by
  constructor
  · simp only [gmeanw, gmeanw1d, gmeanwLoop, gmeanwFinish, isnan_fin, isinf_fin, eq_fin, lt_fin]
    norm_num
  · simp only [gmeanw, gmeanw1d, gmeanwLoop, gmeanwFinish, isnan_fin, isinf_fin, eq_fin, lt_fin, add_fin]
    norm_num

/-! ### Examples -/

example : hmean (V [1, 2, 4]) = some (.fin (12 / 7)) := by
  rw [C65_hmean [1, 2, 4] (by simp) (by simp)]; norm_num [harm]
example : pmean (V [1, 7]) (.fin 2) = some (.fin 5) := by
  rw [C65_pmean [1, 7] 2 (by simp) (by norm_num) (by simp) (.inl (by norm_num)), power]
  norm_num
example : gmean (V [2, 8]) = some (.fin 4) := by
  rw [C65_gmean [2, 8] (by simp) (by simp), geo]
  have : Real.log 2 + Real.log 8 = 2 * Real.log 4 := by
    rw [← Real.log_mul (by norm_num) (by norm_num), ← Real.log_rpow (by norm_num)]; norm_num
  simp [this, Real.exp_log]
/-- The hypotheses of the weighted theorems hold for ordinary data. -/
example : Weights [(1, 2), (3, 0), (4, 1)] ∧ (∀ v ∈ ([(1, 2), (3, 0), (4, 1)] : List (ℝ × ℝ)), 0 < v.1) ∧ ExactOrder (-3) := by
  refine ⟨⟨by simp, by norm_num⟩, by simp, .inr (by norm_num)⟩

end Ufunclab.Means
