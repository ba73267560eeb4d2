import Verif.Proof.Overflow
import Verif.Props.PmeanRound
import Verif.Props.VnormRound
import Verif.Props.Means
import Mathlib.Analysis.Complex.ExponentialBounds
/-!
# C87: overflow in hmean, gmean and pmean

`ov rd Ω` rounds and replaces what is beyond `Ω`, the largest number of the format, by an infinity; `ov rx Ωx` does the same for long
double, in which hmean computes the reciprocals.  Library functions overflow at `Ω` as well.
-/
namespace Ufunclab.Means
open Ufunclab.Float Ufunclab.Corr MeansSpec
variable {p P : ℕ} {emin Emin : ℤ} {rd rx lg : ℝ → ℝ} {pw : ℝ → ℝ → ℝ} {ε Ω Ωx : ℝ}

/-- The library function `pow`, whose results beyond `Ω` are infinite. -/
noncomputable def xpowO (Ω : ℝ) (pw : ℝ → ℝ → ℝ) (b e : XF ℝ) : XF ℝ := ov id Ω (xpowR pw b e)

/-- The library function `exp`, whose results beyond `Ω` are infinite. -/
noncomputable def xexpO (Ω : ℝ) (ex : ℝ → ℝ) (v : XF ℝ) : XF ℝ := ov id Ω (xexpR ex v)

theorem ov_id_le {z : ℝ} (hz : |z| ≤ Ω) : ov id Ω (.fin z) = .fin z := ov_fin (rd := id) hz
theorem ov_id_gt {z : ℝ} (hz : Ω < z) : ov id Ω (.fin z) = .pinf := if_pos hz
theorem ov_eq (z : ℝ) : ov rd Ω (.fin z) = ov id Ω (.fin (rd z)) := rfl

/-! ### pmean -/

theorem powSumR_ov (h : Nearest p emin rd) (hp : 1 ≤ p) (he : emin ≤ 0) (hΩ : IsFloat p emin Ω) (hΩp : 2 ^ p ≤ Ω) (hpw : PowRange p emin pw) {M q : ℝ} (hM : 0 < M)
    (hq : 0 < q) (x : List ℝ) (hx : ∀ a ∈ x, 0 ≤ a ∧ a ≤ M) : ∀ (s : ℝ) (k : ℕ), 0 ≤ s → s ≤ k → k + x.length ≤ 2 ^ p →
    powSumR (ov rd Ω) (xpowO Ω pw) (.fin M) (.fin q) (.fin s) (x.map XF.fin) = .fin (rsum rd s (x.map fun a => pw (rd (a / M)) q)) := by
  have hΩ1 : 1 ≤ Ω := le_trans (one_le_pow₀ (by norm_num)) hΩp
  induction x with
  | nil => intros; rfl
  | cons a x ih =>
    intro s k hs0 hsk hk
    obtain ⟨a0, a1⟩ := hx a (by simp)
    have d0 : 0 ≤ a / M := div_nonneg a0 hM.le
    have d1 : a / M ≤ 1 := (div_le_one hM).2 a1
    have r0 : 0 ≤ rd (a / M) := h.mono_float isFloat_zero d0
    have r1 : rd (a / M) ≤ 1 := h.mono_float' (isFloat_one hp he) d1
    have t0 := hpw.nonneg _ q r0
    have t1 := hpw.le_one _ q r0 r1 hq
    have hkp : k + 1 ≤ 2 ^ p := by rw [List.length_cons] at hk; omega
    have hk1 : s + pw (rd (a / M)) q ≤ ((k + 1 : ℕ) : ℝ) := by push_cast; linarith
    have hkΩ : ((k + 1 : ℕ) : ℝ) ≤ Ω := le_trans (by exact_mod_cast hkp) hΩp
    simp only [List.map_cons, powSumR, rsum]
    rw [XF.div_fin _ _ hM.ne', ov_le h hΩ (by rw [abs_of_nonneg d0]; linarith), xpowO, xpowR_fin r0 hq.ne' (.inl hq), ov_id_le (by rw [abs_of_nonneg t0]; linarith),
      XF.add_fin, ov_le h hΩ (by rw [abs_of_nonneg (by linarith)]; linarith)]
    exact ih (fun b hb => hx b (by simp [hb])) _ (k + 1) (h.mono_float isFloat_zero (by linarith)) (h.mono_float' (Mad.isFloat_nat hp he hkp) hk1)
      (by rw [List.length_cons] at hk; omega)

/-- C87: for positive orders (of magnitude at least `2e-6`) pmean never overflows: for finite data that are not negative, of any magnitude, the result is
the one without overflow, which does not exceed the largest element (C84). -/
theorem C87_pmean_partial (h : Nearest p emin rd) (hp : 1 ≤ p) (he : emin + p ≤ 0) (hΩ : IsFloat p emin Ω) (hΩp : 2 ^ p ≤ Ω) (hpw : PowRange p emin pw) (x : List ℝ)
    (hne : x ≠ []) (hlen : x.length ≤ 2 ^ p) (q : ℝ) (hq : 2e-6 ≤ q) (hqi : 0 < rd (1 / q)) (hqΩ : 1 / q ≤ Ω) (hx : ∀ a ∈ x, IsFloat p emin a ∧ 0 ≤ a ∧ a ≤ Ω)
    (rx rx' ex ex' : XF ℝ → XF ℝ) :
    pmean1dR (ov rd Ω) rx lg ex (xpowO Ω pw) (x.map XF.fin) (.fin q) = pmean1dR (rnd rd) rx' lg ex' (xpowR pw) (x.map XF.fin) (.fin q) := by
  have hq0 : 0 < q := lt_of_lt_of_le (by norm_num) hq
  have he0 : emin ≤ 0 := by omega
  have hΩ1 : 1 ≤ Ω := le_trans (one_le_pow₀ (by norm_num)) hΩp
  have habs : 2e-6 ≤ |q| := by rwa [abs_of_pos hq0]
  obtain ⟨M, hM, m, hm, hb, e⟩ := pmean_general (lg := lg) (ex := ex) (ov rd Ω) rx (xpowO Ω pw) x hne q habs (by linarith) (fun a ha => (hx a ha).2.1) (.inl hq0)
  obtain ⟨M', hM', m', hm', hb', e'⟩ := pmean_general (lg := lg) (ex := ex') (rnd rd) rx' (xpowR pw) x hne q habs (by linarith) (fun a ha => (hx a ha).2.1) (.inl hq0)
  have hMM : M' = M := le_antisymm (hb M' hM').1 (hb' M hM).1
  have hmm : m' = m := le_antisymm (hb' m hm).2 (hb m' hm').2
  subst hMM hmm
  rw [e, e']
  by_cases c : M' = m'
  · rw [if_pos c, if_pos c]
  rw [if_neg c, if_neg c, if_pos hq0]
  have hmM : m' < M' := lt_of_le_of_ne (hb M' hM).2 (Ne.symm c)
  have hM0 : 0 < M' := lt_of_le_of_lt (hx m' hm).2.1 hmM
  have hnl : 0 < x.length := List.length_pos_iff.2 hne
  have hn0 : (0 : ℝ) < x.length := by exact_mod_cast hnl
  have fn : IsFloat p emin (x.length : ℝ) := Mad.isFloat_nat hp he0 hlen
  have f1 := isFloat_one (K := ℝ) hp he0
  have hnΩ : (x.length : ℝ) ≤ Ω := le_trans (by exact_mod_cast hlen) hΩp
  have hr0 : ∀ a ∈ x, 0 ≤ rd (a / M') := fun a ha => h.mono_float isFloat_zero (div_nonneg (hx a ha).2.1 hM0.le)
  have hr1 : ∀ a ∈ x, rd (a / M') ≤ 1 := fun a ha => h.mono_float' f1 ((div_le_one hM0).2 (hb a ha).1)
  have hs1 := rsum_le_length h hp he0 (x.map fun a => pw (rd (a / M')) q)
    (by intro v hv; obtain ⟨a, ha, rfl⟩ := List.mem_map.1 hv; exact hpw.le_one _ _ (hr0 a ha) (hr1 a ha) hq0) 0 0 (by simp) (by simpa using hlen)
  have hs0 := (Vnorm.le_rsum h (x.map fun a => pw (rd (a / M')) q) 0 isFloat_zero
    (by intro v hv; obtain ⟨a, ha, rfl⟩ := List.mem_map.1 hv; exact ⟨hpw.nonneg _ _ (hr0 a ha), hpw.float _ _ (hr0 a ha) (.inl hq0)⟩) le_rfl).1
  simp only [Nat.cast_zero, List.length_map, zero_add] at hs1
  rw [powSumR_ov h hp he0 hΩ hΩp hpw hM0 hq0 x (fun a ha => ⟨(hx a ha).2.1, (hb a ha).1⟩) 0 0 le_rfl (by simp) (by simpa using hlen),
    powSumR_fin hM0.ne' hq0.ne' x (fun a ha => ⟨hr0 a ha, .inl hq0⟩), ov_le h hΩ (by rwa [abs_of_pos hn0]), rnd_fin, h.exact fn, XF.div_fin _ _ hn0.ne',
    XF.div_fin _ _ hq0.ne', rnd_fin, rnd_fin]
  generalize rsum rd 0 (x.map fun a => pw (rd (a / M')) q) = S at *
  have d0 : 0 ≤ S / x.length := div_nonneg hs0 hn0.le
  have d1 : S / x.length ≤ 1 := (div_le_one hn0).2 hs1
  have ht0 : 0 ≤ rd (S / x.length) := h.mono_float isFloat_zero d0
  have ht1 : rd (S / x.length) ≤ 1 := h.mono_float' f1 d1
  have hg0 := hpw.nonneg (rd (S / x.length)) (rd (1 / q)) ht0
  have hg1 := hpw.le_one _ _ ht0 ht1 hqi
  rw [ov_le h hΩ (by rw [abs_of_nonneg d0]; linarith), ov_le h hΩ (by rw [abs_of_pos (by positivity)]; exact hqΩ), xpowO, xpowR_fin ht0 hqi.ne' (.inl hqi),
    ov_id_le (by rw [abs_of_nonneg hg0]; linarith), XF.mul_fin, rnd_fin, ov_le h hΩ]
  rw [abs_of_nonneg (mul_nonneg hM0.le hg0)]
  have := mul_le_mul_of_nonneg_left hg1 hM0.le
  linarith [(hx M' hM).2.2]

/-! ### gmean -/

theorem gmean_step (r : XF ℝ → XF ℝ) (k : Nat) (s : GState) (a x : ℝ) (l : List (XF ℝ)) (hx : 0 < x) (hs : s.sumlog = .fin a) :
    gmeanLoopR r lg k s (.fin x :: l) = gmeanLoopR r lg (k + 1) (GState.mk s.hasZero s.hasNeg s.hasNan s.hasInf
        (s.allSame && XF.eq (if k = 0 then .fin x else s.prev) (.fin x)) (.fin x) (r (.fin (a + lg x))) s.sumw) l := by
  have hl : xlogR lg (.fin x) = .fin (lg x) := by simp [xlogR, hx.not_gt, hx.ne']
  simp only [gmeanLoopR, hs, hl, XF.add_fin]
  generalize (if k = 0 then XF.fin x else s.prev) = pv
  simp [XF.isnan, XF.isinf, hx.ne', hx.le]

theorem isFloat_nat_mul (hp : 1 ≤ p) {j : ℤ} (hj : emin ≤ j) {m : ℕ} (hm : m ≤ 2 ^ p) : IsFloat p emin ((m : ℝ) * 2 ^ j) := by
  rcases Nat.lt_or_ge m (2 ^ p) with hlt | hge
  · exact ⟨(m : ℤ), j, by rw [abs_of_nonneg (by positivity)]; exact_mod_cast hlt, hj, by push_cast; ring⟩
  · have : m = 2 ^ p := le_antisymm hm hge
    rw [this]; push_cast
    rw [← zpow_natCast, ← zpow_add₀ (by norm_num)]
    exact isFloat_zpow hp (by omega)

theorem rsum_abs_le (h : Nearest p emin rd) (hp : 1 ≤ p) {j : ℤ} (hj : emin ≤ j) (l : List ℝ) (hl : ∀ v ∈ l, |v| ≤ 2 ^ j) : ∀ (s : ℝ) (m : ℕ), |s| ≤ m * 2 ^ j →
    m + l.length ≤ 2 ^ p → |rsum rd s l| ≤ ((m : ℝ) + l.length) * 2 ^ j := by
  induction l with
  | nil => intro s m hs _; simpa [rsum] using hs
  | cons v l ih =>
    intro s m hs hm
    rw [List.length_cons] at hm ⊢
    have hb : |s + v| ≤ ((m + 1 : ℕ) : ℝ) * 2 ^ j := by
      refine (abs_add_le _ _).trans ?_
      push_cast; rw [add_mul]; linarith [hl v (by simp)]
    have := ih (fun w hw => hl w (by simp [hw])) (rd (s + v)) (m + 1) (abs_round_le h (isFloat_nat_mul hp hj (by omega)) hb) (by omega)
    rw [rsum]
    refine this.trans (le_of_eq ?_)
    push_cast; ring

theorem gmeanLoop_ov (h : Nearest p emin rd) (hp : 1 ≤ p) (hΩ : IsFloat p emin Ω) (j : ℤ) (hj : emin ≤ j) (x : List ℝ) :
    ∀ (k m : Nat) (s : GState) (a : ℝ), s.sumlog = .fin a → |a| ≤ m * 2 ^ j → m + x.length ≤ 2 ^ p → (m + x.length : ℝ) * 2 ^ j ≤ Ω →
    (∀ v ∈ x, 0 < v ∧ |lg v| ≤ 2 ^ j) → gmeanLoopR (ov rd Ω) lg k s (x.map XF.fin) = gmeanLoopR (rnd rd) lg k s (x.map XF.fin) := by
  induction x with
  | nil => intros; rfl
  | cons v x ih =>
    intro k m s a hs ha hm hΩm hx
    obtain ⟨v0, vb⟩ := hx v (by simp)
    have hj0 : (0 : ℝ) < 2 ^ j := by positivity
    have hb : |a + lg v| ≤ ((m + 1 : ℕ) : ℝ) * 2 ^ j := by
      refine (abs_add_le _ _).trans ?_
      push_cast; rw [add_mul]; linarith
    have hm1 : m + 1 ≤ 2 ^ p := by rw [List.length_cons] at hm; omega
    have hmΩ : ((m + 1 : ℕ) : ℝ) * 2 ^ j ≤ Ω := by
      refine le_trans (mul_le_mul_of_nonneg_right ?_ hj0.le) hΩm
      rw [List.length_cons]; push_cast
      have : (0 : ℝ) ≤ x.length := by positivity
      linarith
    have ff : IsFloat p emin (((m + 1 : ℕ) : ℝ) * 2 ^ j) := isFloat_nat_mul hp hj hm1
    rw [List.map_cons, gmean_step _ k s a v _ v0 hs, gmean_step _ k s a v _ v0 hs, ov_le h hΩ (hb.trans hmΩ), rnd_fin]
    apply ih (k + 1) (m + 1) _ (rd (a + lg v)) rfl (abs_round_le h ff hb) (by rw [List.length_cons] at hm; omega) _ (fun w hw => hx w (by simp [hw]))
    rw [List.length_cons] at hΩm
    push_cast at hΩm ⊢
    linarith

/-- C87: the sum of the logarithms never overflows: gmean gives the result without overflow (C84), or infinity if that result
is beyond the range. -/
theorem C87_gmean (h : Nearest p emin rd) (hp : 1 ≤ p) (he : emin ≤ 0) (hΩ : IsFloat p emin Ω) (hΩp : 2 ^ p ≤ Ω) (ex : ℝ → ℝ) (x : List ℝ) (hne : x ≠ [])
    (hlen : x.length ≤ 2 ^ p) (hx : ∀ a ∈ x, 0 < a ∧ a ≤ Ω) (j : ℕ) (hl : ∀ a ∈ x, |lg a| ≤ 2 ^ j) (hj : (x.length : ℝ) * 2 ^ j ≤ Ω) :
    gmean1dR (ov rd Ω) lg (xexpO Ω ex) (x.map XF.fin) = ov id Ω (gmean1dR (rnd rd) lg (xexpR ex) (x.map XF.fin)) := by
  have hloop := gmeanLoop_ov h hp hΩ (j : ℤ) (by omega) x 0 0 {} 0 rfl (by simp) (by simpa using hlen) (by simpa using hj) (lg := lg)
    (fun v hv => ⟨(hx v hv).1, by simpa using hl v hv⟩)
  obtain ⟨B, Q, h1, h2, h3⟩ := gmeanLoopR_pos (rd := rd) (lg := lg) x 0 {} 0 (fun a ha => (hx a ha).1) rfl
  have hn0 : (0 : ℝ) < x.length := by exact_mod_cast List.length_pos_iff.2 hne
  have hnΩ : (x.length : ℝ) ≤ Ω := le_trans (by exact_mod_cast hlen) hΩp
  have fn : IsFloat p emin (x.length : ℝ) := Mad.isFloat_nat hp he hlen
  rw [gmean1dR, gmean1dR, hloop, h1]
  simp only [gmeanFinishR, Bool.false_or, Bool.false_and, Bool.false_eq_true, if_false, List.length_map]
  by_cases hB : B = true
  · rw [if_pos hB, if_pos hB]
    have hQ : Q ∈ x.map XF.fin := by
      rw [h3, List.getLastD_eq_getLast?, List.getLast?_eq_getLast_of_ne_nil (by simpa using hne)]
      exact List.getLast_mem _
    obtain ⟨a, ha, rfl⟩ := List.mem_map.1 hQ
    rw [ov_id_le (by rw [abs_of_pos (hx a ha).1]; exact (hx a ha).2)]
  · rw [if_neg hB, if_neg hB, ov_le h hΩ (by rwa [abs_of_pos hn0]), rnd_fin, h.exact fn, XF.div_fin _ _ hn0.ne', rnd_fin, xexpO]
    have hsum : |rsum rd 0 (x.map lg)| ≤ (x.length : ℝ) * 2 ^ j := by
      have := rsum_abs_le h hp (j := (j : ℤ)) (by omega) (x.map lg) (by intro v hv; obtain ⟨a, ha, rfl⟩ := List.mem_map.1 hv; simpa using hl a ha) 0 0 (by simp)
        (by simpa using hlen)
      simpa using this
    rw [ov_le h hΩ]
    rw [abs_div, abs_of_pos hn0, div_le_iff₀ hn0]
    refine hsum.trans (hj.trans ?_)
    have hn1 : (1 : ℝ) ≤ x.length := by exact_mod_cast List.length_pos_iff.2 hne
    exact le_mul_of_one_le_right (by linarith) hn1

/-! ### hmean -/

theorem isFloat_widen {z : ℝ} (hP : p ≤ P) (hE : Emin ≤ emin) (hz : IsFloat p emin z) : IsFloat P Emin z := by
  obtain ⟨m, k, hm, hk, e⟩ := hz
  exact ⟨m, k, lt_of_lt_of_le hm (pow_le_pow_right₀ (by norm_num) hP), by omega, e⟩

theorem le_rsumX (h : Nearest p emin rd) (hX : Nearest P Emin rx) (hP : p ≤ P) (hE : Emin ≤ emin) (x : List ℝ) (hx : ∀ a ∈ x, 0 < a) : ∀ s : ℝ, IsFloat p emin s →
    s ≤ rsumX rd rx s x := by
  induction x with
  | nil => intro s _; exact le_rfl
  | cons a x ih =>
    intro s fs
    have ha := hx a (by simp)
    have t0 : 0 ≤ rx (1 / a) := hX.mono_float isFloat_zero (by positivity)
    have h1 : s ≤ rd (rx (s + rx (1 / a))) := h.mono_float fs (hX.mono_float (isFloat_widen hP hE fs) (by linarith))
    exact h1.trans (ih (fun b hb => hx b (by simp [hb])) _ (h _).1)

theorem hmeanSum_ov (h : Nearest p emin rd) (hX : Nearest P Emin rx) (hp : 10 ≤ p) (hP : p ≤ P) (hE : (P : ℤ) + Emin ≤ p + emin) (hΩx : Ω ≤ Ωx) (x : List ℝ)
    (hx : ∀ a ∈ x, RecipNormal p emin a) : ∀ s : ℝ, 0 ≤ s → IsFloat p emin s → 1.01 * rsumX rd rx s x ≤ Ω →
    hmeanSumR (ov rd Ω) (ov rx Ωx) (.fin s) (x.map XF.fin) = .fin (rsumX rd rx s x) := by
  induction x with
  | nil => intros; rfl
  | cons a x ih =>
    intro s s0 fs hs
    obtain ⟨ha, han⟩ := hx a (by simp)
    have hfl : IsFloat P Emin ((2 : ℝ) ^ p * 2 ^ emin) := by
      rw [pow_zpow]; exact isFloat_zpow (by omega) (by omega)
    have pos0 : (0 : ℝ) < 2 ^ p * 2 ^ emin := by positivity
    have q2 : (2 : ℝ) ^ p * 2 ^ emin ≤ rx (1 / a) := hX.mono_float hfl han
    have q3 : (2 : ℝ) ^ p * 2 ^ emin ≤ s + rx (1 / a) := by linarith
    have q5 : (2 : ℝ) ^ p * 2 ^ emin ≤ rx (s + rx (1 / a)) := hX.mono_float hfl q3
    have q6 := TriArea.rel_normal h (by omega) (z := rx (s + rx (1 / a))) (by rw [abs_of_pos (by linarith)]; exact q5)
    rw [abs_of_pos (by linarith : 0 < rx (s + rx (1 / a)))] at q6
    have hmono : rx (1 / a) ≤ rx (s + rx (1 / a)) := hX.mono_float (hX _).1 (by linarith)
    have hle := le_rsumX h hX hP (by omega) x (fun b hb => (hx b (by simp [hb])).1) (rd (rx (s + rx (1 / a)))) (h _).1
    rw [rsumX] at hs
    have hu := Mad.unit_le_thousandth (K := ℝ) hp
    have hz : rx (s + rx (1 / a)) ≤ 1.01 * rd (rx (s + rx (1 / a))) := by
      have k := (abs_le.1 q6).1
      have k2 := mul_le_mul_of_nonneg_right hu (by linarith : 0 ≤ rx (s + rx (1 / a)))
      have k3 : 0 < rx (s + rx (1 / a)) := by linarith
      clear * - k k2 k3
      generalize ((2 : ℝ) ^ p)⁻¹ = u at *
      generalize rx (s + rx (1 / a)) = z at *
      norm_num at *; linarith
    have r0 : 0 ≤ rd (rx (s + rx (1 / a))) := h.mono_float isFloat_zero (by linarith)
    have hzΩ : rx (s + rx (1 / a)) ≤ Ω := by norm_num at *; linarith
    simp only [List.map_cons, hmeanSumR, XF.eq_fin, ha.ne', decide_false, Bool.false_eq_true, if_false, XF.div_fin _ _ ha.ne', rsumX]
    rw [ov_fin (by rw [abs_of_pos (by linarith)]; linarith), XF.add_fin, ov_fin (by rw [abs_of_pos (by linarith)]; linarith),
      ov_fin (by rw [abs_of_nonneg r0]; norm_num at *; linarith)]
    exact ih (fun b hb => hx b (by simp [hb])) _ r0 (h _).1 hs

/-- C87: hmean gives the result without overflow when the sum of the reciprocals and the harmonic mean are in the range. -/
theorem C87_hmean_partial (h : Nearest p emin rd) (hX : Nearest P Emin rx) (hp : 10 ≤ p) (he : emin ≤ 0) (hP : p ≤ P)
    (hE : (P : ℤ) + Emin ≤ p + emin) (hΩ : IsFloat p emin Ω) (hΩp : 2 ^ p ≤ Ω) (hΩx : Ω ≤ Ωx) (x : List ℝ) (hne : x ≠ []) (hn : 200 * ((x.length : ℝ) + 1) ≤ 2 ^ p)
    (hx : ∀ a ∈ x, RecipNormal p emin a) (hs : 1.1 * (x.map fun a => 1 / a).sum ≤ Ω) (hr : 1.1 * harm x + 2 ^ emin ≤ Ω) :
    hmean1dR (ov rd Ω) (ov rx Ωx) (x.map XF.fin) = hmean1dR (rnd rd) (rnd rx) (x.map XF.fin) := by
  obtain ⟨k0, k1, k2⟩ := rsumX_error h hX (by omega) hP hE x hx 0 0 0 le_rfl le_rfl (by simp) (by simp)
  obtain ⟨r, e1, e2, e3⟩ := C84_hmean_accuracy h hX hp he hP hE x hne hn hx
  have hu0 : (0 : ℝ) < (2 ^ p)⁻¹ := by positivity
  have hv0 : (0 : ℝ) < (2 ^ P)⁻¹ := by positivity
  have hvu : ((2 : ℝ) ^ P)⁻¹ ≤ (2 ^ p)⁻¹ := inv_anti₀ (by positivity) (pow_le_pow_right₀ (by norm_num) hP)
  have hnu : ((x.length : ℝ) + 1) * (2 ^ p)⁻¹ ≤ 1 / 200 := by rw [← div_eq_mul_inv, div_le_iff₀ (by positivity)]; linarith
  have hnv : ((x.length : ℝ) + 1) * (2 ^ P)⁻¹ ≤ 1 / 200 := (mul_le_mul_of_nonneg_left hvu (by positivity)).trans hnu
  have hnl : 0 < x.length := List.length_pos_iff.2 hne
  have hn0 : (0 : ℝ) < x.length := by exact_mod_cast hnl
  have hS : 0 < (x.map fun a => 1 / a).sum := by
    apply List.sum_pos
    · intro y hy; obtain ⟨a, ha, rfl⟩ := List.mem_map.1 hy; have := (hx a ha).1; positivity
    · simpa using hne
  simp only [zero_add] at k1 k2
  have hpow1 : (1 + ((2 : ℝ) ^ p)⁻¹) ^ x.length ≤ 1.0102 := (Vnorm.pow_le' (n := x.length) (by linarith) hu0.le).2
  have hpow2 : (1 + ((2 : ℝ) ^ P)⁻¹) ^ (x.length + 1) ≤ 1.0102 := (Vnorm.pow_le' (n := x.length + 1) (by push_cast; linarith) hv0.le).2
  have hsumle : rsumX rd rx 0 x ≤ 1.0206 * (x.map fun a => 1 / a).sum := by
    refine k2.trans (mul_le_mul_of_nonneg_right ?_ hS.le)
    refine (mul_le_mul hpow1 hpow2 (by positivity) (by norm_num)).trans (by norm_num)
  have hlow : 0 < rsumX rd rx 0 x := by
    refine lt_of_lt_of_le ?_ k1
    have hu1 := Mad.unit_le_thousandth (K := ℝ) hp
    have : 0 < 1 - ((2 : ℝ) ^ p)⁻¹ := by linarith
    have : 0 < 1 - ((2 : ℝ) ^ P)⁻¹ := by linarith
    positivity
  have hsum := hmeanSum_ov h hX hp hP hE hΩx x hx 0 le_rfl isFloat_zero (by
    clear * - hsumle hs hS
    norm_num at *; linarith)
  have hlenp : x.length ≤ 2 ^ p := by
    have : (x.length : ℝ) ≤ 2 ^ p := by linarith
    exact_mod_cast this
  have fn : IsFloat p emin (x.length : ℝ) := Mad.isFloat_nat (by omega) he hlenp
  have hnΩ : (x.length : ℝ) ≤ Ω := le_trans (by exact_mod_cast hlenp) hΩp
  have hform : hmean1dR (rnd rd) (rnd rx) (x.map XF.fin) = .fin (rd (x.length / rsumX rd rx 0 x)) := by
    rw [hmean1dR, hmeanSumR_fin x (fun a ha => (hx a ha).1.ne'), List.length_map, rnd_fin, h.exact fn, XF.div_fin _ _ hlow.ne', rnd_fin]
  have hre : rd (x.length / rsumX rd rx 0 x) = r := by rw [hform] at e1; exact XF.fin.inj e1
  rw [hform, hmean1dR, hsum, List.length_map, ov_le h hΩ (by rwa [abs_of_pos hn0]), h.exact fn, XF.div_fin _ _ hlow.ne', ov_fin]
  rw [hre, abs_of_nonneg e2]
  have hH : 0 < harm x := div_pos hn0 hS
  have hη : (0 : ℝ) < 2 ^ emin := by positivity
  have k3 := (abs_le.1 e3).2
  have k4 : 1.1 * ((x.length : ℝ) + 1) * ((2 ^ p)⁻¹ + (2 ^ P)⁻¹) ≤ 0.1 := by
    rw [mul_assoc, mul_add]
    norm_num at *; linarith
  have k5 := mul_le_mul_of_nonneg_right k4 hH.le
  norm_num at *; linarith

/-- The reciprocal of the largest double, rounded, is `2^-1024`. -/
theorem round_inv_max (h : Nearest 53 (-1074) rd) (hX : Nearest P Emin rx) (hP : P = 53 ∧ Emin = -1074 ∨ 54 ≤ P ∧ Emin ≤ -1076) :
    rd (rx (1 / maxDouble)) = 2 ^ (-1024 : ℤ) := by
  have hm0 : 0 < maxDouble := lt_of_lt_of_le (by positivity) maxDouble_ge
  have l1 : (2 : ℝ) ^ (-1024 : ℤ) ≤ 1 / maxDouble := by
    rw [le_div_iff₀ hm0]
    have := mul_le_mul_of_nonneg_left maxDouble_lt.le (by positivity : (0 : ℝ) ≤ 2 ^ (-1024 : ℤ))
    rwa [← zpow_add₀ (by norm_num), show (-1024 : ℤ) + 1024 = 0 by norm_num, zpow_zero] at this
  have hB : (0 : ℝ) < 2 ^ (-1076 : ℤ) := by positivity
  have e24 : (2 : ℝ) ^ (-1024 : ℤ) = 2 ^ 52 * 2 ^ (-1076 : ℤ) := by rw [← zpow_natCast, ← zpow_add₀ (by norm_num)]; norm_num
  have e74 : (2 : ℝ) ^ (-1074 : ℤ) = 4 * 2 ^ (-1076 : ℤ) := by
    rw [show (4 : ℝ) = 2 ^ (2 : ℤ) by norm_num, ← zpow_add₀ (by norm_num)]; norm_num
  have l2 : 1 / maxDouble ≤ (2 ^ 52 + 1) * 2 ^ (-1076 : ℤ) := by
    rw [div_le_iff₀ hm0, maxDouble]
    have : (2 : ℝ) ^ (-1076 : ℤ) * 2 ^ (971 : ℤ) = 1 / 2 ^ 105 := by
      rw [← zpow_add₀ (by norm_num), show (-1076 : ℤ) + 971 = -((105 : ℕ) : ℤ) by norm_num, zpow_neg, zpow_natCast]; norm_num
    calc (1 : ℝ) ≤ (2 ^ 52 + 1) * (2 ^ 53 - 1) * (1 / 2 ^ 105) := by norm_num
      _ = (2 ^ 52 + 1) * (2 ^ 53 - 1) * (2 ^ (-1076 : ℤ) * 2 ^ (971 : ℤ)) := by rw [this]
      _ = _ := by ring
  have f24 : IsFloat 53 (-1074) ((2 : ℝ) ^ (-1024 : ℤ)) := isFloat_zpow (by norm_num) (by norm_num)
  have key : ∀ (rd : ℝ → ℝ), Nearest 53 (-1074) rd → ∀ w, (2 : ℝ) ^ (-1024 : ℤ) ≤ w → w ≤ (2 ^ 52 + 1) * 2 ^ (-1076 : ℤ) → rd w = 2 ^ (-1024 : ℤ) := by
    intro rd h w w1 w2
    have g1 : (2 : ℝ) ^ (-1024 : ℤ) ≤ rd w := h.mono_float f24 w1
    obtain ⟨n, hn⟩ := (h w).1.grid
    have g2 := (h w).2 _ f24
    rw [abs_of_nonpos (by linarith : (2 : ℝ) ^ (-1024 : ℤ) - w ≤ 0)] at g2
    have g3 := (abs_le.1 g2).2
    have g4 : rd w < (2 ^ 50 + 1) * 2 ^ (-1074 : ℤ) := by
      rw [e74]
      rw [e24] at g3
      nlinarith
    rw [hn] at g1 g4 ⊢
    have hB' : (0 : ℝ) < 2 ^ (-1074 : ℤ) := by positivity
    have g5 : (n : ℝ) < 2 ^ 50 + 1 := lt_of_mul_lt_mul_right g4 hB'.le
    have e24' : (2 : ℝ) ^ (-1024 : ℤ) = 2 ^ 50 * 2 ^ (-1074 : ℤ) := by rw [← zpow_natCast, ← zpow_add₀ (by norm_num)]; norm_num
    rw [e24'] at g1 ⊢
    have g6 : (2 : ℝ) ^ 50 ≤ n := le_of_mul_le_mul_right g1 hB'
    have g7 : n = 2 ^ 50 := by
      have a1 : n < 2 ^ 50 + 1 := by exact_mod_cast g5
      have a2 : 2 ^ 50 ≤ n := by exact_mod_cast g6
      omega
    rw [g7]; push_cast; ring
  rcases hP with ⟨rfl, rfl⟩ | ⟨hP, hE⟩
  · rw [key rx hX _ l1 l2]
    exact h.exact f24
  · have fc : IsFloat P Emin (((2 : ℝ) ^ 52 + 1) * 2 ^ (-1076 : ℤ)) := ⟨2 ^ 52 + 1, -1076, by
      refine lt_of_lt_of_le ?_ (pow_le_pow_right₀ (by norm_num : (1 : ℤ) ≤ 2) hP)
      norm_num, hE, by push_cast; ring⟩
    exact key rd h _ (hX.mono_float (isFloat_zpow (by omega) (by omega)) l1) (hX.mono_float' fc l2)

/-- C87 (defect): the harmonic mean of the largest double is infinite, and that of the smallest positive double is 0. -/
theorem C87_hmean_violated (h : Nearest 53 (-1074) rd) (hX : Nearest P Emin rx) (hP : P = 53 ∧ Emin = -1074 ∨ 54 ≤ P ∧ Emin ≤ -1076) (hΩx : maxDouble ≤ Ωx) :
    hmean1dR (ov rd maxDouble) (ov rx Ωx) [.fin maxDouble] = .pinf ∧ hmean1dR (ov rd maxDouble) (ov rx Ωx) [.fin (2 ^ (-1074 : ℤ))] = .fin 0 := by
  have hm0 : 0 < maxDouble := lt_of_lt_of_le (by positivity) maxDouble_ge
  have hm1 : 1 ≤ maxDouble := le_trans (one_le_zpow₀ (by norm_num) (by norm_num)) maxDouble_ge
  have f1 : IsFloat 53 (-1074) (1 : ℝ) := isFloat_one (by norm_num) (by norm_num)
  have F1 : IsFloat P Emin (1 : ℝ) := by
    rcases hP with ⟨rfl, rfl⟩ | ⟨hP, hE⟩
    · exact f1
    · exact isFloat_one (by omega) (by omega)
  have o1 : ov rd maxDouble (.fin 1) = .fin 1 := by rw [ov_le h isFloat_maxDouble (by simpa using hm1), h.exact f1]
  constructor
  · have hx0 : 0 ≤ rx (1 / maxDouble) := hX.mono_float isFloat_zero (by positivity)
    have hx1 : rx (1 / maxDouble) ≤ 1 := hX.mono_float' F1 (div_le_one_of_le₀ hm1 hm0.le)
    have hr := round_inv_max h hX hP
    have i : rx (rx (1 / maxDouble)) = rx (1 / maxDouble) := hX.exact (hX _).1
    have a1 : |rx (1 / maxDouble)| ≤ Ωx := by rw [abs_of_nonneg hx0]; linarith
    have p24 : (0 : ℝ) < 2 ^ (-1024 : ℤ) := by positivity
    have l24 : (2 : ℝ) ^ (-1024 : ℤ) ≤ 1 := zpow_le_one_of_nonpos₀ (by norm_num) (by norm_num)
    simp only [hmean1dR, hmeanSumR, XF.eq_fin, hm0.ne', decide_false, Bool.false_eq_true, if_false, XF.div_fin _ _ hm0.ne', List.length_cons, List.length_nil]
    simp only [zero_add, Nat.cast_one]
    rw [o1, ov_fin a1, XF.add_fin, zero_add, ov_fin (by rw [i]; exact a1), i, ov_fin (by rw [hr, abs_of_pos p24]; linarith), hr, XF.div_fin _ _ p24.ne']
    apply ov_pos h (by norm_num) (k := 1024) (by norm_num) maxDouble_lt
    rw [one_div, ← zpow_neg]; norm_num
  · have p74 : (0 : ℝ) < 2 ^ (-1074 : ℤ) := by positivity
    have e74 : (1 : ℝ) / 2 ^ (-1074 : ℤ) = 2 ^ (1074 : ℤ) := by rw [one_div, ← zpow_neg]; norm_num
    have F74 : IsFloat P Emin ((2 : ℝ) ^ (1074 : ℤ)) := by
      rcases hP with ⟨rfl, rfl⟩ | ⟨hP, hE⟩
      · exact isFloat_zpow (by norm_num) (by norm_num)
      · exact isFloat_zpow (by omega) (by omega)
    have i : rx (2 ^ (1074 : ℤ)) = 2 ^ (1074 : ℤ) := hX.exact F74
    have q74 : (0 : ℝ) < 2 ^ (1074 : ℤ) := by positivity
    have hov : ov rd maxDouble (.fin (2 ^ (1074 : ℤ))) = .pinf :=
      ov_pos h (by norm_num) (k := 1024) (by norm_num) maxDouble_lt (zpow_le_zpow_right₀ (by norm_num) (by norm_num))
    have hin : ov rd maxDouble (ov rx Ωx (XF.add (.fin 0) (ov rx Ωx (.fin (2 ^ (1074 : ℤ)))))) = .pinf := by
      by_cases c : (2 : ℝ) ^ (1074 : ℤ) ≤ Ωx
      · have : ov rx Ωx (.fin (2 ^ (1074 : ℤ))) = .fin (2 ^ (1074 : ℤ)) := by rw [ov_fin (by rwa [i, abs_of_pos q74]), i]
        rw [this, XF.add_fin, zero_add, this, hov]
      · have : ov rx Ωx (.fin (2 ^ (1074 : ℤ))) = .pinf := if_pos (by rw [i]; exact not_le.1 c)
        rw [this]; rfl
    simp only [hmean1dR, hmeanSumR, XF.eq_fin, p74.ne', decide_false, Bool.false_eq_true, if_false, XF.div_fin _ _ p74.ne', List.length_cons, List.length_nil, e74]
    rw [hin]
    simp only [zero_add, Nat.cast_one]
    rw [o1]
    have : XF.div (XF.fin (1 : ℝ)) .pinf = .fin 0 := by simp [XF.div]
    rw [this, ov_le h isFloat_maxDouble (by simpa using hm0.le), h.exact isFloat_zero]

/-- C87 (defect): for negative orders the elements are divided by the smallest, which overflows: `pmean([2^-1074, 2^1000], -2^-11)` is infinite, although every
mean lies between the elements. -/
theorem C87_pmean_violated (h : Nearest 53 (-1074) rd) (hone : ∀ e, pw 1 e = 1) (hε : ε ≤ 1 / 100)
    (hpw : |pw (1 / 2) (-2048) - (1 / 2) ^ (-2048 : ℝ)| ≤ ε * (1 / 2) ^ (-2048 : ℝ)) (rx ex : XF ℝ → XF ℝ) :
    pmean1dR (ov rd maxDouble) rx lg ex (xpowO maxDouble pw) [.fin (2 ^ (-1074 : ℤ)), .fin (2 ^ (1000 : ℤ))] (.fin (-2 ^ (-11 : ℤ))) = .pinf ∧
      power (-2 ^ (-11 : ℤ)) [2 ^ (-1074 : ℤ), 2 ^ (1000 : ℤ)] ≤ 2 ^ (1000 : ℤ) := by
  have m0 : (0 : ℝ) < 2 ^ (-1074 : ℤ) := by positivity
  have M0 : (0 : ℝ) < 2 ^ (1000 : ℤ) := by positivity
  have mM : (2 : ℝ) ^ (-1074 : ℤ) < 2 ^ (1000 : ℤ) := zpow_lt_zpow_right₀ (by norm_num) (by norm_num)
  have hq0 : -(2 : ℝ) ^ (-11 : ℤ) < 0 := by norm_num
  have hqa : 2e-6 ≤ |-(2 : ℝ) ^ (-11 : ℤ)| := by rw [abs_neg, abs_of_pos (by positivity)]; norm_num
  have hpos : ∀ a ∈ [(2 : ℝ) ^ (-1074 : ℤ), 2 ^ (1000 : ℤ)], 0 < a := by
    intro a ha
    simp only [List.mem_cons, List.not_mem_nil, or_false] at ha
    rcases ha with rfl | rfl <;> assumption
  constructor
  · have hbig : (1 : ℝ) ≤ maxDouble := le_trans (one_le_zpow₀ (by norm_num) (by norm_num)) maxDouble_ge
    have hbig2 : (2048 : ℝ) ≤ maxDouble := by
      refine le_trans ?_ maxDouble_ge
      rw [show (2048 : ℝ) = 2 ^ (11 : ℤ) by norm_num]
      exact zpow_le_zpow_right₀ (by norm_num) (by norm_num)
    obtain ⟨M, hM, m, hm, hb, e⟩ := pmean_general (lg := lg) (ex := ex) (ov rd maxDouble) rx (xpowO maxDouble pw) [2 ^ (-1074 : ℤ), 2 ^ (1000 : ℤ)] (by simp)
      (-2 ^ (-11 : ℤ)) hqa (by norm_num) (fun a ha => (hpos a ha).le) (.inr hpos)
    have em : m = 2 ^ (-1074 : ℤ) := by
      have := (hb (2 ^ (-1074 : ℤ)) (by simp)).2
      simp only [List.mem_cons, List.not_mem_nil, or_false] at hm
      rcases hm with e | e
      · exact e
      · rw [e] at this; linarith
    have eM : M = 2 ^ (1000 : ℤ) := by
      have := (hb (2 ^ (1000 : ℤ)) (by simp)).1
      simp only [List.mem_cons, List.not_mem_nil, or_false] at hM
      rcases hM with e | e
      · rw [e] at this; linarith
      · exact e
    have f1 : IsFloat 53 (-1074) (1 : ℝ) := isFloat_one (by norm_num) (by norm_num)
    have fh : IsFloat 53 (-1074) (1 / 2 : ℝ) := ⟨1, -1, by norm_num, by norm_num, by norm_num⟩
    have f2 : IsFloat 53 (-1074) (2 : ℝ) := ⟨2, 0, by norm_num, by norm_num, by norm_num⟩
    have f3 : IsFloat 53 (-1074) (-2048 : ℝ) := ⟨-2048, 0, by norm_num, by norm_num, by norm_num⟩
    have o0 : ov rd maxDouble (.fin 0) = .fin 0 := by rw [ov_le h isFloat_maxDouble (by simp; linarith), h.exact isFloat_zero]
    have o1 : ov rd maxDouble (.fin 1) = .fin 1 := by rw [ov_le h isFloat_maxDouble (by simpa using hbig), h.exact f1]
    have oh : ov rd maxDouble (.fin (1 / 2)) = .fin (1 / 2) := by
      rw [ov_le h isFloat_maxDouble (by rw [abs_of_pos (by norm_num)]; linarith), h.exact fh]
    have o2 : ov rd maxDouble (.fin 2) = .fin 2 := by
      rw [ov_le h isFloat_maxDouble (by rw [abs_of_pos (by norm_num)]; linarith), h.exact f2]
    have o3 : ov rd maxDouble (.fin (-2048)) = .fin (-2048) := by
      rw [ov_le h isFloat_maxDouble (by rw [abs_neg, abs_of_pos (by norm_num)]; exact hbig2), h.exact f3]
    have oinf : ov rd maxDouble (.fin (2 ^ (1000 : ℤ) / 2 ^ (-1074 : ℤ))) = .pinf := by
      apply ov_pos h (by norm_num) (k := 1024) (by norm_num) maxDouble_lt
      rw [← zpow_sub₀ (by norm_num)]
      exact zpow_le_zpow_right₀ (by norm_num) (by norm_num)
    have p1 : xpowO maxDouble pw (.fin 1) (.fin (-2 ^ (-11 : ℤ))) = .fin 1 := by
      rw [xpowO, xpowR_fin (by norm_num) hq0.ne (.inr (by norm_num)), hone, ov_id_le (by simpa using hbig)]
    have p2 : xpowO maxDouble pw .pinf (.fin (-2 ^ (-11 : ℤ))) = .fin 0 := by
      have : xpowR pw .pinf (.fin (-2 ^ (-11 : ℤ))) = .fin 0 := by
        show xpow .pinf (.fin (-2 ^ (-11 : ℤ))) = .fin 0
        simp only [xpow]
        norm_num
      rw [xpowO, this, ov_id_le (by simp; linarith)]
    have p3 : xpowO maxDouble pw (.fin (1 / 2)) (.fin (-2048)) = .pinf := by
      rw [xpowO, xpowR_fin (by norm_num) (by norm_num) (.inr (by norm_num)), ov_id_gt]
      have e2 : ((1 : ℝ) / 2) ^ (-2048 : ℝ) = 2 ^ (2048 : ℤ) := by
        rw [Real.rpow_neg (by norm_num), show (2048 : ℝ) = ((2048 : ℕ) : ℝ) by norm_num, Real.rpow_natCast, one_div, inv_pow, inv_inv, ← zpow_natCast]
        norm_num
      rw [e2] at hpw
      have k := (abs_le.1 hpw).1
      have B0 : (0 : ℝ) < 2 ^ (2048 : ℤ) := by positivity
      have k1 := mul_le_mul_of_nonneg_right hε B0.le
      have k3 : (2 : ℝ) * 2 ^ (1024 : ℤ) ≤ 2 ^ (2048 : ℤ) := by
        rw [← zpow_one_add₀ (by norm_num)]
        exact zpow_le_zpow_right₀ (by norm_num) (by norm_num)
      have k4 := maxDouble_lt
      clear * - k k1 k3 k4 B0
      generalize (2 : ℝ) ^ (2048 : ℤ) = B at *
      generalize (2 : ℝ) ^ (1024 : ℤ) = C at *
      linarith
    rw [List.map_cons, List.map_cons, List.map_nil] at e
    rw [e, em, eM, if_neg mM.ne', if_neg hq0.not_gt]
    simp only [powSumR, XF.div_fin _ _ m0.ne', div_self m0.ne', o1, oinf, p1, p2, XF.add_fin, zero_add, add_zero, List.length_cons, List.length_nil]
    have h2 : ((1 + 1 : ℕ) : ℝ) = 2 := by norm_num
    have hinv : (1 : ℝ) / -2 ^ (-11 : ℤ) = -2048 := by norm_num
    rw [h2, o2, XF.div_fin _ _ (by norm_num), oh, XF.div_fin _ _ hq0.ne, hinv, o3, p3]
    have hmul : XF.mul (XF.fin ((2 : ℝ) ^ (-1074 : ℤ))) .pinf = .pinf := by simp [XF.mul, XF.infMul]
    rw [hmul]; rfl
  · rw [← unit_power]
    refine (powerW_bounds _ _ (2 ^ (-1074 : ℤ)) _ hq0.ne m0 ⟨by simp, by norm_num⟩ ?_).2
    intro v hv
    simp only [List.map_cons, List.map_nil, List.mem_cons, List.not_mem_nil, or_false] at hv
    rcases hv with rfl | rfl
    · exact ⟨le_rfl, mM.le⟩
    · exact ⟨mM.le, le_rfl⟩

/-- C87: for doubles the geometric mean of positive data of any magnitude overflows only at the end. -/
theorem C87_gmean_double (h : Nearest 53 (-1074) rd) (hl : GoodLog 53 (-1074) ε lg) (hε : ε ≤ 1 / 100) (ex : ℝ → ℝ) (x : List ℝ) (hne : x ≠ [])
    (hlen : x.length ≤ 2 ^ 53) (hx : ∀ a ∈ x, IsFloat 53 (-1074) a ∧ 0 < a ∧ a ≤ maxDouble) :
    gmean1dR (ov rd maxDouble) lg (xexpO maxDouble ex) (x.map XF.fin) = ov id maxDouble (gmean1dR (rnd rd) lg (xexpR ex) (x.map XF.fin)) := by
  have hb (k : ℤ) (hk : 0 ≤ k) (hk' : k ≤ 1023) : (2 : ℝ) ^ k ≤ maxDouble := (zpow_le_zpow_right₀ (by norm_num) hk').trans maxDouble_ge
  refine C87_gmean h (by norm_num) (by norm_num) isFloat_maxDouble (by have := hb 53 (by norm_num) (by norm_num); exact_mod_cast this) ex x hne hlen
    (fun a ha => (hx a ha).2) 10 ?_ ?_
  · intro a ha
    obtain ⟨f, a0, a1⟩ := hx a ha
    have hlo : (2 : ℝ) ^ (-1074 : ℤ) ≤ a := by
      obtain ⟨n, hn⟩ := f.grid
      have hn1 : 1 ≤ n := by
        by_contra hc
        have : (n : ℝ) ≤ 0 := by exact_mod_cast (by omega : n ≤ 0)
        have : (n : ℝ) * 2 ^ (-1074 : ℤ) ≤ 0 := mul_nonpos_of_nonpos_of_nonneg this (by positivity)
        linarith
      have hn1' : (1 : ℝ) ≤ n := by exact_mod_cast hn1
      rw [hn]
      exact le_mul_of_one_le_left (by positivity) hn1'
    have hhi : a ≤ (2 : ℝ) ^ (1024 : ℤ) := a1.trans maxDouble_lt.le
    have l2 := Real.log_two_lt_d9
    have l0 : 0 < Real.log 2 := Real.log_pos (by norm_num)
    have b1 := Real.log_le_log (by positivity) hlo
    have b2 := Real.log_le_log a0 hhi
    rw [Real.log_zpow] at b1 b2
    push_cast at b1 b2
    have b3 : |Real.log a| ≤ 745 := abs_le.2 ⟨by linarith, by linarith⟩
    have b4 := hl.error a f a0
    have b5 : ε * |Real.log a| ≤ 1 / 100 * 745 := by
      refine (mul_le_mul_of_nonneg_right hε (abs_nonneg _)).trans ?_
      linarith
    have b6 : |lg a| ≤ |Real.log a| + |lg a - Real.log a| := by
      calc |lg a| = |Real.log a + (lg a - Real.log a)| := by congr 1; ring
        _ ≤ _ := abs_add_le _ _
    norm_num
    linarith
  · have h1 : (x.length : ℝ) ≤ 2 ^ 53 := by exact_mod_cast hlen
    have h2 := hb 63 (by norm_num) (by norm_num)
    refine (mul_le_mul_of_nonneg_right h1 (by positivity)).trans ?_
    refine le_trans (le_of_eq ?_) h2
    norm_num

/-! ### Non-vacuity -/

/-- Doubles, 80-bit long doubles: the largest double among the data. -/
example (h : Nearest 53 (-1074) rd) :
    gmean1dR (ov rd maxDouble) (fun a => rd (Real.log a)) (xexpO maxDouble fun y => rd (Real.exp y)) ([maxDouble, 1].map XF.fin) =
      ov id maxDouble (gmean1dR (rnd rd) (fun a => rd (Real.log a)) (xexpR fun y => rd (Real.exp y)) ([maxDouble, 1].map XF.fin)) := by
  have hm1 : 1 ≤ maxDouble := le_trans (one_le_zpow₀ (by norm_num) (by norm_num)) maxDouble_ge
  refine C87_gmean_double h (goodLog_round h (by norm_num) (by norm_num)) (by norm_num) _ _ (by simp) (by norm_num) ?_
  intro a ha
  simp only [List.mem_cons, List.not_mem_nil, or_false] at ha
  rcases ha with rfl | rfl
  · exact ⟨isFloat_maxDouble, by linarith, le_rfl⟩
  · exact ⟨isFloat_one (by norm_num) (by norm_num), by norm_num, hm1⟩

example (h : Nearest 53 (-1074) rd) (hX : Nearest 64 (-16445) rx) (hΩx : maxDouble ≤ Ωx) :
    hmean1dR (ov rd maxDouble) (ov rx Ωx) ([1, 2].map XF.fin) = hmean1dR (rnd rd) (rnd rx) ([1, 2].map XF.fin) := by
  have hb (k : ℤ) (hk' : k ≤ 1023) : (2 : ℝ) ^ k ≤ maxDouble := (zpow_le_zpow_right₀ (by norm_num) hk').trans maxDouble_ge
  have h53 : (2 : ℝ) ^ 53 ≤ maxDouble := by have := hb 53 (by norm_num); exact_mod_cast this
  have hη : (2 : ℝ) ^ (-1074 : ℤ) ≤ 1 := zpow_le_one_of_nonpos₀ (by norm_num) (by norm_num)
  have hη2 : (2 : ℝ) ^ 53 * 2 ^ (-1074 : ℤ) ≤ 1 / 2 := by
    rw [← zpow_natCast, ← zpow_add₀ (by norm_num), show (1 / 2 : ℝ) = 2 ^ (-1 : ℤ) by norm_num]
    exact zpow_le_zpow_right₀ (by norm_num) (by norm_num)
  refine C87_hmean_partial h hX (by norm_num) (by norm_num) (by norm_num) (by norm_num) isFloat_maxDouble h53 hΩx [1, 2] (by simp) (by norm_num) ?_ ?_ ?_
  · intro a ha
    simp only [List.mem_cons, List.not_mem_nil, or_false] at ha
    rcases ha with rfl | rfl
    · exact ⟨by norm_num, by linarith⟩
    · exact ⟨by norm_num, hη2⟩
  · refine le_trans ?_ h53
    norm_num
  · refine le_trans ?_ h53
    have e : harm [1, 2] = 4 / 3 := by norm_num [harm]
    rw [e]
    refine le_trans (add_le_add_right hη _) ?_
    norm_num

/-- The squares of the data overflow, the mean does not. -/
example (h : Nearest 53 (-1074) rd) (rx ex : XF ℝ → XF ℝ) :
    pmean1dR (ov rd maxDouble) rx lg ex (xpowO maxDouble fun b e => rd (b ^ e)) ([maxDouble, 1].map XF.fin) (.fin 2) =
      pmean1dR (rnd rd) rx lg ex (xpowR fun b e => rd (b ^ e)) ([maxDouble, 1].map XF.fin) (.fin 2) := by
  have hm1 : 1 ≤ maxDouble := le_trans (one_le_zpow₀ (by norm_num) (by norm_num)) maxDouble_ge
  have h53 : (2 : ℝ) ^ 53 ≤ maxDouble := by
    have : (2 : ℝ) ^ (53 : ℤ) ≤ maxDouble := (zpow_le_zpow_right₀ (by norm_num) (by norm_num)).trans maxDouble_ge
    exact_mod_cast this
  have hhalf : rd (1 / 2) = 1 / 2 := h.exact ⟨1, -1, by norm_num, by norm_num, by norm_num⟩
  refine C87_pmean_partial h (by norm_num) (by norm_num) isFloat_maxDouble h53 (powRange_round h (by norm_num) (by norm_num)) _ (by simp) (by norm_num) 2 (by norm_num)
    (by rw [hhalf]; norm_num) (by linarith) ?_ rx rx ex ex
  intro a ha
  simp only [List.mem_cons, List.not_mem_nil, or_false] at ha
  rcases ha with rfl | rfl
  · exact ⟨isFloat_maxDouble, by linarith, le_rfl⟩
  · exact ⟨isFloat_one (by norm_num) (by norm_num), by norm_num, hm1⟩

end Ufunclab.Means
