import Verif.Props.MeansRound
import Verif.Proof.PmeanRound
import Verif.Props.VnormPow
/-!
# C84: pmean in floating point

Double data; the library function `pow` is a parameter.
-/
namespace Ufunclab.Means
open Ufunclab.Float Ufunclab.Corr MeansSpec
variable {p P : ℕ} {emin Emin : ℤ} {rd rx lg : ℝ → ℝ} {ex : XF ℝ → XF ℝ} {pw : ℝ → ℝ → ℝ} {ε : ℝ}

theorem xpowR_exact (b e : XF ℝ) : xpowR (fun a r => a ^ r) b e = xpow b e := by
  cases b <;> cases e <;> try rfl
  rename_i a p
  simp only [xpowR, xpow]
  by_cases h0 : p = 0
  · rw [if_pos h0, if_pos h0]
  · rw [if_neg h0, if_neg h0]
    by_cases h1 : a < 0
    · rw [if_pos h1, if_pos h1]
    · rw [if_neg h1, if_neg h1]
      by_cases h2 : a = 0
      · rw [if_pos h2]
        by_cases h3 : p < 0
        · rw [if_pos ⟨h2, h3⟩, if_pos h3]
        · rw [if_neg (by tauto), if_neg h3, h2, Real.zero_rpow h0]
      · rw [if_neg (by tauto), if_neg h2]

theorem logSumsR_exact (x : List (XF ℝ)) : ∀ s q, logSumsR (rnd id) Real.log s q x = logSums s q x := by
  induction x with
  | nil => intro s q; rfl
  | cons v x ih => intro s q; simp only [logSumsR, logSums, rnd_id, xlogR_exact, ih]

theorem powSumR_exact (sc q : XF ℝ) (x : List (XF ℝ)) : ∀ s, powSumR (rnd id) (xpowR fun a r => a ^ r) sc q s x = powSum sc q s x := by
  induction x with
  | nil => intro s; rfl
  | cons v x ih => intro s; simp only [powSumR, powSum, rnd_id, xpowR_exact, ih]

/-- C84: without rounding and with the exact functions the code is the one of C65. -/
theorem C84_pmean_exact_arithmetic (x : List (XF ℝ)) (q : XF ℝ) :
    pmean1dR (rnd id) (rnd id) Real.log (xexpR Real.exp) (xpowR fun a r => a ^ r) x q = pmean1d x q := by
  simp only [pmean1dR, pmean1d, rnd_id, xpowR_exact, logSumsR_exact, powSumR_exact, (C84_exact_arithmetic x).1, (C84_exact_arithmetic x).2]
  cases pmeanSpecial (pmeanScan 0 {} x) q <;> rfl

theorem xpowR_fin {a q : ℝ} (ha : 0 ≤ a) (hq : q ≠ 0) (h : 0 < q ∨ 0 < a) : xpowR pw (.fin a) (.fin q) = .fin (pw a q) := by
  simp only [xpowR]
  rw [if_neg hq, if_neg ha.not_gt, if_neg]
  rintro ⟨rfl, h2⟩
  rcases h with h | h <;> linarith

theorem powSumR_fin {sc q : ℝ} (hsc : sc ≠ 0) (hq : q ≠ 0) (x : List ℝ) (hx : ∀ a ∈ x, 0 ≤ rd (a / sc) ∧ (0 < q ∨ 0 < rd (a / sc))) :
    ∀ s, powSumR (rnd rd) (xpowR pw) (.fin sc) (.fin q) (.fin s) (x.map XF.fin) = .fin (rsum rd s (x.map fun a => pw (rd (a / sc)) q)) := by
  induction x with
  | nil => intro s; rfl
  | cons a x ih =>
    intro s
    obtain ⟨h1, h2⟩ := hx a (by simp)
    simp only [List.map_cons, powSumR, XF.div_fin _ _ hsc, rnd_fin, rsum]
    rw [xpowR_fin h1 hq h2, XF.add_fin, rnd_fin]
    exact ih (fun b hb => hx b (by simp [hb])) _

/-- What pmean does with finite data that are not negative (positive when `q < 0`), for any rounding and any `pow`. -/
theorem pmean_general (r rx : XF ℝ → XF ℝ) (pow : XF ℝ → XF ℝ → XF ℝ) (x : List ℝ) (hne : x ≠ []) (q : ℝ) (hq : 2e-6 ≤ |q|) (hq1 : q ≠ -1)
    (hx : ∀ a ∈ x, 0 ≤ a) (hpos : 0 < q ∨ ∀ a ∈ x, 0 < a) :
    ∃ M ∈ x, ∃ m ∈ x, (∀ a ∈ x, a ≤ M ∧ m ≤ a) ∧
      pmean1dR r rx lg ex pow (x.map XF.fin) (.fin q) =
        if M = m then .fin M
        else r (XF.mul (.fin (if 0 < q then M else m)) (pow
          (r (XF.div (powSumR r pow (.fin (if 0 < q then M else m)) (.fin q) (.fin 0) (x.map XF.fin)) (r (.fin x.length)))) (r (XF.div (.fin 1) (.fin q))))) := by
  have hq0 : q ≠ 0 := by rintro rfl; norm_num at hq
  have hnn : ∀ v ∈ x.map XF.fin, NN v := by
    intro v hv
    obtain ⟨a, ha, rfl⟩ := List.mem_map.1 hv
    exact ⟨rfl, by simpa using hx a ha⟩
  obtain ⟨i1, i2, i3, i4, i5, i6, i7, -⟩ := scan_good (x.map XF.fin) 0 {} hnn (by simp) (by simpa using hne)
  have hform : pmean1dR r rx lg ex pow (x.map XF.fin) (.fin q) = (match pmeanSpecial (pmeanScan 0 {} (x.map XF.fin)) (.fin q) with
    | some v => v
    | none => r (XF.mul (if XF.gt (.fin q) (.fin 0) then (pmeanScan 0 {} (x.map XF.fin)).xmax else (pmeanScan 0 {} (x.map XF.fin)).xmin)
        (pow (r (XF.div (powSumR r pow (if XF.gt (.fin q) (.fin 0) then (pmeanScan 0 {} (x.map XF.fin)).xmax else (pmeanScan 0 {} (x.map XF.fin)).xmin)
          (.fin q) (.fin 0) (x.map XF.fin)) (r (.fin (x.map XF.fin).length)))) (r (XF.div (.fin 1) (.fin q)))))) := by
    rw [pmean1dR]
    simp only [XF.isnan_fin, XF.abs_fin, XF.lt_fin, Bool.false_eq_true, if_false, decide_eq_true_eq, XF.eq_fin, if_neg (not_lt.2 hq), if_neg hq1]
    cases pmeanSpecial (pmeanScan 0 {} (x.map XF.fin)) (.fin q) <;> rfl
  generalize pmeanScan 0 {} (x.map XF.fin) = st at *
  have j5 : st.xmax ∈ x.map XF.fin := by rcases i5 with h | h; exact h; exact absurd rfl h.1
  have j6 : st.xmin ∈ x.map XF.fin := by rcases i6 with h | h; exact h; exact absurd rfl h.1
  obtain ⟨M, hM, eM⟩ := List.mem_map.1 j5
  obtain ⟨m, hm, em⟩ := List.mem_map.1 j6
  have hb : ∀ a ∈ x, a ≤ M ∧ m ≤ a := by
    intro a ha
    have := i7 (.fin a) (List.mem_map.2 ⟨a, ha, rfl⟩)
    rw [← eM, ← em] at this
    simpa using this
  refine ⟨M, hM, m, hm, hb, ?_⟩
  have hInf : st.hasInf = false := by rw [i3]; simp
  have hsp : pmeanSpecial st (.fin q) = if M = m then some (.fin M) else none := by
    rw [pmeanSpecial, i1, i2, hInf, ← eM, ← em]
    simp only [Bool.or_self, Bool.false_eq_true, if_false, Bool.false_and, XF.eq_fin, decide_eq_true_eq, XF.isinf_fin, XF.lt_fin]
    by_cases c : M = m
    · rw [if_pos c, if_pos c]
    · rw [if_neg c, if_neg c, if_neg]
      rintro h
      rw [i4] at h
      simp only [Bool.false_or, Bool.and_eq_true, List.any_eq_true, List.mem_map, decide_eq_true_eq] at h
      obtain ⟨⟨x, ⟨v, hv, rfl⟩, hz⟩, hneg⟩ := h
      simp only [XF.eq_fin, decide_eq_true_eq] at hz
      rcases hpos with h | h
      · linarith
      · exact absurd hz (h v hv).ne'
  rw [hform, hsp]
  by_cases c : M = m
  · rw [if_pos c, if_pos c]
  · rw [if_neg c, if_neg c]
    have hmM : m < M := lt_of_le_of_ne (hb M hM).2 (Ne.symm c)
    have hsc : (if XF.gt (.fin q) (.fin 0) then st.xmax else st.xmin) = XF.fin (if 0 < q then M else m) := by
      rw [← eM, ← em]
      by_cases h0 : 0 < q
      · simp [XF.gt, h0]
      · simp [XF.gt, h0]
    simp only [hsc, List.length_map]

/-- What pmean computes for finite data that are not negative (positive when `q < 0`). -/
theorem pmean_formula (h : Nearest p emin rd) (hp : 1 ≤ p) (he : emin ≤ 0) (x : List ℝ) (hne : x ≠ []) (hlen : (x.length : ℝ) ≤ 2 ^ p) (q : ℝ) (hq : 2e-6 ≤ |q|) (hq1 : q ≠ -1)
    (hx : ∀ a ∈ x, 0 ≤ a) (hpos : 0 < q ∨ ∀ a ∈ x, 0 < a) :
    ∃ M ∈ x, ∃ m ∈ x, (∀ a ∈ x, a ≤ M ∧ m ≤ a) ∧
      pmean1dR (rnd rd) (rnd rx) lg ex (xpowR pw) (x.map XF.fin) (.fin q) =
        if M = m then .fin M
        else rnd rd (XF.mul (.fin (if 0 < q then M else m)) (xpowR pw
          (.fin (rd (rsum rd 0 (x.map fun a => pw (rd (a / if 0 < q then M else m)) q) / x.length))) (.fin (rd (1 / q))))) := by
  have hq0 : q ≠ 0 := by rintro rfl; norm_num at hq
  obtain ⟨M, hM, m, hm, hb, e⟩ := pmean_general (lg := lg) (ex := ex) (rnd rd) (rnd rx) (xpowR pw) x hne q hq hq1 hx hpos
  refine ⟨M, hM, m, hm, hb, ?_⟩
  rw [e]
  by_cases c : M = m
  · rw [if_pos c, if_pos c]
  · rw [if_neg c, if_neg c]
    have hmM : m < M := lt_of_le_of_ne (hb M hM).2 (Ne.symm c)
    have hsc0 : 0 < (if 0 < q then M else m) := by
      by_cases h0 : 0 < q
      · rw [if_pos h0]; have := hx m hm; linarith
      · rw [if_neg h0]; exact hpos.resolve_left h0 m hm
    have hlenr : rd (x.length : ℝ) = x.length := by
      apply h.exact; apply Mad.isFloat_nat hp he; exact_mod_cast hlen
    have hn0 : (x.length : ℝ) ≠ 0 := by simpa using hne
    rw [powSumR_fin hsc0.ne' hq0 x ?_, rnd_fin, hlenr, XF.div_fin _ _ hn0, rnd_fin, XF.div_fin _ _ hq0, rnd_fin]
    intro a ha
    refine ⟨h.mono_float isFloat_zero (div_nonneg (hx a ha) hsc0.le), ?_⟩
    by_cases h0 : 0 < q
    · exact .inl h0
    · right
      rw [if_neg h0] at hsc0 ⊢
      have : 1 ≤ rd (a / m) := h.mono_float (isFloat_one hp he) ((one_le_div hsc0).2 (hb a ha).2)
      linarith

/-- C84: the power mean of equal numbers is that number, for every order of magnitude at least
`2e-6` other than -1 (infinite orders: C65). -/
theorem C84_pmean_equal_partial (h : Nearest p emin rd) (hp : 1 ≤ p) (he : emin ≤ 0) (x : List ℝ) (hne : x ≠ []) (hlen : (x.length : ℝ) ≤ 2 ^ p) (q : ℝ)
    (hq : 2e-6 ≤ |q|) (hq1 : q ≠ -1) (c : ℝ) (hc : 0 < c) (hx : ∀ a ∈ x, a = c) : pmean1dR (rnd rd) (rnd rx) lg ex (xpowR pw) (x.map XF.fin) (.fin q) = .fin c := by
  obtain ⟨M, hM, m, hm, -, e⟩ := pmean_formula (rx := rx) (lg := lg) (ex := ex) (pw := pw) h hp he x hne hlen q hq hq1 (fun a ha => by rw [hx a ha]; exact hc.le)
    (.inr fun a ha => by rw [hx a ha]; exact hc)
  rw [e, if_pos (by rw [hx M hM, hx m hm]), hx M hM]

/-- C84: order -1 is the exception: `pmean([1.9], -1)` is not 1.9. -/
theorem C84_pmean_equal_violated (h : Nearest 53 (-1074) rd) (hX : Nearest P Emin rx) (hP : P = 53 ∧ Emin = -1074 ∨ 64 ≤ P ∧ (P : ℤ) + Emin ≤ -1) :
    pmean1dR (rnd rd) (rnd rx) lg ex (xpowR pw) [.fin x19] (.fin (-1)) = .fin (x19 + 2 ^ (-52 : ℤ)) ∧ pmean1dR (rnd rd) (rnd rx) lg ex (xpowR pw) [.fin x09] (.fin (-1)) = .fin (x09 - 2 ^ (-53 : ℤ)) := by
  obtain ⟨h1, h2⟩ := C84_hmean_range_violated h hX hP
  have hd : ∀ x : List (XF ℝ), pmean1dR (rnd rd) (rnd rx) lg ex (xpowR pw) x (.fin (-1)) = hmean1dR (rnd rd) (rnd rx) x := by
    intro x
    rw [pmean1dR]
    simp only [XF.isnan_fin, XF.abs_fin, XF.lt_fin, Bool.false_eq_true, if_false, decide_eq_true_eq, XF.eq_fin]
    rw [if_neg (by norm_num), if_pos trivial]
  rw [hd, hd]
  exact ⟨h1, h2⟩

/-- What a reasonable `pow` satisfies with respect to 1. -/
structure PowRange (p : ℕ) (emin : ℤ) (pw : ℝ → ℝ → ℝ) : Prop where
  float : ∀ b e, 0 ≤ b → (0 < e ∨ 0 < b) → IsFloat p emin (pw b e)
  nonneg : ∀ b e, 0 ≤ b → 0 ≤ pw b e
  one : ∀ e, pw 1 e = 1
  le_one : ∀ b e, 0 ≤ b → b ≤ 1 → 0 < e → pw b e ≤ 1
  le_one_neg : ∀ b e, 1 ≤ b → e < 0 → pw b e ≤ 1
  one_le_neg : ∀ b e, 0 < b → b ≤ 1 → e < 0 → 1 ≤ pw b e

theorem rsum_le_length (h : Nearest p emin rd) (hp : 1 ≤ p) (he : emin ≤ 0) (l : List ℝ) (hl : ∀ v ∈ l, v ≤ 1) : ∀ (s : ℝ) (k : ℕ), s ≤ k → k + l.length ≤ 2 ^ p →
    rsum rd s l ≤ k + l.length := by
  induction l with
  | nil => intro s k hs _; simpa [rsum] using hs
  | cons v l ih =>
    intro s k hs hk
    have h1 : rd (s + v) ≤ ((k + 1 : ℕ) : ℝ) := by
      apply h.mono_float' (Mad.isFloat_nat hp he (by simp at hk; omega))
      have := hl v (by simp)
      push_cast; linarith
    have := ih (fun w hw => hl w (by simp [hw])) (rd (s + v)) (k + 1) h1 (by simp at hk; omega)
    rw [rsum, List.length_cons]
    push_cast at this ⊢
    linarith

/-- C84: for positive orders the power mean never exceeds the largest element, rounding included;
for negative orders other than -1 it is never below the smallest. -/
theorem C84_pmean_range_partial (h : Nearest p emin rd) (hp : 1 ≤ p) (he : emin + p ≤ 0) (hpw : PowRange p emin pw) (x : List ℝ) (hne : x ≠ [])
    (hlen : x.length ≤ 2 ^ p) (q : ℝ) (hq : 2e-6 ≤ |q|) (hq1 : q ≠ -1) (hx : ∀ a ∈ x, IsFloat p emin a ∧ 0 ≤ a) (hpos : 0 < q ∨ ∀ a ∈ x, 0 < a)
    (hinv : 0 < q ∧ 0 < rd (1 / q) ∨ q < 0 ∧ rd (1 / q) < 0) :
    ∃ r, pmean1dR (rnd rd) (rnd rx) lg ex (xpowR pw) (x.map XF.fin) (.fin q) = .fin r ∧ 0 ≤ r ∧
      (0 < q → ∃ M ∈ x, r ≤ M) ∧ (q < 0 → ∃ m ∈ x, m ≤ r ∧ ∀ a ∈ x, m ≤ a) := by
  obtain ⟨M, hM, m, hm, hb, e⟩ := pmean_formula (rx := rx) (lg := lg) (ex := ex) (pw := pw) h hp (by omega) x hne (by exact_mod_cast hlen) q hq hq1
    (fun a ha => (hx a ha).2) hpos
  by_cases c : M = m
  · refine ⟨M, by rw [e, if_pos c], (hx M hM).2, fun _ => ⟨M, hM, le_rfl⟩, fun _ => ⟨m, hm, c.ge, fun a ha => (hb a ha).2⟩⟩
  rw [if_neg c] at e
  have hmM : m < M := lt_of_le_of_ne (hb M hM).2 (Ne.symm c)
  have hn0 : (0 : ℝ) < x.length := by exact_mod_cast List.length_pos_iff.2 hne
  have f1 := isFloat_one (K := ℝ) hp (show emin ≤ 0 by omega)
  rcases hinv with ⟨hq0, hi⟩ | ⟨hq0, hi⟩
  · rw [if_pos hq0] at e
    have hM0 : 0 < M := lt_of_le_of_lt (hx m hm).2 hmM
    have hr0 : ∀ a ∈ x, 0 ≤ rd (a / M) := fun a ha => h.mono_float isFloat_zero (div_nonneg (hx a ha).2 hM0.le)
    have hr1 : ∀ a ∈ x, rd (a / M) ≤ 1 := fun a ha => h.mono_float' f1 ((div_le_one hM0).2 (hb a ha).1)
    have hs1 := rsum_le_length h hp (by omega) (x.map fun a => pw (rd (a / M)) q)
      (by intro v hv; obtain ⟨a, ha, rfl⟩ := List.mem_map.1 hv; exact hpw.le_one _ _ (hr0 a ha) (hr1 a ha) hq0) 0 0 (by simp) (by simpa using hlen)
    have hs0 := (Vnorm.le_rsum h (x.map fun a => pw (rd (a / M)) q) 0 isFloat_zero
      (by intro v hv; obtain ⟨a, ha, rfl⟩ := List.mem_map.1 hv; exact ⟨hpw.nonneg _ _ (hr0 a ha), hpw.float _ _ (hr0 a ha) (.inl hq0)⟩) le_rfl).1
    simp only [Nat.cast_zero, List.length_map, zero_add] at hs1
    have ht0 : 0 ≤ rd (rsum rd 0 (x.map fun a => pw (rd (a / M)) q) / x.length) := h.mono_float isFloat_zero (div_nonneg hs0 hn0.le)
    have ht1 : rd (rsum rd 0 (x.map fun a => pw (rd (a / M)) q) / x.length) ≤ 1 := h.mono_float' f1 ((div_le_one hn0).2 hs1)
    rw [xpowR_fin ht0 hi.ne' (.inl hi), XF.mul_fin, rnd_fin] at e
    have hg0 := hpw.nonneg (rd (rsum rd 0 (x.map fun a => pw (rd (a / M)) q) / x.length)) (rd (1 / q)) ht0
    have hg1 := hpw.le_one _ _ ht0 ht1 hi
    refine ⟨_, e, h.mono_float isFloat_zero (mul_nonneg hM0.le hg0), fun _ => ⟨M, hM, h.mono_float' (hx M hM).1 ?_⟩, fun h0 => absurd h0 (by linarith)⟩
    nlinarith
  · rw [if_neg hq0.not_gt] at e
    have hm0 : 0 < m := hpos.resolve_left hq0.not_gt m hm
    have hr1 : ∀ a ∈ x, 1 ≤ rd (a / m) := fun a ha => h.mono_float f1 ((one_le_div hm0).2 (hb a ha).2)
    have hr0 : ∀ a ∈ x, 0 < rd (a / m) := fun a ha => lt_of_lt_of_le one_pos (hr1 a ha)
    have hs1 := rsum_le_length h hp (by omega) (x.map fun a => pw (rd (a / m)) q)
      (by intro v hv; obtain ⟨a, ha, rfl⟩ := List.mem_map.1 hv; exact hpw.le_one_neg _ _ (hr1 a ha) hq0) 0 0 (by simp) (by simpa using hlen)
    have hs0 := (Vnorm.le_rsum h (x.map fun a => pw (rd (a / m)) q) 0 isFloat_zero
      (by intro v hv; obtain ⟨a, ha, rfl⟩ := List.mem_map.1 hv; exact ⟨hpw.nonneg _ _ (hr0 a ha).le, hpw.float _ _ (hr0 a ha).le (.inr (hr0 a ha))⟩) le_rfl).2
      (pw (rd (m / m)) q) (List.mem_map.2 ⟨m, hm, rfl⟩)
    rw [div_self hm0.ne', h.exact f1, hpw.one] at hs0
    simp only [Nat.cast_zero, List.length_map, zero_add] at hs1
    have ht0 : 0 < rd (rsum rd 0 (x.map fun a => pw (rd (a / m)) q) / x.length) := by
      have f2 : IsFloat p emin ((2 : ℝ) ^ (-(p : ℤ))) := isFloat_zpow hp (by omega)
      have : (2 : ℝ) ^ (-(p : ℤ)) ≤ rd (rsum rd 0 (x.map fun a => pw (rd (a / m)) q) / x.length) := by
        apply h.mono_float f2
        rw [le_div_iff₀ hn0, zpow_neg, zpow_natCast]
        refine le_trans ?_ hs0
        rw [inv_mul_le_iff₀ (by positivity), mul_one]; exact_mod_cast hlen
      have : (0 : ℝ) < 2 ^ (-(p : ℤ)) := by positivity
      linarith
    have ht1 : rd (rsum rd 0 (x.map fun a => pw (rd (a / m)) q) / x.length) ≤ 1 := h.mono_float' f1 ((div_le_one hn0).2 hs1)
    rw [xpowR_fin ht0.le hi.ne (.inr ht0), XF.mul_fin, rnd_fin] at e
    have hg1 := hpw.one_le_neg _ _ ht0 ht1 hi
    have hge : m ≤ rd (m * pw (rd (rsum rd 0 (x.map fun a => pw (rd (a / m)) q) / x.length)) (rd (1 / q))) :=
      h.mono_float (hx m hm).1 (by nlinarith)
    exact ⟨_, e, hm0.le.trans hge, fun h0 => absurd h0 (by linarith), fun _ => ⟨m, hm, hge, fun a ha => (hb a ha).2⟩⟩

/-- C84: pmean for orders from 1 on (not too large): the relative error is at most
`((1.2 n + 1.1 log n + 1.2)/q + 2.3) u + 2.3 ε`, plus half a least subnormal. -/
theorem C84_pmean_accuracy_partial (h : Nearest p emin rd) (hp : 10 ≤ p) (he : emin ≤ -4 * p) (hpw : GoodPow p emin ε pw) (hε0 : 0 ≤ ε)
    (hε : ε ≤ 1 / 100) (x : List ℝ) (hne : x ≠ []) (hn : 100 * (x.length : ℝ) ≤ 2 ^ p) (hx : ∀ a ∈ x, 0 ≤ a) (q : ℝ)
    (hq : 1 ≤ q) (hqu : 100 * q ≤ 2 ^ p) :
    ∃ r, pmean1dR (rnd rd) (rnd rx) lg ex (xpowR pw) (x.map XF.fin) (.fin q) = .fin r ∧
      |r - power q x| ≤ (((1.2 * x.length + 1.1 * Real.log x.length + 1.2) / q + 2.3) * (2 ^ p)⁻¹ + 2.3 * ε) * power q x + 2 ^ emin / 2 := by
  have hq0 : 0 < q := by linarith
  obtain ⟨M, hM, m, hm, hb, e⟩ := pmean_formula (rx := rx) (lg := lg) (ex := ex) (pw := pw) h (by omega) (by omega) x hne (by linarith) q
    (by rw [abs_of_pos hq0]; norm_num at *; linarith) (by linarith) hx (.inl hq0)
  have hn0 : (0 : ℝ) < x.length := by exact_mod_cast List.length_pos_iff.2 hne
  have hn1 : (1 : ℝ) ≤ x.length := by exact_mod_cast List.length_pos_iff.2 hne
  have hlog0 : 0 ≤ Real.log x.length := Real.log_nonneg hn1
  have hη0 : (0 : ℝ) < 2 ^ emin := by positivity
  by_cases c : M = m
  · refine ⟨M, by rw [e, if_pos c], ?_⟩
    have hp' : power q x = M := by
      rw [power, List.map_congr_left (g := fun _ => M ^ q) (fun a ha => by rw [le_antisymm (hb a ha).1 (c ▸ (hb a ha).2)])]
      rw [List.map_const', List.sum_replicate, nsmul_eq_mul, mul_div_cancel_left₀ _ hn0.ne', ← Real.rpow_mul (hx M hM), mul_one_div_cancel hq0.ne', Real.rpow_one]
    rw [hp', sub_self, abs_zero]
    have := hx M hM
    positivity
  rw [if_neg c, if_pos hq0] at e
  have hmM : m < M := lt_of_le_of_ne (hb M hM).2 (Ne.symm c)
  have hM0 : 0 < M := lt_of_le_of_lt (hx m hm) hmM
  obtain ⟨S, hSdef, hS1, hSn, E, hEdef, hE1, hE⟩ := scaled_sum h hp he hpw hε0 hε x hn (fun a => a) hx q hq hqu hM0 (fun a ha => (hb a ha).1) hM rfl
  have hpow : power q x = M * (S / x.length) ^ (1 / q) := by
    have hs : S = (x.map (fun a => a ^ q)).sum / M ^ q := by
      rw [hSdef, div_eq_mul_inv, mul_comm, ← List.sum_map_mul_left]
      congr 1
      apply List.map_congr_left
      intro v hv
      rw [Real.div_rpow (hx v hv) hM0.le]; ring
    have hsn : 0 ≤ (x.map (fun a => a ^ q)).sum := List.sum_nonneg (by
      intro y hy; obtain ⟨v, hv, rfl⟩ := List.mem_map.1 hy; exact Real.rpow_nonneg (hx v hv) q)
    rw [power, hs, div_right_comm, Real.div_rpow (x := (x.map (fun a => a ^ q)).sum / x.length) (y := M ^ q) (by positivity) (by positivity), ← Real.rpow_mul hM0.le, mul_one_div_cancel hq0.ne', Real.rpow_one]
    field_simp
  have hu := Mad.unit_le_thousandth (K := ℝ) hp
  have hu0 : (0 : ℝ) < (2 ^ p)⁻¹ := by positivity
  have hnu : (x.length : ℝ) * (2 ^ p)⁻¹ ≤ 1 / 100 := by rw [← div_eq_mul_inv, div_le_iff₀ (by positivity)]; linarith
  have hqu' : q * (2 ^ p)⁻¹ ≤ 1 / 100 := by rw [← div_eq_mul_inv, div_le_iff₀ (by positivity)]; linarith
  obtain ⟨hηu, hηuu⟩ := eta_small hp he
  have herr := fun z => h.error (by omega : 1 ≤ p) z
  have hexp0 := herr (1 / q)
  rw [abs_of_pos (by positivity : 0 < 1 / q)] at hexp0
  have hexp := exponent_error hq0 hu0 hqu' (by norm_num at hηuu ⊢; linarith) hexp0
  have he'0 := exponent_pos hq0 hu0 hu hexp
  generalize rsum rd 0 (x.map fun a => pw (rd (a / M)) q) = S' at *
  have hS'0 : 0 ≤ S' := by
    have := (abs_le.1 hE).1
    have k : E * S ≤ 0.033 * S := mul_le_mul_of_nonneg_right hE1 (by linarith)
    clear * - this k hS1
    norm_num at *; linarith
  have hy := herr (S' / x.length)
  rw [abs_of_nonneg (div_nonneg hS'0 hn0.le)] at hy
  have hT0 : 0 ≤ rd (S' / x.length) := h.mono_float isFloat_zero (div_nonneg hS'0 hn0.le)
  rw [xpowR_fin hT0 he'0.ne' (.inl he'0), XF.mul_fin, rnd_fin] at e
  refine ⟨_, e, ?_⟩
  have hT := mean_error hu0 hu hηuu hn1 hnu hS1 hE hE1 hS'0 hy
  have hfin := herr (M * pw (rd (S' / x.length)) (rd (1 / q)))
  rw [abs_of_nonneg (mul_nonneg hM0.le (hpw.nonneg _ _ hT0 he'0))] at hfin
  rw [hpow]
  exact pmean_finish hu0 hu hε0 hε hηuu hq hqu' hnu hn1 hM0 hS1 hSn hEdef hT hE1 hexp (hpw.error _ _ hT0 he'0) hfin

/-- `3.3` as stored. -/
noncomputable def x33 : ℝ := 7430939385161318 * 2 ^ (-51 : ℤ)

/-- C84: the other bound fails even with a correctly rounded `pow`: in double
`pmean([3.3, 3.3000000000000003], -2)` is one unit above the larger element. -/
theorem C84_pmean_range_violated (h : Nearest 53 (-1074) rd) :
    pmean1dR (rnd rd) (rnd rx) lg ex (xpowR fun b e => rd (b ^ e)) [.fin x33, .fin (x33 + 2 ^ (-51 : ℤ))] (.fin (-2)) = .fin (x33 + 2 * 2 ^ (-51 : ℤ)) := by
  have hx0 : 0 < x33 := by unfold x33; positivity
  have hd : (0 : ℝ) < 2 ^ (-51 : ℤ) := by positivity
  obtain ⟨M, hM, m, hm, hb, e⟩ := pmean_formula (rx := rx) (lg := lg) (ex := ex) (pw := fun b e => rd (b ^ e)) h (by norm_num) (by norm_num)
    [x33, x33 + 2 ^ (-51 : ℤ)] (by simp) (by norm_num) (-2) (by norm_num) (by norm_num)
    (by simp only [List.mem_cons, List.not_mem_nil, or_false]; rintro a (rfl | rfl) <;> linarith)
    (.inr (by simp only [List.mem_cons, List.not_mem_nil, or_false]; rintro a (rfl | rfl) <;> linarith))
  have hMe : M = x33 + 2 ^ (-51 : ℤ) := by
    have := (hb (x33 + 2 ^ (-51 : ℤ)) (by simp)).1
    simp only [List.mem_cons, List.not_mem_nil, or_false] at hM
    rcases hM with rfl | rfl
    · linarith
    · rfl
  have hme : m = x33 := by
    have := (hb x33 (by simp)).2
    simp only [List.mem_cons, List.not_mem_nil, or_false] at hm
    rcases hm with rfl | rfl
    · rfl
    · linarith
  have f1 : rd 1 = 1 := h.exact (isFloat_one (by norm_num) (by norm_num))
  have r1 : rd (x33 / x33) = 1 := by rw [div_self hx0.ne', f1]
  have r2 : rd ((x33 + 2 ^ (-51 : ℤ)) / x33) = 1 + 2 ^ (-52 : ℤ) := by
    have := h.pin (by norm_num) (z := (x33 + 2 ^ (-51 : ℤ)) / x33) (2 ^ 52 + 1) (-53) (by norm_num) (by norm_num)
      (by rw [abs_of_pos (by positivity)]; unfold x33; norm_num) (by unfold x33; norm_num [abs_lt])
    rw [this]; norm_num
  have p2 : rd ((1 + 2 ^ (-52 : ℤ)) ^ (-2 : ℝ)) = 1 - 2 ^ (-51 : ℤ) := by
    have hz : ((1 + 2 ^ (-52 : ℤ) : ℝ)) ^ (-2 : ℝ) = ((1 + 2 ^ (-52 : ℤ)) ^ 2)⁻¹ := by
      rw [Real.rpow_neg (by positivity)]; norm_num
    rw [hz]
    have := h.pin (by norm_num) (z := (((1 + 2 ^ (-52 : ℤ) : ℝ)) ^ 2)⁻¹) (2 ^ 53 - 4) (-54) (by norm_num) (by norm_num)
      (by rw [abs_of_pos (by positivity)]; norm_num) (by norm_num [abs_lt])
    rw [this]; norm_num
  have s2 : rd (1 + (1 - 2 ^ (-51 : ℤ))) = 2 - 2 ^ (-51 : ℤ) := by
    rw [show (1 : ℝ) + (1 - 2 ^ (-51 : ℤ)) = 2 - 2 ^ (-51 : ℤ) by ring]
    exact h.exact ⟨2 ^ 53 - 2, -52, by norm_num, by norm_num, by norm_num⟩
  have s3 : rd ((2 - 2 ^ (-51 : ℤ)) / 2) = 1 - 2 ^ (-52 : ℤ) := by
    rw [show (2 - 2 ^ (-51 : ℤ)) / 2 = (1 : ℝ) - 2 ^ (-52 : ℤ) by norm_num]
    exact h.exact ⟨2 ^ 53 - 2, -53, by norm_num, by norm_num, by norm_num⟩
  have s4 : rd (1 / -2) = -(1 / 2) := by
    rw [show (1 : ℝ) / -2 = -(1 / 2) by norm_num]
    exact h.exact ⟨-1, -1, by norm_num, by norm_num, by norm_num⟩
  have p3 : rd ((1 - 2 ^ (-52 : ℤ)) ^ (-(1 / 2) : ℝ)) = 1 + 2 ^ (-52 : ℤ) := by
    have hc : (0 : ℝ) < 1 - 2 ^ (-52 : ℤ) := by norm_num
    have hz0 : (0 : ℝ) < (1 - 2 ^ (-52 : ℤ)) ^ (-(1 / 2) : ℝ) := Real.rpow_pos_of_pos hc _
    have hz : ((1 - 2 ^ (-52 : ℤ) : ℝ) ^ (-(1 / 2) : ℝ)) ^ 2 = (1 - 2 ^ (-52 : ℤ))⁻¹ := by
      rw [← Real.rpow_natCast, ← Real.rpow_mul hc.le]; norm_num [Real.rpow_neg_one]
    generalize ((1 - 2 ^ (-52 : ℤ) : ℝ) ^ (-(1 / 2) : ℝ)) = z at *
    have l1 : 1 + 2 ^ (-53 : ℤ) < z := by
      apply lt_of_pow_lt_pow_left₀ 2 hz0.le
      rw [hz]; norm_num
    have l2 : z < 1 + 3 * 2 ^ (-53 : ℤ) := by
      apply lt_of_pow_lt_pow_left₀ 2 (by positivity)
      rw [hz]; norm_num
    have := h.pin (by norm_num) (z := z) (2 ^ 52 + 1) (-53) (by norm_num) (by norm_num)
      (by rw [abs_of_pos hz0]; norm_num at *; linarith) (by rw [abs_lt]; constructor <;> norm_num at * <;> linarith)
    rw [this]; norm_num
  have hpinf : rd (x33 * (1 + 2 ^ (-52 : ℤ))) = x33 + 2 * 2 ^ (-51 : ℤ) := by
    have := h.pin (by norm_num) (z := x33 * (1 + 2 ^ (-52 : ℤ))) 7430939385161320 (-52) (by norm_num) (by norm_num)
      (by rw [abs_of_pos (by positivity)]; unfold x33; norm_num) (by unfold x33; norm_num [abs_lt])
    rw [this]; unfold x33; norm_num
  have hpow1 : rd (1 ^ (-2 : ℝ)) = 1 := by rw [Real.one_rpow, f1]
  rw [show [XF.fin x33, XF.fin (x33 + 2 ^ (-51 : ℤ))] = [x33, x33 + 2 ^ (-51 : ℤ)].map XF.fin from rfl, e, if_neg (by rw [hMe, hme]; linarith),
    if_neg (by norm_num), hme]
  simp only [List.map_cons, List.map_nil, r1, r2, hpow1, p2, rsum, zero_add, f1, s2, List.length_cons, List.length_nil]
  rw [show ((1 + 1 : ℕ) : ℝ) = 2 by norm_num, s3, s4, xpowR_fin (by norm_num) (by norm_num) (.inr (by norm_num)), p3, XF.mul_fin, rnd_fin, hpinf]

/-! ### Non-vacuity -/

/-- Rounding the exact power satisfies `PowRange`. -/
theorem powRange_round (h : Nearest p emin rd) (hp : 1 ≤ p) (he : emin ≤ 0) : PowRange p emin (fun b e => rd (b ^ e)) where
  float _ _ _ _ := (h _).1
  nonneg b e hb := h.mono_float isFloat_zero (Real.rpow_nonneg hb e)
  one e := by rw [Real.one_rpow]; exact h.exact (isFloat_one hp he)
  le_one b e h0 h1 he' := h.mono_float' (isFloat_one hp he) (Real.rpow_le_one h0 h1 he'.le)
  le_one_neg b e h1 he' := h.mono_float' (isFloat_one hp he) (Real.rpow_le_one_of_one_le_of_nonpos h1 he'.le)
  one_le_neg b e h0 h1 he' := h.mono_float (isFloat_one hp he) (Real.one_le_rpow_of_pos_of_le_one_of_nonpos h0 h1 he'.le)

/-- Doubles: the quadratic mean of (1, 7) is 5 up to `1e-14` and at most 7. -/
example (h : Nearest 53 (-1074) rd) : ∃ r, pmean1dR (rnd rd) (rnd rx) lg ex (xpowR fun b e => rd (b ^ e)) [.fin 1, .fin 7] (.fin 2) = .fin r ∧ r ≤ 7 ∧ |r - 5| ≤ 1 / 10 ^ 14 := by
  have hg := Vnorm.goodPow_round h (by norm_num) (by norm_num)
  have hr := powRange_round h (by norm_num) (by norm_num)
  have hhalf : rd (1 / 2) = 1 / 2 := h.exact ⟨1, -1, by norm_num, by norm_num, by norm_num⟩
  have hf : ∀ a ∈ [(1 : ℝ), 7], IsFloat 53 (-1074) a ∧ 0 ≤ a := by
    simp only [List.mem_cons, List.not_mem_nil, or_false]
    rintro a (rfl | rfl)
    · exact ⟨⟨1, 0, by norm_num, by norm_num, by norm_num⟩, by norm_num⟩
    · exact ⟨⟨7, 0, by norm_num, by norm_num, by norm_num⟩, by norm_num⟩
  obtain ⟨r, e1, -, e2, -⟩ := C84_pmean_range_partial (rx := rx) (lg := lg) (ex := ex) h (by norm_num) (by norm_num) hr [1, 7] (by simp) (by norm_num) 2 (by norm_num) (by norm_num)
    hf (.inl (by norm_num)) (.inl ⟨by norm_num, by rw [hhalf]; norm_num⟩)
  obtain ⟨r', e1', e3⟩ := C84_pmean_accuracy_partial (rx := rx) (lg := lg) (ex := ex) h (by norm_num) (by norm_num) hg (by positivity) (by norm_num) [1, 7] (by simp)
    (by norm_num) (fun a ha => (hf a ha).2) 2 (by norm_num) (by norm_num)
  rw [e1, XF.fin.injEq] at e1'
  subst e1'
  refine ⟨r, e1, ?_, ?_⟩
  · obtain ⟨M, hM, hle⟩ := e2 (by norm_num)
    simp only [List.mem_cons, List.not_mem_nil, or_false] at hM
    rcases hM with rfl | rfl <;> linarith
  · have hp5 : power 2 [1, 7] = 5 := by
      rw [power]
      norm_num
    rw [hp5] at e3
    refine e3.trans ?_
    have hl : Real.log 2 ≤ 1 := (Real.log_le_sub_one_of_pos (by norm_num)).trans (by norm_num)
    have hη : (2 : ℝ) ^ (-1074 : ℤ) ≤ 2 ^ (-60 : ℤ) := zpow_le_zpow_right₀ (by norm_num) (by norm_num)
    clear e3
    generalize (2 : ℝ) ^ (-1074 : ℤ) = η at *
    norm_num at *; linarith

end Ufunclab.Means
