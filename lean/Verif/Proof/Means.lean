import Verif.Model.Means
import Verif.Spec.Means
import Verif.Proof.XF
import Mathlib.Tactic.Linarith
import Mathlib.Tactic.FieldSimp
import Mathlib.Tactic.Ring
import Mathlib.Algebra.Order.BigOperators.Group.List
import Mathlib.Algebra.BigOperators.Ring.List
namespace Ufunclab.Means
open XF

theorem xmul_one (y : XF ℝ) : mul (.fin 1) y = y := by cases y <;> simp [mul, infMul]

/-! ### Unit weights -/

theorem gmeanwLoop_unit (xs : List (XF ℝ)) (k : Nat) (s : GState) (a : ℝ) :
    ∃ b : ℝ, gmeanwLoop k { s with sumw := .fin a } (xs.map fun x => (x, .fin 1)) = { gmeanLoop k s xs with sumw := .fin b } ∧
      ((gmeanLoop k s xs).hasNan = false → (gmeanLoop k s xs).hasNeg = false → b = a + xs.length) := by
  induction xs generalizing k s a with
  | nil => exact ⟨a, rfl, by simp⟩
  | cons x xs ih =>
    simp only [List.map_cons, gmeanwLoop, gmeanLoop, add_fin, xmul_one, List.length_cons]
    generalize (if k = 0 then x else s.prev) = pv
    split_ifs
    · exact ⟨a + 1, rfl, by simp⟩
    · obtain ⟨b, h1, h2⟩ := ih (k + 1) { s with hasInf := true, allSame := s.allSame && XF.eq pv x, prev := x } (a + 1)
      refine ⟨b, h1, fun h3 h4 => ?_⟩
      rw [h2 h3 h4]; push_cast; ring
    · obtain ⟨b, h1, h2⟩ := ih (k + 1) { s with hasZero := true, allSame := s.allSame && XF.eq pv x, prev := x } (a + 1)
      refine ⟨b, h1, fun h3 h4 => ?_⟩
      rw [h2 h3 h4]; push_cast; ring
    · exact ⟨a + 1, rfl, by simp⟩
    · obtain ⟨b, h1, h2⟩ := ih (k + 1) { s with allSame := s.allSame && XF.eq pv x, prev := x, sumlog := add s.sumlog (xlog x) } (a + 1)
      refine ⟨b, h1, fun h3 h4 => ?_⟩
      rw [h2 h3 h4]; push_cast; ring

theorem gmeanw1d_unit (x : List (XF ℝ)) (hne : x ≠ []) : gmeanw1d (x.map fun v => (v, .fin 1)) = gmean1d x := by
  obtain ⟨b, h1, h2⟩ := gmeanwLoop_unit x 0 {} 0
  have h1' : gmeanwLoop 0 {} (x.map fun x => (x, .fin 1)) = { gmeanLoop 0 {} x with sumw := .fin b } := h1
  have hn : (0 : ℝ) < x.length := by exact_mod_cast List.length_pos_iff.2 hne
  rw [gmeanw1d, gmean1d, h1', gmeanwFinish, gmeanFinish]
  simp only []
  generalize gmeanLoop 0 {} x = s at *
  rcases s with ⟨z, ng, nn, inf, same, prev, sl, sw⟩
  cases ng <;> cases nn <;> simp
  have hb : b = x.length := by simpa using h2 rfl rfl
  subst hb
  have : ¬ (x.length : ℝ) = 0 := hn.ne'
  simp [hne]

theorem hmeanwSum_unit (xs : List (XF ℝ)) (a : ℝ) (s : XF ℝ) :
    ∃ b : ℝ, hmeanwSum (.fin a) s (xs.map fun x => (x, .fin 1)) = (.fin b, hmeanSum s xs) ∧
      (b = a + xs.length ∨ hmeanSum s xs = .pinf) := by
  induction xs generalizing a s with
  | nil => exact ⟨a, rfl, .inl (by simp)⟩
  | cons x xs ih =>
    simp only [List.map_cons, hmeanwSum, hmeanSum, add_fin, List.length_cons]
    split_ifs
    · exact ⟨a, rfl, .inr rfl⟩
    · obtain ⟨b, h1, h2⟩ := ih (a + 1) (add s (div (.fin 1) x))
      refine ⟨b, h1, h2.imp (fun h => ?_) id⟩
      rw [h]; push_cast; ring

theorem hmeanw1d_unit (x : List (XF ℝ)) : hmeanw1d (x.map fun v => (v, .fin 1)) = hmean1d x := by
  obtain ⟨b, h1, h2⟩ := hmeanwSum_unit x 0 (.fin 0)
  rw [hmeanw1d, hmean1d]
  simp only [h1]
  rcases h2 with h | h
  · rw [h]; simp
  · rw [h]; rfl

theorem logSumsW_unit (xs : List (XF ℝ)) (a : ℝ) (s q : XF ℝ) :
    logSumsW (.fin a) s q (xs.map fun x => (x, .fin 1)) = (.fin (a + xs.length), logSums s q xs) := by
  induction xs generalizing a s q with
  | nil => simp [logSumsW, logSums]
  | cons x xs ih =>
    simp only [List.map_cons, logSumsW, logSums, add_fin, List.length_cons, xmul_one, ih]
    push_cast; ring_nf

theorem powSumW_unit (scale p : XF ℝ) (xs : List (XF ℝ)) (a : ℝ) (s : XF ℝ) :
    powSumW scale p (.fin a) s (xs.map fun x => (x, .fin 1)) = (.fin (a + xs.length), powSum scale p s xs) := by
  induction xs generalizing a s with
  | nil => simp [powSumW, powSum]
  | cons x xs ih =>
    simp only [List.map_cons, powSumW, powSum, add_fin, List.length_cons, xmul_one, ih]
    push_cast; ring_nf

theorem pmeanw1d_unit (x : List (XF ℝ)) (hne : x ≠ []) (p : XF ℝ) :
    pmeanw1d (x.map fun v => (v, .fin 1)) p = pmean1d x p := by
  have hm : (x.map fun v => (v, (XF.fin 1 : XF ℝ))).map Prod.fst = x := by
    rw [List.map_map]; exact List.map_id x
  rw [pmeanw1d, pmean1d, gmeanw1d_unit x hne, hmeanw1d_unit, logSumsW_unit, hm]
  simp only [powSumW_unit, zero_add]

/-! ### Special values of the geometric mean -/

/-- NaN or a finite negative number. -/
def Bad (v : XF ℝ) : Prop := v = .nan ∨ ∃ a : ℝ, a < 0 ∧ v = .fin a

theorem not_bad (v : XF ℝ) (h : ¬ Bad v) : isnan v = false ∧ (isinf v = false → XF.eq v (.fin 0) = false → XF.lt v (.fin 0) = false) := by
  cases v with
  | nan => exact absurd (Or.inl rfl) h
  | ninf => simp [isnan, isinf]
  | pinf => simp [isnan, isinf]
  | fin a =>
    refine ⟨rfl, fun _ _ => ?_⟩
    simp only [lt_fin, decide_eq_false_iff_not]
    exact fun ha => h (.inr ⟨a, ha, rfl⟩)

theorem gmeanwLoop_bad (xs : List (XF ℝ × XF ℝ)) (k : Nat) (s : GState) (h : ∃ v ∈ xs, Bad v.1) :
    (gmeanwLoop k s xs).hasNeg = true ∨ (gmeanwLoop k s xs).hasNan = true := by
  induction xs generalizing k s with
  | nil => simp at h
  | cons v xs ih =>
    rcases v with ⟨x, w⟩
    simp only [gmeanwLoop]
    by_cases hx : Bad x
    · rcases hx with rfl | ⟨a, ha, rfl⟩
      · right; rfl
      · left; simp [ha.ne, ha]
    · obtain ⟨h1, h2⟩ := not_bad x hx
      have h' : ∃ v ∈ xs, Bad v.1 := by
        obtain ⟨v, hv, hb⟩ := h
        rcases List.mem_cons.1 hv with rfl | hv
        · exact absurd hb hx
        · exact ⟨v, hv, hb⟩
      rw [h1, if_neg (by simp)]
      generalize (if k = 0 then x else s.prev) = pv
      split_ifs
      · exact ih _ _ h'
      · exact ih _ _ h'
      · rename_i a b c; exact absurd c (by simpa using h2 (by simpa using a) (by simpa using b))
      · exact ih _ _ h'

theorem gmeanwLoop_good (xs : List (XF ℝ × XF ℝ)) (k : Nat) (s : GState) (h : ∀ v ∈ xs, ¬ Bad v.1) :
    (gmeanwLoop k s xs).hasNeg = s.hasNeg ∧ (gmeanwLoop k s xs).hasNan = s.hasNan ∧
    (gmeanwLoop k s xs).hasInf = (s.hasInf || xs.any fun v => isinf v.1) ∧
    (gmeanwLoop k s xs).hasZero = (s.hasZero || xs.any fun v => XF.eq v.1 (.fin 0)) := by
  induction xs generalizing k s with
  | nil => simp [gmeanwLoop]
  | cons v xs ih =>
    rcases v with ⟨x, w⟩
    have hx := h (x, w) (by simp)
    obtain ⟨h1, h2⟩ := not_bad x hx
    have h' : ∀ v ∈ xs, ¬ Bad v.1 := fun v hv => h v (by simp [hv])
    simp only [gmeanwLoop]
    rw [h1, if_neg (by simp)]
    generalize (if k = 0 then x else s.prev) = pv
    split_ifs with a b c
    · obtain ⟨i1, i2, i3, i4⟩ := ih (k + 1) { s with sumw := add s.sumw w, prev := x, allSame := s.allSame && XF.eq pv x, hasInf := true } h'
      refine ⟨i1, i2, by simp [i3, a], ?_⟩
      have : XF.eq x (.fin 0) = false := by cases x <;> simp_all [isinf, XF.eq]
      simp [i4, this]
    · obtain ⟨i1, i2, i3, i4⟩ := ih (k + 1) { s with sumw := add s.sumw w, prev := x, allSame := s.allSame && XF.eq pv x, hasZero := true } h'
      refine ⟨i1, i2, by simp [i3, a], by simp [i4, b]⟩
    · exact absurd c (by simpa using h2 (by simpa using a) (by simpa using b))
    · obtain ⟨i1, i2, i3, i4⟩ := ih (k + 1) { s with sumw := add s.sumw w, prev := x, allSame := s.allSame && XF.eq pv x, sumlog := add s.sumlog (mul w (xlog x)) } h'
      refine ⟨i1, i2, by simp [i3, a], by simp [i4, b]⟩

/-! ### Positive finite data -/

/-- Finite weighted data. -/
def FW (l : List (ℝ × ℝ)) : List (XF ℝ × XF ℝ) := l.map fun a => (.fin a.1, .fin a.2)

theorem gmeanwLoop_pos (l : List (ℝ × ℝ)) (k : Nat) (s : GState) (a b : ℝ) (h : ∀ v ∈ l, 0 < v.1)
    (hs : s.sumlog = .fin a) (hw : s.sumw = .fin b) :
    ∃ (B : Bool) (P : XF ℝ), gmeanwLoop k s (FW l) = { s with
        allSame := B, prev := P, sumlog := .fin (a + (l.map fun v => v.2 * Real.log v.1).sum),
        sumw := .fin (b + (l.map Prod.snd).sum) } ∧
      (B = true → s.allSame = true ∧ (∀ v ∈ l, P = .fin v.1) ∧ (k ≠ 0 → P = s.prev)) := by
  induction l generalizing k s a b with
  | nil => exact ⟨s.allSame, s.prev, by simp [FW, gmeanwLoop, ← hs, ← hw], by simp⟩
  | cons v l ih =>
    rcases v with ⟨x, w⟩
    have hx : 0 < x := h (x, w) (by simp)
    have hl : xlog (.fin x) = .fin (Real.log x) := by simp [xlog, hx.not_gt, hx.ne']
    have e : gmeanwLoop k s (FW ((x, w) :: l)) = gmeanwLoop (k + 1) (GState.mk s.hasZero s.hasNeg s.hasNan s.hasInf
        (s.allSame && XF.eq (if k = 0 then .fin x else s.prev) (.fin x)) (.fin x) (.fin (a + w * Real.log x)) (.fin (b + w))) (FW l) := by
      show gmeanwLoop k s ((.fin x, .fin w) :: FW l) = _
      simp only [gmeanwLoop, hs, hw, hl, mul_fin, add_fin]
      generalize (if k = 0 then XF.fin x else s.prev) = pv
      simp [isnan, isinf, hx.ne', hx.le]
    generalize hpv : (if k = 0 then XF.fin x else s.prev) = pv at e
    obtain ⟨B, P, h1, h2⟩ := ih (k + 1) (GState.mk s.hasZero s.hasNeg s.hasNan s.hasInf
        (s.allSame && XF.eq pv (.fin x)) (.fin x) (.fin (a + w * Real.log x)) (.fin (b + w)))
        (a + w * Real.log x) (b + w) (fun v hv => h v (by simp [hv])) rfl rfl
    refine ⟨B, P, ?_, ?_⟩
    · rw [e, h1]; simp [add_assoc]
    · intro hB
      obtain ⟨g1, g2, g3⟩ := h2 hB
      simp only [Bool.and_eq_true] at g1
      have g3' : P = .fin x := g3 (by omega)
      have hpx : pv = .fin x := by
        have := g1.2
        cases pv <;> simp_all [XF.eq]
      refine ⟨g1.1, ?_, fun hk => ?_⟩
      · intro v hv
        rcases List.mem_cons.1 hv with rfl | hv
        · exact g3'
        · exact g2 v hv
      · rw [if_neg hk] at hpv
        rw [g3', hpv, hpx]

/-- The weighted geometric mean of positive data. -/
theorem gmeanw1d_pos (l : List (ℝ × ℝ)) (hne : l ≠ []) (h : ∀ v ∈ l, 0 < v.1) (hw : (l.map Prod.snd).sum ≠ 0) :
    gmeanw1d (FW l) = .fin (MeansSpec.geoW l) := by
  obtain ⟨B, P, h1, h2⟩ := gmeanwLoop_pos l 0 {} 0 0 h rfl rfl
  rw [gmeanw1d, h1, gmeanwFinish]
  simp only [Bool.false_or, Bool.false_and, zero_add, eq_fin, Bool.false_eq_true, if_false]
  by_cases hB : B = true
  · obtain ⟨-, g2, -⟩ := h2 hB
    rw [if_pos hB]
    obtain ⟨v, hv⟩ := List.exists_mem_of_ne_nil l hne
    have hP := g2 v hv
    rw [hP, MeansSpec.geoW]
    have e : (l.map fun a => a.2 * Real.log a.1) = l.map fun a => a.2 * Real.log v.1 := by
      apply List.map_congr_left
      intro a ha
      have : XF.fin v.1 = XF.fin a.1 := by rw [← hP, g2 a ha]
      rw [XF.fin.inj this]
    have e2 : (l.map fun a => a.2 * Real.log v.1).sum = (l.map Prod.snd).sum * Real.log v.1 := List.sum_map_mul_right ..
    rw [e, e2, mul_div_assoc, mul_comm, div_mul_cancel₀ _ hw, Real.exp_log (h v hv)]
  · rw [if_neg hB, if_neg (by simpa using hw), div_fin _ _ hw]
    rfl

/-! ### Harmonic mean of positive data -/

theorem sum_mul_nonneg (l : List (ℝ × ℝ)) (f : ℝ → ℝ) (hw : ∀ v ∈ l, 0 ≤ v.2) (hf : ∀ v ∈ l, 0 < f v.1) :
    0 ≤ (l.map fun v => v.2 * f v.1).sum ∧ ((l.map fun v => v.2 * f v.1).sum = 0 → (l.map Prod.snd).sum = 0) := by
  induction l with
  | nil => simp
  | cons v l ih =>
    obtain ⟨i1, i2⟩ := ih (fun v hv => hw v (by simp [hv])) (fun v hv => hf v (by simp [hv]))
    have a1 := hw v (by simp)
    have a2 := hf v (by simp)
    have a3 : 0 ≤ v.2 * f v.1 := mul_nonneg a1 a2.le
    simp only [List.map_cons, List.sum_cons]
    refine ⟨by linarith, fun h => ?_⟩
    have b1 : v.2 * f v.1 = 0 := by linarith
    have b2 : (l.map fun v => v.2 * f v.1).sum = 0 := by linarith
    rw [i2 b2, add_zero]
    rcases mul_eq_zero.1 b1 with h | h
    · exact h
    · exact absurd h a2.ne'

theorem sum_mul_pos (l : List (ℝ × ℝ)) (f : ℝ → ℝ) (hw : ∀ v ∈ l, 0 ≤ v.2) (hf : ∀ v ∈ l, 0 < f v.1)
    (hs : 0 < (l.map Prod.snd).sum) : 0 < (l.map fun v => v.2 * f v.1).sum := by
  obtain ⟨h1, h2⟩ := sum_mul_nonneg l f hw hf
  rcases h1.eq_or_lt with h | h
  · exact absurd (h2 h.symm) hs.ne'
  · exact h

theorem hmeanwSum_pos (l : List (ℝ × ℝ)) (a b : ℝ) (h : ∀ v ∈ l, v.1 ≠ 0) :
    hmeanwSum (.fin a) (.fin b) (FW l) =
      (.fin (a + (l.map Prod.snd).sum), .fin (b + (l.map fun v => v.2 / v.1).sum)) := by
  induction l generalizing a b with
  | nil => simp [FW, hmeanwSum]
  | cons v l ih =>
    rcases v with ⟨x, w⟩
    have hx : x ≠ 0 := h (x, w) (by simp)
    show hmeanwSum (.fin a) (.fin b) ((.fin x, .fin w) :: FW l) = _
    simp only [hmeanwSum, eq_fin, decide_eq_true_eq]
    rw [if_neg hx, div_fin _ _ hx, add_fin, add_fin, ih _ _ (fun v hv => h v (by simp [hv]))]
    simp [add_assoc]

/-- The code's value is `Σw / Σ(w/x)` for every data without zeros and non-zero denominator. -/
theorem hmeanw1d_fin (l : List (ℝ × ℝ)) (h : ∀ v ∈ l, v.1 ≠ 0) (hd : (l.map fun v => v.2 / v.1).sum ≠ 0) :
    hmeanw1d (FW l) = .fin (MeansSpec.harmW l) := by
  rw [hmeanw1d]
  simp only [hmeanwSum_pos l 0 0 h, zero_add]
  rw [div_fin _ _ hd]; rfl

/-! ### The scan -/

theorem le_refl' (a : XF ℝ) (h : isnan a = false) : XF.le a a = true := by
  cases a <;> simp_all [XF.le, XF.lt, XF.eq, isnan]
theorem le_trans' (a b c : XF ℝ) (h1 : XF.le a b = true) (h2 : XF.le b c = true) : XF.le a c = true := by
  cases a <;> cases b <;> cases c <;> simp_all [XF.le, XF.lt, XF.eq, isnan]
  rename_i a b c
  have h1' : a ≤ b := by rcases h1 with h | h <;> linarith
  have h2' : b ≤ c := by rcases h2 with h | h <;> linarith
  exact lt_or_eq_of_le (h1'.trans h2')
theorem le_of_not_lt' (a b : XF ℝ) (ha : isnan a = false) (hb : isnan b = false) (h : XF.lt a b = false) : XF.le b a = true := by
  cases a <;> cases b <;> simp_all [XF.le, XF.lt, XF.eq, isnan]
  exact lt_or_eq_of_le h
theorem le_of_lt' (a b : XF ℝ) (h : XF.lt a b = true) : XF.le a b = true := by simp [XF.le, h]
theorem le_antisymm' (a b : XF ℝ) (h1 : XF.le a b = true) (h2 : XF.le b a = true) : a = b := by
  cases a <;> cases b <;> simp_all [XF.le, XF.lt, XF.eq, isnan]
  rename_i a b
  rcases h1 with h | h
  · rcases h2 with h' | h' <;> linarith
  · exact h
theorem eq_iff' (a b : XF ℝ) (h : isnan a = false) : XF.eq a b = true ↔ a = b := by
  cases a <;> cases b <;> simp_all [XF.eq, isnan]

/-- One of the elements is NaN or negative (possibly −∞): the scan notices. -/
theorem scan_bad (xs : List (XF ℝ)) (k : Nat) (s : PState) (h : ∃ v ∈ xs, isnan v = true ∨ XF.lt v (.fin 0) = true) :
    (pmeanScan k s xs).hasNeg = true ∨ (pmeanScan k s xs).hasNan = true := by
  induction xs generalizing k s with
  | nil => simp at h
  | cons x xs ih =>
    simp only [pmeanScan]
    by_cases hx : isnan x = true
    · rw [if_pos hx]; right; rfl
    · rw [if_neg hx]
      by_cases hn : XF.lt x (.fin 0) = true
      · rw [if_pos hn]; left; rfl
      · rw [if_neg hn]
        apply ih
        obtain ⟨v, hv, hb⟩ := h
        rcases List.mem_cons.1 hv with rfl | hv
        · rcases hb with hb | hb <;> contradiction
        · exact ⟨v, hv, hb⟩

/-- Non-negative data (zero and `+∞` allowed). -/
def NN (v : XF ℝ) : Prop := isnan v = false ∧ XF.lt v (.fin 0) = false

theorem scan_good (xs : List (XF ℝ)) (k : Nat) (s : PState) (h : ∀ v ∈ xs, NN v)
    (hk : k ≠ 0 → isnan s.xmax = false ∧ isnan s.xmin = false) (hkx : k = 0 → xs ≠ []) :
    (pmeanScan k s xs).hasNeg = s.hasNeg ∧ (pmeanScan k s xs).hasNan = s.hasNan ∧
    (pmeanScan k s xs).hasInf = (s.hasInf || xs.any isinf) ∧
    (pmeanScan k s xs).hasZero = (s.hasZero || xs.any fun v => XF.eq v (.fin 0)) ∧
    ((pmeanScan k s xs).xmax ∈ xs ∨ k ≠ 0 ∧ (pmeanScan k s xs).xmax = s.xmax) ∧
    ((pmeanScan k s xs).xmin ∈ xs ∨ k ≠ 0 ∧ (pmeanScan k s xs).xmin = s.xmin) ∧
    (∀ v ∈ xs, XF.le v (pmeanScan k s xs).xmax = true ∧ XF.le (pmeanScan k s xs).xmin v = true) ∧
    (k ≠ 0 → XF.le s.xmax (pmeanScan k s xs).xmax = true ∧ XF.le (pmeanScan k s xs).xmin s.xmin = true) := by
  induction xs generalizing k s with
  | nil =>
    have hk0 : k ≠ 0 := fun h0 => hkx h0 rfl
    simp [pmeanScan, hk0, le_refl' _ (hk hk0).1, le_refl' _ (hk hk0).2]
  | cons x xs ih =>
    obtain ⟨hx1, hx2⟩ := h x (by simp)
    have e : pmeanScan k s (x :: xs) = pmeanScan (k + 1) (PState.mk (s.hasZero || XF.eq x (.fin 0)) s.hasNeg s.hasNan (s.hasInf || isinf x)
        (if k = 0 ∨ XF.gt x s.xmax = true then x else s.xmax) (if k = 0 ∨ XF.lt x s.xmin = true then x else s.xmin)) xs := by
      simp only [pmeanScan, hx1]
      cases h1 : isinf x <;> by_cases h2 : (k = 0 ∨ XF.gt x s.xmax = true) <;> by_cases h3 : (k = 0 ∨ XF.lt x s.xmin = true) <;>
        cases h4 : XF.eq x (.fin 0) <;> simp [h1, h2, h3, h4, hx2]
    rw [e]
    generalize hM : (if k = 0 ∨ XF.gt x s.xmax = true then x else s.xmax) = M
    generalize hm : (if k = 0 ∨ XF.lt x s.xmin = true then x else s.xmin) = m
    have fM : XF.le x M = true ∧ isnan M = false ∧ (k ≠ 0 → XF.le s.xmax M = true) ∧ (M = x ∨ k ≠ 0 ∧ M = s.xmax) := by
      by_cases c : k = 0 ∨ XF.gt x s.xmax = true
      · rw [if_pos c] at hM; subst hM
        exact ⟨le_refl' _ hx1, hx1, fun hk0 => le_of_lt' _ _ (by rcases c with c | c; exact absurd c hk0; exact c), .inl rfl⟩
      · rw [if_neg c] at hM; subst hM
        have hk0 : k ≠ 0 := fun h => c (.inl h)
        have c2 : XF.lt s.xmax x = false := by
          cases hh : XF.lt s.xmax x
          · rfl
          · exact absurd (Or.inr hh) c
        exact ⟨le_of_not_lt' _ _ (hk hk0).1 hx1 c2, (hk hk0).1, fun _ => le_refl' _ (hk hk0).1, .inr ⟨hk0, rfl⟩⟩
    have fm : XF.le m x = true ∧ isnan m = false ∧ (k ≠ 0 → XF.le m s.xmin = true) ∧ (m = x ∨ k ≠ 0 ∧ m = s.xmin) := by
      by_cases c : k = 0 ∨ XF.lt x s.xmin = true
      · rw [if_pos c] at hm; subst hm
        exact ⟨le_refl' _ hx1, hx1, fun hk0 => le_of_lt' _ _ (by rcases c with c | c; exact absurd c hk0; exact c), .inl rfl⟩
      · rw [if_neg c] at hm; subst hm
        have hk0 : k ≠ 0 := fun h => c (.inl h)
        have c2 : XF.lt x s.xmin = false := by
          cases hh : XF.lt x s.xmin
          · rfl
          · exact absurd (Or.inr hh) c
        exact ⟨le_of_not_lt' _ _ hx1 (hk hk0).2 c2, (hk hk0).2, fun _ => le_refl' _ (hk hk0).2, .inr ⟨hk0, rfl⟩⟩
    obtain ⟨i1, i2, i3, i4, i5, i6, i7, i8⟩ := ih (k + 1)
      (PState.mk (s.hasZero || XF.eq x (.fin 0)) s.hasNeg s.hasNan (s.hasInf || isinf x) M m)
      (fun v hv => h v (by simp [hv])) (fun _ => ⟨fM.2.1, fm.2.1⟩) (by simp)
    obtain ⟨j1, j2⟩ := i8 (by omega)
    generalize pmeanScan (k + 1) (PState.mk (s.hasZero || XF.eq x (.fin 0)) s.hasNeg s.hasNan (s.hasInf || isinf x) M m) xs = r at *
    simp only [] at i1 i2 i3 i4 i5 i6 j1 j2
    refine ⟨i1, i2, by simp [i3, Bool.or_assoc], by simp [i4, Bool.or_assoc], ?_, ?_, ?_, ?_⟩
    · rcases i5 with i5 | ⟨-, i5⟩
      · exact .inl (by simp [i5])
      · rcases fM.2.2.2 with f | ⟨f0, f⟩
        · exact .inl (by simp [i5, f])
        · exact .inr ⟨f0, by rw [i5, f]⟩
    · rcases i6 with i6 | ⟨-, i6⟩
      · exact .inl (by simp [i6])
      · rcases fm.2.2.2 with f | ⟨f0, f⟩
        · exact .inl (by simp [i6, f])
        · exact .inr ⟨f0, by rw [i6, f]⟩
    · intro v hv
      rcases List.mem_cons.1 hv with rfl | hv
      · exact ⟨le_trans' _ _ _ fM.1 j1, le_trans' _ _ _ j2 fm.1⟩
      · exact i7 v hv
    · intro hk0
      exact ⟨le_trans' _ _ _ (fM.2.2.1 hk0) j1, le_trans' _ _ _ j2 (fm.2.2.1 hk0)⟩

/-! ### Power sums -/

theorem xpow_fin (a p : ℝ) (ha : 0 ≤ a) (hp : p ≠ 0) (h : 0 < p ∨ 0 < a) : xpow (.fin a) (.fin p) = .fin (a ^ p) := by
  simp only [xpow, if_neg hp, if_neg ha.not_gt]
  split_ifs with h1 h2
  · rcases h with h | h <;> linarith
  · rw [h1, Real.zero_rpow hp]
  · rfl

theorem powSumW_fin (scale p : ℝ) (hs : 0 < scale) (hp : p ≠ 0) (l : List (ℝ × ℝ)) (a b : ℝ)
    (h : ∀ v ∈ l, 0 ≤ v.1 ∧ (0 < p ∨ 0 < v.1)) :
    powSumW (.fin scale) (.fin p) (.fin a) (.fin b) (FW l) =
      (.fin (a + (l.map Prod.snd).sum), .fin (b + (l.map fun v => v.2 * (v.1 / scale) ^ p).sum)) := by
  induction l generalizing a b with
  | nil => simp [FW, powSumW]
  | cons v l ih =>
    rcases v with ⟨x, w⟩
    obtain ⟨h1, h2⟩ := h (x, w) (by simp)
    show powSumW (.fin scale) (.fin p) (.fin a) (.fin b) ((.fin x, .fin w) :: FW l) = _
    simp only [powSumW]
    rw [div_fin _ _ hs.ne', xpow_fin _ _ (div_nonneg h1 hs.le) hp (h2.imp id (fun h => div_pos h hs)), mul_fin, add_fin, add_fin,
      ih _ _ (fun v hv => h v (by simp [hv]))]
    simp [add_assoc]

/-- Scaling cancels. -/
theorem power_scale (l : List (ℝ × ℝ)) (scale p : ℝ) (hs : 0 < scale) (hp : p ≠ 0) (h : ∀ v ∈ l, 0 ≤ v.1)
    (hw : ∀ v ∈ l, 0 ≤ v.2) :
    scale * ((l.map fun v => v.2 * (v.1 / scale) ^ p).sum / (l.map Prod.snd).sum) ^ (1 / p) = MeansSpec.powerW p l := by
  have e : (l.map fun v => v.2 * (v.1 / scale) ^ p) = l.map fun v => (v.2 * v.1 ^ p) * (scale ^ p)⁻¹ := by
    apply List.map_congr_left
    intro v hv
    rw [Real.div_rpow (h v hv) hs.le, div_eq_mul_inv, mul_assoc]
  have e2 : (l.map fun v => (v.2 * v.1 ^ p) * (scale ^ p)⁻¹).sum = (l.map fun v => v.2 * v.1 ^ p).sum * (scale ^ p)⁻¹ := List.sum_map_mul_right ..
  have hsp : 0 < scale ^ p := Real.rpow_pos_of_pos hs p
  have n1 : 0 ≤ (l.map fun v => v.2 * v.1 ^ p).sum := List.sum_nonneg (by
    intro y hy
    obtain ⟨v, hv, rfl⟩ := List.mem_map.1 hy
    exact mul_nonneg (hw v hv) (Real.rpow_nonneg (h v hv) p))
  have n2 : 0 ≤ (l.map Prod.snd).sum := List.sum_nonneg (by
    intro y hy
    obtain ⟨v, hv, rfl⟩ := List.mem_map.1 hy
    exact hw v hv)
  rw [e, e2, MeansSpec.powerW, mul_div_right_comm, Real.mul_rpow (div_nonneg n1 n2) (inv_nonneg.2 hsp.le),
    Real.inv_rpow hsp.le, ← Real.rpow_mul hs.le, mul_one_div_cancel hp, Real.rpow_one, mul_comm, mul_assoc,
    inv_mul_cancel₀ hs.ne', mul_one]

theorem powerW_const (l : List (ℝ × ℝ)) (p c : ℝ) (hc : 0 ≤ c) (hp : p ≠ 0) (h : ∀ v ∈ l, v.1 = c) (hw : (l.map Prod.snd).sum ≠ 0) :
    MeansSpec.powerW p l = c := by
  have e : (l.map fun v => v.2 * v.1 ^ p) = l.map fun v => v.2 * c ^ p :=
    List.map_congr_left fun v hv => by rw [h v hv]
  have e2 : (l.map fun v => v.2 * c ^ p).sum = (l.map Prod.snd).sum * c ^ p := List.sum_map_mul_right ..
  rw [MeansSpec.powerW, e, e2, mul_div_assoc, mul_comm, div_mul_cancel₀ _ hw, ← Real.rpow_mul hc, mul_one_div_cancel hp, Real.rpow_one]

theorem harmW_eq_powerW (l : List (ℝ × ℝ)) : MeansSpec.harmW l = MeansSpec.powerW (-1) l := by
  have e : (l.map fun v => v.2 * v.1 ^ (-1 : ℝ)) = l.map fun v => v.2 / v.1 :=
    List.map_congr_left fun v _ => by rw [Real.rpow_neg_one, div_eq_mul_inv]
  rw [MeansSpec.harmW, MeansSpec.powerW, e]
  norm_num
  rw [Real.rpow_neg_one, inv_div]

/-- The weighted power mean of non-negative data. -/
theorem pmeanw1d_fin (l : List (ℝ × ℝ)) (p : ℝ) (hp : 2e-6 ≤ |p|) (hx : ∀ v ∈ l, 0 ≤ v.1) (hpx : 0 < p ∨ ∀ v ∈ l, 0 < v.1)
    (hw : ∀ v ∈ l, 0 ≤ v.2) (hs : 0 < (l.map Prod.snd).sum) :
    pmeanw1d (FW l) (.fin p) = .fin (MeansSpec.powerW p l) := by
  have hp0 : p ≠ 0 := by rintro rfl; norm_num at hp
  have hne : l ≠ [] := by rintro rfl; simp at hs
  rw [pmeanw1d]
  simp only [isnan_fin, abs_fin, lt_fin, Bool.false_eq_true, if_false, decide_eq_true_eq, eq_fin]
  rw [if_neg (not_lt.2 hp)]
  by_cases h1 : p = -1
  · rw [if_pos h1]
    have hpos : ∀ v ∈ l, 0 < v.1 := by
      rcases hpx with h | h
      · linarith
      · exact h
    have hd := sum_mul_pos l (fun a => 1 / a) hw (fun v hv => one_div_pos.2 (hpos v hv)) hs
    have e : (l.map fun v => v.2 * (1 / v.1)) = l.map fun v => v.2 / v.1 :=
      List.map_congr_left fun v _ => by rw [mul_one_div]
    rw [e] at hd
    rw [hmeanw1d_fin l (fun v hv => (hpos v hv).ne') hd.ne', harmW_eq_powerW, h1]
  · rw [if_neg h1]
    have hmf : (FW l).map Prod.fst = l.map fun v => XF.fin v.1 := by simp [FW, Function.comp_def]
    rw [hmf]
    have hnn : ∀ v ∈ l.map (fun v => XF.fin v.1), NN v := by
      intro v hv
      obtain ⟨a, ha, rfl⟩ := List.mem_map.1 hv
      exact ⟨rfl, by simpa using hx a ha⟩
    obtain ⟨i1, i2, i3, i4, i5, i6, i7, -⟩ := scan_good (l.map fun v => XF.fin v.1) 0 {} hnn (by simp) (by simpa using hne)
    generalize pmeanScan 0 {} (l.map fun v => XF.fin v.1) = r at *
    have j5 : r.xmax ∈ l.map fun v => XF.fin v.1 := by rcases i5 with h | h; exact h; exact absurd rfl h.1
    have j6 : r.xmin ∈ l.map fun v => XF.fin v.1 := by rcases i6 with h | h; exact h; exact absurd rfl h.1
    obtain ⟨vM, hvM, eM⟩ := List.mem_map.1 j5
    obtain ⟨vm, hvm, em⟩ := List.mem_map.1 j6
    have hb : ∀ v ∈ l, v.1 ≤ vM.1 ∧ vm.1 ≤ v.1 := by
      intro v hv
      have := i7 (.fin v.1) (List.mem_map.2 ⟨v, hv, rfl⟩)
      rw [← eM, ← em] at this
      simpa using this
    have hInf : r.hasInf = false := by
      rw [i3]; simp
    have hsp : pmeanSpecial r (.fin p) = if vM.1 = vm.1 then some (.fin vM.1) else none := by
      rw [pmeanSpecial, i1, i2, hInf, ← eM, ← em]
      simp only [Bool.or_self, Bool.false_eq_true, if_false, Bool.false_and, eq_fin, decide_eq_true_eq, isinf_fin, lt_fin]
      by_cases c : vM.1 = vm.1
      · rw [if_pos c, if_pos c]
      · rw [if_neg c, if_neg c, if_neg]
        rintro h
        rw [i4] at h
        simp only [Bool.false_or, Bool.and_eq_true, List.any_eq_true, List.mem_map, decide_eq_true_eq] at h
        obtain ⟨⟨x, ⟨v, hv, rfl⟩, hz⟩, hneg⟩ := h
        simp only [eq_fin, decide_eq_true_eq] at hz
        rcases hpx with h | h
        · linarith
        · exact absurd hz (h v hv).ne'
    simp only [hsp]
    by_cases c : vM.1 = vm.1
    · rw [if_pos c]
      simp only []
      rw [powerW_const l p vM.1 (hx _ hvM) hp0 (fun v hv => le_antisymm (hb v hv).1 (c ▸ (hb v hv).2)) hs.ne']
    · rw [if_neg c]
      simp only [gt_fin, decide_eq_true_eq]
      have hscale : ∃ s : ℝ, 0 < s ∧ (if 0 < p then r.xmax else r.xmin) = .fin s := by
        by_cases h : 0 < p
        · rw [if_pos h, ← eM]
          exact ⟨_, lt_of_le_of_lt (hx _ hvm) (lt_of_le_of_ne (hb _ hvM).2 (Ne.symm c)), rfl⟩
        · rw [if_neg h, ← em]
          exact ⟨_, (hpx.resolve_left h) _ hvm, rfl⟩
      obtain ⟨s, hs0, es⟩ := hscale
      rw [es, powSumW_fin s p hs0 hp0 l 0 0 (fun v hv => ⟨hx v hv, hpx.imp id (fun h => h v hv)⟩)]
      simp only [zero_add]
      have hden := hs.ne'
      rw [div_fin _ _ hden, div_fin _ _ hp0, xpow_fin, mul_fin, power_scale l s p hs0 hp0 hx hw]
      · refine div_nonneg (List.sum_nonneg ?_) hs.le
        intro y hy
        obtain ⟨v, hv, rfl⟩ := List.mem_map.1 hy
        exact mul_nonneg (hw v hv) (Real.rpow_nonneg (div_nonneg (hx v hv) hs0.le) p)
      · exact one_div_ne_zero hp0
      · rcases hpx with h | h
        · exact .inl (one_div_pos.2 h)
        · right
          exact div_pos (sum_mul_pos l (fun a => (a / s) ^ p) hw (fun v hv => Real.rpow_pos_of_pos (div_pos (h v hv) hs0) p) hs) hs

end Ufunclab.Means
