import Verif.Proof.ErfcxOde
import Verif.Proof.ErfcxRefTable
import Mathlib.Analysis.Real.Pi.Bounds
/-! # The reference polynomials approximate `erfcx` -/
namespace Ufunclab.Erfcx
open Real Set Ufunclab.Debye1

theorem pabs_bound (p : List ℤ) {t : ℝ} (ht : |t| ≤ 1) : |peval p t| ≤ pabs p := by
  induction p with
  | nil => simp [pabs]
  | cons a p ih =>
    simp only [peval_cons, pabs]
    push_cast
    refine (abs_add_le _ _).trans (add_le_add le_rfl ?_)
    rw [abs_mul]
    calc |t| * |peval p t| ≤ 1 * |peval p t| := mul_le_mul_of_nonneg_right ht (abs_nonneg _)
      _ ≤ _ := by linarith

/-- `10^30/√π`, rounded. -/
def cN : ℤ := 564189583547756286948079451561

theorem c_bounds : |c - cN / 10 ^ 30| ≤ 1 / 10 ^ 21 := by
  have hc := c_pos
  have hsq : c ^ 2 * π = 1 := by
    unfold c
    rw [div_pow, one_pow, Real.sq_sqrt pi_pos.le, one_div_mul_cancel pi_pos.ne']
  have h1 := pi_gt_d20
  have h2 := pi_lt_d20
  unfold cN
  rw [abs_le]
  constructor
  · by_contra hn
    push Not at hn
    have h3 : c < 0.5641895835477562869471 := by push_cast at hn; linarith
    have h4 : c ^ 2 < 0.5641895835477562869471 ^ 2 := pow_lt_pow_left₀ h3 hc.le (by norm_num)
    have h5 : c ^ 2 * π < 0.5641895835477562869471 ^ 2 * 3.14159265358979323847 :=
      mul_lt_mul h4 h2.le pi_pos (by positivity)
    norm_num at h5
    linarith
  · by_contra hn
    push Not at hn
    have h3 : 0.564189583547756286949 < c := by push_cast at hn; linarith
    have h4 : (0.564189583547756286949 : ℝ) ^ 2 < c ^ 2 := pow_lt_pow_left₀ h3 (by norm_num) (by norm_num)
    have h5 : 0.564189583547756286949 ^ 2 * 3.14159265358979323846 < c ^ 2 * π :=
      mul_lt_mul h4 h1.le (by norm_num) (by positivity)
    norm_num at h5
    linarith

/-- The residual of the differential equation, times `10^30`. -/
def residual (k : ℕ) (Q : List ℤ) : List ℤ :=
  padd (padd (pmul (pmul [2 * k + 1, 1] (pmul [2 * k + 1, 1] [2 * k + 1, 1])) (pder Q))
    (pmul [6400 * (200 - (2 * k + 1)), -6400] Q)) [-1600 * cN * (2 * k + 1), -1600 * cN]

def cellOk (k : ℕ) (Q : List ℤ) : Bool :=
  decide (1 ≤ k) && decide (pabs (residual k Q) + 1600 * (2 * k + 2) * 10 ^ 9 ≤ 3200 * k * (2 * 10 ^ 9))

def jumpOk (Q R : List ℤ) : Bool := decide (|pevalZ R (-1) - pevalZ Q 1| * 10 ^ 26 ≤ pevalZ Q 1)

def chain : ℕ → List (List ℤ) → Bool
  | _, [] => true
  | k, Q :: l =>
    cellOk k Q && chain (k + 1) l && (match l with | [] => true | R :: _ => jumpOk Q R)

/-- The reference polynomial as a function. -/
noncomputable def ref (Q : List ℤ) (t : ℝ) : ℝ := peval Q t / 10 ^ 30

theorem hasDerivAt_ref (Q : List ℤ) (t : ℝ) : HasDerivAt (ref Q) (peval (pder Q) t / 10 ^ 30) t :=
  (hasDerivAt_peval Q t).div_const _

theorem residual_bound {k : ℕ} {Q : List ℤ} (h : cellOk k Q = true) {t : ℝ} (ht : t ∈ Icc (-1 : ℝ) 1) :
    1 ≤ k ∧ |(t + (2 * k + 1)) ^ 3 * (peval (pder Q) t / 10 ^ 30) + 6400 * (200 - (t + (2 * k + 1))) * ref Q t
      - 1600 * (t + (2 * k + 1)) * c| ≤ 3.6 / 10 ^ 21 * (1600 * (t + (2 * k + 1)) * c) := by
  simp only [cellOk, Bool.and_eq_true, decide_eq_true_eq] at h
  obtain ⟨hk, h⟩ := h
  refine ⟨hk, ?_⟩
  have hk' : (1 : ℝ) ≤ k := by exact_mod_cast hk
  have hR : ((pabs (residual k Q) : ℤ) : ℝ) + 1600 * (2 * k + 2) * 10 ^ 9 ≤ 3200 * k * (2 * 10 ^ 9) := by exact_mod_cast h
  have hb := pabs_bound (residual k Q) (abs_le.mpr ht)
  have hc := c_bounds
  have e : peval (residual k Q) t = (t + (2 * k + 1)) ^ 3 * peval (pder Q) t + 6400 * (200 - (t + (2 * k + 1))) * peval Q t
      - 1600 * (t + (2 * k + 1)) * cN := by
    simp only [residual, peval_padd, peval_pmul, peval_cons, peval_nil]
    push_cast
    ring
  obtain ⟨s, hs⟩ : ∃ s, s = t + (2 * (k : ℝ) + 1) := ⟨_, rfl⟩
  rw [← hs] at e ⊢
  have hs1 : 2 * (k : ℝ) ≤ s := by have := ht.1; linarith
  have hs2 : s ≤ 2 * (k : ℝ) + 2 := by have := ht.2; linarith
  have hs0 : 0 < s := by linarith
  have hclow : (0.5641 : ℝ) ≤ c := by
    have := (abs_le.mp hc).1
    unfold cN at this
    push_cast at this
    linarith
  have e2 : s ^ 3 * (peval (pder Q) t / 10 ^ 30) + 6400 * (200 - s) * ref Q t - 1600 * s * c
      = peval (residual k Q) t / 10 ^ 30 - 1600 * s * (c - cN / 10 ^ 30) := by
    rw [e, ref]; ring
  rw [e2]
  have h1 : |peval (residual k Q) t / 10 ^ 30 - 1600 * s * (c - cN / 10 ^ 30)| ≤
      pabs (residual k Q) / 10 ^ 30 + 1600 * s * (1 / 10 ^ 21) := by
    refine (abs_sub _ _).trans (add_le_add ?_ ?_)
    · rw [abs_div, abs_of_pos (show (0 : ℝ) < 10 ^ 30 by positivity)]
      gcongr
    · rw [abs_mul, abs_of_pos (show 0 < 1600 * s by positivity)]
      gcongr
  refine h1.trans ?_
  have h2 : (pabs (residual k Q) : ℝ) ≤ 3200 * k * (2 * 10 ^ 9) - 1600 * (2 * k + 2) * 10 ^ 9 := by linarith
  have h3 : s * 0.5641 ≤ s * c := mul_le_mul_of_nonneg_left hclow hs0.le
  have h4 : (pabs (residual k Q) : ℝ) / 10 ^ 30 ≤ (3200 * k * (2 * 10 ^ 9) - 1600 * (2 * k + 2) * 10 ^ 9) / 10 ^ 30 := by gcongr
  linarith

/-- The accuracy of one reference polynomial. -/
def Good (k : ℕ) (Q : List ℤ) (δ : ℝ) : Prop := ∀ t ∈ Icc (-1 : ℝ) 1, |ref Q t - G k t| ≤ δ * G k t

theorem G_pos (k : ℕ) (t : ℝ) : 0 < G k t := E_pos _

theorem cell_good {k : ℕ} {Q : List ℤ} (h : cellOk k Q = true) {δ : ℝ} (hδ : 3.6 / 10 ^ 21 ≤ δ)
    (h0 : |ref Q (-1) - G k (-1)| ≤ δ * G k (-1)) : Good k Q δ := by
  have hk := (residual_bound h (t := 0) (by constructor <;> norm_num)).1
  have hk' : (1 : ℝ) ≤ k := by exact_mod_cast hk
  have hc := c_pos
  rw [abs_le] at h0
  have key : ∀ t ∈ Icc (-1 : ℝ) 1, 3.6 / 10 ^ 21 * (1600 * (t + (2 * (k : ℝ) + 1)) * c) ≤ δ * (1600 * (t + (2 * k + 1)) * c) := by
    intro t ht
    have : 0 < t + (2 * (k : ℝ) + 1) := by have := ht.1; linarith
    exact mul_le_mul_of_nonneg_right hδ (by positivity)
  intro t ht
  have hu := cell_le hk (κ := 1 + δ) (hasDerivAt_ref Q) (fun t ht => by
    have h1 := (abs_le.mp (residual_bound h ht).2).2
    have := key t ht
    linarith) (by linarith) t ht
  have hl := cell_ge hk (κ := 1 - δ) (hasDerivAt_ref Q) (fun t ht => by
    have h1 := (abs_le.mp (residual_bound h ht).2).1
    have := key t ht
    linarith) (by linarith) t ht
  rw [abs_le]
  constructor <;> linarith

theorem G_step (k : ℕ) : G (k + 1) (-1) = G k 1 := by
  unfold G; congr 2; push_cast; ring

theorem jump_good {k : ℕ} {Q R : List ℤ} {δ : ℝ} (h : Good k Q δ) (hδ1 : δ ≤ 1) (hj : jumpOk Q R = true) :
    |ref R (-1) - G (k + 1) (-1)| ≤ (δ + 2 / 10 ^ 26) * G (k + 1) (-1) := by
  rw [G_step]
  have h1 := h 1 (by constructor <;> norm_num)
  have hG := G_pos k 1
  simp only [jumpOk, decide_eq_true_eq] at hj
  have hj' : |(pevalZ R (-1) : ℝ) - pevalZ Q 1| * 10 ^ 26 ≤ pevalZ Q 1 := by exact_mod_cast hj
  have eR : peval R (-1) = pevalZ R (-1) := by have := peval_intCast R (-1); push_cast at this; exact this
  have eQ : peval Q 1 = pevalZ Q 1 := by have := peval_intCast Q 1; push_cast at this; exact this
  have h2 : ref Q 1 ≤ 2 * G k 1 := by
    have := (abs_le.mp h1).2
    nlinarith
  have h3 : |ref R (-1) - ref Q 1| ≤ 2 / 10 ^ 26 * G k 1 := by
    have e : ref R (-1) - ref Q 1 = ((pevalZ R (-1) : ℝ) - pevalZ Q 1) / 10 ^ 30 := by
      rw [ref, ref, eR, eQ]; ring
    rw [e, abs_div, abs_of_pos (show (0 : ℝ) < 10 ^ 30 by positivity)]
    have h4 : |(pevalZ R (-1) : ℝ) - pevalZ Q 1| / 10 ^ 30 ≤ ref Q 1 / 10 ^ 26 := by
      rw [ref, eQ, div_div, div_le_div_iff₀ (by positivity) (by positivity)]
      nlinarith
    refine h4.trans ?_
    rw [div_mul_eq_mul_div]
    gcongr
  calc |ref R (-1) - G k 1| = |(ref R (-1) - ref Q 1) + (ref Q 1 - G k 1)| := by congr 1; ring
    _ ≤ _ := abs_add_le _ _
    _ ≤ _ := by linarith

theorem chain_good : ∀ (l : List (List ℤ)) (k : ℕ) (δ : ℝ), chain k l = true → 3.6 / 10 ^ 21 ≤ δ →
    δ + l.length * (2 / 10 ^ 26) ≤ 1 →
    (∀ Q, l.head? = some Q → |ref Q (-1) - G k (-1)| ≤ δ * G k (-1)) →
    ∀ i Q, l[i]? = some Q → Good (k + i) Q (δ + i * (2 / 10 ^ 26)) := by
  intro l
  induction l with
  | nil => intro k δ _ _ _ _ i Q h; simp at h
  | cons P l ih =>
    intro k δ hch hδ hδ1 hh i Q hQ
    simp only [chain, Bool.and_eq_true] at hch
    obtain ⟨⟨hcell, hch⟩, hj⟩ := hch
    have hP := cell_good hcell hδ (hh P rfl)
    rw [List.length_cons] at hδ1
    push_cast at hδ1
    have hl0 : (0 : ℝ) ≤ l.length := by positivity
    cases i with
    | zero =>
      simp only [List.getElem?_cons_zero, Option.some.injEq] at hQ
      subst hQ
      simpa using hP
    | succ i =>
      rw [List.getElem?_cons_succ] at hQ
      have h1 := ih (k + 1) (δ + 2 / 10 ^ 26) hch (by linarith) (by linarith) (by
        intro R hR
        cases l with
        | nil => simp at hR
        | cons R' l =>
          simp only [List.head?_cons, Option.some.injEq] at hR
          subst hR
          exact jump_good hP (by nlinarith) hj) i Q hQ
      have e1 : k + (i + 1) = k + 1 + i := by omega
      have e2 : δ + ((i + 1 : ℕ) : ℝ) * (2 / 10 ^ 26) = δ + 2 / 10 ^ 26 + i * (2 / 10 ^ 26) := by push_cast; ring
      rw [e1, e2]
      exact h1

theorem refs_chain : chain 2 refs = true := by decide +kernel

theorem refs_length : refs.length = 98 := by decide +kernel

theorem refs_start : ∀ Q, refs.head? = some Q → pevalZ Q (-1) = pevalZ (refs.headD []) (-1) := by
  intro Q hQ
  rw [List.headD_eq_head?_getD, hQ]; rfl

theorem start_value : |pevalZ (refs.headD []) (-1) * 1157169213564 - cN * 5903847720| ≤ 10 ^ 6 * 1157169213564 := by
  decide +kernel

theorem start_good : ∀ Q, refs.head? = some Q → |ref Q (-1) - G 2 (-1)| ≤ 3.6 / 10 ^ 21 * G 2 (-1) := by
  intro Q hQ
  have hq := refs_start Q hQ
  obtain ⟨q, hqq⟩ : ∃ q : ℤ, q = pevalZ (refs.headD []) (-1) := ⟨_, rfl⟩
  have hs := start_value
  rw [← hqq] at hs hq
  have eQ : ref Q (-1) = q / 10 ^ 30 := by
    have := peval_intCast Q (-1)
    push_cast at this
    rw [ref, this, hq]
  have eG : G 2 (-1) = E 196 := by unfold G; norm_num
  rw [eQ, eG]
  have hc := c_bounds
  have hc0 := c_pos
  have h1 := E_le_cf (x := 196) (by norm_num)
  have h2 := cf_le (x := 196) (by norm_num)
  have hE := E_pos 196
  have ecf : cf 196 = c * (5903847720 / 1157169213564) := by unfold cf; rw [mul_div_assoc]; norm_num
  rw [ecf] at h1 h2
  have hs' : |(q : ℝ) * 1157169213564 - cN * 5903847720| ≤ 10 ^ 6 * 1157169213564 := by exact_mod_cast hs
  rw [abs_le] at hs' hc
  have hclow : (0.5641 : ℝ) ≤ c := by
    have := hc.1
    unfold cN at this
    push_cast at this
    linarith
  obtain ⟨n, hn⟩ : ∃ n : ℝ, n = cN := ⟨_, rfl⟩
  rw [← hn] at hs' hc
  obtain ⟨q', hq'⟩ : ∃ q' : ℝ, q' = q := ⟨_, rfl⟩
  rw [← hq'] at hs' ⊢
  norm_num at h2
  rw [abs_le]
  constructor
  · linarith [hs'.1, hs'.2, hc.1, hc.2]
  · linarith [hs'.1, hs'.2, hc.1, hc.2]

theorem refs_good {k : ℕ} (h2 : 2 ≤ k) (h99 : k ≤ 99) : ∃ Q, refs[k - 2]? = some Q ∧ Good k Q (4 / 10 ^ 21) := by
  have hl := refs_length
  obtain ⟨Q, hQ⟩ : ∃ Q, refs[k - 2]? = some Q := ⟨refs[k - 2]'(by omega), List.getElem?_eq_getElem (by omega)⟩
  refine ⟨Q, hQ, ?_⟩
  have h := chain_good refs 2 (3.6 / 10 ^ 21) refs_chain le_rfl (by rw [hl]; norm_num) start_good (k - 2) Q hQ
  rw [show 2 + (k - 2) = k by omega] at h
  intro t ht
  refine (h t ht).trans (mul_le_mul_of_nonneg_right ?_ (G_pos k t).le)
  have : ((k - 2 : ℕ) : ℝ) ≤ 97 := by exact_mod_cast (by omega : k - 2 ≤ 97)
  linarith

end Ufunclab.Erfcx
