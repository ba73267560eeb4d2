import Verif.Proof.Softmax
import Verif.Proof.MadRound
/-! # softmax with rounding: the sum of the exponentials, the quotients -/
namespace Ufunclab.Softmax
open Ufunclab.Float
variable {p : ℕ} {emin : ℤ} {rd exp : ℝ → ℝ}

/-- What the code computes for an input `v` when the maximum is `M`. -/
noncomputable def term (rd exp : ℝ → ℝ) (M : ℝ) : XF ℝ → ℝ
  | .fin a => exp (rd (a - M))
  | _ => 0

/-- The left-to-right rounded sum. -/
noncomputable def fsum (rd : ℝ → ℝ) (l : List ℝ) : ℝ := l.foldl (fun a b => rd (a + b)) 0

theorem rnd_fin (a : ℝ) : rnd rd (.fin a) = .fin (rd a) := rfl

theorem xexp_rnd (v : XF ℝ) (M : ℝ) (hn : XF.isnan v = false) (hp : v ≠ .pinf) :
    xexp exp (rnd rd (XF.sub v (.fin M))) = .fin (term rd exp M v) := by
  cases v with
  | nan => simp [XF.isnan] at hn
  | pinf => simp at hp
  | ninf => simp [XF.sub, XF.add, XF.neg, xexp, term, rnd]
  | fin a => simp [xexp, term, rnd]

theorem foldl_term (M : ℝ) (x : List (XF ℝ)) (acc : ℝ) (h : ∀ v ∈ x, XF.isnan v = false ∧ v ≠ .pinf) :
    x.foldl (fun acc v => rnd rd (XF.add acc (xexp exp (rnd rd (XF.sub v (.fin M)))))) (.fin acc) =
      .fin ((x.map (term rd exp M)).foldl (fun a b => rd (a + b)) acc) := by
  induction x generalizing acc with
  | nil => rfl
  | cons v x ih =>
    obtain ⟨h1, h2⟩ := h v (by simp)
    simp only [List.foldl_cons, List.map_cons, xexp_rnd v M h1 h2, XF.add_fin, rnd_fin]
    exact ih _ (fun w hw => h w (by simp [hw]))

/-- Only the third branch is taken. -/
theorem softmaxR_formula (x : List (XF ℝ)) (h : ∀ v ∈ x, XF.isnan v = false ∧ v ≠ .pinf)
    (hf : ∃ v ∈ x, XF.isfinite v = true) :
    ∃ M : ℝ, .fin M ∈ x ∧ (∀ a, .fin a ∈ x → a ≤ M) ∧
    softmaxR (rnd rd) exp x = x.map (fun v => rnd rd (XF.div (.fin (term rd exp M v)) (.fin (fsum rd (x.map (term rd exp M)))))) := by
  obtain ⟨M, h1, h2, h3, -⟩ := softmax_formula x h hf
  refine ⟨M, h1, h2, ?_⟩
  have hnan : ∀ v ∈ x, XF.isnan v = false := fun v hv => (h v hv).1
  have hc : x.countP isPosInf = 0 := by
    rw [List.countP_eq_zero]; intro v hv hp
    exact (h v hv).2 ((isPosInf_iff v).1 hp)
  have hnn : x.any XF.isnan = false := by
    rw [List.any_eq_false]; intro v hv; simp [hnan v hv]
  simp only [softmaxR, scan_hasNan, scan_nposinf 0 0 0 _ x hnan, h3, hnn, hc]
  have : XF.eq (XF.fin M) XF.ninf = false := rfl
  simp only [this]
  simp only [Bool.or_false, Nat.zero_add, Nat.not_lt_zero, gt_iff_lt, Bool.false_or, decide_eq_true_eq]
  rw [if_neg (by simp), if_neg (by simp), foldl_term M x 0 h]
  apply List.map_congr_left
  intro v hv
  rw [xexp_rnd v M (h v hv).1 (h v hv).2]
  rfl

/-- A rounded sum of non-negative floats is at least each of them, and at least where it started. -/
theorem le_fold (h : Nearest p emin rd) (l : List ℝ) (acc : ℝ) (ha : IsFloat p emin acc) (ha0 : 0 ≤ acc)
    (hl : ∀ v ∈ l, IsFloat p emin v ∧ 0 ≤ v) :
    acc ≤ l.foldl (fun a b => rd (a + b)) acc ∧ (∀ v ∈ l, v ≤ l.foldl (fun a b => rd (a + b)) acc) ∧
    IsFloat p emin (l.foldl (fun a b => rd (a + b)) acc) := by
  induction l generalizing acc with
  | nil => simpa using ha
  | cons b l ih =>
    obtain ⟨fb, b0⟩ := hl b (by simp)
    have l1 : acc ≤ rd (acc + b) := h.mono_float ha (by linarith)
    have l2 : b ≤ rd (acc + b) := h.mono_float fb (by linarith)
    obtain ⟨i1, i2, i3⟩ := ih (rd (acc + b)) (h _).1 (ha0.trans l1) (fun v hv => hl v (by simp [hv]))
    simp only [List.foldl_cons]
    refine ⟨l1.trans i1, ?_, i3⟩
    intro v hv
    rcases List.mem_cons.1 hv with rfl | hv
    · exact l2.trans i1
    · exact i2 v hv

/-- Error of the rounded sum. -/
theorem fold_error (h : Nearest p emin rd) (hp : 1 ≤ p) (l : List ℝ) (k : ℕ) (acc s : ℝ) (ha : IsFloat p emin acc) (hs0 : 0 ≤ s)
    (he : |acc - s| ≤ ((1 + (2 ^ p)⁻¹) ^ k - 1) * s) (hl : ∀ v ∈ l, IsFloat p emin v ∧ 0 ≤ v) :
    |l.foldl (fun a b => rd (a + b)) acc - (s + l.sum)| ≤ ((1 + (2 ^ p)⁻¹) ^ (k + l.length) - 1) * (s + l.sum) := by
  induction l generalizing acc s k with
  | nil => simpa using he
  | cons b l ih =>
    obtain ⟨fb, b0⟩ := hl b (by simp)
    have hu0 : (0 : ℝ) ≤ (2 ^ p)⁻¹ := by positivity
    have e := Mad.add_step (b := b) (b' := b) (B := b) hu0 he
      (by rw [sub_self, abs_zero]; exact mul_nonneg (by linarith [one_le_pow₀ (M₀ := ℝ) (n := k) (by linarith : 1 ≤ 1 + ((2:ℝ) ^ p)⁻¹)]) b0)
      (by rw [abs_of_nonneg hs0]) (by rw [abs_of_nonneg b0]) (h.rel_error hp (ha.grid.add fb.grid))
    rw [← pow_succ] at e
    have := ih (k + 1) (rd (acc + b)) (s + b) (h _).1 (by linarith) e (fun v hv => hl v (by simp [hv]))
    simp only [List.foldl_cons, List.sum_cons, List.length_cons]
    rw [show s + (b + l.sum) = s + b + l.sum by ring, show k + (l.length + 1) = k + 1 + l.length by ring]
    exact this

theorem fsum_error (h : Nearest p emin rd) (hp : 1 ≤ p) (l : List ℝ) (hl : ∀ v ∈ l, IsFloat p emin v ∧ 0 ≤ v)
    (hn : (l.length : ℝ) * (2 ^ p)⁻¹ ≤ 1 / 100) : |fsum rd l - l.sum| ≤ 1.02 * l.length * (2 ^ p)⁻¹ * l.sum := by
  have := fold_error h hp l 0 0 0 isFloat_zero le_rfl (by simp) hl
  simp only [zero_add] at this
  have hs : 0 ≤ l.sum := List.sum_nonneg (fun v hv => (hl v hv).2)
  have hu0 : (0 : ℝ) ≤ (2 ^ p)⁻¹ := by positivity
  have hb := Mad.pow_bound hu0 _ hn
  exact this.trans (mul_le_mul_of_nonneg_right (by linarith) hs)

end Ufunclab.Softmax
