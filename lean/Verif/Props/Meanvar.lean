import Verif.Model.Meanvar
import Verif.Proof.XF
import Verif.Proof.MeanvarRound
import Verif.Proof.Float2
import Mathlib.Algebra.Order.BigOperators.Group.List
import Mathlib.Algebra.Order.Field.Rat
import Mathlib.Algebra.Field.Rat
import Mathlib.Tactic.FieldSimp
import Mathlib.Tactic.Ring
import Mathlib.Tactic.Linarith
import Mathlib.Tactic.NormNum
/-! # Property C36: meanvar -/
namespace Ufunclab.Meanvar
variable {K : Type _} [Field K] [LinearOrder K] [IsStrictOrderedRing K]

/-- Spec: the arithmetic mean. -/
def Spec.mean (x : List K) : K := x.sum / (x.length : K)
/-- Spec: sum of the squared deviations from `c`. -/
def Spec.sumSq (c : K) (x : List K) : K := (x.map (fun v => (v - c) ^ 2)).sum

theorem sumSq_expand (c : K) (x : List K) :
    Spec.sumSq c x = (x.map (fun v => v ^ 2)).sum - 2 * c * x.sum + (x.length : K) * c ^ 2 := by
  induction x with
  | nil => simp [Spec.sumSq]
  | cons a l ih =>
    simp only [Spec.sumSq, List.map_cons, List.sum_cons, List.length_cons] at ih ⊢
    rw [ih]; push_cast; ring

omit [IsStrictOrderedRing K] [LinearOrder K] in
theorem rnd_id (v : XF K) : rnd id v = v := by cases v <;> rfl

theorem loop_inv (xs pre : List K) (mean m2 : K)
    (h1 : mean * (pre.length : K) = pre.sum)
    (h2 : m2 = (pre.map (fun v => v ^ 2)).sum - (pre.length : K) * mean ^ 2) :
    (loop id pre.length mean m2 0 0 xs).1 * ((pre ++ xs).length : K) = (pre ++ xs).sum ∧
    (loop id pre.length mean m2 0 0 xs).2 = ((pre ++ xs).map (fun v => v ^ 2)).sum -
      ((pre ++ xs).length : K) * (loop id pre.length mean m2 0 0 xs).1 ^ 2 := by
  induction xs generalizing pre mean m2 with
  | nil => simpa [loop] using ⟨h1, h2⟩
  | cons x xs ih =>
    have hk : ((pre.length : K) + 1) ≠ 0 := by positivity
    have := ih (pre ++ [x]) (mean + (x - mean) / ((pre.length : K) + 1))
      (m2 + (x - mean) * (x - (mean + (x - mean) / ((pre.length : K) + 1)))) (by
        simp only [List.length_append, List.length_cons, List.length_nil, List.sum_append,
          List.sum_cons, List.sum_nil]
        push_cast
        rw [← h1]; field_simp; ring) (by
        simp only [List.length_append, List.length_cons, List.length_nil, List.map_append,
          List.sum_append, List.map_cons, List.map_nil, List.sum_cons, List.sum_nil]
        push_cast
        rw [h2]; field_simp; ring)
    simp only [List.append_assoc, List.singleton_append, List.length_append, List.length_cons,
      List.length_nil, Nat.zero_add] at this
    simp only [loop, compensatedUpdate, sub_zero, id]
    simp only [add_sub_cancel_left, sub_self]
    simpa using this

/-- C36: meanvar returns the mean and the sum of squared deviations over `n - ddof`. -/
theorem C36_meanvar (x : List K) (ddof : Int) (hne : x ≠ []) :
    meanvar id x ddof = (.fin (Spec.mean x),
      XF.div (.fin (Spec.sumSq (Spec.mean x) x)) (.fin ((x.length : K) - (ddof : K)))) := by
  have hn : (x.length : K) ≠ 0 := by
    have : x.length ≠ 0 := by simpa using hne
    exact_mod_cast this
  obtain ⟨h1, h2⟩ := loop_inv x [] 0 0 (by simp) (by simp)
  simp only [List.nil_append, List.length_nil] at h1 h2
  have hm : (loop id 0 0 0 0 0 x).1 = Spec.mean x := by
    rw [Spec.mean, eq_div_iff hn]; exact h1
  have hs : (loop id 0 0 0 0 0 x).2 = Spec.sumSq (Spec.mean x) x := by
    rw [h2, sumSq_expand, hm, Spec.mean]; field_simp; ring
  simp only [meanvar, hm, hs, rnd_id, id]
  push_cast; rfl

/-- C36: for `ddof < n` the variance is the finite number
`sum (x - mean)^2 / (n - ddof)`, is non-negative, and is zero iff all elements are
equal. -/
theorem C36_variance (x : List K) (ddof : Int) (hne : x ≠ []) (hd : ddof < x.length) :
    ∃ v : K, (meanvar id x ddof).2 = .fin v ∧
      v * ((x.length : K) - (ddof : K)) = Spec.sumSq (Spec.mean x) x ∧ 0 ≤ v ∧
      (v = 0 ↔ ∀ a ∈ x, ∀ b ∈ x, a = b) := by
  have hpos : (0 : K) < (x.length : K) - (ddof : K) := by
    have : (ddof : K) < ((x.length : Int) : K) := by exact_mod_cast hd
    push_cast at this; linarith
  have hsn : ∀ y ∈ x.map (fun v => (v - Spec.mean x) ^ 2), (0 : K) ≤ y := by
    intro y hy; obtain ⟨w, _, rfl⟩ := List.mem_map.1 hy; positivity
  have hnn : 0 ≤ Spec.sumSq (Spec.mean x) x := List.sum_nonneg hsn
  refine ⟨Spec.sumSq (Spec.mean x) x / ((x.length : K) - (ddof : K)), ?_, ?_, ?_, ?_⟩
  · rw [C36_meanvar x ddof hne]; exact XF.div_fin _ _ hpos.ne'
  · field_simp
  · exact div_nonneg hnn hpos.le
  · rw [div_eq_zero_iff, or_iff_left hpos.ne']
    constructor
    · intro h
      have hall : ∀ a ∈ x, a = Spec.mean x := by
        intro a ha
        have h1 : (a - Spec.mean x) ^ 2 ≤ Spec.sumSq (Spec.mean x) x :=
          List.single_le_sum hsn _ (List.mem_map_of_mem (f := fun v => (v - Spec.mean x) ^ 2) ha)
        rw [h] at h1
        have h2 : (a - Spec.mean x) ^ 2 = 0 := le_antisymm h1 (sq_nonneg _)
        have := pow_eq_zero_iff (two_ne_zero) |>.1 h2
        linarith
      intro a ha b hb; rw [hall a ha, hall b hb]
    · intro h
      obtain ⟨a, l, rfl⟩ := List.exists_cons_of_ne_nil hne
      have hrep : a :: l = List.replicate (l.length + 1) a := by
        rw [List.eq_replicate_iff]; exact ⟨by simp, fun b hb => h b hb a (by simp)⟩
      have hmean : Spec.mean (a :: l) = a := by
        rw [Spec.mean]; rw [hrep]; simp
        field_simp
      rw [Spec.sumSq, hmean, hrep]; simp

/-- C36: with `ddof = n` the division is by zero: NaN when all elements are equal,
`+inf` otherwise. -/
theorem C36_ddof_eq_n (x : List K) (hne : x ≠ []) :
    (meanvar id x x.length).2 = if ∀ a ∈ x, ∀ b ∈ x, a = b then .nan else .pinf := by
  obtain ⟨v, h1, h2, h3, h4⟩ := C36_variance x 0 hne (by
    have : 0 < x.length := List.length_pos_iff.2 hne
    exact_mod_cast this)
  rw [C36_meanvar x _ hne]
  have hn : (0 : K) < (x.length : K) := by
    have : 0 < x.length := List.length_pos_iff.2 hne
    exact_mod_cast this
  simp only [Int.cast_zero, sub_zero] at h2
  by_cases hall : ∀ a ∈ x, ∀ b ∈ x, a = b
  · rw [if_pos hall]
    have : v = 0 := h4.2 hall
    simp [XF.div, ← h2, this]
  · rw [if_neg hall]
    have hv : 0 < v := lt_of_le_of_ne h3 (fun h => hall (h4.1 h.symm))
    have hp : 0 < v * (x.length : K) := mul_pos hv hn
    simp [XF.div, ← h2, hv, hv.ne', hn.ne', hn]

/-- C36 (rounding): `n` numbers of size at most `M`, at most `2^p / 100` of them, every operation
rounded to nearest with `p` bits.  The mean is off by at most `25.5 M` units of roundoff and the
variance by `140 M^2 n/(n - ddof)` of them: neither bound grows with the number of elements. -/
theorem C36_rounding_error [Archimedean K] {p : ℕ} {emin : ℤ} {rd : K → K} (h : Float.Nearest p emin rd) (hp : 10 ≤ p)
    (x : List K) (hne : x ≠ []) (ddof : Int) (hd : ddof < x.length) (M : K) (hM : ∀ v ∈ x, |v| ≤ M)
    (hn : 100 * (x.length : K) ≤ 2 ^ p) (h1 : 2 ^ emin ≤ ((2 ^ p)⁻¹ : K) ^ 2) (h2 : 2 ^ emin ≤ ((2 ^ p)⁻¹ : K) ^ 2 * M)
    (h3 : 2 ^ emin ≤ ((2 ^ p)⁻¹ : K) ^ 2 * M ^ 2) :
    ∃ m v : K, meanvar rd x ddof = (.fin m, .fin v) ∧ |m - Spec.mean x| ≤ 25.5 * M * (2 ^ p)⁻¹ ∧
      |v - Spec.sumSq (Spec.mean x) x / ((x.length : K) - (ddof : K))| ≤
        140 * M ^ 2 * (2 ^ p)⁻¹ * ((x.length : K) / ((x.length : K) - (ddof : K))) + 2 ^ emin / 2 := by
  have hu0 : (0 : K) ≤ (2 ^ p)⁻¹ := by positivity
  have hu : ((2 ^ p)⁻¹ : K) ≤ 1 / 1000 := by
    rw [inv_le_comm₀ (by positivity) (by norm_num)]
    calc ((1 / 1000 : K))⁻¹ ≤ 2 ^ 10 := by norm_num
      _ ≤ _ := pow_le_pow_right₀ (by norm_num) hp
  have hE : (0 : K) < 2 ^ emin := by positivity
  have hnn : (x.length : K) * (2 ^ p)⁻¹ ≤ 1 / 100 := by
    rw [← div_eq_mul_inv, div_le_iff₀ (by positivity)]; linarith
  have herr := fun z => h.error (by omega) z
  set u : K := (2 ^ p)⁻¹ with hud
  have hM0 : 0 ≤ M := by
    obtain ⟨a, l, rfl⟩ := List.exists_cons_of_ne_nil hne
    exact (abs_nonneg a).trans (hM a (by simp))
  rw [pow_two] at h1 h2 h3
  obtain ⟨a1, a2, a3, a4⟩ := loop_error herr hu0 hu (by linarith) (by linarith) (by linarith) (by rw [pow_two] at h3; linarith) hM0 x
    0 0 0 0 0 0 0 hM (by simpa using hnn) (by simpa using hM0) (by simp; positivity) (by simp; positivity) le_rfl
    (by simp) (by simp) (by simp)
  have hpos : (1 : K) ≤ (x.length : K) - (ddof : K) := by
    have : (ddof : K) + 1 ≤ ((x.length : Int) : K) := by exact_mod_cast hd
    push_cast at this; linarith
  have hC := C36_meanvar x ddof hne
  simp only [meanvar, rnd_id, id] at hC
  have hm : (loop id 0 0 0 0 0 x).1 = Spec.mean x := by simpa using congrArg Prod.fst hC
  have hs : (loop id 0 0 0 0 0 x).2 = Spec.sumSq (Spec.mean x) x := by
    have := congrArg Prod.snd hC
    have hN : ((((x.length : Int) - ddof : Int)) : K) = (x.length : K) - (ddof : K) := by push_cast; rfl
    simp only [hN] at this
    rw [XF.div_fin _ _ (by linarith), XF.div_fin _ _ (by linarith)] at this
    simp only [XF.fin.injEq] at this
    exact (div_left_inj' (by linarith : (x.length : K) - (ddof : K) ≠ 0)).1 this
  rw [hm] at a1
  rw [hs] at a2 a3 a4
  simp only [Nat.zero_add] at a2 a4
  have hv := var_error (M := M) herr hu0 hu (by linarith) (Nat.cast_nonneg x.length) hpos a2 a3 a4
  have hrdN : rd ((x.length : K) - (ddof : K)) ≠ 0 := by
    intro hc
    have := herr ((x.length : K) - (ddof : K))
    rw [hc, zero_sub, abs_neg, abs_of_pos (by linarith)] at this
    have h5 : u * ((x.length : K) - (ddof : K)) ≤ 1 / 1000 * ((x.length : K) - (ddof : K)) :=
      mul_le_mul_of_nonneg_right hu (by linarith)
    have h6 : u * u ≤ 1 / 1000 * (1 / 1000) := mul_le_mul hu hu hu0 (by norm_num)
    linarith
  refine ⟨(loop rd 0 0 0 0 0 x).1, rd ((loop rd 0 0 0 0 0 x).2 / rd ((x.length : K) - (ddof : K))), ?_, ?_, ?_⟩
  · have hN : ((((x.length : Int) - ddof : Int)) : K) = (x.length : K) - (ddof : K) := by push_cast; rfl
    simp only [meanvar, hN]
    rw [XF.div_fin _ _ hrdN]
    rfl
  · calc _ ≤ _ := a1
      _ = _ := by ring
  · calc _ ≤ _ := hv
      _ = _ := by ring

/-- C36 (rounding): when all the elements are one floating-point number `c`, the computed mean is
`c` exactly and the computed variance is exactly zero. -/
theorem C36_constant {p : ℕ} {emin : ℤ} {rd : K → K} (h : Float.Nearest p emin rd) (hp : 1 ≤ p) (hemin : emin ≤ 0)
    (n : ℕ) (c : K) (hc : Float.IsFloat p emin c) (ddof : Int) (hd : ddof < n + 1) :
    meanvar rd (List.replicate (n + 1) c) ddof = (.fin c, .fin 0) := by
  have r0 : rd 0 = 0 := h.round_zero
  have rc : rd c = c := h.exact hc
  have h1 : Float.IsFloat p emin (1 : K) :=
    ⟨1, 0, by simpa using one_lt_pow₀ (by norm_num : (1 : ℤ) < 2) (by omega), hemin, by simp⟩
  have r1 : rd 1 = 1 := h.exact h1
  have key : ∀ (m k : ℕ), loop rd k c 0 0 0 (List.replicate m c) = (c, 0) := by
    intro m
    induction m with
    | zero => intro k; rfl
    | succ m ih => intro k; simp [List.replicate_succ, loop, compensatedUpdate, r0, rc, ih]
  have hl : loop rd 0 0 0 0 0 (List.replicate (n + 1) c) = (c, 0) := by
    simp [List.replicate_succ, loop, compensatedUpdate, r0, rc, r1, key]
  have hN : (1 : K) ≤ ((((List.replicate (n + 1) c).length : Int) - ddof : Int) : K) := by
    have : (1 : Int) ≤ ((List.replicate (n + 1) c).length : Int) - ddof := by
      rw [List.length_replicate]; push_cast; omega
    exact_mod_cast this
  have hr : rd ((((List.replicate (n + 1) c).length : Int) - ddof : Int) : K) ≠ 0 := by
    have := h.mono_float h1 hN
    intro h0; rw [h0] at this; linarith
  simp only [meanvar, hl]
  rw [XF.div_fin _ _ hr]
  simp [rnd, r0]

/-! ### Non-vacuity: doubles, a million numbers between -3 and 3 -/
example {rd : ℚ → ℚ} (h : Float.Nearest 53 (-1074) rd) (x : List ℚ) (hx : x.length = 1000000) (hM : ∀ v ∈ x, |v| ≤ 3) :
    ∃ m v : ℚ, meanvar rd x 1 = (.fin m, .fin v) ∧ |m - Spec.mean x| ≤ 25.5 * 3 * (2 ^ 53)⁻¹ := by
  have he : (2 : ℚ) ^ (-1074 : ℤ) ≤ ((2 ^ 53)⁻¹ : ℚ) ^ 2 := by
    calc (2 : ℚ) ^ (-1074 : ℤ) ≤ 2 ^ (-106 : ℤ) := zpow_le_zpow_right₀ (by norm_num) (by norm_num)
      _ ≤ _ := by norm_num
  have h0 : (0 : ℚ) ≤ ((2 ^ 53)⁻¹ : ℚ) ^ 2 := by positivity
  obtain ⟨m, v, e, h1, _⟩ := C36_rounding_error h (by norm_num) x (by rintro rfl; simp at hx) 1 (by rw [hx]; norm_num) 3 hM
    (by rw [hx]; norm_num) he (by linarith) (by linarith)
  exact ⟨m, v, e, h1⟩
example : ∃ rd : ℚ → ℚ, Float.Nearest 53 (-1074) rd := Float.exists_nearest (by norm_num) _

/-! ### Non-vacuity: x = [1, 2, 6], ddof = 1 -/
example : meanvar id [(1 : ℚ), 2, 6] 1 = (.fin 3, .fin 7) := by
  rw [C36_meanvar _ _ (by simp)]
  norm_num [Spec.mean, Spec.sumSq, XF.div]

end Ufunclab.Meanvar
