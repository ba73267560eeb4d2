import Verif.Model.Vnorm
import Verif.Proof.XF
import Verif.Proof.Mem
import Mathlib.Analysis.MeanInequalities
import Mathlib.Algebra.Order.BigOperators.Group.List
import Mathlib.Algebra.BigOperators.Ring.List
namespace Ufunclab.Vnorm

section vn
variable {T : Type _} (a : T → ℝ)

theorem foldl_max (x : List T) (m : ℝ) :
    ∃ M, x.foldl (fun m v => if XF.lt m (XF.fin (a v)) then XF.fin (a v) else m) (XF.fin m) = .fin M ∧
      m ≤ M ∧ (∀ v ∈ x, a v ≤ M) ∧ (M = m ∨ ∃ v ∈ x, a v = M) := by
  induction x generalizing m with
  | nil => exact ⟨m, rfl, le_refl _, by simp, .inl rfl⟩
  | cons v x ih =>
    simp only [List.foldl_cons, XF.lt_fin, decide_eq_true_eq]
    by_cases h : m < a v
    · rw [if_pos h]
      obtain ⟨M, h1, h2, h3, h4⟩ := ih (a v)
      refine ⟨M, h1, h.le.trans h2, ?_, ?_⟩
      · intro w hw
        rcases List.mem_cons.1 hw with rfl | hw
        · exact h2
        · exact h3 w hw
      · right
        rcases h4 with h4 | ⟨w, hw, h4⟩
        · exact ⟨v, by simp, h4.symm⟩
        · exact ⟨w, by simp [hw], h4⟩
    · rw [if_neg h]
      obtain ⟨M, h1, h2, h3, h4⟩ := ih m
      refine ⟨M, h1, h2, ?_, ?_⟩
      · intro w hw
        rcases List.mem_cons.1 hw with rfl | hw
        · exact (not_lt.1 h).trans h2
        · exact h3 w hw
      · rcases h4 with h4 | ⟨w, hw, h4⟩
        · exact .inl h4
        · exact .inr ⟨w, by simp [hw], h4⟩

theorem foldl_add (x : List T) (f : T → ℝ) (s : ℝ) :
    x.foldl (fun s v => XF.add s (XF.fin (f v))) (XF.fin s) = .fin (s + (x.map f).sum) := by
  induction x generalizing s with
  | nil => simp
  | cons v x ih =>
    simp only [List.foldl_cons, XF.add_fin, ih, List.map_cons, List.sum_cons, add_assoc]

theorem sum_rpow_zero (x : List T) (p : ℝ) (hp : 0 < p) (h : ∀ v ∈ x, a v = 0) :
    (x.map (fun v => a v ^ p)).sum = 0 := by
  apply List.sum_eq_zero
  intro y hy
  obtain ⟨v, hv, rfl⟩ := List.mem_map.1 hy
  rw [h v hv, Real.zero_rpow hp.ne']

theorem vnorm_fin (x : List T) (p : ℝ) (hp : 0 < p) (hnn : ∀ v ∈ x, 0 ≤ a v) :
    vnorm (fun v => .fin (a v)) x (.fin p) = .fin ((x.map (fun v => a v ^ p)).sum ^ (1 / p)) := by
  obtain ⟨M, h1, h2, h3, h4⟩ := foldl_max a x 0
  have hM : maxAbs (fun v => .fin (a v)) x = .fin M := h1
  have hp0 : XF.le (XF.fin p) (.fin 0) = false := by simp [hp]
  simp only [vnorm, hp0, hM, Bool.false_eq_true, if_false, XF.eq_fin, decide_eq_true_eq, XF.isinf_fin,
    Bool.false_or]
  by_cases hM0 : M = 0
  · rw [if_pos hM0, sum_rpow_zero a x p hp, Real.zero_rpow (by positivity)]
    intro v hv
    exact le_antisymm (hM0 ▸ h3 v hv) (hnn v hv)
  · rw [if_neg hM0]
    have hMp : 0 < M := lt_of_le_of_ne h2 (Ne.symm hM0)
    by_cases hp1 : p = 1
    · subst hp1
      simp only [if_true]
      rw [foldl_add x a 0]
      simp
    · simp only [hp1, if_false, XF.div_fin _ _ hM0, XF.div_fin _ _ hp.ne', xpow]
      rw [foldl_add x (fun v => (a v / M) ^ p) 0]
      simp only [XF.mul_fin, zero_add]
      have hs : (x.map (fun v => (a v / M) ^ p)).sum = (x.map (fun v => a v ^ p)).sum / M ^ p := by
        rw [div_eq_mul_inv, mul_comm, ← List.sum_map_mul_left]
        congr 1
        apply List.map_congr_left
        intro v hv
        rw [Real.div_rpow (hnn v hv) hMp.le]; ring
      have hsn : 0 ≤ (x.map (fun v => a v ^ p)).sum := List.sum_nonneg (by
        intro y hy; obtain ⟨v, hv, rfl⟩ := List.mem_map.1 hy; exact Real.rpow_nonneg (hnn v hv) p)
      congr 1
      rw [hs, Real.div_rpow hsn (by positivity), ← Real.rpow_mul hMp.le, mul_one_div_cancel hp.ne',
        Real.rpow_one]
      field_simp

theorem foldl_congr' {β γ : Type _} (f g : β → γ → β) (h : ∀ b c, f b c = g b c) (b : β) (l : List γ) :
    l.foldl f b = l.foldl g b := by
  have : f = g := by funext b c; exact h b c
  rw [this]

theorem vnorm_inf (x : List T) (hnn : ∀ v ∈ x, 0 ≤ a v) :
    ∃ M, vnorm (fun v => .fin (a v)) x .pinf = .fin M ∧ 0 ≤ M ∧ (∀ v ∈ x, a v ≤ M) ∧
      (M = 0 ∨ ∃ v ∈ x, a v = M) := by
  obtain ⟨M, h1, h2, h3, h4⟩ := foldl_max a x 0
  have hM : maxAbs (fun v => .fin (a v)) x = .fin M := h1
  refine ⟨M, ?_, h2, h3, h4⟩
  have hp0 : XF.le (XF.pinf : XF ℝ) (.fin 0) = false := rfl
  have hi : XF.isinf (XF.pinf : XF ℝ) = true := rfl
  simp only [vnorm, hp0, hM, Bool.false_eq_true, if_false, XF.eq_fin, decide_eq_true_eq, hi, if_true,
    Bool.true_or, h1]
  split_ifs with h
  · rw [h]
  · rfl
end vn

section mem
variable {α : Type _}

theorem sumSqLoop_congr [Add α] [Mul α] (m m' : Mem α) (p s : Int) (fuel k : Nat) (acc : α)
    (h : ∀ i < fuel, m (p + ((k + i : Nat) : Int) * s) = m' (p + ((k + i : Nat) : Int) * s)) :
    sumSqLoop m p s fuel k acc = sumSqLoop m' p s fuel k acc := by
  induction fuel generalizing k acc with
  | zero => rfl
  | succ f ih =>
    have h0 := h 0 (by omega)
    simp only [Nat.add_zero] at h0
    simp only [sumSqLoop, get, h0]
    apply ih
    intro i hi
    have := h (i + 1) (by omega)
    rwa [show k + 1 + i = k + (i + 1) by omega]

theorem sumSqLoop_sum [Semiring α] (m : Mem α) (p s : Int) (fuel k : Nat) (acc : α) :
    sumSqLoop m p s fuel k acc = acc + ∑ i ∈ Finset.range fuel, get m p s (k + i) * get m p s (k + i) := by
  induction fuel generalizing k acc with
  | zero => simp [sumSqLoop]
  | succ f ih =>
    simp only [sumSqLoop, ih, Finset.sum_range_succ', Nat.add_zero]
    rw [add_assoc, add_comm (get m p s k * get m p s k)]
    congr 2
    apply Finset.sum_congr rfl
    intro i _
    rw [show k + 1 + i = k + (i + 1) by omega]

theorem ccontig_eq [Add α] [Mul α] (m : Mem α) (p u : Int) (fuel k : Nat) (acc : α) :
    ccontigLoop m p u fuel k acc = csumSqLoop m p (2 * u) u fuel k acc := by
  induction fuel generalizing k acc with
  | zero => rfl
  | succ f ih =>
    have h1 : get m p u (2 * k) = m (p + (k : Int) * (2 * u)) := by
      unfold get; congr 1; push_cast; ring
    have h2 : get m p u (2 * k + 1) = m (p + (k : Int) * (2 * u) + u) := by
      unfold get; congr 1; push_cast; ring
    simp only [ccontigLoop, csumSqLoop, ih, h1, h2]

theorem csumSqLoop_sum [Semiring α] (m : Mem α) (p s u : Int) (fuel k : Nat) (acc : α) :
    csumSqLoop m p s u fuel k acc = acc + ∑ i ∈ Finset.range fuel,
      (m (p + ((k + i : Nat) : Int) * s) * m (p + ((k + i : Nat) : Int) * s) +
       m (p + ((k + i : Nat) : Int) * s + u) * m (p + ((k + i : Nat) : Int) * s + u)) := by
  induction fuel generalizing k acc with
  | zero => simp [csumSqLoop]
  | succ f ih =>
    simp only [csumSqLoop, ih, Finset.sum_range_succ', Nat.add_zero]
    rw [add_assoc]
    congr 1
    rw [add_comm]
    congr 1
    apply Finset.sum_congr rfl
    intro i _
    rw [show k + 1 + i = k + (i + 1) by omega]

theorem sumSqLoop_foldl [Add α] [Mul α] (m : Mem α) (p s : Int) (fuel k : Nat) (acc : α) :
    sumSqLoop m p s fuel k acc =
      ((List.range' k fuel).map (fun i => get m p s i * get m p s i)).foldl (· + ·) acc := by
  induction fuel generalizing k acc with
  | zero => rfl
  | succ f ih => simp only [sumSqLoop, ih, List.range'_succ, List.map_cons, List.foldl_cons]

theorem dotLoop_foldl [Add α] [Mul α] (m : Mem α) (px sx py sy : Int) (fuel k : Nat) (acc : α) :
    dotLoop m px sx py sy fuel k acc =
      ((List.range' k fuel).map (fun i => get m px sx i * get m py sy i)).foldl (· + ·) acc := by
  induction fuel generalizing k acc with
  | zero => rfl
  | succ f ih => simp only [dotLoop, ih, List.range'_succ, List.map_cons, List.foldl_cons]

theorem dotLoop_sum [Semiring α] (m : Mem α) (px sx py sy : Int) (fuel k : Nat) (acc : α) :
    dotLoop m px sx py sy fuel k acc =
      acc + ∑ i ∈ Finset.range fuel, get m px sx (k + i) * get m py sy (k + i) := by
  induction fuel generalizing k acc with
  | zero => simp [dotLoop]
  | succ f ih =>
    simp only [dotLoop, ih, Finset.sum_range_succ', Nat.add_zero]
    rw [add_assoc, add_comm (get m px sx k * get m py sy k)]
    congr 2
    apply Finset.sum_congr rfl
    intro i _
    rw [show k + 1 + i = k + (i + 1) by omega]
end mem

end Ufunclab.Vnorm
