import Verif.Proof.ExpintChain
/-! # The continued fraction of E1: numerical bounds -/
namespace Ufunclab.Expint
open XF

/-- Numerical check for `m = j + 20` terms and `80/(j+1) ≤ x ≤ 80/j`: 20 further levels bound the
tail. -/
def relOk (j : Nat) : Bool :=
  let m := j + 20
  let b := j + 1
  let lo := chain 80 b m 20 80 1
  let lo0 := chain 80 b 0 m lo.1 lo.2
  let hi := chain 80 j m 20 (80 + j * (m + 21)) 1
  let code := chain 80 b 0 m 80 1
  decide (m.factorial * m.factorial * (hi.1 * b - 80 * j * hi.2) * b ^ m * lo.2 * b ^ (m + 1) * 10 ^ 17 ≤
    14 * (j * hi.2 * b) * lo0.2 * code.1)

theorem relOk_all : (List.range 79).all (fun j => relOk (j + 1)) = true := by decide +kernel

/-- The same for `m = 20` and `x ≥ 80`. -/
theorem relOk_zero : Nat.factorial 20 * Nat.factorial 20 * 21 * (chain 80 1 20 20 80 1).2 * 10 ^ 17 ≤
    14 * (chain 80 1 0 20 (chain 80 1 20 20 80 1).1 (chain 80 1 20 20 80 1).2).2 * (chain 80 1 0 20 80 1).1 := by
  decide +kernel

attribute [local irreducible] chain

variable {x : ℝ}

/-- What `lo`, `lo0` and `code` of the check bound. -/
theorem lo_bounds (j : Nat) (hx : 0 < x) (hlo : 80 ≤ ((j + 1 : ℕ) : ℝ) * x) :
    let m := j + 20
    let b := j + 1
    let lo := chain 80 b m 20 80 1
    let lo0 := chain 80 b 0 m lo.1 lo.2
    let code := chain 80 b 0 m 80 1
    A x m * (lo0.2 : ℝ) ≤ (m.factorial : ℝ) * ((b : ℝ) ^ m * lo.2 * E1 x) ∧
    (code.1 : ℝ) ≤ (b : ℝ) ^ m * b * (chain x 1 0 m x 1).1 ∧ 0 < lo.2 ∧ 0 < lo0.2 ∧ 0 < code.1 := by
  intro m b lo lo0 code
  have hb : (0 : ℝ) < (b : ℝ) := by show (0 : ℝ) < ((j + 1 : ℕ) : ℝ); positivity
  have c1 := chain_cast 80 b m 20 80 1
  have c2 := chain_cast 80 b 0 m lo.1 lo.2
  have c3 := chain_cast 80 b 0 m 80 1
  have p1 := chain_pos (a := ((80 : ℕ) : ℝ)) (b := (b : ℝ)) (by norm_num) hb m 20 ((80 : ℕ) : ℝ) ((1 : ℕ) : ℝ) (by norm_num) (by norm_num)
  rw [c1] at p1
  have p2 := chain_pos (a := ((80 : ℕ) : ℝ)) (b := (b : ℝ)) (by norm_num) hb 0 m (lo.1 : ℝ) (lo.2 : ℝ) p1.1 p1.2
  rw [c2] at p2
  have p3 := chain_pos (a := ((80 : ℕ) : ℝ)) (b := (b : ℝ)) (by norm_num) hb 0 m ((80 : ℕ) : ℝ) ((1 : ℕ) : ℝ) (by norm_num) (by norm_num)
  rw [c3] at p3
  have hA := A_pos hx (m + 20)
  have l1 := (chain_lower (a := ((80 : ℕ) : ℝ)) (b := (b : ℝ)) hx (by norm_num) hb (by exact_mod_cast hlo) m 20 ((80 : ℕ) : ℝ) ((1 : ℕ) : ℝ)
    (by norm_num) (by norm_num) (by
      rw [B_rec hx (m + 20)]
      have hB := B_pos hx (m + 20 + 1)
      have h80 : ((80 : ℕ) : ℝ) ≤ (b : ℝ) * x := by exact_mod_cast hlo
      have q1 : 0 ≤ ((b : ℝ) * x - ((80 : ℕ) : ℝ)) * A x (m + 20) := mul_nonneg (by linarith) hA.le
      have q2 : 0 ≤ (b : ℝ) * (x * B x (m + 20 + 1)) := by positivity
      rw [Nat.cast_one, mul_one, mul_add, mul_add]
      nlinarith)).1
  rw [c1] at l1
  have l2 := (chain_lower (a := ((80 : ℕ) : ℝ)) (b := (b : ℝ)) hx (by norm_num) hb (by exact_mod_cast hlo) 0 m (lo.1 : ℝ) (lo.2 : ℝ)
    p1.1 p1.2 (by rw [Nat.zero_add]; exact l1)).2
  rw [c2, Nat.zero_add, A_zero hx, Nat.factorial_zero, Nat.cast_one, one_mul] at l2
  have l3 := (chain_mono (a := ((80 : ℕ) : ℝ)) (b := (b : ℝ)) (x := x) (by norm_num) hb (by exact_mod_cast hlo) 0 m 1
    ((80 : ℕ) : ℝ) ((1 : ℕ) : ℝ) x 1 one_pos (by norm_num) (by norm_num) (by rw [one_mul]; exact_mod_cast hlo) (by norm_num)).1
  rw [c3, one_mul] at l3
  exact ⟨l2, l3, Nat.cast_pos.1 p1.2, Nat.cast_pos.1 p2.2, Nat.cast_pos.1 p3.1⟩

theorem hi_bounds (j : Nat) (hj : 0 < j) (hx : 0 < x) (hhi : (j : ℝ) * x ≤ 80) :
    let m := j + 20
    let hi := chain 80 j m 20 (80 + j * (m + 21)) 1
    (j : ℝ) * (x * B x m) * hi.2 ≤ hi.1 * A x m ∧ 0 < hi.2 := by
  intro m hi
  have hb : (0 : ℝ) < (j : ℝ) := by exact_mod_cast hj
  have c1 := chain_cast 80 j m 20 (80 + j * (m + 21)) 1
  have p1 := chain_pos (a := ((80 : ℕ) : ℝ)) (b := (j : ℝ)) (by norm_num) hb m 20 ((80 + j * (m + 21) : ℕ) : ℝ) ((1 : ℕ) : ℝ) (by positivity) (by norm_num)
  rw [c1] at p1
  have hA := A_pos hx (m + 20)
  have l1 := (chain_upper (a := ((80 : ℕ) : ℝ)) (b := (j : ℝ)) hx (by norm_num) hb (by exact_mod_cast hhi) m 20
    ((80 + j * (m + 21) : ℕ) : ℝ) ((1 : ℕ) : ℝ) (by positivity) (by norm_num) (by
      rw [B_rec hx (m + 20)]
      have hB := xB_le hx (m + 20)
      have q1 : 0 ≤ (80 - (j : ℝ) * x) * A x (m + 20) := mul_nonneg (by linarith) hA.le
      have q2 := mul_le_mul_of_nonneg_left hB hb.le
      push_cast at q2 ⊢
      rw [mul_one, mul_add, mul_add]
      nlinarith)).1
  rw [c1] at l1
  exact ⟨l1, Nat.cast_pos.1 p1.2⟩

theorem combine (F xB num den Am l0 l2 c C E P b : ℝ) (hF : 0 < F) (hden : 0 < den) (hnum : 0 ≤ num)
    (hl0 : 0 < l0) (hE : 0 < E) (hP : 0 < P) (hb : 0 < b)
    (h1 : xB * den ≤ num * Am) (l1 : Am * l0 ≤ F * (P * l2 * E)) (lc : c ≤ P * b * C)
    (h2 : F * F * num * P * l2 * (P * b) * 10 ^ 17 ≤ 14 * den * l0 * c) :
    F * xB ≤ 14 / 10 ^ 17 * (C * E) := by
  have hQ : 0 < den * l0 * (P * b) * 10 ^ 17 := by positivity
  refine le_of_mul_le_mul_right ?_ hQ
  calc F * xB * (den * l0 * (P * b) * 10 ^ 17)
      = F * l0 * (P * b) * 10 ^ 17 * (xB * den) := by ring
    _ ≤ F * l0 * (P * b) * 10 ^ 17 * (num * Am) := mul_le_mul_of_nonneg_left h1 (by positivity)
    _ = F * num * (P * b) * 10 ^ 17 * (Am * l0) := by ring
    _ ≤ F * num * (P * b) * 10 ^ 17 * (F * (P * l2 * E)) := mul_le_mul_of_nonneg_left l1 (by positivity)
    _ = (F * F * num * P * l2 * (P * b) * 10 ^ 17) * E := by ring
    _ ≤ (14 * den * l0 * c) * E := mul_le_mul_of_nonneg_right h2 hE.le
    _ = 14 * den * l0 * E * c := by ring
    _ ≤ 14 * den * l0 * E * (P * b * C) := mul_le_mul_of_nonneg_left lc (by positivity)
    _ = _ := by ring

/-- The relative defect of the truncated continued fraction with `j + 20` terms. -/
theorem defect_le_pos (j : Nat) (hj : j < 80) (h0 : 0 < j) (hx : 0 < x) (hlo : 80 ≤ ((j + 1 : ℕ) : ℝ) * x) (hhi : (j : ℝ) * x ≤ 80) :
    ((j + 20).factorial : ℝ) * (x * B x (j + 20 + 1)) ≤ 14 / 10 ^ 17 * ((chain x 1 0 (j + 20) x 1).1 * E1 x) := by
  have hl := lo_bounds j hx hlo
  have hh := hi_bounds j h0 hx hhi
  have hok : relOk j = true := by
    have := List.all_eq_true.1 relOk_all (j - 1) (by simp; omega)
    rwa [Nat.sub_add_cancel h0] at this
  simp only [relOk, decide_eq_true_eq] at hok
  simp only [] at hl hh
  have hE := E1_pos hx
  have hA := A_pos hx (j + 20)
  have hBr := B_rec hx (j + 20)
  generalize hm : j + 20 = m at *
  generalize chain 80 (j + 1) m 20 80 1 = lo at *
  generalize chain 80 (j + 1) 0 m lo.1 lo.2 = lo0 at *
  generalize chain 80 (j + 1) 0 m 80 1 = code at *
  generalize chain 80 j m 20 (80 + j * (m + 21)) 1 = hi at *
  generalize (chain x 1 0 m x 1).1 = C at *
  obtain ⟨lo1, lo2⟩ := lo
  obtain ⟨lo01, lo02⟩ := lo0
  obtain ⟨code1, code2⟩ := code
  obtain ⟨hi1, hi2⟩ := hi
  simp only [] at hl hh hok
  obtain ⟨l1, l2, l3, l4, l5⟩ := hl
  obtain ⟨h1, h2⟩ := hh
  have hf : (0 : ℝ) < (m.factorial : ℝ) := by positivity
  have hjr : (0 : ℝ) < (j : ℝ) := Nat.cast_pos.2 h0
  have hhp : (0 : ℝ) < (hi2 : ℝ) := Nat.cast_pos.2 h2
  have hb : (0 : ℝ) < ((j + 1 : ℕ) : ℝ) := by positivity
  have hok' := (Nat.cast_le (α := ℝ)).2 hok
  generalize m.factorial = F at *
  generalize hs : hi1 * (j + 1) - 80 * j * hi2 = sub at *
  have eb : ((j + 1 : ℕ) : ℝ) = (j : ℝ) + 1 := by push_cast; rfl
  refine combine (F : ℝ) _ (sub : ℝ) ((j : ℝ) * hi2 * ((j + 1 : ℕ) : ℝ)) _ (lo02 : ℝ) (lo2 : ℝ) (code1 : ℝ) _ _ (((j + 1 : ℕ) : ℝ) ^ m) ((j + 1 : ℕ) : ℝ)
    hf (by positivity) (Nat.cast_nonneg _) (Nat.cast_pos.2 l4) hE (pow_pos hb m) hb ?_ l1 l2 ?_
  · have hsub : ((hi1 * (j + 1) : ℕ) : ℝ) - ((80 * j * hi2 : ℕ) : ℝ) ≤ (sub : ℝ) := by
      have : hi1 * (j + 1) ≤ sub + 80 * j * hi2 := by omega
      have : ((hi1 * (j + 1) : ℕ) : ℝ) ≤ (sub : ℝ) + ((80 * j * hi2 : ℕ) : ℝ) := by
        rw [← Nat.cast_add]; exact Nat.cast_le.2 this
      linarith
    refine le_trans ?_ (mul_le_mul_of_nonneg_right hsub hA.le)
    have e : x * B x (m + 1) = x * B x m - x * A x m := by rw [hBr]; ring
    rw [e]
    have h1 := mul_le_mul_of_nonneg_right h1 hb.le
    have h2 : 80 * ((j : ℝ) * hi2 * A x m) ≤ (((j + 1 : ℕ) : ℝ) * x) * ((j : ℝ) * hi2 * A x m) :=
      mul_le_mul_of_nonneg_right hlo (by positivity)
    rw [Nat.cast_mul, Nat.cast_mul, Nat.cast_mul]
    generalize ((j + 1 : ℕ) : ℝ) = b at *
    push_cast
    nlinarith
  · rw [← pow_succ]
    generalize hbb : j + 1 = b at *
    have e : (10 : ℝ) ^ 17 = ((10 ^ 17 : ℕ) : ℝ) := by norm_num
    rw [e]
    generalize 10 ^ 17 = q at *
    exact_mod_cast hok'

/-- The relative defect of the truncated continued fraction with `j + 20` terms. -/
theorem defect_le (j : Nat) (hj : j < 80) (hx : 0 < x) (hlo : 80 ≤ ((j + 1 : ℕ) : ℝ) * x) (hhi : (j : ℝ) * x ≤ 80) :
    ((j + 20).factorial : ℝ) * (x * B x (j + 20 + 1)) ≤ 14 / 10 ^ 17 * ((chain x 1 0 (j + 20) x 1).1 * E1 x) := by
  rcases Nat.eq_zero_or_pos j with h0 | h0
  · subst h0
    have hl := lo_bounds 0 hx hlo
    have hok := relOk_zero
    simp only [Nat.zero_add] at hl ⊢
    have hE := E1_pos hx
    have hB := xB_le hx 20
    generalize chain 80 1 20 20 80 1 = lo at *
    generalize chain 80 1 0 20 lo.1 lo.2 = lo0 at *
    generalize chain 80 1 0 20 80 1 = code at *
    generalize (chain x 1 0 20 x 1).1 = C at *
    obtain ⟨l1, l2, l3, l4, l5⟩ := hl
    have hf : (0 : ℝ) < ((Nat.factorial 20 : ℕ) : ℝ) := by positivity
    have hok' := (Nat.cast_le (α := ℝ)).2 hok
    generalize Nat.factorial 20 = F at *
    refine combine (F : ℝ) _ 21 1 _ (lo0.2 : ℝ) (lo.2 : ℝ) (code.1 : ℝ) _ _ (((1 : ℕ) : ℝ) ^ 20) ((1 : ℕ) : ℝ)
      hf one_pos (by norm_num) (Nat.cast_pos.2 l4) hE (by norm_num) (by norm_num) ?_ l1 l2 ?_
    · rw [mul_one]; refine hB.trans (le_of_eq ?_); norm_num
    · have e : (10 : ℝ) ^ 17 = ((10 ^ 17 : ℕ) : ℝ) := by norm_num
      rw [e]
      generalize 10 ^ 17 = q at *
      simp only [Nat.cast_one, one_pow, mul_one]
      exact_mod_cast hok'
  · exact defect_le_pos j hj h0 hx hlo hhi

end Ufunclab.Expint
