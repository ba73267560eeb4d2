import Verif.Proof.Debye1Chain
import Mathlib.Analysis.Complex.ExponentialBounds
/-! # Every piece of debye1, and the limit at infinity -/
namespace Ufunclab.Debye1
open Real

/-- `2^n p(X/2)` as a polynomial, `n` the number of coefficients. -/
def pcomp (X : List ℤ) : List ℤ → List ℤ
  | [] => []
  | a :: p => padd [a * 2 ^ (p.length + 1)] (pmul X (pcomp X p))

theorem peval_pcomp (X p : List ℤ) (t : ℝ) : peval (pcomp X p) t = 2 ^ p.length * peval p (peval X t / 2) := by
  induction p with
  | nil => simp [pcomp]
  | cons a p ih =>
    rw [pcomp, peval_padd, peval_pmul, ih, peval_cons, peval_nil, peval_cons, List.length_cons]
    push_cast
    ring

def h0 : List ℤ := pint 0 g0Cert

/-- The integral over the first cell, divided by `x`. -/
theorem F_zero_cell {t : ℝ} (ht0 : 0 ≤ t) (ht : t ≤ 1 + 1 / 10 ^ 11) :
    |F (t / 5) - t / 5 * (peval h0 t / (360360 * 10 ^ 30))| ≤ 3 / 10 ^ 21 * (t / 5) := by
  have hd : ∀ x ∈ Set.Icc (0 : ℝ) ((1 + 1 / 10 ^ 11) / 5),
      HasDerivAt (fun x => peval (0 :: h0) (5 * x) / (1801800 * 10 ^ 30)) (peval g0Cert (5 * x) / 10 ^ 30) x := by
    intro x _
    have h1 : HasDerivAt (fun x : ℝ => 5 * x) 5 x := by simpa using (hasDerivAt_id x).const_mul 5
    have h2 := ((hasDerivAt_peval (0 :: h0) (5 * x)).comp x h1).div_const (1801800 * 10 ^ 30)
    refine h2.congr_deriv ?_
    have : pder (0 :: h0) = psmul 360360 g0Cert ++ [0] := by decide +kernel
    rw [this, peval_append_zero, peval_psmul]
    push_cast
    ring
  have hG : ∀ x ∈ Set.Icc (0 : ℝ) ((1 + 1 / 10 ^ 11) / 5), |f x - peval g0Cert (5 * x) / 10 ^ 30| ≤ 3 / 10 ^ 21 := by
    intro x hx
    have := f_zero_approx (t := 5 * x) (by linarith [hx.1]) (by linarith [hx.2])
    rwa [mul_div_cancel_left₀ x (by norm_num : (5 : ℝ) ≠ 0)] at this
  have key := F_compare hd hG (x := 0) (y := t / 5) ⟨le_rfl, by norm_num⟩ ⟨by positivity, by linarith⟩
  rw [F_zero, mul_zero, mul_div_cancel₀ t (by norm_num : (5 : ℝ) ≠ 0), sub_zero, abs_of_nonneg (by positivity : 0 ≤ t / 5)] at key
  simp only [peval_cons, zero_mul, add_zero, Int.cast_zero, zero_div, sub_zero, zero_add] at key
  calc _ = |F (t / 5) - t * peval h0 t / (1801800 * 10 ^ 30)| := by congr 1; ring
    _ ≤ _ := key

def check0 : Bool :=
  let Dh := padd (psmul (10 ^ 48) (pcomp [1, 1] h0)) (psmul (-(2 ^ 14 * 360360 * 10 ^ 30)) (hI [1, 1] (piece 0)))
  decide (h0.length = 14) && decide ((piece 0).length = 8) && (piece 0).all (fun c => decide (c.2 ≤ 40)) &&
  decide (Dh.length ≤ 40) && decide (pabs Dh * 10 ^ 17 ≤ 412 * (10 ^ 48 * 2 ^ 14 * 360360 * 10 ^ 30)) &&
  decide (hA 3 (piece 0) ≤ 2 * 10 ^ 48) && decide (pabs (h0.drop 1) ≤ 360360 * 6 * 10 ^ 28) && decide (h0.take 1 = [360360 * 10 ^ 30])

theorem check0_ok : check0 = true := by decide +kernel

theorem good_zero : Good 0 := by
  have hc := check0_ok
  simp only [check0, Bool.and_eq_true, decide_eq_true_eq] at hc
  obtain ⟨⟨⟨⟨⟨⟨⟨hl0, hl⟩, he⟩, hDl⟩, hD⟩, hAc⟩, hd1⟩, hd2⟩ := hc
  refine ⟨by omega, fun x hx0 hx => ?_⟩
  have hxb := abs_le.1 hx
  simp only [Nat.cast_zero, mul_zero, zero_add] at hxb
  set t := 5 * x with ht
  have htx : t / 5 = x := by rw [ht]; ring
  have ht0 : 0 ≤ t := by linarith
  have ht1 : t ≤ 1 + 1 / 10 ^ 11 := by norm_num at hxb ⊢; linarith [hxb.2]
  have key := F_zero_cell ht0 ht1
  rw [htx] at key
  set h := peval h0 t / (360360 * 10 ^ 30) with hh
  set v := 10 * x - 1 with hv
  have hv1 : |v| ≤ 1 + 1 / 10 ^ 11 := by
    rw [abs_le, hv]; constructor <;> norm_num at hxb ⊢ <;> linarith [hxb.1, hxb.2]
  have hDv := peval_abs_le _ hDl hv1
  have hX : peval [1, 1] v = 10 * x := by rw [hv]; simp only [peval_cons, peval_nil]; push_cast; ring
  rw [peval_padd, peval_psmul, peval_psmul, peval_pcomp, peval_hI _ _ _ he, hX, hl0, hl,
    mul_div_cancel_left₀ x (by norm_num : (10 : ℝ) ≠ 0), show 10 * x / 2 = t by rw [ht]; ring] at hDv
  have hD' : (pabs (padd (psmul (10 ^ 48) (pcomp [1, 1] h0)) (psmul (-(2 ^ 14 * 360360 * 10 ^ 30)) (hI [1, 1] (piece 0)))) : ℝ)
      * 10 ^ 17 ≤ 412 * (10 ^ 48 * 2 ^ 14 * 360360 * 10 ^ 30) := by exact_mod_cast hD
  generalize ((pabs (padd (psmul (10 ^ 48) (pcomp [1, 1] h0)) (psmul (-(2 ^ 14 * 360360 * 10 ^ 30)) (hI [1, 1] (piece 0)))) : ℤ) : ℝ)
    = D at hDv hD'
  have h1 : |h - val x (piece 0)| ≤ 4.2 / 10 ^ 15 := by
    have e : h - val x (piece 0) = (((10 ^ 48 : ℤ) : ℝ) * (2 ^ 14 * peval h0 t) +
        ((-(2 ^ 14 * 360360 * 10 ^ 30) : ℤ) : ℝ) * (10 ^ (40 + 8) * val x (piece 0))) / (10 ^ 48 * 2 ^ 14 * 360360 * 10 ^ 30) := by
      rw [hh]; push_cast; field_simp; ring
    rw [e, abs_div, abs_of_pos (show (0 : ℝ) < 10 ^ 48 * 2 ^ 14 * 360360 * 10 ^ 30 by norm_num), div_le_iff₀ (by norm_num)]
    refine hDv.trans ?_
    norm_num at hD' ⊢; linarith
  -- the integral is at least 0.9 x
  have hf9 : 0.9 * x ≤ F x := by
    have h2 : |h - 1| ≤ 0.07 := by
      have e0 : h0 = 360360 * 10 ^ 30 :: h0.drop 1 := by
        conv_lhs => rw [← List.take_append_drop 1 h0, hd2]
        rfl
      have h3 := peval_abs_le (h0.drop 1) (by rw [List.length_drop]; omega) (show |t| ≤ 1 + 1 / 10 ^ 11 by rw [abs_of_nonneg ht0]; exact ht1)
      have h4 : (pabs (h0.drop 1) : ℝ) ≤ 360360 * 6 * 10 ^ 28 := by exact_mod_cast hd1
      have e1 : h - 1 = t * peval (h0.drop 1) t / (360360 * 10 ^ 30) := by
        rw [hh, e0, peval_cons]
        simp only [List.drop_succ_cons, List.drop_zero]
        push_cast; field_simp; ring
      rw [e1, abs_div, abs_mul, abs_of_nonneg ht0, abs_of_pos (show (0 : ℝ) < 360360 * 10 ^ 30 by norm_num), div_le_iff₀ (by norm_num)]
      calc t * |peval (h0.drop 1) t| ≤ (1 + 1 / 10 ^ 11) * (1.001 * (360360 * 6 * 10 ^ 28)) :=
            mul_le_mul ht1 (h3.trans (mul_le_mul_of_nonneg_left h4 (by norm_num))) (abs_nonneg _) (by norm_num)
        _ ≤ _ := by norm_num
    have h3 := (abs_le.1 h2).1
    have h4 := (abs_le.1 key).1
    have h5 : x * 0.93 ≤ x * h := mul_le_mul_of_nonneg_left (by linarith) hx0
    norm_num at h4 h5 ⊢; linarith
  constructor
  · rw [qval, if_pos (by norm_num)]
    have h2 : |x * (h - val x (piece 0))| ≤ x * (4.2 / 10 ^ 15) := by
      rw [abs_mul, abs_of_nonneg hx0]; exact mul_le_mul_of_nonneg_left h1 hx0
    calc |x * val x (piece 0) - F x| = |-(x * (h - val x (piece 0))) + -(F x - x * h)| := by congr 1; ring
      _ ≤ |-(x * (h - val x (piece 0)))| + |-(F x - x * h)| := abs_add_le _ _
      _ ≤ x * (4.2 / 10 ^ 15) + 3 / 10 ^ 21 * x := by rw [abs_neg, abs_neg]; exact add_le_add h2 key
      _ ≤ _ := by norm_num at hf9 ⊢; linarith
  · rw [qaval, if_pos (by norm_num)]
    have h2 := cast_hA 3 (piece 0) he
    have h3 : (hA 3 (piece 0) : ℝ) ≤ 2 * 10 ^ 48 := by exact_mod_cast hAc
    rw [h2, hl] at h3
    have h4 : aval (((3 : ℤ) : ℝ) / 10) (piece 0) ≤ 2 := by
      rw [← mul_le_mul_iff_right₀ (show (0 : ℝ) < 10 ^ 48 by norm_num)]; linarith
    have h5 := aval_le hx0 (y := ((3 : ℤ) : ℝ) / 10) (by norm_num) (le_refl (1 : ℝ)) (by push_cast; norm_num at hxb ⊢; linarith [hxb.2]) (piece 0)
    rw [one_pow, one_mul] at h5
    have h6 : x * aval x (piece 0) ≤ x * 2 := mul_le_mul_of_nonneg_left (h5.trans h4) hx0
    have h7 : (cond 0 : ℝ) = 5 := by norm_num [cond]
    rw [h7]
    norm_num at hf9 ⊢; linarith

/-- The starting values of the chain. -/
def checkHead (c : ℤ × List ℤ × ℤ) : Bool :=
  decide (|pevalZ sCert 1 * (pevalZ sCert 1 * pevalZ sCert 1) - c.1 * 10 ^ 60| ≤ 3000 * 10 ^ 60) &&
  decide (|c.2.2 * 1801800 - pevalZ h0 1| ≤ 1801800)

def allCells : List (ℤ × List ℤ × ℤ) := cells0 ++ cells1 ++ cells2 ++ cells3

theorem head_ok : allCells.head?.all checkHead = true := by decide +kernel

theorem length_ok : allCells.length = 199 := by decide +kernel

theorem expInv_of_head {c : ℤ × List ℤ × ℤ} (h : checkHead c = true) : ExpInv 1 c.1 := by
  simp only [checkHead, Bool.and_eq_true, decide_eq_true_eq] at h
  have h1 := h.1
  unfold ExpInv
  have ht := exp_tenth
  have htl := exp_tenth_lt
  have h5 := exp_fifth
  set u : ℝ := pevalZ sCert 1 / 10 ^ 30 with hu
  set s : ℝ := ((pevalZ sCert 1 : ℝ) * pevalZ sCert 1) / 10 ^ 60 with hs
  have e : exp (-(2 * ((1 : ℕ) : ℝ) + 1) / 10) = exp (-1 / 10) * exp (-1 / 5) := by rw [← exp_add]; norm_num
  have h1' : |(pevalZ sCert 1 : ℝ) * (pevalZ sCert 1 * pevalZ sCert 1) - c.1 * 10 ^ 60| ≤ 3000 * 10 ^ 60 := by exact_mod_cast h1
  have h2 : |u * s - c.1 / 10 ^ 30| ≤ 3000 / 10 ^ 30 := by
    have e2 : u * s - c.1 / 10 ^ 30 = ((pevalZ sCert 1 : ℝ) * (pevalZ sCert 1 * pevalZ sCert 1) - c.1 * 10 ^ 60) / 10 ^ 90 := by
      rw [hu, hs]; field_simp
    rw [e2, abs_div, abs_of_pos (show (0 : ℝ) < 10 ^ 90 by norm_num), div_le_iff₀ (by norm_num)]
    exact h1'.trans (by norm_num)
  have hp := exp_pos (-1 / 10 : ℝ)
  have hs1 : |s| ≤ 1 := by
    have hz : pevalZ sCert 1 * pevalZ sCert 1 ≤ 82 * 10 ^ 58 := by decide +kernel
    have hz' : (pevalZ sCert 1 : ℝ) * pevalZ sCert 1 ≤ 82 * 10 ^ 58 := by exact_mod_cast hz
    rw [abs_of_nonneg (div_nonneg (mul_self_nonneg _) (by norm_num)), hs, div_le_iff₀ (by norm_num)]
    exact hz'.trans (by norm_num)
  rw [e]
  calc |exp (-1 / 10) * exp (-1 / 5) - c.1 / 10 ^ 30|
      = |exp (-1 / 10) * (exp (-1 / 5) - s) + (exp (-1 / 10) - u) * s + (u * s - c.1 / 10 ^ 30)| := by ring_nf
    _ ≤ |exp (-1 / 10) * (exp (-1 / 5) - s)| + |(exp (-1 / 10) - u) * s| + |u * s - c.1 / 10 ^ 30| :=
        (abs_add_le _ _).trans (add_le_add (abs_add_le _ _) le_rfl)
    _ ≤ 1 * (2 / 10 ^ 27) + 1 / 10 ^ 27 * 1 + 3000 / 10 ^ 30 := by
        refine add_le_add (add_le_add ?_ ?_) h2
        · rw [abs_mul, abs_of_pos hp]; exact mul_le_mul (by linarith) h5 (abs_nonneg _) (by norm_num)
        · rw [abs_mul]; exact mul_le_mul ht hs1 (abs_nonneg _) (by norm_num)
    _ ≤ _ := by norm_num

theorem fInv_of_head {c : ℤ × List ℤ × ℤ} (h : checkHead c = true) : FInv 1 c.2.2 := by
  simp only [checkHead, Bool.and_eq_true, decide_eq_true_eq] at h
  have h1 := h.2
  unfold FInv
  have key := F_zero_cell (t := 1) (by norm_num) (by norm_num)
  have e3 := peval_intCast h0 1
  rw [Int.cast_one] at e3
  rw [e3] at key
  have h1' : |(c.2.2 : ℝ) * 1801800 - pevalZ h0 1| ≤ 1801800 := by exact_mod_cast h1
  have h2 : |1 / 5 * ((pevalZ h0 1 : ℝ) / (360360 * 10 ^ 30)) - c.2.2 / 10 ^ 30| ≤ 1 / 10 ^ 30 := by
    have e : 1 / 5 * ((pevalZ h0 1 : ℝ) / (360360 * 10 ^ 30)) - c.2.2 / 10 ^ 30 =
        -((c.2.2 : ℝ) * 1801800 - pevalZ h0 1) / (1801800 * 10 ^ 30) := by field_simp; ring
    rw [e, abs_div, abs_neg, abs_of_pos (show (0 : ℝ) < 1801800 * 10 ^ 30 by norm_num), div_le_iff₀ (by norm_num)]
    exact h1'.trans (by norm_num)
  calc |F (((1 : ℕ) : ℝ) / 5) - c.2.2 / 10 ^ 30|
      = |(F (1 / 5) - 1 / 5 * ((pevalZ h0 1 : ℝ) / (360360 * 10 ^ 30))) + (1 / 5 * ((pevalZ h0 1 : ℝ) / (360360 * 10 ^ 30)) - c.2.2 / 10 ^ 30)| := by
        rw [Nat.cast_one]; congr 1; ring
    _ ≤ _ := abs_add_le _ _
    _ ≤ 3 / 10 ^ 21 * (1 / 5) + 1 / 10 ^ 30 := add_le_add key h2
    _ ≤ _ := by push_cast; norm_num

theorem chain_all : (∀ i < 199, Good (1 + i)) ∧ FInv 200 wLast := by
  have := chain allCells 1 le_rfl (by rw [length_ok]) check_all
    (by
      intro c hc
      have h := head_ok
      rw [Option.mem_def] at hc
      rw [hc] at h
      exact ⟨expInv_of_head h, fInv_of_head h⟩)
    (by intro h; have := length_ok; rw [h] at this; simp at this)
  rwa [length_ok] at this

/-- Every piece is good on its cell. -/
theorem good_all {j : ℕ} (hj : j < 200) : Good j := by
  rcases Nat.eq_zero_or_pos j with h | h
  · subst h; exact good_zero
  · have := chain_all.1 (j - 1) (by omega)
    rwa [show 1 + (j - 1) = j by omega] at this

theorem hasDerivAt_tail (x : ℝ) : HasDerivAt (fun x => 2 * (x + 1) * exp (-x)) (-(2 * x * exp (-x))) x := by
  have h1 : HasDerivAt (fun x : ℝ => 2 * (x + 1)) (2 * 1) x := ((hasDerivAt_id x).add_const 1).const_mul 2
  have h2 : HasDerivAt (fun x : ℝ => exp (-x)) (exp (-x) * (-1)) x := HasDerivAt.comp x (hasDerivAt_exp (-x)) (hasDerivAt_neg x)
  refine (h1.mul h2).congr_deriv ?_
  ring

theorem f_le_tail {x : ℝ} (hx : 1 ≤ x) : f x ≤ 2 * x * exp (-x) := by
  rw [f, if_neg (by linarith), exp_neg]
  have h1 := add_one_le_exp x
  have hp := exp_pos x
  rw [div_le_iff₀ (by linarith)]
  have : 2 * x * (exp x)⁻¹ * (exp x - 1) = x + x * (1 - 2 * (exp x)⁻¹) := by
    field_simp; ring
  rw [this]
  have h2 : (exp x)⁻¹ ≤ 1 / 2 := by rw [← one_div]; exact one_div_le_one_div_of_le (by norm_num) (by linarith)
  have : 0 ≤ x * (1 - 2 * (exp x)⁻¹) := mul_nonneg (by linarith) (by linarith)
  linarith

theorem tail_antitone : AntitoneOn (fun x => F x + 2 * (x + 1) * exp (-x)) (Set.Ici 1) := by
  have hd : ∀ x, HasDerivAt (fun x => F x + 2 * (x + 1) * exp (-x)) (f x + -(2 * x * exp (-x))) x :=
    fun x => (hasDerivAt_F x).add (hasDerivAt_tail x)
  apply antitoneOn_of_deriv_nonpos (convex_Ici 1)
  · exact fun x _ => (hd x).continuousAt.continuousWithinAt
  · exact fun x _ => (hd x).differentiableAt.differentiableWithinAt
  · intro x hx
    rw [interior_Ici] at hx
    rw [(hd x).deriv]
    have := f_le_tail (le_of_lt hx)
    linarith

theorem exp_neg_39 : exp (-39) ≤ 1.2 / 10 ^ 17 := by
  have h := exp_neg_one_lt_d9
  have e : exp (-39) = exp (-1) ^ 39 := by rw [← exp_nat_mul]; norm_num
  rw [e]
  have := pow_le_pow_left₀ (exp_pos _).le h.le 39
  refine this.trans ?_
  norm_num

/-- Beyond 39.9 the integral is the constant of the last branch. -/
theorem F_tail {x : ℝ} (hx : 39.9 ≤ x) : |F x - lit asympConst| ≤ 1.4 / 10 ^ 15 := by
  have h40 : |F 40 - lit asympConst| ≤ 2.5 / 10 ^ 16 := by
    have h := chain_all.2
    unfold FInv at h
    have e : (((200 : ℕ) : ℝ) / 5) = 40 := by norm_num
    rw [e] at h
    have hb := abs_le.1 h
    have h2 : |wLast - 16449340668482264 * 10 ^ 14| ≤ 24 * 10 ^ 13 := by decide +kernel
    have h2' : |(wLast : ℝ) - 16449340668482264 * 10 ^ 14| ≤ 24 * 10 ^ 13 := by exact_mod_cast h2
    have h3 := abs_le.1 h2'
    rw [abs_le, lit, asympConst]
    push_cast at hb ⊢
    constructor <;> norm_num at hb h3 ⊢ <;> linarith [hb.1, hb.2, h3.1, h3.2]
  have hE := exp_neg_39
  have h2 : |F x - F 40| ≤ 1.1 / 10 ^ 15 := by
    rcases le_total x 40 with h | h
    · have h1 := tail_antitone (show x ∈ Set.Ici 1 by simp; norm_num at hx ⊢; linarith) (show (40 : ℝ) ∈ Set.Ici 1 by norm_num) h
      have h3 := F_mono.monotone h
      have h4 : exp (-x) ≤ exp (-39) := exp_le_exp.2 (by norm_num at hx ⊢; linarith)
      have h5 : 0 < exp (-(40 : ℝ)) := exp_pos _
      have h6 : 2 * (x + 1) * exp (-x) ≤ 2 * 41 * exp (-39) := mul_le_mul (by linarith) h4 (exp_pos _).le (by norm_num)
      simp only at h1
      rw [abs_le]; constructor <;> norm_num at hE h1 h6 ⊢ <;> linarith
    · have h1 := tail_antitone (show (40 : ℝ) ∈ Set.Ici 1 by norm_num) (show x ∈ Set.Ici 1 by simp; linarith) h
      have h3 := F_mono.monotone h
      have h4 : exp (-(40 : ℝ)) ≤ exp (-39) := exp_le_exp.2 (by norm_num)
      have h6 : 0 ≤ 2 * (x + 1) * exp (-x) := by positivity
      simp only at h1
      rw [abs_le]; constructor <;> norm_num at hE h1 ⊢ <;> linarith
  calc |F x - lit asympConst| = |(F x - F 40) + (F 40 - lit asympConst)| := by congr 1; ring
    _ ≤ _ := abs_add_le _ _
    _ ≤ 1.1 / 10 ^ 15 + 2.5 / 10 ^ 16 := add_le_add h2 h40
    _ ≤ _ := by norm_num

end Ufunclab.Debye1
