import Verif.Model.ExpintRound
import Verif.Props.Expint
import Verif.Props.NormalRound
/-!
# C102: `expint1` and `logexpint1` in floating point
-/
namespace Ufunclab.Expint
open Real Ufunclab.Float Ufunclab.Means Ufunclab.Scalar
variable {p P : ℕ} {emin Emin : ℤ} {rT rL lg ex l1 : ℝ → ℝ} {ε ε' : ℝ} {x t a b c w : ℝ}

/-! ### The continued fraction -/

theorem const_add_half (hc : 0 ≤ c) (ha : 0 < a) (hb : 0 < b) (ht : 0 ≤ t) (h : log b - log a ≤ t) (hw : b ≤ w * (c + b)) (hw1 : w ≤ 1) :
    log (c + b) - log (c + a) ≤ w * t := by
  have hw0 : 0 ≤ w := by
    by_contra hn
    have := mul_neg_of_neg_of_pos (not_le.1 hn) (show 0 < c + b by linarith)
    linarith
  set v := b / (c + b) with hv
  have hcb : 0 < c + b := by linarith
  have v0 : 0 ≤ v := by positivity
  have vw : v ≤ w := by rw [hv, div_le_iff₀ hcb]; exact hw
  have e : (c + a) / (c + b) = 1 + v * (a / b - 1) := by rw [hv]; field_simp; ring
  have k := rpow_one_add_le_one_add_mul_self (s := a / b - 1) (by have : 0 < a / b := by positivity
                                                                  linarith) v0 (vw.trans hw1)
  rw [← e, show 1 + (a / b - 1) = a / b by ring] at k
  have hab : 0 < a / b := by positivity
  have l := log_le_log (rpow_pos_of_pos hab v) k
  rw [log_rpow hab, log_div (by linarith) hcb.ne', log_div ha.ne' hb.ne'] at l
  have m1 : v * (log b - log a) ≤ v * t := mul_le_mul_of_nonneg_left h v0
  have m2 : v * t ≤ w * t := mul_le_mul_of_nonneg_right vw ht
  linarith

/-- Adding a number damps the relative error. -/
theorem close_const_add (h : Close t a b) (hc : 0 ≤ c) (ha : a ≤ w * (c + a)) (hb : b ≤ w * (c + b)) (hw1 : w ≤ 1) :
    Close (w * t) (c + a) (c + b) := by
  obtain ⟨h1, h2, h3⟩ := h
  have ht := (abs_nonneg _).trans h3
  obtain ⟨h4, h5⟩ := abs_le.1 h3
  refine ⟨by linarith, by linarith, abs_le.2 ⟨?_, ?_⟩⟩
  · have := const_add_half (t := t) hc h1 h2 ht (by linarith) hb hw1
    linarith
  · exact const_add_half (t := t) hc h2 h1 ht (by linarith) ha hw1

/-- The sizes used. -/
structure Fmt (p : ℕ) (emin : ℤ) (rT : ℝ → ℝ) : Prop where
  hT : Nearest p emin rT
  hp : 16 ≤ p
  hep : emin + p ≤ -50

theorem isFloat_nat (hp : 16 ≤ p) (hep : emin + p ≤ -50) {k : ℕ} (hk : k < 65536) : IsFloat p emin ((k : ℕ) : ℝ) := by
  refine ⟨k, 0, ?_, by omega, by simp⟩
  have : (2 : ℤ) ^ 16 ≤ 2 ^ p := pow_le_pow_right₀ (by norm_num) hp
  rw [abs_of_nonneg (by positivity)]
  have : (k : ℤ) < 65536 := by exact_mod_cast hk
  omega

theorem N_le (hep : emin + p ≤ -50) : (0 : ℝ) < 2 ^ p * 2 ^ emin ∧ (2 : ℝ) ^ p * 2 ^ emin ≤ 1 / 1000000 := by
  refine ⟨mul_pos (by positivity) (two_zpow_pos emin), ?_⟩
  rw [← zpow_natCast, ← zpow_add₀ (by norm_num)]
  calc (2 : ℝ) ^ ((p : ℤ) + emin) ≤ 2 ^ (-50 : ℤ) := zpow_le_zpow_right₀ (by norm_num) (by omega)
    _ ≤ 1 / 1000000 := by norm_num

/-- One step of the continued fraction. -/
theorem cf_step (F : Fmt p emin rT) (hx : 1 ≤ x) (hxN : 1000 * x * (2 ^ p * 2 ^ emin) ≤ 1) {k : ℕ} (hk1 : 1 ≤ k) (hk : k ≤ 100) {T : ℝ}
    (ht : 0 ≤ t) (hT : 0 ≤ T) (htk : t ≤ k + 1) (hTk : T ≤ k + 1)
    (hc : (t = 0 ∧ T = 0) ∨ Close (4 * (1.02 * (2 ^ p)⁻¹) * (k + 2)) t T) :
    Close (4 * (1.02 * (2 ^ p)⁻¹) * (k + 1)) (rT (k / rT (1 + rT (k / rT (x + t))))) (k / (1 + k / (x + T))) ∧
      rT (k / rT (1 + rT (k / rT (x + t)))) ≤ k ∧ k / (1 + k / (x + T)) ≤ k := by
  have h7 : 7 ≤ p := by have := F.hp; omega
  obtain ⟨u0, -⟩ := Normal.u_small16 F.hp
  obtain ⟨N0, N1⟩ := N_le (p := p) F.hep
  have k1 : (1 : ℝ) ≤ k := by exact_mod_cast hk1
  have k2 : (k : ℝ) ≤ 100 := by exact_mod_cast hk
  have f1 : IsFloat p emin ((1 : ℕ) : ℝ) := isFloat_nat F.hp F.hep (by norm_num)
  have fk : IsFloat p emin ((k : ℕ) : ℝ) := isFloat_nat F.hp F.hep (by omega)
  norm_num at f1
  set d := 1.02 * ((2 : ℝ) ^ p)⁻¹ with hd
  set N := (2 : ℝ) ^ p * 2 ^ emin with hN
  have d0 : 0 < d := by positivity
  -- the sum
  have a0 : Close ((k + 1) / (k + 2) * (4 * d * (k + 2))) (x + t) (x + T) := by
    rcases hc with ⟨rfl, rfl⟩ | hc
    · exact (Close.refl (by linarith)).mono (by positivity)
    · refine close_const_add hc (by linarith) ?_ ?_ ?_
      · rw [div_mul_eq_mul_div, le_div_iff₀ (by linarith)]
        nlinarith
      · rw [div_mul_eq_mul_div, le_div_iff₀ (by linarith)]
        nlinarith
      · rw [div_le_one (by linarith)]; linarith
  have a1 : Close d (rT (x + t)) (x + t) := close_round F.hT h7 (by rw [← hN]; linarith)
  have a2 := a1.trans a0
  have s1 : 1 ≤ rT (x + t) := F.hT.mono_float f1 (by linarith)
  have s2 : rT (x + t) ≤ 2 * (x + t) := by
    have := F.hT.abs_le_two (x + t)
    rw [abs_of_nonneg (show 0 ≤ x + t by linarith)] at this
    exact (le_abs_self _).trans this
  -- the quotient
  have q1 : N ≤ k / rT (x + t) := by
    rw [le_div_iff₀ (by linarith)]
    have : N * rT (x + t) ≤ N * (1000 * x) := mul_le_mul_of_nonneg_left (by linarith) N0.le
    linarith
  have a3 : Close d (rT (k / rT (x + t))) (k / rT (x + t)) := close_round F.hT h7 (by rw [← hN]; exact q1)
  have a4 := a3.trans ((Close.refl (show (0 : ℝ) < k by linarith)).div a2)
  have q2 : rT (k / rT (x + t)) ≤ k := F.hT.mono_float' fk (by rw [div_le_iff₀ (by linarith)]; nlinarith)
  have q3 : k / (x + T) ≤ k := by rw [div_le_iff₀ (by linarith)]; nlinarith
  -- one more
  have a5 : Close (k / (k + 1) * (d + (0 + (d + (k + 1) / (k + 2) * (4 * d * (k + 2)))))) (1 + rT (k / rT (x + t))) (1 + k / (x + T)) := by
    refine close_const_add a4 (by norm_num) ?_ ?_ ?_
    · rw [div_mul_eq_mul_div, le_div_iff₀ (by linarith)]; nlinarith
    · rw [div_mul_eq_mul_div, le_div_iff₀ (by linarith)]; nlinarith
    · rw [div_le_one (by linarith)]; linarith
  have q0 : 0 < rT (k / rT (x + t)) := a3.1
  have a6 : Close d (rT (1 + rT (k / rT (x + t)))) (1 + rT (k / rT (x + t))) := close_round F.hT h7 (by rw [← hN]; linarith)
  have s3 : 1 ≤ rT (1 + rT (k / rT (x + t))) := F.hT.mono_float f1 (by linarith)
  have s4 : rT (1 + rT (k / rT (x + t))) ≤ 2 * 101 := by
    have := F.hT.abs_le_two (1 + rT (k / rT (x + t)))
    rw [abs_of_nonneg (show 0 ≤ 1 + rT (k / rT (x + t)) by linarith)] at this
    exact ((le_abs_self _).trans this).trans (by linarith)
  have q4 : N ≤ k / rT (1 + rT (k / rT (x + t))) := by
    rw [le_div_iff₀ (by linarith)]
    nlinarith
  have a7 : Close d (rT (k / rT (1 + rT (k / rT (x + t))))) (k / rT (1 + rT (k / rT (x + t)))) := close_round F.hT h7 (by rw [← hN]; exact q4)
  have a8 := a7.trans ((Close.refl (show (0 : ℝ) < k by linarith)).div (a6.trans a5))
  refine ⟨a8.mono ?_, ?_, ?_⟩
  · have e : d + (0 + (d + k / (k + 1) * (d + (0 + (d + (k + 1) / (k + 2) * (4 * d * (k + 2))))))) = 2 * d + (4 * k * d + 2 * d * (k / (k + 1))) := by
      field_simp; ring
    rw [e]
    have : (k : ℝ) / (k + 1) ≤ 1 := by rw [div_le_one (by linarith)]; linarith
    nlinarith
  · exact F.hT.mono_float' fk (by rw [div_le_iff₀ (by linarith)]; nlinarith)
  · have : 0 ≤ (k : ℝ) / (x + T) := by positivity
    rw [div_le_iff₀ (by linarith)]; nlinarith

theorem cf_close (F : Fmt p emin rT) (hx : 1 ≤ x) (hxN : 1000 * x * (2 ^ p * 2 ^ emin) ≤ 1) (k : ℕ) (hk : k ≤ 100) : ∀ {t T : ℝ},
    0 ≤ t → 0 ≤ T → t ≤ k + 1 → T ≤ k + 1 → (t = 0 ∧ T = 0 ∧ 1 ≤ k) ∨ Close (4 * (1.02 * (2 ^ p)⁻¹) * (k + 2)) t T →
    Close (8 * (1.02 * (2 ^ p)⁻¹)) (cfR rT x k t) (cfR id x k T) ∧ cfR rT x k t ≤ 1 ∧ cfR id x k T ≤ 1 := by
  induction k with
  | zero =>
    intro t T h1 h2 h3 h4 h5
    rcases h5 with ⟨-, -, h⟩ | h
    · omega
    · simp only [cfR]
      norm_num at h h3 h4
      exact ⟨h.mono (by linarith), h3, h4⟩
  | succ k ih =>
    intro t T h1 h2 h3 h4 h5
    have := cf_step F hx hxN (k := k + 1) (by omega) hk h1 h2 h3 h4 (h5.imp (fun h => ⟨h.1, h.2.1⟩) id)
    obtain ⟨c1, c2, c3⟩ := this
    simp only [cfR, id_eq]
    refine ih (by omega) c1.1.le c1.2.1.le ?_ ?_ (Or.inr (c1.mono (le_of_eq ?_)))
    · push_cast at c2 ⊢; exact c2
    · push_cast at c3 ⊢; exact c3
    · push_cast; ring

/-- The continued fraction: six roundings, whatever the number of terms. -/
theorem expintTR_close (F : Fmt p emin rT) (hx : 1 ≤ x) (hxN : 1000 * x * (2 ^ p * 2 ^ emin) ≤ 1) {n : ℕ} (hn : n = termsR rT x) (hn1 : 1 ≤ n)
    (hn2 : n ≤ 100) : Close (6 * (1.02 * (2 ^ p)⁻¹)) (expintTR rT x) (1 / (x + cfR id x n 0)) := by
  have h7 : 7 ≤ p := by have := F.hp; omega
  obtain ⟨u0, u1⟩ := Normal.u_small16 F.hp
  obtain ⟨N0, N1⟩ := N_le (p := p) F.hep
  have f1 : IsFloat p emin ((1 : ℕ) : ℝ) := isFloat_nat F.hp F.hep (by norm_num)
  norm_num at f1
  obtain ⟨c1, c2, c3⟩ := cf_close F hx hxN n hn2 (t := 0) (T := 0) le_rfl le_rfl (by positivity) (by positivity) (Or.inl ⟨rfl, rfl, hn1⟩)
  rw [expintTR, ← hn]
  have p1 := c1.1
  have p2 := c1.2.1
  generalize cfR rT x n 0 = t at *
  generalize cfR id x n 0 = T at *
  set d := 1.02 * ((2 : ℝ) ^ p)⁻¹ with hd
  set N := (2 : ℝ) ^ p * 2 ^ emin with hN
  have a0 : Close (1 / 2 * (8 * d)) (x + t) (x + T) := close_const_add c1 (by linarith) (by linarith) (by linarith) (by norm_num)
  have a1 : Close d (rT (x + t)) (x + t) := close_round F.hT h7 (by rw [← hN]; linarith)
  have s1 : 1 ≤ rT (x + t) := F.hT.mono_float f1 (by linarith)
  have s2 : rT (x + t) ≤ 2 * (x + t) := by
    have := F.hT.abs_le_two (x + t)
    rw [abs_of_nonneg (show 0 ≤ x + t by linarith)] at this
    exact (le_abs_self _).trans this
  have q1 : N ≤ 1 / rT (x + t) := by
    rw [le_div_iff₀ (by linarith)]
    have : N * rT (x + t) ≤ N * (1000 * x) := mul_le_mul_of_nonneg_left (by linarith) N0.le
    linarith
  have a3 : Close d (rT (1 / rT (x + t))) (1 / rT (x + t)) := close_round F.hT h7 (by rw [← hN]; exact q1)
  exact (a3.trans ((Close.refl one_pos).div (a1.trans a0))).mono (by linarith)

/-! ### The truncated fraction -/

theorem cf_nonneg (hx : 0 < x) (n : ℕ) : ∀ {T : ℝ}, 0 ≤ T → 0 ≤ cfR id x n T := by
  induction n with
  | zero => intro T h; exact h
  | succ n ih =>
    intro T h
    simp only [cfR, id_eq]
    exact ih (by positivity)

theorem cf_mono (hx : 0 < x) (n : ℕ) : ∀ {S T : ℝ}, 0 ≤ S → S ≤ T → cfR id x n S ≤ cfR id x n T := by
  induction n with
  | zero => intro S T _ h; exact h
  | succ n ih =>
    intro S T h0 h
    simp only [cfR, id_eq]
    refine ih (by positivity) ?_
    have : 0 < x + S := by linarith
    have : 0 < x + T := by linarith
    gcongr

theorem cf_more (hx : 0 < x) (n : ℕ) : cfR id x n 0 ≤ cfR id x (n + 1) 0 := by
  simp only [cfR, id_eq]
  exact cf_mono hx n le_rfl (by positivity)

theorem cf_exact (hx : 0 < x) (n : ℕ) : ∀ {T : ℝ}, 0 ≤ T → cfLoop (.fin x) n (.fin T) = .fin (cfR id x n T) := by
  induction n with
  | zero => intro T _; rfl
  | succ n ih =>
    intro T h
    have h1 : 0 < x + T := by linarith
    simp only [cfLoop, cfR, id_eq, XF.add_fin]
    rw [XF.div_fin _ _ h1.ne', XF.add_fin, XF.div_fin _ _ (by positivity)]
    exact ih (by positivity)

theorem cf_chain (hx : 0 < x) (n : ℕ) : 1 / (x + cfR id x n 0) = (chain x 1 0 n x 1).2 / (chain x 1 0 n x 1).1 := by
  have h := cfLoop_fin hx n x 1 0 hx one_pos (by simp)
  rw [cf_exact hx n le_rfl, XF.fin.injEq] at h
  rw [h, add_sub_cancel, one_div_div]

/-- The factor of the exact continued fraction with the number of terms of the code. -/
theorem cf_value (F : Fmt p emin rT) (h1 : 1 < x) : ∃ n, n = termsR rT x ∧ 20 ≤ n ∧ n ≤ 100 ∧
    E1 x < exp (-x) * (1 / (x + cfR id x n 0)) ∧ exp (-x) * (1 / (x + cfR id x n 0)) ≤ E1 x + 14 / 10 ^ 17 * E1 x := by
  have hx : 0 < x := by linarith
  have hq0 : 0 ≤ 80 / x := by positivity
  have hq1 : 80 / x < 80 := by rw [div_lt_iff₀ hx]; linarith
  have hf0 : 0 ≤ ⌊80 / x⌋ := Int.floor_nonneg.2 hq0
  set j := ⌊80 / x⌋.toNat with hj
  have hjf : (j : ℤ) = ⌊80 / x⌋ := by rw [hj, Int.toNat_of_nonneg hf0]
  have hj80 : j < 80 := by
    have : ⌊80 / x⌋ < 80 := Int.floor_lt.2 (by exact_mod_cast hq1)
    omega
  have l1 : (j : ℝ) ≤ 80 / x := by
    have := Int.floor_le (80 / x)
    rw [← hjf] at this; exact_mod_cast this
  have l2 : 80 / x < (j : ℝ) + 1 := by
    have := Int.lt_floor_add_one (80 / x)
    rw [← hjf] at this; exact_mod_cast this
  -- the rounded quotient
  have r1 : (j : ℝ) ≤ rT (80 / x) := F.hT.mono_float (isFloat_nat F.hp F.hep (by omega)) l1
  have r2 : rT (80 / x) ≤ ((j + 1 : ℕ) : ℝ) := F.hT.mono_float' (isFloat_nat F.hp F.hep (by omega)) (by push_cast; linarith)
  have g1 : (j : ℤ) ≤ ⌊rT (80 / x)⌋ := Int.le_floor.2 (by exact_mod_cast r1)
  have g2 : ⌊rT (80 / x)⌋ ≤ (j + 1 : ℕ) := by
    have : (⌊rT (80 / x)⌋ : ℝ) ≤ ((j + 1 : ℕ) : ℝ) := (Int.floor_le _).trans r2
    exact_mod_cast this
  refine ⟨termsR rT x, rfl, ?_, ?_, ?_, ?_⟩
  · rw [termsR]; omega
  · rw [termsR]; push_cast at g2; omega
  · generalize termsR rT x = n
    have hd := cf_defect hx n
    have hp := chain_pos (a := x) (b := 1) hx one_pos 0 n x 1 hx one_pos
    have hB := B_pos hx (n + 1)
    have hpos : 0 < (n.factorial : ℝ) * (x * B x (n + 1)) := by positivity
    rw [cf_chain hx, ← mul_div_assoc, lt_div_iff₀ hp.1, hd]
    linarith
  · have hd := cf_defect hx (j + 20)
    have hp := chain_pos (a := x) (b := 1) hx one_pos 0 (j + 20) x 1 hx one_pos
    have hb := defect_le j hj80 hx (by rw [div_lt_iff₀ hx] at l2; push_cast; exact l2.le) (by rwa [le_div_iff₀ hx] at l1)
    have base : exp (-x) * (1 / (x + cfR id x (j + 20) 0)) ≤ E1 x + 14 / 10 ^ 17 * E1 x := by
      rw [cf_chain hx, ← mul_div_assoc, div_le_iff₀ hp.1, hd]
      linarith
    refine le_trans (mul_le_mul_of_nonneg_left ?_ (exp_pos _).le) base
    have c0 := cf_nonneg hx (j + 20) (T := 0) le_rfl
    refine one_div_le_one_div_of_le (by linarith) (by
      refine add_le_add le_rfl ?_
      push_cast at g2
      rcases (show termsR rT x = j + 20 ∨ termsR rT x = j + 21 by rw [termsR]; omega) with h | h <;> rw [h]
      exact cf_more hx (j + 20))

/-! ### `expint1` for `x > 1` -/

/-- C102: for `x > 1` the relative error of `expint1` is at most that of the library exponential, eight roundings, and the
truncation of the continued fraction: the roundings in its 20 to 100 steps do not accumulate. -/
theorem C102_expint1_large (F : Fmt p emin rT) (hex : GoodExp emin ε ex) (hε0 : 0 ≤ ε) (hε : ε ≤ 1 / 1000) (h1 : 1 < x)
    (hxN : 1000 * x * (2 ^ p * 2 ^ emin) ≤ 1) :
    ∃ v, expint1R rT rL lg ex x = .fin v ∧ |v - E1 x| ≤ (1.1 * ε + 8 * (2 ^ p)⁻¹ + 1.5e-16) * E1 x + 2 * 2 ^ emin := by
  obtain ⟨n, hn, n1, n2, v1, v2⟩ := cf_value F h1
  have hc := expintTR_close F h1.le hxN hn (by omega) n2
  obtain ⟨u0, u1⟩ := Normal.u_small16 F.hp
  have η0 := two_zpow_pos (K := ℝ) emin
  have hE := E1_pos (show 0 < x by linarith)
  refine ⟨_, by rw [expint1R, if_neg (by linarith), if_neg (by linarith), if_neg (by linarith)], ?_⟩
  have c0 := cf_nonneg (show 0 < x by linarith) n (T := 0) le_rfl
  have F1 : 1 / (x + cfR id x n 0) ≤ 1 := by rw [div_le_one (by linarith)]; linarith
  have hr := hc.rel (by linarith)
  have F0 := hc.2.1
  have t0 := hc.1
  have he := hex.error (-x)
  have he0 := hex.nonneg (-x)
  have hR := F.hT.error (by have := F.hp; omega) (ex (-x) * expintTR rT x)
  have E0 := exp_pos (-x)
  generalize expintTR rT x = t at *
  generalize 1 / (x + cfR id x n 0) = G at *
  generalize exp (-x) = E at *
  generalize ex (-x) = e at *
  generalize E1 x = V at *
  generalize ((2 : ℝ) ^ p)⁻¹ = u at *
  generalize (2 : ℝ) ^ emin = η at *
  rw [abs_of_nonneg (mul_nonneg he0 t0.le)] at hR
  clear * - v1 v2 u0 u1 η0 hE F1 F0 t0 hr he he0 hR E0 hε0 hε
  have tG : t ≤ 1.0001 * G := by
    have := (abs_le.1 hr).2
    have : 1.02 * (6 * (1.02 * u)) * G ≤ 0.0001 * G := mul_le_mul_of_nonneg_right (by linarith) F0.le
    linarith
  have k1 : |e * t - V| ≤ 1.0003 * ε * V + 1.0001 * η + 6.25 * u * V + 1.45e-16 * V := by
    have a1 : |(e - E) * t| ≤ (ε * E + η) * t := by rw [abs_mul, abs_of_pos t0]; exact mul_le_mul_of_nonneg_right he t0.le
    have a2 : (ε * E + η) * t ≤ (ε * E + η) * (1.0001 * G) := mul_le_mul_of_nonneg_left tG (by positivity)
    have a3 : ε * (E * G) ≤ ε * (1.0001 * V) := mul_le_mul_of_nonneg_left (by norm_num at v2; linarith) hε0
    have a4 : η * G ≤ η := mul_le_of_le_one_right η0.le F1
    have a5 : |E * (t - G)| ≤ 1.02 * (6 * (1.02 * u)) * (E * G) := by
      rw [abs_mul, abs_of_pos E0]
      have := mul_le_mul_of_nonneg_left hr E0.le
      linarith
    have a6 : 1.02 * (6 * (1.02 * u)) * (E * G) ≤ 1.02 * (6 * (1.02 * u)) * ((1 + 14 / 10 ^ 17) * V) := mul_le_mul_of_nonneg_left (by linarith) (by positivity)
    have a7 : u * V ≥ 0 := by positivity
    have e1 : e * t - V = (e - E) * t + E * (t - G) + (E * G - V) := by ring
    rw [e1]
    have b1 := abs_le.1 (a1.trans a2)
    have b2 := abs_le.1 (a5.trans a6)
    rw [abs_le]
    norm_num at b1 b2 v2 ⊢
    constructor <;> nlinarith
  have k2 : e * t ≤ 1.002 * V + 1.0001 * η := by
    have := (abs_le.1 k1).2
    have b1 : ε * V ≤ 1 / 1000 * V := mul_le_mul_of_nonneg_right hε hE.le
    have b2 : u * V ≤ 1 / 65536 * V := mul_le_mul_of_nonneg_right u1 hE.le
    norm_num at this ⊢
    linarith
  have k3 : u * (e * t) ≤ u * (1.002 * V + 1.0001 * η) := mul_le_mul_of_nonneg_left k2 u0.le
  have k4 : u * η ≤ 1 / 65536 * η := mul_le_mul_of_nonneg_right u1 η0.le
  have k5 : 0 ≤ u * V := by positivity
  have k6 : 0 ≤ ε * V := by positivity
  have := abs_sub_le (rT (e * t)) (e * t) V
  refine this.trans ((add_le_add hR k1).trans ?_)
  norm_num at k3 ⊢
  nlinarith

/-! ### The series -/

/-- The terms of the series. -/
noncomputable def term (x : ℝ) (k : ℕ) : ℝ := (-1) ^ k * x ^ k / ((k + 1) * ((k + 1).factorial : ℝ))

theorem term_succ (x : ℝ) (k : ℕ) : term x (k + 1) = -term x k * (((k + 1 : ℕ) : ℝ) * x / (((k + 1 + 1) * (k + 1 + 1) : ℕ) : ℝ)) := by
  have : ((k + 1 + 1).factorial : ℝ) = (k + 2) * ((k + 1).factorial : ℝ) := by
    rw [Nat.factorial_succ]; push_cast; ring
  have h0 : ((k + 1).factorial : ℝ) ≠ 0 := by positivity
  simp only [term, this]
  push_cast
  field_simp
  ring

theorem ratio_bound (hx : 0 < x) (h1 : x ≤ 1) (k : ℕ) :
    0 ≤ ((k + 1 : ℕ) : ℝ) * x / (((k + 1 + 1) * (k + 1 + 1) : ℕ) : ℝ) ∧ ((k + 1 : ℕ) : ℝ) * x / (((k + 1 + 1) * (k + 1 + 1) : ℕ) : ℝ) ≤ 1 / 4 := by
  refine ⟨by positivity, ?_⟩
  rw [div_le_iff₀ (by positivity)]
  push_cast
  have : (0 : ℝ) ≤ k := by positivity
  nlinarith

/-- The partial sums. -/
noncomputable def psum (x : ℝ) (k : ℕ) : ℝ := ∑ j ∈ Finset.range k, term x j

theorem psum_Q (x : ℝ) (k : ℕ) : Q k x = x * psum x k := by
  rw [Q, psum, Finset.mul_sum]
  refine Finset.sum_congr rfl fun j _ => ?_
  rw [term, pow_succ]; ring

theorem psum_bounds (hx : 0 < x) (h1 : x ≤ 1) (k : ℕ) : (0 ≤ psum x (k + 1) ∧ psum x (k + 1) ≤ 1) ∧
    0 ≤ psum x (k + 1) + term x (k + 1) ∧ psum x (k + 1) + term x (k + 1) ≤ 1 := by
  induction k with
  | zero =>
    have e : term x 1 = -(x / 4) := by simp [term, Nat.factorial]; ring
    have e0 : psum x (0 + 1) = 1 := by simp [psum, term]
    rw [e0, zero_add, e]
    refine ⟨⟨by norm_num, le_rfl⟩, by linarith, by linarith⟩
  | succ k ih =>
    obtain ⟨⟨a1, a2⟩, a3, a4⟩ := ih
    have e : psum x (k + 1 + 1) = psum x (k + 1) + term x (k + 1) := by rw [psum, Finset.sum_range_succ]; rfl
    rw [e, term_succ x (k + 1)]
    obtain ⟨c0, c1⟩ := ratio_bound hx h1 (k + 1)
    generalize ((k + 1 + 1 : ℕ) : ℝ) * x / (((k + 1 + 1 + 1) * (k + 1 + 1 + 1) : ℕ) : ℝ) = c at *
    generalize term x (k + 1) = r at *
    refine ⟨⟨a3, a4⟩, ?_, ?_⟩ <;> rcases le_total 0 r with h | h <;> nlinarith

theorem term_le (hx : 0 < x) (h1 : x ≤ 1) (k m : ℕ) : |term x (k + m)| ≤ (1 / 4) ^ m * |term x k| := by
  induction m with
  | zero => simp
  | succ m ih =>
    rw [← add_assoc, term_succ, abs_mul, abs_neg]
    obtain ⟨c0, c1⟩ := ratio_bound hx h1 (k + m)
    rw [abs_of_nonneg c0, pow_succ]
    generalize ((k + m + 1 : ℕ) : ℝ) * x / (((k + m + 1 + 1) * (k + m + 1 + 1) : ℕ) : ℝ) = c at *
    have := mul_le_mul ih c1 c0 (by positivity)
    linarith

theorem psum_tail (hx : 0 < x) (h1 : x ≤ 1) (k m : ℕ) : |psum x (k + m) - psum x k| ≤ 4 / 3 * (1 - (1 / 4) ^ m) * |term x k| := by
  induction m with
  | zero => simp
  | succ m ih =>
    have e : psum x (k + (m + 1)) = psum x (k + m) + term x (k + m) := by rw [← add_assoc, psum, Finset.sum_range_succ]; rfl
    have := term_le hx h1 k m
    rw [e]
    calc _ = |(psum x (k + m) - psum x k) + term x (k + m)| := by congr 1; ring
      _ ≤ _ := abs_add_le _ _
      _ ≤ 4 / 3 * (1 - (1 / 4) ^ m) * |term x k| + (1 / 4) ^ m * |term x k| := add_le_add ih this
      _ = _ := by rw [pow_succ]; ring

theorem abs_round_le (h : Nearest p emin rT) {f z : ℝ} (hf : IsFloat p emin f) (hz : |z| ≤ f) : |rT z| ≤ f := by
  obtain ⟨h1, h2⟩ := abs_le.1 hz
  exact abs_le.2 ⟨h.mono_float hf.neg h1, h.mono_float' hf h2⟩

/-- One term: three roundings. -/
theorem term_step (F : Fmt p emin rT) (hx : 0 < x) (h1 : x ≤ 1) {k : ℕ} (hk1 : 1 ≤ k) (hk : k ≤ 25) {r ρ D : ℝ} (hr : |r| ≤ (1 / 4) ^ (k - 1))
    (hρ : |r - ρ| ≤ D) :
    |rT (rT (rT (-r * (k : ℝ)) * x) / (((k + 1) * (k + 1) : ℕ) : ℝ))| ≤ (1 / 4) ^ k ∧
      |rT (rT (rT (-r * (k : ℝ)) * x) / (((k + 1) * (k + 1) : ℕ) : ℝ)) - -ρ * ((k : ℝ) * x / (((k + 1) * (k + 1) : ℕ) : ℝ))| ≤
        D / 4 + 3.1 * (2 ^ p)⁻¹ * (1 / 4) ^ k + 1.5 * 2 ^ emin := by
  have hp1 : 1 ≤ p := by have := F.hp; omega
  obtain ⟨u0, u1⟩ := Normal.u_small16 F.hp
  have η0 := two_zpow_pos (K := ℝ) emin
  have fw : IsFloat p emin ((1 / 4 : ℝ) ^ (k - 1) * k) := by
    refine ⟨k, -(2 * (k - 1 : ℕ) : ℤ), ?_, ?_, ?_⟩
    · have : (2 : ℤ) ^ 16 ≤ 2 ^ p := pow_le_pow_right₀ (by norm_num) F.hp
      rw [abs_of_nonneg (by positivity)]
      have : (k : ℤ) ≤ 25 := by exact_mod_cast hk
      omega
    · have := F.hep; have := F.hp; omega
    · rw [zpow_neg, zpow_mul, zpow_natCast, one_div, inv_pow]; norm_num; ring
  have fw' : IsFloat p emin ((1 / 4 : ℝ) ^ k) := by
    have e : (1 / 4 : ℝ) ^ k = 2 ^ (-(2 * k : ℤ)) := by rw [zpow_neg, zpow_mul, zpow_natCast, one_div, inv_pow]; norm_num
    rw [e]
    exact isFloat_zpow hp1 (by have := F.hep; have := F.hp; omega)
  have ew : (1 / 4 : ℝ) ^ k = (1 / 4) ^ (k - 1) * (1 / 4) := by
    rw [← pow_succ]; congr 1; omega
  have k1 : (1 : ℝ) ≤ k := by exact_mod_cast hk1
  have w0 : (0 : ℝ) < (1 / 4) ^ (k - 1) := by positivity
  have hK : (0 : ℝ) < (((k + 1) * (k + 1) : ℕ) : ℝ) := by positivity
  have hkK : (k : ℝ) ≤ (((k + 1) * (k + 1) : ℕ) : ℝ) / 4 := by push_cast; nlinarith
  -- the product with k
  have z1 : |-r * (k : ℝ)| ≤ (1 / 4) ^ (k - 1) * k := by
    rw [abs_mul, abs_neg, abs_of_nonneg (show (0 : ℝ) ≤ k by linarith)]
    exact mul_le_mul_of_nonneg_right hr (by linarith)
  have b1 := abs_round_le F.hT fw z1
  have e1 := (F.hT.error hp1 (-r * (k : ℝ))).trans (add_le_add (mul_le_mul_of_nonneg_left z1 u0.le) le_rfl)
  generalize rT (-r * (k : ℝ)) = a at *
  have z2 : |a * x| ≤ (1 / 4) ^ (k - 1) * k := by
    rw [abs_mul, abs_of_pos hx]
    exact (mul_le_of_le_one_right (abs_nonneg _) h1).trans b1
  have b2 := abs_round_le F.hT fw z2
  have e2 := (F.hT.error hp1 (a * x)).trans (add_le_add (mul_le_mul_of_nonneg_left z2 u0.le) le_rfl)
  generalize rT (a * x) = b at *
  generalize (((k + 1) * (k + 1) : ℕ) : ℝ) = K at *
  have z3 : |b / K| ≤ (1 / 4) ^ k := by
    rw [abs_div, abs_of_pos hK, div_le_iff₀ hK, ew]
    refine b2.trans ?_
    have := mul_le_mul_of_nonneg_left hkK w0.le
    linarith
  have b3 := abs_round_le F.hT fw' z3
  have e3 := (F.hT.error hp1 (b / K)).trans (add_le_add (mul_le_mul_of_nonneg_left z3 u0.le) le_rfl)
  refine ⟨b3, ?_⟩
  generalize rT (b / K) = c at *
  rw [ew] at *
  generalize (1 / 4 : ℝ) ^ (k - 1) = w at *
  generalize ((2 : ℝ) ^ p)⁻¹ = u at *
  generalize (2 : ℝ) ^ emin = η at *
  generalize (k : ℝ) = κ at *
  have D0 : 0 ≤ D := (abs_nonneg _).trans hρ
  clear * - hx h1 hρ hK hkK e1 e2 e3 k1 w0 u0 η0 D0
  have K4 : 4 ≤ K := by linarith
  -- the error of the numerator
  have n1 : |b - -ρ * κ * x| ≤ 2 * (u * (w * κ)) + η + D * κ := by
    have g1 : |(a - -r * κ) * x| ≤ u * (w * κ) + η / 2 := by
      rw [abs_mul, abs_of_pos hx]
      exact (mul_le_of_le_one_right (abs_nonneg _) h1).trans e1
    have g2 : |(ρ - r) * κ * x| ≤ D * κ := by
      rw [abs_mul, abs_of_pos hx]
      refine (mul_le_of_le_one_right (abs_nonneg _) h1).trans ?_
      rw [abs_mul, abs_of_nonneg (show 0 ≤ κ by linarith), abs_sub_comm]
      exact mul_le_mul_of_nonneg_right hρ (by linarith)
    have e : b - -ρ * κ * x = (b - a * x) + (a - -r * κ) * x + (ρ - r) * κ * x := by ring
    rw [e]
    have := abs_add_le ((b - a * x) + (a - -r * κ) * x) ((ρ - r) * κ * x)
    have := abs_add_le (b - a * x) ((a - -r * κ) * x)
    linarith
  have n2 : |b / K - -ρ * (κ * x / K)| ≤ 2 * (u * (w * (1 / 4))) + η / 4 + D / 4 := by
    have e : b / K - -ρ * (κ * x / K) = (b - -ρ * κ * x) / K := by field_simp
    rw [e, abs_div, abs_of_pos hK, div_le_iff₀ hK]
    refine n1.trans ?_
    have h2 : u * (w * κ) ≤ u * (w * (K / 4)) := mul_le_mul_of_nonneg_left (mul_le_mul_of_nonneg_left hkK w0.le) u0.le
    have h3 : D * κ ≤ D * (K / 4) := mul_le_mul_of_nonneg_left hkK D0
    have h4 : η * 4 ≤ η * K := mul_le_mul_of_nonneg_left K4 η0.le
    linarith
  have := abs_sub_le c (b / K) (-ρ * (κ * x / K))
  have : 0 < u * (w * (1 / 4)) := by positivity
  norm_num at *
  linarith

theorem η_le (hep : emin + p ≤ -50) : (2 : ℝ) ^ emin ≤ 1 / 10 ^ 9 * (2 ^ p)⁻¹ := by
  have h : (2 : ℝ) ^ emin ≤ 2 ^ (-50 - p : ℤ) := zpow_le_zpow_right₀ (by norm_num) (by omega)
  refine h.trans ?_
  rw [zpow_sub₀ (by norm_num), zpow_natCast, div_eq_mul_inv]
  exact mul_le_mul_of_nonneg_right (by norm_num) (by positivity)

theorem quarter_mul_le {k : ℕ} (hk : 1 ≤ k) : (k : ℝ) * (1 / 4) ^ k ≤ 1 / 4 := by
  induction k, hk using Nat.le_induction with
  | base => norm_num
  | succ k hk ih =>
    have h1 : (1 : ℝ) ≤ k := by exact_mod_cast hk
    have w0 : (0 : ℝ) < (1 / 4) ^ k := by positivity
    rw [pow_succ]; push_cast
    nlinarith

/-- The loop of the series, wherever it stops: 28.3 roundings. -/
theorem loop_error (F : Fmt p emin rT) (hx : 0 < x) (h1 : x ≤ 1) : ∀ (n k : ℕ) (r e : ℝ), 1 ≤ k → n + k = 26 →
    |r| ≤ (1 / 4) ^ (k - 1) → |r - term x (k - 1)| ≤ 3.1 * (2 ^ p)⁻¹ * ((k - 1 : ℕ) * (1 / 4) ^ (k - 1)) + 2 * 2 ^ emin →
    |e - psum x k| ≤ 1.01 * (2 ^ p)⁻¹ * (k - 1 : ℕ) + 3.1 * (2 ^ p)⁻¹ * (4 / 9 - (3 * k + 1) / 9 * (1 / 4) ^ (k - 1)) + 2 * k * 2 ^ emin →
    |loop01R rT x n k r e - psum x 26| ≤ 28.3 * (2 ^ p)⁻¹ := by
  have hp1 : 1 ≤ p := by have := F.hp; omega
  obtain ⟨u0, u1⟩ := Normal.u_small16 F.hp
  have η0 := two_zpow_pos (K := ℝ) emin
  have η1 := η_le (p := p) F.hep
  intro n
  induction n with
  | zero =>
    intro k r e hk hnk hr hρ he
    obtain rfl : k = 26 := by omega
    simp only [loop01R]
    refine he.trans ?_
    norm_num
    generalize ((2 : ℝ) ^ p)⁻¹ = u at *
    generalize (2 : ℝ) ^ emin = η at *
    clear * - u0 η0 η1
    linarith
  | succ n ih =>
    intro k r e hk hnk hr hρ he
    obtain ⟨j, rfl⟩ : ∃ j, k = j + 1 := ⟨k - 1, by omega⟩
    rw [Nat.add_sub_cancel] at *
    simp only [loop01R]
    obtain ⟨s1, s2⟩ := term_step F hx h1 (k := j + 1) (by omega) (by omega) (ρ := term x j) (by simpa using hr) hρ
    rw [← term_succ] at s2
    generalize rT (rT (rT (-r * ((j + 1 : ℕ) : ℝ)) * x) / (((j + 1 + 1) * (j + 1 + 1) : ℕ) : ℝ)) = r' at *
    have hq := quarter_mul_le (k := j + 1) (by omega)
    have hw : (1 / 4 : ℝ) ^ (j + 1) = (1 / 4) ^ j * (1 / 4) := pow_succ _ _
    have w0 : (0 : ℝ) < (1 / 4) ^ j := by positivity
    have j0 : (0 : ℝ) ≤ j := by positivity
    have j24 : (j : ℝ) ≤ 24 := by
      have : j ≤ 24 := by omega
      exact_mod_cast this
    have s2' : |r' - term x (j + 1)| ≤ 3.1 * (2 ^ p)⁻¹ * ((j + 1 : ℕ) * (1 / 4) ^ (j + 1)) + 2 * 2 ^ emin := by
      refine s2.trans (le_of_eq ?_)
      rw [hw]; push_cast; ring
    have D1 : |r' - term x (j + 1)| ≤ 0.78 * (2 ^ p)⁻¹ := by
      refine s2'.trans ?_
      have := mul_le_mul_of_nonneg_left hq (show 0 ≤ 3.1 * ((2 : ℝ) ^ p)⁻¹ by positivity)
      linarith
    have E1' : |e - psum x (j + 1)| ≤ 1.01 * (2 ^ p)⁻¹ * j + 1.38 * (2 ^ p)⁻¹ := by
      refine he.trans ?_
      have a1 : 0 ≤ ((2 : ℝ) ^ p)⁻¹ * ((3 * ((j + 1 : ℕ) : ℝ) + 1) / 9 * (1 / 4) ^ j) := by positivity
      have a2 : ((j + 1 : ℕ) : ℝ) * 2 ^ emin ≤ 25 * 2 ^ emin := mul_le_mul_of_nonneg_right (by push_cast; linarith) η0.le
      clear * - a1 a2 η0 η1 u0
      generalize ((2 : ℝ) ^ p)⁻¹ = u at *
      generalize (2 : ℝ) ^ emin = η at *
      norm_num at *
      nlinarith
    -- the sum
    obtain ⟨-, p3, p4⟩ := psum_bounds hx h1 j
    have hz : |e + r'| ≤ 1.001 := by
      have b1 : (2 ^ p)⁻¹ * (j : ℝ) ≤ (2 ^ p)⁻¹ * 24 := mul_le_mul_of_nonneg_left j24 u0.le
      obtain ⟨d1, d2⟩ := abs_le.1 D1
      obtain ⟨d3, d4⟩ := abs_le.1 E1'
      rw [abs_le]
      clear * - b1 d1 d2 d3 d4 p3 p4 u0 u1
      constructor <;> linarith
    have hrd : |rT (e + r') - (e + r')| ≤ 1.01 * (2 ^ p)⁻¹ := by
      refine (F.hT.error hp1 _).trans ?_
      have := mul_le_mul_of_nonneg_left hz u0.le
      clear * - this u0 η1
      linarith
    split
    · next hb =>
      rw [hb] at hrd
      have hr1 : |r'| ≤ 1.01 * (2 ^ p)⁻¹ := by rwa [sub_add_cancel_left, abs_neg] at hrd
      have ht : |term x (j + 1)| ≤ 1.79 * (2 ^ p)⁻¹ := by
        have : term x (j + 1) = r' - (r' - term x (j + 1)) := by ring
        rw [this]
        refine (abs_sub _ _).trans ?_
        linarith
      have tl := psum_tail hx h1 (j + 1) (n + 1)
      rw [show j + 1 + (n + 1) = 26 by omega] at tl
      have tl' : |psum x 26 - psum x (j + 1)| ≤ 4 / 3 * |term x (j + 1)| := by
        refine tl.trans (mul_le_mul_of_nonneg_right ?_ (abs_nonneg _))
        have : (0 : ℝ) < (1 / 4) ^ (n + 1) := by positivity
        linarith
      have b1 : (2 ^ p)⁻¹ * (j : ℝ) ≤ (2 ^ p)⁻¹ * 24 := mul_le_mul_of_nonneg_left j24 u0.le
      have := abs_sub_le e (psum x (j + 1)) (psum x 26)
      rw [abs_sub_comm (psum x (j + 1))] at this
      linarith
    · have e1 : psum x (j + 1 + 1) = psum x (j + 1) + term x (j + 1) := by rw [psum, Finset.sum_range_succ]; rfl
      refine ih (j + 1 + 1) r' _ (by omega) (by omega) (by simpa using s1) (by simpa using s2') ?_
      rw [e1, Nat.add_sub_cancel]
      have e2 : rT (e + r') - (psum x (j + 1) + term x (j + 1)) = (rT (e + r') - (e + r')) + (e - psum x (j + 1)) + (r' - term x (j + 1)) := by ring
      rw [e2]
      have t1 := abs_add_le ((rT (e + r') - (e + r')) + (e - psum x (j + 1))) (r' - term x (j + 1))
      have t2 := abs_add_le (rT (e + r') - (e + r')) (e - psum x (j + 1))
      refine (t1.trans (add_le_add (t2.trans (add_le_add hrd he)) s2')).trans (le_of_eq ?_)
      rw [hw]; push_cast; ring

theorem long_error (hL : Nearest P Emin rL) (hp : 1 ≤ p) (hP : p ≤ P) (hE : Emin ≤ emin) (z : ℝ) :
    |rL z - z| ≤ (2 ^ p)⁻¹ * |z| + 2 ^ emin / 2 := by
  have h1 : ((2 : ℝ) ^ P)⁻¹ ≤ (2 ^ p)⁻¹ := inv_anti₀ (by positivity) (pow_le_pow_right₀ (by norm_num) hP)
  have h2 : (2 : ℝ) ^ Emin ≤ 2 ^ emin := zpow_le_zpow_right₀ (by norm_num) hE
  have := hL.error (by omega) z
  have := mul_le_mul_of_nonneg_right h1 (abs_nonneg z)
  linarith

theorem exact_low (hx : 0 < x) (h1 : x ≤ 1) : |-euler - log x + x * psum x 26 - E1 x| ≤ 1 / 10 ^ 19 * E1 x := by
  obtain ⟨v, hv, hb⟩ := value_low hx h1
  rw [expint01_fin hx, XF.fin.injEq, psum_Q] at hv
  rw [hv]; exact hb

/-- The value on `(0, 1]`. -/
theorem expint01_error (F : Fmt p emin rT) (hL : Nearest P Emin rL) (hP : p ≤ P) (hE : Emin ≤ emin) (hlg : |lg x - log x| ≤ ε * |log x|)
    (hε0 : 0 ≤ ε) (hε : ε ≤ 1 / 1000) (hx : 0 < x) (h1 : x ≤ 1) :
    |expint01R rT rL lg x - E1 x| ≤ 1.01 * ε * |log x| + (2 ^ p)⁻¹ * (3.1 * E1 x + 31 * x + 0.7) + 1.1e-19 * E1 x := by
  have hp1 : 1 ≤ p := by have := F.hp; omega
  obtain ⟨u0, u1⟩ := Normal.u_small16 F.hp
  have η0 := two_zpow_pos (K := ℝ) emin
  have η1 := η_le (p := p) F.hep
  have hlo := loop_error F hx h1 25 1 1 1 le_rfl rfl (by norm_num) (by simp [term]; exact η0.le) (by
    rw [show psum x 1 = 1 by simp [psum, term]]
    norm_num
    exact η0.le)
  have hV := E1_pos hx
  have hex := exact_low hx h1
  obtain ⟨⟨S0, S1⟩, -⟩ := psum_bounds hx h1 25
  norm_num at S0 S1
  rw [expint01R]
  generalize loop01R rT x 25 1 1 1 = e at *
  have r1 := F.hT.error hp1 (x * e)
  have r2 := long_error hL hp1 hP hE euler
  have r3 := long_error hL hp1 hP hE (-rL euler - lg x)
  have r4 := long_error hL hp1 hP hE (rL (-rL euler - lg x) + rT (x * e))
  have r5 := F.hT.error hp1 (rL (rL (-rL euler - lg x) + rT (x * e)))
  have he : euler = 0.577215664901532860606512090082402431042159 := rfl
  have he0 : 0 < euler ∧ euler ≤ 0.578 := by rw [he]; norm_num
  clear he
  generalize rT (rL (rL (-rL euler - lg x) + rT (x * e))) = v at *
  generalize rL (rL (-rL euler - lg x) + rT (x * e)) = B at *
  generalize rL (-rL euler - lg x) = A at *
  generalize rT (x * e) = Q at *
  generalize rL euler = g' at *
  generalize euler = g at *
  generalize lg x = L at *
  generalize E1 x = V at *
  generalize psum x 26 = S at *
  generalize log x = l at *
  generalize ((2 : ℝ) ^ p)⁻¹ = u at *
  generalize (2 : ℝ) ^ emin = η at *
  obtain ⟨g0, g1⟩ := he0
  clear * - hlg hε0 hε hx h1 u0 u1 η0 η1 hlo hV hex S0 S1 r1 r2 r3 r4 r5 g0 g1
  have l0 := abs_nonneg l
  have ul : 0 ≤ ε * |l| := by positivity
  -- the product
  have q1 : |Q - x * S| ≤ 29.4 * u * x + η / 2 := by
    have a1 : |x * (e - S)| ≤ x * (28.3 * u) := by rw [abs_mul, abs_of_pos hx]; exact mul_le_mul_of_nonneg_left hlo hx.le
    have a2 : |x * e| ≤ 1.01 * x := by
      rw [abs_mul, abs_of_pos hx]
      have : |e| ≤ 1.01 := by
        obtain ⟨b1, b2⟩ := abs_le.1 hlo
        rw [abs_le]; constructor <;> linarith
      have := mul_le_mul_of_nonneg_left this hx.le
      linarith
    have a3 := mul_le_mul_of_nonneg_left a2 u0.le
    have e1 : Q - x * S = (Q - x * e) + x * (e - S) := by ring
    rw [e1]
    have := abs_add_le (Q - x * e) (x * (e - S))
    have : 0 < u * x := by positivity
    linarith
  -- the constant and the logarithm
  have q2 : |A - (-g - l)| ≤ 0.59 * u + 1.001 * (ε * |l|) + u * |-g - l| + 1.1 * η := by
    rw [abs_of_pos g0] at r2
    have a0 : |(-g' - L) - (-g - l)| ≤ 0.578 * u + η / 2 + ε * |l| := by
      have e1 : (-g' - L) - (-g - l) = -(g' - g) - (L - l) := by ring
      rw [e1]
      have := abs_sub (-(g' - g)) (L - l)
      rw [abs_neg] at this
      have : u * g ≤ u * 0.578 := mul_le_mul_of_nonneg_left g1 u0.le
      linarith
    have a1 : |-g' - L| ≤ |-g - l| + (0.578 * u + η / 2 + ε * |l|) := by
      have := abs_sub_abs_le_abs_sub (-g' - L) (-g - l)
      linarith
    have a2 := mul_le_mul_of_nonneg_left a1 u0.le
    have a3 : u * (0.578 * u + η / 2 + ε * |l|) ≤ 1 / 65536 * (0.578 * u + η / 2 + ε * |l|) := mul_le_mul_of_nonneg_right u1 (by positivity)
    have := abs_sub_le A (-g' - L) (-g - l)
    linarith
  set v0 := -g - l + x * S with hv0
  have hSx : 0 ≤ x * S ∧ x * S ≤ x := ⟨by positivity, mul_le_of_le_one_right hx.le S1⟩
  have hv0V : |v0| ≤ 1.0001 * V := by
    obtain ⟨b1, b2⟩ := abs_le.1 hex
    norm_num at b1 b2
    rw [abs_le]; constructor <;> linarith
  have q3 : |-g - l| ≤ 1.0001 * V + x := by
    obtain ⟨b1, b2⟩ := abs_le.1 hv0V
    rw [abs_le]; constructor <;> linarith
  set d := 0.59 * u + 1.001 * (ε * |l|) + u * (1.0001 * V + x) + 29.4 * u * x + 1.6 * η with hd
  have d0 : 0 ≤ d := by positivity
  have q4 : |A + Q - v0| ≤ d := by
    have e1 : A + Q - v0 = (A - (-g - l)) + (Q - x * S) := by rw [hv0]; ring
    rw [e1]
    have := abs_add_le (A - (-g - l)) (Q - x * S)
    have := mul_le_mul_of_nonneg_left q3 u0.le
    linarith
  have q5 : |B - v0| ≤ 1.00002 * d + 1.0001 * u * V + η / 2 := by
    have a1 : |A + Q| ≤ 1.0001 * V + d := by
      have := abs_sub_abs_le_abs_sub (A + Q) v0
      linarith
    have a2 := mul_le_mul_of_nonneg_left a1 u0.le
    have a3 : u * d ≤ 1 / 65536 * d := mul_le_mul_of_nonneg_right u1 d0
    have := abs_sub_le B (A + Q) v0
    linarith
  have q6 : |v - v0| ≤ 1.0001 * d + 2.001 * u * V + 1.1 * η := by
    have a1 : |B| ≤ 1.0001 * V + (1.00002 * d + 1.0001 * u * V + η / 2) := by
      have := abs_sub_abs_le_abs_sub B v0
      linarith
    have a2 := mul_le_mul_of_nonneg_left a1 u0.le
    have a3 : u * (1.00002 * d + 1.0001 * u * V + η / 2) ≤ 1 / 65536 * (1.00002 * d + 1.0001 * u * V + η / 2) := mul_le_mul_of_nonneg_right u1 (by positivity)
    have := abs_sub_le v B v0
    have : 0 < u * V := by positivity
    linarith
  have := abs_sub_le v v0 V
  have h1 : 0 < u * V := by positivity
  have h2 : 0 < u * x := by positivity
  norm_num at hex ⊢
  linarith

theorem log_le_E1 (hx : 0 < x) (h1 : x ≤ 1) : |log x| ≤ 1.001 * E1 x + 0.578 := by
  have hex := exact_low hx h1
  obtain ⟨⟨S0, S1⟩, -⟩ := psum_bounds hx h1 25
  norm_num at S0 S1
  have he : euler ≤ 0.578 := by rw [euler]; norm_num
  have := mul_nonneg hx.le S0
  have hV := E1_pos hx
  rw [abs_of_nonpos (log_nonpos hx.le h1)]
  have := (abs_le.1 hex).2
  norm_num at this
  linarith

/-- C102: on `(0, 1]`, where the terms of a series, a constant and a logarithm are added, the error of `expint1` is at most that
of the library logarithm and a few roundings of the result for small `x`, and 180 roundings of the result in any case. -/
theorem C102_expint1_small (F : Fmt p emin rT) (hL : Nearest P Emin rL) (hP : p ≤ P) (hE : Emin ≤ emin) (hlg : GoodLog p emin ε lg)
    (hε0 : 0 ≤ ε) (hε : ε ≤ 1 / 1000) (hx : 0 < x) (h1 : x ≤ 1) (hf : IsFloat p emin x) :
    ∃ v, expint1R rT rL lg ex x = .fin v ∧
      |v - E1 x| ≤ 1.01 * ε * |log x| + (2 ^ p)⁻¹ * (3.1 * E1 x + 31 * x + 0.7) + 1.1e-19 * E1 x ∧
      |v - E1 x| ≤ (4.4 * ε + 180 * (2 ^ p)⁻¹ + 1.1e-19) * E1 x ∧ 0 < v := by
  have h := expint01_error F hL hP hE (hlg.error x hf hx) hε0 hε hx h1
  refine ⟨_, by rw [expint1R, if_neg (by linarith), if_neg hx.ne', if_pos h1], h, ?_⟩
  have hV := E1_pos hx
  have hV' := E1_ge hx h1
  have hl := log_le_E1 hx h1
  obtain ⟨u0, u1⟩ := Normal.u_small16 F.hp
  have h2 : |expint01R rT rL lg x - E1 x| ≤ (4.4 * ε + 180 * (2 ^ p)⁻¹ + 1.1e-19) * E1 x := by
    refine h.trans ?_
    generalize E1 x = V at *
    generalize ((2 : ℝ) ^ p)⁻¹ = u at *
    generalize |log x| = l at *
    clear * - hl hV' u0 hε0 h1 hx hV
    have a1 : ε * l ≤ ε * (1.001 * V + 0.578 * (50 / 9 * V)) := mul_le_mul_of_nonneg_left (by linarith) hε0
    have a2 : u * (3.1 * V + 31 * x + 0.7) ≤ u * (180 * V) := mul_le_mul_of_nonneg_left (by linarith) u0.le
    have a3 : 0 ≤ ε * V := by positivity
    norm_num at a1 a2 ⊢
    linarith
  refine ⟨h2, ?_⟩
  have h3 : (4.4 * ε + 180 * (2 ^ p)⁻¹ + 1.1e-19) * E1 x ≤ 1 / 2 * E1 x := mul_le_mul_of_nonneg_right (by norm_num; linarith) hV.le
  have := (abs_le.1 (h2.trans h3)).1
  linarith

/-- C102: on `(0, 1]` the absolute error of `logexpint1`. -/
theorem C102_logexpint1_small (F : Fmt p emin rT) (hL : Nearest P Emin rL) (hP : p ≤ P) (hE : Emin ≤ emin) (hlg : GoodLog p emin ε lg)
    (hε0 : 0 ≤ ε) (hε : ε ≤ 1 / 1000) (hx : 0 < x) (h1 : x ≤ 1) (hf : IsFloat p emin x) :
    ∃ v, logexpint1R rT rL lg l1 x = .fin v ∧ |v - log (E1 x)| ≤ ε * |log (E1 x)| + 1.03 * (4.4 * ε + 180 * (2 ^ p)⁻¹ + 1.1e-19) := by
  obtain ⟨w, hw, -, h2, w0⟩ := C102_expint1_small (ex := exp) F hL hP hE hlg hε0 hε hx h1 hf
  rw [expint1R, if_neg (by linarith), if_neg hx.ne', if_pos h1, XF.fin.injEq] at hw
  refine ⟨_, by rw [logexpint1R, if_neg (by linarith), if_neg hx.ne', if_pos h1], ?_⟩
  obtain ⟨u0, u1⟩ := Normal.u_small16 F.hp
  have hfw : IsFloat p emin (expint01R rT rL lg x) := (F.hT _).1
  rw [hw] at hfw ⊢
  have k1 := hlg.error w hfw w0
  have k2 := (close_of_rel (E1_pos hx) (by norm_num; linarith) h2).2.2
  generalize log (E1 x) = V at *
  generalize log w = W at *
  generalize lg w = z at *
  generalize 4.4 * ε + 180 * ((2 : ℝ) ^ p)⁻¹ + 1.1e-19 = d at *
  clear * - k1 k2 hε0 hε
  have a1 : |W| ≤ |V| + 1.02 * d := by
    have := abs_sub_abs_le_abs_sub W V
    linarith
  have d0 : 0 ≤ 1.02 * d := (abs_nonneg _).trans k2
  have a2 := mul_le_mul_of_nonneg_left a1 hε0
  have a3 := mul_le_mul_of_nonneg_right hε d0
  have := abs_sub_le z W V
  linarith

/-- C102: for `1 < x ≤ 500` the relative error of `logexpint1` is at most that of the library logarithm, eight roundings and the
truncation of the continued fraction. -/
theorem C102_logexpint1_mid (F : Fmt p emin rT) (hlg : GoodLog p emin ε lg) (hε0 : 0 ≤ ε) (hε : ε ≤ 1 / 1000) (h1 : 1 < x) (h5 : x ≤ 500)
    (hxN : 1000 * x * (2 ^ p * 2 ^ emin) ≤ 1) :
    ∃ v, logexpint1R rT rL lg l1 x = .fin v ∧ |v - log (E1 x)| ≤ (1.1 * ε + 8 * (2 ^ p)⁻¹ + 1.5e-16) * |log (E1 x)| := by
  obtain ⟨n, hn, n1, n2, v1, v2⟩ := cf_value F h1
  have hc := expintTR_close F h1.le hxN hn (by omega) n2
  obtain ⟨u0, u1⟩ := Normal.u_small16 F.hp
  have η0 := two_zpow_pos (K := ℝ) emin
  have η1 := η_le (p := p) F.hep
  have hE := E1_pos (show 0 < x by linarith)
  refine ⟨_, by rw [logexpint1R, if_neg (by linarith), if_neg (by linarith), if_neg (by linarith), if_pos h5], ?_⟩
  have c0 := cf_nonneg (show 0 < x by linarith) n (T := 0) le_rfl
  have G1 : 1 / (x + cfR id x n 0) ≤ 1 := by rw [div_le_one (by linarith)]; linarith
  have hfw : IsFloat p emin (expintTR rT x) := (F.hT _).1
  have k1 := hlg.error _ hfw hc.1
  have k2 := hc.2.2
  have hR := F.hT.error (by have := F.hp; omega) (-x + lg (expintTR rT x))
  have G0 := hc.2.1
  have lG := log_nonpos G0.le G1
  -- the logarithm of the integral
  have m1 : log (E1 x) ≤ -x + log (1 / (x + cfR id x n 0)) := by
    have := log_le_log hE v1.le
    rwa [log_mul (exp_pos _).ne' G0.ne', log_exp] at this
  have m2 : -x + log (1 / (x + cfR id x n 0)) ≤ log (E1 x) + 14 / 10 ^ 17 := by
    have := log_le_log (by positivity) v2
    rw [log_mul (exp_pos _).ne' G0.ne', log_exp, show E1 x + 14 / 10 ^ 17 * E1 x = E1 x * (1 + 14 / 10 ^ 17) by ring,
      log_mul hE.ne' (by norm_num)] at this
    have := log_le_sub_one_of_pos (show (0 : ℝ) < 1 + 14 / 10 ^ 17 by norm_num)
    linarith
  rw [abs_of_nonpos (show log (E1 x) ≤ 0 by linarith)]
  generalize log (1 / (x + cfR id x n 0)) = G at *
  generalize log (expintTR rT x) = t at *
  generalize lg (expintTR rT x) = z at *
  generalize log (E1 x) = V at *
  generalize ((2 : ℝ) ^ p)⁻¹ = u at *
  generalize (2 : ℝ) ^ emin = η at *
  clear * - k1 k2 hR lG m1 m2 u0 u1 η0 η1 hε0 hε h1
  have M1 : 1 ≤ -V := by linarith
  have a1 : |t| ≤ -V + 6.12 * u := by
    have := abs_sub_abs_le_abs_sub t G
    rw [abs_of_nonpos lG] at this
    linarith
  have a2 := mul_le_mul_of_nonneg_left a1 hε0
  have a3 : ε * (6.12 * u) ≤ 1 / 1000 * (6.12 * u) := mul_le_mul_of_nonneg_right hε (by positivity)
  have a4 : |(-x + z) - V| ≤ ε * -V + 6.13 * u + 14 / 10 ^ 17 := by
    have e : (-x + z) - V = (z - t) + (t - G) + (-x + G - V) := by ring
    rw [e]
    have t1 := abs_add_le ((z - t) + (t - G)) (-x + G - V)
    have t2 := abs_add_le (z - t) (t - G)
    rw [abs_of_nonneg (show 0 ≤ -x + G - V by linarith)] at t1
    linarith
  have a5 : |-x + z| ≤ -V + (ε * -V + 6.13 * u + 14 / 10 ^ 17) := by
    have := abs_sub_abs_le_abs_sub (-x + z) V
    rw [abs_of_nonpos (show V ≤ 0 by linarith)] at this
    linarith
  have a6 := mul_le_mul_of_nonneg_left a5 u0.le
  have a7 : u * (ε * -V + 6.13 * u + 14 / 10 ^ 17) ≤ 1 / 65536 * (ε * -V + 6.13 * u + 14 / 10 ^ 17) := by
    refine mul_le_mul_of_nonneg_right u1 ?_
    have : 0 ≤ ε * -V := mul_nonneg hε0 (by linarith)
    positivity
  have a8 : u ≤ u * -V := le_mul_of_one_le_right u0.le M1
  have a9 : 0 ≤ ε * -V := mul_nonneg hε0 (by linarith)
  have := abs_sub_le (rT (-x + z)) (-x + z) V
  norm_num at *
  nlinarith

/-! ### The asymptotic expansion -/

theorem div_err (F : Fmt p emin rT) (h5 : 500 < x) {A A' e M : ℝ} (hA : |A' - A| ≤ e * (2 ^ p)⁻¹) (hM : |A| ≤ M) (hM1 : 1 ≤ M) (he : e ≤ 25) :
    |rT (A' / x) - A / x| ≤ (e / 500 + 0.00201 * M) * (2 ^ p)⁻¹ := by
  obtain ⟨u0, u1⟩ := Normal.u_small16 F.hp
  have η1 := η_le (p := p) F.hep
  have hR := F.hT.error (by have := F.hp; omega) (A' / x)
  have x0 : 0 < x := by linarith
  generalize ((2 : ℝ) ^ p)⁻¹ = u at *
  generalize (2 : ℝ) ^ emin = η at *
  have e0 : 0 ≤ e * u := (abs_nonneg _).trans hA
  have k1 : |A' / x - A / x| ≤ e * u / 500 := by
    rw [← sub_div, abs_div, abs_of_pos x0, div_le_iff₀ x0]
    have := mul_le_mul_of_nonneg_left h5.le (show 0 ≤ e * u / 500 by positivity)
    linarith
  have k2 : |A' / x| ≤ (M + 25 * u) / 500 := by
    rw [abs_div, abs_of_pos x0, div_le_iff₀ x0]
    have := abs_sub_abs_le_abs_sub A' A
    have b1 : e * u ≤ 25 * u := mul_le_mul_of_nonneg_right he u0.le
    have := mul_le_mul_of_nonneg_left h5.le (show 0 ≤ (M + 25 * u) / 500 by positivity)
    linarith
  have k3 := mul_le_mul_of_nonneg_left k2 u0.le
  have k4 : u * u ≤ 1 / 65536 * u := mul_le_mul_of_nonneg_right u1 u0.le
  have k5 : u ≤ u * M := le_mul_of_one_le_right u0.le hM1
  have := abs_sub_le (rT (A' / x)) (A' / x) (A / x)
  linarith

theorem add_err (F : Fmt p emin rT) {b B e m K : ℝ} (hb : |b - B| ≤ e * (2 ^ p)⁻¹) (he : e ≤ 1) (hm : |B| ≤ m) :
    |rT (K + b) - (K + B)| ≤ (e + |K| + m + 0.001) * (2 ^ p)⁻¹ := by
  obtain ⟨u0, u1⟩ := Normal.u_small16 F.hp
  have η1 := η_le (p := p) F.hep
  have hR := F.hT.error (by have := F.hp; omega) (K + b)
  generalize ((2 : ℝ) ^ p)⁻¹ = u at *
  generalize (2 : ℝ) ^ emin = η at *
  have b1 : e * u ≤ 1 * u := mul_le_mul_of_nonneg_right he u0.le
  have k2 : |K + b| ≤ |K| + m + u := by
    have := abs_add_le K b
    have := abs_sub_abs_le_abs_sub b B
    linarith
  have k3 := mul_le_mul_of_nonneg_left k2 u0.le
  have k4 : u * u ≤ 1 / 65536 * u := mul_le_mul_of_nonneg_right u1 u0.le
  have := abs_sub_le (rT (K + b)) (K + b) (K + B)
  rw [add_sub_add_left_eq_sub] at this
  linarith

theorem abs_div_le (h5 : 500 < x) {A M : ℝ} (hM : |A| ≤ M) : |A / x| ≤ M / 500 := by
  have x0 : 0 < x := by linarith
  rw [abs_div, abs_of_pos x0, div_le_iff₀ x0]
  have := mul_le_mul_of_nonneg_left h5.le (show 0 ≤ M / 500 by have := (abs_nonneg _).trans hM; positivity)
  linarith

/-- The sum of the expansion. -/
theorem asym_err (F : Fmt p emin rT) (h5 : 500 < x) :
    |rT (rT (-1 + rT (rT (2 + rT (rT (-6 + rT (rT (24 - rT (120 / x)) / x)) / x)) / x)) / x) - asym x| ≤ 0.005 * (2 ^ p)⁻¹ ∧ |asym x| ≤ 0.003 := by
  have q0 := div_err F h5 (A := 120) (A' := 120) (e := 0) (M := 120) (by simp) (by norm_num) (by norm_num) (by norm_num)
  have m0 := abs_div_le h5 (A := 120) (M := 120) (by norm_num)
  rw [← abs_neg, show -(rT (120 / x) - 120 / x) = -rT (120 / x) - -(120 / x) by ring] at q0
  rw [← abs_neg] at m0
  have a1 := add_err F (K := 24) q0 (by norm_num) m0
  rw [← sub_eq_add_neg, ← sub_eq_add_neg] at a1
  have M1 : |24 - 120 / x| ≤ 25 := by
    have := abs_sub (24 : ℝ) (120 / x)
    rw [abs_neg] at m0
    norm_num at this m0 ⊢; linarith
  have q1 := div_err F h5 a1 M1 (by norm_num) (by norm_num)
  have m1 := abs_div_le h5 M1
  have a2 := add_err F (K := -6) q1 (by norm_num) m1
  have M2 : |-6 + (24 - 120 / x) / x| ≤ 7 := by
    have := abs_add_le (-6 : ℝ) ((24 - 120 / x) / x)
    norm_num at this m1 ⊢; linarith
  have q2 := div_err F h5 a2 M2 (by norm_num) (by norm_num)
  have m2 := abs_div_le h5 M2
  have a3 := add_err F (K := 2) q2 (by norm_num) m2
  have M3 : |2 + (-6 + (24 - 120 / x) / x) / x| ≤ 3 := by
    have := abs_add_le (2 : ℝ) ((-6 + (24 - 120 / x) / x) / x)
    norm_num at this m2 ⊢; linarith
  have q3 := div_err F h5 a3 M3 (by norm_num) (by norm_num)
  have m3 := abs_div_le h5 M3
  have a4 := add_err F (K := -1) q3 (by norm_num) m3
  have M4 : |-1 + (2 + (-6 + (24 - 120 / x) / x) / x) / x| ≤ 1.1 := by
    have := abs_add_le (-1 : ℝ) ((2 + (-6 + (24 - 120 / x) / x) / x) / x)
    norm_num at this m3 ⊢; linarith
  have q4 := div_err F h5 a4 M4 (by norm_num) (by norm_num)
  have m4 := abs_div_le h5 M4
  rw [asym]
  refine ⟨q4.trans (mul_le_mul_of_nonneg_right (by norm_num) (by positivity)), m4.trans (by norm_num)⟩

/-- C102: for `x > 500` the relative error of `logexpint1` is at most that of the library logarithm, three roundings and the
truncation of the asymptotic expansion. -/
theorem C102_logexpint1_large (F : Fmt p emin rT) (hlg : GoodLog p emin ε lg) (hl1 : GoodL1 emin ε' l1) (hε0 : 0 ≤ ε) (hε : ε ≤ 1 / 1000)
    (hε0' : 0 ≤ ε') (hε' : ε' ≤ 1 / 1000) (h5 : 500 < x) (hf : IsFloat p emin x) :
    ∃ v, logexpint1R rT rL lg l1 x = .fin v ∧
      |v - log (E1 x)| ≤ (1.1 * ε + 0.001 * ε' + 3 * (2 ^ p)⁻¹ + 1e-16) * |log (E1 x)| := by
  obtain ⟨u0, u1⟩ := Normal.u_small16 F.hp
  have hp1 : 1 ≤ p := by have := F.hp; omega
  have η0 := two_zpow_pos (K := ℝ) emin
  have η1 := η_le (p := p) F.hep
  obtain ⟨g1, g2, g3, g4, g5⟩ := log_asym h5
  obtain ⟨s1, s2⟩ := asym_err F h5
  refine ⟨_, by rw [logexpint1R, if_neg (by linarith), if_neg (by linarith), if_neg (by linarith), if_neg (by linarith)], ?_⟩
  generalize rT (rT (-1 + rT (rT (2 + rT (rT (-6 + rT (rT (24 - rT (120 / x)) / x)) / x)) / x)) / x) = s at *
  have k1 := hlg.error x hf (by linarith)
  have lx : 0 ≤ log x := log_nonneg (by linarith)
  have r1 := F.hT.error hp1 (-x - lg x)
  have r2 := F.hT.error hp1 (rT (-x - lg x) + l1 s)
  have sb := abs_le.1 s1
  have ab := abs_le.1 s2
  have k2 := hl1.error s (by linarith [sb.1, ab.1])
  -- the two logarithms
  have ln1 : ∀ {y z : ℝ}, 0.99 ≤ y → 0.99 ≤ z → log y - log z ≤ 1.02 * |y - z| := by
    intro y z hy hz
    rw [← log_div (by linarith) (by linarith)]
    refine (log_le_sub_one_of_pos (div_pos (by linarith) (by linarith))).trans ?_
    rw [div_sub_one (by linarith), div_le_iff₀ (by linarith)]
    have := le_abs_self (y - z)
    have := mul_le_mul_of_nonneg_left hz (show 0 ≤ 1.02 * |y - z| by positivity)
    linarith [abs_nonneg (y - z)]
  have b1 : (0.99 : ℝ) ≤ 1 + s := by linarith [sb.1, ab.1]
  have b2 : (0.99 : ℝ) ≤ 1 + asym x := g1
  have c1 : |log (1 + s) - log (1 + asym x)| ≤ 0.0051 * (2 ^ p)⁻¹ := by
    have d1 := ln1 b1 b2
    have d2 := ln1 b2 b1
    rw [abs_sub_comm (1 + asym x)] at d2
    rw [show 1 + s - (1 + asym x) = s - asym x by ring] at d1 d2
    rw [abs_le]; constructor <;> linarith
  have c2 : |log (1 + s)| ≤ 0.01 := by
    have d1 := ln1 b1 (show (0.99 : ℝ) ≤ 1 by norm_num)
    have d2 := ln1 (show (0.99 : ℝ) ≤ 1 by norm_num) b1
    rw [log_one, show 1 + s - 1 = s by ring] at d1
    rw [log_one, show 1 - (1 + s) = -s by ring, abs_neg] at d2
    have : |s| ≤ 0.0031 := by
      have := abs_sub_abs_le_abs_sub s (asym x)
      linarith
    rw [abs_le]; constructor <;> linarith
  rw [abs_of_nonneg lx] at k1
  have lE : log (E1 x) ≤ 0 := by rw [g2]; linarith
  rw [abs_of_nonpos lE] at g4 ⊢
  generalize rT (-x - lg x) = w at *
  generalize rT (w + l1 s) = v at *
  generalize l1 s = q at *
  generalize log (1 + s) = q0 at *
  generalize log (1 + asym x) = q1 at *
  generalize log (x * exp x * E1 x) = q2 at *
  generalize log (E1 x) = V at *
  generalize lg x = L at *
  generalize log x = l at *
  generalize ((2 : ℝ) ^ p)⁻¹ = u at *
  generalize (2 : ℝ) ^ emin = η at *
  clear * - k1 k2 c1 c2 r1 r2 g2 g3 g4 g5 lE lx h5 u0 u1 η0 η1 hε0 hε hε0' hε'
  have M0 : x + l ≤ -V := by linarith
  have e1 : ε * l ≤ ε * -V := mul_le_mul_of_nonneg_left (by linarith) hε0
  have e0 : 0 ≤ ε * l := by positivity
  have e2 : ε * -V ≤ 1 / 1000 * -V := mul_le_mul_of_nonneg_right hε (by linarith)
  have a1 : |-x - L| ≤ x + l + ε * l := by
    have := abs_le.1 k1
    rw [abs_le]; constructor <;> linarith
  have a2 := mul_le_mul_of_nonneg_left a1 u0.le
  have a3 : u * (x + l + ε * l) ≤ u * (1.001 * -V) := mul_le_mul_of_nonneg_left (by linarith) u0.le
  have a4 : |w - (-x - l)| ≤ ε * -V + 1.001 * (u * -V) + η / 2 := by
    have := abs_sub_le w (-x - L) (-x - l)
    rw [show -x - L - (-x - l) = -(L - l) by ring, abs_neg] at this
    linarith
  have f1 : ε' * |q0| ≤ ε' * 0.01 := mul_le_mul_of_nonneg_left c2 hε0'
  have a5 : |q - q2| ≤ 0.01 * ε' + 0.0052 * u + 4.7e-14 := by
    have t1 := abs_sub_le q q0 q2
    have t2 := abs_sub_le q0 q1 q2
    norm_num at *
    linarith
  have a6 : |w + q - V| ≤ ε * -V + 1.001 * (u * -V) + 0.01 * ε' + 0.0053 * u + 4.7e-14 := by
    have e : w + q - V = (w - (-x - l)) + (q - q2) := by rw [g2]; ring
    rw [e]
    have := abs_add_le (w - (-x - l)) (q - q2)
    norm_num at *
    linarith
  have f2 : u * 500 ≤ u * -V := mul_le_mul_of_nonneg_left g4 u0.le
  have f3 : ε' * 500 ≤ ε' * -V := mul_le_mul_of_nonneg_left g4 hε0'
  have f4 : u * -V ≤ 1 / 65536 * -V := mul_le_mul_of_nonneg_right u1 (by linarith)
  have a7 : |w + q| ≤ 1.01 * -V := by
    have := abs_sub_abs_le_abs_sub (w + q) V
    rw [abs_of_nonpos lE] at this
    norm_num at *
    linarith
  have a8 := mul_le_mul_of_nonneg_left a7 u0.le
  have := abs_sub_le v (w + q) V
  have e3 : 0 ≤ ε * -V := by linarith
  norm_num at *
  linarith

/-! ### Exact arithmetic, special values -/

theorem loop01R_exact (x : ℝ) (n : ℕ) : ∀ (k : ℕ) (r e : ℝ), loop01 (.fin x) n k (.fin r) (.fin e) = .fin (loop01R id x n k r e) := by
  induction n with
  | zero => intro k r e; rfl
  | succ n ih =>
    intro k r e
    have hK : (((k + 1) * (k + 1) : ℕ) : ℝ) ≠ 0 := by positivity
    have hd := XF.div_fin (-r * (k : ℝ) * x) _ hK
    simp only [loop01, loop01R, id_eq, XF.neg_fin, XF.mul_fin, hd, XF.add_fin, XF.eq_fin, decide_eq_true_eq]
    split
    · rfl
    · exact ih _ _ _

theorem expint01R_exact (hx : 0 < x) : expint01 (.fin x) = .fin (expint01R id id log x) := by
  rw [expint01, expint01R, loop01R_exact]
  simp [Means.xlog, not_lt.2 hx.le, hx.ne']

theorem expintTR_exact {toInt : XF ℝ → Int} (ht : TruncOk toInt) (h1 : 1 < x) : expintT toInt (.fin x) = .fin (expintTR id x) := by
  have hx : 0 < x := by linarith
  have hq0 : 0 ≤ 80 / x := by positivity
  have hq1 : 80 / x < 80 := by rw [div_lt_iff₀ hx]; linarith
  simp only [expintT, expintTR, termsR, id_eq]
  rw [XF.div_fin _ _ hx.ne', ht _ hq0 (by linarith), cf_exact hx _ le_rfl, XF.add_fin]
  have := cf_nonneg hx (20 + ⌊80 / x⌋).toNat (T := 0) le_rfl
  rw [XF.div_fin _ _ (by linarith)]

/-- C102: without rounding and with the exact library functions the code is the one of C69. -/
theorem C102_exact_arithmetic {toInt : XF ℝ → Int} (ht : TruncOk toInt) (x : ℝ) :
    expint1R id id log exp x = expint1 toInt (.fin x) ∧
    logexpint1R id id log (fun s => log (1 + s)) x = logexpint1 toInt (.fin x) := by
  rcases lt_trichotomy x 0 with hx | rfl | hx
  · simp [expint1R, logexpint1R, expint1, logexpint1, hx]
  · simp [expint1R, logexpint1R, expint1, logexpint1]
  · rcases le_or_gt x 1 with h1 | h1
    · obtain ⟨v, hv, hb⟩ := value_low hx h1
      have hE := E1_pos hx
      have v0 : 0 < v := by
        have := (abs_le.1 hb).1
        norm_num at this
        linarith
      rw [expint01R_exact hx, XF.fin.injEq] at hv
      simp only [expint1R, logexpint1R, expint1, logexpint1, XF.lt_fin, XF.eq_fin, XF.le_fin, not_lt.2 hx.le, hx.ne', h1, decide_false, decide_true,
        if_true, Bool.false_eq_true, if_false, expint01R_exact hx, hv, true_and]
      simp [Means.xlog, not_lt.2 v0.le, v0.ne']
    · have t0 : 0 < expintTR id x := by
        have := cf_nonneg hx (termsR id x) (T := 0) le_rfl
        simp only [expintTR, id_eq]; positivity
      simp only [expint1R, logexpint1R, expint1, logexpint1, XF.lt_fin, XF.eq_fin, XF.le_fin, not_lt.2 hx.le, hx.ne', not_le.2 h1, decide_false,
        Bool.false_eq_true, if_false, expintTR_exact ht h1]
      refine ⟨by simp [Means.xexp], ?_⟩
      rcases le_or_gt x 500 with h5 | h5
      · simp [h5, Means.xlog, not_lt.2 t0.le, t0.ne']
      · have g := (log_asym h5).1
        have hs : (-1 + (2 + (-6 + (24 - 120 / x) / x) / x) / x) / x = asym x := rfl
        have h3 : ¬ asym x < -1 := by linarith
        have h4 : ¬ asym x = -1 := by intro h; linarith
        simp only [not_le.2 h5, if_false, decide_false, Bool.false_eq_true, id_eq]
        rw [XF.div_fin _ _ hx.ne', XF.sub_fin, XF.div_fin _ _ hx.ne', XF.add_fin, XF.div_fin _ _ hx.ne', XF.add_fin, XF.div_fin _ _ hx.ne', XF.add_fin,
          XF.div_fin _ _ hx.ne', hs]
        simp [Elementary.xlog1p, Means.xlog, h3, h4, not_lt.2 hx.le, hx.ne']

/-- C102: arguments that are not positive. -/
theorem C102_special (rT rL lg ex l1 : ℝ → ℝ) : (∀ x < 0, expint1R rT rL lg ex x = .nan ∧ logexpint1R rT rL lg l1 x = .nan) ∧
    expint1R rT rL lg ex 0 = .pinf ∧ logexpint1R rT rL lg l1 0 = .pinf :=
  ⟨fun x hx => by simp [expint1R, logexpint1R, hx], by simp [expint1R], by simp [logexpint1R]⟩

theorem exists_fmt : ∃ rT rL : ℝ → ℝ, Fmt 53 (-1074) rT ∧ Nearest 64 (-16445) rL := by
  obtain ⟨rT, hT⟩ := exists_nearest (K := ℝ) (p := 53) (by norm_num) (-1074)
  obtain ⟨rL, hL⟩ := exists_nearest (K := ℝ) (p := 64) (by norm_num) (-16445)
  exact ⟨rT, rL, ⟨hT, by norm_num, by norm_num⟩, hL⟩

/-- C102: in `double`, with a correctly rounded exponential, `expint1(x)` is within `11 · 2⁻⁵³` of the exponential integral,
relatively, for `1 < x ≤ 2^900`, up to underflow. -/
theorem C102_expint1_double (h : Nearest 53 (-1074) rT) (h1 : 1 < x) (h2 : x ≤ 2 ^ (900 : ℤ)) :
    ∃ v, expint1R rT rL lg (fun y => rT (exp y)) x = .fin v ∧ |v - E1 x| ≤ 11 * (2 ^ 53)⁻¹ * E1 x + 2 * 2 ^ (-1074 : ℤ) := by
  have F : Fmt 53 (-1074) rT := ⟨h, by norm_num, by norm_num⟩
  obtain ⟨v, hv, hb⟩ := C102_expint1_large (rL := rL) (lg := lg) F (Means.goodExp_round h (by norm_num)) (by positivity) (by norm_num) h1 (by
    have e : (2 : ℝ) ^ (53 : ℕ) * 2 ^ (-1074 : ℤ) = 2 ^ (-1021 : ℤ) := by rw [← zpow_natCast, ← zpow_add₀ (by norm_num)]; norm_num
    have e2 : (2 : ℝ) ^ (900 : ℤ) * 2 ^ (-1021 : ℤ) = 2 ^ (-121 : ℤ) := by rw [← zpow_add₀ (by norm_num)]; norm_num
    have e3 : (2 : ℝ) ^ (-121 : ℤ) ≤ 1 / 1000 := by
      calc (2 : ℝ) ^ (-121 : ℤ) ≤ 2 ^ (-10 : ℤ) := zpow_le_zpow_right₀ (by norm_num) (by norm_num)
        _ ≤ 1 / 1000 := by norm_num
    rw [e]
    have := mul_le_mul_of_nonneg_right h2 (two_zpow_pos (K := ℝ) (-1021)).le
    generalize (2 : ℝ) ^ (-1021 : ℤ) = a at *
    generalize (2 : ℝ) ^ (900 : ℤ) = b at *
    generalize (2 : ℝ) ^ (-121 : ℤ) = c at *
    linarith)
  refine ⟨v, hv, hb.trans (add_le_add (mul_le_mul_of_nonneg_right (by norm_num) (E1_pos (by linarith)).le) le_rfl)⟩

/-- The hypotheses are met in `double`, with correctly rounded library functions. -/
example : ∃ rT rL : ℝ → ℝ, Fmt 53 (-1074) rT ∧ Nearest 64 (-16445) rL ∧
    (∃ v, expint1R rT rL (fun y => rT (log y)) (fun y => rT (exp y)) 2 = .fin v ∧ |v - E1 2| ≤ 11 * (2 ^ 53)⁻¹ * E1 2 + 2 * 2 ^ (-1074 : ℤ)) ∧
    (∃ v, expint1R rT rL (fun y => rT (log y)) (fun y => rT (exp y)) (1 / 2) = .fin v ∧ 0 < v ∧ |v - E1 (1 / 2)| ≤ 190 * (2 ^ 53)⁻¹ * E1 (1 / 2)) ∧
    (∃ v, logexpint1R rT rL (fun y => rT (log y)) (fun y => rT (log (1 + y))) 1000 = .fin v ∧
      |v - log (E1 1000)| ≤ 6 * (2 ^ 53)⁻¹ * |log (E1 1000)|) := by
  obtain ⟨rT, rL, F, hL⟩ := exists_fmt
  have g := goodLog_round F.hT (by norm_num) (by norm_num)
  have g1 : GoodL1 (-1074) (2 ^ 53)⁻¹ (fun y => rT (log (1 + y))) := ⟨by simp [F.hT.exact isFloat_zero], fun a _ => by
    have := F.hT.error (by norm_num) (log (1 + a))
    have := two_zpow_pos (K := ℝ) (-1074)
    show |rT (log (1 + a)) - log (1 + a)| ≤ _
    generalize (2 : ℝ) ^ (-1074 : ℤ) = η at *
    linarith⟩
  refine ⟨rT, rL, F, hL, C102_expint1_double F.hT (by norm_num) ?_, ?_, ?_⟩
  · calc (2 : ℝ) = 2 ^ (1 : ℤ) := by norm_num
      _ ≤ 2 ^ (900 : ℤ) := zpow_le_zpow_right₀ (by norm_num) (by norm_num)
  · obtain ⟨v, hv, -, h2, h0⟩ := C102_expint1_small (ex := fun y => rT (exp y)) F hL (by norm_num) (by norm_num) g (by positivity) (by norm_num)
      (x := 1 / 2) (by norm_num) (by norm_num) ⟨1, -1, by norm_num, by norm_num, by norm_num⟩
    exact ⟨v, hv, h0, h2.trans (mul_le_mul_of_nonneg_right (by norm_num) (E1_pos (by norm_num)).le)⟩
  · obtain ⟨v, hv, h2⟩ := C102_logexpint1_large (rL := rL) F g g1 (by positivity) (by norm_num) (by positivity) (by norm_num) (x := 1000) (by norm_num)
      ⟨1000, 0, by norm_num, by norm_num, by norm_num⟩
    exact ⟨v, hv, h2.trans (mul_le_mul_of_nonneg_right (by norm_num) (abs_nonneg _))⟩

end Ufunclab.Expint
