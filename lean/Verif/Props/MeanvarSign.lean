import Verif.Proof.MeanvarSign
import Verif.Model.Meanvar
import Verif.Proof.XF
import Mathlib.Data.Real.Archimedean
/-!
# C106: the mean of `meanvar` lies between the elements and its variance is not negative, in floating point

No bound on the number of elements.  Overflow is not described (see C90).
-/
namespace Ufunclab.Meanvar
open Ufunclab.Float

section
variable {K : Type _} [Field K] [LinearOrder K] [IsStrictOrderedRing K] [Archimedean K]
variable {p : ℕ} {emin : ℤ} {rd : K → K}

/-- The second moment and its compensation. -/
structure M2Ok (p : ℕ) (emin : ℤ) (s c : K) : Prop where
  fs : IsFloat p emin s
  fc : IsFloat p emin c
  nonneg : 0 ≤ s
  small : |c| ≤ 5 * (2 ^ p)⁻¹ * s

/-- A compensated update by something that is not very negative. -/
theorem m2_update (h : Nearest p emin rd) (hp : 20 ≤ p) {s c w : K} (M : M2Ok p emin s c) (fw : IsFloat p emin w) (hw : -(s / 1000) ≤ w)
    {y t : K} (hy : y = rd (w - c)) (ht : t = rd (s + y)) : M2Ok p emin t (rd (rd (t - s) - y)) ∧ (0 ≤ w → 9 / 10 * w ≤ t) := by
  have p1 : 1 ≤ p := by omega
  have fy : IsFloat p emin y := hy ▸ (h _).1
  have ft : IsFloat p emin t := ht ▸ (h _).1
  have u1 := u_le (K := K) hp
  have u0 := u_pos (K := K) (p := p)
  have uz : ∀ {z : K}, 0 ≤ z → (2 ^ p : K)⁻¹ * z ≤ z / 10 ^ 6 := by
    intro z hz
    have := mul_le_mul_of_nonneg_right u1 hz
    linarith
  have s0 := M.nonneg
  have us := uz s0
  obtain ⟨c1, c2⟩ := abs_le.1 M.small
  have r1 := rel h hp (fw.grid.sub M.fc.grid)
  rw [← hy] at r1
  have b1 := uz (abs_nonneg (w - c))
  obtain ⟨a1, a2⟩ := abs_le.1 (r1.trans b1)
  have y1 : -(s / 100) ≤ y := by
    rcases le_total 0 (w - c) with k | k
    · rw [abs_of_nonneg k] at a1; linarith
    · rw [abs_of_nonpos k] at a1; linarith
  have sy : 0 ≤ s + y := by linarith
  have r2 := rel h hp (M.fs.grid.add fy.grid)
  rw [← ht, abs_of_nonneg sy] at r2
  have b2 := uz sy
  obtain ⟨a3, a4⟩ := abs_le.1 (r2.trans b2)
  have t0 : 0 ≤ t := by linarith
  refine ⟨⟨ft, (h _).1, t0, ?_⟩, ?_⟩
  · rcases le_or_gt |y| |s| with sm | bg
    · obtain ⟨f1, f2⟩ := fast2sum_floats h p1 M.fs fy sm
      rw [← ht] at f1 f2
      rw [h.exact f1, show t - s - y = t - (s + y) by ring, h.exact f2]
      refine r2.trans ?_
      rw [show 5 * (2 ^ p : K)⁻¹ * t = (2 ^ p)⁻¹ * (5 * t) by ring]
      exact mul_le_mul_of_nonneg_left (by linarith) u0.le
    · rw [abs_of_nonneg s0] at bg
      have y0 : 0 < y := by
        rcases le_or_gt y 0 with hc | hc
        · rw [abs_of_nonpos hc] at bg; linarith
        · exact hc
      have r4 := rel h hp (ft.grid.sub M.fs.grid)
      have fs : IsFloat p emin (rd (t - s)) := (h _).1
      have r5 := rel h hp (fs.grid.sub fy.grid)
      have A : |rd (t - s) - y| ≤ (2 ^ p)⁻¹ * |t - s| + (2 ^ p)⁻¹ * (s + y) := by
        rw [show rd (t - s) - y = (rd (t - s) - (t - s)) + (t - (s + y)) by ring]
        exact (abs_add_le _ _).trans (add_le_add r4 r2)
      have B := abs_sub_abs_le_abs_sub (rd (rd (t - s) - y)) (rd (t - s) - y)
      have C := uz (abs_nonneg (rd (t - s) - y))
      have D : (2 ^ p : K)⁻¹ * |t - s| + (2 ^ p)⁻¹ * (s + y) ≤ 4 * ((2 ^ p)⁻¹ * t) := by
        rw [← mul_add, ← mul_left_comm]
        refine mul_le_mul_of_nonneg_left ?_ u0.le
        have : |t - s| ≤ 2 * t := by rw [abs_le]; constructor <;> linarith
        linarith
      have E : 0 ≤ (2 ^ p : K)⁻¹ * t := by positivity
      linarith
  · intro w0
    have := abs_sub w c
    rw [abs_of_nonneg w0] at this
    have := M.small
    linarith

theorem round_tiny (h : Nearest p emin rd) (hp : 20 ≤ p) {z : K} (hz : |z| < 2 ^ emin / 2) : rd z = 0 := by
  have e0 : (0 : K) < 2 ^ emin := two_zpow_pos _
  have one : (1 : K) ≤ 2 ^ p := one_le_pow₀ (by norm_num)
  have b : |z| ≤ 2 ^ p * 2 ^ emin := by nlinarith
  have := h.half (show 1 ≤ p by omega) le_rfl b
  obtain ⟨n, hn⟩ := (h z).1.grid
  have l : |rd z| < 2 ^ emin := by
    have := abs_sub_abs_le_abs_sub (rd z) z
    linarith
  rw [hn, abs_mul, abs_two_zpow] at l
  have : |(n : K)| < 1 := by
    by_contra hc
    push Not at hc
    nlinarith
  have : |n| < 1 := by exact_mod_cast this
  have : n = 0 := Int.abs_lt_one_iff.1 this
  rw [hn, this]; simp

theorem loop_sign (h : Nearest p emin rd) (hp : 20 ≤ p) (he : emin ≤ 0) {lo hi : K} : ∀ (xs : List K) (k : ℕ) (m s c1 c2 : K), 1 ≤ k →
    (Good p emin rd m c1 ∨ Bad p emin lo hi m c1 ∧ (2 ^ p * 2 ^ emin ≤ m ^ 2 → 3 / 10 * m ^ 2 ≤ s)) → lo ≤ m → m ≤ hi → M2Ok p emin s c2 →
    (∀ x ∈ xs, IsFloat p emin x ∧ lo ≤ x ∧ x ≤ hi) →
    lo ≤ (loop rd k m s c1 c2 xs).1 ∧ (loop rd k m s c1 c2 xs).1 ≤ hi ∧ 0 ≤ (loop rd k m s c1 c2 xs).2 := by
  intro xs
  induction xs with
  | nil => intro k m s c1 c2 _ _ h1 h2 h3 _; exact ⟨h1, h2, h3.nonneg⟩
  | cons x xs ih =>
    intro k m s c1 c2 hk S h1 h2 M hx
    obtain ⟨fx, x1, x2⟩ := hx x (by simp)
    have p1 : 1 ≤ p := by omega
    have f2 : IsFloat p emin (2 : K) := by simpa using isFloat_zpow (K := K) p1 (emin := emin) (e := 1) (by omega)
    have hN : 2 ≤ rd ((k + 1 : ℕ) : K) := h.mono_float f2 (by exact_mod_cast (by omega : 2 ≤ k + 1))
    simp only [loop, compensatedUpdate]
    generalize hd : rd (x - m) = d
    generalize hy : rd (rd (d / rd ((k + 1 : ℕ) : K)) - c1) = y
    generalize ht : rd (m + y) = t
    obtain ⟨t1, t2, pr, st⟩ := step h hp (S.imp id (·.1)) h1 h2 fx x1 x2 hN hd.symm hy.symm ht.symm
    generalize hP : d * rd (x - t) = P at pr st
    have u1 := u_le (K := K) hp
    have u0 := u_pos (K := K) (p := p)
    have e0 : (0 : K) < 2 ^ emin := two_zpow_pos _
    have hpu : (2 ^ p : K)⁻¹ * 2 ^ p = 1 := inv_mul_cancel₀ (by positivity)
    have hw : -(s / 1000) ≤ rd P := by
      have s0 := M.nonneg
      rcases pr with pr | ⟨b, pr⟩
      · have : 0 ≤ rd P := h.mono_float isFloat_zero pr
        linarith
      · rcases le_or_gt (2 ^ p * 2 ^ emin) (m ^ 2) with mb | ms
        · have s3 : 3 / 10 * m ^ 2 ≤ s ∨ 0 ≤ rd P := by
            rcases S with g | b'
            · right
              -- a good state gives a product that is not negative
              refine h.mono_float isFloat_zero ?_
              rw [← hP, ← hd]
              rcases le_total m x with mx | mx
              · have := between_up h hp g fx hN mx
                rw [hd, hy, ht] at this
                exact mul_nonneg (h.mono_float isFloat_zero (by linarith)) (h.mono_float isFloat_zero (by linarith [this.2]))
              · have := between_up (negate h) hp g.negate fx.neg hN (neg_le_neg mx)
                simp only [show -(-x - -m) = x - m by ring, hd, neg_div, neg_neg] at this
                rw [show -(-rd (d / rd ((k + 1 : ℕ) : K)) - -c1) = rd (d / rd ((k + 1 : ℕ) : K)) - c1 by ring, hy, show -(-m + -y) = m + y by ring, ht] at this
                exact mul_nonneg_of_nonpos_of_nonpos (h.mono_float' isFloat_zero (by linarith)) (h.mono_float' isFloat_zero (by linarith [this.2]))
            · exact .inl (b'.2 mb)
          rcases s3 with s3 | s3
          · have a := h.abs_le_two P
            have uu : (2 ^ p : K)⁻¹ * (2 ^ p)⁻¹ ≤ 1 / 10 ^ 12 := by
              calc _ ≤ (1 / 10 ^ 6 : K) * (1 / 10 ^ 6) := mul_le_mul u1 u1 u0.le (by norm_num)
                _ = _ := by norm_num
            have mm := mul_le_mul_of_nonneg_right uu (sq_nonneg m)
            have := neg_le_abs (rd P)
            have := sq_nonneg m
            linarith
          · linarith
        · have : rd P = 0 := by
            refine round_tiny h hp (lt_of_le_of_lt pr ?_)
            have a : 40000 * ((2 ^ p)⁻¹ * (2 ^ p)⁻¹) * m ^ 2 ≤ 40000 * ((2 ^ p)⁻¹ * (2 ^ p)⁻¹) * (2 ^ p * 2 ^ emin) :=
              mul_le_mul_of_nonneg_left ms.le (by positivity)
            have e : 40000 * ((2 ^ p)⁻¹ * (2 ^ p : K)⁻¹) * (2 ^ p * 2 ^ emin) = 40000 * (2 ^ p)⁻¹ * 2 ^ emin := by
              rw [show 40000 * ((2 ^ p)⁻¹ * (2 ^ p : K)⁻¹) * (2 ^ p * 2 ^ emin) = 40000 * (2 ^ p)⁻¹ * 2 ^ emin * ((2 ^ p)⁻¹ * 2 ^ p) by ring, hpu, mul_one]
            have := mul_le_mul_of_nonneg_right u1 e0.le
            linarith
          linarith
    generalize hy2 : rd (rd P - c2) = y2
    generalize ht2 : rd (s + y2) = s2
    obtain ⟨M', grow⟩ := m2_update h hp M (h P).1 hw hy2.symm ht2.symm
    refine ih (k + 1) t s2 _ _ (by omega) ?_ t1 t2 M' fun z hz => hx z (by simp [hz])
    refine st.imp id fun ⟨b, l⟩ => ⟨b, fun tb => ?_⟩
    have P0 : 0 ≤ P := le_trans (by positivity) l
    have r := h.error p1 P
    rw [abs_of_nonneg P0] at r
    have uP := mul_le_mul_of_nonneg_right u1 P0
    have eη : (2 : K) ^ emin ≤ t ^ 2 / 10 ^ 6 := by
      have : (2 : K) ^ emin ≤ (2 ^ p)⁻¹ * t ^ 2 := by
        rw [inv_mul_eq_div, le_div_iff₀ (by positivity)]; linarith
      have := mul_le_mul_of_nonneg_right u1 (sq_nonneg t)
      linarith
    have w1 := (abs_le.1 r).1
    have := sq_nonneg t
    have w2 : 39 / 100 * t ^ 2 ≤ rd P := by linarith
    have := grow (by linarith)
    linarith

/-- C106: in floating point, for every array of at least one element and every `ddof` less than the number of elements, the mean
that `meanvar` returns is between any bounds of the elements (so between the smallest and the largest one), and the variance is not negative. -/
theorem C106_range (h : Nearest p emin rd) (hp : 20 ≤ p) (he : emin ≤ 0) (x : List K) (hne : x ≠ []) (hf : ∀ a ∈ x, IsFloat p emin a)
    (ddof : Int) (hd : ddof < x.length) :
    ∃ m v, meanvar rd x ddof = (.fin m, .fin v) ∧ 0 ≤ v ∧ ∀ lo hi, (∀ a ∈ x, lo ≤ a ∧ a ≤ hi) → lo ≤ m ∧ m ≤ hi := by
  have p1 : 1 ≤ p := by omega
  have f1 : IsFloat p emin (1 : K) := isFloat_one p1 he
  have key : ∀ lo hi, (∀ a ∈ x, lo ≤ a ∧ a ≤ hi) → lo ≤ (loop rd 0 0 0 0 0 x).1 ∧ (loop rd 0 0 0 0 0 x).1 ≤ hi ∧ 0 ≤ (loop rd 0 0 0 0 0 x).2 := by
    intro lo hi hb
    obtain ⟨a, l, rfl⟩ := List.exists_cons_of_ne_nil hne
    have fa := hf a (by simp)
    have ra := h.exact fa
    obtain ⟨b1, b2⟩ := hb a (by simp)
    simp only [loop, compensatedUpdate, sub_zero, zero_add, Nat.cast_one, h.exact f1, div_one, ra, sub_self, h.round_zero, mul_zero]
    refine loop_sign h hp he l 1 a 0 0 0 le_rfl (.inl ⟨fa, isFloat_zero, by rw [sub_zero, ra]⟩) b1 b2 ⟨isFloat_zero, isFloat_zero, le_rfl, by simp⟩ ?_
    exact fun z hz => ⟨hf z (by simp [hz]), hb z (by simp [hz])⟩
  have N1 : 1 ≤ rd (((x.length : Int) - ddof : Int) : K) := h.mono_float f1 (by exact_mod_cast (by omega : (1 : Int) ≤ (x.length : Int) - ddof))
  refine ⟨(loop rd 0 0 0 0 0 x).1, rd ((loop rd 0 0 0 0 0 x).2 / rd (((x.length : Int) - ddof : Int) : K)), ?_, ?_, fun lo hi hb => ⟨(key lo hi hb).1, (key lo hi hb).2.1⟩⟩
  · simp only [meanvar]
    rw [XF.div_fin _ _ (by linarith)]
    rfl
  · -- any list has bounds
    have : ∃ lo hi, ∀ a ∈ x, lo ≤ a ∧ a ≤ hi := by
      clear hne hf hd key N1
      induction x with
      | nil => exact ⟨0, 0, by simp⟩
      | cons a l ih =>
        obtain ⟨lo, hi, hb⟩ := ih
        refine ⟨min a lo, max a hi, fun z hz => ?_⟩
        rcases List.mem_cons.1 hz with rfl | hz
        · exact ⟨min_le_left _ _, le_max_left _ _⟩
        · exact ⟨(min_le_right _ _).trans (hb z hz).1, (hb z hz).2.trans (le_max_right _ _)⟩
    obtain ⟨lo, hi, hb⟩ := this
    exact h.mono_float isFloat_zero (div_nonneg (key lo hi hb).2.2 (by linarith))

end

/-- C106: a variance of 0 does not mean that all elements are equal, and the variance depends on the order of the elements: of the
two orders of 1 and the next double, one gives 0 and the other one gives twice the true value. -/
theorem C106_zero_violated {rd : ℝ → ℝ} (h : Nearest 53 (-1074) rd) :
    (meanvar rd [1, 1 + 2 ^ (-52 : ℤ)] 0 = (.fin (1 + 2 ^ (-52 : ℤ)), .fin 0) ∧ meanvar rd [1 + 2 ^ (-52 : ℤ), 1] 0 = (.fin (1 + 2 ^ (-52 : ℤ)), .fin (2 ^ (-105 : ℤ)))) ∨
    (meanvar rd [1, 1 + 2 ^ (-52 : ℤ)] 0 = (.fin 1, .fin (2 ^ (-105 : ℤ))) ∧ meanvar rd [1 + 2 ^ (-52 : ℤ), 1] 0 = (.fin 1, .fin 0)) := by
  have f (e : ℤ) (he : -1074 ≤ e) : rd ((2 : ℝ) ^ e) = 2 ^ e := h.exact (isFloat_zpow (by norm_num) he)
  have fn (e : ℤ) (he : -1074 ≤ e) : rd (-(2 : ℝ) ^ e) = -2 ^ e := h.exact (isFloat_zpow (by norm_num) he).neg
  have f1 : IsFloat 53 (-1074) (1 : ℝ) := isFloat_one (by norm_num) (by norm_num)
  have f1e : IsFloat 53 (-1074) (1 + (2 : ℝ) ^ (-52 : ℤ)) := ⟨2 ^ 52 + 1, -52, by norm_num, by norm_num, by norm_num⟩
  have r1 := h.exact f1
  have r1e := h.exact f1e
  have r0 : rd 0 = 0 := h.round_zero
  have r2 : rd 2 = 2 := by simpa using f 1 (by norm_num)
  have a1 := f (-52) (by norm_num)
  have a2 := f (-53) (by norm_num)
  have a3 := f (-104) (by norm_num)
  have a4 := f (-105) (by norm_num)
  have b1 := fn (-52) (by norm_num)
  have b2 := fn (-53) (by norm_num)
  have mid : rd (1 + (2 : ℝ) ^ (-53 : ℤ)) = 1 ∨ rd (1 + (2 : ℝ) ^ (-53 : ℤ)) = 1 + 2 ^ (-52 : ℤ) := by
    have g1 := h.mono_float (z := 1 + (2 : ℝ) ^ (-53 : ℤ)) f1 (by have := two_zpow_pos (K := ℝ) (-53); linarith)
    have g2 := h.mono_float' (z := 1 + (2 : ℝ) ^ (-53 : ℤ)) f1e (by norm_num)
    obtain ⟨n, hn⟩ := (h (1 + (2 : ℝ) ^ (-53 : ℤ))).1.big_grid (k := -53) (by
      rw [abs_of_pos (by linarith)]; refine le_trans (by norm_num) g1)
    rw [hn] at g1 g2 ⊢
    norm_num at g1 g2 ⊢
    have l1 : (4503599627370496 : ℝ) ≤ n := by linarith
    have l2 : (n : ℝ) ≤ 4503599627370497 := by linarith
    have l1' : (4503599627370496 : ℤ) ≤ n := by exact_mod_cast l1
    have l2' : n ≤ 4503599627370497 := by exact_mod_cast l2
    rcases (by omega : n = 4503599627370496 ∨ n = 4503599627370497) with e | e
    · left; rw [e]; norm_num
    · right; rw [e]; norm_num
  have e1 : (1 : ℝ) + 2 ^ (-52 : ℤ) - 1 = 2 ^ (-52 : ℤ) := by ring
  have e2 : (1 : ℝ) - (1 + 2 ^ (-52 : ℤ)) = -2 ^ (-52 : ℤ) := by ring
  have e3 : (2 : ℝ) ^ (-52 : ℤ) / 2 = 2 ^ (-53 : ℤ) := by norm_num
  have e4 : -(2 : ℝ) ^ (-52 : ℤ) / 2 = -2 ^ (-53 : ℤ) := by norm_num
  have e5 : (1 : ℝ) + 2 ^ (-52 : ℤ) + -2 ^ (-53 : ℤ) = 1 + 2 ^ (-53 : ℤ) := by norm_num
  have e6 : (2 : ℝ) ^ (-52 : ℤ) * 2 ^ (-52 : ℤ) = 2 ^ (-104 : ℤ) := by norm_num
  have e7 : -(2 : ℝ) ^ (-52 : ℤ) * -2 ^ (-52 : ℤ) = 2 ^ (-104 : ℤ) := by norm_num
  have e8 : (2 : ℝ) ^ (-104 : ℤ) / 2 = 2 ^ (-105 : ℤ) := by norm_num
  have dv (a : ℝ) : XF.div (.fin a) (.fin 2) = .fin (a / 2) := XF.div_fin _ _ (by norm_num)
  have two : ((1 + 1 : ℕ) : ℝ) = 2 := by norm_num
  have len : (((2 : ℕ) : ℤ) - 0 : ℤ) = 2 := by norm_num
  rcases mid with hm | hm
  · right
    constructor
    · simp only [meanvar, loop, compensatedUpdate, List.length_cons, List.length_nil, sub_zero, zero_add, Nat.cast_one, r1, r0, r2, div_one, sub_self, mul_zero,
        e1, a1, e3, a2, hm, e6, a3, two]
      norm_num [dv, rnd, r0, r2, e8, a4]
      norm_num at a4; exact a4
    · simp only [meanvar, loop, compensatedUpdate, List.length_cons, List.length_nil, sub_zero, zero_add, Nat.cast_one, r1, r1e, r0, r2, div_one, sub_self, mul_zero,
        e2, b1, e4, b2, e5, hm, two]
      norm_num [dv, rnd, r0, r2]
  · left
    constructor
    · simp only [meanvar, loop, compensatedUpdate, List.length_cons, List.length_nil, sub_zero, zero_add, Nat.cast_one, r1, r0, r2, div_one, sub_self, mul_zero,
        e1, a1, e3, a2, hm, two]
      norm_num [dv, rnd, r0, r2]
    · simp only [meanvar, loop, compensatedUpdate, List.length_cons, List.length_nil, sub_zero, zero_add, Nat.cast_one, r1, r1e, r0, r2, div_one, sub_self, mul_zero,
        e2, b1, e4, b2, e5, hm, e7, a3, two]
      norm_num [dv, rnd, r0, r2, e8, a4]
      norm_num at a4; exact a4

/-- The hypotheses of `C106_range` are met by the array `[3, 1, 2]` in double precision. -/
example : ∃ rd : ℝ → ℝ, Nearest 53 (-1074) rd ∧ ∃ m v, meanvar rd [3, 1, 2] 1 = (.fin m, .fin v) ∧ 0 ≤ v ∧ 1 ≤ m ∧ m ≤ 3 := by
  obtain ⟨rd, h⟩ := exists_nearest (K := ℝ) (p := 53) (by norm_num) (-1074)
  obtain ⟨m, v, h1, h2, h3⟩ := C106_range h (by norm_num) (by norm_num) [3, 1, 2] (by simp)
    (by
      intro a ha
      have f (n : ℤ) (hn : |n| < 2 ^ 53) : IsFloat 53 (-1074) (n : ℝ) := ⟨n, 0, hn, by norm_num, by simp⟩
      have f1 := f 1 (by norm_num)
      have f2 := f 2 (by norm_num)
      have f3 := f 3 (by norm_num)
      push_cast at f1 f2 f3
      simp only [List.mem_cons, List.not_mem_nil, or_false] at ha
      rcases ha with rfl | rfl | rfl <;> assumption) 1 (by norm_num)
  obtain ⟨a, b⟩ := h3 1 3 (by intro a ha; simp only [List.mem_cons, List.not_mem_nil, or_false] at ha; rcases ha with rfl | rfl | rfl <;> norm_num)
  exact ⟨rd, h, m, v, h1, h2, a, b⟩

end Ufunclab.Meanvar
