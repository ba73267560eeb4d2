import Verif.Proof.Float2
import Verif.Proof.FloatRatio
/-!
# The steps of `meanvar` in floating point: the mean stays between the old mean and the element

After a step in which the increment is smaller than the mean the compensation is the exact rounding error (`Good`), and then
the next mean cannot leave the interval between the mean and the element.  After a step with a large increment the
compensation can be off by some units in the last place (`Bad`), but then the mean is far from both ends.
-/
namespace Ufunclab.Meanvar
open Ufunclab.Float
variable {K : Type _} [Field K] [LinearOrder K] [IsStrictOrderedRing K] [Archimedean K]
variable {p : ℕ} {emin : ℤ} {rd : K → K}

structure Good (p : ℕ) (emin : ℤ) (rd : K → K) (m c : K) : Prop where
  fm : IsFloat p emin m
  fc : IsFloat p emin c
  fix : rd (m - c) = m

structure Bad (p : ℕ) (emin : ℤ) (lo hi m c : K) : Prop where
  fm : IsFloat p emin m
  fc : IsFloat p emin c
  small : |c| ≤ 5 * (2 ^ p)⁻¹ * |m|
  big : 2 ^ p * 2 ^ emin ≤ |m|
  below : lo ≤ m - |m| / 10
  above : m + |m| / 10 ≤ hi

theorem u_le (hp : 20 ≤ p) : (2 ^ p : K)⁻¹ ≤ 1 / 10 ^ 6 := by
  rw [one_div]
  refine inv_anti₀ (by norm_num) ?_
  calc (10 ^ 6 : K) ≤ 2 ^ 20 := by norm_num
    _ ≤ 2 ^ p := pow_le_pow_right₀ (by norm_num) hp

theorem u_pos : (0 : K) < (2 ^ p)⁻¹ := by positivity

theorem rel (h : Nearest p emin rd) (hp : 20 ≤ p) {z : K} (hz : OnGrid emin z) : |rd z - z| ≤ (2 ^ p)⁻¹ * |z| :=
  h.rel_error (by omega) hz

theorem Good.small (h : Nearest p emin rd) (hp : 20 ≤ p) {m c : K} (g : Good p emin rd m c) : |c| ≤ 11 / 10 * (2 ^ p)⁻¹ * |m| := by
  have r := rel h hp (g.fm.grid.sub g.fc.grid)
  rw [g.fix, show m - (m - c) = c by ring] at r
  have t := abs_sub m c
  have u1 := u_le (K := K) hp
  have u0 := u_pos (K := K) (p := p)
  generalize (2 ^ p : K)⁻¹ = u at *
  nlinarith [abs_nonneg c, abs_nonneg m]

/-- Sterbenz: a difference that is not large is exact. -/
theorem sterbenz (hp : 1 ≤ p) {m x : K} (fm : IsFloat p emin m) (fx : IsFloat p emin x) (hs : 2 * |x - m| ≤ |m|) : IsFloat p emin (x - m) := by
  obtain ⟨M, e, hM, he, rfl⟩ := fm
  obtain ⟨X, f, hX, hf, rfl⟩ := fx
  have gm : OnGrid e ((M : K) * 2 ^ e) := ⟨M, rfl⟩
  have gx : OnGrid f ((X : K) * 2 ^ f) := ⟨X, rfl⟩
  have lm : |(M : K) * 2 ^ e| < 2 ^ p * 2 ^ e := by
    rw [abs_mul, abs_two_zpow]
    exact mul_lt_mul_of_pos_right (by exact_mod_cast hM) (two_zpow_pos e)
  have lx : |(X : K) * 2 ^ f| < 2 ^ p * 2 ^ f := by
    rw [abs_mul, abs_two_zpow]
    exact mul_lt_mul_of_pos_right (by exact_mod_cast hX) (two_zpow_pos f)
  have t := abs_sub_abs_le_abs_sub ((M : K) * 2 ^ e) ((X : K) * 2 ^ f)
  rw [abs_sub_comm] at t
  have n0 := abs_nonneg ((X : K) * 2 ^ f - (M : K) * 2 ^ e)
  rcases le_total e f with hef | hef
  · exact isFloat_of_grid hp he ((gx.mono hef).sub gm) (by linarith)
  · exact isFloat_of_grid hp hf (gx.sub (gm.mono hef)) (by linarith)

theorem half_float {z : K} (hz : IsFloat p emin z) (hb : 2 ^ p * 2 ^ emin ≤ |z|) : IsFloat p emin (z / 2) := by
  obtain ⟨m, e, hm, he, rfl⟩ := hz
  have hm' : |(m : K)| < 2 ^ p := by exact_mod_cast hm
  refine ⟨m, e - 1, hm, ?_, by rw [zpow_sub_one₀ (by norm_num)]; ring⟩
  by_contra hc
  have : e = emin := by omega
  subst this
  rw [abs_mul, abs_two_zpow] at hb
  exact absurd (le_of_mul_le_mul_right hb (two_zpow_pos e)) (not_le.2 hm')

/-- The rounded quotient by something that is at least two. -/
theorem quot_le (h : Nearest p emin rd) (hp : 20 ≤ p) {d N : K} (fd : IsFloat p emin d) (d0 : 0 ≤ d) (hN : 2 ≤ N) :
    0 ≤ rd (d / N) ∧ (2 ^ p * 2 ^ emin ≤ d → rd (d / N) ≤ d / 2) ∧ rd (d / N) ≤ d / 2 + 2 ^ emin / 2 := by
  have l : d / N ≤ d / 2 := div_le_div_of_nonneg_left d0 (by norm_num) hN
  have q0 : 0 ≤ rd (d / N) := h.mono_float isFloat_zero (by positivity)
  have b : 2 ^ p * 2 ^ emin ≤ d → rd (d / N) ≤ d / 2 := fun hb =>
    h.mono_float' (half_float fd (by rwa [abs_of_nonneg d0])) l
  refine ⟨q0, b, ?_⟩
  have e0 : (0 : K) < 2 ^ emin := two_zpow_pos _
  rcases le_or_gt (2 ^ p * 2 ^ emin) d with hb | hb
  · linarith [b hb]
  · have := h.half (show 1 ≤ p by omega) le_rfl (z := d / 2) (by rw [abs_of_nonneg (by linarith)]; linarith)
    linarith [h.monotone l, (abs_le.1 this).2]

/-- In the good state the new mean is between the mean and the element. -/
theorem between_up (h : Nearest p emin rd) (hp : 20 ≤ p) {m c x N : K} (g : Good p emin rd m c) (fx : IsFloat p emin x) (hN : 2 ≤ N) (hmx : m ≤ x) :
    m ≤ rd (m + rd (rd (rd (x - m) / N) - c)) ∧ rd (m + rd (rd (rd (x - m) / N) - c)) ≤ x := by
  have p1 : 1 ≤ p := by omega
  have gD : OnGrid emin (x - m) := fx.grid.sub g.fm.grid
  obtain ⟨d, hd⟩ : ∃ d, d = rd (x - m) := ⟨_, rfl⟩
  have fd : IsFloat p emin d := hd ▸ (h _).1
  have d0 : 0 ≤ d := by rw [hd]; exact h.mono_float isFloat_zero (by linarith)
  obtain ⟨q0, q1, q2⟩ := quot_le h hp fd d0 hN
  rw [← hd]
  obtain ⟨q, hq⟩ : ∃ q, q = rd (d / N) := ⟨_, rfl⟩
  have fq : IsFloat p emin q := hq ▸ (h _).1
  have q3 : q ≤ rd (d / 2) := by rw [hq]; exact h.monotone (div_le_div_of_nonneg_left d0 (by norm_num) hN)
  rw [← hq] at q0 q1 q2 ⊢
  have y0 : -c ≤ rd (q - c) := h.mono_float g.fc.neg (by linarith)
  constructor
  · calc m = rd (m - c) := g.fix.symm
      _ ≤ _ := h.monotone (by linarith)
  rcases hmx.eq_or_lt with e | lt
  · subst e
    rw [sub_self, h.round_zero] at hd
    rw [hd, zero_div, h.round_zero] at hq
    rw [hq, zero_sub, h.exact g.fc.neg, ← sub_eq_add_neg, g.fix]
  have cD : -c ≤ (x - m) / 2 := by
    have := (h (m - c)).2 x fx
    rw [g.fix, show m - (m - c) = c by ring, show x - (m - c) = x - m + c by ring] at this
    rcases le_total 0 c with c0 | c0
    · linarith
    · rw [abs_of_nonpos c0] at this
      rcases le_total 0 (x - m + c) with s | s
      · rw [abs_of_nonneg s] at this; linarith
      · rw [abs_of_nonpos s] at this; linarith
  have key : rd (q - c) ≤ x - m := by
    rcases le_or_gt (x - m) (2 ^ p * 2 ^ emin) with sm | bg
    · have fD : IsFloat p emin (x - m) := isFloat_of_grid p1 le_rfl gD (by rw [abs_of_nonneg (by linarith)]; exact sm)
      rw [h.exact fD] at hd
      refine h.mono_float' fD ?_
      obtain ⟨n, hn⟩ := gD
      obtain ⟨k, hk⟩ := g.fc.grid
      have e0 : (0 : K) < 2 ^ emin := two_zpow_pos _
      have hk2 : -k ≤ n / 2 := by
        rw [hn, hk] at cD
        have : (-k : K) ≤ n / 2 := by
          by_contra hc
          push Not at hc
          have := mul_lt_mul_of_pos_right hc e0
          linarith
        have : (-(2 * k) : K) ≤ n := by linarith
        have : -(2 * k) ≤ n := by exact_mod_cast this
        omega
      have n0 : 0 < n := by
        have : (0 : K) < n := by
          by_contra hc
          push Not at hc
          have := mul_nonpos_of_nonpos_of_nonneg hc e0.le
          linarith
        exact_mod_cast this
      have fg : IsFloat p emin ((((n + 1) / 2 : ℤ) : K) * 2 ^ emin) := by
        refine isFloat_of_grid p1 le_rfl ⟨_, rfl⟩ ?_
        rw [abs_mul, abs_two_zpow]
        rw [hn] at sm
        refine le_trans (mul_le_mul_of_nonneg_right ?_ e0.le) sm
        rw [abs_of_nonneg (by exact_mod_cast (by omega : 0 ≤ (n + 1) / 2))]
        exact_mod_cast (by omega : (n + 1) / 2 ≤ n)
      have q4 : q ≤ (((n + 1) / 2 : ℤ) : K) * 2 ^ emin := by
        refine q3.trans (h.mono_float' fg ?_)
        rw [hd, hn]
        have : (n : ℤ) ≤ 2 * ((n + 1) / 2) := by omega
        have : (n : K) ≤ 2 * (((n + 1) / 2 : ℤ) : K) := by exact_mod_cast this
        have := mul_le_mul_of_nonneg_right this e0.le
        linarith
      have z : (n + 1) / 2 + -k ≤ n := by omega
      have z2 : (((n + 1) / 2 : ℤ) : K) + -(k : K) ≤ n := by exact_mod_cast z
      have := mul_le_mul_of_nonneg_right z2 e0.le
      rw [hn, hk]
      linarith
    · have db : 2 ^ p * 2 ^ emin ≤ d := by
        rw [hd]
        refine h.mono_float ?_ bg.le
        rw [pow_zpow]; exact isFloat_zpow p1 (by omega)
      have q5 := q1 db
      by_cases fD : IsFloat p emin (x - m)
      · rw [h.exact fD] at hd
        exact h.mono_float' fD (by linarith)
      · have st : |m| < 2 * (x - m) := by
          by_contra hc
          push Not at hc
          exact fD (sterbenz p1 g.fm fx (by rw [abs_of_nonneg (by linarith)]; exact hc))
        have cs := g.small h hp
        have r1 := rel h hp gD
        have r2 := rel h hp (fq.grid.sub g.fc.grid)
        rw [← hd] at r1
        have u1 := u_le (K := K) hp
        have u0 := u_pos (K := K) (p := p)
        have t := abs_sub q c
        rw [abs_of_nonneg q0] at t
        rw [abs_of_pos (by linarith : 0 < x - m)] at r1
        have a1 := (abs_le.1 r1).2
        have a2 := (abs_le.1 r2).2
        have c1 := neg_le_abs c
        generalize (2 ^ p : K)⁻¹ = u at *
        generalize x - m = D at *
        have c2 : |c| ≤ D / 1000 := by nlinarith [abs_nonneg m]
        have c3 : u * |q - c| ≤ D / 1000 := by nlinarith [abs_nonneg (q - c)]
        have c4 : u * D ≤ D / 1000 := by nlinarith
        linarith
  exact h.mono_float' fx (by linarith)

/-- In the bad state with a small increment the new mean stays close, and the sign of `x - mean` can be wrong only when all is
within units in the last place. -/
theorem bad_up (h : Nearest p emin rd) (hp : 20 ≤ p) {lo hi m c x N : K} (b : Bad p emin lo hi m c) (fx : IsFloat p emin x) (hN : 2 ≤ N) (hmx : m ≤ x)
    (hy : |rd (rd (rd (x - m) / N) - c)| ≤ |m|) :
    m - |m| / 10 ≤ rd (m + rd (rd (rd (x - m) / N) - c)) ∧ rd (m + rd (rd (rd (x - m) / N) - c)) ≤ max x (m + |m| / 10) ∧
    (rd (m + rd (rd (rd (x - m) / N) - c)) ≤ x ∨
      |rd (x - m) * rd (x - rd (m + rd (rd (rd (x - m) / N) - c)))| ≤ 40000 * ((2 ^ p)⁻¹ * (2 ^ p)⁻¹) * m ^ 2) := by
  have p1 : 1 ≤ p := by omega
  have gD : OnGrid emin (x - m) := fx.grid.sub b.fm.grid
  have bb := b.big
  obtain ⟨d, hd⟩ : ∃ d, d = rd (x - m) := ⟨_, rfl⟩
  have fd : IsFloat p emin d := hd ▸ (h _).1
  have d0 : 0 ≤ d := by rw [hd]; exact h.mono_float isFloat_zero (by linarith)
  obtain ⟨q0, q1, q2⟩ := quot_le h hp fd d0 hN
  rw [← hd] at hy ⊢
  obtain ⟨q, hq⟩ : ∃ q, q = rd (d / N) := ⟨_, rfl⟩
  have fq : IsFloat p emin q := hq ▸ (h _).1
  rw [← hq] at q0 q1 q2 hy ⊢
  obtain ⟨y, hyy⟩ : ∃ y, y = rd (q - c) := ⟨_, rfl⟩
  have fy : IsFloat p emin y := hyy ▸ (h _).1
  have y0 : -c ≤ y := by rw [hyy]; exact h.mono_float b.fc.neg (by linarith)
  rw [← hyy] at hy ⊢
  obtain ⟨t, ht⟩ : ∃ t, t = rd (m + y) := ⟨_, rfl⟩
  have ft : IsFloat p emin t := ht ▸ (h _).1
  have htx : m + y ≤ x → t ≤ x := fun hh => by rw [ht]; exact h.mono_float' fx hh
  have r1 := rel h hp gD
  have r2 := rel h hp (fq.grid.sub b.fc.grid)
  have r3 := rel h hp (b.fm.grid.add fy.grid)
  have r4 := rel h hp (fx.grid.sub ft.grid)
  rw [← hd] at r1
  rw [← hyy] at r2
  rw [← ht] at r3 ⊢
  have u1 := u_le (K := K) hp
  have u0 := u_pos (K := K) (p := p)
  have cs := b.small
  have e0 : (0 : K) < 2 ^ emin := two_zpow_pos _
  have eu : (2 : K) ^ emin ≤ (2 ^ p)⁻¹ * |m| := by
    rw [inv_mul_eq_div, le_div_iff₀ (by positivity)]; linarith
  have t1 := abs_sub q c
  rw [abs_of_nonneg q0] at t1
  have t2 := abs_add_le m y
  have m0 := abs_nonneg m
  clear hd hq hyy ht bb gD fd fq fy ft q1
  generalize (2 ^ p : K)⁻¹ = u at *
  generalize (2 : K) ^ emin = η at *
  generalize rd (x - t) = z at *
  have uz : ∀ {z : K}, 0 ≤ z → u * z ≤ z / 10 ^ 6 := by
    intro z hz
    have := mul_le_mul_of_nonneg_right u1 hz
    linarith
  have um := uz m0
  have D0 : 0 ≤ x - m := by linarith
  rw [abs_of_nonneg D0] at r1
  obtain ⟨a1, a1'⟩ := abs_le.1 r1
  obtain ⟨a2, a2'⟩ := abs_le.1 r2
  obtain ⟨a3, a3'⟩ := abs_le.1 r3
  obtain ⟨c1, c1'⟩ := abs_le.1 cs
  have uD := uz D0
  have s3 : u * |m + y| ≤ 2 * (u * |m|) := by
    have := mul_le_mul_of_nonneg_left (show |m + y| ≤ 2 * |m| by linarith) u0.le
    linarith
  have s2 := uz (abs_nonneg (q - c))
  clear r1 r2 r3 u1 hmx hN hy
  rcases le_or_gt (100 * (u * |m|)) (x - m) with hD | hD
  · have tx : t ≤ x := htx (by linarith)
    exact ⟨by linarith, le_max_of_le_left tx, .inl tx⟩
  · have tl : m - 8 * (u * |m|) ≤ t := by linarith
    have tu : t ≤ m + 80 * (u * |m|) := by linarith
    refine ⟨by linarith, le_max_of_le_right (by linarith), .inr ?_⟩
    have xt : |x - t| ≤ 190 * (u * |m|) := by rw [abs_le]; constructor <;> linarith
    have zz : |z| ≤ 200 * (u * |m|) := by
      have := abs_sub_abs_le_abs_sub z (x - t)
      have := uz (abs_nonneg (x - t))
      linarith
    have dd : |d| ≤ 200 * (u * |m|) := by rw [abs_of_nonneg d0]; linarith
    rw [abs_mul]
    calc |d| * |z| ≤ 200 * (u * |m|) * (200 * (u * |m|)) := mul_le_mul dd zz (abs_nonneg _) (by positivity)
      _ = _ := by rw [← sq_abs m]; ring

/-- A step with an increment that is larger than the mean. -/
theorem big_up (h : Nearest p emin rd) (hp : 20 ≤ p) {m c x N : K} (fm : IsFloat p emin m) (fc : IsFloat p emin c) (cs : |c| ≤ 5 * (2 ^ p)⁻¹ * |m|)
    (fx : IsFloat p emin x) (hN : 2 ≤ N) (hmx : m ≤ x) {d y t : K} (hd : d = rd (x - m)) (hy : y = rd (rd (d / N) - c)) (ht : t = rd (m + y)) (hb : |m| < |y|) :
    (2 ^ p * 2 ^ emin ≤ |m| → m ≤ t ∧ t ≤ x) ∧
    (Good p emin rd t (rd (rd (t - m) - y)) ∨
      |rd (rd (t - m) - y)| ≤ 5 * (2 ^ p)⁻¹ * |t| ∧ 2 ^ p * 2 ^ emin ≤ |t| ∧ m ≤ t - |t| / 10 ∧ t + |t| / 10 ≤ x ∧
        2 / 5 * t ^ 2 ≤ d * rd (x - t)) := by
  have p1 : 1 ≤ p := by omega
  have gD : OnGrid emin (x - m) := fx.grid.sub fm.grid
  have fd : IsFloat p emin d := hd ▸ (h _).1
  have d0 : 0 ≤ d := by rw [hd]; exact h.mono_float isFloat_zero (by linarith)
  obtain ⟨q0, -, q2⟩ := quot_le h hp fd d0 hN
  obtain ⟨q, hq⟩ : ∃ q, q = rd (d / N) := ⟨_, rfl⟩
  have fq : IsFloat p emin q := hq ▸ (h _).1
  rw [← hq] at q0 q2 hy
  have fy : IsFloat p emin y := hy ▸ (h _).1
  have ft : IsFloat p emin t := ht ▸ (h _).1
  have u1 := u_le (K := K) hp
  have u0 := u_pos (K := K) (p := p)
  have uz : ∀ {z : K}, 0 ≤ z → (2 ^ p : K)⁻¹ * z ≤ z / 10 ^ 6 := by
    intro z hz
    have := mul_le_mul_of_nonneg_right u1 hz
    linarith
  have m0 := abs_nonneg m
  have um := uz m0
  have r2 := rel h hp (fq.grid.sub fc.grid)
  rw [← hy] at r2
  have s2 := uz (abs_nonneg (q - c))
  have t1 := abs_sub q c
  rw [abs_of_nonneg q0] at t1
  obtain ⟨a2, a2'⟩ := abs_le.1 r2
  obtain ⟨c1, c1'⟩ := abs_le.1 cs
  have y0 : 0 < y := by
    rcases le_or_gt y 0 with hc | hc
    · exfalso
      rw [abs_of_nonpos hc] at hb
      linarith
    · exact hc
  rw [abs_of_pos y0] at hb
  have qy : 999 / 1000 * y ≤ q := by linarith
  have yq : y ≤ 1001 / 1000 * q := by linarith
  have D0 : 0 ≤ x - m := by linarith
  have r1 := rel h hp gD
  rw [← hd, abs_of_nonneg D0] at r1
  obtain ⟨a1, a1'⟩ := abs_le.1 r1
  have uD := uz D0
  have e0 : (0 : K) < 2 ^ emin := two_zpow_pos _
  have ey : ∀ {z : K}, 2 ^ p * 2 ^ emin ≤ z → (2 : K) ^ emin ≤ z / 10 ^ 6 := by
    intro z hz
    have : (2 : K) ^ emin ≤ (2 ^ p)⁻¹ * z := by
      rw [inv_mul_eq_div, le_div_iff₀ (by positivity)]; linarith
    have z0 : 0 ≤ z := le_trans (by positivity) hz
    linarith [uz z0]
  constructor
  · intro hm
    have := ey hm
    constructor
    · rw [ht]; exact h.mono_float fm (by linarith)
    · rw [ht]; exact h.mono_float' fx (by linarith)
  have ex : IsFloat p emin (m + y) → Good p emin rd t (rd (rd (t - m) - y)) := by
    intro f
    rw [h.exact f] at ht
    have : t - m = y := by rw [ht]; ring
    rw [this, h.exact fy, sub_self, h.round_zero]
    exact ⟨ft, isFloat_zero, by rw [sub_zero, h.exact ft]⟩
  rcases le_or_gt |m + y| (2 ^ p * 2 ^ emin) with sm | bg
  · exact .inl (ex (isFloat_of_grid p1 le_rfl (fm.grid.add fy.grid) sm))
  rcases le_or_gt (2 * |y - -m|) |(-m)| with st | st
  · refine .inl (ex ?_)
    have := sterbenz p1 fm.neg fy st
    rwa [sub_neg_eq_add, add_comm] at this
  right
  have tb : 2 ^ p * 2 ^ emin ≤ |t| := by rw [ht]; exact h.big p1 le_rfl bg.le
  have my : |m + y| ≤ 2 * y := by
    have := abs_add_le m y
    rw [abs_of_pos y0] at this
    linarith
  have ym : y ≤ 3 * |m + y| := by
    rw [abs_neg, sub_neg_eq_add, add_comm y m] at st
    have := abs_sub (m + y) m
    rw [add_sub_cancel_left, abs_of_pos y0] at this
    linarith
  have eη := ey bg.le
  have r3 := rel h hp (fm.grid.add fy.grid)
  rw [← ht] at r3
  have s3 := uz (abs_nonneg (m + y))
  have tm : |t - (m + y)| ≤ |m + y| / 10 ^ 6 := r3.trans s3
  obtain ⟨b3, b3'⟩ := abs_le.1 tm
  have T1 : |m + y| ≤ 1001 / 1000 * |t| := by
    have := abs_sub_abs_le_abs_sub (m + y) t
    rw [abs_sub_comm] at tm
    linarith [abs_nonneg (m + y)]
  have T2 : |t| ≤ 2001 / 1000 * y := by
    have := abs_sub_abs_le_abs_sub t (m + y)
    linarith
  have r4 := rel h hp (ft.grid.sub fm.grid)
  have fs : IsFloat p emin (rd (t - m)) := (h _).1
  have r5 := rel h hp (fs.grid.sub fy.grid)
  have tmy : |t - m| ≤ 1001 / 1000 * y := by rw [abs_le]; constructor <;> linarith
  have xt : 97 / 100 * y ≤ x - t := by linarith
  refine ⟨?_, tb, by linarith, by linarith, ?_⟩
  · have A : |rd (t - m) - y| ≤ (2 ^ p)⁻¹ * |t - m| + (2 ^ p)⁻¹ * |m + y| := by
      rw [show rd (t - m) - y = (rd (t - m) - (t - m)) + (t - (m + y)) by ring]
      exact (abs_add_le _ _).trans (add_le_add r4 r3)
    have B := abs_sub_abs_le_abs_sub (rd (rd (t - m) - y)) (rd (t - m) - y)
    have C := uz (abs_nonneg (rd (t - m) - y))
    have D : (2 ^ p : K)⁻¹ * |t - m| + (2 ^ p)⁻¹ * |m + y| ≤ 9 / 2 * ((2 ^ p)⁻¹ * |t|) := by
      rw [← mul_add, ← mul_left_comm]
      refine mul_le_mul_of_nonneg_left ?_ u0.le
      linarith
    have E : 0 ≤ (2 ^ p : K)⁻¹ * |t| := by positivity
    linarith
  · have r6 := rel h hp (fx.grid.sub ft.grid)
    have x0 : 0 ≤ x - t := by linarith
    rw [abs_of_nonneg x0] at r6
    have s6 := uz x0
    have zz : 96 / 100 * y ≤ rd (x - t) := by linarith [(abs_le.1 r6).1]
    have dd : 198 / 100 * y ≤ d := by linarith
    have pr := mul_le_mul dd zz (by linarith) d0
    have sq : t ^ 2 ≤ (2001 / 1000 * y) ^ 2 := by rw [← sq_abs]; exact pow_le_pow_left₀ (abs_nonneg _) T2 2
    generalize d * rd (x - t) = P at *
    have e1 : 198 / 100 * y * (96 / 100 * y) = 198 * 96 / 10000 * y ^ 2 := by ring
    have e2 : (2001 / 1000 * y) ^ 2 = 2001 ^ 2 / 1000 ^ 2 * y ^ 2 := by ring
    rw [e1] at pr
    rw [e2] at sq
    have := sq_nonneg y
    linarith

/-- What a step does to the mean: it stays within the bounds, the state is good or bad again, and the product of the two
differences can be negative only after a bad step, and then only slightly. -/
structure StepOk (p : ℕ) (emin : ℤ) (rd : K → K) (lo hi m c t c' P : K) : Prop where
  ge : lo ≤ t
  le : t ≤ hi
  prod : 0 ≤ P ∨ Bad p emin lo hi m c ∧ |P| ≤ 40000 * ((2 ^ p)⁻¹ * (2 ^ p)⁻¹) * m ^ 2
  state : Good p emin rd t c' ∨ Bad p emin lo hi t c' ∧ 2 / 5 * t ^ 2 ≤ P

theorem step_up (h : Nearest p emin rd) (hp : 20 ≤ p) {lo hi m c x N : K} (S : Good p emin rd m c ∨ Bad p emin lo hi m c) (m1 : lo ≤ m) (m2 : m ≤ hi)
    (fx : IsFloat p emin x) (x1 : lo ≤ x) (x2 : x ≤ hi) (hN : 2 ≤ N) (hmx : m ≤ x) {d y t : K} (hd : d = rd (x - m)) (hy : y = rd (rd (d / N) - c)) (ht : t = rd (m + y)) :
    StepOk p emin rd lo hi m c t (rd (rd (t - m) - y)) (d * rd (x - t)) := by
  have p1 : 1 ≤ p := by omega
  have fm : IsFloat p emin m := S.elim (·.fm) (·.fm)
  have fc : IsFloat p emin c := S.elim (·.fc) (·.fc)
  have fy : IsFloat p emin y := hy ▸ (h _).1
  have ft : IsFloat p emin t := ht ▸ (h _).1
  have u0 := u_pos (K := K) (p := p)
  have cs : |c| ≤ 5 * (2 ^ p)⁻¹ * |m| := by
    rcases S with g | b
    · have := g.small h hp
      have : 0 ≤ (2 ^ p : K)⁻¹ * |m| := by positivity
      linarith
    · exact b.small
  have d0 : 0 ≤ d := by rw [hd]; exact h.mono_float isFloat_zero (by linarith)
  have pos : t ≤ x → 0 ≤ d * rd (x - t) := fun hh => mul_nonneg d0 (h.mono_float isFloat_zero (by linarith))
  rcases le_or_gt |y| |m| with sm | bg
  · have G : Good p emin rd t (rd (rd (t - m) - y)) := by
      obtain ⟨f1, f2⟩ := fast2sum_floats h p1 fm fy sm
      rw [← ht] at f1 f2
      rw [h.exact f1, show t - m - y = t - (m + y) by ring, h.exact f2]
      exact ⟨ft, f2, by rw [sub_sub_cancel, ← ht]⟩
    rcases S with g | b
    · have := between_up h hp g fx hN hmx
      rw [← hd, ← hy, ← ht] at this
      exact ⟨by linarith, by linarith, .inl (pos this.2), .inl G⟩
    · have := bad_up h hp b fx hN hmx (by rwa [← hd, ← hy])
      rw [← hd, ← hy, ← ht] at this
      obtain ⟨v1, v2, v3⟩ := this
      refine ⟨b.below.trans v1, v2.trans (max_le x2 b.above), ?_, .inl G⟩
      rcases v3 with v | v
      · exact .inl (pos v)
      · exact .inr ⟨b, v⟩
  · obtain ⟨B1, B2⟩ := big_up h hp fm fc cs fx hN hmx hd hy ht bg
    have bt : m ≤ t ∧ t ≤ x := by
      rcases S with g | b
      · have := between_up h hp g fx hN hmx
        rw [← hd, ← hy, ← ht] at this
        exact this
      · exact B1 b.big
    refine ⟨by linarith [bt.1], by linarith [bt.2], .inl (pos bt.2), ?_⟩
    rcases B2 with G | ⟨e1, e2, e3, e4, e5⟩
    · exact .inl G
    · exact .inr ⟨⟨ft, (h _).1, e1, e2, by linarith, by linarith⟩, e5⟩

omit [Archimedean K] in
theorem negate (h : Nearest p emin rd) : Nearest p emin (fun z => -rd (-z)) := by
  intro z
  refine ⟨(h _).1.neg, fun y hy => ?_⟩
  have := (h (-z)).2 (-y) hy.neg
  rw [show rd (-z) - -z = -(-rd (-z) - z) by ring, abs_neg, show -y - -z = -(y - z) by ring, abs_neg] at this
  exact this

theorem Good.negate {m c : K} (g : Good p emin rd m c) : Good p emin (fun z => -rd (-z)) (-m) (-c) :=
  ⟨g.fm.neg, g.fc.neg, by rw [show -(-m - -c) = m - c by ring, g.fix]⟩

theorem Good.of_negate {m c : K} (g : Good p emin (fun z => -rd (-z)) (-m) (-c)) : Good p emin rd m c := by
  have := g.negate
  simpa using this

theorem Bad.negate {lo hi m c : K} (g : Bad p emin lo hi m c) : Bad p emin (-hi) (-lo) (-m) (-c) :=
  ⟨g.fm.neg, g.fc.neg, by simpa using g.small, by simpa using g.big, by have := g.above; rw [abs_neg]; linarith, by have := g.below; rw [abs_neg]; linarith⟩

theorem Bad.of_negate {lo hi m c : K} (g : Bad p emin (-hi) (-lo) (-m) (-c)) : Bad p emin lo hi m c := by
  have := g.negate
  simpa using this

theorem step (h : Nearest p emin rd) (hp : 20 ≤ p) {lo hi m c x N : K} (S : Good p emin rd m c ∨ Bad p emin lo hi m c) (m1 : lo ≤ m) (m2 : m ≤ hi)
    (fx : IsFloat p emin x) (x1 : lo ≤ x) (x2 : x ≤ hi) (hN : 2 ≤ N) {d y t : K} (hd : d = rd (x - m)) (hy : y = rd (rd (d / N) - c)) (ht : t = rd (m + y)) :
    StepOk p emin rd lo hi m c t (rd (rd (t - m) - y)) (d * rd (x - t)) := by
  rcases le_total m x with hmx | hmx
  · exact step_up h hp S m1 m2 fx x1 x2 hN hmx hd hy ht
  · have S' : Good p emin (fun z => -rd (-z)) (-m) (-c) ∨ Bad p emin (-hi) (-lo) (-m) (-c) := S.imp (·.negate) (·.negate)
    have := step_up (negate h) hp (lo := -hi) (hi := -lo) (m := -m) (c := -c) (x := -x) (N := N) (d := -d) (y := -y) (t := -t) S' (by linarith) (by linarith) fx.neg
      (by linarith) (by linarith) hN (by linarith)
      (by rw [hd, show -(-x - -m) = x - m by ring])
      (by rw [hy]; congr 2; rw [neg_div, neg_neg]; ring)
      (by rw [ht]; congr 2; ring)
    have e1 : -rd (-(-rd (-(-t - -m)) - -y)) = -rd (rd (t - m) - y) := by
      rw [show -(-t - -m) = t - m by ring, show -(-rd (t - m) - -y) = rd (t - m) - y by ring]
    have e2 : -d * -rd (-(-x - -t)) = d * rd (x - t) := by
      rw [show -(-x - -t) = x - t by ring]; ring
    simp only [e1, e2] at this
    refine ⟨by linarith [this.le], by linarith [this.ge], ?_, ?_⟩
    · refine this.prod.imp id fun hb => ⟨hb.1.of_negate, by simpa using hb.2⟩
    · refine this.state.imp (·.of_negate) fun hb => ⟨hb.1.of_negate, by simpa using hb.2⟩

end Ufunclab.Meanvar
