import Verif.Model.LogfactRound
import Verif.Props.Logfact
import Verif.Props.ExpintRound
/-!
# C104: `logfactorial` in floating point
-/
namespace Ufunclab.Logfact
open Real Ufunclab.Float Ufunclab.Means
variable {rd lg : ℝ → ℝ} {ε : ℝ}

/-- C104: without rounding this is the function of C66. -/
theorem C104_exact_arithmetic (k : Int) : ufuncR id Real.log k = ufunc k := by
  simp only [ufuncR, ufunc, logfactorialR, logfactorial, id, Option.map_id']
  norm_num [Option.map_id]

/-! ### The table, relatively -/

/-- Walk through the table as in `walk`, with any check of an entry against the fixed point `log k!`. -/
def walkP (chk : Nat → Nat → Bool) : (k l f : Nat) → List Nat → Bool
  | _, _, _, [] => true
  | k, l, f, v :: vs =>
    chk f v &&
      (let l' := if k = 0 then 0 else l + fsum k 32
       walkP chk (k + 1) l' (f + l') vs)

theorem walkP_spec (chk : Nat → Nat → Bool) (vs : List Nat) (k l f : Nat) (h : walkP chk k l f vs = true)
    (hl : (l : ℝ) ≤ 10 ^ 30 * log k ∧ 10 ^ 30 * log k ≤ l + 33 * k)
    (hf : (f : ℝ) ≤ 10 ^ 30 * log (k.factorial) ∧ 10 ^ 30 * log (k.factorial) ≤ f + 33 * k * k) :
    ∀ i (hi : i < vs.length), ∃ g : ℕ, chk g vs[i] = true ∧ (g : ℝ) ≤ 10 ^ 30 * log ((k + i).factorial) ∧
      10 ^ 30 * log ((k + i).factorial) ≤ g + 33 * ((k + i : ℕ) : ℝ) * ((k + i : ℕ) : ℝ) := by
  induction vs generalizing k l f with
  | nil => intro i hi; simp at hi
  | cons v vs ih =>
    rw [walkP] at h
    simp only [Bool.and_eq_true] at h
    obtain ⟨h1, h3⟩ := h
    have hk0 : (0 : ℝ) ≤ k := Nat.cast_nonneg k
    intro i hi
    rcases i with _ | i
    · exact ⟨f, h1, hf⟩
    · have hl' : (((if k = 0 then 0 else l + fsum k 32 : ℕ) : ℝ)) ≤ 10 ^ 30 * log ((k + 1 : ℕ) : ℝ) ∧
          10 ^ 30 * log ((k + 1 : ℕ) : ℝ) ≤ ((if k = 0 then 0 else l + fsum k 32 : ℕ) : ℝ) + 33 * ((k + 1 : ℕ) : ℝ) := by
        by_cases c : k = 0
        · subst c; simp
        · rw [if_neg c]
          obtain ⟨s1, s2⟩ := step_bounds k (by omega)
          push_cast
          rw [mul_sub] at s1 s2
          constructor <;> linarith [hl.1, hl.2]
      have hf' : (((f + if k = 0 then 0 else l + fsum k 32 : ℕ) : ℝ)) ≤ 10 ^ 30 * log ((k + 1).factorial : ℝ) ∧
          10 ^ 30 * log ((k + 1).factorial : ℝ) ≤ ((f + if k = 0 then 0 else l + fsum k 32 : ℕ) : ℝ) + 33 * ((k + 1 : ℕ) : ℝ) * ((k + 1 : ℕ) : ℝ) := by
        have e : log ((k + 1).factorial : ℝ) = log ((k + 1 : ℕ) : ℝ) + log (k.factorial : ℝ) := by
          rw [Nat.factorial_succ, Nat.cast_mul, log_mul (by positivity) (by positivity)]
        rw [e, mul_add, Nat.cast_add]
        have : (33 : ℝ) * k * k + 33 * ((k + 1 : ℕ) : ℝ) ≤ 33 * ((k + 1 : ℕ) : ℝ) * ((k + 1 : ℕ) : ℝ) := by
          push_cast; nlinarith
        constructor <;> linarith [hf.1, hf.2, hl'.1, hl'.2]
      have := ih (k + 1) _ _ h3 hl' hf' i (by simpa using hi)
      simp only [List.getElem_cons_succ]
      rw [show k + (i + 1) = k + 1 + i by omega]; exact this

/-- The entry is within `1.22 · 2⁻⁵³` of the fixed point value, relatively. -/
def chkRel (f v : Nat) : Bool :=
  decide (v * 10 ^ 13 * (2 ^ 53 * 100) ≤ f * (2 ^ 53 * 100) + 122 * f) && decide (f * (2 ^ 53 * 100) ≤ v * 10 ^ 13 * (2 ^ 53 * 100) + 122 * f)

theorem walkRel_ok : walkP chkRel 0 0 0 table = true := by decide +kernel

theorem kk_le {k : ℕ} (h : k ≤ 200) : 33 * (k : ℝ) * k ≤ 33 * 200 * 200 := by
  have : (k : ℝ) ≤ 200 := by exact_mod_cast h
  have : (0 : ℝ) ≤ k := Nat.cast_nonneg k
  nlinarith

/-- Every literal of the table is within `1.23 · 2⁻⁵³` of `log k!`, relatively. -/
theorem table_rel (k : Nat) (hk : k < table.length) : |(table[k] : ℝ) / 10 ^ 17 - log (k.factorial)| ≤ 1.23 * (2 ^ 53)⁻¹ * log (k.factorial) := by
  have hl : table.length = 126 := by decide +kernel
  rcases Nat.lt_or_ge k 2 with h | h
  · have : k = 0 ∨ k = 1 := by omega
    have h0 : table[0]? = some 0 := by decide +kernel
    have h1 : table[1]? = some 0 := by decide +kernel
    rcases this with rfl | rfl
    · rw [List.getElem?_eq_getElem hk] at h0
      rw [Option.some.inj h0]; simp
    · rw [List.getElem?_eq_getElem hk] at h1
      rw [Option.some.inj h1]; simp
  have hkk := kk_le (show k ≤ 200 by omega)
  obtain ⟨g, c, g1, g2⟩ := walkP_spec chkRel table 0 0 0 walkRel_ok (by simp) (by simp) k hk
  rw [zero_add] at g1 g2
  simp only [chkRel, Bool.and_eq_true, decide_eq_true_eq] at c
  obtain ⟨c1, c2⟩ := c
  generalize table[k] = v at *
  generalize hN : 2 ^ 53 * 100 = N at c1 c2
  have hF : (1 : ℝ) / 2 ≤ log (k.factorial : ℝ) := by
    have a : (2 : ℝ) ≤ (k.factorial : ℝ) := by
      have := Nat.factorial_le h
      exact_mod_cast this
    have := log_le_log (by norm_num) a
    have := log_two_gt_d9
    linarith
  generalize log (k.factorial : ℝ) = F at *
  have c1' : (v : ℝ) * 10 ^ 13 * N ≤ g * N + 122 * g := by exact_mod_cast c1
  have c2' : (g : ℝ) * N ≤ v * 10 ^ 13 * N + 122 * g := by exact_mod_cast c2
  have hN' : (N : ℝ) = 900719925474099200 := by rw [← hN]; norm_num
  rw [hN'] at c1' c2'
  clear c1 c2 hN hN'
  generalize (v : ℝ) = v at *
  generalize (g : ℝ) = g at *
  generalize 33 * (k : ℝ) * k = q at *
  norm_num at *
  rw [abs_le]
  constructor <;> linarith

/-! ### The Stirling series -/

theorem log126 : 4.83 ≤ log 126 := by
  have h : (126 : ℝ) = 2 ^ 7 * (1 - 1 / 64) := by norm_num
  rw [h, log_mul (by norm_num) (by norm_num), log_pow]
  have := one_sub_inv_le_log_of_pos (show (0 : ℝ) < 1 - 1 / 64 by norm_num)
  have := log_two_gt_d9
  norm_num at *
  linarith

/-- The constant and the correction terms. -/
theorem corr_error {u η : ℝ} (u0 : 0 < u) (u1 : u ≤ 1 / 10 ^ 15) (η0 : 0 ≤ η) (η1 : η ≤ u / 10 ^ 6) (err : ∀ z, |rd z - z| ≤ u * |z| + η / 2)
    (err1 : ∀ z : ℝ, |z| ≤ 1 → |rd z - z| ≤ u) {κ : ℝ} (hκ : 126 ≤ κ) :
    |rd (rd halfln2pi + rd (rd (1 / κ) * rd (rd (1 / 12) - rd (1 / rd (rd (360 * κ) * κ))))) - (halfln2pi + corr κ)| ≤ 4 * u ∧ |corr κ| ≤ 1 / 1000 := by
  -- the correction terms
  have c1 : |rd (360 * κ) - 360 * κ| ≤ 2 * u * (360 * κ) := by
    have := err (360 * κ); rw [abs_of_nonneg (by linarith : 0 ≤ 360 * κ)] at this
    have := mul_le_mul_of_nonneg_left hκ u0.le
    linarith
  have uκ : u * κ ≤ 1 / 10 ^ 15 * κ := mul_le_mul_of_nonneg_right u1 (by linarith)
  have c1' : 359 * κ ≤ rd (360 * κ) := by have := (abs_le.1 c1).1; norm_num at *; linarith
  have c2' : 358 * κ ^ 2 ≤ rd (rd (360 * κ) * κ) := by
    have a : 359 * κ ^ 2 ≤ rd (360 * κ) * κ := by nlinarith
    have a0 : 0 ≤ rd (360 * κ) * κ := by nlinarith
    have := err (rd (360 * κ) * κ)
    rw [abs_of_nonneg a0] at this
    have := (abs_le.1 this).1
    nlinarith
  set q := rd (rd (360 * κ) * κ) with hq
  have q0 : (5 * 10 ^ 6 : ℝ) ≤ q := by nlinarith
  have d1 : 1 / q ≤ 1 / (5 * 10 ^ 6) := one_div_le_one_div_of_le (by norm_num) q0
  have d1' : 0 < 1 / q := by positivity
  have d2 := err1 (1 / q) (by rw [abs_of_pos d1']; linarith)
  have d3 := err1 (1 / 12) (by norm_num)
  have d4 : |rd (1 / 12) - rd (1 / q)| ≤ 1 / 11 := by
    have a := abs_le.1 d2; have b := abs_le.1 d3
    rw [abs_le]; constructor <;> linarith [a.1, a.2, b.1, b.2]
  have d5 := err1 (rd (1 / 12) - rd (1 / q)) (d4.trans (by norm_num))
  have d5' : |rd (rd (1 / 12) - rd (1 / q))| ≤ 1 / 10 := by
    have := abs_sub_abs_le_abs_sub (rd (rd (1 / 12) - rd (1 / q))) (rd (1 / 12) - rd (1 / q))
    linarith
  have k1 : 1 / κ ≤ 1 / 126 := one_div_le_one_div_of_le (by norm_num) hκ
  have k0 : 0 < 1 / κ := by positivity
  have d6 := err1 (1 / κ) (by rw [abs_of_pos k0]; linarith)
  have d6' : |rd (1 / κ)| ≤ 1 / 125 := by
    have := abs_sub_abs_le_abs_sub (rd (1 / κ)) (1 / κ)
    rw [abs_of_pos k0] at this; linarith
  set w := rd (rd (1 / 12) - rd (1 / q)) with hw
  set v := rd (1 / κ) with hv
  have d7 : |v * w| ≤ 1 / 1000 := by
    rw [abs_mul]
    calc |v| * |w| ≤ 1 / 125 * (1 / 10) := mul_le_mul d6' d5' (abs_nonneg _) (by norm_num)
      _ ≤ _ := by norm_num
  have d8 := err1 (v * w) (d7.trans (by norm_num))
  have d9 := err1 halfln2pi (by norm_num [halfln2pi])
  have e1 : |w - (1 / 12 - 1 / (360 * κ ^ 2))| ≤ 1 / 10 ^ 6 := by
    have e2 : 0 < 1 / (360 * κ ^ 2) := by positivity
    have e3 : 1 / (360 * κ ^ 2) ≤ 1 / (5 * 10 ^ 6) := one_div_le_one_div_of_le (by norm_num) (by nlinarith)
    have a := abs_le.1 d2; have b := abs_le.1 d3; have c := abs_le.1 d5
    rw [abs_le]; constructor <;> linarith [a.1, a.2, b.1, b.2, c.1, c.2]
  -- first the relative error of the small quotient
  have c3 : |q - 360 * κ ^ 2| ≤ 5 * u * (360 * κ ^ 2) := by
    have a := err (rd (360 * κ) * κ)
    have b : |rd (360 * κ) * κ - 360 * κ ^ 2| ≤ 2 * u * (360 * κ ^ 2) := by
      rw [show rd (360 * κ) * κ - 360 * κ ^ 2 = (rd (360 * κ) - 360 * κ) * κ by ring, abs_mul, abs_of_nonneg (by linarith : (0 : ℝ) ≤ κ)]
      calc _ ≤ 2 * u * (360 * κ) * κ := mul_le_mul_of_nonneg_right c1 (by linarith)
        _ = _ := by ring
    have b' : |rd (360 * κ) * κ| ≤ 2 * (360 * κ ^ 2) := by
      have := abs_sub_abs_le_abs_sub (rd (360 * κ) * κ) (360 * κ ^ 2)
      rw [abs_of_nonneg (by positivity : 0 ≤ 360 * κ ^ 2)] at this
      nlinarith
    have := abs_sub_le q (rd (360 * κ) * κ) (360 * κ ^ 2)
    have m := mul_le_mul_of_nonneg_left b' u0.le
    have : η ≤ u * (360 * κ ^ 2) := by
      have : u * 1 ≤ u * (360 * κ ^ 2) := mul_le_mul_of_nonneg_left (by nlinarith) u0.le
      norm_num at η1
      linarith
    linarith
  have e4 : |1 / q - 1 / (360 * κ ^ 2)| ≤ u := by
    have hq0 : 0 < q := by linarith
    have hk2 : 0 < 360 * κ ^ 2 := by positivity
    have : 1 / q - 1 / (360 * κ ^ 2) = -(q - 360 * κ ^ 2) / (q * (360 * κ ^ 2)) := by field_simp; ring
    rw [this, abs_div, abs_neg, abs_of_pos (mul_pos hq0 hk2), div_le_iff₀ (mul_pos hq0 hk2)]
    refine c3.trans ?_
    have : 5 * (u * (360 * κ ^ 2)) ≤ q * (u * (360 * κ ^ 2)) := mul_le_mul_of_nonneg_right (by linarith) (by positivity)
    linarith
  have e5 : |w - (1 / 12 - 1 / (360 * κ ^ 2))| ≤ 4 * u := by
    have a := abs_le.1 d2; have b := abs_le.1 d3; have c := abs_le.1 d5; have d := abs_le.1 e4
    rw [abs_le]; constructor <;> linarith [a.1, a.2, b.1, b.2, c.1, c.2, d.1, d.2]
  have ec : corr κ = 1 / κ * (1 / 12 - 1 / (360 * κ ^ 2)) := by
    rw [corr]; have : κ ≠ 0 := by linarith
    field_simp
  have e6 : |v * w - corr κ| ≤ u := by
    rw [ec, show v * w - 1 / κ * (1 / 12 - 1 / (360 * κ ^ 2)) = (v - 1 / κ) * w + 1 / κ * (w - (1 / 12 - 1 / (360 * κ ^ 2))) by ring]
    have a1 : |(v - 1 / κ) * w| ≤ u * (1 / 10) := by rw [abs_mul]; exact mul_le_mul d6 d5' (abs_nonneg _) u0.le
    have a2 : |1 / κ * (w - (1 / 12 - 1 / (360 * κ ^ 2)))| ≤ 1 / 126 * (4 * u) := by
      rw [abs_mul, abs_of_pos k0]; exact mul_le_mul k1 e5 (abs_nonneg _) (by norm_num)
    have := abs_add_le ((v - 1 / κ) * w) (1 / κ * (w - (1 / 12 - 1 / (360 * κ ^ 2))))
    linarith
  have cb : |corr κ| ≤ 1 / 1000 := by
    have e2 : 0 < 1 / (360 * κ ^ 2) := by positivity
    have e3 : 1 / (360 * κ ^ 2) ≤ 1 / (5 * 10 ^ 6) := one_div_le_one_div_of_le (by norm_num) (by nlinarith)
    rw [ec, abs_mul, abs_of_pos k0]
    calc 1 / κ * |1 / 12 - 1 / (360 * κ ^ 2)| ≤ 1 / 126 * (1 / 12) := by
          refine mul_le_mul k1 (abs_le.2 ⟨by linarith, by linarith⟩) (abs_nonneg _) (by norm_num)
      _ ≤ _ := by norm_num
  set C0 := rd halfln2pi + rd (v * w) with hC0
  have f1 : |C0 - (halfln2pi + corr κ)| ≤ 3 * u := by
    have a := abs_le.1 d8; have b := abs_le.1 d9; have c := abs_le.1 e6
    rw [hC0, abs_le]; constructor <;> linarith [a.1, a.2, b.1, b.2, c.1, c.2]
  have f2 : |C0| ≤ 1 := by
    have a := abs_le.1 f1; have b := abs_le.1 cb
    have c : halfln2pi = 0.9189385332046728 := by rw [halfln2pi]
    rw [abs_le]; constructor <;> linarith [a.1, a.2, b.1, b.2]
  have f3 := err1 C0 f2
  set C := rd C0 with hC
  have f4 : |C - (halfln2pi + corr κ)| ≤ 4 * u := by
    have := abs_sub_le C C0 (halfln2pi + corr κ); linarith
  exact ⟨f4, cb⟩

theorem prod_error {u η κ Λ A L M : ℝ} (u0 : 0 < u) (u1 : u ≤ 1 / 10 ^ 15) (η1 : η ≤ u / 10 ^ 6) (hκ : 126 ≤ κ) (hΛ : 483 / 100 ≤ Λ)
    (hε0 : 0 ≤ ε) (hε : ε ≤ 1 / 10 ^ 6) (A1 : |A - (κ + 1 / 2)| ≤ 100001 / 100000 * u * (κ + 1 / 2)) (L1 : |L - Λ| ≤ ε * Λ)
    (M0 : |M - A * L| ≤ u * |A * L| + η / 2) :
    |M - (κ + 1 / 2) * Λ| ≤ 2001 / 1000 * (u * ((κ + 1 / 2) * Λ)) + 10001 / 10000 * (ε * ((κ + 1 / 2) * Λ)) := by
  obtain ⟨Y, hY⟩ : ∃ Y, Y = (κ + 1 / 2) * Λ := ⟨_, rfl⟩
  rw [← hY]
  have Y0 : 600 ≤ Y := by rw [hY]; nlinarith
  have uY : 0 ≤ u * Y := mul_nonneg u0.le (by linarith)
  have εY : 0 ≤ ε * Y := mul_nonneg hε0 (by linarith)
  have Lb : |L| ≤ 100001 / 100000 * Λ := by
    have a := abs_sub_abs_le_abs_sub L Λ
    rw [abs_of_nonneg (by linarith : 0 ≤ Λ)] at a
    have b := mul_le_mul_of_nonneg_right hε (by linarith : 0 ≤ Λ)
    norm_num at b ⊢
    linarith
  have a1 : |(A - (κ + 1 / 2)) * L| ≤ 10001 / 10000 * (u * Y) := by
    have : |(A - (κ + 1 / 2)) * L| ≤ (100001 / 100000 * u * (κ + 1 / 2)) * (100001 / 100000 * Λ) := by
      rw [abs_mul]; exact mul_le_mul A1 Lb (abs_nonneg _) (by positivity)
    have e : (100001 / 100000 * u * (κ + 1 / 2)) * (100001 / 100000 * Λ) = (100001 / 100000) ^ 2 * (u * Y) := by rw [hY]; ring
    rw [e] at this
    norm_num at this ⊢
    linarith
  have a2 : |(κ + 1 / 2) * (L - Λ)| ≤ ε * Y := by
    rw [abs_mul, abs_of_nonneg (by linarith : 0 ≤ κ + 1 / 2), hY]
    calc _ ≤ (κ + 1 / 2) * (ε * Λ) := mul_le_mul_of_nonneg_left L1 (by linarith)
      _ = _ := by ring
  have M1 : |A * L - Y| ≤ 10001 / 10000 * (u * Y) + ε * Y := by
    rw [show A * L - Y = (A - (κ + 1 / 2)) * L + (κ + 1 / 2) * (L - Λ) by rw [hY]; ring]
    have := abs_add_le ((A - (κ + 1 / 2)) * L) ((κ + 1 / 2) * (L - Λ))
    linarith
  have M2 : |A * L| ≤ 100001 / 100000 * Y := by
    have a := abs_sub_abs_le_abs_sub (A * L) Y
    rw [abs_of_nonneg (by linarith : 0 ≤ Y)] at a
    have b := mul_le_mul_of_nonneg_right hε (by linarith : 0 ≤ Y)
    have c := mul_le_mul_of_nonneg_right u1 (by linarith : 0 ≤ Y)
    norm_num at b c
    linarith
  have b := mul_le_mul_of_nonneg_left M2 u0.le
  have c := abs_sub_le M (A * L) Y
  have d : u * 600 ≤ u * Y := mul_le_mul_of_nonneg_left Y0 u0.le
  norm_num at η1
  linarith

theorem sum_error {u η κ Λ Y M B C c R : ℝ} (u0 : 0 < u) (u1 : u ≤ 1 / 10 ^ 15) (η0 : 0 ≤ η) (η1 : η ≤ u / 10 ^ 6) (hκ : 126 ≤ κ) (hΛ : 483 / 100 ≤ Λ)
    (hε0 : 0 ≤ ε) (hε : ε ≤ 1 / 10 ^ 6) (hY : Y = (κ + 1 / 2) * Λ) (hM : |M - Y| ≤ 2001 / 1000 * (u * Y) + 10001 / 10000 * (ε * Y))
    (hB : |B - (M - κ)| ≤ u * |M - κ| + η / 2) (hC : |C - c| ≤ 4 * u) (c0 : 0 ≤ c) (hR : |R - (B + C)| ≤ u * |B + C| + η / 2) :
    |R - (Y - κ + c)| ≤ (456 / 100 * u + 127 / 100 * ε) * (Y - κ + c) ∧ 480 ≤ Y - κ + c ∧ κ * (Λ - 1) ≤ Y - κ + c := by
  norm_num at η1 u1 hε
  have Y0 : 600 ≤ Y := by rw [hY]; nlinarith
  have uY : 0 ≤ u * Y := mul_nonneg u0.le (by linarith)
  have εY : 0 ≤ ε * Y := mul_nonneg hε0 (by linarith)
  have hκY : κ * Λ ≤ Y := by rw [hY]; nlinarith
  have κΛ : κ * (483 / 100) ≤ κ * Λ := mul_le_mul_of_nonneg_left hΛ (by linarith)
  have hZ : κ * (Λ - 1) ≤ Y - κ := by linarith
  obtain ⟨Z, hZd⟩ : ∃ Z, Z = Y - κ := ⟨_, rfl⟩
  rw [← hZd] at hZ ⊢
  have Z0 : 481 ≤ Z := by rw [hZd]; linarith
  have YZ : Y ≤ 12612 / 10000 * Z := by rw [hZd]; linarith
  have uZ : 0 ≤ u * Z := mul_nonneg u0.le (by linarith)
  have uYZ := mul_le_mul_of_nonneg_left YZ u0.le
  have εYZ := mul_le_mul_of_nonneg_left YZ hε0
  have uZ1 := mul_le_mul_of_nonneg_right u1 (by linarith : 0 ≤ Z)
  have εZ1 := mul_le_mul_of_nonneg_right hε (by linarith : 0 ≤ Z)
  have εZ : 0 ≤ ε * Z := mul_nonneg hε0 (by linarith)
  have uZ2 : u * 481 ≤ u * Z := mul_le_mul_of_nonneg_left Z0 u0.le
  have B1 : |M - κ - Z| ≤ 2001 / 1000 * (u * Y) + 10001 / 10000 * (ε * Y) := by rw [hZd, show M - κ - (Y - κ) = M - Y by ring]; exact hM
  have B3 : |M - κ| ≤ 10001 / 10000 * Z := by
    have a := abs_sub_abs_le_abs_sub (M - κ) Z
    rw [abs_of_nonneg (by linarith : 0 ≤ Z)] at a
    linarith
  have B4 : |B - Z| ≤ 2001 / 1000 * (u * Y) + 10001 / 10000 * (ε * Y) + 1001 / 1000 * (u * Z) := by
    have b := mul_le_mul_of_nonneg_left B3 u0.le
    have c := abs_sub_le B (M - κ) Z
    linarith
  obtain ⟨T, hT⟩ : ∃ T, T = Z + c := ⟨_, rfl⟩
  rw [← hT]
  have ZT : Z ≤ T := by linarith
  have uZT := mul_le_mul_of_nonneg_left ZT u0.le
  have εZT := mul_le_mul_of_nonneg_left ZT hε0
  have R1 : |B + C - T| ≤ 2001 / 1000 * (u * Y) + 10001 / 10000 * (ε * Y) + 1001 / 1000 * (u * Z) + 4 * u := by
    rw [hT, show B + C - (Z + c) = (B - Z) + (C - c) by ring]
    have := abs_add_le (B - Z) (C - c)
    linarith
  have R2 : |B + C| ≤ 10001 / 10000 * T := by
    have a := abs_sub_abs_le_abs_sub (B + C) T
    rw [abs_of_nonneg (by linarith : 0 ≤ T)] at a
    linarith
  have R4 := mul_le_mul_of_nonneg_left R2 u0.le
  have R5 := abs_sub_le R (B + C) T
  refine ⟨?_, by linarith, by linarith⟩
  linarith

/-- The value computed for the converted argument, against the formula in exact arithmetic. -/
theorem series_core {u η : ℝ} (u0 : 0 < u) (u1 : u ≤ 1 / 10 ^ 15) (η0 : 0 ≤ η) (η1 : η ≤ u / 10 ^ 6) (err : ∀ z, |rd z - z| ≤ u * |z| + η / 2)
    (err1 : ∀ z : ℝ, |z| ≤ 1 → |rd z - z| ≤ u) {κ : ℝ} (hκ : 126 ≤ κ) (L1 : |lg κ - log κ| ≤ ε * |log κ|) (hε0 : 0 ≤ ε) (hε : ε ≤ 1 / 10 ^ 6) :
    let T := (κ + 1 / 2) * log κ - κ + (halfln2pi + corr κ)
    |rd (rd (rd (rd (κ + 0.5) * lg κ) - κ) + rd (rd halfln2pi + rd (rd (1 / κ) * rd (rd (1 / 12) - rd (1 / rd (rd (360 * κ) * κ)))))) - T| ≤
      (456 / 100 * u + 127 / 100 * ε) * T ∧ 480 ≤ T ∧ κ * (log κ - 1) ≤ T := by
  intro T
  have Λ0 : 483 / 100 ≤ log κ := le_trans (by norm_num) (log126.trans (log_le_log (by norm_num) hκ))
  obtain ⟨f4, cb⟩ := corr_error u0 u1 η0 η1 err err1 hκ
  rw [abs_of_nonneg (by linarith : 0 ≤ log κ)] at L1
  have A1 : |rd (κ + 0.5) - (κ + 1 / 2)| ≤ 100001 / 100000 * u * (κ + 1 / 2) := by
    rw [show κ + (0.5 : ℝ) = κ + 1 / 2 by norm_num]
    have a := err (κ + 1 / 2)
    rw [abs_of_nonneg (by linarith : 0 ≤ κ + 1 / 2)] at a
    have b : u * 1 ≤ u * (κ + 1 / 2) := mul_le_mul_of_nonneg_left (by linarith) u0.le
    norm_num at η1
    linarith
  have hM := prod_error u0 u1 η1 hκ Λ0 hε0 hε A1 L1 (err (rd (κ + 0.5) * lg κ))
  have hc : 0 ≤ halfln2pi + corr κ := by
    have b := abs_le.1 cb
    have c : (9 / 10 : ℝ) ≤ halfln2pi := by rw [halfln2pi]; norm_num
    linarith [b.1]
  exact sum_error u0 u1 η0 η1 hκ Λ0 hε0 hε rfl hM (err _) f4 hc (err _)

theorem double_error (h : Nearest 53 (-1074) rd) : ∃ η : ℝ, 0 ≤ η ∧ η ≤ (2 ^ 53)⁻¹ / 10 ^ 6 ∧ (∀ z, |rd z - z| ≤ (2 ^ 53)⁻¹ * |z| + η / 2) ∧
    ∀ z : ℝ, |z| ≤ 1 → |rd z - z| ≤ (2 ^ 53)⁻¹ := by
  refine ⟨2 ^ (-1074 : ℤ), (two_zpow_pos _).le, ?_, fun z => h.error (by norm_num) z, fun z hz => ?_⟩
  · have : (2 : ℝ) ^ (-1074 : ℤ) ≤ 2 ^ (-100 : ℤ) := zpow_le_zpow_right₀ (by norm_num) (by norm_num)
    exact this.trans (by norm_num)
  · have := h.half (by norm_num) (k := -53) (by norm_num) (z := z) (by norm_num; exact hz)
    refine this.trans ?_
    norm_num

/-- The error of the conversion of `k` to `double` and of the truncation of the series, together. -/
theorem conv_error (h : Nearest 53 (-1074) rd) (k : ℕ) (hk : 126 ≤ k) :
    let T := (rd k + 1 / 2) * log (rd k) - rd k + (halfln2pi + corr (rd k))
    126 ≤ rd k ∧ (rd k * (log (rd k) - 1) ≤ T → 480 ≤ T → |T - log (k.factorial)| ≤ 11 / 10 * (2 ^ 53)⁻¹ * T) := by
  intro T
  have hK : (126 : ℝ) ≤ k := by exact_mod_cast hk
  have f126 : IsFloat 53 (-1074) (126 : ℝ) := ⟨126, 0, by norm_num, by norm_num, by norm_num⟩
  have hκ : 126 ≤ rd k := h.mono_float f126 hK
  refine ⟨hκ, fun hT0 hT1 => ?_⟩
  obtain ⟨r1, r2⟩ := rem_bounds k (by omega)
  have c := abs_le.1 halfln2pi_ok
  have k5 : 1 / (1260 * (k : ℝ) ^ 5) ≤ 1 / (1260 * 126 ^ 5) := by
    apply one_div_le_one_div_of_le (by norm_num)
    have := pow_le_pow_left₀ (by norm_num) hK 5
    linarith
  have tr : |(k + 1 / 2) * log k - k + (halfln2pi + corr k) - log (k.factorial)| ≤ 2.51e-14 := by
    rw [rem, stirling] at r1 r2
    have r3 := r2.trans k5
    norm_num at r3 c ⊢
    rw [abs_le]; constructor <;> linarith [c.1, c.2]
  rcases le_or_gt (k : ℝ) (2 ^ 53) with hs | hb
  · have : rd k = k := h.exact (isFloat_of_grid (by norm_num) (show (-1074 : ℤ) ≤ 0 by norm_num) ⟨k, by simp⟩ (by
      rw [abs_of_nonneg (Nat.cast_nonneg k)]; simpa using hs))
    have e : T = (k + 1 / 2) * log k - k + (halfln2pi + corr k) := by simp only [T, this]
    rw [← e] at tr
    refine tr.trans ?_
    norm_num at hT1 ⊢
    linarith
  · have e1 := h.rel_error (by norm_num) (z := (k : ℝ)) (OnGrid.mono (k := 0) (by norm_num) ⟨k, by simp⟩)
    rw [abs_of_nonneg (Nat.cast_nonneg k : (0 : ℝ) ≤ k)] at e1
    have hκb : (2 : ℝ) ^ 53 ≤ rd k := h.mono_float (by
      have := isFloat_zpow (K := ℝ) (p := 53) (by norm_num) (emin := -1074) (e := 53) (by norm_num)
      exact_mod_cast this) hb.le
    simp only [T] at hT0 hT1 ⊢
    generalize rd (k : ℝ) = κ at *
    have hu : (0 : ℝ) < (2 ^ 53)⁻¹ := by positivity
    have hu1 : ((2 : ℝ) ^ 53)⁻¹ ≤ 1 / 10 ^ 15 := by norm_num
    have Λ0 : 36 ≤ log κ := by
      have a := log_le_log (by norm_num) hκb
      rw [log_pow] at a
      have := log_two_gt_d9
      norm_num at a
      linarith
    have hN : (9 * 10 ^ 15 : ℝ) ≤ k := by norm_num at hb ⊢; linarith
    have uK : (1 : ℝ) ≤ (2 ^ 53)⁻¹ * k := by
      rw [inv_mul_eq_div, le_div_iff₀ (by norm_num), one_mul]; exact hb.le
    generalize hud : ((2 : ℝ) ^ 53)⁻¹ = u at *
    clear hκb hb
    generalize (k : ℝ) = K at *
    generalize log (k.factorial : ℝ) = F at *
    have K0 : 0 < K := by linarith
    have κ0 : 0 < κ := by linarith
    obtain ⟨e2, e3⟩ := abs_le.1 e1
    have uK' := mul_le_mul_of_nonneg_right hu1 K0.le
    norm_num at uK' hN
    have l1 : log κ - log K ≤ u := by
      rw [← log_div κ0.ne' K0.ne']
      refine (log_le_sub_one_of_pos (by positivity)).trans ?_
      rw [sub_le_iff_le_add, div_le_iff₀ K0]; linarith
    have l2 : log K - log κ ≤ 1001 / 1000 * u := by
      rw [← log_div K0.ne' κ0.ne']
      refine (log_le_sub_one_of_pos (by positivity)).trans ?_
      rw [sub_le_iff_le_add, div_le_iff₀ κ0]
      have : 1001 / 1000 * u * (999 / 1000 * K + K / 1000 - 1 / 10 ^ 14 * K) ≤ 1001 / 1000 * u * κ := mul_le_mul_of_nonneg_left (by norm_num; linarith) (by positivity)
      have : 0 < u * K := by positivity
      norm_num at *
      linarith
    have cb : ∀ x : ℝ, 126 ≤ x → |corr x| ≤ 1 / 1000 := by
      intro x hx
      have x0 : 0 < x := by linarith
      have a1 : 1 / (12 * x) ≤ 1 / (12 * 126) := one_div_le_one_div_of_le (by norm_num) (by linarith)
      have a2 : 1 / (360 * x ^ 3) ≤ 1 / (360 * 126 ^ 3) := one_div_le_one_div_of_le (by norm_num) (by
        have := pow_le_pow_left₀ (by norm_num) hx 3; linarith)
      have a3 : 0 < 1 / (12 * x) := by positivity
      have a4 : 0 < 1 / (360 * x ^ 3) := by positivity
      have n1 : (1 : ℝ) / (12 * 126) ≤ 1 / 1000 := by norm_num
      have n2 : (1 : ℝ) / (360 * 126 ^ 3) ≤ 1 / 1000 := by norm_num
      rw [corr, abs_le]
      constructor <;> linarith
    have c1 := abs_le.1 (cb κ hκ)
    have c2 := abs_le.1 (cb K hK)
    have uK0 : 0 < u * K := by positivity
    have m1 : |(κ - K) * log κ| ≤ u * K * log κ := by
      rw [abs_mul, abs_of_nonneg (by linarith : 0 ≤ log κ)]; exact mul_le_mul_of_nonneg_right e1 (by linarith)
    have m2 : |(K + 1 / 2) * (log κ - log K)| ≤ 1002 / 1000 * (u * K) := by
      rw [abs_mul, abs_of_nonneg (by linarith : 0 ≤ K + 1 / 2)]
      have a : |log κ - log K| ≤ 1001 / 1000 * u := abs_le.2 ⟨by linarith, by linarith⟩
      calc (K + 1 / 2) * |log κ - log K| ≤ (K + 1 / 2) * (1001 / 1000 * u) := mul_le_mul_of_nonneg_left a (by linarith)
        _ = 1001 / 1000 * (u * K) + 1001 / 2000 * u := by ring
        _ ≤ _ := by norm_num at hu1; linarith
    obtain ⟨m1a, m1b⟩ := abs_le.1 m1
    obtain ⟨m2a, m2b⟩ := abs_le.1 m2
    obtain ⟨c1a, c1b⟩ := c1
    obtain ⟨c2a, c2b⟩ := c2
    obtain ⟨ta, tb⟩ := abs_le.1 tr
    have main : |(κ + 1 / 2) * log κ - κ + (halfln2pi + corr κ) - F| ≤ u * K * (log κ + 201 / 100) := by
      norm_num at ta tb
      rw [abs_le]; constructor <;> linarith
    refine main.trans ?_
    have low : K * (999999 / 1000000) * (log κ - 1) ≤ κ * (log κ - 1) := mul_le_mul_of_nonneg_right (by linarith) (by linarith)
    have low2 := mul_le_mul_of_nonneg_left (low.trans hT0) hu.le
    have m3 := mul_le_mul_of_nonneg_left Λ0 uK0.le
    generalize (κ + 1 / 2) * log κ - κ + (halfln2pi + corr κ) = T' at *
    linarith

/-- C104: for every `k ≥ 0` the result of `logfactorial` is a number whose relative error is at most `6 · 2⁻⁵³ + 1.3 ε`, where `ε` is the
relative error of the library logarithm; below 126 (the table) it is at most `2.3 · 2⁻⁵³`. -/
theorem C104_accuracy (h : Nearest 53 (-1074) rd) (hl : GoodLog 53 (-1074) ε lg) (hε0 : 0 ≤ ε) (hε : ε ≤ 1 / 10 ^ 6) (k : ℕ) :
    ∃ v, ufuncR rd lg k = some (.fin v) ∧ |v - log (k.factorial)| ≤ (6 * (2 ^ 53)⁻¹ + 1.3 * ε) * log (k.factorial) ∧
      (k < 126 → |v - log (k.factorial)| ≤ 2.3 * (2 ^ 53)⁻¹ * log (k.factorial)) := by
  obtain ⟨η, η0, η1, err, err1⟩ := double_error h
  have hlen : table.length = 126 := by decide +kernel
  have F0 : 0 ≤ log (k.factorial : ℝ) := log_nonneg (by exact_mod_cast Nat.factorial_pos k)
  by_cases hk : k < 126
  · have hk' : k < table.length := by omega
    have t := table_rel k hk'
    refine ⟨rd ((table[k] : ℝ) / 10 ^ 17), ?_, ?_⟩
    · rw [ufuncR, if_neg (by omega), logfactorialR, if_pos (by rw [hlen]; omega), lookup, if_neg (by omega)]
      simp [hk']
    have key : |rd ((table[k] : ℝ) / 10 ^ 17) - log (k.factorial)| ≤ 2.3 * (2 ^ 53)⁻¹ * log (k.factorial) := by
      have hv : IsFloat 53 (-1074) (0 : ℝ) := isFloat_zero
      rcases Nat.lt_or_ge k 2 with h2 | h2
      · have F1 : log (k.factorial : ℝ) = 0 := by
          have : k = 0 ∨ k = 1 := by omega
          rcases this with rfl | rfl <;> simp
        rw [F1, mul_zero, sub_zero] at t
        have : (table[k] : ℝ) / 10 ^ 17 = 0 := abs_eq_zero.1 (le_antisymm t (abs_nonneg _))
        rw [this, h.exact hv, F1]; simp
      · have F1 : (1 : ℝ) / 2 ≤ log (k.factorial : ℝ) := by
          have a : (2 : ℝ) ≤ (k.factorial : ℝ) := by
            have := Nat.factorial_le h2
            exact_mod_cast this
          have := log_le_log (by norm_num) a
          have := log_two_gt_d9
          linarith
        generalize (table[k] : ℝ) / 10 ^ 17 = w at *
        generalize log (k.factorial : ℝ) = F at *
        have e := err w
        have a := abs_sub_abs_le_abs_sub w F
        rw [abs_of_nonneg F0] at a
        have b := abs_sub_le (rd w) w F
        norm_num at *
        linarith
    refine ⟨key.trans ?_, fun _ => key⟩
    have : 0 ≤ ε * log (k.factorial : ℝ) := mul_nonneg hε0 F0
    norm_num
    linarith
  · obtain ⟨hκ, hc⟩ := conv_error h k (by omega)
    refine ⟨_, by rw [ufuncR, if_neg (by omega), logfactorialR, if_neg (by rw [hlen]; omega)]; rfl, ?_, fun h' => absurd h' hk⟩
    have hf : IsFloat 53 (-1074) (rd (k : ℝ)) := (h _).1
    obtain ⟨s1, s2, s3⟩ := series_core (rd := rd) (lg := lg) (u := (2 ^ 53)⁻¹) (by positivity) (by norm_num) η0 η1 err err1 hκ (hl.error _ hf (by linarith)) hε0 hε
    have c := hc s3 s2
    rw [Int.cast_natCast]
    generalize rd (rd (rd (rd (rd (k : ℝ) + 0.5) * lg (rd (k : ℝ))) - rd (k : ℝ)) + _) = R at *
    generalize (rd (k : ℝ) + 1 / 2) * log (rd (k : ℝ)) - rd (k : ℝ) + (halfln2pi + corr (rd (k : ℝ))) = T at *
    generalize log (k.factorial : ℝ) = F at *
    have u0 : (0 : ℝ) < (2 ^ 53)⁻¹ := by positivity
    have u1 : ((2 : ℝ) ^ 53)⁻¹ ≤ 1 / 10 ^ 15 := by norm_num
    generalize ((2 : ℝ) ^ 53)⁻¹ = u at *
    obtain ⟨c1, c2⟩ := abs_le.1 c
    have T0 : 0 ≤ T := by linarith
    have uT := mul_le_mul_of_nonneg_right u1 T0
    have TF : T ≤ 10001 / 10000 * F := by norm_num at uT; linarith
    have b := abs_sub_le R T F
    have m1 := mul_le_mul_of_nonneg_left TF u0.le
    have m2 := mul_le_mul_of_nonneg_left TF hε0
    have m3 : 0 ≤ u * F := by positivity
    have m4 : 0 ≤ ε * F := by positivity
    norm_num
    linarith

/-- C104: with a correctly rounded logarithm the relative error is less than `7.3 · 2⁻⁵³` for every `k`. -/
theorem C104_accuracy_double (h : Nearest 53 (-1074) rd) (k : ℕ) :
    ∃ v, ufuncR rd (fun a => rd (log a)) k = some (.fin v) ∧ |v - log (k.factorial)| ≤ 7.3 * (2 ^ 53)⁻¹ * log (k.factorial) := by
  obtain ⟨v, h1, h2, -⟩ := C104_accuracy h (goodLog_round h (by norm_num) (by norm_num)) (by positivity) (by norm_num) k
  refine ⟨v, h1, h2.trans (le_of_eq ?_)⟩
  norm_num

/-- C104: negative arguments give NaN, and only they do. -/
theorem C104_negative (h : Nearest 53 (-1074) rd) (hl : GoodLog 53 (-1074) ε lg) (hε0 : 0 ≤ ε) (hε : ε ≤ 1 / 10 ^ 6) (k : Int) :
    ufuncR rd lg k = some .nan ↔ k < 0 := by
  constructor
  · intro hn
    by_contra hk
    obtain ⟨n, rfl⟩ := Int.eq_ofNat_of_zero_le (not_lt.1 hk)
    obtain ⟨v, h1, -⟩ := C104_accuracy h hl hε0 hε n
    rw [h1] at hn
    simp at hn
  · intro hk; rw [ufuncR, if_pos hk]

/-- C104: `logfactorial(0)` and `logfactorial(1)` are exactly zero. -/
theorem C104_zero_one (h : Nearest 53 (-1074) rd) (hl : GoodLog 53 (-1074) ε lg) (hε0 : 0 ≤ ε) (hε : ε ≤ 1 / 10 ^ 6) :
    ufuncR rd lg 0 = some (.fin 0) ∧ ufuncR rd lg 1 = some (.fin 0) := by
  constructor
  · obtain ⟨v, h1, -, h3⟩ := C104_accuracy h hl hε0 hε 0
    have := h3 (by norm_num)
    simp only [Nat.factorial_zero, Nat.cast_one, log_one, mul_zero, sub_zero] at this
    rw [abs_eq_zero.1 (le_antisymm this (abs_nonneg _))] at h1
    exact_mod_cast h1
  · obtain ⟨v, h1, -, h3⟩ := C104_accuracy h hl hε0 hε 1
    have := h3 (by norm_num)
    simp only [Nat.factorial_one, Nat.cast_one, log_one, mul_zero, sub_zero] at this
    rw [abs_eq_zero.1 (le_antisymm this (abs_nonneg _))] at h1
    exact_mod_cast h1

/-- C104: with a logarithm of relative error at most `2⁻⁵³` the computed values are strictly increasing for `1 ≤ j < k ≤ 2⁴⁹`, across the
switch from the table to the series as well. -/
theorem C104_increasing (h : Nearest 53 (-1074) rd) (hl : GoodLog 53 (-1074) (2 ^ 53)⁻¹ lg) (j k : ℕ) (hj : 1 ≤ j) (hjk : j < k) (hk : k ≤ 2 ^ 49) :
    ∃ v w, ufuncR rd lg j = some (.fin v) ∧ ufuncR rd lg k = some (.fin w) ∧ v < w := by
  obtain ⟨v, h1, h2, -⟩ := C104_accuracy h hl (by positivity) (by norm_num) j
  obtain ⟨w, h3, h4, -⟩ := C104_accuracy h hl (by positivity) (by norm_num) k
  refine ⟨v, w, h1, h3, ?_⟩
  have k2 : 2 ≤ k := by omega
  have kr : (2 : ℝ) ≤ k := by exact_mod_cast k2
  have lk : 0 < log (k : ℝ) := log_pos (by linarith)
  -- the step is at least `log k`
  have a : log (k.factorial : ℝ) = log (k : ℝ) + log ((k - 1).factorial : ℝ) := by
    obtain ⟨m, rfl⟩ : ∃ m, k = m + 1 := ⟨k - 1, by omega⟩
    rw [Nat.factorial_succ, Nat.cast_mul, log_mul (by positivity) (by positivity), Nat.add_sub_cancel]
  have b : log (j.factorial : ℝ) ≤ log ((k - 1).factorial : ℝ) :=
    log_le_log (by positivity) (by exact_mod_cast Nat.factorial_le (by omega : j ≤ k - 1))
  -- and `log k!` is at most `k log k`
  have c : log (k.factorial : ℝ) ≤ k * log k := by
    rw [← log_pow]
    exact log_le_log (by positivity) (by exact_mod_cast Nat.factorial_le_pow k)
  have d : (k : ℝ) * log k ≤ 2 ^ 49 * log k := mul_le_mul_of_nonneg_right (by exact_mod_cast hk) lk.le
  have e : 0 ≤ log (j.factorial : ℝ) := log_nonneg (by exact_mod_cast Nat.factorial_pos j)
  obtain ⟨-, h2b⟩ := abs_le.1 h2
  obtain ⟨h4a, -⟩ := abs_le.1 h4
  generalize log (k.factorial : ℝ) = F at *
  generalize log (j.factorial : ℝ) = G at *
  generalize (k : ℝ) * log k = q at *
  generalize log (k : ℝ) = Λ at *
  norm_num at *
  linarith

/-- C104: the strict increase cannot hold for all 64 bit arguments: from `2⁵⁴` to `2⁵⁴ + 1` the exact value grows by more than 37 but the result is the same. -/
theorem C104_increasing_violated (h : Nearest 53 (-1074) rd) :
    ufuncR rd lg (2 ^ 54) = ufuncR rd lg (2 ^ 54 + 1) ∧ 37 ≤ log ((2 ^ 54 + 1 : ℕ) : ℝ) := by
  have f54 : IsFloat 53 (-1074) ((2 : ℝ) ^ 54) := by
    have := isFloat_zpow (K := ℝ) (p := 53) (by norm_num) (emin := -1074) (e := 54) (by norm_num)
    exact_mod_cast this
  have e : rd (((2 ^ 54 + 1 : ℤ) : ℝ)) = rd (((2 ^ 54 : ℤ) : ℝ)) := by
    have e0 : rd (((2 ^ 54 : ℤ) : ℝ)) = 2 ^ 54 := by
      rw [show (((2 ^ 54 : ℤ) : ℝ)) = (2 : ℝ) ^ 54 by norm_num]; exact h.exact f54
    rw [e0]
    obtain ⟨ff, fn⟩ := h (((2 ^ 54 + 1 : ℤ) : ℝ))
    have k := fn _ f54
    generalize rd (((2 ^ 54 + 1 : ℤ) : ℝ)) = f at *
    have k' : |f - ((2 ^ 54 + 1 : ℤ) : ℝ)| ≤ 1 := by refine k.trans ?_; norm_num
    obtain ⟨k1, k2⟩ := abs_le.1 k'
    have big : (2 : ℝ) ^ 53 * 2 ^ (1 : ℤ) ≤ |f| := by
      refine le_trans ?_ (le_abs_self f)
      norm_num at k1 ⊢; linarith
    obtain ⟨n, hn⟩ := ff.big_grid big
    rw [hn] at k1 k2 ⊢
    norm_num at k1 k2 ⊢
    have g1 : (2 ^ 52 - 1 : ℝ) < n := by norm_num; linarith
    have g2 : (n : ℝ) < 2 ^ 52 + 1 := by norm_num; linarith
    have : n = 2 ^ 52 := by
      have g1' : (2 ^ 52 - 1 : ℤ) < n := by exact_mod_cast g1
      have g2' : n < (2 ^ 52 + 1 : ℤ) := by exact_mod_cast g2
      omega
    rw [this]; norm_num
  have hlen : table.length = 126 := by decide +kernel
  constructor
  · have n1 : ¬ ((2 ^ 54 : ℤ) < (table.length : ℤ)) := by rw [hlen]; norm_num
    have n2 : ¬ ((2 ^ 54 + 1 : ℤ) < (table.length : ℤ)) := by rw [hlen]; norm_num
    rw [ufuncR, ufuncR, if_neg (by norm_num), if_neg (by norm_num), logfactorialR, logfactorialR, if_neg n1, if_neg n2, e]
  · have a : log ((2 : ℝ) ^ 54) ≤ log ((2 ^ 54 + 1 : ℕ) : ℝ) := log_le_log (by positivity) (by push_cast; linarith)
    rw [log_pow] at a
    have := log_two_gt_d9
    norm_num at a ⊢
    linarith

example : ∃ rd : ℝ → ℝ, Nearest 53 (-1074) rd ∧ GoodLog 53 (-1074) (2 ^ 53)⁻¹ (fun a => rd (log a)) := by
  obtain ⟨rd, h⟩ := exists_nearest (K := ℝ) (p := 53) (by norm_num) (-1074)
  exact ⟨rd, h, goodLog_round h (by norm_num) (by norm_num)⟩

end Ufunclab.Logfact
