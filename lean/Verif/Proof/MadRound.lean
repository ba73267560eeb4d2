import Verif.Proof.Mad
import Verif.Proof.FloatRatio
/-! # Rounding errors of the mean absolute difference -/
namespace Ufunclab.Mad
open Float
variable {K : Type _} [Field K] [LinearOrder K] [IsStrictOrderedRing K]

theorem unit_le_thousandth {p : ℕ} (hp : 10 ≤ p) : ((2 ^ p)⁻¹ : K) ≤ 1 / 1000 := by
  rw [inv_le_comm₀ (by positivity) (by norm_num)]
  calc ((1 / 1000 : K))⁻¹ ≤ 2 ^ 10 := by norm_num
    _ ≤ _ := pow_le_pow_right₀ (by norm_num) hp

/-- One rounded addition of two approximations. -/
theorem add_step {u g a a' b b' A B r : K} (hu : 0 ≤ u) (ha : |a' - a| ≤ (g - 1) * A) (hb : |b' - b| ≤ (g - 1) * B)
    (hA : |a| ≤ A) (hB : |b| ≤ B) (hr : |r - (a' + b')| ≤ u * |a' + b'|) :
    |r - (a + b)| ≤ (g * (1 + u) - 1) * (A + B) := by
  have hA0 : 0 ≤ A := (abs_nonneg a).trans hA
  have hB0 : 0 ≤ B := (abs_nonneg b).trans hB
  have h1 : |(a' + b') - (a + b)| ≤ (g - 1) * (A + B) := by
    calc |(a' + b') - (a + b)| = |(a' - a) + (b' - b)| := by congr 1; ring
      _ ≤ _ := abs_add_le _ _
      _ ≤ _ := by linarith
  have h2 : |a' + b'| ≤ g * (A + B) := by
    calc |a' + b'| = |((a' + b') - (a + b)) + (a + b)| := by congr 1; ring
      _ ≤ |(a' + b') - (a + b)| + |a + b| := abs_add_le _ _
      _ ≤ (g - 1) * (A + B) + (A + B) := add_le_add h1 ((abs_add_le _ _).trans (add_le_add hA hB))
      _ = _ := by ring
  have h3 := mul_le_mul_of_nonneg_left h2 hu
  calc |r - (a + b)| = |(r - (a' + b')) + ((a' + b') - (a + b))| := by congr 1; ring
    _ ≤ _ := abs_add_le _ _
    _ ≤ u * (g * (A + B)) + (g - 1) * (A + B) := by linarith
    _ = _ := by ring

variable [Archimedean K] {p : ℕ} {emin : ℤ} {rd : K → K}

omit [LinearOrder K] [IsStrictOrderedRing K] [Archimedean K] in
theorem OnGrid.natMul {k : ℤ} {x : K} (n : ℕ) (h : OnGrid k x) : OnGrid k ((n : K) * x) := by
  obtain ⟨m, rfl⟩ := h
  exact ⟨n * m, by push_cast; ring⟩

omit [Archimedean K] in
theorem isFloat_nat (hp : 1 ≤ p) (he : emin ≤ 0) {n : ℕ} (hn : n ≤ 2 ^ p) : IsFloat p emin (n : K) :=
  isFloat_of_grid hp he ⟨(n : ℤ), by simp⟩ (by simp; exact_mod_cast hn)

/-- The rounded loop against the exact one. -/
theorem scanR_error (h : Nearest p emin rd) (hp : 1 ≤ p) (he : emin ≤ 0) (ts : List K) :
    ∀ (k : ℕ) (sR tR s t A B : K), 1 ≤ k → k + ts.length ≤ 2 ^ p + 1 → (∀ v ∈ ts, IsFloat p emin v) → IsFloat p emin sR → IsFloat p emin tR →
    |tR - t| ≤ ((1 + (2 ^ p)⁻¹) ^ k - 1) * A → |t| ≤ A → |sR - s| ≤ ((1 + (2 ^ p)⁻¹) ^ (k + 1) - 1) * B → |s| ≤ B →
    |(scanR rd k sR tR ts).1 - (scan k s t ts).1| ≤
      ((1 + (2 ^ p)⁻¹) ^ (k + ts.length + 1) - 1) * (B + ts.length * A + ((k : K) + ts.length - 1) * (ts.map abs).sum) ∧
    |(scanR rd k sR tR ts).2 - (scan k s t ts).2| ≤
      ((1 + (2 ^ p)⁻¹) ^ (k + ts.length) - 1) * (A + (ts.map abs).sum) ∧
    IsFloat p emin (scanR rd k sR tR ts).1 ∧ IsFloat p emin (scanR rd k sR tR ts).2 := by
  have hu0 : (0 : K) ≤ (2 ^ p)⁻¹ := by positivity
  induction ts with
  | nil =>
    intro k sR tR s t A B hk hlen hf fs ft ht hA hs hB
    simp only [scanR, scan, List.length_nil, Nat.cast_zero, List.map_nil, List.sum_nil, zero_mul, mul_zero, add_zero]
    exact ⟨hs, ht, fs, ft⟩
  | cons v ts ih =>
    intro k sR tR s t A B hk hlen hf fs ft ht hA hs hB
    have fv := hf v (by simp)
    simp only [List.length_cons] at hlen
    have rk : rd (k : K) = k := h.exact (isFloat_nat hp he (by omega))
    simp only [scanR, scan, rk]
    set u : K := (2 ^ p)⁻¹ with hud
    have one_le : ∀ m : ℕ, (1 : K) ≤ (1 + u) ^ m := fun m => one_le_pow₀ (by linarith)
    have hA0 : 0 ≤ A := (abs_nonneg t).trans hA
    have hkv : 0 ≤ (k : K) * |v| := by positivity
    -- the product
    have gq : OnGrid emin ((k : K) * v) := OnGrid.natMul k fv.grid
    have e1 : |rd ((k : K) * v) - k * v| ≤ ((1 + u) ^ k - 1) * (k * |v|) := by
      have := h.rel_error hp gq
      rw [abs_mul, Nat.abs_cast] at this
      refine this.trans (mul_le_mul_of_nonneg_right ?_ hkv)
      have : (1 + u) ^ 1 ≤ (1 + u) ^ k := pow_le_pow_right₀ (by linarith) hk
      rw [pow_one] at this; linarith
    -- the term
    have e2 : |rd (rd ((k : K) * v) - tR) - (k * v - t)| ≤ ((1 + u) ^ (k + 1) - 1) * (k * |v| + A) := by
      have := add_step (a := (k : K) * v) (b := -t) (b' := -tR) hu0 e1
        (by rw [← neg_add', abs_neg, ← sub_eq_add_neg] at *; simpa [abs_sub_comm, sub_eq_add_neg, add_comm] using ht)
        (by rw [abs_mul, Nat.abs_cast]) (by rwa [abs_neg]) (r := rd (rd ((k : K) * v) - tR))
        (by rw [← sub_eq_add_neg]; exact h.rel_error hp ((h _).1.grid.sub ft.grid))
      rwa [← pow_succ, ← sub_eq_add_neg] at this
    have hd : |(k : K) * v - t| ≤ k * |v| + A := by
      refine (abs_sub _ _).trans (add_le_add ?_ hA)
      rw [abs_mul, Nat.abs_cast]
    -- the sum
    have e3 := add_step hu0 hs e2 hB hd (h.rel_error hp (fs.grid.add (h (rd ((k : K) * v) - tR)).1.grid))
    rw [← pow_succ] at e3
    -- the total
    have e4 := add_step hu0 ht (b := v) (b' := v) (B := |v|)
      (by rw [sub_self, abs_zero]; exact mul_nonneg (by linarith [one_le k]) (abs_nonneg v)) hA le_rfl (h.rel_error hp (ft.grid.add fv.grid))
    rw [← pow_succ] at e4
    obtain ⟨i1, i2, i3, i4⟩ := ih (k + 1) _ _ _ _ (A + |v|) (B + (k * |v| + A)) (by omega) (by omega) (fun w hw => hf w (by simp [hw]))
      (h (sR + rd (rd ((k : K) * v) - tR))).1 (h (tR + v)).1 e4 ((abs_add_le _ _).trans (add_le_add hA le_rfl)) e3
      ((abs_add_le _ _).trans (add_le_add hB hd))
    refine ⟨?_, ?_, i3, i4⟩
    · refine i1.trans_eq ?_
      rw [show k + 1 + ts.length + 1 = k + (v :: ts).length + 1 by simp; omega]
      congr 1
      simp only [List.length_cons, List.map_cons, List.sum_cons]; push_cast; ring
    · refine i2.trans_eq ?_
      rw [show k + 1 + ts.length = k + (v :: ts).length by simp; omega]
      congr 1
      simp only [List.map_cons, List.sum_cons]; ring

/-- The double sum and the total, as computed. -/
theorem unnormalizedMadR_error (h : Nearest p emin rd) (hp : 1 ≤ p) (he : emin ≤ 0) (x : List K) (hne : x ≠ [])
    (hf : ∀ v ∈ x, IsFloat p emin v) (hn : x.length ≤ 2 ^ p) :
    |(unnormalizedMadR rd x).1 - Spec.pairSum x / 2| ≤
      ((1 + (2 ^ p)⁻¹) ^ (x.length + 1) - 1) * (((x.length : K) - 1) * (x.map abs).sum) ∧
    |(unnormalizedMadR rd x).2 - x.sum| ≤ ((1 + (2 ^ p)⁻¹) ^ x.length - 1) * (x.map abs).sum ∧
    IsFloat p emin (unnormalizedMadR rd x).1 ∧ IsFloat p emin (unnormalizedMadR rd x).2 := by
  have hperm : (sort x).Perm x := List.mergeSort_perm x _
  obtain ⟨s1, s2⟩ := unnormalizedMad_spec x
  have s1' : Spec.pairSum x / 2 = (unnormalizedMad x).1 := by rw [← s1]; ring
  rw [s1', ← s2, ← (hperm.map abs).sum_eq, ← hperm.length_eq]
  have hf' : ∀ v ∈ sort x, IsFloat p emin v := fun v hv => hf v (hperm.mem_iff.1 hv)
  have hn' : (sort x).length ≤ 2 ^ p := by rw [hperm.length_eq]; exact hn
  have hne' : sort x ≠ [] := by
    intro hc; rw [hc] at hperm; exact hne hperm.symm.eq_nil
  unfold unnormalizedMadR unnormalizedMad
  cases hs : sort x with
  | nil => exact absurd hs hne'
  | cons t ts =>
    rw [hs] at hf' hn'
    have hu0 : (0 : K) ≤ (2 ^ p)⁻¹ := by positivity
    have ft := hf' t (by simp)
    obtain ⟨i1, i2, i3, i4⟩ := scanR_error h hp he ts 1 0 t 0 t |t| 0 le_rfl (by simp at hn'; omega) (fun v hv => hf' v (by simp [hv]))
      isFloat_zero ft (by rw [sub_self, abs_zero, pow_one]; simp) le_rfl (by simp) (by simp)
    refine ⟨?_, ?_, i3, i4⟩
    · refine i1.trans_eq ?_
      rw [show 1 + ts.length + 1 = (t :: ts).length + 1 by simp; omega]
      congr 1
      simp only [List.length_cons, List.map_cons, List.sum_cons]; push_cast; ring
    · refine i2.trans_eq ?_
      rw [show 1 + ts.length = (t :: ts).length by simp; omega]
      simp

/-- Powers of `1 + u` with a small exponent. -/
theorem pow_bound {u : K} (hu : 0 ≤ u) (m : ℕ) (hm : (m : K) * u ≤ 1 / 100) : (1 + u) ^ m ≤ 1 + 1.02 * m * u := by
  induction m with
  | zero => simp
  | succ m ih =>
    push_cast at hm ⊢
    have h1 : (m : K) * u ≤ 1 / 100 := by linarith
    have h2 := ih h1
    have h3 : (m : K) * u * u ≤ 1 / 100 * u := mul_le_mul_of_nonneg_right h1 hu
    calc (1 + u) ^ (m + 1) = (1 + u) ^ m * (1 + u) := pow_succ _ _
      _ ≤ (1 + 1.02 * m * u) * (1 + u) := mul_le_mul_of_nonneg_right h2 (by linarith)
      _ = 1 + 1.02 * m * u + u + 1.02 * (m * u * u) := by ring
      _ ≤ _ := by norm_num at h3 ⊢; linarith

/-- A quotient by a rounded number. -/
theorem div_step {u η c e a a' A N N' r : K} (hu : 0 ≤ u) (hu1 : u ≤ 1 / 1000) (hc0 : 0 ≤ c) (hc : c ≤ 1 / 50) (he : 0 ≤ e)
    (ha : |a' - a| ≤ c * A + e) (hA : |a| ≤ A) (hN : 1 ≤ N) (hN' : |N' - N| ≤ u * N) (hr : |r - a' / N'| ≤ u * |a' / N'| + η) :
    |r - a / N| ≤ (c + 2.1 * u) * (A / N) + 1.1 * e + η := by
  have hA0 : 0 ≤ A := (abs_nonneg a).trans hA
  have hN0 : 0 < N := by linarith
  have hNb := abs_le.1 hN'
  have huN : u * N ≤ 1 / 1000 * N := mul_le_mul_of_nonneg_right hu1 hN0.le
  have hNp : 0 < N' := by linarith
  set q := A / N with hq
  have hq0 : 0 ≤ q := by positivity
  have hAq : A = q * N := by rw [hq, div_mul_cancel₀ _ hN0.ne']
  -- the quotient before rounding
  have h1 : |a' / N' - a / N| ≤ (c + 1.03 * u) * q + 1.002 * e := by
    have e1 : a' / N' - a / N = ((a' - a) - a / N * (N' - N)) / N' := by
      field_simp; ring
    rw [e1, abs_div, abs_of_pos hNp, div_le_iff₀ hNp]
    have h2 : |a / N * (N' - N)| ≤ q * (u * N) := by
      rw [abs_mul, abs_div, abs_of_pos hN0]
      exact mul_le_mul (div_le_div_of_nonneg_right hA hN0.le) hN' (abs_nonneg _) hq0
    have h3 : |(a' - a) - a / N * (N' - N)| ≤ c * A + e + q * (u * N) := (abs_sub _ _).trans (add_le_add ha h2)
    refine h3.trans ?_
    rw [hAq]
    have k1 : (1 - u) * N ≤ N' := by linarith
    have k0 : 0 ≤ (c + 1.03 * u) * q + 1.002 * e := by positivity
    refine le_trans ?_ (mul_le_mul_of_nonneg_left k1 k0)
    have hqN : 0 ≤ q * N := by positivity
    have huqN : 0 ≤ u * (q * N) := by positivity
    have f1 : c * (u * (q * N)) ≤ 1 / 50 * (u * (q * N)) := mul_le_mul_of_nonneg_right hc huqN
    have f2 : u * (u * (q * N)) ≤ 1 / 1000 * (u * (q * N)) := mul_le_mul_of_nonneg_right hu1 huqN
    have f3 : e * 1 ≤ e * N := mul_le_mul_of_nonneg_left hN he
    have f4 : u * (e * N) ≤ 1 / 1000 * (e * N) := mul_le_mul_of_nonneg_right hu1 (by positivity)
    have ex : ((c + 1.03 * u) * q + 1.002 * e) * ((1 - u) * N) =
        c * (q * N) + 1.03 * (u * (q * N)) - c * (u * (q * N)) - 1.03 * (u * (u * (q * N))) + 1.002 * (e * N) - 1.002 * (u * (e * N)) := by ring
    rw [ex]
    norm_num at *
    linarith
  have h5 : |a / N| ≤ q := by rw [abs_div, abs_of_pos hN0]; exact div_le_div_of_nonneg_right hA hN0.le
  have h6 : |a' / N'| ≤ 1.0211 * q + 1.002 * e := by
    calc |a' / N'| = |(a' / N' - a / N) + a / N| := by congr 1; ring
      _ ≤ _ := abs_add_le _ _
      _ ≤ (c + 1.03 * u) * q + 1.002 * e + q := add_le_add h1 h5
      _ ≤ _ := by
        have f1 : c * q ≤ 1 / 50 * q := mul_le_mul_of_nonneg_right hc hq0
        have f2 : u * q ≤ 1 / 1000 * q := mul_le_mul_of_nonneg_right hu1 hq0
        norm_num at *
        linarith
  have h7 := mul_le_mul_of_nonneg_left h6 hu
  calc |r - a / N| = |(r - a' / N') + (a' / N' - a / N)| := by congr 1; ring
    _ ≤ _ := abs_add_le _ _
    _ ≤ u * (1.0211 * q + 1.002 * e) + η + ((c + 1.03 * u) * q + 1.002 * e) := by linarith
    _ ≤ _ := by
      have f4 : u * e ≤ 1 / 1000 * e := mul_le_mul_of_nonneg_right hu1 he
      have f5 : 0 ≤ u * q := by positivity
      norm_num at *
      linarith

end Ufunclab.Mad
