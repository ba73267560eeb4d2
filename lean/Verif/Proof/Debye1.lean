import Verif.Proof.Debye1Round
/-! # debye1: the whole function -/
namespace Ufunclab.Debye1
open Real

/-- Three outcomes of the selection. -/
theorem select {rd : ℝ → ℝ} {u η : ℝ} (h : Rd u η rd) (hu0 : 0 ≤ u) (hu : u ≤ 1 / 10 ^ 15) (hη : 0 ≤ η) (hη' : η ≤ 1 / 10 ^ 15)
    {x : ℝ} (hx0 : 0 ≤ x) :
    (∃ j < 50, Near j x ∧ finNonneg rd x = horner rd x (piece j)) ∨
    (∃ j, 50 ≤ j ∧ j < 200 ∧ Near j x ∧ finNonneg rd x = rd (horner rd x (piece j) / x)) ∨
    (39.9 ≤ x ∧ finNonneg rd x = rd (rd (lit asympConst) / x)) := by
  obtain ⟨l0, l1, l2, l3⟩ := table_lengths
  -- the first table
  have s0 : (∃ k < 50, Near k x ∧ (if x < 10 then switch table0 (index rd 50 0 x) else none) = some (piece k)) ∨
      ((if x < 10 then switch table0 (index rd 50 0 x) else none) = none ∧ (10 : ℝ) - 1 / 10 ^ 12 ≤ x) := by
    by_cases hx : x < 10
    · rw [if_pos hx]
      rcases switch_select h hu0 hu hη hη' (n := 50) (a := 0) le_rfl (by norm_num) l0 (x := x)
        (by push_cast; norm_num; linarith) (by push_cast; linarith) with ⟨k, hk, hs, h1, h2⟩ | ⟨hs, h1⟩
      · refine Or.inl ⟨k, hk, ?_, ?_⟩
        · unfold Near; push_cast at h1 h2; rw [abs_le]; constructor <;> linarith
        · rw [hs, piece, if_pos hk]
      · exact Or.inr ⟨hs, by push_cast at h1; linarith⟩
    · exact Or.inr ⟨if_neg hx, by norm_num at hx ⊢; linarith⟩
  rcases s0 with ⟨k, hk, hn, hs⟩ | ⟨hs0, hx10⟩
  · exact Or.inl ⟨k, hk, hn, by rw [finNonneg, hs]⟩
  have s1 : (∃ k < 50, Near (50 + k) x ∧ (if x < 20 then switch table1 (index rd 50 10 x) else none) = some (piece (50 + k))) ∨
      ((if x < 20 then switch table1 (index rd 50 10 x) else none) = none ∧ (20 : ℝ) - 1 / 10 ^ 12 ≤ x) := by
    by_cases hx : x < 20
    · rw [if_pos hx]
      rcases switch_select h hu0 hu hη hη' (n := 50) (a := 10) le_rfl (by norm_num) l1 (x := x)
        (by push_cast; linarith) (by push_cast; linarith) with ⟨k, hk, hs, h1, h2⟩ | ⟨hs, h1⟩
      · refine Or.inl ⟨k, hk, ?_, ?_⟩
        · unfold Near; push_cast at h1 h2 ⊢; rw [abs_le]; constructor <;> linarith
        · rw [hs, piece, if_neg (by omega), if_pos (by omega), Nat.add_sub_cancel_left]
      · exact Or.inr ⟨hs, by push_cast at h1; linarith⟩
    · exact Or.inr ⟨if_neg hx, by norm_num at hx ⊢; linarith⟩
  rcases s1 with ⟨k, hk, hn, hs⟩ | ⟨hs1, hx20⟩
  · exact Or.inr (Or.inl ⟨50 + k, by omega, by omega, hn, by rw [finNonneg, hs0, hs]⟩)
  have s2 : (∃ j, 100 ≤ j ∧ j < 150 ∧ Near j x ∧ (if x < 30 then switch table2 (index rd 10 20 x) else none) = some (piece j)) ∨
      ((if x < 30 then switch table2 (index rd 10 20 x) else none) = none ∧ (30 : ℝ) - 1 / 10 ^ 12 ≤ x) := by
    by_cases hx : x < 30
    · rw [if_pos hx]
      rcases switch_select h hu0 hu hη hη' (n := 10) (a := 20) (by norm_num) le_rfl l2 (x := x)
        (by push_cast; linarith) (by push_cast; linarith) with ⟨k, hk, hs, h1, h2⟩ | ⟨hs, h1⟩
      · push_cast at h1 h2
        obtain ⟨i, hi, hN⟩ := near_of_unit (b := 100) (k := k) (x := x) (by push_cast; linarith) (by push_cast; linarith)
        refine Or.inl ⟨100 + 5 * k + i, by omega, by omega, hN, ?_⟩
        rw [hs, piece, if_neg (by omega), if_neg (by omega), if_pos (by omega), show (100 + 5 * k + i - 100) / 5 = k by omega]
      · exact Or.inr ⟨hs, by push_cast at h1; linarith⟩
    · exact Or.inr ⟨if_neg hx, by norm_num at hx ⊢; linarith⟩
  rcases s2 with ⟨j, hj1, hj2, hn, hs⟩ | ⟨hs2, hx30⟩
  · exact Or.inr (Or.inl ⟨j, by omega, by omega, hn, by rw [finNonneg, hs0, hs1, hs]⟩)
  have s3 : (∃ j, 150 ≤ j ∧ j < 200 ∧ Near j x ∧ (if x < 40 then switch table3 (index rd 10 30 x) else none) = some (piece j)) ∨
      ((if x < 40 then switch table3 (index rd 10 30 x) else none) = none ∧ (40 : ℝ) - 1 / 10 ^ 12 ≤ x) := by
    by_cases hx : x < 40
    · rw [if_pos hx]
      rcases switch_select h hu0 hu hη hη' (n := 10) (a := 30) (by norm_num) le_rfl l3 (x := x)
        (by push_cast; linarith) (by push_cast; linarith) with ⟨k, hk, hs, h1, h2⟩ | ⟨hs, h1⟩
      · push_cast at h1 h2
        obtain ⟨i, hi, hN⟩ := near_of_unit (b := 150) (k := k) (x := x) (by push_cast; linarith) (by push_cast; linarith)
        refine Or.inl ⟨150 + 5 * k + i, by omega, by omega, hN, ?_⟩
        rw [hs, piece, if_neg (by omega), if_neg (by omega), if_neg (by omega), show (150 + 5 * k + i - 150) / 5 = k by omega]
      · exact Or.inr ⟨hs, by push_cast at h1; linarith⟩
    · exact Or.inr ⟨if_neg hx, by norm_num at hx ⊢; linarith⟩
  rcases s3 with ⟨j, hj1, hj2, hn, hs⟩ | ⟨hs3, hx40⟩
  · exact Or.inr (Or.inl ⟨j, by omega, by omega, hn, by rw [finNonneg, hs0, hs1, hs2, hs]⟩)
  · exact Or.inr (Or.inr ⟨by norm_num at hx40 ⊢; linarith, by rw [finNonneg, hs0, hs1, hs2, hs3]⟩)

theorem F_ge_half {x : ℝ} (hx0 : 0 ≤ x) (hx : x ≤ 1 / 2) : x / 2 ≤ F x := by
  have hd : ∀ x, HasDerivAt (fun x => F x - x / 2) (f x - 1 / 2) x :=
    fun x => (hasDerivAt_F x).sub ((hasDerivAt_id x).div_const 2)
  have hm : MonotoneOn (fun x => F x - x / 2) (Set.Icc 0 (1 / 2)) := by
    apply monotoneOn_of_deriv_nonneg (convex_Icc _ _)
    · exact fun x _ => (hd x).continuousAt.continuousWithinAt
    · exact fun x _ => (hd x).differentiableAt.differentiableWithinAt
    · intro y hy
      rw [interior_Icc] at hy
      rw [(hd y).deriv]
      have hy0 : 0 < y := hy.1
      have hy1 : y < 1 / 2 := hy.2
      rw [f, if_neg hy0.ne']
      have h1 := one_sub_le_exp_neg y
      rw [exp_neg] at h1
      have hp := exp_pos y
      have h2 : exp y * (1 - y) ≤ 1 := by
        calc exp y * (1 - y) ≤ exp y * (exp y)⁻¹ := mul_le_mul_of_nonneg_left h1 hp.le
          _ = 1 := mul_inv_cancel₀ hp.ne'
      have h3 : 0 < exp y - 1 := by linarith [one_lt_exp_iff.2 hy0]
      have h4 : exp y ≤ 2 := by
        have : exp y * (1 / 2) ≤ exp y * (1 - y) := mul_le_mul_of_nonneg_left (by linarith) hp.le
        linarith
      have h5 : exp y * y ≤ 2 * y := mul_le_mul_of_nonneg_right h4 hy0.le
      have h6 : exp y - 1 ≤ 2 * y := by linarith
      have : 1 / 2 ≤ y / (exp y - 1) := by rw [div_le_div_iff₀ (by norm_num) h3]; linarith
      linarith
  have := hm (show (0 : ℝ) ∈ Set.Icc 0 (1 / 2) by simp) ⟨hx0, hx⟩ hx0
  simp only [F_zero] at this
  linarith

theorem D1_pos_of {x : ℝ} (hx : 0 < x) : 0 < D1 x := by
  rw [D1_eq hx.ne']
  have := F_mono hx
  rw [F_zero] at this
  exact div_pos this hx

theorem D1_lower {x : ℝ} (hx : 0 ≤ x) (hx1 : x ≤ 41) : 1 / 200 ≤ D1 x := by
  rcases hx.eq_or_lt with h | h
  · subst h; rw [D1_zero]; norm_num
  rw [D1_eq h.ne', le_div_iff₀ h]
  rcases le_total x (1 / 2) with h1 | h1
  · have := F_ge_half hx h1; linarith
  · have h2 := F_mono.monotone h1
    have h3 := F_ge_half (x := 1 / 2) (by norm_num) le_rfl
    linarith

/-- The bound on the relative error. -/
noncomputable def bound (u x : ℝ) : ℝ := 9.2 / 10 ^ 15 + 18 * u * (if x < 2.9 ∨ 18.1 < x then 5 else 130)

theorem near_cond {j : ℕ} {x : ℝ} (h : Near j x) : (cond j : ℝ) ≤ if x < 2.9 ∨ 18.1 < x then 5 else 130 := by
  have hb := abs_le.1 h
  by_cases hx : x < 2.9 ∨ 18.1 < x
  · rw [if_pos hx]
    have : j < 15 ∨ 90 ≤ j := by
      rcases hx with hx | hx
      · left
        have : (j : ℝ) < 15 := by norm_num at hb hx; linarith [hb.1]
        exact_mod_cast this
      · right
        have : (89 : ℝ) < j := by norm_num at hb hx; linarith [hb.2]
        have : 89 < j := by exact_mod_cast this
        omega
    rw [cond, if_pos this]; norm_num
  · rw [if_neg hx, cond]; split_ifs <;> norm_num

theorem horner_total {rd : ℝ → ℝ} {u η : ℝ} (h : Rd u η rd) (hu0 : 0 ≤ u) (hu : u ≤ 1.2 / 10 ^ 16) (hη : 0 ≤ η) (hη' : η ≤ 1 / 10 ^ 60)
    {j : ℕ} (hj : j < 200) {x : ℝ} (hx0 : 0 < x) (hN : Near j x) {s : ℝ}
    (hs : s = if j < 50 then x else 1) (hx41 : x ≤ 41) :
    |horner rd x (piece j) * s - F x| ≤ (9.11 / 10 ^ 15 + 16.9 * u * (if x < 2.9 ∨ 18.1 < x then 5 else 130)) * F x := by
  obtain ⟨hlen, hgood⟩ := good_all hj
  obtain ⟨hq, ha⟩ := hgood x hx0.le hN
  have hh := horner_error h hu0 (by norm_num at hu ⊢; linarith) hη hx0.le hx41 (piece j) (by omega)
  have hc := near_cond hN
  set C : ℝ := if x < 2.9 ∨ 18.1 < x then 5 else 130 with hC
  have hF0 : 0 < F x := by have := F_mono hx0; rwa [F_zero] at this
  have hs0 : 0 ≤ s := by rw [hs]; split_ifs <;> linarith
  have hsv : val x (piece j) * s = qval j x := by rw [hs, qval]; split_ifs <;> ring
  have hsa : aval x (piece j) * s = qaval j x := by rw [hs, qaval]; split_ifs <;> ring
  have hsF : s ≤ 200 * 41 * F x := by
    have hD := D1_lower hx0.le hx41
    rw [D1_eq hx0.ne', le_div_iff₀ hx0] at hD
    rw [hs]
    split_ifs with hj50
    · linarith
    · have : 9 ≤ x := by
        have hb := abs_le.1 hN
        have : (50 : ℝ) ≤ j := by exact_mod_cast not_lt.1 hj50
        norm_num at hb ⊢; linarith [hb.1]
      linarith
  have hlR : ((piece j).length : ℝ) ≤ 8 := by exact_mod_cast hlen
  have ha0 := aval_nonneg hx0.le (piece j)
  have t1 : 2.1 * ((piece j).length : ℝ) * u * aval x (piece j) ≤ 16.8 * (u * aval x (piece j)) := by
    have h0 : 0 ≤ u * aval x (piece j) := by positivity
    have := mul_le_mul_of_nonneg_right (show 2.1 * ((piece j).length : ℝ) ≤ 16.8 by linarith) h0
    linarith
  have t2 : (100 : ℝ) ^ (piece j).length * η ≤ 100 ^ 8 * (1 / 10 ^ 60) :=
    mul_le_mul (pow_le_pow_right₀ (by norm_num) hlen) hη' hη (by positivity)
  have e1 : |horner rd x (piece j) * s - qval j x| ≤ (16.8 * (u * aval x (piece j)) + 100 ^ 8 * (1 / 10 ^ 60)) * s := by
    rw [← hsv, ← sub_mul, abs_mul, abs_of_nonneg hs0]
    exact mul_le_mul_of_nonneg_right (hh.trans (add_le_add t1 t2)) hs0
  have e2 : (16.8 * (u * aval x (piece j)) + 100 ^ 8 * (1 / 10 ^ 60)) * s ≤ 16.9 * u * C * F x + 1 / 10 ^ 20 * F x := by
    have e3 : 16.8 * (u * aval x (piece j)) * s = 16.8 * u * qaval j x := by rw [← hsa]; ring
    have e4 : 16.8 * u * qaval j x ≤ 16.8 * u * (1.001 * C * F x) := by
      apply mul_le_mul_of_nonneg_left _ (by positivity)
      refine ha.trans ?_
      have : 1.001 * (cond j : ℝ) ≤ 1.001 * C := by linarith
      exact mul_le_mul_of_nonneg_right this hF0.le
    have hC0 : 0 ≤ C := by rw [hC]; split_ifs <;> norm_num
    have e5 : 0 ≤ u * C * F x := by positivity
    have e6 : (100 : ℝ) ^ 8 * (1 / 10 ^ 60) * s ≤ 100 ^ 8 * (1 / 10 ^ 60) * (200 * 41 * F x) :=
      mul_le_mul_of_nonneg_left hsF (by norm_num)
    rw [add_mul, e3]
    norm_num at e4 e6 ⊢
    linarith
  calc |horner rd x (piece j) * s - F x| = |(horner rd x (piece j) * s - qval j x) + (qval j x - F x)| := by congr 1; ring
    _ ≤ _ := abs_add_le _ _
    _ ≤ (16.9 * u * C * F x + 1 / 10 ^ 20 * F x) + 9.1 / 10 ^ 15 * F x := add_le_add (e1.trans e2) hq
    _ ≤ _ := by
      have : (1 / 10 ^ 20 : ℝ) * F x + 9.1 / 10 ^ 15 * F x ≤ 9.11 / 10 ^ 15 * F x := by
        rw [← add_mul]; exact mul_le_mul_of_nonneg_right (by norm_num) hF0.le
      linarith

theorem near_zero {j : ℕ} (h : Near j 0) : j = 0 := by
  have hb := abs_le.1 h
  have : (j : ℝ) < 1 := by norm_num at hb; linarith [hb.1]
  have : j < 1 := by exact_mod_cast this
  omega

theorem horner_at_zero {rd : ℝ → ℝ} (h0 : rd 0 = 0) (h1 : rd 1 = 1) : horner rd 0 (piece 0) = 1 := by
  have : piece 0 = [(1, 0), (-25000000000000455, 17), (2777777777825633, 17), (-19146896558308173, 27), (-27777740152439733, 20),
    (-4015930646647408, 24), (4747866616769995, 21), (-7322099385397592, 23)] := rfl
  rw [this]
  simp [horner, lit, h0, h1]

theorem finNonneg_zero {rd : ℝ → ℝ} (h0 : rd 0 = 0) (h1 : rd 1 = 1) : finNonneg rd 0 = 1 := by
  have h : (if (0 : ℝ) < 10 then switch table0 (index rd 50 0 0) else none) = some (piece 0) := by
    rw [if_pos (by norm_num)]
    have : index rd 50 0 0 = 0 := by simp [index, trunc, h0]
    rw [this]
    rfl
  rw [finNonneg, h]
  exact horner_at_zero h0 h1

/-- The error for an argument that is not negative. -/
theorem nonneg_error {rd : ℝ → ℝ} {u η : ℝ} (h : Rd u η rd) (hu0 : 0 ≤ u) (hu : u ≤ 1.2 / 10 ^ 16) (hη : 0 ≤ η) (hη' : η ≤ 1 / 10 ^ 60)
    (hr0 : rd 0 = 0) (hr1 : rd 1 = 1) {x : ℝ} (hx0 : 0 ≤ x) : |finNonneg rd x - D1 x| ≤ bound u x * D1 x + η := by
  have hC0 : (5 : ℝ) ≤ if x < 2.9 ∨ 18.1 < x then 5 else 130 := by split_ifs <;> norm_num
  have hC1 : (if x < 2.9 ∨ 18.1 < x then (5 : ℝ) else 130) ≤ 130 := by split_ifs <;> norm_num
  rcases hx0.eq_or_lt with h0 | hxp
  · subst h0
    rw [finNonneg_zero hr0 hr1, D1_zero, sub_self, abs_zero, bound]
    positivity
  have hF0 : 0 < F x := by have := F_mono hxp; rwa [F_zero] at this
  have hD := D1_eq hxp.ne'
  have hDp := D1_pos_of hxp
  have hnear41 : ∀ j < 200, Near j x → x ≤ 41 := by
    intro j hj hN
    have hb := abs_le.1 hN
    have : (j : ℝ) ≤ 199 := by exact_mod_cast (by omega : j ≤ 199)
    norm_num at hb ⊢; linarith [hb.2]
  set C : ℝ := if x < 2.9 ∨ 18.1 < x then 5 else 130 with hC
  have hbd : bound u x = 9.2 / 10 ^ 15 + 18 * u * C := rfl
  have hdiv : ∀ v : ℝ, |v / x - D1 x| = |v - F x| / x := by
    intro v
    rw [hD, ← sub_div, abs_div, abs_of_pos hxp]
  have hlast : ∀ v ε : ℝ, |v / x - D1 x| ≤ ε * D1 x → 0 ≤ ε → ε ≤ 1 / 10 → |rd (v / x) - D1 x| ≤ (ε + 1.1 * u) * D1 x + η := by
    intro v ε hv hε0 hε
    have h1 := h (v / x)
    have h2 : |v / x| ≤ 1.1 * D1 x := by
      calc |v / x| = |(v / x - D1 x) + D1 x| := by congr 1; ring
        _ ≤ _ := abs_add_le _ _
        _ ≤ ε * D1 x + D1 x := by rw [abs_of_pos hDp]; exact add_le_add hv le_rfl
        _ ≤ _ := by
          have := mul_le_mul_of_nonneg_right hε hDp.le
          linarith
    have h3 := mul_le_mul_of_nonneg_left h2 hu0
    calc |rd (v / x) - D1 x| = |(rd (v / x) - v / x) + (v / x - D1 x)| := by congr 1; ring
      _ ≤ _ := abs_add_le _ _
      _ ≤ _ := by linarith
  have huC : u * C ≤ 1.2 / 10 ^ 16 * 130 := mul_le_mul hu hC1 (by linarith) (by norm_num)
  have huC5 : 5 * u ≤ u * C := by rw [mul_comm u C]; exact mul_le_mul_of_nonneg_right hC0 hu0
  rcases select h hu0 (by norm_num at hu ⊢; linarith) hη (by norm_num at hη' ⊢; linarith) hx0 with
    ⟨j, hj, hN, he⟩ | ⟨j, hj1, hj2, hN, he⟩ | ⟨hx40, he⟩
  · have ht := horner_total h hu0 hu hη hη' (by omega) hxp hN (if_pos hj).symm (hnear41 j (by omega) hN)
    rw [← hC] at ht
    rw [he]
    have e : |horner rd x (piece j) - D1 x| = |horner rd x (piece j) * x - F x| / x := by
      rw [← hdiv, mul_div_cancel_right₀ _ hxp.ne']
    rw [e, div_le_iff₀ hxp]
    refine ht.trans ?_
    have e2 : (bound u x * D1 x + η) * x = bound u x * F x + η * x := by
      rw [hD, add_mul, mul_assoc, div_mul_cancel₀ _ hxp.ne']
    rw [e2, hbd]
    have h5 : 9.11 / 10 ^ 15 + 16.9 * u * C ≤ 9.2 / 10 ^ 15 + 18 * u * C := by
      have : 0 ≤ u * C := by linarith
      norm_num; linarith
    have h6 := mul_le_mul_of_nonneg_right h5 hF0.le
    have h7 : 0 ≤ η * x := by positivity
    linarith
  · have ht := horner_total h hu0 hu hη hη' hj2 hxp hN (if_neg (by omega)).symm (hnear41 j hj2 hN)
    rw [← hC, mul_one] at ht
    rw [he]
    have hv : |horner rd x (piece j) / x - D1 x| ≤ (9.11 / 10 ^ 15 + 16.9 * u * C) * D1 x := by
      rw [hdiv, div_le_iff₀ hxp, mul_assoc, hD, div_mul_cancel₀ _ hxp.ne']
      exact ht
    have := hlast _ _ hv (by have : 0 ≤ u * C := by linarith
                             norm_num; linarith) (by norm_num at huC ⊢; linarith)
    refine this.trans (add_le_add (mul_le_mul_of_nonneg_right ?_ hDp.le) le_rfl)
    rw [hbd]
    norm_num; linarith
  · rw [he]
    have hF := F_tail hx40
    have hFb := abs_le.1 hF
    have hlit : lit asympConst = 1.6449340668482264 := by rw [lit, asympConst]; norm_num
    rw [hlit] at hFb hF
    have hFge : 1.6 ≤ F x := by norm_num at hFb ⊢; linarith [hFb.1]
    have hv : |rd (lit asympConst) / x - D1 x| ≤ (2 / 10 ^ 15 + 1.1 * u) * D1 x := by
      rw [hdiv, div_le_iff₀ hxp, mul_assoc, hD, div_mul_cancel₀ _ hxp.ne']
      have h1 := h (lit asympConst)
      rw [hlit] at h1 ⊢
      rw [abs_of_pos (by norm_num : (0 : ℝ) < 1.6449340668482264)] at h1
      calc |rd 1.6449340668482264 - F x| = |(rd 1.6449340668482264 - 1.6449340668482264) + -(F x - 1.6449340668482264)| := by
            congr 1; ring
        _ ≤ _ := abs_add_le _ _
        _ ≤ (u * 1.6449340668482264 + 1 / 10 ^ 60) + 1.4 / 10 ^ 15 := by
            rw [abs_neg]; exact add_le_add (h1.trans (add_le_add le_rfl hη')) hF
        _ ≤ _ := by
          have := mul_le_mul_of_nonneg_left hFge (show 0 ≤ 2 / 10 ^ 15 + 1.1 * u by positivity)
          refine le_trans ?_ this
          norm_num; linarith
    have := hlast _ _ hv (by positivity) (by norm_num at hu ⊢; linarith)
    refine this.trans (add_le_add (mul_le_mul_of_nonneg_right ?_ hDp.le) le_rfl)
    rw [hbd]
    norm_num; linarith

theorem D1_pos (x : ℝ) : 0 < D1 x := by
  rcases lt_trichotomy x 0 with h | h | h
  · have h1 := D1_neg (x := -x) (by linarith)
    rw [neg_neg] at h1
    have := D1_pos_of (x := -x) (by linarith)
    rw [h1]; linarith
  · subst h; rw [D1_zero]; norm_num
  · exact D1_pos_of h

end Ufunclab.Debye1
