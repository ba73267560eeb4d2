import Verif.Proof.Debye1Good
import Verif.Proof.Float2
/-! # Rounding errors of debye1 -/
namespace Ufunclab.Debye1
open Real

/-- An arithmetic with relative error `u` and absolute error `η` in every operation. -/
def Rd (u η : ℝ) (rd : ℝ → ℝ) : Prop := ∀ z, |rd z - z| ≤ u * |z| + η

theorem rd_id : Rd 0 0 id := fun z => by simp

theorem rd_double {rd : ℝ → ℝ} (h : Float.Nearest 53 (-1074) rd) : Rd (1 / 2 ^ 53) (1 / 2 ^ 1075) rd := by
  intro z
  have h1 := h.error (by norm_num) z
  refine h1.trans (le_of_eq ?_)
  congr 1
  · rw [one_div]
  · rw [show (-1074 : ℤ) = -((1074 : ℕ) : ℤ) by norm_num, zpow_neg, zpow_natCast]
    have e : (2 : ℝ) ^ 1075 = 2 ^ 1074 * 2 := pow_succ 2 1074
    rw [e, one_div, mul_inv, div_eq_mul_inv]

theorem abs_val_le {x : ℝ} (hx : 0 ≤ x) (cs : List (ℤ × ℕ)) : |val x cs| ≤ aval x cs := by
  induction cs with
  | nil => simp [val, aval]
  | cons c cs ih =>
    rw [val, aval]
    refine (abs_add_le _ _).trans (add_le_add le_rfl ?_)
    rw [abs_mul, abs_of_nonneg hx]
    exact mul_le_mul_of_nonneg_left ih hx

theorem horner_step {rd : ℝ → ℝ} {u η : ℝ} (h : Rd u η rd) (hu0 : 0 ≤ u) (hu : u ≤ 1 / 10 ^ 5) (hη : 0 ≤ η)
    {x : ℝ} (hx0 : 0 ≤ x) (hx : x ≤ 41) {c v A w κ σ : ℝ} (hA : |v| ≤ A) (hκ0 : 0 ≤ κ) (hκ : κ ≤ 20) (hσ : 4 * η ≤ σ)
    (hw : |w - v| ≤ κ * u * A + σ) :
    |rd (rd c + rd (x * w)) - (c + x * v)| ≤ (κ + 2.1) * u * (|c| + x * A) + 100 * σ := by
  have hA0 : 0 ≤ A := (abs_nonneg v).trans hA
  have hσ0 : 0 ≤ σ := by linarith
  set δ := κ * u * A + σ with hδ
  have hδ0 : 0 ≤ δ := by positivity
  have h1 := h c
  have h2 := h (x * w)
  have h3 := h (rd c + rd (x * w))
  have hwA : |w| ≤ A + δ := by
    have e : w = v + (w - v) := by ring
    calc |w| = |v + (w - v)| := by rw [← e]
      _ ≤ |v| + |w - v| := abs_add_le _ _
      _ ≤ _ := add_le_add hA hw
  have hxw : |x * w| ≤ x * (A + δ) := by rw [abs_mul, abs_of_nonneg hx0]; exact mul_le_mul_of_nonneg_left hwA hx0
  have hxv : |x * w - x * v| ≤ x * δ := by
    rw [← mul_sub, abs_mul, abs_of_nonneg hx0]; exact mul_le_mul_of_nonneg_left hw hx0
  have hc0 := abs_nonneg c
  have e1 : u * |x * w| ≤ u * (x * (A + δ)) := mul_le_mul_of_nonneg_left hxw hu0
  have hs : |(rd c + rd (x * w)) - (c + x * v)| ≤ u * |c| + u * (x * (A + δ)) + x * δ + 2 * η := by
    calc |(rd c + rd (x * w)) - (c + x * v)| = |(rd c - c) + (rd (x * w) - x * w) + (x * w - x * v)| := by congr 1; ring
      _ ≤ |rd c - c| + |rd (x * w) - x * w| + |x * w - x * v| := (abs_add_le _ _).trans (add_le_add (abs_add_le _ _) le_rfl)
      _ ≤ _ := by linarith
  have hcv : |c + x * v| ≤ |c| + x * A := by
    refine (abs_add_le _ _).trans (add_le_add le_rfl ?_)
    rw [abs_mul, abs_of_nonneg hx0]; exact mul_le_mul_of_nonneg_left hA hx0
  set S := u * |c| + u * (x * (A + δ)) + x * δ + 2 * η with hS
  have hsum : |rd c + rd (x * w)| ≤ |c| + x * A + S := by
    calc |rd c + rd (x * w)| = |(c + x * v) + ((rd c + rd (x * w)) - (c + x * v))| := by congr 1; ring
      _ ≤ _ := abs_add_le _ _
      _ ≤ _ := add_le_add hcv hs
  have h4 : |rd (rd c + rd (x * w)) - (c + x * v)| ≤ u * (|c| + x * A + S) + η + S := by
    calc |rd (rd c + rd (x * w)) - (c + x * v)|
        = |(rd (rd c + rd (x * w)) - (rd c + rd (x * w))) + ((rd c + rd (x * w)) - (c + x * v))| := by congr 1; ring
      _ ≤ _ := abs_add_le _ _
      _ ≤ _ := add_le_add (h3.trans (add_le_add (mul_le_mul_of_nonneg_left hsum hu0) le_rfl)) hs
  refine h4.trans ?_
  -- collect the terms
  have hP : 0 ≤ u * (x * A) := by positivity
  have hC : 0 ≤ u * |c| := by positivity
  have m1 : u * (u * |c|) ≤ 0.00001 * (u * |c|) := by
    apply mul_le_mul_of_nonneg_right _ hC; norm_num at hu ⊢; linarith
  have hKu : κ * u ≤ 0.0002 := by
    have := mul_le_mul hκ hu hu0 (by norm_num); norm_num at this ⊢; linarith
  have m2 : x * δ = κ * (u * (x * A)) + x * σ := by rw [hδ]; ring
  have m3 : u * (x * δ) ≤ 0.0002 * (u * (x * A)) + 0.00001 * (x * σ) := by
    have e : u * (x * δ) = κ * u * (u * (x * A)) + u * (x * σ) := by rw [hδ]; ring
    rw [e]
    refine add_le_add (mul_le_mul_of_nonneg_right hKu hP) (mul_le_mul_of_nonneg_right ?_ (by positivity))
    norm_num at hu ⊢; linarith
  have m4 : u * (u * (x * A)) ≤ 0.00001 * (u * (x * A)) := by
    apply mul_le_mul_of_nonneg_right _ hP; norm_num at hu ⊢; linarith
  have m5 : u * η ≤ 0.00001 * η := by
    apply mul_le_mul_of_nonneg_right _ hη; norm_num at hu ⊢; linarith
  have m6 : x * σ ≤ 41 * σ := mul_le_mul_of_nonneg_right hx hσ0
  have m7 : u * (u * (x * δ)) ≤ u * (x * δ) := by
    have : 0 ≤ u * (x * δ) := by positivity
    apply mul_le_of_le_one_left this; norm_num at hu ⊢; linarith
  have e2 : u * (|c| + x * A + S) + η + S = 2 * (u * |c|) + 2 * (u * (x * A)) + u * (u * |c|) + u * (u * (x * A)) +
      u * (u * (x * δ)) + 2 * (u * (x * δ)) + x * δ + 2 * (u * η) + 3 * η := by rw [hS]; ring
  have e3 : (κ + 2.1) * u * (|c| + x * A) + 100 * σ = κ * (u * |c|) + κ * (u * (x * A)) + 2.1 * (u * |c|) + 2.1 * (u * (x * A)) + 100 * σ := by ring
  have m8 : 0 ≤ κ * (u * |c|) := by positivity
  rw [e2, e3, m2]
  linarith

theorem horner_error {rd : ℝ → ℝ} {u η : ℝ} (h : Rd u η rd) (hu0 : 0 ≤ u) (hu : u ≤ 1 / 10 ^ 5) (hη : 0 ≤ η)
    {x : ℝ} (hx0 : 0 ≤ x) (hx : x ≤ 41) (cs : List (ℤ × ℕ)) (hl : cs.length ≤ 9) :
    |horner rd x cs - val x cs| ≤ 2.1 * cs.length * u * aval x cs + 100 ^ cs.length * η := by
  induction cs with
  | nil => simp only [horner, val, aval]; simpa using hη
  | cons c cs ih =>
    cases cs with
    | nil =>
      have := h (lit c)
      simp only [horner, val, aval, List.length_cons, List.length_nil, mul_zero, add_zero]
      have h2 : 0 ≤ u * |lit c| := by positivity
      norm_num
      linarith
    | cons c' cs' =>
      have ih' := ih (by simp at hl ⊢; omega)
      have hn : 1 ≤ (c' :: cs').length := by simp
      have hlen : (c' :: cs').length ≤ 8 := by simp at hl ⊢; omega
      have e : horner rd x (c :: c' :: cs') = rd (rd (lit c) + rd (x * horner rd x (c' :: cs'))) := rfl
      have hlR : (((c' :: cs').length : ℕ) : ℝ) ≤ 8 := by exact_mod_cast hlen
      have := horner_step h hu0 hu hη hx0 hx (c := lit c) (abs_val_le hx0 (c' :: cs')) (κ := 2.1 * ((c' :: cs').length : ℝ))
        (by positivity) (by linarith) (σ := 100 ^ (c' :: cs').length * η)
        (by
          have h1 : (100 : ℝ) ^ 1 ≤ 100 ^ (c' :: cs').length := pow_le_pow_right₀ (by norm_num) hn
          have := mul_le_mul_of_nonneg_right h1 hη
          linarith)
        ih'
      have eL : (c :: c' :: cs').length = (c' :: cs').length + 1 := rfl
      rw [e, show val x (c :: c' :: cs') = lit c + x * val x (c' :: cs') from rfl,
        show aval x (c :: c' :: cs') = |lit c| + x * aval x (c' :: cs') from rfl, eL]
      generalize (c' :: cs').length = n at this ⊢
      refine this.trans (le_of_eq ?_)
      push_cast
      ring

/-- The argument lies in the cell, up to rounding. -/
def Near (j : ℕ) (x : ℝ) : Prop := |x - (2 * (j : ℝ) + 1) / 10| ≤ 1 / 10 + 1 / 10 ^ 12

theorem index_error {rd : ℝ → ℝ} {u η : ℝ} (h : Rd u η rd) (hu0 : 0 ≤ u) (hu : u ≤ 1 / 10 ^ 15) (hη : 0 ≤ η) (hη' : η ≤ 1 / 10 ^ 15)
    {n a : ℕ} (hn : n ≤ 50) {x : ℝ} (hx : |x - a| ≤ 10) :
    |rd (n * rd (rd (x - a) / 10)) - n * ((x - a) / 10)| ≤ 1 / 10 ^ 12 := by
  have nR : (n : ℝ) ≤ 50 := by exact_mod_cast hn
  have n0 : (0 : ℝ) ≤ n := Nat.cast_nonneg n
  have h1 := h (x - a)
  have h2 := h (rd (x - a) / 10)
  have h3 := h (n * rd (rd (x - a) / 10))
  have b1 : |rd (x - a) - (x - a)| ≤ 1.1 / 10 ^ 14 := by
    refine h1.trans ?_
    have := mul_le_mul hu hx (abs_nonneg _) (by norm_num)
    norm_num at this hη' ⊢; linarith
  have b1' : |rd (x - a)| ≤ 10.1 := by
    calc |rd (x - a)| = |(rd (x - a) - (x - a)) + (x - a)| := by congr 1; ring
      _ ≤ _ := abs_add_le _ _
      _ ≤ _ := by norm_num at b1 ⊢; linarith
  have b2 : |rd (rd (x - a) / 10) - (x - a) / 10| ≤ 4 / 10 ^ 15 := by
    have e : |rd (x - a) / 10 - (x - a) / 10| ≤ 1.1 / 10 ^ 15 := by
      rw [← sub_div, abs_div, abs_of_pos (show (0 : ℝ) < 10 by norm_num)]
      norm_num at b1 ⊢; linarith
    have e2 : |rd (x - a) / 10| ≤ 1.01 := by
      rw [abs_div, abs_of_pos (show (0 : ℝ) < 10 by norm_num)]; norm_num at b1' ⊢; linarith
    have e3 := mul_le_mul hu e2 (abs_nonneg _) (by norm_num)
    calc |rd (rd (x - a) / 10) - (x - a) / 10| = |(rd (rd (x - a) / 10) - rd (x - a) / 10) + (rd (x - a) / 10 - (x - a) / 10)| := by congr 1; ring
      _ ≤ _ := abs_add_le _ _
      _ ≤ _ := by norm_num at h2 e e3 hη' ⊢; linarith
  have b3 : |n * rd (rd (x - a) / 10) - n * ((x - a) / 10)| ≤ 2 / 10 ^ 13 := by
    rw [← mul_sub, abs_mul, abs_of_nonneg n0]
    have := mul_le_mul nR b2 (abs_nonneg _) (by norm_num)
    norm_num at this ⊢; linarith
  have b4 : |n * rd (rd (x - a) / 10)| ≤ 51 := by
    have e : |n * ((x - a) / 10)| ≤ 50 := by
      rw [abs_mul, abs_of_nonneg n0, abs_div, abs_of_pos (show (0 : ℝ) < 10 by norm_num)]
      have : |x - a| / 10 ≤ 1 := by linarith
      have := mul_le_mul nR this (by positivity) (by norm_num)
      linarith
    calc |n * rd (rd (x - a) / 10)| = |(n * rd (rd (x - a) / 10) - n * ((x - a) / 10)) + n * ((x - a) / 10)| := by congr 1; ring
      _ ≤ _ := abs_add_le _ _
      _ ≤ _ := by
        have b3' : (2 : ℝ) / 10 ^ 13 ≤ 1 := by norm_num
        linarith
  have e3 := mul_le_mul hu b4 (abs_nonneg _) (by norm_num)
  calc _ = |(rd (n * rd (rd (x - a) / 10)) - n * rd (rd (x - a) / 10)) + (n * rd (rd (x - a) / 10) - n * ((x - a) / 10))| := by congr 1; ring
    _ ≤ _ := abs_add_le _ _
    _ ≤ _ := by norm_num at h3 b3 e3 hη' ⊢; linarith

/-- Which entry of a table is chosen. -/
theorem switch_select {rd : ℝ → ℝ} {u η : ℝ} (h : Rd u η rd) (hu0 : 0 ≤ u) (hu : u ≤ 1 / 10 ^ 15) (hη : 0 ≤ η) (hη' : η ≤ 1 / 10 ^ 15)
    {n a : ℕ} (hn : n ≤ 50) (hn0 : 10 ≤ n) {table : List (List (ℤ × ℕ))} (hl : table.length = n) {x : ℝ}
    (hx0 : (a : ℝ) - 1 / 10 ^ 12 ≤ x) (hx1 : x < a + 10) :
    (∃ k < n, switch table (index rd n a x) = some (table.getD k []) ∧
      (k : ℝ) - n * (1 / 10 ^ 13) ≤ n * ((x - a) / 10) ∧ n * ((x - a) / 10) ≤ k + 1 + n * (1 / 10 ^ 13)) ∨
    (switch table (index rd n a x) = none ∧ (a : ℝ) + 10 - 1 / 10 ^ 12 ≤ x) := by
  have nR : (n : ℝ) ≤ 50 := by exact_mod_cast hn
  have nR0 : (10 : ℝ) ≤ n := by exact_mod_cast hn0
  have herr := index_error h hu0 hu hη hη' hn (a := a) (x := x) (by
    rw [abs_le]; constructor <;> norm_num at hx0 ⊢ <;> linarith)
  set z := rd (n * rd (rd (x - a) / 10)) with hz
  set y := (n : ℝ) * ((x - a) / 10) with hy
  have hb := abs_le.1 herr
  have hk : index rd n a x = trunc z := rfl
  rw [hk]
  have hylow : -(n * (1 / 10 ^ 13)) ≤ y := by
    have : -(1 / 10 ^ 12) / 10 ≤ (x - a) / 10 := by linarith
    have h2 : (n : ℝ) * (-(1 / 10 ^ 12) / 10) ≤ y := mul_le_mul_of_nonneg_left this (by linarith)
    refine le_trans (le_of_eq ?_) h2
    ring
  have hn13 : 1 / 10 ^ 12 ≤ (n : ℝ) * (1 / 10 ^ 13) := by norm_num; linarith
  unfold trunc
  by_cases hz0 : z < 0
  · have hc : ⌈z⌉ = 0 := by
      rw [Int.ceil_eq_iff]
      push_cast
      constructor
      · norm_num at hb hylow ⊢; linarith [hb.1]
      · simpa using hz0.le
    refine Or.inl ⟨0, by omega, ?_, ?_, ?_⟩
    · rw [if_pos hz0, hc, switch, if_pos le_rfl, List.getD_eq_getElem?_getD, Int.toNat_zero,
        List.getElem?_eq_getElem (by omega : 0 < table.length)]
      rfl
    · push_cast; linarith
    · push_cast; linarith [hb.1]
  · have hz0' : 0 ≤ z := not_lt.1 hz0
    have hf0 : 0 ≤ ⌊z⌋ := Int.floor_nonneg.2 hz0'
    rw [if_neg hz0, switch, if_pos hf0]
    obtain ⟨k, hkz⟩ := Int.eq_ofNat_of_zero_le hf0
    rw [hkz]
    have hfl := Int.floor_le z
    have hfl2 := Int.lt_floor_add_one z
    rw [hkz] at hfl hfl2
    have hkr : ((Int.ofNat k : ℤ) : ℝ) = k := by simp
    change ((Int.ofNat k : ℤ) : ℝ) ≤ z at hfl
    change z < ((Int.ofNat k : ℤ) : ℝ) + 1 at hfl2
    rw [hkr] at hfl hfl2
    simp only [Int.toNat_natCast]
    by_cases hkn : k < n
    · refine Or.inl ⟨k, hkn, ?_, ?_, ?_⟩
      · rw [List.getD_eq_getElem?_getD, List.getElem?_eq_getElem (by omega : k < table.length)]
        rfl
      · linarith [hb.2]
      · linarith [hb.1]
    · refine Or.inr ⟨List.getElem?_eq_none (by omega), ?_⟩
      have hkn' : (n : ℝ) ≤ k := by exact_mod_cast not_lt.1 hkn
      have h1 : (n : ℝ) - 1 / 10 ^ 12 ≤ y := by linarith [hb.2]
      by_contra hcon
      have h2 : (x - a) / 10 < 1 - 1 / 10 ^ 13 := by norm_num at hcon ⊢; linarith
      have h3 : y < n * (1 - 1 / 10 ^ 13) := mul_lt_mul_of_pos_left h2 (by linarith)
      have h4 : (n : ℝ) * (1 / 10 ^ 13) ≥ 10 * (1 / 10 ^ 13) := mul_le_mul_of_nonneg_right nR0 (by norm_num)
      norm_num at h1 h3 h4 ⊢
      linarith

theorem table_lengths : table0.length = 50 ∧ table1.length = 50 ∧ table2.length = 10 ∧ table3.length = 10 := by
  decide +kernel

/-- The fifth of a unit cell. -/
theorem near_of_unit {b k : ℕ} {x : ℝ} (h1 : (b : ℝ) / 5 + k - 1 / 10 ^ 12 ≤ x) (h2 : x ≤ (b : ℝ) / 5 + k + 1 + 1 / 10 ^ 12) :
    ∃ i < 5, Near (b + 5 * k + i) x := by
  set y := x - ((b : ℝ) / 5 + k) with hy
  have hmk : ∀ i : ℕ, (i : ℝ) / 5 - 1 / 10 ^ 12 ≤ y → y ≤ (i + 1) / 5 + 1 / 10 ^ 12 → Near (b + 5 * k + i) x := by
    intro i h3 h4
    unfold Near
    rw [abs_le]
    push_cast
    constructor <;> linarith
  by_cases c1 : y ≤ 1 / 5
  · exact ⟨0, by norm_num, hmk 0 (by push_cast; linarith) (by push_cast; norm_num at c1 ⊢; linarith)⟩
  by_cases c2 : y ≤ 2 / 5
  · exact ⟨1, by norm_num, hmk 1 (by push_cast; norm_num at c1 ⊢; linarith) (by push_cast; norm_num at c2 ⊢; linarith)⟩
  by_cases c3 : y ≤ 3 / 5
  · exact ⟨2, by norm_num, hmk 2 (by push_cast; norm_num at c2 ⊢; linarith) (by push_cast; norm_num at c3 ⊢; linarith)⟩
  by_cases c4 : y ≤ 4 / 5
  · exact ⟨3, by norm_num, hmk 3 (by push_cast; norm_num at c3 ⊢; linarith) (by push_cast; norm_num at c4 ⊢; linarith)⟩
  · exact ⟨4, by norm_num, hmk 4 (by push_cast; norm_num at c4 ⊢; linarith) (by push_cast; norm_num; linarith)⟩

end Ufunclab.Debye1
