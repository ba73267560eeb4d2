import Verif.Proof.Debye1Zero
/-! # The chain of cells: the integral up to every multiple of 1/5, and every piece -/
namespace Ufunclab.Debye1
open Real

theorem peval_append_zero (p : List ℤ) (t : ℝ) : peval (p ++ [0]) t = peval p t := by
  induction p with
  | nil => simp
  | cons a p ih => simp [ih]

/-- The exact value of the nested expression. -/
noncomputable def val (x : ℝ) : List (ℤ × ℕ) → ℝ
  | [] => 0
  | c :: cs => lit c + x * val x cs

/-- The sum of the absolute values of the terms. -/
noncomputable def aval (x : ℝ) : List (ℤ × ℕ) → ℝ
  | [] => 0
  | c :: cs => |lit c| + x * aval x cs

theorem aval_nonneg {x : ℝ} (hx : 0 ≤ x) (cs : List (ℤ × ℕ)) : 0 ≤ aval x cs := by
  induction cs with
  | nil => simp [aval]
  | cons c cs ih => simp only [aval]; positivity

theorem aval_le {x y ρ : ℝ} (hx : 0 ≤ x) (hy : 0 ≤ y) (hρ : 1 ≤ ρ) (hxy : x ≤ ρ * y) (cs : List (ℤ × ℕ)) :
    aval x cs ≤ ρ ^ cs.length * aval y cs := by
  induction cs with
  | nil => simp [aval]
  | cons c cs ih =>
    have hn := aval_nonneg hy cs
    have hn' := aval_nonneg hx cs
    have hp : 1 ≤ ρ ^ cs.length := one_le_pow₀ hρ
    have hp1 : (1 : ℝ) ≤ ρ ^ (cs.length + 1) := one_le_pow₀ hρ
    simp only [aval, List.length_cons]
    have h1 : x * aval x cs ≤ (ρ * y) * (ρ ^ cs.length * aval y cs) :=
      mul_le_mul hxy ih hn' (by positivity)
    have h2 : |lit c| ≤ ρ ^ (cs.length + 1) * |lit c| := le_mul_of_one_le_left (abs_nonneg _) hp1
    calc |lit c| + x * aval x cs ≤ ρ ^ (cs.length + 1) * |lit c| + (ρ * y) * (ρ ^ cs.length * aval y cs) := add_le_add h2 h1
      _ = _ := by ring

theorem pow_sub40 {e : ℕ} (he : e ≤ 40) : (10 : ℝ) ^ (40 - e) = 10 ^ 40 / 10 ^ e := by
  rw [eq_div_iff (by positivity), ← pow_add]
  congr 1; omega

theorem peval_hI (X : List ℤ) (t : ℝ) (cs : List (ℤ × ℕ)) (h : cs.all (fun c => decide (c.2 ≤ 40)) = true) :
    peval (hI X cs) t = 10 ^ (40 + cs.length) * val (peval X t / 10) cs := by
  induction cs with
  | nil => simp [hI, val]
  | cons c cs ih =>
    simp only [List.all_cons, Bool.and_eq_true, decide_eq_true_eq] at h
    rw [hI, peval_padd, peval_pmul, ih h.2, peval_cons, peval_nil, val, lit, List.length_cons]
    push_cast
    rw [pow_sub40 h.1]
    have : (10 : ℝ) ^ c.2 ≠ 0 := by positivity
    field_simp
    ring

theorem cast_hA (m : ℤ) (cs : List (ℤ × ℕ)) (h : cs.all (fun c => decide (c.2 ≤ 40)) = true) :
    (hA m cs : ℝ) = 10 ^ (40 + cs.length) * aval (m / 10) cs := by
  induction cs with
  | nil => simp [hA, aval]
  | cons c cs ih =>
    simp only [List.all_cons, Bool.and_eq_true, decide_eq_true_eq] at h
    have h2 := ih h.2
    rw [hA, aval, lit, List.length_cons, abs_div, abs_of_pos (show (0 : ℝ) < 10 ^ c.2 by positivity)]
    push_cast
    rw [h2, pow_sub40 h.1]
    have : (10 : ℝ) ^ c.2 ≠ 0 := by positivity
    field_simp
    ring

/-- The invariant of the chain of exponentials. -/
def ExpInv (j : ℕ) (b : ℤ) : Prop := |exp (-(2 * (j : ℝ) + 1) / 10) - b / 10 ^ 30| ≤ 4 / 10 ^ 26

/-- The invariant of the chain of integrals. -/
def FInv (j : ℕ) (w : ℤ) : Prop := |F ((j : ℝ) / 5) - w / 10 ^ 30| ≤ 1 / 10 ^ 20 + (j : ℝ) * (2.2 / 10 ^ 23)

theorem exp_tenth : |exp (-1 / 10) - pevalZ sCert 1 / 10 ^ 30| ≤ 1 / 10 ^ 27 := by
  have := exp_S (t := 1) (by norm_num)
  have h := peval_intCast sCert 1
  rw [Int.cast_one] at h
  rwa [h] at this

theorem exp_tenth_lt : exp (-1 / 10) ≤ 0.90484 := by
  have h := abs_le.1 exp_tenth
  have h2 : pevalZ sCert 1 ≤ 904838 * 10 ^ 24 := by decide +kernel
  have h3 : (pevalZ sCert 1 : ℝ) ≤ ((904838 * 10 ^ 24 : ℤ) : ℝ) := by exact_mod_cast h2
  norm_num at h h3 ⊢; linarith

theorem exp_fifth : |exp (-1 / 5) - (pevalZ sCert 1 * pevalZ sCert 1) / 10 ^ 60| ≤ 2 / 10 ^ 27 := by
  have h := exp_tenth
  have h1 := exp_tenth_lt
  have e : exp (-1 / 5) = exp (-1 / 10) * exp (-1 / 10) := by rw [← exp_add]; norm_num
  have hp := exp_pos (-1 / 10 : ℝ)
  set s : ℝ := pevalZ sCert 1 / 10 ^ 30 with hs
  have e2 : ((pevalZ sCert 1 : ℝ) * pevalZ sCert 1) / 10 ^ 60 = s * s := by rw [hs]; ring
  rw [e2, e]
  have hh := abs_le.1 h
  have hs1 : |exp (-1 / 10) + s| ≤ 2 := by
    rw [abs_le]; constructor <;> norm_num at hh h1 ⊢ <;> linarith
  calc |exp (-1 / 10) * exp (-1 / 10) - s * s| = |exp (-1 / 10) - s| * |exp (-1 / 10) + s| := by rw [← abs_mul]; ring_nf
    _ ≤ 1 / 10 ^ 27 * 2 := mul_le_mul h hs1 (abs_nonneg _) (by norm_num)
    _ = _ := by norm_num

theorem expInv_step {j : ℕ} {b b' : ℤ} (h : ExpInv j b)
    (hc : |b * (pevalZ sCert 1 * pevalZ sCert 1) - b' * 10 ^ 60| ≤ 3000 * 10 ^ 60) : ExpInv (j + 1) b' := by
  unfold ExpInv at h ⊢
  have h5 := exp_fifth
  set s : ℝ := ((pevalZ sCert 1 : ℝ) * pevalZ sCert 1) / 10 ^ 60 with hs
  set a := exp (-(2 * j + 1) / 10) with ha
  have e : exp (-(2 * ((j + 1 : ℕ) : ℝ) + 1) / 10) = a * exp (-1 / 5) := by
    rw [ha, ← exp_add]; congr 1; push_cast; ring
  have ha0 : 0 < a := exp_pos _
  have ha1 : a ≤ 1 := by
    rw [ha, exp_le_one_iff]
    have : (0 : ℝ) ≤ j := Nat.cast_nonneg j
    linarith
  have hc' : |(b : ℝ) / 10 ^ 30 * s - b' / 10 ^ 30| ≤ 3000 / 10 ^ 30 := by
    have h1 : |(b : ℝ) * (pevalZ sCert 1 * pevalZ sCert 1) - b' * 10 ^ 60| ≤ 3000 * 10 ^ 60 := by exact_mod_cast hc
    have e2 : (b : ℝ) / 10 ^ 30 * s - b' / 10 ^ 30 = (b * (pevalZ sCert 1 * pevalZ sCert 1) - b' * 10 ^ 60) / 10 ^ 90 := by
      rw [hs]; field_simp
    rw [e2, abs_div, abs_of_pos (show (0 : ℝ) < 10 ^ 90 by norm_num), div_le_iff₀ (by norm_num)]
    exact h1.trans (by norm_num)
  have hsl : 0 ≤ s ∧ s ≤ 0.82 := by
    have hz : pevalZ sCert 1 * pevalZ sCert 1 ≤ 82 * 10 ^ 58 := by decide +kernel
    have hz' : (pevalZ sCert 1 : ℝ) * pevalZ sCert 1 ≤ 82 * 10 ^ 58 := by exact_mod_cast hz
    refine ⟨div_nonneg (mul_self_nonneg _) (by norm_num), ?_⟩
    rw [hs, div_le_iff₀ (by norm_num)]
    exact hz'.trans (by norm_num)
  rw [e]
  calc |a * exp (-1 / 5) - b' / 10 ^ 30|
      = |a * (exp (-1 / 5) - s) + (a - b / 10 ^ 30) * s + (b / 10 ^ 30 * s - b' / 10 ^ 30)| := by ring_nf
    _ ≤ |a * (exp (-1 / 5) - s)| + |(a - b / 10 ^ 30) * s| + |b / 10 ^ 30 * s - b' / 10 ^ 30| :=
        (abs_add_le _ _).trans (add_le_add (abs_add_le _ _) le_rfl)
    _ ≤ 1 * (2 / 10 ^ 27) + 4 / 10 ^ 26 * 0.82 + 3000 / 10 ^ 30 := by
        refine add_le_add (add_le_add ?_ ?_) hc'
        · rw [abs_mul, abs_of_pos ha0]; exact mul_le_mul ha1 h5 (abs_nonneg _) (by norm_num)
        · rw [abs_mul, abs_of_nonneg hsl.1]; exact mul_le_mul h hsl.2 hsl.1 (by norm_num)
    _ ≤ _ := by norm_num

/-- Within a cell the integral is the polynomial. -/
theorem F_cell {j : ℕ} {b : ℤ} {g : List ℤ} (hj1 : 1 ≤ j) (hj : j < 200) (hc : checkG j b g = true)
    (hb : ExpInv j b) (hH : pder (0 :: pint 0 g) = psmul 360360 g ++ [0]) {t : ℝ} (ht : |t| ≤ 1 + 1 / 10 ^ 11) :
    |(F (pt j t) - F (j / 5)) - (peval (0 :: pint 0 g) t - pevalZ (0 :: pint 0 g) (-1)) / (3603600 * 10 ^ 30)|
      ≤ 2.1 / 10 ^ 23 := by
  set H := 0 :: pint 0 g with hHd
  have htb := abs_le.1 ht
  have hd : ∀ x ∈ Set.Icc (pt j (-(1 + 1 / 10 ^ 11))) (pt j (1 + 1 / 10 ^ 11)),
      HasDerivAt (fun x => peval H (10 * x - (2 * j + 1)) / (3603600 * 10 ^ 30))
        (peval g (10 * x - (2 * j + 1)) / 10 ^ 30) x := by
    intro x _
    have h1 : HasDerivAt (fun x : ℝ => 10 * x - (2 * j + 1)) 10 x := by
      simpa using ((hasDerivAt_id x).const_mul 10).sub_const (2 * (j : ℝ) + 1)
    have h2 := ((hasDerivAt_peval H (10 * x - (2 * j + 1))).comp x h1).div_const (3603600 * 10 ^ 30)
    refine h2.congr_deriv ?_
    rw [hH, peval_append_zero, peval_psmul]
    push_cast
    ring
  have hG : ∀ x ∈ Set.Icc (pt j (-(1 + 1 / 10 ^ 11))) (pt j (1 + 1 / 10 ^ 11)),
      |f x - peval g (10 * x - (2 * j + 1)) / 10 ^ 30| ≤ 1 / 10 ^ 22 := by
    intro x hx
    have e : x = pt j (10 * x - (2 * j + 1)) := by rw [pt]; ring
    have := f_approx hj1 hj hc hb (t := 10 * x - (2 * j + 1)) (by
      simp only [pt, Set.mem_Icc] at hx
      rw [abs_le]; constructor <;> linarith [hx.1, hx.2])
    rwa [← e] at this
  have mem : ∀ s : ℝ, |s| ≤ 1 + 1 / 10 ^ 11 → pt j s ∈ Set.Icc (pt j (-(1 + 1 / 10 ^ 11))) (pt j (1 + 1 / 10 ^ 11)) := by
    intro s hs
    have := abs_le.1 hs
    simp only [pt, Set.mem_Icc]
    constructor <;> linarith [this.1, this.2]
  have key := F_compare hd hG (mem (-1) (by norm_num)) (mem t ht)
  have e1 : pt j (-1) = j / 5 := by rw [pt]; ring
  have e2 : ∀ s : ℝ, 10 * pt j s - (2 * j + 1) = s := by intro s; rw [pt]; ring
  rw [e2, e2, e1] at key
  have e3 := peval_intCast H (-1)
  rw [Int.cast_neg, Int.cast_one] at e3
  rw [e3] at key
  have e4 : |pt j t - j / 5| ≤ 0.21 := by
    rw [abs_le, pt]; constructor <;> norm_num at htb ⊢ <;> linarith [htb.1, htb.2]
  calc _ = |F (pt j t) - peval H t / (3603600 * 10 ^ 30) - (F (j / 5) - (pevalZ H (-1) : ℝ) / (3603600 * 10 ^ 30))| := by
        congr 1; ring
    _ ≤ _ := key
    _ ≤ 1 / 10 ^ 22 * 0.21 := mul_le_mul_of_nonneg_left e4 (by norm_num)
    _ ≤ _ := by norm_num

theorem fInv_step {j : ℕ} {b : ℤ} {g : List ℤ} {w w' : ℤ} (hj1 : 1 ≤ j) (hj : j < 200) (hc : checkG j b g = true)
    (hb : ExpInv j b) (hw : FInv j w) (hH : checkH g w w' = true) : FInv (j + 1) w' := by
  simp only [checkH, Bool.and_eq_true, decide_eq_true_eq] at hH
  obtain ⟨⟨h1, h2⟩, -⟩ := hH
  have key := F_cell hj1 hj hc hb h1 (t := 1) (by norm_num)
  set H := 0 :: pint 0 g with hHd
  have e3 := peval_intCast H 1
  rw [Int.cast_one] at e3
  have e1 : pt j 1 = ((j + 1 : ℕ) : ℝ) / 5 := by rw [pt]; push_cast; ring
  rw [e3, e1] at key
  unfold FInv at hw ⊢
  have h2' : |((w' : ℝ) - w) * 3603600 - (pevalZ H 1 - pevalZ H (-1))| ≤ 7207200 := by exact_mod_cast h2
  have h3 : |((w' : ℝ) - w) / 10 ^ 30 - (pevalZ H 1 - pevalZ H (-1)) / (3603600 * 10 ^ 30)| ≤ 2 / 10 ^ 30 := by
    have e : ((w' : ℝ) - w) / 10 ^ 30 - (pevalZ H 1 - pevalZ H (-1)) / (3603600 * 10 ^ 30) =
        (((w' : ℝ) - w) * 3603600 - (pevalZ H 1 - pevalZ H (-1))) / (3603600 * 10 ^ 30) := by field_simp
    rw [e, abs_div, abs_of_pos (show (0 : ℝ) < 3603600 * 10 ^ 30 by norm_num), div_le_iff₀ (by norm_num)]
    exact h2'.trans (by norm_num)
  set Q : ℝ := (pevalZ H 1 - pevalZ H (-1)) / (3603600 * 10 ^ 30)
  calc |F (((j + 1 : ℕ) : ℝ) / 5) - w' / 10 ^ 30|
      = |(F (((j + 1 : ℕ) : ℝ) / 5) - F (j / 5) - Q) + (F (j / 5) - w / 10 ^ 30) - (((w' : ℝ) - w) / 10 ^ 30 - Q)| := by
        congr 1; ring
    _ ≤ |F (((j + 1 : ℕ) : ℝ) / 5) - F (j / 5) - Q| + |F (j / 5) - w / 10 ^ 30| + |((w' : ℝ) - w) / 10 ^ 30 - Q| :=
        (abs_sub _ _).trans (add_le_add (abs_add_le _ _) le_rfl)
    _ ≤ 2.1 / 10 ^ 23 + (1 / 10 ^ 20 + j * (2.2 / 10 ^ 23)) + 2 / 10 ^ 30 := add_le_add (add_le_add key hw) h3
    _ ≤ _ := by push_cast; norm_num; linarith

/-- `x p(x)` for the pieces of the first table, `p(x)` for the others. -/
noncomputable def qval (j : ℕ) (x : ℝ) : ℝ := if j < 50 then x * val x (piece j) else val x (piece j)

noncomputable def qaval (j : ℕ) (x : ℝ) : ℝ := if j < 50 then x * aval x (piece j) else aval x (piece j)

/-- What is known of piece `j` on its cell, a little enlarged. -/
def Good (j : ℕ) : Prop := (piece j).length ≤ 8 ∧ ∀ x : ℝ, 0 ≤ x → |x - (2 * j + 1) / 10| ≤ 1 / 10 + 1 / 10 ^ 12 →
  |qval j x - F x| ≤ 9.1 / 10 ^ 15 * F x ∧ qaval j x ≤ 1.001 * cond j * F x

theorem good_of_check {j : ℕ} {b : ℤ} {g : List ℤ} {w w' : ℤ} (hj1 : 1 ≤ j) (hj : j < 200) (hc : checkG j b g = true)
    (hb : ExpInv j b) (hw : FInv j w) (hH : checkH g w w' = true) (hP : checkP j g w (piece j) = true) : Good j := by
  simp only [checkH, Bool.and_eq_true, decide_eq_true_eq] at hH
  obtain ⟨⟨hH1, -⟩, hw0⟩ := hH
  simp only [checkP, Bool.and_eq_true, decide_eq_true_eq] at hP
  obtain ⟨⟨⟨⟨hl, hD⟩, hAc⟩, he⟩, hlen⟩ := hP
  set cs := piece j with hcs
  have hwR : (10 : ℝ) ^ 29 < w := by exact_mod_cast hw0
  refine ⟨hlen, fun x hx0 hx => ?_⟩
  have jR1 : (1 : ℝ) ≤ j := by exact_mod_cast hj1
  have jR : (j : ℝ) ≤ 199 := by exact_mod_cast (by omega : j ≤ 199)
  have hxb := abs_le.1 hx
  set t := 10 * x - (2 * j + 1) with ht
  have ht1 : |t| ≤ 1 + 1 / 10 ^ 11 := by
    rw [abs_le, ht]; constructor <;> norm_num at hxb ⊢ <;> linarith [hxb.1, hxb.2]
  have hxt : x = pt j t := by rw [pt, ht]; ring
  have key := F_cell hj1 hj hc hb hH1 ht1
  rw [← hxt] at key
  set H := 0 :: pint 0 g with hHd
  -- the integral is bounded below, and close to w
  have hw' : |F (j / 5) - w / 10 ^ 30| ≤ 1.5 / 10 ^ 20 := by
    refine hw.trans ?_
    have : (j : ℝ) * (2.2 / 10 ^ 23) ≤ 199 * (2.2 / 10 ^ 23) := mul_le_mul_of_nonneg_right jR (by norm_num)
    norm_num at this ⊢; linarith
  have hwb := abs_le.1 hw'
  have hFx : F (j / 5) - 1 / 10 ^ 12 ≤ F x := by
    by_cases h : (j : ℝ) / 5 ≤ x
    · have := F_mono.monotone h
      have h0 : (0 : ℝ) < 1 / 10 ^ 12 := by norm_num
      linarith
    · have h1 := abs_le.1 (F_sub_le hx0 (show (0 : ℝ) ≤ j / 5 by positivity))
      have h2 : |(j : ℝ) / 5 - x| ≤ 1 / 10 ^ 12 := by
        rw [abs_of_pos (by linarith)]; norm_num at hxb ⊢; linarith [hxb.1]
      linarith [h1.2]
  have hwn : (0.1 : ℝ) < w / 10 ^ 30 := by
    rw [lt_div_iff₀ (by norm_num)]
    exact lt_of_le_of_lt (by norm_num) hwR
  set W : ℝ := w / 10 ^ 30 with hW
  have hF0 : 0.09 ≤ F x := by norm_num at hwb hFx hwn ⊢; linarith [hwb.1]
  have hWF : W ≤ 1.0001 * F x := by norm_num at hwb hFx hwn hF0 ⊢; linarith [hwb.1]
  -- the polynomial of the integral
  have hFh : |F x - (W + (peval H t - pevalZ H (-1)) / (3603600 * 10 ^ 30))| ≤ 1.6 / 10 ^ 20 := by
    calc _ = |(F x - F (j / 5) - (peval H t - pevalZ H (-1)) / (3603600 * 10 ^ 30)) + (F (j / 5) - W)| := by congr 1; ring
      _ ≤ _ := abs_add_le _ _
      _ ≤ 2.1 / 10 ^ 23 + 1.5 / 10 ^ 20 := add_le_add key hw'
      _ ≤ _ := by norm_num
  set X : List ℤ := [2 * (j : ℤ) + 1, 1] with hX
  have hXt : peval X t / 10 = x := by
    rw [hX, ht]; simp only [peval_cons, peval_nil]; push_cast; ring
  have hXt' : peval X t = 10 * x := by linarith
  set s := 40 + cs.length + (if j < 50 then 1 else 0) with hs
  have hPv : peval (if j < 50 then pmul X (hI X cs) else hI X cs) t = 10 ^ s * qval j x := by
    rw [qval, hs, ← hcs]
    split_ifs
    · rw [peval_pmul, peval_hI X t cs he, hXt, hXt']; ring
    · rw [peval_hI X t cs he, hXt, add_zero]
  have hDv := peval_abs_le _ hl ht1
  rw [peval_padd, peval_psmul, peval_psmul, hPv, peval_padd,
    show peval [w * 3603600 - pevalZ H (-1)] t = ((w * 3603600 - pevalZ H (-1) : ℤ) : ℝ) + t * 0 from rfl] at hDv
  have hD' : (pabs (padd (psmul (10 ^ s) (padd H [w * 3603600 - pevalZ H (-1)]))
      (psmul (-(3603600 * 10 ^ 30)) (if j < 50 then pmul X (hI X cs) else hI X cs))) : ℝ) * 10 ^ 15 ≤ 9 * (w * 3603600 * 10 ^ s) := by
    exact_mod_cast hD
  generalize ((pabs (padd (psmul (10 ^ s) (padd H [w * 3603600 - pevalZ H (-1)]))
      (psmul (-(3603600 * 10 ^ 30)) (if j < 50 then pmul X (hI X cs) else hI X cs))) : ℤ) : ℝ) = D at hDv hD'
  have h10 : (0 : ℝ) < 10 ^ s := by positivity
  constructor
  · set Fh := W + (peval H t - pevalZ H (-1)) / (3603600 * 10 ^ 30) with hFhd
    have h1 : |Fh - qval j x| ≤ 1.001 * (9 / 10 ^ 15 * W) := by
      have e : Fh - qval j x = (((10 ^ s : ℤ) : ℝ) * (peval H t + (((w * 3603600 - pevalZ H (-1) : ℤ) : ℝ) + t * 0)) +
          ((-(3603600 * 10 ^ 30) : ℤ) : ℝ) * (10 ^ s * qval j x)) / (10 ^ s * (3603600 * 10 ^ 30)) := by
        rw [hFhd, hW]; push_cast; field_simp; ring
      rw [e, abs_div, abs_of_pos (show (0 : ℝ) < 10 ^ s * (3603600 * 10 ^ 30) by positivity), div_le_iff₀ (by positivity)]
      refine hDv.trans ?_
      have e2 : 1.001 * (9 / 10 ^ 15 * W) * (10 ^ s * (3603600 * 10 ^ 30)) = 1.001 * (9 * (w * 3603600 * 10 ^ s) / 10 ^ 15) := by
        rw [hW]; field_simp
      rw [e2]
      apply mul_le_mul_of_nonneg_left _ (by norm_num)
      rw [le_div_iff₀ (by norm_num)]
      exact hD'
    have h2 : |qval j x - F x| ≤ 1.001 * (9 / 10 ^ 15 * W) + 1.6 / 10 ^ 20 := by
      calc |qval j x - F x| = |-(Fh - qval j x) + -(F x - Fh)| := by congr 1; ring
        _ ≤ |-(Fh - qval j x)| + |-(F x - Fh)| := abs_add_le _ _
        _ = |Fh - qval j x| + |F x - Fh| := by rw [abs_neg, abs_neg]
        _ ≤ _ := add_le_add h1 hFh
    refine h2.trans ?_
    norm_num at hWF hF0 ⊢
    linarith
  · have hA' : ((if j < 50 then (2 * (j : ℤ) + 2) * hA (2 * (j : ℤ) + 2) cs else hA (2 * (j : ℤ) + 2) cs : ℤ) : ℝ) * 10 ^ 30 ≤ cond j * 10 ^ s * w := by
      exact_mod_cast hAc
    set m : ℤ := 2 * (j : ℤ) + 2 with hm
    have hmR : (m : ℝ) = 2 * j + 2 := by rw [hm]; push_cast; ring
    set y : ℝ := (m : ℝ) / 10 with hy
    have hy0 : 0 < y := by rw [hy, hmR]; positivity
    have hxy : x ≤ (1 + 1 / 10 ^ 11) * y := by
      rw [hy, hmR]
      norm_num at hxb ⊢; linarith [hxb.2]
    have hav := aval_le hx0 hy0.le (show (1 : ℝ) ≤ 1 + 1 / 10 ^ 11 by norm_num) hxy cs
    have hy1 : qaval j y ≤ cond j * W := by
      have e : ((if j < 50 then m * hA m cs else hA m cs : ℤ) : ℝ) = 10 ^ s * qaval j y := by
        rw [qaval, hs, ← hcs]
        split_ifs
        · push_cast; rw [cast_hA m cs he, ← hy, show (m : ℝ) = 10 * y by rw [hy]; ring]; ring
        · rw [cast_hA m cs he, ← hy, add_zero]
      rw [e] at hA'
      have e2 : cond j * W = (cond j * 10 ^ s * w) / (10 ^ s * 10 ^ 30) := by rw [hW]; field_simp
      rw [e2, le_div_iff₀ (by positivity)]
      linarith
    have hn := aval_nonneg hy0.le cs
    have hpw : ((1 : ℝ) + 1 / 10 ^ 11) ^ (cs.length + 1) ≤ 1.0001 := by
      refine (pow_le_pow_right₀ (by norm_num) (by omega : cs.length + 1 ≤ 9)).trans ?_
      norm_num
    have hpw' : ((1 : ℝ) + 1 / 10 ^ 11) ^ cs.length ≤ 1.0001 := by
      refine (pow_le_pow_right₀ (by norm_num) (by omega : cs.length ≤ 9)).trans ?_
      norm_num
    have hq0 : 0 ≤ qaval j y := by rw [qaval, ← hcs]; split_ifs <;> positivity
    have h3 : qaval j x ≤ 1.0001 * qaval j y := by
      rw [qaval, qaval, ← hcs]
      split_ifs
      · calc x * aval x cs ≤ ((1 + 1 / 10 ^ 11) * y) * ((1 + 1 / 10 ^ 11) ^ cs.length * aval y cs) :=
              mul_le_mul hxy hav (aval_nonneg hx0 cs) (by positivity)
          _ = (1 + 1 / 10 ^ 11) ^ (cs.length + 1) * (y * aval y cs) := by ring
          _ ≤ _ := mul_le_mul_of_nonneg_right hpw (by positivity)
      · exact hav.trans (mul_le_mul_of_nonneg_right hpw' hn)
    have hc0 : (0 : ℝ) ≤ cond j := by rw [cond]; split_ifs <;> norm_num
    calc qaval j x ≤ 1.0001 * qaval j y := h3
      _ ≤ 1.0001 * (cond j * W) := mul_le_mul_of_nonneg_left hy1 (by norm_num)
      _ ≤ 1.0001 * (cond j * (1.0001 * F x)) :=
          mul_le_mul_of_nonneg_left (mul_le_mul_of_nonneg_left hWF hc0) (by norm_num)
      _ = (1.0001 * 1.0001) * (cond j * F x) := by ring
      _ ≤ 1.001 * (cond j * F x) := mul_le_mul_of_nonneg_right (by norm_num) (mul_nonneg hc0 (by linarith))
      _ = _ := by ring

theorem chain (cells : List (ℤ × List ℤ × ℤ)) (j : ℕ) (hj1 : 1 ≤ j) (hj : j + cells.length ≤ 200)
    (hc : checkFrom j cells = true)
    (h0 : ∀ c ∈ cells.head?, ExpInv j c.1 ∧ FInv j c.2.2) (hne : cells ≠ []) :
    (∀ i < cells.length, Good (j + i)) ∧ FInv (j + cells.length) wLast := by
  induction cells generalizing j with
  | nil => exact absurd rfl hne
  | cons c rest ih =>
    obtain ⟨b, g, w⟩ := c
    obtain ⟨hb, hw⟩ := h0 (b, g, w) rfl
    simp only [List.length_cons] at hj ⊢
    cases rest with
    | nil =>
      simp only [checkFrom, Bool.and_eq_true] at hc
      obtain ⟨⟨hG, hP⟩, hH⟩ := hc
      refine ⟨fun i hi => ?_, ?_⟩
      · have : i = 0 := by simp at hi; exact hi
        subst this
        exact good_of_check hj1 (by simp at hj; omega) hG hb hw hH hP
      · exact fInv_step hj1 (by simp at hj; omega) hG hb hw hH
    | cons c' rest' =>
      obtain ⟨b', g', w'⟩ := c'
      rw [checkFrom] at hc
      simp only [Bool.and_eq_true, decide_eq_true_eq] at hc
      obtain ⟨⟨hG, hP⟩, ⟨hS, hH⟩, hrest⟩ := hc
      have hjl : j < 200 := by simp at hj; omega
      have hrec := ih (j + 1) (by omega) (by simp at hj ⊢; omega) hrest
        (by
          intro c hc
          simp only [List.head?_cons, Option.mem_def, Option.some.injEq] at hc
          subst hc
          exact ⟨expInv_step hb hS, fInv_step hj1 hjl hG hb hw hH⟩) (by simp)
      refine ⟨fun i hi => ?_, ?_⟩
      · cases i with
        | zero => exact good_of_check hj1 hjl hG hb hw hH hP
        | succ i =>
          have := hrec.1 i (by simp at hi ⊢; omega)
          rwa [show j + 1 + i = j + (i + 1) by omega] at this
      · have := hrec.2
        rwa [show j + 1 + ((b', g', w') :: rest').length = j + (((b', g', w') :: rest').length + 1) by omega] at this

end Ufunclab.Debye1
