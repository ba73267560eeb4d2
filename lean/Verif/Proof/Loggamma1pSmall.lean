import Verif.Proof.Loggamma1pHorner
/-! # Rounding errors of the Padé approximant -/
namespace Ufunclab.Loggamma1p
open Ufunclab.Debye1 Ufunclab.PolyPos Real

noncomputable section

/-- `Σ |c_i| s^i` and `Σ 2(i+1) |c_i| s^i`. -/
def aval (s : ℝ) : List (ℤ × ℕ) → ℝ
  | [] => 0
  | c :: cs => aval s cs * s + |lit c|
def wval (s : ℝ) : List (ℤ × ℕ) → ℝ
  | [] => 0
  | c :: cs => wval s cs * s + 2 * (aval s cs * s + |lit c|)

theorem aval_nonneg {s : ℝ} (hs : 0 ≤ s) (cs : List (ℤ × ℕ)) : 0 ≤ aval s cs := by
  induction cs with
  | nil => exact le_rfl
  | cons c cs ih => rw [aval]; positivity

theorem two_aval_le {s : ℝ} (hs : 0 ≤ s) (cs : List (ℤ × ℕ)) : 2 * aval s cs ≤ wval s cs ∧ 0 ≤ wval s cs := by
  induction cs with
  | nil => simp [aval, wval]
  | cons c cs ih =>
    have h := aval_nonneg hs cs
    have h2 := mul_nonneg ih.2 hs
    rw [aval, wval]
    constructor
    · linarith
    · positivity

theorem abs_val_le' (x : ℝ) (cs : List (ℤ × ℕ)) : |val x cs| ≤ aval |x| cs := by
  induction cs with
  | nil => simp [val, aval]
  | cons c cs ih =>
    rw [val, aval]
    refine (abs_add_le _ _).trans (add_le_add ?_ le_rfl)
    rw [abs_mul]
    exact mul_le_mul_of_nonneg_right ih (abs_nonneg x)

variable {u η : ℝ} {rd : ℝ → ℝ}

theorem down_abs (A : Arith u η rd) {x : ℝ} (hx : |x| ≤ 0.95) (cs : List (ℤ × ℕ)) (hl : cs.length ≤ 20) :
    |hornerDown rd x cs - val x cs| ≤ (1 + cs.length / 10 ^ 13) * (u * wval |x| cs) + 4 * cs.length * η := by
  induction cs with
  | nil => simp [hornerDown_nil, val, wval]
  | cons c cs ih =>
    have hl' : cs.length ≤ 19 := by simp at hl; omega
    have ih' := ih (by omega)
    have hlR : (cs.length : ℝ) ≤ 19 := by exact_mod_cast hl'
    have hn0 : (0 : ℝ) ≤ cs.length := by positivity
    obtain ⟨h, _, hu0, hu, hη, hη'⟩ := A
    have hA := abs_val_le' x cs
    have hA0 := aval_nonneg (abs_nonneg x) cs
    obtain ⟨hAW, hW0⟩ := two_aval_le (abs_nonneg x) cs
    rw [hornerDown_cons, val, wval]
    set s := |x| with hs
    have hs0 : 0 ≤ s := abs_nonneg x
    set n : ℝ := (cs.length : ℝ) with hn
    set w := hornerDown rd x cs
    set v := val x cs
    set W := wval s cs
    set a := aval s cs
    have hc0 := abs_nonneg (lit c)
    set e := (1 + n / 10 ^ 13) * (u * W) + 4 * n * η with he
    have huW : 0 ≤ u * W := by positivity
    have hnη : 0 ≤ n * η := by positivity
    have hn13 : 0 ≤ n / 10 ^ 13 := by positivity
    have he0 : 0 ≤ e := by positivity
    have h1 := h (w * x)
    have h2 := h (lit c)
    have h3 := h (rd (w * x) + rd (lit c))
    have hwv : |w * x - v * x| ≤ e * s := by rw [← sub_mul, abs_mul]; exact mul_le_mul_of_nonneg_right ih' hs0
    have hvs : |v * x| ≤ a * s := by rw [abs_mul]; exact mul_le_mul_of_nonneg_right hA hs0
    have hwx : |w * x| ≤ a * s + e * s := by
      calc |w * x| = |(w * x - v * x) + v * x| := by congr 1; ring
        _ ≤ _ := abs_add_le _ _
        _ ≤ _ := by linarith
    have m1 : u * |w * x| ≤ u * (a * s + e * s) := mul_le_mul_of_nonneg_left hwx hu0
    set d := e * s + u * (a * s + e * s) + u * |lit c| + 2 * η with hd
    have hsum : |(rd (w * x) + rd (lit c)) - (v * x + lit c)| ≤ d := by
      calc |(rd (w * x) + rd (lit c)) - (v * x + lit c)| = |(rd (w * x) - w * x) + (rd (lit c) - lit c) + (w * x - v * x)| := by congr 1; ring
        _ ≤ |rd (w * x) - w * x| + |rd (lit c) - lit c| + |w * x - v * x| := (abs_add_le _ _).trans (add_le_add (abs_add_le _ _) le_rfl)
        _ ≤ _ := by rw [hd]; linarith
    have hmag : |rd (w * x) + rd (lit c)| ≤ a * s + |lit c| + d := by
      calc |rd (w * x) + rd (lit c)| = |((rd (w * x) + rd (lit c)) - (v * x + lit c)) + (v * x + lit c)| := by congr 1; ring
        _ ≤ |(rd (w * x) + rd (lit c)) - (v * x + lit c)| + (|v * x| + |lit c|) := (abs_add_le _ _).trans (add_le_add le_rfl (abs_add_le _ _))
        _ ≤ _ := by linarith
    have m2 : u * |rd (w * x) + rd (lit c)| ≤ u * (a * s + |lit c| + d) := mul_le_mul_of_nonneg_left hmag hu0
    have htot : |rd (rd (w * x) + rd (lit c)) - (v * x + lit c)| ≤ u * (a * s + |lit c| + d) + η + d := by
      calc |rd (rd (w * x) + rd (lit c)) - (v * x + lit c)| = |(rd (rd (w * x) + rd (lit c)) - (rd (w * x) + rd (lit c))) + ((rd (w * x) + rd (lit c)) - (v * x + lit c))| := by congr 1; ring
        _ ≤ _ := abs_add_le _ _
        _ ≤ _ := by linarith
    refine htot.trans ?_
    -- collect
    have eexp : u * (a * s + |lit c| + d) + η + d =
        e * s + 2 * (u * (a * s)) + 2 * (u * |lit c|) + 2 * (u * (e * s)) + u * (u * (a * s)) + u * (u * (e * s)) + u * (u * |lit c|) + 2 * (u * η) + 3 * η := by
      rw [hd]; ring
    rw [eexp, List.length_cons]
    push_cast
    rw [← hn]
    have hu15 : u ≤ 1 / 10 ^ 15 := hu
    have hes0 : 0 ≤ e * s := by positivity
    have has0 : 0 ≤ a * s := by positivity
    have q1 : u * (u * (a * s)) ≤ 1 / 10 ^ 15 * (u * (a * s)) := mul_le_mul_of_nonneg_right hu15 (by positivity)
    have q2 : u * (u * |lit c|) ≤ 1 / 10 ^ 15 * (u * |lit c|) := mul_le_mul_of_nonneg_right hu15 (by positivity)
    have q3 : u * (e * s) ≤ 1 / 10 ^ 15 * (e * s) := mul_le_mul_of_nonneg_right hu15 hes0
    have q4 : u * (u * (e * s)) ≤ u * (e * s) := mul_le_of_le_one_left (by positivity) (by norm_num at hu15 ⊢; linarith)
    have q5 : u * η ≤ 1 / 10 ^ 15 * η := mul_le_mul_of_nonneg_right hu15 hη
    have ees : e * s = (1 + n / 10 ^ 13) * (u * (W * s)) + 4 * (n * η) * s := by rw [he]; ring
    have hWs : 0 ≤ u * (W * s) := by positivity
    have hns : n * η * s ≤ n * η * 0.95 := mul_le_mul_of_nonneg_left hx hnη
    have hn19 : n / 10 ^ 13 * (u * (W * s)) ≤ 19 / 10 ^ 13 * (u * (W * s)) :=
      mul_le_mul_of_nonneg_right (by linarith) hWs
    have hn20 : 0 ≤ n / 10 ^ 13 * (u * (a * s)) := by positivity
    have hn21 : 0 ≤ n / 10 ^ 13 * (u * |lit c|) := by positivity
    have hua : 0 ≤ u * (a * s) := by positivity
    have huc : 0 ≤ u * |lit c| := by positivity
    have goal_eq : (1 + (n + 1) / 10 ^ 13) * (u * (W * s + 2 * (a * s + |lit c|))) + 4 * (n + 1) * η =
        (1 + n / 10 ^ 13) * (u * (W * s)) + 1 / 10 ^ 13 * (u * (W * s)) + 2 * (u * (a * s)) + 2 * (u * |lit c|) +
        2 * (n / 10 ^ 13 * (u * (a * s))) + 2 * (n / 10 ^ 13 * (u * |lit c|)) + 2 / 10 ^ 13 * (u * (a * s)) + 2 / 10 ^ 13 * (u * |lit c|) +
        4 * (n * η) + 4 * η := by ring
    rw [goal_eq]
    rw [ees] at q3 q4 ⊢
    norm_num at q1 q2 q3 q4 q5 hns hn19 ⊢
    linarith

end

/-! ### The weights as integer polynomials -/

def al (l : List ℤ) : List ℤ := l.map fun c => |c|
def wl : List ℤ → List ℤ
  | [] => []
  | c :: cs => 2 * |c| :: padd (wl cs) (psmul 2 (al cs))
/-- The polynomial at `-x`. -/
def pneg : List ℤ → List ℤ
  | [] => []
  | c :: cs => c :: psmul (-1) (pneg cs)

theorem peval_pneg (l : List ℤ) (x : ℝ) : peval (pneg l) x = peval l (-x) := by
  induction l with
  | nil => rfl
  | cons c cs ih => rw [pneg, peval_cons, peval_cons, peval_psmul, ih]; push_cast; ring

theorem lit_abs {n : ℕ} {c : ℤ × ℕ} (h : c.2 ≤ n) : |lit c| * 10 ^ n = ((|c.1 * 10 ^ (n - c.2)| : ℤ) : ℝ) := by
  have e : (10 : ℝ) ^ n = 10 ^ (n - c.2) * 10 ^ c.2 := by rw [← pow_add]; congr 1; omega
  push_cast
  rw [lit, abs_div, abs_mul, abs_of_pos (by positivity : (0 : ℝ) < 10 ^ c.2), abs_of_pos (by positivity : (0 : ℝ) < 10 ^ (n - c.2)), e]
  field_simp

theorem aval_peval (n : ℕ) (s : ℝ) (cs : List (ℤ × ℕ)) (h : ∀ c ∈ cs, c.2 ≤ n) :
    aval s cs * 10 ^ n = peval (al (scaled n cs)) s := by
  induction cs with
  | nil => simp [aval, scaled, al]
  | cons c cs ih =>
    have ih' := ih fun d hd => h d (List.mem_cons_of_mem _ hd)
    have hc := h c List.mem_cons_self
    have e : al (scaled n (c :: cs)) = |c.1 * 10 ^ (n - c.2)| :: al (scaled n cs) := rfl
    rw [aval, e, peval_cons, ← ih', add_mul, lit_abs hc]; ring

theorem wval_peval (n : ℕ) (s : ℝ) (cs : List (ℤ × ℕ)) (h : ∀ c ∈ cs, c.2 ≤ n) :
    wval s cs * 10 ^ n = peval (wl (scaled n cs)) s := by
  induction cs with
  | nil => simp [wval, scaled, wl]
  | cons c cs ih =>
    have ht : ∀ c ∈ cs, c.2 ≤ n := fun d hd => h d (List.mem_cons_of_mem _ hd)
    have ih' := ih ht
    have hc := h c List.mem_cons_self
    have ha := aval_peval n s cs ht
    have e : wl (scaled n (c :: cs)) = 2 * |c.1 * 10 ^ (n - c.2)| :: padd (wl (scaled n cs)) (psmul 2 (al (scaled n cs))) := rfl
    have hl := lit_abs hc
    rw [wval, e, peval_cons, peval_padd, peval_psmul, ← ih', ← ha]
    push_cast at hl ⊢
    rw [← hl]; ring

/-- The numerator without its factor `x`. -/
def p1Coeffs : List (ℤ × ℕ) := pCoeffs.tail
def pP1 : List ℤ := scaled 22 p1Coeffs

/-- `100 (W1 + 2 A1)` and `W_Q`. -/
def pErr (ρ : ℤ) : List ℤ := padd (psmul 100 (padd (wl pP1) (psmul 2 (al pP1)))) (psmul ρ (wl pQ))

theorem cert_neg : cell (psub (pmul [400, -6000, 100000] pQ) (pneg (pErr 82))) (-2500) 1 10000 10000 = true := by decide +kernel
theorem cert_neg1 : cell (psub (psmul 82 pQ) (psmul 100 pP1)) (-2500) 1 10000 10000 = true := by decide +kernel
theorem cert_neg2 : cell (padd (psmul 82 pQ) (psmul 100 pP1)) (-2500) 1 10000 10000 = true := by decide +kernel
theorem cert_pos : cell (psub (psmul 700 pQ) (pErr 58)) 0 901 1000 1000 = true := by decide +kernel
theorem cert_pos1 : cell (psub (psmul 58 pQ) (psmul 100 pP1)) 0 901 1000 1000 = true := by decide +kernel
theorem cert_pos2 : cell (padd (psmul 58 pQ) (psmul 100 pP1)) 0 901 1000 1000 = true := by decide +kernel

noncomputable section

theorem q_lower {x : ℝ} (hx : -1 / 4 ≤ x) (hx2 : x < 0.901) : 0.2 ≤ val x qCoeffs := by
  rw [val_q]
  rcases le_total 0 x with h | h
  · have : 0 ≤ peval (psub pQ [10 ^ 22]) x := cell_sound _ 0 901 1000 1000 (by decide +kernel) (by push_cast; linarith) (by push_cast; norm_num at hx2 ⊢; linarith)
    simp only [psub, peval_padd, peval_psmul, peval_cons, peval_nil] at this
    push_cast at this
    rw [le_div_iff₀ (by positivity)]
    norm_num at this ⊢; linarith
  · have : 0 ≤ peval (psub pQ [2 * 10 ^ 21]) x := cell_sound _ (-2500) 1 10000 10000 (by decide +kernel) (by push_cast; linarith) (by push_cast; linarith)
    simp only [psub, peval_padd, peval_psmul, peval_cons, peval_nil] at this
    push_cast at this
    rw [le_div_iff₀ (by positivity)]
    norm_num at this ⊢; linarith

/-- The factor of `u |x|` in the error. -/
def kap (x : ℝ) : ℝ := if x < 0 then 4 + 60 * |x| + 1000 * x ^ 2 else 7
/-- A bound of `|log Γ(1+x) / x|`. -/
def rho (x : ℝ) : ℝ := if x < 0 then 0.82 else 0.58

theorem weights {x : ℝ} (hx : -1 / 4 ≤ x) (hx2 : x < 0.901) :
    wval |x| p1Coeffs + 2 * aval |x| p1Coeffs + rho x * wval |x| qCoeffs ≤ kap x * val x qCoeffs ∧
    |val x p1Coeffs| ≤ rho x * val x qCoeffs := by
  have w1 := wval_peval 22 |x| p1Coeffs (by decide)
  have w2 := wval_peval 22 |x| qCoeffs (by decide)
  have w3 := aval_peval 22 |x| p1Coeffs (by decide)
  have w4 := val_peval 22 x p1Coeffs (by decide)
  have w5 := val_peval 22 x qCoeffs (by decide)
  have h22 : (0 : ℝ) < 10 ^ 22 := by positivity
  rw [← pP1] at w1 w3 w4
  rw [← pQ] at w2 w5
  rcases lt_or_ge x 0 with h | h
  · rw [kap, rho, if_pos h, if_pos h]
    rw [abs_of_neg h] at *
    have c1 := cell_sound _ _ _ _ _ cert_neg (y := x) (by push_cast; linarith) (by push_cast; linarith)
    have c2 := cell_sound _ _ _ _ _ cert_neg1 (y := x) (by push_cast; linarith) (by push_cast; linarith)
    have c3 := cell_sound _ _ _ _ _ cert_neg2 (y := x) (by push_cast; linarith) (by push_cast; linarith)
    simp only [psub, pErr, peval_pneg, peval_padd, peval_psmul, peval_pmul, peval_cons, peval_nil, ← w1, ← w2, ← w3, ← w4, ← w5] at c1 c2 c3
    push_cast at c1 c2 c3
    constructor
    · refine le_of_mul_le_mul_right ?_ h22
      nlinarith
    · rw [abs_le]
      constructor <;> refine le_of_mul_le_mul_right ?_ h22 <;> norm_num at c2 c3 ⊢ <;> linarith
  · rw [kap, rho, if_neg (not_lt.2 h), if_neg (not_lt.2 h)]
    rw [abs_of_nonneg h] at *
    have c1 := cell_sound _ _ _ _ _ cert_pos (y := x) (by push_cast; linarith) (by push_cast; norm_num at hx2 ⊢; linarith)
    have c2 := cell_sound _ _ _ _ _ cert_pos1 (y := x) (by push_cast; linarith) (by push_cast; norm_num at hx2 ⊢; linarith)
    have c3 := cell_sound _ _ _ _ _ cert_pos2 (y := x) (by push_cast; linarith) (by push_cast; norm_num at hx2 ⊢; linarith)
    simp only [psub, pErr, peval_padd, peval_psmul, peval_pmul, peval_cons, peval_nil, ← w1, ← w2, ← w3, ← w4, ← w5] at c1 c2 c3
    push_cast at c1 c2 c3
    constructor
    · refine le_of_mul_le_mul_right ?_ h22
      norm_num at c1 ⊢; linarith
    · rw [abs_le]
      constructor <;> refine le_of_mul_le_mul_right ?_ h22 <;> norm_num at c2 c3 ⊢ <;> linarith

variable {u η : ℝ} {rd : ℝ → ℝ}

theorem kap_bounds {x : ℝ} (hx : -1 / 4 ≤ x) : 4 ≤ kap x ∧ kap x ≤ 82 ∧ 0.58 ≤ rho x ∧ rho x ≤ 0.82 := by
  rw [kap, rho]
  split_ifs with h
  · rw [abs_of_neg h]
    refine ⟨by nlinarith, by nlinarith, by norm_num, le_rfl⟩
  · norm_num

/-- **`loggamma1p_small_x`**: rounding error. -/
theorem small_round (A : Arith u η rd) {x : ℝ} (hx : -1 / 4 ≤ x) (hx2 : x < 0.901) :
    |smallX rd x - pade x| ≤ (kap x + 1.2) * (u * |x|) + 540 * η := by
  have hs : |x| ≤ 0.95 := by rw [abs_le]; constructor <;> norm_num at hx2 ⊢ <;> linarith
  have h1 := down_abs A hs p1Coeffs (by decide)
  have h2 := down_abs A hs qCoeffs (by decide)
  have hl1 : ((p1Coeffs.length : ℕ) : ℝ) = 12 := by norm_num [p1Coeffs, pCoeffs]
  have hl2 : ((qCoeffs.length : ℕ) : ℝ) = 11 := by norm_num [qCoeffs]
  rw [hl1] at h1
  rw [hl2] at h2
  obtain ⟨hw1, hw2⟩ := weights hx hx2
  have hq := q_lower hx hx2
  obtain ⟨k1, k2, r1, r2⟩ := kap_bounds hx
  have hA1 := abs_val_le' x p1Coeffs
  have hA10 := aval_nonneg (abs_nonneg x) p1Coeffs
  have hW1 := (two_aval_le (abs_nonneg x) p1Coeffs)
  have hWQ := (two_aval_le (abs_nonneg x) qCoeffs).2
  have hlit0 : lit (0, 0) = 0 := by simp [lit]
  have eP : hornerDown rd x pCoeffs = rd (rd (hornerDown rd x p1Coeffs * x) + rd 0) := by
    rw [← hlit0]; rfl
  have eV : val x pCoeffs = val x p1Coeffs * x := by
    have : val x pCoeffs = val x p1Coeffs * x + lit (0, 0) := rfl
    rw [this, hlit0, add_zero]
  rw [smallX, eP, ← val_pade, eV]
  obtain ⟨h, hz, hu0, hu, hη, hη'⟩ := A
  rw [hz, add_zero]
  set s := |x| with hsd
  have hs0 : 0 ≤ s := abs_nonneg x
  set N := hornerDown rd x p1Coeffs
  set D := hornerDown rd x qCoeffs
  set V := val x p1Coeffs
  set Q := val x qCoeffs
  set a := aval s p1Coeffs
  set W := wval s p1Coeffs
  set Z := wval s qCoeffs
  set K := kap x
  set ρ := rho x
  have hQ0 : 0 < Q := lt_of_lt_of_le (by norm_num) hq
  -- the numerator
  set e := (1 + 12 / 10 ^ 13) * (u * W) + 4 * 12 * η with he
  have huW : 0 ≤ u * W := mul_nonneg hu0 hW1.2
  have hua : 0 ≤ u * a := mul_nonneg hu0 hA10
  have he0 : 0 ≤ e := by positivity
  have n1 : |N * x - V * x| ≤ e * s := by rw [← sub_mul, abs_mul]; exact mul_le_mul_of_nonneg_right h1 hs0
  have n2 : |N * x| ≤ a * s + e * s := by
    calc |N * x| = |(N * x - V * x) + V * x| := by congr 1; ring
      _ ≤ |N * x - V * x| + |V * x| := abs_add_le _ _
      _ ≤ _ := by
        have : |V * x| ≤ a * s := by rw [abs_mul]; exact mul_le_mul_of_nonneg_right hA1 hs0
        linarith
  have has0 : 0 ≤ a * s := by positivity
  have hes0 : 0 ≤ e * s := by positivity
  have n3 : |rd (N * x) - N * x| ≤ u * (a * s + e * s) + η := (h _).trans (add_le_add (mul_le_mul_of_nonneg_left n2 hu0) le_rfl)
  have n4 : |rd (N * x)| ≤ (1 + u) * (a * s + e * s) + η := by
    calc |rd (N * x)| = |(rd (N * x) - N * x) + N * x| := by congr 1; ring
      _ ≤ _ := abs_add_le _ _
      _ ≤ _ := by linarith
  have n5 : |rd (rd (N * x)) - rd (N * x)| ≤ u * ((1 + u) * (a * s + e * s) + η) + η :=
    (h _).trans (add_le_add (mul_le_mul_of_nonneg_left n4 hu0) le_rfl)
  have n6 : |rd (rd (N * x)) - V * x| ≤ 1.002 * (u * (s * (W + 2 * a))) + 60 * η := by
    have t : |rd (rd (N * x)) - V * x| ≤ |rd (rd (N * x)) - rd (N * x)| + |rd (N * x) - N * x| + |N * x - V * x| := by
      calc |rd (rd (N * x)) - V * x| = |(rd (rd (N * x)) - rd (N * x)) + (rd (N * x) - N * x) + (N * x - V * x)| := by congr 1; ring
        _ ≤ _ := (abs_add_le _ _).trans (add_le_add (abs_add_le _ _) le_rfl)
    refine t.trans ?_
    have q0 : u * (u * (a * s)) ≤ 1 / 10 ^ 15 * (u * (a * s)) := mul_le_mul_of_nonneg_right hu (by positivity)
    have q1 : u * (e * s) ≤ 1 / 10 ^ 15 * (e * s) := mul_le_mul_of_nonneg_right hu hes0
    have q2 : u * (u * (e * s)) ≤ u * (e * s) := mul_le_of_le_one_left (by positivity) (by norm_num at hu ⊢; linarith)
    have q3 : u * η ≤ 1 / 10 ^ 15 * η := mul_le_mul_of_nonneg_right hu hη
    have ees : e * s = (1 + 12 / 10 ^ 13) * (u * (W * s)) + 48 * (η * s) := by rw [he]; ring
    have hηs : η * s ≤ η * 0.95 := mul_le_mul_of_nonneg_left hs hη
    have hWs : 0 ≤ u * (W * s) := mul_nonneg hu0 (mul_nonneg hW1.2 hs0)
    have has : 0 ≤ u * (a * s) := by positivity
    have e1 : u * ((1 + u) * (a * s + e * s) + η) + η = u * (a * s) + u * (e * s) + u * (u * (a * s)) + u * (u * (e * s)) + u * η + η := by ring
    have e2 : u * (s * (W + 2 * a)) = u * (W * s) + 2 * (u * (a * s)) := by ring
    have e3 : u * (a * s + e * s) + η = u * (a * s) + u * (e * s) + η := by ring
    rw [e1] at n5
    rw [e3] at n3
    rw [e2]
    rw [ees] at n1 n3 n5 q1 q2
    norm_num at n1 n3 n5 q0 q1 q2 q3 hηs ⊢
    linarith
  -- the denominator
  have huZ : 0 ≤ u * Z := mul_nonneg hu0 hWQ
  have hZQ : Z ≤ 142 * Q := by
    have : 0.58 * Z ≤ ρ * Z := mul_le_mul_of_nonneg_right r1 hWQ
    have : K * Q ≤ 82 * Q := mul_le_mul_of_nonneg_right k2 hQ0.le
    norm_num at *
    linarith [hW1.2]
  have d1 : |D - Q| ≤ 1.001 * (u * Z) + 44 * η := by norm_num at h2 ⊢; linarith
  have huZQ : u * Z ≤ 1 / 10 ^ 15 * (142 * Q) := mul_le_mul hu hZQ hWQ (by norm_num)
  have hηu : η ≤ 1 / 10 ^ 70 := by norm_num at hη' hu ⊢; linarith
  have d2 : 0.999 * Q ≤ D := by
    have := (abs_le.1 d1).1
    norm_num at this huZQ hηu hq ⊢; linarith
  have hD0 : 0 < D := by norm_num at d2; linarith
  -- the quotient
  set M := rd (rd (N * x))
  set P := V * x with hP
  have hPQ : |P / Q| ≤ ρ * s := by
    rw [abs_div, abs_of_pos hQ0, div_le_iff₀ hQ0, hP, abs_mul]
    calc |V| * |x| ≤ ρ * Q * s := mul_le_mul_of_nonneg_right hw2 hs0
      _ = _ := by ring
  have eq : M / D - P / Q = ((M - P) - P / Q * (D - Q)) / D := by
    field_simp; ring
  have hρs : 0 ≤ ρ * s := by
    have : 0 ≤ ρ := by norm_num at r1; linarith
    positivity
  have hdiv : |M / D - P / Q| ≤ 1.004 * (K * (u * s)) + 530 * η := by
    rw [eq, abs_div, abs_of_pos hD0, div_le_iff₀ hD0]
    have t1 : |(M - P) - P / Q * (D - Q)| ≤ (1.002 * (u * (s * (W + 2 * a))) + 60 * η) + ρ * s * (1.001 * (u * Z) + 44 * η) := by
      refine (abs_sub _ _).trans (add_le_add n6 ?_)
      rw [abs_mul]
      exact mul_le_mul hPQ d1 (abs_nonneg _) hρs
    refine t1.trans ?_
    have t2 : (1.002 * (u * (s * (W + 2 * a))) + 60 * η) + ρ * s * (1.001 * (u * Z) + 44 * η) ≤
        1.002 * (u * s * (W + 2 * a + ρ * Z)) + 104 * η := by
      have p1 : 0 ≤ ρ * s * (u * Z) := by positivity
      have p2 : ρ * s * η ≤ 1 * η := by
        apply mul_le_mul_of_nonneg_right _ hη
        have := mul_le_mul r2 hs hs0 (by norm_num)
        norm_num at this ⊢; linarith
      have e1 : ρ * s * (1.001 * (u * Z) + 44 * η) = 1.001 * (ρ * s * (u * Z)) + 44 * (ρ * s * η) := by ring
      have e2 : u * s * (W + 2 * a + ρ * Z) = u * (s * (W + 2 * a)) + ρ * s * (u * Z) := by ring
      rw [e1, e2]
      norm_num; linarith
    refine t2.trans ?_
    have t3 : u * s * (W + 2 * a + ρ * Z) ≤ u * s * (K * Q) := mul_le_mul_of_nonneg_left hw1 (by positivity)
    have hK0 : 0 ≤ K := by linarith
    have t4 : (1.004 * (K * (u * s)) + 530 * η) * (0.999 * Q) ≤ (1.004 * (K * (u * s)) + 530 * η) * D :=
      mul_le_mul_of_nonneg_left d2 (by positivity)
    refine le_trans ?_ t4
    have t5 : η * 0.2 ≤ η * Q := mul_le_mul_of_nonneg_left hq hη
    have t6 : 0 ≤ u * s * (K * Q) := by positivity
    have e1 : (1.004 * (K * (u * s)) + 530 * η) * (0.999 * Q) = 1.004 * 0.999 * (u * s * (K * Q)) + 530 * 0.999 * (η * Q) := by ring
    rw [e1]
    norm_num at t3 t5 ⊢
    linarith
  have hus : 0 ≤ u * s := by positivity
  have hKus : K * (u * s) ≤ 82 * (u * s) := mul_le_mul_of_nonneg_right k2 hus
  have hmag : |M / D| ≤ 0.83 * s + 531 * η := by
    calc |M / D| = |(M / D - P / Q) + P / Q| := by congr 1; ring
      _ ≤ |M / D - P / Q| + |P / Q| := abs_add_le _ _
      _ ≤ (1.004 * (K * (u * s)) + 530 * η) + ρ * s := add_le_add hdiv hPQ
      _ ≤ _ := by
        have : ρ * s ≤ 0.82 * s := mul_le_mul_of_nonneg_right r2 hs0
        have : u * s ≤ 1 / 10 ^ 15 * s := mul_le_mul_of_nonneg_right hu hs0
        norm_num at *; linarith
  have hr := h (M / D)
  have hum : u * |M / D| ≤ u * (0.83 * s + 531 * η) := mul_le_mul_of_nonneg_left hmag hu0
  have huη : u * η ≤ 1 / 10 ^ 15 * η := mul_le_mul_of_nonneg_right hu hη
  calc |rd (M / D) - P / Q| = |(rd (M / D) - M / D) + (M / D - P / Q)| := by congr 1; ring
    _ ≤ _ := abs_add_le _ _
    _ ≤ (u * (0.83 * s + 531 * η) + η) + (1.004 * (K * (u * s)) + 530 * η) := by linarith
    _ ≤ _ := by
      have e1 : u * (0.83 * s + 531 * η) = 0.83 * (u * s) + 531 * (u * η) := by ring
      have e2 : (K + 1.2) * (u * s) = K * (u * s) + 1.2 * (u * s) := by ring
      rw [e1, e2]
      norm_num at *; linarith

end
end Ufunclab.Loggamma1p
