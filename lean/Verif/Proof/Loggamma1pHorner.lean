import Verif.Proof.LanczosPade
import Verif.Proof.Debye1Round
/-! # Horner evaluation in loggamma1p: exact values and rounding errors -/
namespace Ufunclab.Loggamma1p
open Ufunclab.Debye1 Ufunclab.PolyPos Real

noncomputable section

/-- The polynomial with the listed coefficients. -/
def val (x : ℝ) : List (ℤ × ℕ) → ℝ
  | [] => 0
  | c :: cs => val x cs * x + lit c

theorem hornerDown_nil (rd : ℝ → ℝ) (x : ℝ) : hornerDown rd x [] = 0 := rfl
theorem hornerDown_cons (rd : ℝ → ℝ) (x : ℝ) (c : ℤ × ℕ) (cs : List (ℤ × ℕ)) :
    hornerDown rd x (c :: cs) = rd (rd (hornerDown rd x cs * x) + rd (lit c)) := rfl

/-- The same polynomial over integers. -/
theorem val_peval (n : ℕ) (x : ℝ) (cs : List (ℤ × ℕ)) (h : ∀ c ∈ cs, c.2 ≤ n) :
    val x cs * 10 ^ n = peval (scaled n cs) x := by
  induction cs with
  | nil => simp [val, scaled]
  | cons c cs ih =>
    have ih' := ih fun d hd => h d (List.mem_cons_of_mem _ hd)
    have hc := h c List.mem_cons_self
    have e : (10 : ℝ) ^ n = 10 ^ (n - c.2) * 10 ^ c.2 := by rw [← pow_add]; congr 1; omega
    rw [val, scaled, List.map_cons, peval_cons, ← scaled, ← ih', add_mul, lit, add_comm]
    congr 1
    · push_cast
      rw [e]; field_simp
    · ring

theorem val_num (x : ℝ) : val x numCoeffs = peval pA x / 10 ^ 49 := by
  rw [eq_div_iff (by positivity), pA]
  exact val_peval 49 x _ (by decide)

theorem val_den (x : ℝ) : val x denCoeffs = peval pDen x := by
  have := val_peval 0 x denCoeffs (by decide)
  rw [pow_zero, mul_one] at this
  rw [this, pDen]

theorem val_p (x : ℝ) : val x pCoeffs = peval pP x / 10 ^ 22 := by
  rw [eq_div_iff (by positivity), pP]
  exact val_peval 22 x _ (by decide)

theorem val_q (x : ℝ) : val x qCoeffs = peval pQ x / 10 ^ 22 := by
  rw [eq_div_iff (by positivity), pQ]
  exact val_peval 22 x _ (by decide)

theorem val_pade (x : ℝ) : val x pCoeffs / val x qCoeffs = pade x := by
  rw [val_p, val_q, pade]
  exact div_div_div_cancel_right₀ (by positivity) _ _

/-! ### Polynomials with positive coefficients: relative errors -/

/-- Rounding in which sums do not lose accuracy to underflow. -/
structure Arith (u η : ℝ) (rd : ℝ → ℝ) : Prop where
  rnd : Rd u η rd
  zero : rd 0 = 0
  u0 : 0 ≤ u
  u1 : u ≤ 1 / 10 ^ 15
  η0 : 0 ≤ η
  η1 : η ≤ u / 10 ^ 60

variable {u η : ℝ} {rd : ℝ → ℝ}

theorem rel_step (A : Arith u η rd) {a p c κ : ℝ} (hκ0 : 0 ≤ κ) (hκ : κ ≤ 1 / 10 ^ 12) (hp : 0 ≤ p) (hc : 0 ≤ c)
    (ha : |a - p| ≤ κ * p) (hT : 1 / 10 ^ 22 ≤ p + c) :
    |rd (rd a + rd c) - (p + c)| ≤ (κ + 2.01 * u) * (p + c) := by
  obtain ⟨h, _, hu0, hu, hη, hη'⟩ := A
  have h1 := h a
  have h2 := h c
  have h3 := h (rd a + rd c)
  rw [abs_of_nonneg hc] at h2
  have hap : |a| ≤ (1 + κ) * p := by
    calc |a| = |(a - p) + p| := by congr 1; ring
      _ ≤ _ := abs_add_le _ _
      _ ≤ _ := by rw [abs_of_nonneg hp]; linarith
  have huh : u * |a| ≤ 1.001 * (u * p) := by
    calc u * |a| ≤ u * ((1 + κ) * p) := mul_le_mul_of_nonneg_left hap hu0
      _ = (1 + κ) * (u * p) := by ring
      _ ≤ _ := mul_le_mul_of_nonneg_right (by norm_num at hκ ⊢; linarith) (by positivity)
  have hs : |(rd a + rd c) - (p + c)| ≤ κ * p + 1.001 * (u * p) + u * c + 2 * η := by
    calc |(rd a + rd c) - (p + c)| = |(rd a - a) + (rd c - c) + (a - p)| := by congr 1; ring
      _ ≤ |rd a - a| + |rd c - c| + |a - p| := (abs_add_le _ _).trans (add_le_add (abs_add_le _ _) le_rfl)
      _ ≤ _ := by linarith
  set T := p + c with hTd
  have hT0 : 0 ≤ T := by positivity
  have hηT : η ≤ 1 / 10 ^ 38 * (u * T) := by
    have : u * (1 / 10 ^ 22) ≤ u * T := mul_le_mul_of_nonneg_left hT hu0
    norm_num at this hη' ⊢
    linarith
  have hpT : p ≤ T := by linarith
  have hκp : κ * p ≤ κ * T := mul_le_mul_of_nonneg_left hpT hκ0
  have hup : 0 ≤ u * p := by positivity
  have huc : 0 ≤ u * c := by positivity
  have huT : u * T = u * p + u * c := by rw [hTd]; ring
  have hκT : κ * T ≤ 1 / 10 ^ 12 * T := mul_le_mul_of_nonneg_right hκ hT0
  have huT1 : u * T ≤ 1 / 10 ^ 15 * T := mul_le_mul_of_nonneg_right hu hT0
  have hs2 : |(rd a + rd c) - T| ≤ κ * T + 1.002 * (u * T) := by norm_num at hηT ⊢; linarith
  have hsT : |rd a + rd c| ≤ 1.001 * T := by
    calc |rd a + rd c| = |((rd a + rd c) - T) + T| := by congr 1; ring
      _ ≤ _ := abs_add_le _ _
      _ ≤ _ := by rw [abs_of_nonneg hT0]; norm_num at hκT huT1 ⊢; linarith
  have h4 : u * |rd a + rd c| ≤ 1.001 * (u * T) := by
    calc u * |rd a + rd c| ≤ u * (1.001 * T) := mul_le_mul_of_nonneg_left hsT hu0
      _ = _ := by ring
  calc |rd (rd a + rd c) - T| = |(rd (rd a + rd c) - (rd a + rd c)) + ((rd a + rd c) - T)| := by congr 1; ring
    _ ≤ _ := abs_add_le _ _
    _ ≤ _ := by
      have e : (κ + 2.01 * u) * T = κ * T + 2.01 * (u * T) := by ring
      rw [e]; norm_num at hηT ⊢; linarith

theorem val_ge_one {x : ℝ} (hx : 0 ≤ x) (cs : List (ℤ × ℕ)) (h : ∀ c ∈ cs, 1 ≤ lit c) (hne : cs ≠ []) : 1 ≤ val x cs := by
  induction cs with
  | nil => exact absurd rfl hne
  | cons c cs ih =>
    have hc := h c List.mem_cons_self
    rw [val]
    have : 0 ≤ val x cs := by
      by_cases h0 : cs = []
      · subst h0; exact le_rfl
      · exact zero_le_one.trans (ih (fun d hd => h d (List.mem_cons_of_mem _ hd)) h0)
    have := mul_nonneg this hx
    linarith

theorem val_nonneg {x : ℝ} (hx : 0 ≤ x) (cs : List (ℤ × ℕ)) (h : ∀ c ∈ cs, 0 ≤ lit c) : 0 ≤ val x cs := by
  induction cs with
  | nil => exact le_rfl
  | cons c cs ih =>
    rw [val]
    exact add_nonneg (mul_nonneg (ih fun d hd => h d (List.mem_cons_of_mem _ hd)) hx) (h c List.mem_cons_self)

theorem down_rel (A : Arith u η rd) {x : ℝ} (hx : 0 ≤ x) (cs : List (ℤ × ℕ)) (h : ∀ c ∈ cs, 1 ≤ lit c) (hl : cs.length ≤ 13) :
    |hornerDown rd x cs - val x cs| ≤ 2.01 * cs.length * u * val x cs := by
  induction cs with
  | nil => simp [hornerDown_nil, val]
  | cons c cs ih =>
    have hc := h c List.mem_cons_self
    have ht : ∀ d ∈ cs, 1 ≤ lit d := fun d hd => h d (List.mem_cons_of_mem _ hd)
    have hl' : cs.length ≤ 12 := by simp at hl; omega
    have hlR : (cs.length : ℝ) ≤ 12 := by exact_mod_cast hl'
    have ih' := ih ht (by omega)
    have hv := val_nonneg hx cs fun d hd => zero_le_one.trans (ht d hd)
    have hpx := mul_nonneg hv hx
    have hu := A.u1
    have hu0 := A.u0
    have := rel_step A (a := hornerDown rd x cs * x) (p := val x cs * x) (c := lit c) (κ := 2.01 * cs.length * u)
      (by positivity)
      (by
        have := mul_le_mul hlR hu hu0 (by norm_num)
        norm_num at this ⊢; linarith)
      hpx (by linarith)
      (by
        rw [← sub_mul, abs_mul, abs_of_nonneg hx, ← mul_assoc]
        exact mul_le_mul_of_nonneg_right ih' hx)
      (by norm_num; linarith)
    rw [hornerDown_cons, val, List.length_cons]
    refine this.trans (le_of_eq ?_)
    push_cast; ring

/-- The loop that divides, from any value of the accumulator. -/
def upFrom (rd : ℝ → ℝ) (x : ℝ) (a : ℝ) (cs : List (ℤ × ℕ)) : ℝ :=
  cs.foldl (fun acc c => rd (rd (acc / x) + rd (lit c))) a

theorem upFrom_exact {x : ℝ} (hx : x ≠ 0) (a : ℝ) (cs : List (ℤ × ℕ)) :
    upFrom id x a cs * x ^ cs.length = a + x * val x cs := by
  induction cs generalizing a with
  | nil => simp [upFrom, val]
  | cons c cs ih =>
    have e : upFrom id x a (c :: cs) = upFrom id x (a / x + lit c) cs := rfl
    rw [e, List.length_cons, pow_succ, ← mul_assoc, ih, val]
    field_simp
    ring

theorem upFrom_rel (A : Arith u η rd) {x : ℝ} (hx : 0 < x) (cs : List (ℤ × ℕ)) (h : ∀ c ∈ cs, 1 ≤ lit c) {n : ℕ}
    (hl : n + cs.length ≤ 13) {a b : ℝ} (hb : 0 ≤ b) (hab : |a - b| ≤ 2.01 * n * u * b) :
    0 ≤ upFrom id x b cs ∧ |upFrom rd x a cs - upFrom id x b cs| ≤ 2.01 * (n + cs.length) * u * upFrom id x b cs := by
  induction cs generalizing a b n with
  | nil => simpa [upFrom] using ⟨hb, hab⟩
  | cons c cs ih =>
    have hc := h c List.mem_cons_self
    have hl' : n ≤ 12 := by simp at hl; omega
    have hlR : (n : ℝ) ≤ 12 := by exact_mod_cast hl'
    have hu := A.u1
    have hu0 := A.u0
    have hbx : 0 ≤ b / x := by positivity
    have := rel_step A (a := a / x) (p := b / x) (c := lit c) (κ := 2.01 * n * u)
      (by positivity)
      (by
        have := mul_le_mul hlR hu hu0 (by norm_num)
        norm_num at this ⊢; linarith)
      hbx (by linarith)
      (by
        rw [← sub_div, abs_div, abs_of_pos hx, ← mul_div_assoc]
        exact div_le_div_of_nonneg_right hab hx.le)
      (by norm_num; linarith)
    have e1 : upFrom rd x a (c :: cs) = upFrom rd x (rd (rd (a / x) + rd (lit c))) cs := rfl
    have e2 : upFrom id x b (c :: cs) = upFrom id x (b / x + lit c) cs := rfl
    have := ih (n := n + 1) (fun d hd => h d (List.mem_cons_of_mem _ hd)) (by simp at hl ⊢; omega)
      (a := rd (rd (a / x) + rd (lit c))) (b := b / x + lit c) (by linarith)
      (by refine this.trans (le_of_eq ?_); push_cast; ring)
    rw [e1, e2]
    refine ⟨this.1, this.2.trans (le_of_eq ?_)⟩
    push_cast [List.length_cons]; ring

theorem lit_num : ∀ c ∈ numCoeffs, 1 ≤ lit c := by
  intro c hc
  simp only [numCoeffs, List.mem_cons, List.mem_nil_iff, or_false] at hc
  rcases hc with rfl | rfl | rfl | rfl | rfl | rfl | rfl | rfl | rfl | rfl | rfl | rfl | rfl <;> norm_num [lit]

/-- All denominator coefficients but the first, which is zero. -/
theorem lit_den : ∃ cs, denCoeffs = (0, 0) :: cs ∧ cs.length = 12 ∧ ∀ c ∈ cs, 1 ≤ lit c := by
  refine ⟨_, rfl, rfl, ?_⟩
  intro c hc
  simp only [List.mem_cons, List.mem_nil_iff, or_false] at hc
  rcases hc with rfl | rfl | rfl | rfl | rfl | rfl | rfl | rfl | rfl | rfl | rfl | rfl <;> norm_num [lit]

/-- The exact Lanczos sum. -/
def S (x : ℝ) : ℝ := peval pA x / 10 ^ 49 / peval pDen x

theorem S_pos {x : ℝ} (hx : 0 < x) : 0 < S x := by
  have := pA_pos hx.le
  have := pDen_pos hx
  rw [S]; positivity

/-- A rounded quotient. -/
theorem rel_div (A : Arith u η rd) {a b p q κ : ℝ} (hκ0 : 0 ≤ κ) (hκ : κ ≤ 30 * u) (hp : 0 < p) (hq : 0 < q)
    (ha : |a - p| ≤ κ * p) (hb : |b - q| ≤ κ * q) (hpq : 1 ≤ p / q) :
    |rd (a / b) - p / q| ≤ (2.01 * κ + 1.01 * u) * (p / q) := by
  obtain ⟨h, _, hu0, hu, hη, hη'⟩ := A
  have ha' := abs_le.1 ha
  have hb' := abs_le.1 hb
  have hκ2 : κ ≤ 1 / 10 ^ 12 := by norm_num at hu ⊢; linarith
  have hκq : κ * q ≤ 1 / 10 ^ 12 * q := mul_le_mul_of_nonneg_right hκ2 hq.le
  have hb0 : 0.999 * q ≤ b := by norm_num at hκq ⊢; linarith [hb'.1]
  have hbp : 0 < b := by norm_num at hb0; linarith
  have e : a / b - p / q = ((a - p) * q - p * (b - q)) / (b * q) := by
    field_simp; ring
  have h1 : |a / b - p / q| ≤ 2.005 * κ * (p / q) := by
    rw [e, abs_div, abs_of_pos (by positivity : 0 < b * q), div_le_iff₀ (by positivity)]
    calc |(a - p) * q - p * (b - q)| ≤ |(a - p) * q| + |p * (b - q)| := abs_sub _ _
      _ = |a - p| * q + p * |b - q| := by rw [abs_mul, abs_mul, abs_of_pos hq, abs_of_pos hp]
      _ ≤ κ * p * q + p * (κ * q) := add_le_add (mul_le_mul_of_nonneg_right ha hq.le) (mul_le_mul_of_nonneg_left hb hp.le)
      _ = 2 * κ * p * q := by ring
      _ ≤ 2.005 * κ * (p / q) * (0.999 * q * q) := by
        have : 2.005 * κ * (p / q) * (0.999 * q * q) = 2.005 * 0.999 * (κ * p * q) := by field_simp
        rw [this]
        have : 0 ≤ κ * p * q := by positivity
        norm_num; linarith
      _ ≤ _ := mul_le_mul_of_nonneg_left (mul_le_mul_of_nonneg_right hb0 hq.le) (by positivity)
  have h2 := h (a / b)
  set r := p / q with hr
  have hr0 : 0 < r := by linarith
  have hκr : κ * r ≤ 1 / 10 ^ 12 * r := mul_le_mul_of_nonneg_right hκ2 hr0.le
  have hab : |a / b| ≤ 1.001 * r := by
    calc |a / b| = |(a / b - r) + r| := by congr 1; ring
      _ ≤ _ := abs_add_le _ _
      _ ≤ _ := by rw [abs_of_pos hr0]; norm_num at hκr ⊢; linarith
  have h3 : u * |a / b| ≤ 1.001 * (u * r) := by
    calc u * |a / b| ≤ u * (1.001 * r) := mul_le_mul_of_nonneg_left hab hu0
      _ = _ := by ring
  have hur : u ≤ u * r := le_mul_of_one_le_right hu0 hpq
  have hκr0 : 0 ≤ κ * r := by positivity
  calc |rd (a / b) - r| = |(rd (a / b) - a / b) + (a / b - r)| := by congr 1; ring
    _ ≤ _ := abs_add_le _ _
    _ ≤ _ := by
      have e : (2.01 * κ + 1.01 * u) * r = 2.01 * (κ * r) + 1.01 * (u * r) := by ring
      rw [e]; norm_num at hη' ⊢; linarith

/-- `num ≥ 2.5 den`: the sum is at least 2.5. -/
theorem S_lower {x : ℝ} (hx : 0 < x) : 2.5 ≤ S x := by
  have h1 : 0 ≤ peval (psub (psmul 2 pA) (psmul (5 * 10 ^ 49) pDen)) x := peval_nonneg _ (by decide +kernel) hx.le
  simp only [psub, peval_padd, peval_psmul] at h1
  push_cast at h1
  have hd := pDen_pos hx
  rw [S, le_div_iff₀ hd, le_div_iff₀ (by positivity)]
  norm_num at h1 ⊢
  linarith

/-- and at most `590 (1 + 1/x)`. -/
theorem S_upper {x : ℝ} (hx : 0 < x) : S x ≤ 590 * (1 + 1 / x) := by
  have h1 : 0 ≤ peval (psub (psmul (590 * 10 ^ 49) (padd pDen (0 :: pDen))) (0 :: pA)) x := peval_nonneg _ (by decide +kernel) hx.le
  simp only [psub, peval_padd, peval_psmul, peval_cons] at h1
  push_cast at h1
  have hd := pDen_pos hx
  rw [S, div_le_iff₀ hd, div_le_iff₀ (by positivity)]
  have e : 590 * (1 + 1 / x) * peval pDen x * 10 ^ 49 = 590 * 10 ^ 49 * (peval pDen x + x * peval pDen x) / x := by
    field_simp; ring
  rw [e, le_div_iff₀ hx]
  linarith

/-- **`lanczos_sum`**: at most 27 half-units each for numerator and denominator. -/
theorem lanczosSum_rel (A : Arith u η rd) {x : ℝ} (hx : 1 / 10 ^ 21 ≤ x) :
    |lanczosSum rd x - S x| ≤ 54 * u * S x := by
  have hx0 : 0 < x := lt_of_lt_of_le (by norm_num) hx
  have hS := S_lower hx0
  have hu0 := A.u0
  have hu1 := A.u1
  have hA := pA_pos hx0.le
  have hD := pDen_pos hx0
  obtain ⟨cs, hcs, hlen, hone⟩ := lit_den
  have hnum13 : numCoeffs.length = 13 := rfl
  have hlit0 : lit (0, 0) = 0 := by simp [lit]
  have hS0 : 0 < S x := S_pos hx0
  rw [lanczosSum]
  by_cases h5 : x < 5
  · rw [if_pos h5]
    have h1 := down_rel A hx0.le numCoeffs lit_num (by rw [hnum13])
    have h2 := down_rel A hx0.le cs hone (by rw [hlen]; norm_num)
    rw [hnum13] at h1
    rw [hlen] at h2
    have hv := val_ge_one hx0.le cs hone (by rintro rfl; simp at hlen)
    have h3 := rel_step A (a := hornerDown rd x cs * x) (p := val x cs * x) (c := 0) (κ := 2.01 * 12 * u)
      (by positivity) (by norm_num at hu1 ⊢; linarith) (by positivity) le_rfl
      (by
        rw [← sub_mul, abs_mul, abs_of_pos hx0, ← mul_assoc]
        exact mul_le_mul_of_nonneg_right (by simpa using h2) hx0.le)
      (by
        have : 1 * x ≤ val x cs * x := mul_le_mul_of_nonneg_right hv hx0.le
        norm_num at hx ⊢; linarith)
    have e1 : hornerDown rd x denCoeffs = rd (rd (hornerDown rd x cs * x) + rd 0) := by rw [hcs, hornerDown_cons, hlit0]
    have e2 : val x denCoeffs = val x cs * x + 0 := by rw [hcs, val, hlit0]
    rw [← e1, ← e2] at h3
    have h4 := rel_div A (κ := 2.01 * 13 * u) (by positivity) (by linarith) (p := val x numCoeffs) (q := val x denCoeffs)
      (by rw [val_num]; positivity) (by rw [val_den]; exact hD)
      (by simpa using h1) (h3.trans (le_of_eq (by ring))) (by rw [val_num, val_den]; norm_num at hS; rw [S] at hS; linarith)
    rw [val_num, val_den] at h4
    refine h4.trans ?_
    rw [← S]
    have : 0 ≤ u * S x := by positivity
    nlinarith
  · rw [if_neg h5]
    have h1 := upFrom_rel A hx0 numCoeffs lit_num (n := 0) (by rw [hnum13]) (a := 0) (b := 0) le_rfl (by simp)
    have h2 := upFrom_rel A hx0 cs hone (n := 0) (by rw [hlen]; norm_num) (a := 0) (b := 0) le_rfl (by simp)
    rw [hnum13] at h1
    rw [hlen] at h2
    have e1 : hornerUp rd x denCoeffs = upFrom rd x 0 cs := by
      rw [hcs]
      have : hornerUp rd x ((0, 0) :: cs) = upFrom rd x (rd (rd (0 / x) + rd (lit (0, 0)))) cs := rfl
      rw [this, hlit0, zero_div, A.zero, add_zero, A.zero]
    have e0 : hornerUp rd x numCoeffs = upFrom rd x 0 numCoeffs := rfl
    rw [e0, e1]
    have f1 := upFrom_exact hx0.ne' 0 numCoeffs
    have f2 := upFrom_exact hx0.ne' 0 cs
    have e2 : val x denCoeffs = val x cs * x := by rw [hcs, val, hlit0, add_zero]
    rw [hnum13, zero_add] at f1
    rw [hlen, zero_add, mul_comm x, ← e2, val_den] at f2
    rw [val_num] at f1
    set N := upFrom id x 0 numCoeffs with hN
    set D := upFrom id x 0 cs with hDd
    have hND : N / D = S x := by
      have hD0 : D ≠ 0 := by
        intro h0; rw [h0, zero_mul] at f2; exact hD.ne f2
      rw [S, ← f2, div_eq_div_iff hD0 (by rw [f2]; exact hD.ne')]
      have : peval pA x / 10 ^ 49 = N * x ^ 12 := by
        have hx' := hx0.ne'
        have : x * (N * x ^ 12) = x * (peval pA x / 10 ^ 49) := by rw [← f1]; ring
        exact (mul_left_cancel₀ hx' this).symm
      rw [this]; ring
    have hDp : 0 < D := by
      rcases h2.1.lt_or_eq with h | h
      · exact h
      · rw [← h, zero_mul] at f2; exact absurd f2 hD.ne
    have hNp : 0 < N := by
      have : N = S x * D := by rw [← hND]; field_simp
      rw [this]; positivity
    have h4 := rel_div A (κ := 2.01 * 13 * u) (by positivity) (by linarith) hNp hDp
      (by simpa using h1.2)
      (h2.2.trans (mul_le_mul_of_nonneg_right (by push_cast; linarith) hDp.le)) (by rw [hND]; linarith)
    rw [hND] at h4
    refine h4.trans ?_
    have : 0 ≤ u * S x := by positivity
    nlinarith

end
end Ufunclab.Loggamma1p
