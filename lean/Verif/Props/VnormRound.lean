import Verif.Model.VnormRound
import Verif.Model.Cross
import Verif.Proof.VnormRound
import Verif.Props.Vnorm
import Verif.Props.Cross
import Verif.Props.CorrRound
/-!
# C82: vdot, rms, cross2 and cross3 in floating point

The models of `Model/Vnorm` and `Model/Cross` used at `Fl rd`, where `rd` rounds to a nearest value
of a binary format (`Nearest p emin rd`, any rule for ties).  `u = 2^-p`.
-/
namespace Ufunclab.Vnorm
open Ufunclab.Float Ufunclab.Corr Ufunclab.Cross Finset
variable {p : ℕ} {emin : ℤ} {rd : ℝ → ℝ}

/-! ### vdot -/

theorem vdot_rsum (m : Mem (Fl rd)) (w px sx py sy : Int) (n : ℕ) :
    (vdot m w px sx py sy n).val = rsum rd 0 ((List.range n).map fun i => rd ((get m px sx i).val * (get m py sy i).val)) := by
  rw [C42_vdot_fold, foldl_val, List.map_map]; rfl

theorem pow_le' {n : ℕ} {u : ℝ} (hu : (n : ℝ) * u ≤ 1 / 100) (hu0 : 0 ≤ u) : (1 + u) ^ n ≤ 1 + 1.02 * n * u ∧ (1 + u) ^ n ≤ 1.0102 := by
  have := Mad.pow_bound hu0 n hu
  refine ⟨this, this.trans ?_⟩
  have e : 1.02 * (n : ℝ) * u = 1.02 * (n * u) := by ring
  rw [e]; norm_num at *; linarith

theorem unit_mul_le (n : ℕ) (c : ℝ) (hn : 100 * ((n : ℝ) + c) ≤ 2 ^ p) : ((n : ℝ) + c) * (2 ^ p)⁻¹ ≤ 1 / 100 := by
  rw [← div_eq_mul_inv, div_le_iff₀ (by positivity)]; linarith

/-- C82: the computed dot product differs from the exact one by at most
`1.02 (n+1) u * sum |x_i y_i|`, plus half the least subnormal for each product. -/
theorem C82_vdot_accuracy (h : Nearest p emin rd) (hp : 1 ≤ p) (n : ℕ) (hn : 100 * ((n : ℝ) + 1) ≤ 2 ^ p) (m : Mem (Fl rd))
    (w px sx py sy : Int) :
    let x := fun i => (get m px sx i).val
    let y := fun i => (get m py sy i).val
    |(vdot m w px sx py sy n).val - ∑ i ∈ range n, x i * y i| ≤
      1.02 * (n + 1) * (2 ^ p)⁻¹ * ∑ i ∈ range n, |x i * y i| + 1.02 * n * (2 ^ emin / 2) := by
  intro x y
  have h1 := unit_mul_le n 1 hn
  have hu0 : (0 : ℝ) ≤ (2 ^ p)⁻¹ := by positivity
  have hη0 : (0 : ℝ) ≤ 2 ^ emin / 2 := by positivity
  have h2 := rsum_terms h hp n (fun i => rd (x i * y i)) (fun i => x i * y i) (fun k _ => (h _).1) (a := (2 ^ p)⁻¹) (b := 2 ^ emin / 2)
    (fun k _ => h.error hp _)
  have h3 := Mad.pow_bound (u := ((2 : ℝ) ^ p)⁻¹) hu0 (n + 1) (by push_cast; exact h1)
  have h4 := (pow_le' (n := n) (u := ((2 : ℝ) ^ p)⁻¹) (by linarith) hu0).2
  rw [vdot_rsum]
  refine h2.trans (add_le_add (mul_le_mul_of_nonneg_right ?_ (sum_nonneg fun _ _ => abs_nonneg _)) ?_)
  · rw [← pow_succ]; push_cast at h3; linarith
  · rw [mul_assoc 1.02]
    exact mul_le_mul_of_nonneg_right (h4.trans (by norm_num)) (by positivity)

/-- C82: the dot product of integers is exact while `sum |x_i y_i| ≤ 2^p`. -/
theorem C82_vdot_int (h : Nearest p emin rd) (hp : 1 ≤ p) (he : emin ≤ 0) (n : ℕ) (m : Mem (Fl rd)) (w px sx py sy : Int) (x y : ℕ → ℤ)
    (hx : ∀ i < n, (get m px sx i).val = x i) (hy : ∀ i < n, (get m py sy i).val = y i)
    (hs : ∑ i ∈ range n, |x i * y i| ≤ 2 ^ p) :
    (vdot m w px sx py sy n).val = ((∑ i ∈ range n, x i * y i : ℤ) : ℝ) := by
  rw [vdot_rsum]
  have e1 : ((List.range n).map fun i => rd ((get m px sx i).val * (get m py sy i).val)) =
      ((List.range n).map fun i => x i * y i).map Int.cast := by
    rw [List.map_map]
    apply List.map_congr_left
    intro i hi
    have hi := List.mem_range.1 hi
    rw [hx i hi, hy i hi, ← Int.cast_mul]
    exact h.exact (isFloat_int hp he _ ((single_le_sum (f := fun i => |x i * y i|) (fun _ _ => abs_nonneg _) (mem_range.2 hi)).trans hs))
  have e2 : ∀ f : ℕ → ℤ, ((List.range n).map f).sum = ∑ i ∈ range n, f i := by
    intro f; rw [← List.sum_toFinset _ List.nodup_range, List.toFinset_range]
  have := rsum_int h hp he ((List.range n).map fun i => x i * y i) 0 (by
    rw [List.map_map, e2]; simpa using hs)
  rw [Int.cast_zero, zero_add, e2] at this
  rw [e1, this]

/-- C82: `vdot(x, y)` and `vdot(y, x)` are the same number, and `vdot(x, x)` is not negative,
rounding included. -/
theorem C82_vdot_symm (h : Nearest p emin rd) (n : ℕ) (m : Mem (Fl rd)) (w px sx py sy : Int) :
    vdot m w px sx py sy n = vdot m w py sy px sx n ∧ 0 ≤ (vdot m w px sx px sx n).val := by
  constructor
  · rw [C42_vdot_fold, C42_vdot_fold]
    congr 1
    apply List.map_congr_left
    intro i _
    show (⟨rd _⟩ : Fl rd) = ⟨rd _⟩
    rw [mul_comm]
  · rw [vdot_rsum]
    apply rsum_nonneg h _ _ le_rfl
    intro v hv
    obtain ⟨i, _, rfl⟩ := List.mem_map.1 hv
    exact h.mono_float isFloat_zero (mul_self_nonneg _)

/-! ### rms -/

theorem rms_val (m : Mem (Fl rd)) (w px sx out : Int) (n : ℕ) (hout : ∀ i < n, px + (i : Int) * sx ≠ out) :
    (rms (rmsFin rd) m w px sx out n out).val =
      rd (Real.sqrt (rd (rsum rd 0 ((List.range n).map fun i => rd ((get m px sx i).val * (get m px sx i).val)) / rd n))) := by
  rw [C42_rms_store _ _ _ _ _ _ _ hout, Mem.store_same, rmsFin, foldl_val, List.map_map]; rfl

/-- C82: rms of real numbers: the relative error is at most `(0.53 n + 2.2) u` as long as the sum
of the squares is well inside the range of normal numbers. -/
theorem C82_rms_accuracy (h : Nearest p emin rd) (hp : 10 ≤ p) (he : emin ≤ -2 * p) (n : ℕ) (hn0 : 1 ≤ n)
    (hn : 100 * ((n : ℝ) + 1) ≤ 2 ^ p) (m : Mem (Fl rd)) (w px sx out : Int) (hout : ∀ i < n, px + (i : Int) * sx ≠ out) :
    let x := fun i => (get m px sx i).val
    let exact := Real.sqrt ((∑ i ∈ range n, x i ^ 2) / n)
    let r := (rms (rmsFin rd) m w px sx out n out).val
    2 ^ emin * (2 ^ p) ^ 2 ≤ ∑ i ∈ range n, x i ^ 2 →
    |r - exact| ≤ (0.53 * n + 2.2) * (2 ^ p)⁻¹ * exact := by
  intro x exact r hS
  have h1 := unit_mul_le n 1 hn
  have hu0 : (0 : ℝ) ≤ (2 ^ p)⁻¹ := by positivity
  have hu := Mad.unit_le_thousandth (K := ℝ) hp
  have hv := C82_vdot_accuracy h (by omega) n hn m w px sx px sx
  rw [vdot_rsum] at hv
  have ea : ∀ i, |x i * x i| = x i ^ 2 := fun i => by rw [← sq, abs_of_nonneg (sq_nonneg _)]
  have eb : ∀ i, x i * x i = x i ^ 2 := fun i => (sq _).symm
  change |rsum rd 0 ((List.range n).map fun i => rd (x i * x i)) - ∑ i ∈ range n, x i * x i| ≤ _ * ∑ i ∈ range n, |x i * x i| + _ at hv
  simp only [ea] at hv
  simp only [eb] at hv
  have hη : (2 : ℝ) ^ emin / 2 ≤ (2 ^ p)⁻¹ * ((2 ^ p)⁻¹ * ∑ i ∈ range n, x i ^ 2) / 2 := by
    have e1 : (2 : ℝ) ^ emin = (2 ^ p)⁻¹ * ((2 ^ p)⁻¹ * (2 ^ emin * (2 ^ p) ^ 2)) := by field_simp
    have k : (2 ^ p)⁻¹ * ((2 ^ p)⁻¹ * ((2 : ℝ) ^ emin * (2 ^ p) ^ 2)) ≤ (2 ^ p)⁻¹ * ((2 ^ p)⁻¹ * ∑ i ∈ range n, x i ^ 2) :=
      mul_le_mul_of_nonneg_left (mul_le_mul_of_nonneg_left hS hu0) hu0
    rw [← e1] at k; linarith
  have hs : |rsum rd 0 ((List.range n).map fun i => rd (x i ^ 2)) - ∑ i ∈ range n, x i ^ 2| ≤
      ((1.02 * n + 1.03) * (2 ^ p)⁻¹) * ∑ i ∈ range n, x i ^ 2 := by
    refine hv.trans ?_
    generalize (∑ i ∈ range n, x i ^ 2) = S at *
    have hS0 : 0 ≤ S := le_trans (by positivity) hS
    generalize (2 : ℝ) ^ emin / 2 = η at *
    clear hv hn hS
    generalize ((2 : ℝ) ^ p)⁻¹ = u at *
    have hn' : (0 : ℝ) ≤ n := by positivity
    have k1 := mul_le_mul_of_nonneg_left hη hn'
    have k2 : (n : ℝ) * (u * (u * S) / 2) = (n * u) * (u * S) / 2 := by ring
    have k3 : (n * u) * (u * S) ≤ 1 / 100 * (u * S) := mul_le_mul_of_nonneg_right (by linarith) (by positivity)
    have k4 : 0 ≤ u * S := by positivity
    have k5 : 1.02 * (n + 1) * u * S = 1.02 * (n * (u * S)) + 1.02 * (u * S) := by ring
    have k6 : (1.02 * n + 1.03) * u * S = 1.02 * (n * (u * S)) + 1.03 * (u * S) := by ring
    rw [k5, k6, mul_assoc 1.02]
    norm_num at *; linarith
  have hr : r = rd (Real.sqrt (rd (rsum rd 0 ((List.range n).map fun i => rd (x i ^ 2)) / rd n))) := by
    simp only [← eb]; exact rms_val m w px sx out n hout
  rw [hr]
  refine (root_error h hp he n hn0 hn hS hs (by positivity) ?_).trans (mul_le_mul_of_nonneg_right ?_ (Real.sqrt_nonneg _))
  · clear hv hs hr hη hS hn
    generalize ((2 : ℝ) ^ p)⁻¹ = u at *
    norm_num at *; linarith
  · clear hv hs hr hη hS hn
    generalize ((2 : ℝ) ^ p)⁻¹ = u at *
    have : 0 ≤ (n : ℝ) * u := by positivity
    norm_num at *; linarith

theorem crms_fold (m : Mem (Fl rd)) (px sx q : Int) (fuel : ℕ) : ∀ (k : ℕ) (s : Fl rd), (csumSqLoop m px sx q fuel k s).val =
    rsum rd s.val ((List.range' k fuel).map fun i : ℕ => rd (rd ((m (px + (i : Int) * sx)).val * (m (px + (i : Int) * sx)).val) +
      rd ((m (px + (i : Int) * sx + q)).val * (m (px + (i : Int) * sx + q)).val))) := by
  induction fuel with
  | zero => intro k s; rfl
  | succ f ih => intro k s; rw [csumSqLoop, ih, List.range'_succ, List.map_cons, rsum]; rfl

/-- C82: rms of complex numbers: the relative error is at most `(0.53 n + 2.8) u`. -/
theorem C82_crms_accuracy (h : Nearest p emin rd) (hp : 10 ≤ p) (he : emin ≤ -2 * p) (n : ℕ) (hn0 : 1 ≤ n)
    (hn : 100 * ((n : ℝ) + 1) ≤ 2 ^ p) (m : Mem (Fl rd)) (q px sx out : Int) :
    let re := fun i : ℕ => (m (px + (i : Int) * sx)).val
    let im := fun i : ℕ => (m (px + (i : Int) * sx + q)).val
    let exact := Real.sqrt ((∑ i ∈ range n, (re i ^ 2 + im i ^ 2)) / n)
    let r := (crms (rmsFin rd) m q px sx out n out).val
    2 ^ emin * (2 ^ p) ^ 2 ≤ ∑ i ∈ range n, (re i ^ 2 + im i ^ 2) →
    |r - exact| ≤ (0.53 * n + 2.8) * (2 ^ p)⁻¹ * exact := by
  intro re im exact r hS
  have h1 := unit_mul_le n 1 hn
  have hu0 : (0 : ℝ) ≤ (2 ^ p)⁻¹ := by positivity
  have hu := Mad.unit_le_thousandth (K := ℝ) hp
  have hη0 : (0 : ℝ) ≤ 2 ^ emin / 2 := by positivity
  have hterm : ∀ i, |rd (rd (re i * re i) + rd (im i * im i)) - (re i ^ 2 + im i ^ 2)| ≤
      (2.002 * (2 ^ p)⁻¹) * |re i ^ 2 + im i ^ 2| + 2.002 * (2 ^ emin / 2) := by
    intro i
    have a1 := h.error (by omega : 1 ≤ p) (re i * re i)
    have a2 := h.error (by omega : 1 ≤ p) (im i * im i)
    obtain ⟨g1, hg1⟩ := (h (re i * re i)).1.grid
    obtain ⟨g2, hg2⟩ := (h (im i * im i)).1.grid
    have a3 := h.rel_error (by omega : 1 ≤ p) (z := rd (re i * re i) + rd (im i * im i)) ⟨g1 + g2, by rw [hg1, hg2]; push_cast; ring⟩
    rw [abs_of_nonneg (mul_self_nonneg (re i))] at a1
    rw [abs_of_nonneg (mul_self_nonneg (im i))] at a2
    rw [abs_of_nonneg (by positivity : 0 ≤ re i ^ 2 + im i ^ 2)]
    rw [← sq] at a1 a2 ⊢
    rw [← sq]
    have hr2 := sq_nonneg (re i)
    have hi2 := sq_nonneg (im i)
    have b1 : 0 ≤ rd (re i ^ 2) := h.mono_float isFloat_zero hr2
    have b2 : 0 ≤ rd (im i ^ 2) := h.mono_float isFloat_zero hi2
    rw [← sq] at a3
    rw [← sq] at a3
    rw [abs_of_nonneg (add_nonneg b1 b2)] at a3
    clear hS hn
    generalize (2 : ℝ) ^ emin / 2 = η at *
    generalize ((2 : ℝ) ^ p)⁻¹ = u at *
    generalize rd (rd (re i ^ 2) + rd (im i ^ 2)) = t at *
    generalize rd (re i ^ 2) = A at *
    generalize rd (im i ^ 2) = B at *
    generalize re i ^ 2 = a at *
    generalize im i ^ 2 = b at *
    have c1 : u * (A + B) ≤ u * ((1 + u) * (a + b) + 2 * η) :=
      mul_le_mul_of_nonneg_left (by have := (abs_le.1 a1).2; have := (abs_le.1 a2).2; linarith) hu0
    have c2 : u * ((1 + u) * (a + b) + 2 * η) = u * (a + b) + u * (u * (a + b)) + 2 * (u * η) := by ring
    have c3 : u * (u * (a + b)) ≤ 1 / 1000 * (u * (a + b)) := mul_le_mul_of_nonneg_right hu (by positivity)
    have c4 : u * η ≤ 1 / 1000 * η := mul_le_mul_of_nonneg_right hu hη0
    have c5 : 0 ≤ u * (a + b) := by positivity
    have c6 : u * (a + b) = u * a + u * b := by ring
    calc |t - (a + b)| = |(t - (A + B)) + (A - a) + (B - b)| := by congr 1; ring
      _ ≤ |t - (A + B)| + |A - a| + |B - b| := abs_add_three _ _ _
      _ ≤ _ := by norm_num at *; linarith
  have hs0 := rsum_terms h (by omega) n (fun i => rd (rd (re i * re i) + rd (im i * im i))) (fun i => re i ^ 2 + im i ^ 2)
    (fun k _ => (h _).1) (fun k _ => hterm k)
  have hη : (2 : ℝ) ^ emin / 2 ≤ (2 ^ p)⁻¹ * ((2 ^ p)⁻¹ * ∑ i ∈ range n, (re i ^ 2 + im i ^ 2)) / 2 := by
    have e1 : (2 : ℝ) ^ emin = (2 ^ p)⁻¹ * ((2 ^ p)⁻¹ * (2 ^ emin * (2 ^ p) ^ 2)) := by field_simp
    have k : (2 ^ p)⁻¹ * ((2 ^ p)⁻¹ * ((2 : ℝ) ^ emin * (2 ^ p) ^ 2)) ≤ (2 ^ p)⁻¹ * ((2 ^ p)⁻¹ * ∑ i ∈ range n, (re i ^ 2 + im i ^ 2)) :=
      mul_le_mul_of_nonneg_left (mul_le_mul_of_nonneg_left hS hu0) hu0
    rw [← e1] at k; linarith
  obtain ⟨hP1, hP2⟩ := pow_le' (n := n) (u := ((2 : ℝ) ^ p)⁻¹) (by linarith) hu0
  have ea : ∀ i, |re i ^ 2 + im i ^ 2| = re i ^ 2 + im i ^ 2 := fun i => abs_of_nonneg (by positivity)
  simp only [ea] at hs0
  have hs : |rsum rd 0 ((List.range n).map fun i : ℕ => rd (rd (re i * re i) + rd (im i * im i))) - ∑ i ∈ range n, (re i ^ 2 + im i ^ 2)| ≤
      ((1.02 * n + 2.05) * (2 ^ p)⁻¹) * ∑ i ∈ range n, (re i ^ 2 + im i ^ 2) := by
    refine hs0.trans ?_
    generalize (∑ i ∈ range n, (re i ^ 2 + im i ^ 2)) = S at *
    have hS0 : 0 ≤ S := le_trans (by positivity) hS
    generalize (2 : ℝ) ^ emin / 2 = η at *
    clear hs0 hterm hn hS
    generalize ((2 : ℝ) ^ p)⁻¹ = u at *
    generalize (1 + u) ^ n = P at *
    have hn' : (0 : ℝ) ≤ n := by positivity
    have k0 : 0 ≤ u * S := by positivity
    have k1 : P * (1 + 2.002 * u) - 1 ≤ 1.02 * n * u + 2.03 * u := by
      have : P * u ≤ 1.0102 * u := mul_le_mul_of_nonneg_right hP2 hu0
      norm_num at *; linarith
    have k2 := mul_le_mul_of_nonneg_right k1 hS0
    have k3 : P * (n * (2.002 * η)) ≤ 1.0102 * (n * (2.002 * η)) := mul_le_mul_of_nonneg_right hP2 (by positivity)
    have k4 := mul_le_mul_of_nonneg_left hη hn'
    have k5 : (n : ℝ) * (u * (u * S) / 2) = (n * u) * (u * S) / 2 := by ring
    have k6 : (n * u) * (u * S) ≤ 1 / 100 * (u * S) := mul_le_mul_of_nonneg_right (by linarith) k0
    have k7 : (n : ℝ) * η ≤ 0.005 * (u * S) := by rw [k5] at k4; norm_num at *; linarith
    have k8 : 1.0102 * (n * (2.002 * η)) = (1.0102 * 2.002) * (n * η) := by ring
    rw [k8] at k3
    clear hP1 hP2 k1 k4 k5 k6 hη h1 hu
    have e1 : (1.02 * n * u + 2.03 * u) * S = 1.02 * (n * (u * S)) + 2.03 * (u * S) := by ring
    have e2 : (1.02 * n + 2.05) * u * S = 1.02 * (n * (u * S)) + 2.05 * (u * S) := by ring
    rw [e1] at k2
    rw [e2]
    generalize (n : ℝ) * (u * S) = a at *
    generalize u * S = b at *
    generalize (n : ℝ) * η = c at *
    norm_num at *; linarith
  have hr : r = rd (Real.sqrt (rd (rsum rd 0 ((List.range n).map fun i => rd (rd (re i * re i) + rd (im i * im i))) / rd n))) := by
    simp only [r]
    rw [C42_crms, Mem.store_same, rmsFin, crms_fold, List.range_eq_range']; rfl
  rw [hr]
  refine (root_error h hp he n hn0 hn hS hs (by positivity) ?_).trans (mul_le_mul_of_nonneg_right ?_ (Real.sqrt_nonneg _))
  · clear hs0 hs hr hη hS hn hterm hP1 hP2 hη0
    generalize ((2 : ℝ) ^ p)⁻¹ = u at *
    norm_num at *; linarith
  · clear hs0 hs hr hη hS hn hterm hP1 hP2 hη0
    generalize ((2 : ℝ) ^ p)⁻¹ = u at *
    have : 0 ≤ (n : ℝ) * u := by positivity
    norm_num at *; linarith

/-- C82: the rms of real or complex numbers is never negative, rounding included. -/
theorem C82_rms_nonneg (h : Nearest p emin rd) (n : ℕ) (m : Mem (Fl rd)) (w px sx out q : Int) :
    0 ≤ (rms (rmsFin rd) m w px sx out n out).val ∧ 0 ≤ (crms (rmsFin rd) m q px sx out n out).val := by
  have : ∀ s, 0 ≤ (rmsFin rd s n).val := fun s => h.mono_float isFloat_zero (Real.sqrt_nonneg _)
  constructor
  · unfold rms; rw [Mem.store_same]; exact this _
  · rw [C42_crms, Mem.store_same]; exact this _

/-- The number stored for `1.9`. -/
noncomputable def x19 : ℝ := 8556839292003942 * 2 ^ (-52 : ℤ)

/-- C82 fails for the upper bound: in double precision the rms of five copies of `1.9` is larger
than `1.9`, for every rule for ties. -/
theorem C82_rms_range_violated {rd : ℝ → ℝ} (h : Nearest 53 (-1074) rd) (m : Mem (Fl rd)) (w out : Int) (hout : ∀ i < 5, 0 + ((i : ℕ) : Int) * 1 ≠ out)
    (hx : ∀ i < 5, (get m 0 1 i).val = x19) : x19 < (rms (rmsFin rd) m w 0 1 out 5 out).val := by
  rw [rms_val m w 0 1 out 5 hout]
  have e : ((List.range 5).map fun i => rd ((get m 0 1 i).val * (get m 0 1 i).val)) = List.replicate 5 (rd (x19 * x19)) := by
    rw [show List.replicate 5 (rd (x19 * x19)) = (List.range 5).map fun _ => rd (x19 * x19) from rfl]
    apply List.map_congr_left
    intro i hi
    rw [hx i (List.mem_range.1 hi)]
  rw [e]
  have t1 : rd (x19 * x19) = ((8128997327403745 : ℤ) : ℝ) * 2 ^ ((-52 : ℤ) + 1) := by
    apply h.pin (by norm_num) 8128997327403745 (-52) (by norm_num) (by norm_num)
    · rw [abs_of_nonneg (mul_self_nonneg _)]; norm_num [x19, zpow_neg]
    · rw [abs_lt]; constructor <;> norm_num [x19, zpow_neg]
  have s1 : rd (0 + rd (x19 * x19)) = ((8128997327403745 : ℤ) : ℝ) * 2 ^ ((-52 : ℤ) + 1) := by
    rw [zero_add, h.exact (h _).1, t1]
  have s2 : rd (((8128997327403745 : ℤ) : ℝ) * 2 ^ ((-52 : ℤ) + 1) + rd (x19 * x19)) = ((8128997327403745 : ℤ) : ℝ) * 2 ^ ((-51 : ℤ) + 1) := by
    rw [t1]
    apply h.pin (by norm_num) 8128997327403745 (-51) (by norm_num) (by norm_num)
    · rw [abs_of_nonneg (by positivity)]; norm_num [zpow_neg]
    · rw [abs_lt]; constructor <;> norm_num [zpow_neg]
  have s3 : rd (((8128997327403745 : ℤ) : ℝ) * 2 ^ ((-51 : ℤ) + 1) + rd (x19 * x19)) = ((6096747995552809 : ℤ) : ℝ) * 2 ^ ((-50 : ℤ) + 1) := by
    rw [t1]
    apply h.pin (by norm_num) 6096747995552809 (-50) (by norm_num) (by norm_num)
    · rw [abs_of_nonneg (by positivity)]; norm_num [zpow_neg]
    · rw [abs_lt]; constructor <;> norm_num [zpow_neg]
  have s4 : rd (((6096747995552809 : ℤ) : ℝ) * 2 ^ ((-50 : ℤ) + 1) + rd (x19 * x19)) = ((8128997327403745 : ℤ) : ℝ) * 2 ^ ((-50 : ℤ) + 1) := by
    rw [t1]
    apply h.pin (by norm_num) 8128997327403745 (-50) (by norm_num) (by norm_num)
    · rw [abs_of_nonneg (by positivity)]; norm_num [zpow_neg]
    · rw [abs_lt]; constructor <;> norm_num [zpow_neg]
  have s5 : rd (((8128997327403745 : ℤ) : ℝ) * 2 ^ ((-50 : ℤ) + 1) + rd (x19 * x19)) = ((5080623329627341 : ℤ) : ℝ) * 2 ^ ((-49 : ℤ) + 1) := by
    rw [t1]
    apply h.pin (by norm_num) 5080623329627341 (-49) (by norm_num) (by norm_num)
    · rw [abs_of_nonneg (by positivity)]; norm_num [zpow_neg]
    · rw [abs_lt]; constructor <;> norm_num [zpow_neg]
  have r5 : rd ((5 : ℕ) : ℝ) = 5 := by
    rw [h.exact (Mad.isFloat_nat (by norm_num) (by norm_num) (by norm_num))]; norm_num
  have q1 : rd (((5080623329627341 : ℤ) : ℝ) * 2 ^ ((-49 : ℤ) + 1) / 5) = ((8128997327403746 : ℤ) : ℝ) * 2 ^ ((-52 : ℤ) + 1) := by
    apply h.pin (by norm_num) 8128997327403746 (-52) (by norm_num) (by norm_num)
    · rw [abs_of_nonneg (by positivity)]; norm_num [zpow_neg]
    · rw [abs_lt]; constructor <;> norm_num [zpow_neg]
  have r1 : rd (Real.sqrt (((8128997327403746 : ℤ) : ℝ) * 2 ^ ((-52 : ℤ) + 1))) = ((8556839292003943 : ℤ) : ℝ) * 2 ^ ((-53 : ℤ) + 1) := by
    have lo : ((8556839292003943 : ℤ) : ℝ) * 2 ^ ((-53 : ℤ) + 1) - 2 ^ (-53 : ℤ) < Real.sqrt (((8128997327403746 : ℤ) : ℝ) * 2 ^ ((-52 : ℤ) + 1)) := by
      apply Real.lt_sqrt_of_sq_lt; norm_num [zpow_neg]
    have hi : Real.sqrt (((8128997327403746 : ℤ) : ℝ) * 2 ^ ((-52 : ℤ) + 1)) < ((8556839292003943 : ℤ) : ℝ) * 2 ^ ((-53 : ℤ) + 1) + 2 ^ (-53 : ℤ) := by
      rw [Real.sqrt_lt' (by positivity)]; norm_num [zpow_neg]
    have one : 1 ≤ Real.sqrt (((8128997327403746 : ℤ) : ℝ) * 2 ^ ((-52 : ℤ) + 1)) := by
      rw [Real.one_le_sqrt]; norm_num [zpow_neg]
    generalize Real.sqrt (((8128997327403746 : ℤ) : ℝ) * 2 ^ ((-52 : ℤ) + 1)) = y at *
    apply h.pin (by norm_num) 8556839292003943 (-53) (by norm_num) (by norm_num)
    · rw [abs_of_nonneg (by linarith)]
      refine le_trans ?_ one
      norm_num [zpow_neg]
    · rw [abs_lt]; constructor <;> linarith
  simp only [List.replicate, rsum, s1, s2, s3, s4, s5, r5, q1, r1]
  norm_num [x19, zpow_neg]

/-- C82 fails for tiny numbers: in double precision the rms of the single number `2^-540` is 0. -/
theorem C82_rms_underflow_violated {rd : ℝ → ℝ} (h : Nearest 53 (-1074) rd) (m : Mem (Fl rd)) (w out : Int) (hout : (0 : Int) ≠ out)
    (hx : (get m 0 1 0).val = 2 ^ (-540 : ℤ)) : (rms (rmsFin rd) m w 0 1 out 1 out).val = 0 := by
  have hrd0 : rd 0 = 0 := h.exact isFloat_zero
  rw [rms_val m w 0 1 out 1 (by intro i hi; rw [(by omega : i = 0)]; simpa using hout)]
  have e0 : rd ((2 : ℝ) ^ (-540 : ℤ) * 2 ^ (-540 : ℤ)) = 0 := by
    rw [← zpow_add₀ (by norm_num)]
    obtain ⟨g, hg⟩ := (h ((2 : ℝ) ^ ((-540 : ℤ) + -540))).1.grid
    have a1 := (h ((2 : ℝ) ^ ((-540 : ℤ) + -540))).2 0 isFloat_zero
    have e1 : (2 : ℝ) ^ (-1074 : ℤ) = 64 * 2 ^ ((-540 : ℤ) + -540) := by
      rw [show (-1074 : ℤ) = 6 + ((-540 : ℤ) + -540) by norm_num, zpow_add₀ (by norm_num)]; norm_num
    rw [hg, e1] at a1
    rw [hg]
    have hη0 : (0 : ℝ) < 2 ^ ((-540 : ℤ) + -540) := by positivity
    clear hg e1
    generalize (2 : ℝ) ^ ((-540 : ℤ) + -540) = η at *
    rw [zero_sub, abs_neg, abs_of_pos hη0] at a1
    have a2 := abs_le.1 a1
    have c1 : (g : ℝ) < 1 := by by_contra hc; nlinarith
    have c2 : (-1 : ℝ) < g := by by_contra hc; nlinarith
    have : g = 0 := by
      have : g < 1 := by exact_mod_cast c1
      have : -1 < g := by exact_mod_cast c2
      omega
    rw [this]; simp
  simp only [List.range_succ, List.range_zero, List.nil_append, List.map_cons, List.map_nil, hx, e0, rsum, add_zero, hrd0, zero_div,
    Real.sqrt_zero]

/-! ### cross2 and cross3 -/

/-- `a*d - b*c` with every operation rounded. -/
theorem det_error (h : Nearest p emin rd) (hp : 10 ≤ p) (a d b c : ℝ) :
    |rd (rd (a * d) - rd (b * c)) - (a * d - b * c)| ≤ 2.002 * (2 ^ p)⁻¹ * (|a * d| + |b * c|) + 2.002 * (2 ^ emin / 2) := by
  have a1 := h.error (by omega : 1 ≤ p) (a * d)
  have a2 := h.error (by omega : 1 ≤ p) (b * c)
  obtain ⟨g1, hg1⟩ := (h (a * d)).1.grid
  obtain ⟨g2, hg2⟩ := (h (b * c)).1.grid
  have a3 := h.rel_error (by omega : 1 ≤ p) (z := rd (a * d) - rd (b * c)) ⟨g1 - g2, by rw [hg1, hg2]; push_cast; ring⟩
  have hu := Mad.unit_le_thousandth (K := ℝ) hp
  have hu0 : (0 : ℝ) ≤ (2 ^ p)⁻¹ := by positivity
  have hη0 : (0 : ℝ) ≤ 2 ^ emin / 2 := by positivity
  generalize (2 : ℝ) ^ emin / 2 = η at *
  generalize ((2 : ℝ) ^ p)⁻¹ = u at *
  generalize rd (rd (a * d) - rd (b * c)) = t at *
  generalize rd (a * d) = A at *
  generalize rd (b * c) = B at *
  generalize a * d = x at *
  generalize b * c = y at *
  have c0 : |A - B| ≤ (1 + u) * (|x| + |y|) + 2 * η := by
    calc |A - B| = |(A - x) + x + (-(B - y)) + -y| := by congr 1; ring
      _ ≤ |(A - x) + x + (-(B - y))| + |-y| := abs_add_le _ _
      _ ≤ |A - x| + |x| + |-(B - y)| + |-y| := add_le_add (abs_add_three _ _ _) le_rfl
      _ ≤ _ := by rw [abs_neg, abs_neg]; linarith
  have c1 := mul_le_mul_of_nonneg_left c0 hu0
  have c2 : u * ((1 + u) * (|x| + |y|) + 2 * η) = u * (|x| + |y|) + u * (u * (|x| + |y|)) + 2 * (u * η) := by ring
  have c5 : 0 ≤ u * (|x| + |y|) := by positivity
  have c3 : u * (u * (|x| + |y|)) ≤ 1 / 1000 * (u * (|x| + |y|)) := mul_le_mul_of_nonneg_right hu c5
  have c4 : u * η ≤ 1 / 1000 * η := mul_le_mul_of_nonneg_right hu hη0
  have c6 : u * (|x| + |y|) = u * |x| + u * |y| := by ring
  have c7 : |(-(B - y))| = |B - y| := abs_neg _
  calc |t - (x - y)| = |(t - (A - B)) + (A - x) + (-(B - y))| := by congr 1; ring
    _ ≤ |t - (A - B)| + |A - x| + |(-(B - y))| := abs_add_three _ _ _
    _ ≤ _ := by rw [c7, mul_assoc]; norm_num at *; linarith

/-- The rounded `a*d - b*c` has the sign of the exact one, or is zero. -/
theorem det_sign (h : Nearest p emin rd) (a d b c : ℝ) :
    (b * c ≤ a * d → 0 ≤ rd (rd (a * d) - rd (b * c))) ∧ (a * d ≤ b * c → rd (rd (a * d) - rd (b * c)) ≤ 0) :=
  ⟨fun hh => h.mono_float isFloat_zero (sub_nonneg.2 (h.monotone hh)), fun hh => h.mono_float' isFloat_zero (sub_nonpos.2 (h.monotone hh))⟩

theorem det_int (h : Nearest p emin rd) (hp : 1 ≤ p) (he : emin ≤ 0) (a d b c : ℤ) (hs : |a * d| + |b * c| ≤ 2 ^ p) :
    rd (rd ((a : ℝ) * d) - rd ((b : ℝ) * c)) = ((a * d - b * c : ℤ) : ℝ) := by
  have h0 := abs_nonneg (a * d)
  have h1 := abs_nonneg (b * c)
  rw [← Int.cast_mul, ← Int.cast_mul, h.exact (isFloat_int hp he _ (by omega)), h.exact (isFloat_int hp he _ (by omega)), ← Int.cast_sub]
  exact h.exact (isFloat_int hp he _ ((abs_sub _ _).trans hs))

/-- C82: cross2 and every component of cross3 differ from `a*d - b*c` by at most
`2.002 u (|a*d| + |b*c|)` plus about one least subnormal. -/
theorem C82_cross_accuracy (h : Nearest p emin rd) (hp : 10 ≤ p) (m : Mem (Fl rd)) (pu us pv vs po os : Int) (hos : os ≠ 0) :
    let x := fun i => (get m pu us i).val
    let y := fun i => (get m pv vs i).val
    let near := fun (r : ℝ) (i j : ℕ) => |r - (x i * y j - x j * y i)| ≤
      2.002 * (2 ^ p)⁻¹ * (|x i * y j| + |x j * y i|) + 2.002 * (2 ^ emin / 2)
    let o := fun i => (get (cross3 m pu us pv vs po os) po os i).val
    near (cross2 m pu us pv vs).val 0 1 ∧ near (o 0) 1 2 ∧ near (o 1) 2 0 ∧ near (o 2) 0 1 := by
  intro x y near o
  obtain ⟨h0, h1, h2, _⟩ := C43_cross3_formula m pu us pv vs po os hos
  refine ⟨det_error h hp _ _ _ _, ?_, ?_, ?_⟩
  · simp only [near, o, h0]; exact det_error h hp _ _ _ _
  · simp only [near, o, h1]; exact det_error h hp _ _ _ _
  · simp only [near, o, h2]; exact det_error h hp _ _ _ _

/-- C82: rounding never reverses the sign of cross2 (the orientation of the two vectors), nor of a
component of cross3; in particular parallel coordinates give exactly 0. -/
theorem C82_cross_sign (h : Nearest p emin rd) (m : Mem (Fl rd)) (pu us pv vs po os : Int) (hos : os ≠ 0) :
    let x := fun i => (get m pu us i).val
    let y := fun i => (get m pv vs i).val
    let sign := fun (r : ℝ) (i j : ℕ) => (0 ≤ x i * y j - x j * y i → 0 ≤ r) ∧ (x i * y j - x j * y i ≤ 0 → r ≤ 0)
    let o := fun i => (get (cross3 m pu us pv vs po os) po os i).val
    sign (cross2 m pu us pv vs).val 0 1 ∧ sign (o 0) 1 2 ∧ sign (o 1) 2 0 ∧ sign (o 2) 0 1 := by
  intro x y sign o
  obtain ⟨h0, h1, h2, _⟩ := C43_cross3_formula m pu us pv vs po os hos
  have key : ∀ i j, sign (rd (rd (x i * y j) - rd (x j * y i))) i j := fun i j =>
    ⟨fun hh => (det_sign h _ _ _ _).1 (sub_nonneg.1 hh), fun hh => (det_sign h _ _ _ _).2 (sub_nonpos.1 hh)⟩
  refine ⟨key 0 1, ?_, ?_, ?_⟩
  · simp only [o, h0]; exact key 1 2
  · simp only [o, h1]; exact key 2 0
  · simp only [o, h2]; exact key 0 1

/-- C82: the cross product of a vector with itself is exactly 0. -/
theorem C82_cross_self (h : Nearest p emin rd) (m : Mem (Fl rd)) (pu us po os : Int) (hos : os ≠ 0) :
    (cross2 m pu us pu us).val = 0 ∧ ∀ i < 3, (get (cross3 m pu us pu us po os) po os i).val = 0 := by
  obtain ⟨a, b, c, d⟩ := C82_cross_sign h m pu us pu us po os hos
  have z : ∀ i j, (get m pu us i).val * (get m pu us j).val - (get m pu us j).val * (get m pu us i).val = 0 := by intro i j; ring
  refine ⟨le_antisymm (a.2 (z 0 1).le) (a.1 (z 0 1).ge), ?_⟩
  intro i hi
  rcases (by omega : i = 0 ∨ i = 1 ∨ i = 2) with rfl | rfl | rfl
  · exact le_antisymm (b.2 (z 1 2).le) (b.1 (z 1 2).ge)
  · exact le_antisymm (c.2 (z 2 0).le) (c.1 (z 2 0).ge)
  · exact le_antisymm (d.2 (z 0 1).le) (d.1 (z 0 1).ge)

/-- C82: cross2 and cross3 are exact for integers whose products `a*d`, `b*c` satisfy
`|a*d| + |b*c| ≤ 2^p`. -/
theorem C82_cross_int (h : Nearest p emin rd) (hp : 1 ≤ p) (he : emin ≤ 0) (m : Mem (Fl rd)) (pu us pv vs po os : Int) (hos : os ≠ 0)
    (x y : ℕ → ℤ) (hx : ∀ i, (get m pu us i).val = x i) (hy : ∀ i, (get m pv vs i).val = y i)
    (hs : ∀ i < 3, ∀ j < 3, |x i * y j| + |x j * y i| ≤ 2 ^ p) :
    let o := fun i => (get (cross3 m pu us pv vs po os) po os i).val
    (cross2 m pu us pv vs).val = ((x 0 * y 1 - x 1 * y 0 : ℤ) : ℝ) ∧ o 0 = ((x 1 * y 2 - x 2 * y 1 : ℤ) : ℝ) ∧
    o 1 = ((x 2 * y 0 - x 0 * y 2 : ℤ) : ℝ) ∧ o 2 = ((x 0 * y 1 - x 1 * y 0 : ℤ) : ℝ) := by
  intro o
  obtain ⟨h0, h1, h2, _⟩ := C43_cross3_formula m pu us pv vs po os hos
  have key : ∀ i < 3, ∀ j < 3, rd (rd ((get m pu us i).val * (get m pv vs j).val) - rd ((get m pu us j).val * (get m pv vs i).val)) =
      ((x i * y j - x j * y i : ℤ) : ℝ) := by
    intro i hi j hj
    rw [hx, hx, hy, hy]
    exact det_int h hp he _ _ _ _ (hs i hi j hj)
  refine ⟨key 0 (by norm_num) 1 (by norm_num), ?_, ?_, ?_⟩
  · simp only [o, h0]; exact key 1 (by norm_num) 2 (by norm_num)
  · simp only [o, h1]; exact key 2 (by norm_num) 0 (by norm_num)
  · simp only [o, h2]; exact key 0 (by norm_num) 1 (by norm_num)

/-- C82 fails for the relative error of cross2: in double precision two vectors that are not
parallel have cross product exactly 0, for every rule for ties. -/
theorem C82_cross_cancel_violated {rd : ℝ → ℝ} (h : Nearest 53 (-1074) rd) (m : Mem (Fl rd)) (hu0 : (get m 0 1 0).val = 1 + 2 ^ (-52 : ℤ))
    (hu1 : (get m 0 1 1).val = 1) (hv0 : (get m 2 1 0).val = 1) (hv1 : (get m 2 1 1).val = 1 - 2 ^ (-53 : ℤ)) :
    (cross2 m 0 1 2 1).val = 0 ∧
      0 < (get m 0 1 0).val * (get m 2 1 1).val - (get m 0 1 1).val * (get m 2 1 0).val := by
  have r1 : rd 1 = 1 := h.exact (isFloat_one (by norm_num) (by norm_num))
  have r0 : rd 0 = 0 := h.exact isFloat_zero
  have e : (cross2 m 0 1 2 1).val = rd (rd ((get m 0 1 0).val * (get m 2 1 1).val) - rd ((get m 0 1 1).val * (get m 2 1 0).val)) := rfl
  rw [e, hu0, hu1, hv0, hv1, mul_one, r1]
  have q : rd ((1 + 2 ^ (-52 : ℤ)) * (1 - 2 ^ (-53 : ℤ))) = 1 := by
    rw [h.pin (by norm_num) 4503599627370496 (-53) (by norm_num) (by norm_num)]
    · norm_num [zpow_neg]
    · rw [abs_of_nonneg] <;> norm_num [zpow_neg]
    · rw [abs_lt]; constructor <;> norm_num [zpow_neg]
  rw [q, sub_self, r0]
  exact ⟨rfl, by norm_num [zpow_neg]⟩

/-! ### Non-vacuity: doubles -/
example : ∃ rd : ℝ → ℝ, Nearest 53 (-1074) rd := exists_nearest (by norm_num) _

example (h : Nearest 53 (-1074) rd) (m : Mem (Fl rd)) (hx : ∀ i, (get m 0 1 i).val = ((3 * i + 1 : ℕ) : ℤ)) :
    (vdot m 8 0 1 0 1 3).val = 66 ∧
    |(rms (rmsFin rd) m 8 0 1 100 3 100).val - Real.sqrt 22| ≤ (0.53 * (3 : ℕ) + 2.2) * (2 ^ 53)⁻¹ * Real.sqrt 22 := by
  constructor
  · rw [C82_vdot_int h (by norm_num) (by norm_num) 3 m 8 0 1 0 1 (fun i => ((3 * i + 1 : ℕ) : ℤ)) (fun i => ((3 * i + 1 : ℕ) : ℤ))
      (fun i _ => hx i) (fun i _ => hx i) (by simp [sum_range_succ])]
    simp [sum_range_succ]
  · have e : (∑ i ∈ range 3, (get m 0 1 i).val ^ 2) = 66 := by simp only [hx, sum_range_succ]; norm_num
    have := C82_rms_accuracy h (by norm_num) (by norm_num) 3 (by norm_num) (by norm_num) m 8 0 1 100 (by intro i hi; omega)
      (by simp only [e]; exact low_double.2.trans (by norm_num))
    simp only [e] at this
    rw [show (66 : ℝ) / (3 : ℕ) = 22 by norm_num] at this
    exact this

end Ufunclab.Vnorm
