import Verif.Model.Overflow
import Verif.Model.Kbnsum
import Verif.Proof.Overflow
import Verif.Props.VnormRound
import Verif.Props.VnormPow
import Verif.Props.Kbnsum
/-!
# C85: overflow in vdot, rms, cross2, kbnsum and wjaccard

`ov rd Ω` (Spec/Overflow) rounds and replaces what is beyond `Ω`, the largest number of the format, by
an infinity.  Data whose sums stay in the range give the results of the properties without overflow;
data whose exact result is in the range may still give an infinity or NaN.
-/
namespace Ufunclab.Vnorm
open Ufunclab.Float Ufunclab.Corr Ufunclab.Cross Finset
variable {p : ℕ} {emin : ℤ} {rd : ℝ → ℝ} {Ω : ℝ}

/-- The same data without overflow. -/
noncomputable def toFl (m : Mem (Fo rd Ω)) : Mem (Fl rd) := fun a => ⟨match (m a).val with | .fin v => v | _ => 0⟩

theorem toFl_get {m : Mem (Fo rd Ω)} {q s : Int} {i : Nat} {v : ℝ} (h : (get m q s i).val = .fin v) : (get (toFl m) q s i).val = v := by
  show (match (get m q s i).val with | .fin v => v | _ => 0) = v
  rw [h]

theorem fo_eta {a : Fo rd Ω} {v : XF ℝ} (h : a.val = v) : a = ⟨v⟩ := by cases a; cases h; rfl

theorem sum_range_list (n : ℕ) (f : ℕ → ℝ) : ((List.range n).map f).sum = ∑ i ∈ range n, f i := by
  rw [← List.sum_toFinset _ List.nodup_range, List.toFinset_range]

/-- The sum of the products, in range. -/
theorem dot_in_range (h : Nearest p emin rd) (hp : 1 ≤ p) (hΩ : IsFloat p emin Ω) (n : ℕ) (hn : 100 * ((n : ℝ) + 1) ≤ 2 ^ p)
    (m : Mem (Fo rd Ω)) (px sx py sy : Int) (x y : ℕ → ℝ) (hx : ∀ i < n, (get m px sx i).val = .fin (x i))
    (hy : ∀ i < n, (get m py sy i).val = .fin (y i))
    (hs : 1.03 * ∑ i ∈ range n, |x i * y i| + n * 2 ^ emin ≤ Ω) :
    ((List.range n).map (fun i => get m px sx i * get m py sy i)).foldl (· + ·) 0 =
      (⟨.fin (rsum rd 0 ((List.range n).map fun i => rd (x i * y i)))⟩ : Fo rd Ω) ∧
    |rsum rd 0 ((List.range n).map fun i => rd (x i * y i))| ≤ Ω := by
  have hu0 : (0 : ℝ) ≤ (2 ^ p)⁻¹ := by positivity
  have hη : (0 : ℝ) ≤ 2 ^ emin := by positivity
  have hS : 0 ≤ ∑ i ∈ range n, |x i * y i| := sum_nonneg fun _ _ => abs_nonneg _
  have h1 := unit_mul_le n 1 hn
  have hnη : 0 ≤ (n : ℝ) * 2 ^ emin := by positivity
  have hle : ∀ i < n, |x i * y i| ≤ Ω := by
    intro i hi
    have k1 := single_le_sum (f := fun i => |x i * y i|) (fun _ _ => abs_nonneg _) (mem_range.2 hi)
    linarith
  have e : ((List.range n).map (fun i => get m px sx i * get m py sy i)) =
      ((List.range n).map fun i => rd (x i * y i)).map fun v => (⟨.fin v⟩ : Fo rd Ω) := by
    rw [List.map_map]
    apply List.map_congr_left
    intro i hi
    have hi := List.mem_range.1 hi
    rw [fo_eta (hx i hi), fo_eta (hy i hi), Fo.mul_fin, ov_le h hΩ (hle i hi)]; rfl
  rw [e]
  have fl : ∀ v ∈ (List.range n).map fun i => rd (x i * y i), IsFloat p emin v := by
    intro v hv
    obtain ⟨i, _, rfl⟩ := List.mem_map.1 hv
    exact (h _).1
  suffices hb : (1 + (2 ^ p)⁻¹) ^ ((List.range n).map fun i => rd (x i * y i)).length *
      (|0| + (((List.range n).map fun i => rd (x i * y i)).map abs).sum) ≤ Ω from
    ⟨foldl_in_range h hp hΩ _ 0 isFloat_zero fl hb, (abs_rsum_le h hp _ 0 isFloat_zero fl).trans hb⟩
  · rw [abs_zero, zero_add, List.length_map, List.length_range, List.map_map, sum_range_list]
    have h2 := (pow_le' (n := n) (u := ((2 : ℝ) ^ p)⁻¹) (by linarith) hu0).2
    have h3 : ∑ i ∈ range n, (abs ∘ fun i => rd (x i * y i)) i ≤ (1 + (2 ^ p)⁻¹) * ∑ i ∈ range n, |x i * y i| + n * (2 ^ emin / 2) := by
      rw [mul_sum, show (n : ℝ) * (2 ^ emin / 2) = ∑ _i ∈ range n, (2 : ℝ) ^ emin / 2 by simp, ← sum_add_distrib]
      apply sum_le_sum
      intro i _
      show |rd (x i * y i)| ≤ _
      have e1 := h.error hp (x i * y i)
      have e2 : |rd (x i * y i)| ≤ |rd (x i * y i) - x i * y i| + |x i * y i| := by
        have := abs_add_le (rd (x i * y i) - x i * y i) (x i * y i)
        rwa [sub_add_cancel] at this
      linarith
    have h4 : (2 ^ p)⁻¹ ≤ (1 / 100 : ℝ) := by
      have : (0 : ℝ) ≤ n * (2 ^ p)⁻¹ := by positivity
      linarith
    generalize (∑ i ∈ range n, (abs ∘ fun i => rd (x i * y i)) i) = S' at *
    generalize (∑ i ∈ range n, |x i * y i|) = S at *
    have h5 : 0 ≤ (1 + (2 ^ p)⁻¹) * S + n * (2 ^ emin / 2) := by positivity
    have h6 : (1 + (2 ^ p)⁻¹) ^ n * S' ≤ 1.0102 * ((1 + (2 ^ p)⁻¹) * S + n * (2 ^ emin / 2)) :=
      (mul_le_mul_of_nonneg_left h3 (by positivity)).trans (mul_le_mul_of_nonneg_right h2 h5)
    have h7 : (2 ^ p)⁻¹ * S ≤ 1 / 100 * S := mul_le_mul_of_nonneg_right h4 hS
    refine h6.trans (le_trans ?_ hs)
    clear * - h7 hS hnη
    rw [show (1 + ((2 : ℝ) ^ p)⁻¹) * S = S + (2 ^ p)⁻¹ * S by ring, show (n : ℝ) * (2 ^ emin / 2) = n * 2 ^ emin / 2 by ring]
    generalize (2 ^ p)⁻¹ * S = uS at *
    generalize (n : ℝ) * 2 ^ emin = a at *
    norm_num at *; linarith

/-- C85: vdot of finite numbers does not overflow, and has the accuracy of C82, if
`1.03 sum |x_i y_i|` (and a least subnormal for each product) is in the range. -/
theorem C85_vdot_in_range (h : Nearest p emin rd) (hp : 1 ≤ p) (hΩ : IsFloat p emin Ω) (n : ℕ) (hn : 100 * ((n : ℝ) + 1) ≤ 2 ^ p)
    (m : Mem (Fo rd Ω)) (w px sx py sy : Int) (x y : ℕ → ℝ) (hx : ∀ i < n, (get m px sx i).val = .fin (x i))
    (hy : ∀ i < n, (get m py sy i).val = .fin (y i))
    (hs : 1.03 * ∑ i ∈ range n, |x i * y i| + n * 2 ^ emin ≤ Ω) :
    ∃ r, (vdot m w px sx py sy n).val = .fin r ∧
      |r - ∑ i ∈ range n, x i * y i| ≤ 1.02 * (n + 1) * (2 ^ p)⁻¹ * ∑ i ∈ range n, |x i * y i| + 1.02 * n * (2 ^ emin / 2) := by
  refine ⟨_, by rw [C42_vdot_fold, (dot_in_range h hp hΩ n hn m px sx py sy x y hx hy hs).1], ?_⟩
  have h1 := C82_vdot_accuracy h hp n hn (toFl m) w px sx py sy
  rw [vdot_rsum] at h1
  have ex : ∀ i ∈ range n, (get (toFl m) px sx i).val = x i := fun i hi => toFl_get (hx i (mem_range.1 hi))
  have ey : ∀ i ∈ range n, (get (toFl m) py sy i).val = y i := fun i hi => toFl_get (hy i (mem_range.1 hi))
  have e1 : ((List.range n).map fun i => rd ((get (toFl m) px sx i).val * (get (toFl m) py sy i).val)) = (List.range n).map fun i => rd (x i * y i) := by
    apply List.map_congr_left
    intro i hi
    have hi := mem_range.2 (List.mem_range.1 hi)
    rw [ex i hi, ey i hi]
  rw [e1] at h1
  simp only at h1
  rw [sum_congr rfl (fun i hi => by rw [ex i hi, ey i hi] : ∀ i ∈ range n, (get (toFl m) px sx i).val * (get (toFl m) py sy i).val = x i * y i),
    sum_congr rfl (fun i hi => by rw [ex i hi, ey i hi] : ∀ i ∈ range n, |(get (toFl m) px sx i).val * (get (toFl m) py sy i).val| = |x i * y i|)] at h1
  exact h1

/-- C85 fails where products overflow with both signs: in double precision the dot product of
`[2^512, 2^512]` and `[2^512, -2^512]` is NaN; the exact one is 0. -/
theorem C85_vdot_violated (h : Nearest 53 (-1074) rd) (m : Mem (Fo rd maxDouble)) (w px sx py sy : Int)
    (hx : ∀ i < 2, (get m px sx i).val = .fin (2 ^ (512 : ℤ))) (hy0 : (get m py sy 0).val = .fin (2 ^ (512 : ℤ)))
    (hy1 : (get m py sy 1).val = .fin (-2 ^ (512 : ℤ))) : (vdot m w px sx py sy 2).val = .nan := by
  have e : (2 : ℝ) ^ (512 : ℤ) * 2 ^ (512 : ℤ) = 2 ^ (1024 : ℤ) := by rw [← zpow_add₀ (by norm_num)]; norm_num
  have a : ov rd maxDouble (.fin ((2 : ℝ) ^ (512 : ℤ) * 2 ^ (512 : ℤ))) = .pinf := by
    rw [e]; exact ov_pos h (by norm_num) (by norm_num) maxDouble_lt le_rfl
  have b : ov rd maxDouble (.fin ((2 : ℝ) ^ (512 : ℤ) * -2 ^ (512 : ℤ))) = .ninf := by
    rw [mul_neg, e]
    exact ov_neg h (by norm_num) (by norm_num) (le_trans (by positivity) maxDouble_ge) maxDouble_lt le_rfl
  rw [C42_vdot_fold]
  simp only [List.range_succ, List.range_zero, List.nil_append, List.singleton_append, List.map_cons, List.map_nil, List.foldl_cons,
    List.foldl_nil]
  rw [fo_eta (hx 0 (by norm_num)), fo_eta (hx 1 (by norm_num)), fo_eta hy0, fo_eta hy1, Fo.mul_fin, Fo.mul_fin, a, b]
  rfl

/-! ### rms -/

theorem rms_valO (m : Mem (Fo rd Ω)) (w px sx out : Int) (n : ℕ) (hout : ∀ i < n, px + (i : Int) * sx ≠ out) :
    rms (rmsFinO rd Ω) m w px sx out n out =
      rmsFinO rd Ω (((List.range n).map (fun i => get m px sx i * get m px sx i)).foldl (· + ·) 0) n := by
  rw [C42_rms_store _ _ _ _ _ _ _ hout, Mem.store_same]

theorem sqrt_le_range {q : ℝ} (hq : q ≤ Ω) (h1 : 1 ≤ Ω) : Real.sqrt q ≤ Ω := by
  rw [Real.sqrt_le_left (by linarith)]
  nlinarith

/-- C85: rms of finite numbers does not overflow, and has the accuracy of C82, if `1.03 sum x_i^2` is
in the range. -/
theorem C85_rms_in_range (h : Nearest p emin rd) (hp : 10 ≤ p) (he : emin ≤ -2 * p) (hΩ : IsFloat p emin Ω) (hΩp : 2 ^ p ≤ Ω) (n : ℕ)
    (hn0 : 1 ≤ n) (hn : 100 * ((n : ℝ) + 1) ≤ 2 ^ p) (m : Mem (Fo rd Ω)) (w px sx out : Int)
    (hout : ∀ i < n, px + (i : Int) * sx ≠ out) (x : ℕ → ℝ) (hx : ∀ i < n, (get m px sx i).val = .fin (x i))
    (hs : 1.03 * ∑ i ∈ range n, x i ^ 2 + n * 2 ^ emin ≤ Ω) :
    ∃ r, (rms (rmsFinO rd Ω) m w px sx out n out).val = .fin r ∧ 0 ≤ r ∧
      (2 ^ emin * (2 ^ p) ^ 2 ≤ ∑ i ∈ range n, x i ^ 2 →
        |r - Real.sqrt ((∑ i ∈ range n, x i ^ 2) / n)| ≤ (0.53 * n + 2.2) * (2 ^ p)⁻¹ * Real.sqrt ((∑ i ∈ range n, x i ^ 2) / n)) := by
  have hp1 : 1 ≤ p := by omega
  have he0 : emin ≤ 0 := by omega
  have ea : ∀ i, |x i * x i| = x i ^ 2 := fun i => by rw [← sq, abs_of_nonneg (sq_nonneg _)]
  obtain ⟨hd, hdΩ⟩ := dot_in_range h hp1 hΩ n hn m px sx px sx x x hx hx (by simpa only [ea] using hs)
  have hn1 : (1 : ℝ) ≤ n := by exact_mod_cast hn0
  have hΩ1 : 1 ≤ Ω := le_trans (one_le_pow₀ (by norm_num)) hΩp
  have hrn : 1 ≤ rd n := h.mono_float (isFloat_one hp1 he0) hn1
  have hnΩ : |(n : ℝ)| ≤ Ω := by rw [abs_of_nonneg (by linarith)]; linarith
  obtain ⟨s, hs'⟩ : ∃ s, s = rsum rd 0 ((List.range n).map fun i => rd (x i * x i)) := ⟨_, rfl⟩
  have hs0 : 0 ≤ s := by
    rw [hs']
    apply rsum_nonneg h _ _ le_rfl
    intro v hv
    obtain ⟨i, _, rfl⟩ := List.mem_map.1 hv
    exact h.mono_float isFloat_zero (mul_self_nonneg _)
  have hsΩ : s ≤ Ω := by rw [hs']; exact (le_abs_self _).trans hdΩ
  have hq0 : 0 ≤ s / rd n := by positivity
  have hq : s / rd n ≤ Ω := (div_le_self hs0 hrn).trans hsΩ
  have hqr0 : 0 ≤ rd (s / rd n) := h.mono_float isFloat_zero hq0
  have hqr : rd (s / rd n) ≤ Ω := h.mono_float' hΩ hq
  have hsq := sqrt_le_range hqr hΩ1
  have hval : (rms (rmsFinO rd Ω) m w px sx out n out).val = .fin (rd (Real.sqrt (rd (s / rd n)))) := by
    rw [rms_valO m w px sx out n hout, hd, ← hs']
    simp only [rmsFinO]
    rw [ov_le h hΩ hnΩ, XF.div_fin _ _ (by linarith), ov_le h hΩ (by rwa [abs_of_nonneg hq0]), xsqrt, if_neg (not_lt.2 hqr0),
      ov_le h hΩ (by rwa [abs_of_nonneg (Real.sqrt_nonneg _)])]
  refine ⟨_, hval, h.mono_float isFloat_zero (Real.sqrt_nonneg _), ?_⟩
  intro hS
  have ex : ∀ i < n, (get (toFl m) px sx i).val = x i := fun i hi => toFl_get (hx i hi)
  have h1 := C82_rms_accuracy h hp he n hn0 hn (toFl m) w px sx out hout
  simp only at h1
  rw [rms_val _ _ _ _ _ _ hout, sum_congr rfl (fun i hi => by rw [ex i (mem_range.1 hi)] : ∀ i ∈ range n, (get (toFl m) px sx i).val ^ 2 = x i ^ 2)] at h1
  have e1 : ((List.range n).map fun i => rd ((get (toFl m) px sx i).val * (get (toFl m) px sx i).val)) = (List.range n).map fun i => rd (x i * x i) := by
    apply List.map_congr_left
    intro i hi
    rw [ex i (List.mem_range.1 hi)]
  rw [e1, ← hs'] at h1
  exact h1 hS

/-- C85 fails for large data: as soon as one square is beyond the range, the rms is infinite,
whatever the format, the length and the other (finite) numbers.  The exact rms is at most the largest
absolute value. -/
theorem C85_rms_overflow (h : Nearest p emin rd) (hp : 1 ≤ p) (h0 : 0 ≤ Ω) (k : ℤ) (hk : emin ≤ k) (hΩ : Ω < 2 ^ k) (n : ℕ)
    (m : Mem (Fo rd Ω)) (w px sx out : Int) (hout : ∀ i < n, px + (i : Int) * sx ≠ out)
    (x : ℕ → ℝ) (hx : ∀ i < n, (get m px sx i).val = .fin (x i)) (i : ℕ) (hi : i < n) (hbig : 2 ^ k ≤ x i ^ 2)
    (hn : ∃ q, 0 < q ∧ ov rd Ω (.fin n) = .fin q) :
    (rms (rmsFinO rd Ω) m w px sx out n out).val = .pinf := by
  have hf : (((List.range n).map (fun i => get m px sx i * get m px sx i)).foldl (· + ·) (0 : Fo rd Ω)).val = .pinf := by
    apply foldl_inf h h0
    · exact le_refl (0 : ℝ)
    · intro v hv
      obtain ⟨j, hj, rfl⟩ := List.mem_map.1 hv
      rw [fo_eta (hx j (List.mem_range.1 hj)), Fo.mul_fin]
      exact ov_nonneg (v := .fin (x j * x j)) h h0 (mul_self_nonneg (x j))
    · right
      refine ⟨_, List.mem_map.2 ⟨i, List.mem_range.2 hi, rfl⟩, ?_⟩
      rw [fo_eta (hx i hi), Fo.mul_fin, ← sq]
      exact ov_pos h hp hk hΩ hbig
  obtain ⟨q, hq, hqe⟩ := hn
  rw [rms_valO m w px sx out n hout, rmsFinO, hf, hqe]
  simp [XF.div, not_lt.2 hq.le, ov_pinf, xsqrt]

/-- C85 fails: in double precision the rms of the single number `2^512` is infinite. -/
theorem C85_rms_violated (h : Nearest 53 (-1074) rd) (m : Mem (Fo rd maxDouble)) (w px sx out : Int) (hout : px ≠ out)
    (hx : (get m px sx 0).val = .fin (2 ^ (512 : ℤ))) : (rms (rmsFinO rd maxDouble) m w px sx out 1 out).val = .pinf := by
  have e : ((2 : ℝ) ^ (512 : ℤ)) ^ 2 = 2 ^ (1024 : ℤ) := by rw [sq, ← zpow_add₀ (by norm_num)]; norm_num
  have h0 : (0 : ℝ) ≤ maxDouble := le_trans (by positivity) maxDouble_ge
  apply C85_rms_overflow h (by norm_num) h0 1024 (by norm_num) maxDouble_lt 1 m w px sx out
    (fun i hi => by rw [Nat.lt_one_iff.1 hi]; simpa using hout) (fun _ => 2 ^ (512 : ℤ)) (fun i hi => by rw [Nat.lt_one_iff.1 hi]; exact hx) 0 (by norm_num)
    (by rw [e])
  refine ⟨1, by norm_num, ?_⟩
  have f1 : IsFloat 53 (-1074) (1 : ℝ) := isFloat_one (by norm_num) (by norm_num)
  rw [Nat.cast_one, ov_le h isFloat_maxDouble, h.exact f1]
  rw [abs_one]
  exact le_trans (one_le_zpow₀ (by norm_num) (by norm_num)) maxDouble_ge

/-! ### cross2 -/

/-- C85: cross2 does not overflow, and is the result without overflow, if `2 (|u0 v1| + |u1 v0|)` is in
the range. -/
theorem C85_cross2_in_range (h : Nearest p emin rd) (hΩ : IsFloat p emin Ω) (m : Mem (Fo rd Ω)) (pu us pv vs : Int) (u0 u1 v0 v1 : ℝ)
    (hu0 : (get m pu us 0).val = .fin u0) (hu1 : (get m pu us 1).val = .fin u1) (hv0 : (get m pv vs 0).val = .fin v0)
    (hv1 : (get m pv vs 1).val = .fin v1) (hs : 2 * (|u0 * v1| + |u1 * v0|) ≤ Ω) :
    (cross2 m pu us pv vs).val = .fin (rd (rd (u0 * v1) - rd (u1 * v0))) := by
  have a := abs_nonneg (u0 * v1)
  have b := abs_nonneg (u1 * v0)
  have a2 := h.abs_le_two (u0 * v1)
  have b2 := h.abs_le_two (u1 * v0)
  have c := abs_sub (rd (u0 * v1)) (rd (u1 * v0))
  simp only [cross2]
  rw [fo_eta hu0, fo_eta hu1, fo_eta hv0, fo_eta hv1, Fo.mul_fin, Fo.mul_fin, ov_le h hΩ (by linarith), ov_le h hΩ (by linarith), Fo.sub_fin,
    ov_le h hΩ (by linarith)]

/-- C85 fails for large vectors: in double precision the cross product of the parallel vectors
`(2^512, 2^512)` and `(2^512, 2^512)` is NaN; the exact one is 0. -/
theorem C85_cross2_violated (h : Nearest 53 (-1074) rd) (m : Mem (Fo rd maxDouble)) (pu us pv vs : Int)
    (hu : ∀ i < 2, (get m pu us i).val = .fin (2 ^ (512 : ℤ))) (hv : ∀ i < 2, (get m pv vs i).val = .fin (2 ^ (512 : ℤ))) :
    (cross2 m pu us pv vs).val = .nan := by
  have e : (2 : ℝ) ^ (512 : ℤ) * 2 ^ (512 : ℤ) = 2 ^ (1024 : ℤ) := by rw [← zpow_add₀ (by norm_num)]; norm_num
  have a : ov rd maxDouble (.fin ((2 : ℝ) ^ (512 : ℤ) * 2 ^ (512 : ℤ))) = .pinf := by
    rw [e]; exact ov_pos h (by norm_num) (by norm_num) maxDouble_lt le_rfl
  simp only [cross2]
  rw [fo_eta (hu 0 (by norm_num)), fo_eta (hu 1 (by norm_num)), fo_eta (hv 0 (by norm_num)), fo_eta (hv 1 (by norm_num)), Fo.mul_fin, a]
  rfl

end Ufunclab.Vnorm

namespace Ufunclab.Kbnsum
open Ufunclab.Float
variable {p : ℕ} {emin : ℤ} {rd : ℝ → ℝ} {Ω : ℝ}

theorem push_ov (h : Nearest p emin rd) (hp : 1 ≤ p) (hΩ : IsFloat p emin Ω) (a c x e : ℝ) (ha : IsFloat p emin a) (hx : IsFloat p emin x)
    (he : e = a + x - rd (a + x)) (h1 : |a + x| ≤ Ω) (h2 : |a| + |e| ≤ Ω) (h3 : |x| + |e| ≤ Ω) (h4 : |c + e| ≤ Ω) :
    push (ov rd Ω) (.fin a, .fin c) (.fin x) = (.fin (rd (a + x)), .fin (rd (c + e))) := by
  have heΩ : |e| ≤ Ω := by linarith [abs_nonneg a]
  have fa : ∀ u v : ℝ, fadd (ov rd Ω) (.fin u) (.fin v) = ov rd Ω (.fin (u + v)) := fun _ _ => rfl
  have fs : ∀ u v : ℝ, fsub (ov rd Ω) (.fin u) (.fin v) = ov rd Ω (.fin (u - v)) := fun _ _ => by rw [fsub, XF.sub_fin]
  simp only [push, fa, ov_le h hΩ h1, fs, XF.abs_fin, XF.ge_fin, decide_eq_true_eq]
  by_cases hc : |x| ≤ |a|
  · have k1 : |a - rd (a + x)| ≤ Ω := by
      have := abs_sub e x
      rw [show e - x = a - rd (a + x) by rw [he]; ring] at this
      linarith
    have k2 := fast2sum h hp ha hx hc
    rw [if_pos hc, ov_le h hΩ k1, fa, ov_fin (by rw [k2, ← he]; exact heΩ), k2, ← he, fa, ov_le h hΩ h4]
  · have k1 : |x - rd (a + x)| ≤ Ω := by
      have := abs_sub e a
      rw [show e - a = x - rd (a + x) by rw [he]; ring] at this
      linarith
    have k2 := fast2sum h hp hx ha (not_le.1 hc).le
    rw [add_comm x a] at k2
    rw [if_neg hc, ov_le h hΩ k1, fa, ov_fin (by rw [k2, ← he]; exact heΩ), k2, ← he, fa, ov_le h hΩ h4]

theorem loop_ov (h : Nearest p emin rd) (hp : 1 ≤ p) (hΩ : IsFloat p emin Ω) (u : ℝ) (hu : u = (2 ^ p)⁻¹) (B : ℝ) (hB : 1.1 * B ≤ Ω)
    (m : Mem (XF ℝ)) (q s w : Int) (xs : List ℝ) :
    ∀ (k j : Nat) (a c X : ℝ), IsFloat p emin a → IsFloat p emin c → (∀ x ∈ xs, IsFloat p emin x) →
    (∀ i (hi : i < xs.length), get m q s (k + i) = .fin xs[i]) → ((j + xs.length : ℕ) : ℝ) * u ≤ 1 / 100 →
    |a| ≤ (1 + u) ^ j * X → |c| ≤ (1 + u) ^ j * (j * (u * (1.02 * B))) → 0 ≤ X → X + (xs.map (|·|)).sum ≤ B →
    loop (ov rd Ω) m q s w xs.length k (.fin a, .fin c) = loop (rnd rd) m q s w xs.length k (.fin a, .fin c) := by
  have hu0 : 0 < u := by rw [hu]; positivity
  induction xs with
  | nil =>
    intro k j a c X fa fc _ _ hn hA hC hX hXB
    simp only [List.length_nil, Nat.add_zero, List.map_nil, List.sum_nil, add_zero] at hn hXB
    have hpow := (Vnorm.pow_le' hn hu0.le).2
    show ov rd Ω (.fin (a + c)) = .fin (rd (a + c))
    apply ov_le h hΩ
    have hB0 : 0 ≤ B := hX.trans hXB
    have h1 : |a| ≤ 1.0102 * B := hA.trans ((mul_le_mul_of_nonneg_right hpow hX).trans (mul_le_mul_of_nonneg_left hXB (by norm_num)))
    have h2 : |c| ≤ 1.0102 * (1 / 100 * (1.02 * B)) := by
      have e : (j : ℝ) * (u * (1.02 * B)) = j * u * (1.02 * B) := by ring
      rw [e] at hC
      exact hC.trans (mul_le_mul hpow (mul_le_mul_of_nonneg_right hn (by positivity)) (by positivity) (by norm_num))
    refine (abs_add_le _ _).trans (le_trans ?_ hB)
    clear * - h1 h2 hB0
    norm_num at *; linarith
  | cons x xs ih =>
    intro k j a c X fa fc hf hg hn hA hC hX hXB
    have h0 := hg 0 (by simp)
    simp only [Nat.add_zero, List.getElem_cons_zero] at h0
    have fx := hf x (by simp)
    simp only [List.length_cons, loop, h0, XF.isnan_fin, XF.isinf_fin, Bool.false_eq_true, if_false]
    rw [push_rd h hp a c x fa fx]
    rw [List.map_cons, List.sum_cons] at hXB
    have hs : 0 ≤ (xs.map (|·|)).sum := List.sum_nonneg (by simp)
    have hx0 := abs_nonneg x
    have hB0 : 0 ≤ B := by linarith
    have hjn : ((j + 1 : ℕ) : ℝ) * u ≤ 1 / 100 := by
      refine (mul_le_mul_of_nonneg_right ?_ hu0.le).trans hn
      rw [List.length_cons]; push_cast; linarith [Nat.cast_nonneg (α := ℝ) xs.length]
    have h1j : 1 ≤ (1 + u) ^ j := one_le_pow₀ (by linarith)
    have hpj : (1 + u) ^ j ≤ 1.0102 := (Vnorm.pow_le' (n := j) (by push_cast at hjn; linarith) hu0.le).2
    have hax : |a + x| ≤ (1 + u) ^ j * (X + |x|) := by
      have := mul_le_mul_of_nonneg_right h1j hx0
      calc |a + x| ≤ |a| + |x| := abs_add_le _ _
        _ ≤ _ := by linarith
    have haxB : |a + x| ≤ 1.0102 * B := hax.trans (mul_le_mul hpj (by linarith) (by positivity) (by norm_num))
    have haB : |a| ≤ 1.0102 * B := hA.trans (mul_le_mul hpj (by linarith) hX (by norm_num))
    have hrel : |rd (a + x) - (a + x)| ≤ u * |a + x| := by rw [hu]; exact h.rel_error hp (fa.grid.add fx.grid)
    obtain ⟨e, he⟩ : ∃ e, e = a + x - rd (a + x) := ⟨_, rfl⟩
    have heu : |e| ≤ u * (1.02 * B) := by
      rw [he, abs_sub_comm]
      refine hrel.trans (mul_le_mul_of_nonneg_left (haxB.trans ?_) hu0.le)
      exact mul_le_mul_of_nonneg_right (by norm_num) hB0
    have hu1 : u ≤ 1 / 100 := by
      push_cast at hjn; linarith [mul_nonneg (Nat.cast_nonneg (α := ℝ) j) hu0.le]
    have heB : |e| ≤ 0.0102 * B := by
      refine heu.trans ((mul_le_mul_of_nonneg_right hu1 (by positivity)).trans ?_)
      rw [← mul_assoc]; exact mul_le_mul_of_nonneg_right (by norm_num) hB0
    have hcB : |c| ≤ 0.011 * B := by
      have e1 : (j : ℝ) * (u * (1.02 * B)) = j * u * (1.02 * B) := by ring
      rw [e1] at hC
      refine hC.trans ((mul_le_mul hpj (mul_le_mul_of_nonneg_right (by push_cast at hjn; linarith : (j : ℝ) * u ≤ 1 / 100) (by positivity : 0 ≤ 1.02 * B))
        (by positivity) (by norm_num)).trans ?_)
      clear * - hB0; norm_num; linarith
    rw [push_ov h hp hΩ a c x e fa fx he (haxB.trans (by clear * - hB hB0; norm_num at *; linarith))
      (by clear * - haB heB hB hB0; norm_num at *; linarith) (by clear * - hXB hX hs heB hB hB0; norm_num at *; linarith)
      ((abs_add_le _ _).trans (by clear * - hcB heB hB hB0; norm_num at *; linarith)), ← he]
    apply ih (k + 1) (j + 1) _ _ (X + |x|) (h _).1 (h _).1 (fun y hy => hf y (by simp [hy]))
    · intro i hi
      have := hg (i + 1) (by simpa using hi)
      simpa [Nat.add_assoc, Nat.add_comm 1 i] using this
    · rw [List.length_cons] at hn
      rwa [show j + 1 + xs.length = j + (xs.length + 1) by omega]
    · have e2 : |rd (a + x)| ≤ |rd (a + x) - (a + x)| + |a + x| := by
        have := abs_add_le (rd (a + x) - (a + x)) (a + x)
        rwa [sub_add_cancel] at this
      calc |rd (a + x)| ≤ (1 + u) * |a + x| := by linarith
        _ ≤ (1 + u) * ((1 + u) ^ j * (X + |x|)) := mul_le_mul_of_nonneg_left hax (by linarith)
        _ = _ := by rw [pow_succ]; ring
    · have fe : OnGrid emin e := by rw [he]; exact (fa.grid.add fx.grid).sub (h _).1.grid
      have e1 := h.rel_error hp (fc.grid.add fe)
      rw [← hu] at e1
      have e2 : |rd (c + e)| ≤ |rd (c + e) - (c + e)| + |c + e| := by
        have := abs_add_le (rd (c + e) - (c + e)) (c + e)
        rwa [sub_add_cancel] at this
      have e3 : |c + e| ≤ (1 + u) ^ j * (((j + 1 : ℕ) : ℝ) * (u * (1.02 * B))) := by
        have k : u * (1.02 * B) ≤ (1 + u) ^ j * (u * (1.02 * B)) := le_mul_of_one_le_left (by positivity) h1j
        refine (abs_add_le _ _).trans ?_
        rw [show (1 + u) ^ j * (((j + 1 : ℕ) : ℝ) * (u * (1.02 * B))) = (1 + u) ^ j * (j * (u * (1.02 * B))) + (1 + u) ^ j * (u * (1.02 * B)) by
          push_cast; ring]
        linarith
      calc |rd (c + e)| ≤ (1 + u) * |c + e| := by linarith
        _ ≤ (1 + u) * ((1 + u) ^ j * (((j + 1 : ℕ) : ℝ) * (u * (1.02 * B)))) := mul_le_mul_of_nonneg_left e3 (by linarith)
        _ = _ := by rw [pow_succ]; ring
    · positivity
    · linarith

/-- C85: kbnsum of finite numbers does not overflow, and is the compensated sum of C37, if
`1.1 sum |x_i|` is in the range. -/
theorem C85_kbnsum_in_range (h : Nearest p emin rd) (hp : 1 ≤ p) (hΩ : IsFloat p emin Ω) (m : Mem (XF ℝ)) (q stride w : Int) (xs : List ℝ)
    (hn : 100 * (xs.length : ℝ) ≤ 2 ^ p) (hf : ∀ x ∈ xs, IsFloat p emin x) (hx : elems m q stride xs.length = xs.map .fin)
    (hs : 1.1 * (xs.map (|·|)).sum ≤ Ω) :
    kbnsum (ov rd Ω) m q stride w xs.length = kbnsum (rnd rd) m q stride w xs.length := by
  apply loop_ov h hp hΩ _ rfl (xs.map (|·|)).sum hs m q stride w xs 0 0 0 0 0 isFloat_zero isFloat_zero hf
  · intro i hi
    have h1 : (elems m q stride xs.length)[i]? = (xs.map XF.fin)[i]? := by rw [hx]
    simp [elems, hi] at h1
    simpa using h1
  · rw [Nat.zero_add, ← div_eq_mul_inv, div_le_iff₀ (by positivity)]; linarith
  · simp
  · simp
  · exact le_rfl
  · simp

/-- C85 fails where a partial sum overflows: in double precision kbnsum of
`[2^1023, 2^1023, -2^1023]` is NaN; the exact sum is `2^1023`. -/
theorem C85_kbnsum_violated (h : Nearest 53 (-1074) rd) (m : Mem (XF ℝ)) (q stride w : Int)
    (h0 : get m q stride 0 = .fin (2 ^ (1023 : ℤ))) (h1 : get m q stride 1 = .fin (2 ^ (1023 : ℤ)))
    (h2 : get m q stride 2 = .fin (-2 ^ (1023 : ℤ))) : kbnsum (ov rd maxDouble) m q stride w 3 = .nan := by
  have f0 : IsFloat 53 (-1074) (0 : ℝ) := isFloat_zero
  have hpos : (0 : ℝ) < 2 ^ (1023 : ℤ) := by positivity
  have f1 : IsFloat 53 (-1074) ((2 : ℝ) ^ (1023 : ℤ)) := isFloat_zpow (by norm_num) (by norm_num)
  have hM0 : (0 : ℝ) ≤ maxDouble := hpos.le.trans maxDouble_ge
  have e : (2 : ℝ) ^ (1023 : ℤ) + 2 ^ (1023 : ℤ) = 2 ^ (1024 : ℤ) := by
    rw [← two_mul, ← zpow_one_add₀ (by norm_num)]; norm_num
  have s1 : push (ov rd maxDouble) (.fin 0, .fin 0) (.fin (2 ^ (1023 : ℤ))) = (.fin (2 ^ (1023 : ℤ)), .fin 0) := by
    have er : rd (0 + 2 ^ (1023 : ℤ)) = 2 ^ (1023 : ℤ) := by rw [zero_add]; exact h.exact f1
    rw [push_ov h (by norm_num) isFloat_maxDouble 0 0 (2 ^ (1023 : ℤ)) 0 f0 f1 (by rw [er]; ring)]
    · rw [er, add_zero, h.round_zero]
    · rw [zero_add, abs_of_pos hpos]; exact maxDouble_ge
    · simpa using hM0
    · rw [abs_zero, add_zero, abs_of_pos hpos]; exact maxDouble_ge
    · simpa using hM0
  have a : ov rd maxDouble (.fin ((2 : ℝ) ^ (1023 : ℤ) + 2 ^ (1023 : ℤ))) = .pinf := by
    rw [e]; exact ov_pos h (by norm_num) (by norm_num) maxDouble_lt le_rfl
  have s2 : push (ov rd maxDouble) (.fin (2 ^ (1023 : ℤ)), .fin 0) (.fin (2 ^ (1023 : ℤ))) = (.pinf, .ninf) := by
    simp only [push, fadd, fsub, XF.add_fin, a, XF.abs_fin, XF.ge_fin, le_refl, decide_true, if_true]
    rfl
  have s3 : push (ov rd maxDouble) (.pinf, .ninf) (.fin (-2 ^ (1023 : ℤ))) = (.pinf, .nan) := rfl
  simp only [kbnsum, loop, Nat.zero_add, h0, h1, h2, XF.isnan_fin, XF.isinf_fin, Bool.false_eq_true, if_false, s1, s2, s3]
  rfl

end Ufunclab.Kbnsum

namespace Ufunclab.Wjaccard
open Ufunclab.Float Ufunclab.Corr
variable {p : ℕ} {emin : ℤ} {rd : ℝ → ℝ} {Ω : ℝ}

theorem loop_ov (h : Nearest p emin rd) (hp : 1 ≤ p) (hΩ : IsFloat p emin Ω) (l : List (ℝ × ℝ)) : ∀ a b : ℝ, IsFloat p emin a → IsFloat p emin b →
    0 ≤ a → a ≤ b → (∀ q ∈ l, (0 ≤ q.1 ∧ IsFloat p emin q.1) ∧ (0 ≤ q.2 ∧ IsFloat p emin q.2)) →
    (1 + (2 ^ p)⁻¹) ^ l.length * (b + (l.map fun q => max q.1 q.2).sum) ≤ Ω →
    loop (fun a b => ov rd Ω (XF.add a b)) (.fin a) (.fin b) (l.map finPair) = loop (rounded rd XF.add) (.fin a) (.fin b) (l.map finPair) := by
  induction l with
  | nil => intros; rfl
  | cons q l ih =>
    intro a b fa fb ha hab hl hb
    obtain ⟨⟨a1, a2⟩, b1, b2⟩ := hl q (by simp)
    have fmin : IsFloat p emin (min q.1 q.2) := by rcases min_choice q.1 q.2 with e | e <;> rw [e] <;> assumption
    have fmax : IsFloat p emin (max q.1 q.2) := by rcases max_choice q.1 q.2 with e | e <;> rw [e] <;> assumption
    have m0 : 0 ≤ min q.1 q.2 := le_min a1 b1
    have mM : min q.1 q.2 ≤ max q.1 q.2 := min_le_max
    have hu : (0 : ℝ) ≤ (2 ^ p)⁻¹ := by positivity
    have hs : 0 ≤ (l.map fun q => max q.1 q.2).sum := List.sum_nonneg (by
      intro v hv
      obtain ⟨r, hr, rfl⟩ := List.mem_map.1 hv
      exact le_max_of_le_left (hl r (by simp [hr])).1.1)
    rw [List.map_cons, List.sum_cons, List.length_cons] at hb
    have h2 : (1 : ℝ) ≤ (1 + (2 ^ p)⁻¹) ^ (l.length + 1) := one_le_pow₀ (by linarith)
    have h1 : (0 : ℝ) ≤ (1 + (2 ^ p)⁻¹) ^ l.length := by positivity
    have hbM : b + max q.1 q.2 ≤ Ω := by
      have := le_mul_of_one_le_left (by linarith : 0 ≤ b + (max q.1 q.2 + (l.map fun q => max q.1 q.2).sum)) h2
      linarith
    simp only [List.map_cons, loop, finPair, XF.isnan_fin, Bool.or_self, Bool.false_eq_true, if_false, stdMin_fin, stdMax_fin, rounded, XF.add_fin]
    rw [ov_le h hΩ (by rw [abs_of_nonneg (by linarith)]; linarith), ov_le h hΩ (by rw [abs_of_nonneg (by linarith)]; linarith)]
    apply ih _ _ (h _).1 (h _).1 (h.mono_float isFloat_zero (by linarith)) (h.monotone (by linarith)) (fun r hr => hl r (by simp [hr]))
    have h5 : rd (b + max q.1 q.2) ≤ (1 + (2 ^ p)⁻¹) * (b + max q.1 q.2) := by
      have e1 := (abs_le.1 (h.rel_error hp (fb.grid.add fmax.grid))).2
      rw [abs_of_nonneg (by linarith)] at e1
      linarith
    calc (1 + (2 ^ p)⁻¹) ^ l.length * (rd (b + max q.1 q.2) + (l.map fun q => max q.1 q.2).sum)
        ≤ (1 + (2 ^ p)⁻¹) ^ l.length * ((1 + (2 ^ p)⁻¹) * (b + (max q.1 q.2 + (l.map fun q => max q.1 q.2).sum))) := by
          refine mul_le_mul_of_nonneg_left ?_ h1
          have := mul_nonneg hu hs
          linarith
      _ = (1 + (2 ^ p)⁻¹) ^ (l.length + 1) * (b + (max q.1 q.2 + (l.map fun q => max q.1 q.2).sum)) := by rw [pow_succ]; ring
      _ ≤ Ω := hb

/-- C85: wjaccard of finite numbers that are not negative does not overflow, and is the result of C83,
if `1.02 sum max(x_i, y_i)` is in the range. -/
theorem C85_wjaccard_in_range (h : Nearest p emin rd) (hp : 1 ≤ p) (he : emin ≤ 0) (hΩ : IsFloat p emin Ω) (hΩ1 : 1 ≤ Ω) (l : List (ℝ × ℝ))
    (hn : 100 * (l.length : ℝ) ≤ 2 ^ p) (hl : ∀ q ∈ l, (0 ≤ q.1 ∧ IsFloat p emin q.1) ∧ (0 ≤ q.2 ∧ IsFloat p emin q.2))
    (hs : 1.02 * (l.map fun q => max q.1 q.2).sum ≤ Ω) :
    wjaccardO rd Ω (l.map finPair) = wjaccard (rounded rd XF.add) (rounded rd XF.div) (l.map finPair) := by
  cases l with
  | nil => rfl
  | cons q l =>
    obtain ⟨⟨a1, a2⟩, b1, b2⟩ := hl q (by simp)
    have fmin : IsFloat p emin (min q.1 q.2) := by rcases min_choice q.1 q.2 with e | e <;> rw [e] <;> assumption
    have fmax : IsFloat p emin (max q.1 q.2) := by rcases max_choice q.1 q.2 with e | e <;> rw [e] <;> assumption
    have hu : (0 : ℝ) ≤ (2 ^ p)⁻¹ := by positivity
    have hs0 : 0 ≤ ((q :: l).map fun q => max q.1 q.2).sum := List.sum_nonneg (by
      intro v hv
      obtain ⟨r, hr, rfl⟩ := List.mem_map.1 hv
      exact le_max_of_le_left (hl r hr).1.1)
    rw [List.map_cons, List.sum_cons] at hs hs0
    have hpow : (1 + ((2 : ℝ) ^ p)⁻¹) ^ l.length ≤ 1.02 := by
      refine (Vnorm.pow_le' (n := l.length) ?_ hu).2.trans (by norm_num)
      rw [← div_eq_mul_inv, div_le_iff₀ (by positivity)]
      rw [List.length_cons] at hn; push_cast at hn; linarith
    have hb := (mul_le_mul_of_nonneg_right hpow hs0).trans hs
    obtain ⟨N, D, e1, e2, e3⟩ := loop_rounded rd h.monotone h.round_zero l (fun r hr => ⟨(hl r (by simp [hr])).1.1, (hl r (by simp [hr])).2.1⟩)
      (min q.1 q.2) (max q.1 q.2) (le_min a1 b1) min_le_max
    have hloop := loop_ov h hp hΩ l (min q.1 q.2) (max q.1 q.2) fmin fmax (le_min a1 b1) min_le_max (fun r hr => hl r (by simp [hr])) hb
    rw [e1] at hloop
    simp only [wjaccardO, List.map_cons, wjaccard, finPair, XF.isnan_fin, Bool.or_self, Bool.false_eq_true, if_false, stdMin_fin, stdMax_fin]
    simp only [hloop, e1, XF.eq_fin, decide_eq_true_eq]
    by_cases hD : D = 0
    · rw [if_pos hD, if_pos hD]
    · have hDpos : 0 < D := lt_of_le_of_ne (e2.trans e3) (Ne.symm hD)
      rw [if_neg hD, if_neg hD, rounded, XF.div_fin _ _ hD, ov_le h hΩ]
      rw [abs_of_nonneg (by positivity)]
      exact (div_le_one_of_le₀ e3 hDpos.le).trans hΩ1

/-- C85 fails for large data: in double precision wjaccard of `[2^1023, 2^1023]` with itself is NaN; the
exact value is 1. -/
theorem C85_wjaccard_violated (h : Nearest 53 (-1074) rd) :
    wjaccardO rd maxDouble ([(2 ^ (1023 : ℤ), 2 ^ (1023 : ℤ)), (2 ^ (1023 : ℤ), 2 ^ (1023 : ℤ))].map finPair) = .nan := by
  have e : (2 : ℝ) ^ (1023 : ℤ) + 2 ^ (1023 : ℤ) = 2 ^ (1024 : ℤ) := by
    rw [← two_mul, ← zpow_one_add₀ (by norm_num)]; norm_num
  have a : ov rd maxDouble (.fin ((2 : ℝ) ^ (1023 : ℤ) + 2 ^ (1023 : ℤ))) = .pinf := by
    rw [e]; exact ov_pos h (by norm_num) (by norm_num) maxDouble_lt le_rfl
  simp only [wjaccardO, List.map_cons, List.map_nil, wjaccard, loop, finPair, XF.isnan_fin, Bool.or_self, Bool.false_eq_true, if_false, stdMin_fin, stdMax_fin,
    min_self, max_self, XF.add_fin, a]
  rfl

end Ufunclab.Wjaccard

/-! ### Non-vacuity: doubles of ordinary size -/
namespace Ufunclab.Float
open Ufunclab.Vnorm
variable {rd : ℝ → ℝ}

theorem natDouble (k : ℕ) (hk : k < 2 ^ 53) : IsFloat 53 (-1074) (k : ℝ) := ⟨k, 0, by simpa using hk, by norm_num, by simp⟩

theorem million_le_maxDouble : (1000000 : ℝ) ≤ maxDouble :=
  le_trans (le_trans (by norm_num : (1000000 : ℝ) ≤ 2 ^ (20 : ℤ)) (zpow_le_zpow_right₀ (by norm_num) (by norm_num))) maxDouble_ge

example : ∃ rd : ℝ → ℝ, Nearest 53 (-1074) rd := exists_nearest (by norm_num) _

/-- The dot product of (1, 2, ..., 10) with itself. -/
example (h : Nearest 53 (-1074) rd) : ∃ r, (vdot (fun a => (⟨.fin ((a : ℝ) / 8 + 1)⟩ : Fo rd maxDouble)) 8 0 8 0 8 10).val = .fin r ∧ |r - 385| ≤ 1 / 10 ^ 10 := by
  have hx : ∀ i < 10, (get (fun a => (⟨.fin ((a : ℝ) / 8 + 1)⟩ : Fo rd maxDouble)) 0 8 i).val = .fin ((i : ℝ) + 1) := by
    intro i _
    show XF.fin (((0 + (i : ℤ) * 8 : ℤ) : ℝ) / 8 + 1) = _
    congr 2; push_cast; ring
  have hη : (2 : ℝ) ^ (-1074 : ℤ) ≤ 1 / 10 ^ 15 := le_trans (zpow_le_zpow_right₀ (by norm_num) (by norm_num : (-1074 : ℤ) ≤ -50)) (by norm_num [zpow_neg])
  have hη0 : (0 : ℝ) < 2 ^ (-1074 : ℤ) := by positivity
  have e1 : ∑ i ∈ Finset.range 10, |((i : ℝ) + 1) * ((i : ℝ) + 1)| = 385 := by norm_num [Finset.sum_range_succ]
  have e2 : ∑ i ∈ Finset.range 10, ((i : ℝ) + 1) * ((i : ℝ) + 1) = 385 := by norm_num [Finset.sum_range_succ]
  obtain ⟨r, hr, hb⟩ := C85_vdot_in_range h (by norm_num) isFloat_maxDouble 10 (by norm_num) _ 8 0 8 0 8 (fun i => (i : ℝ) + 1) (fun i => (i : ℝ) + 1) hx hx (by
    rw [e1]
    refine le_trans ?_ million_le_maxDouble
    generalize (2 : ℝ) ^ (-1074 : ℤ) = η at *
    norm_num at *; linarith)
  rw [e1, e2] at hb
  refine ⟨r, hr, hb.trans ?_⟩
  generalize (2 : ℝ) ^ (-1074 : ℤ) = η at *
  norm_num at *; linarith

/-- kbnsum of (1, 2, 3). -/
example (h : Nearest 53 (-1074) rd) (m : Mem (XF ℝ)) (hx : elems m 0 8 3 = [.fin 1, .fin 2, .fin 3]) :
    Kbnsum.kbnsum (ov rd maxDouble) m 0 8 8 3 = Kbnsum.kbnsum (Kbnsum.rnd rd) m 0 8 8 3 := by
  refine Kbnsum.C85_kbnsum_in_range h (by norm_num) isFloat_maxDouble m 0 8 8 [1, 2, 3] (by norm_num) ?_ hx ?_
  · intro x hx
    simp only [List.mem_cons, List.not_mem_nil, or_false] at hx
    rcases hx with rfl | rfl | rfl
    · simpa using natDouble 1 (by norm_num)
    · simpa using natDouble 2 (by norm_num)
    · simpa using natDouble 3 (by norm_num)
  · refine le_trans ?_ million_le_maxDouble
    norm_num

/-- wjaccard of (1, 5) and (2, 4). -/
example (h : Nearest 53 (-1074) rd) : Wjaccard.wjaccardO rd maxDouble ([(1, 2), (5, 4)].map Wjaccard.finPair) =
    Wjaccard.wjaccard (Wjaccard.rounded rd XF.add) (Wjaccard.rounded rd XF.div) ([(1, 2), (5, 4)].map Wjaccard.finPair) := by
  refine Wjaccard.C85_wjaccard_in_range h (by norm_num) (by norm_num) isFloat_maxDouble (le_trans (by norm_num) million_le_maxDouble) _ (by norm_num) ?_ ?_
  · intro q hq
    simp only [List.mem_cons, List.not_mem_nil, or_false] at hq
    rcases hq with rfl | rfl
    · exact ⟨⟨by norm_num, by simpa using natDouble 1 (by norm_num)⟩, by norm_num, by simpa using natDouble 2 (by norm_num)⟩
    · exact ⟨⟨by norm_num, by simpa using natDouble 5 (by norm_num)⟩, by norm_num, by simpa using natDouble 4 (by norm_num)⟩
  · refine le_trans ?_ million_le_maxDouble
    norm_num

/-- rms of one number 3. -/
example (h : Nearest 53 (-1074) rd) : ∃ r, (rms (rmsFinO rd maxDouble) (fun _ => ⟨.fin 3⟩) 8 0 8 (-8) 1 (-8)).val = .fin r ∧ |r - 3| ≤ 1 / 10 ^ 14 := by
  have hη : (2 : ℝ) ^ (-1074 : ℤ) ≤ 1 / 10 ^ 40 := le_trans (zpow_le_zpow_right₀ (by norm_num) (by norm_num : (-1074 : ℤ) ≤ -150)) (by norm_num [zpow_neg])
  have hη0 : (0 : ℝ) < 2 ^ (-1074 : ℤ) := by positivity
  have e2 : (2 : ℝ) ^ (53 : ℕ) ≤ maxDouble :=
    le_trans (le_trans (by norm_num : (2 : ℝ) ^ (53 : ℕ) ≤ 2 ^ (60 : ℤ)) (zpow_le_zpow_right₀ (by norm_num) (by norm_num))) maxDouble_ge
  obtain ⟨r, hr, -, hb⟩ := C85_rms_in_range h (by norm_num) (by norm_num) isFloat_maxDouble e2 1 le_rfl (by norm_num) (fun _ => (⟨.fin 3⟩ : Fo rd maxDouble))
    8 0 8 (-8) (by intro i _; omega) (fun _ => 3) (fun _ _ => rfl) (by
      refine le_trans ?_ million_le_maxDouble
      generalize (2 : ℝ) ^ (-1074 : ℤ) = η at *
      norm_num at *; linarith)
  refine ⟨r, hr, ?_⟩
  have e9 : (∑ i ∈ Finset.range 1, (3 : ℝ) ^ 2) = 9 := by norm_num
  have e3 : Real.sqrt (9 / ((1 : ℕ) : ℝ)) = 3 := by
    rw [show (9 : ℝ) / ((1 : ℕ) : ℝ) = 3 ^ 2 by norm_num]; exact Real.sqrt_sq (by norm_num)
  rw [e9, e3] at hb
  refine (hb ?_).trans ?_
  · generalize (2 : ℝ) ^ (-1074 : ℤ) = η at *
    norm_num at *; linarith
  · norm_num

end Ufunclab.Float
