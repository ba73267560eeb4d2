import Verif.Spec.Fixed
import Verif.Spec.FloatOrder
import Verif.Proof.Float2
import Verif.Model.Kbnsum
import Verif.Model.VnormRound
import Verif.Model.Cross
import Verif.Model.Signal
import Verif.Model.Wjaccard
import Verif.Props.Bincount
import Verif.Props.Vnorm
import Verif.Props.ScaleSignal
import Mathlib.Algebra.BigOperators.Intervals
/-!
# C112: integer data in floating point give exact results

`p` is the precision and `2^emin` the least number of the format; the data are multiples of `2^e`
and the sum of the absolute values is at most `2^p * 2^e` (for integers in double: `2^53`).
-/
namespace Ufunclab.Float
variable {K : Type _} [Field K] [LinearOrder K] [IsStrictOrderedRing K]

theorem Fixed.grid {e : ℤ} {x : K} (h : Fixed e x) : OnGrid e x := h

theorem Fixed.add {e : ℤ} {x y : K} (hx : Fixed e x) (hy : Fixed e y) : Fixed e (x + y) := OnGrid.add hx hy
theorem Fixed.sub {e : ℤ} {x y : K} (hx : Fixed e x) (hy : Fixed e y) : Fixed e (x - y) := OnGrid.sub hx hy
theorem Fixed.zero {e : ℤ} : Fixed e (0 : K) := ⟨0, by simp⟩

theorem round_fixed {p : ℕ} {emin e : ℤ} {rd : K → K} (hp : 1 ≤ p) (he : emin ≤ e) (h : Nearest p emin rd) {x : K}
    (hx : Fixed e x) (hb : |x| ≤ 2 ^ p * 2 ^ e) : rd x = x :=
  h.exact (isFloat_of_grid hp he hx hb)

/-- `2^p + 1` is not a number of the format. -/
theorem not_isFloat_succ (p : ℕ) (hp : 1 ≤ p) (emin : ℤ) : ¬ IsFloat p emin ((2 : K) ^ p + 1) := by
  rintro ⟨m, e, hm, -, he⟩
  rcases le_or_gt e 0 with h0 | h0
  · have h1 : (2 : K) ^ e ≤ 1 := zpow_le_one_of_nonpos₀ (by norm_num) h0
    have h2 : |(m : K)| < 2 ^ p := by
      have : ((|m| : ℤ) : K) < ((2 ^ p : ℤ) : K) := by exact_mod_cast hm
      push_cast at this
      exact this
    have h3 : (m : K) * 2 ^ e ≤ |(m : K)| := by
      calc (m : K) * 2 ^ e ≤ |(m : K)| * 2 ^ e := mul_le_mul_of_nonneg_right (le_abs_self _) (two_zpow_pos e).le
        _ ≤ |(m : K)| * 1 := mul_le_mul_of_nonneg_left h1 (abs_nonneg _)
        _ = _ := mul_one _
    linarith
  · obtain ⟨d, rfl⟩ : ∃ d : ℕ, e = (d : ℤ) + 1 := ⟨(e - 1).toNat, by omega⟩
    obtain ⟨q, rfl⟩ : ∃ q : ℕ, p = q + 1 := ⟨p - 1, by omega⟩
    have h1 : (2 : ℤ) ^ (q + 1) + 1 = m * 2 ^ (d + 1) := by
      have : (((2 : ℤ) ^ (q + 1) + 1 : ℤ) : K) = ((m * 2 ^ (d + 1) : ℤ) : K) := by
        push_cast
        rw [he]; norm_cast
      exact_mod_cast this
    have h2 : (2 : ℤ) ∣ 1 := by
      have a : (2 : ℤ) ∣ m * 2 ^ (d + 1) := Dvd.dvd.mul_left (dvd_pow_self 2 (by omega)) m
      have b : (2 : ℤ) ∣ 2 ^ (q + 1) := dvd_pow_self 2 (by omega)
      rw [← h1] at a
      exact (Int.dvd_add_right b).1 a
    omega

end Ufunclab.Float

namespace Ufunclab.Kbnsum
open Ufunclab.Float
variable {K : Type _} [Field K] [LinearOrder K] [IsStrictOrderedRing K] {p : ℕ} {emin e : ℤ} {rd : K → K}

theorem push_fixed (hp : 1 ≤ p) (he : emin ≤ e) (h : Nearest p emin rd) {a x : K} (ha : Fixed e a) (hx : Fixed e x)
    (hb : |a| + |x| ≤ 2 ^ p * 2 ^ e) : push (rnd rd) (.fin a, .fin 0) (.fin x) = (.fin (a + x), .fin 0) := by
  have h1 : rd (a + x) = a + x := round_fixed hp he h (ha.add hx) ((abs_add_le _ _).trans hb)
  have h0 : rd 0 = 0 := round_fixed hp he h (Fixed.zero (e := e)) (by rw [abs_zero]; exact mul_nonneg (by positivity) (two_zpow_pos e).le)
  have h2 : rd (-x) = -x := round_fixed hp he h (OnGrid.neg hx) (by rw [abs_neg]; linarith [abs_nonneg a])
  have h3 : rd (-a) = -a := round_fixed hp he h (OnGrid.neg ha) (by rw [abs_neg]; linarith [abs_nonneg x])
  have e1 : a - (a + x) = -x := by ring
  have e2 : x - (a + x) = -a := by ring
  simp only [push, fadd, fsub, XF.add, XF.sub, XF.neg, rnd, h1, ← sub_eq_add_neg, e1, e2, h2, h3, neg_add_cancel, h0, add_zero, ite_self]

theorem loop_fixed (hp : 1 ≤ p) (he : emin ≤ e) (h : Nearest p emin rd) (m : Mem (XF K)) (ptr stride w : Int) (x : ℕ → K) (n : ℕ)
    (hm : ∀ k < n, get m ptr stride k = .fin (x k)) (hx : ∀ k < n, Fixed e (x k)) : ∀ fuel k a, k + fuel ≤ n → Fixed e a →
    |a| + ∑ i ∈ Finset.range fuel, |x (k + i)| ≤ 2 ^ p * 2 ^ e →
    loop (rnd rd) m ptr stride w fuel k (.fin a, .fin 0) = .fin (a + ∑ i ∈ Finset.range fuel, x (k + i)) := by
  intro fuel
  induction fuel with
  | zero =>
    intro k a _ ha hb
    rw [Finset.sum_range_zero, add_zero] at hb
    simp only [loop, fadd, XF.add, rnd, Finset.sum_range_zero, add_zero, round_fixed hp he h ha hb]
  | succ f ih =>
    intro k a hk ha hb
    rw [Finset.sum_range_succ', add_zero] at hb
    have e1 : ∀ g : ℕ → K, ∑ i ∈ Finset.range f, g (k + (i + 1)) = ∑ i ∈ Finset.range f, g (k + 1 + i) :=
      fun g => Finset.sum_congr rfl fun i _ => by rw [show k + (i + 1) = k + 1 + i by omega]
    rw [e1 fun i => |x i|] at hb
    have hs : 0 ≤ ∑ i ∈ Finset.range f, |x (k + 1 + i)| := Finset.sum_nonneg fun _ _ => abs_nonneg _
    have hk' : k < n := by omega
    rw [loop, hm k hk', push_fixed hp he h ha (hx k hk') (by linarith)]
    simp only [XF.isnan, XF.isinf, Bool.false_eq_true, if_false]
    rw [ih (k + 1) (a + x k) (by omega) (ha.add (hx k hk')) (by linarith [abs_add_le a (x k)]), Finset.sum_range_succ', add_zero, e1 x]
    congr 1; ring

/-- C112: `kbnsum` of fixed-point data is the exact sum. -/
theorem C112_kbnsum (hp : 1 ≤ p) (he : emin ≤ e) (h : Nearest p emin rd) (m : Mem (XF K)) (ptr stride w : Int) (n : ℕ) (x : ℕ → K)
    (hm : ∀ k < n, get m ptr stride k = .fin (x k)) (hx : ∀ k < n, Fixed e (x k))
    (hb : ∑ k ∈ Finset.range n, |x k| ≤ 2 ^ p * 2 ^ e) :
    kbnsum (rnd rd) m ptr stride w n = .fin (∑ k ∈ Finset.range n, x k) := by
  have := loop_fixed hp he h m ptr stride w x n hm hx n 0 0 (by omega) Fixed.zero (by simpa using hb)
  simpa [kbnsum] using this

/-- C112, the bound on the sum is needed: the data are integers, of absolute value at most `2^p`, and
the sum `2^p + 1` is not a number of the format. -/
theorem C112_bound_violated (hp : 1 ≤ p) (h : Nearest p emin rd) (w : Int) :
    ∃ m : Mem (XF K), get m 0 1 0 = .fin (2 ^ p) ∧ get m 0 1 1 = .fin 1 ∧ kbnsum (rnd rd) m 0 1 w 2 ≠ .fin (2 ^ p + 1) := by
  refine ⟨fun a => if a = 0 then .fin (2 ^ p) else .fin 1, by simp [get], by simp [get], ?_⟩
  intro hc
  have : kbnsum (rnd rd) (fun a => if a = 0 then .fin (2 ^ p) else .fin 1) 0 1 w 2 = .fin (2 ^ p + 1) → IsFloat p emin ((2 : K) ^ p + 1) := by
    intro hk
    rw [kbnsum, loop, loop, loop] at hk
    simp only [get, push, fadd, fsub, XF.add, XF.sub, XF.neg, XF.isnan, XF.isinf, rnd, Bool.false_eq_true, if_false,
      Nat.cast_zero, zero_mul, add_zero, if_true, Nat.zero_add, Nat.cast_one, one_mul, zero_add, one_ne_zero] at hk
    split_ifs at hk <;>
    · simp only [rnd, XF.add, XF.fin.injEq] at hk
      rw [← hk]; exact (h _).1
  exact not_isFloat_succ p hp emin (this hc)

example {rd : ℝ → ℝ} (h : Nearest 53 (-1074) rd) (w : Int) :
    kbnsum (rnd rd) (fun a => if a = 0 then .fin 3 else if a = -8 then .fin (-5) else .fin (2 ^ 40)) 0 (-8) w 3 = .fin (2 ^ 40 - 2) := by
  rw [C112_kbnsum (e := 0) (by norm_num) (by norm_num) h _ 0 (-8) w 3 (fun k => if k = 0 then 3 else if k = 1 then -5 else 2 ^ 40)]
  · simp [Finset.sum_range_succ]; norm_num
  · intro k hk; interval_cases k <;> simp [get]
  · intro k hk; interval_cases k
    · exact ⟨3, by norm_num⟩
    · exact ⟨-5, by norm_num⟩
    · exact ⟨2 ^ 40, by norm_num⟩
  · simp [Finset.sum_range_succ]; norm_num

end Ufunclab.Kbnsum

namespace Ufunclab.Vnorm
open Ufunclab.Float
variable {p : ℕ} {emin e : ℤ} {rd : ℝ → ℝ}

theorem dotLoop_fixed (hp : 1 ≤ p) (he : emin ≤ e) (h : Nearest p emin rd) (m : Mem (Fl rd)) (px sx py sy : Int) (n : ℕ)
    (hx : ∀ k < n, Fixed e ((get m px sx k).val * (get m py sy k).val)) : ∀ fuel k (v : Fl rd), k + fuel ≤ n → Fixed e v.val →
    |v.val| + ∑ i ∈ Finset.range fuel, |(get m px sx (k + i : ℕ)).val * (get m py sy (k + i : ℕ)).val| ≤ 2 ^ p * 2 ^ e →
    (dotLoop m px sx py sy fuel k v).val =
      v.val + ∑ i ∈ Finset.range fuel, (get m px sx (k + i : ℕ)).val * (get m py sy (k + i : ℕ)).val := by
  intro fuel
  induction fuel with
  | zero => intro k v _ _ _; simp [dotLoop]
  | succ f ih =>
    intro k v hk hv hb
    rw [Finset.sum_range_succ', add_zero] at hb
    have e1 : ∀ g : ℕ → ℝ, ∑ i ∈ Finset.range f, g (k + (i + 1)) = ∑ i ∈ Finset.range f, g (k + 1 + i) :=
      fun g => Finset.sum_congr rfl fun i _ => by rw [show k + (i + 1) = k + 1 + i by omega]
    rw [e1 fun i => |(get m px sx i).val * (get m py sy i).val|] at hb
    have hs : 0 ≤ ∑ i ∈ Finset.range f, |(get m px sx (k + 1 + i : ℕ)).val * (get m py sy (k + 1 + i : ℕ)).val| :=
      Finset.sum_nonneg fun _ _ => abs_nonneg _
    have hk' : k < n := by omega
    have r1 := round_fixed hp he h (hx k hk') (by linarith [abs_nonneg v.val])
    have r2 := round_fixed hp he h (hv.add (hx k hk')) (by linarith [abs_add_le v.val ((get m px sx k).val * (get m py sy k).val)])
    have e2 : (v + get m px sx k * get m py sy k).val = v.val + (get m px sx k).val * (get m py sy k).val := by
      show rd (v.val + rd (_ * _)) = _
      rw [r1, r2]
    rw [dotLoop, ih (k + 1) _ (by omega) (by rw [e2]; exact hv.add (hx k hk'))
      (by rw [e2]; linarith [abs_add_le v.val ((get m px sx k).val * (get m py sy k).val)]), e2, Finset.sum_range_succ', add_zero,
      e1 fun i => (get m px sx i).val * (get m py sy i).val]
    ring

/-- C112: `vdot` is the exact inner product. -/
theorem C112_vdot (hp : 1 ≤ p) (he : emin ≤ e) (h : Nearest p emin rd) (m : Mem (Fl rd)) (w px sx py sy : Int) (n : ℕ)
    (hx : ∀ k < n, Fixed e ((get m px sx k).val * (get m py sy k).val))
    (hb : ∑ k ∈ Finset.range n, |(get m px sx k).val * (get m py sy k).val| ≤ 2 ^ p * 2 ^ e) :
    (vdot m w px sx py sy n).val = ∑ k ∈ Finset.range n, (get m px sx k).val * (get m py sy k).val := by
  have := dotLoop_fixed hp he h m px sx py sy n hx n 0 0 (by omega) Fixed.zero (by
    show |(0 : ℝ)| + _ ≤ _
    simpa using hb)
  rw [vdot_eq_loop, this]
  show (0 : ℝ) + _ = _
  simp

/-- The hypotheses hold for quarters: `3/4 * 1/4 + 1/2 * 5/4` (products in sixteenths). -/
example {rd : ℝ → ℝ} (h : Nearest 53 (-1074) rd) (w : Int) :
    (vdot (fun a : Int => (⟨if a = 0 then 3/4 else if a = 1 then 1/2 else if a = 2 then 1/4 else 5/4⟩ : Fl rd)) w 0 1 2 1 2).val = 13/16 := by
  rw [C112_vdot (e := -4) (by norm_num) (by norm_num) h]
  · simp [Finset.sum_range_succ, get]; norm_num
  · intro k hk; interval_cases k
    · exact ⟨3, by simp [get]; norm_num⟩
    · exact ⟨10, by simp [get]; norm_num⟩
  · simp [Finset.sum_range_succ, get]; norm_num

theorem sumSq_eq_dot (m : Mem (Fl rd)) (ptr stride : Int) : ∀ fuel k v,
    sumSqLoop m ptr stride fuel k v = dotLoop m ptr stride ptr stride fuel k v := by
  intro fuel
  induction fuel with
  | zero => intro k v; rfl
  | succ f ih => intro k v; rw [sumSqLoop, dotLoop]; exact ih _ _

/-- C112: in `rms` only the division and the square root round. -/
theorem C112_rms (hp : 1 ≤ p) (he : emin ≤ e) (h : Nearest p emin rd) (m : Mem (Fl rd)) (w ptr stride out : Int) (n : ℕ)
    (hout : ∀ i < n, ptr + (i : Int) * stride ≠ out) (hx : ∀ k < n, Fixed e ((get m ptr stride k).val ^ 2))
    (hb : ∑ k ∈ Finset.range n, (get m ptr stride k).val ^ 2 ≤ 2 ^ p * 2 ^ e) (hn : rd n = n) :
    (rms (rmsFin rd) m w ptr stride out n out).val =
      rd (Real.sqrt (rd ((∑ k ∈ Finset.range n, (get m ptr stride k).val ^ 2) / n))) := by
  have h1 := dotLoop_fixed hp he h m ptr stride ptr stride n (by simpa only [pow_two] using hx) n 0 0 (by omega) Fixed.zero (by
    show |(0 : ℝ)| + _ ≤ _
    simp only [abs_zero, zero_add, abs_mul_self]
    simpa only [pow_two] using hb)
  rw [show ((0 : Fl rd).val) = 0 from rfl] at h1
  rw [C42_rms_store (rmsFin rd) m w ptr stride out n hout, List.range_eq_range', ← sumSqLoop_foldl, sumSq_eq_dot]
  simp only [Mem.store, if_true, rmsFin, h1, hn, zero_add, pow_two]

end Ufunclab.Vnorm

namespace Ufunclab.Cross
open Ufunclab.Float
variable {p : ℕ} {emin e : ℤ} {rd : ℝ → ℝ}

theorem det_fixed (hp : 1 ≤ p) (he : emin ≤ e) (h : Nearest p emin rd) (a b c d : Fl rd) (h1 : Fixed e (a.val * d.val))
    (h2 : Fixed e (b.val * c.val)) (hb : |a.val * d.val| + |b.val * c.val| ≤ 2 ^ p * 2 ^ e) :
    (a * d - b * c).val = a.val * d.val - b.val * c.val := by
  show rd (rd (a.val * d.val) - rd (b.val * c.val)) = _
  rw [round_fixed hp he h h1 (by linarith [abs_nonneg (b.val * c.val)]), round_fixed hp he h h2 (by linarith [abs_nonneg (a.val * d.val)]),
    round_fixed hp he h (h1.sub h2) ((abs_sub _ _).trans hb)]

/-- C112: the cross product of vectors with two elements is exact. -/
theorem C112_cross2 (hp : 1 ≤ p) (he : emin ≤ e) (h : Nearest p emin rd) (m : Mem (Fl rd)) (pu us pv vs : Int) (u v : ℕ → ℝ)
    (hu : ∀ i < 2, (get m pu us i).val = u i) (hv : ∀ i < 2, (get m pv vs i).val = v i)
    (hg : ∀ i < 2, ∀ j < 2, Fixed e (u i * v j)) (hb : ∀ i < 2, ∀ j < 2, |u i * v j| + |u j * v i| ≤ 2 ^ p * 2 ^ e) :
    (cross2 m pu us pv vs).val = u 0 * v 1 - u 1 * v 0 := by
  have e0 := hu 0 (by omega); have e1 := hu 1 (by omega)
  have f0 := hv 0 (by omega); have f1 := hv 1 (by omega)
  rw [cross2, det_fixed hp he h _ _ _ _ (by rw [e0, f1]; exact hg _ (by omega) _ (by omega)) (by rw [e1, f0]; exact hg _ (by omega) _ (by omega))
    (by rw [e0, e1, f0, f1]; exact hb _ (by omega) _ (by omega)), e0, e1, f0, f1]

/-- C112: the cross product of vectors with three elements is exact. -/
theorem C112_cross3 (hp : 1 ≤ p) (he : emin ≤ e) (h : Nearest p emin rd) (m : Mem (Fl rd)) (pu us pv vs po os : Int) (hos : os ≠ 0) (u v : ℕ → ℝ)
    (hu : ∀ i < 3, (get m pu us i).val = u i) (hv : ∀ i < 3, (get m pv vs i).val = v i)
    (hg : ∀ i < 3, ∀ j < 3, Fixed e (u i * v j)) (hb : ∀ i < 3, ∀ j < 3, |u i * v j| + |u j * v i| ≤ 2 ^ p * 2 ^ e) :
    (elems (cross3 m pu us pv vs po os) po os 3).map Fl.val =
      [u 1 * v 2 - u 2 * v 1, u 2 * v 0 - u 0 * v 2, u 0 * v 1 - u 1 * v 0] := by
  have e0 := hu 0 (by omega); have e1 := hu 1 (by omega); have e2 := hu 2 (by omega)
  have f0 := hv 0 (by omega); have f1 := hv 1 (by omega); have f2 := hv 2 (by omega)
  have key : ∀ (a b c d : Fl rd) (i j : ℕ), i < 3 → j < 3 → a.val = u i → d.val = v j → b.val = u j → c.val = v i →
      (a * d - b * c).val = u i * v j - u j * v i := by
    intro a b c d i j hi hj ha hd hb' hc
    rw [det_fixed hp he h _ _ _ _ (by rw [ha, hd]; exact hg _ hi _ hj) (by rw [hb', hc]; exact hg _ hj _ hi)
      (by rw [ha, hd, hb', hc]; exact hb _ hi _ hj), ha, hd, hb', hc]
  have d01 : os * 0 ≠ os * 1 := by intro hh; apply hos; omega
  have n1 : po + os ≠ po := by omega
  have n2 : po + 2 * os ≠ po := by omega
  have n3 : po + 2 * os ≠ po + os := by omega
  have l : elems (cross3 m pu us pv vs po os) po os 3 =
      [get m pu us 1 * get m pv vs 2 - get m pu us 2 * get m pv vs 1,
       get m pu us 2 * get m pv vs 0 - get m pu us 0 * get m pv vs 2,
       get m pu us 0 * get m pv vs 1 - get m pu us 1 * get m pv vs 0] := by
    simp only [elems, List.range_succ, List.range_zero, List.nil_append, List.cons_append, List.map_cons, List.map_nil]
    simp [cross3, set, Mem.store, get, n1, n1.symm, n2.symm, n3.symm]
  rw [l]
  simp only [List.map_cons, List.map_nil]
  rw [key _ _ _ _ 1 2 (by omega) (by omega) e1 f2 e2 f1, key _ _ _ _ 2 0 (by omega) (by omega) e2 f0 e0 f2,
    key _ _ _ _ 0 1 (by omega) (by omega) e0 f1 e1 f0]

end Ufunclab.Cross

namespace Ufunclab.Wjaccard
open Ufunclab.Float
variable {K : Type _} [Field K] [LinearOrder K] [IsStrictOrderedRing K] {p : ℕ} {emin e : ℤ} {rd : K → K}

theorem stdMin_fin_exact (a b : K) : stdMin (XF.fin a) (.fin b) = .fin (min a b) := by
  simp only [stdMin, XF.lt]
  rcases lt_or_ge b a with h | h
  · simp [h, min_eq_right h.le]
  · simp [not_lt.2 h, min_eq_left h]

theorem stdMax_fin_exact (a b : K) : stdMax (XF.fin a) (.fin b) = .fin (max a b) := by
  simp only [stdMax, XF.lt]
  rcases lt_or_ge a b with h | h
  · simp [h, max_eq_right h.le]
  · simp [not_lt.2 h, max_eq_left h]

theorem loop_fixed (hp : 1 ≤ p) (he : emin ≤ e) (h : Nearest p emin rd) : ∀ (l : List (K × K)) (a b : K), Fixed e a → Fixed e b →
    (∀ q ∈ l, Fixed e q.1 ∧ Fixed e q.2) → |a| + (l.map fun q => |min q.1 q.2|).sum ≤ 2 ^ p * 2 ^ e →
    |b| + (l.map fun q => |max q.1 q.2|).sum ≤ 2 ^ p * 2 ^ e →
    loop (rounded rd XF.add) (.fin a) (.fin b) (l.map fun q => (.fin q.1, .fin q.2)) =
      some (.fin (a + (l.map fun q => min q.1 q.2).sum), .fin (b + (l.map fun q => max q.1 q.2).sum))
  | [], a, b, _, _, _, _, _ => by simp [loop]
  | (x, y) :: l, a, b, ha, hb, hl, h1, h2 => by
    simp only [List.map_cons, List.sum_cons] at h1 h2
    have hx := hl _ List.mem_cons_self
    have g1 : Fixed e (min x y) := by rcases min_choice x y with h | h <;> rw [h]; exacts [hx.1, hx.2]
    have g2 : Fixed e (max x y) := by rcases max_choice x y with h | h <;> rw [h]; exacts [hx.1, hx.2]
    have s1 : 0 ≤ (l.map fun q => |min q.1 q.2|).sum := List.sum_nonneg (by simp only [List.mem_map]; rintro _ ⟨q, _, rfl⟩; exact abs_nonneg _)
    have s2 : 0 ≤ (l.map fun q => |max q.1 q.2|).sum := List.sum_nonneg (by simp only [List.mem_map]; rintro _ ⟨q, _, rfl⟩; exact abs_nonneg _)
    have b1 := abs_add_le a (min x y)
    have b2 := abs_add_le b (max x y)
    have r1 : rounded rd XF.add (.fin a) (stdMin (.fin x) (.fin y)) = .fin (a + min x y) := by
      rw [stdMin_fin_exact]; simp only [rounded, XF.add]; rw [round_fixed hp he h (ha.add g1) (by linarith)]
    have r2 : rounded rd XF.add (.fin b) (stdMax (.fin x) (.fin y)) = .fin (b + max x y) := by
      rw [stdMax_fin_exact]; simp only [rounded, XF.add]; rw [round_fixed hp he h (hb.add g2) (by linarith)]
    rw [List.map_cons, loop, r1, r2]
    simp only [XF.isnan, Bool.or_self, Bool.false_eq_true, if_false]
    rw [loop_fixed hp he h l _ _ (ha.add g1) (hb.add g2) (fun q hq => hl q (List.mem_cons_of_mem _ hq)) (by linarith) (by linarith)]
    simp only [List.map_cons, List.sum_cons, add_assoc]

/-- C112: `wjaccard` is the exact quotient, rounded once. -/
theorem C112_wjaccard (hp : 1 ≤ p) (he : emin ≤ e) (h : Nearest p emin rd) (l : List (K × K)) (hn : l ≠ [])
    (hl : ∀ q ∈ l, Fixed e q.1 ∧ Fixed e q.2) (h1 : (l.map fun q => |min q.1 q.2|).sum ≤ 2 ^ p * 2 ^ e)
    (h2 : (l.map fun q => |max q.1 q.2|).sum ≤ 2 ^ p * 2 ^ e) (hd : (l.map fun q => max q.1 q.2).sum ≠ 0) :
    wjaccard (rounded rd XF.add) (rounded rd XF.div) (l.map fun q => (XF.fin q.1, .fin q.2)) =
      .fin (rd ((l.map fun q => min q.1 q.2).sum / (l.map fun q => max q.1 q.2).sum)) := by
  obtain _ | ⟨⟨x, y⟩, l⟩ := l
  · exact absurd rfl hn
  · simp only [List.map_cons, List.sum_cons] at h1 h2 hd ⊢
    have hx := hl _ List.mem_cons_self
    have g1 : Fixed e (min x y) := by rcases min_choice x y with h | h <;> rw [h]; exacts [hx.1, hx.2]
    have g2 : Fixed e (max x y) := by rcases max_choice x y with h | h <;> rw [h]; exacts [hx.1, hx.2]
    rw [wjaccard, stdMin_fin_exact, stdMax_fin_exact, loop_fixed hp he h l _ _ g1 g2 (fun q hq => hl q (List.mem_cons_of_mem _ hq)) h1 h2]
    simp [XF.isnan, XF.eq, hd, XF.div, rounded]

example {rd : ℝ → ℝ} (h : Nearest 53 (-1074) rd) :
    wjaccard (rounded rd XF.add) (rounded rd XF.div) [(XF.fin 1, .fin 2), (.fin 5, .fin 1)] = .fin (rd (2 / 7)) := by
  have := C112_wjaccard (e := 0) (by norm_num) (by norm_num) h [((1 : ℝ), (2 : ℝ)), (5, 1)] (by simp)
    (by simp only [List.mem_cons, List.not_mem_nil, or_false]
        rintro q (rfl | rfl)
        · exact ⟨⟨1, by norm_num⟩, ⟨2, by norm_num⟩⟩
        · exact ⟨⟨5, by norm_num⟩, ⟨1, by norm_num⟩⟩) (by norm_num) (by norm_num) (by norm_num)
  norm_num at this
  exact this

end Ufunclab.Wjaccard

namespace Ufunclab.Signal
open Ufunclab.Float
variable {p : ℕ} {emin e : ℤ} {rd : ℝ → ℝ}

theorem step_fixed (hp : 1 ≤ p) (he : emin ≤ e) (h : Nearest p emin rd) (b y x : Fl rd) (hb : Fixed e b.val) (hx : Fixed e x.val)
    (hs : |x.val| + |b.val| ≤ 2 ^ p * 2 ^ e) : (backlashStep b y x).val = backlashStep b.val y.val x.val := by
  have e1 : (x - b).val = x.val - b.val := round_fixed hp he h (hx.sub hb) ((abs_sub _ _).trans hs)
  have e2 : (x + b).val = x.val + b.val := round_fixed hp he h (hx.add hb) ((abs_add_le _ _).trans hs)
  have l1 : y < x - b ↔ y.val < x.val - b.val := by rw [← e1]; rfl
  have l2 : x + b < y ↔ x.val + b.val < y.val := by rw [← e2]; rfl
  simp only [backlashStep, l1, l2]
  by_cases c1 : y.val < x.val - b.val
  · simp only [c1, if_true, e1]
  · by_cases c2 : x.val + b.val < y.val
    · simp only [c1, c2, if_true, if_false, e2]
    · simp only [c1, c2, if_false]

theorem loop_fixed (hp : 1 ≤ p) (he : emin ≤ e) (h : Nearest p emin rd) (b : Fl rd) (hb : Fixed e b.val) : ∀ (l : List (Fl rd)) (y : Fl rd),
    (∀ x ∈ l, Fixed e x.val) → (∀ x ∈ l, |x.val| + |b.val| ≤ 2 ^ p * 2 ^ e) →
    (backlashLoop b y l).map Fl.val = backlashLoop b.val y.val (l.map Fl.val)
  | [], _, _, _ => rfl
  | x :: l, y, hx, hs => by
    have := step_fixed hp he h b y x hb (hx x List.mem_cons_self) (hs x List.mem_cons_self)
    simp only [backlashLoop, List.map_cons]
    rw [loop_fixed hp he h b hb l _ (fun z hz => hx z (List.mem_cons_of_mem _ hz)) (fun z hz => hs z (List.mem_cons_of_mem _ hz)), this]

/-- C112: `backlash` does not round: the outputs are those of exact arithmetic.  The initial value
is arbitrary. -/
theorem C112_backlash (hp : 1 ≤ p) (he : emin ≤ e) (h : Nearest p emin rd) (deadband initial : Fl rd) (xs : List (Fl rd))
    (hd : Fixed e (deadband.val / 2)) (hx : ∀ x ∈ xs, Fixed e x.val) (hb : |deadband.val / 2| ≤ 2 ^ p * 2 ^ e)
    (hs : ∀ x ∈ xs, |x.val| + |deadband.val / 2| ≤ 2 ^ p * 2 ^ e) :
    (backlash deadband initial xs).map Fl.val = backlash deadband.val initial.val (xs.map Fl.val) := by
  have e1 : (deadband / 2).val = deadband.val / 2 := round_fixed hp he h hd hb
  have := loop_fixed hp he h (deadband / 2) (by rw [e1]; exact hd) xs initial hx (by rw [e1]; exact hs)
  rw [e1] at this
  exact this

end Ufunclab.Signal

namespace Ufunclab.Bincount
open Ufunclab.Float
variable {p : ℕ} {emin e : ℤ} {rd : ℝ → ℝ}

theorem foldl_fixed (hp : 1 ≤ p) (he : emin ≤ e) (h : Nearest p emin rd) : ∀ (l : List (Fl rd)) (a : Fl rd), Fixed e a.val →
    (∀ w ∈ l, Fixed e w.val) → |a.val| + (l.map fun w => |w.val|).sum ≤ 2 ^ p * 2 ^ e →
    (l.foldl (· + ·) a).val = a.val + (l.map Fl.val).sum
  | [], a, _, _, _ => by simp
  | w :: l, a, ha, hw, hb => by
    simp only [List.map_cons, List.sum_cons] at hb
    have g := hw w List.mem_cons_self
    have s1 : 0 ≤ (l.map fun w => |w.val|).sum := List.sum_nonneg (by simp only [List.mem_map]; rintro _ ⟨q, _, rfl⟩; exact abs_nonneg _)
    have b1 := abs_add_le a.val w.val
    have e1 : (a + w).val = a.val + w.val := round_fixed hp he h (ha.add g) (by linarith)
    rw [List.foldl_cons, foldl_fixed hp he h l _ (by rw [e1]; exact ha.add g) (fun v hv => hw v (List.mem_cons_of_mem _ hv)) (by rw [e1]; linarith), e1,
      List.map_cons, List.sum_cons, add_assoc]

/-- C112: with fixed-point weights every output of `bincount` is the exact sum of its old value and
the weights of its bin. -/
theorem C112_bincount (hp : 1 ≤ p) (he : emin ≤ e) (h : Nearest p emin rd) (n m : ℕ) (mx : Mem Int) (mw : Mem (Fl rd))
    (px sx pw sw po so : Int) (mo : Mem (Fl rd)) (hso : so ≠ 0) (hx : ∀ k ∈ elems mx px sx n, k < 2 ^ 63) (j : ℕ) (hj : j < m)
    (ho : Fixed e (get mo po so j).val) (hw : ∀ w ∈ elems mw pw sw n, Fixed e w.val)
    (hb : |(get mo po so j).val| + ((elems mw pw sw n).map fun w => |w.val|).sum ≤ 2 ^ p * 2 ^ e) :
    (get (coreW m mx mw px sx pw sw po so n 0 mo) po so j).val =
      (get mo po so j).val + ((((elems mx px sx n).zip (elems mw pw sw n)).filter fun kw => kw.1 == (j : Int)).map fun kw => kw.2.val).sum := by
  rw [(C12_weighted n m mx mw px sx pw sw po so mo hso hx).1 j hj, foldl_fixed hp he h _ _ ho]
  · rw [List.map_map]; rfl
  · simp only [List.mem_map, List.mem_filter]
    rintro _ ⟨q, ⟨hq, _⟩, rfl⟩
    exact hw _ (List.of_mem_zip hq).2
  · refine le_trans ?_ hb
    gcongr
    have hsub : (((((elems mx px sx n).zip (elems mw pw sw n)).filter fun kw => kw.1 == (j : Int)).map Prod.snd).Sublist (elems mw pw sw n)) := by
      refine (List.filter_sublist.map _).trans ?_
      rw [List.map_snd_zip (by simp [elems])]
    exact (hsub.map _).sum_le_sum (by simp only [List.mem_map]; rintro _ ⟨q, _, rfl⟩; exact abs_nonneg _)

end Ufunclab.Bincount
