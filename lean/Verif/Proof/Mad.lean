import Verif.Model.Mad
import Verif.Spec.Mad
import Verif.Proof.XF
import Mathlib.Data.List.Sort
import Mathlib.Algebra.BigOperators.Group.List.Lemmas
import Mathlib.Algebra.BigOperators.Ring.List
import Mathlib.Algebra.Order.BigOperators.Group.List
import Mathlib.Tactic.Ring
import Mathlib.Tactic.Linarith
import Mathlib.Tactic.FieldSimp
import Mathlib.Tactic.Positivity
namespace Ufunclab.Mad
open Spec
variable {K : Type _} [Field K] [LinearOrder K] [IsStrictOrderedRing K]

omit [IsStrictOrderedRing K] in
theorem sum_map_add' {α : Type _} (l : List α) (f g : α → K) :
    (l.map (fun a => f a + g a)).sum = (l.map f).sum + (l.map g).sum := by
  induction l with
  | nil => simp
  | cons a l ih => simp only [List.map_cons, List.sum_cons, ih]; ring

theorem pairSum_cons (a : K) (l : List K) :
    pairSum (a :: l) = pairSum l + 2 * (l.map (fun b => |a - b|)).sum := by
  have h : (l.map (fun c => |c - a| + (l.map (fun b => |c - b|)).sum)).sum =
      (l.map (fun b => |a - b|)).sum + pairSum l := by
    rw [sum_map_add', pairSum]
    congr 2
    apply List.map_congr_left; intro b _; exact abs_sub_comm b a
  simp only [pairSum, List.map_cons, List.sum_cons, sub_self, abs_zero, zero_add]
  rw [h, pairSum]; ring

theorem pairSum_perm {x y : List K} (h : x.Perm y) : pairSum x = pairSum y := by
  unfold pairSum
  have h1 : ∀ a : K, (x.map (fun b => |a - b|)).sum = (y.map (fun b => |a - b|)).sum :=
    fun a => (h.map _).sum_eq
  simp only [h1]
  exact (h.map _).sum_eq

theorem sum_abs_last (pre : List K) (t : K) (h : ∀ a ∈ pre, a ≤ t) :
    (pre.map (fun b => |t - b|)).sum = (pre.length : K) * t - pre.sum := by
  induction pre with
  | nil => simp
  | cons a l ih =>
    have ha := h a (by simp)
    simp only [List.map_cons, List.sum_cons, List.length_cons, ih (fun b hb => h b (by simp [hb])),
      abs_of_nonneg (sub_nonneg.2 ha)]
    push_cast; ring

theorem scan_spec (ts pre : List K) (sum : K) (h : (pre ++ ts).Pairwise (· ≤ ·))
    (hs : 2 * sum = pairSum pre) :
    2 * (scan pre.length sum pre.sum ts).1 = pairSum (pre ++ ts) ∧
    (scan pre.length sum pre.sum ts).2 = (pre ++ ts).sum := by
  induction ts generalizing pre sum with
  | nil => simpa [scan] using hs
  | cons t ts ih =>
    have hle : ∀ a ∈ pre, a ≤ t := by
      intro a ha
      exact (List.pairwise_append.1 h).2.2 a ha t (by simp)
    have := ih (pre ++ [t]) (sum + ((pre.length : K) * t - pre.sum)) (by simpa using h) (by
      rw [pairSum_perm (List.perm_append_comm : (pre ++ [t]).Perm ([t] ++ pre)), List.singleton_append,
        pairSum_cons, sum_abs_last pre t hle, ← hs]; ring)
    simp only [List.append_assoc, List.singleton_append, List.length_append, List.length_cons,
      List.length_nil, List.sum_append, List.sum_cons, List.sum_nil, add_zero, Nat.zero_add] at this
    simp only [scan]
    simpa using this

theorem unnormalizedMad_spec (x : List K) :
    2 * (unnormalizedMad x).1 = pairSum x ∧ (unnormalizedMad x).2 = x.sum := by
  have hperm : (sort x).Perm x := List.mergeSort_perm x _
  have hsorted : (sort x).Pairwise (· ≤ ·) := by
    have := List.pairwise_mergeSort (le := fun a b : K => decide (a ≤ b))
      (by intro a b c h1 h2; simp at *; exact le_trans h1 h2)
      (by intro a b; simp; exact le_total a b) x
    exact this.imp (by intro a b h; simpa using h)
  rw [← pairSum_perm hperm, ← hperm.sum_eq]
  unfold unnormalizedMad
  cases hs : sort x with
  | nil => simp [pairSum]
  | cons t ts =>
    rw [hs] at hsorted
    have := scan_spec ts [t] 0 (by simpa using hsorted) (by simp [pairSum])
    simpa using this

theorem pairSum_nonneg (x : List K) : 0 ≤ pairSum x := by
  apply List.sum_nonneg
  intro y hy
  obtain ⟨a, _, rfl⟩ := List.mem_map.1 hy
  apply List.sum_nonneg
  intro z hz
  obtain ⟨b, _, rfl⟩ := List.mem_map.1 hz
  exact abs_nonneg _

theorem pairSum_eq_zero (x : List K) : pairSum x = 0 ↔ ∀ a ∈ x, ∀ b ∈ x, a = b := by
  constructor
  · intro h a ha b hb
    have h1 : ∀ y ∈ x.map (fun a => (x.map (fun b => |a - b|)).sum), 0 ≤ y := by
      intro y hy
      obtain ⟨a, _, rfl⟩ := List.mem_map.1 hy
      apply List.sum_nonneg
      intro z hz
      obtain ⟨b, _, rfl⟩ := List.mem_map.1 hz
      exact abs_nonneg _
    have h2 : (x.map (fun b => |a - b|)).sum ≤ pairSum x :=
      List.single_le_sum h1 _ (List.mem_map_of_mem (f := fun a => (x.map (fun b => |a - b|)).sum) ha)
    have h3 : |a - b| ≤ (x.map (fun b => |a - b|)).sum :=
      List.single_le_sum (by
        intro z hz; obtain ⟨b, _, rfl⟩ := List.mem_map.1 hz; exact abs_nonneg _) _
        (List.mem_map_of_mem (f := fun b => |a - b|) hb)
    have h4 : |a - b| = 0 := le_antisymm (by linarith) (abs_nonneg _)
    linarith [abs_eq_zero.1 h4]
  · intro h
    unfold pairSum
    apply List.sum_eq_zero
    intro y hy
    obtain ⟨a, ha, rfl⟩ := List.mem_map.1 hy
    apply List.sum_eq_zero
    intro z hz
    obtain ⟨b, hb, rfl⟩ := List.mem_map.1 hz
    rw [h a ha b hb]; simp

theorem pairSum_le (x : List K) (hnn : ∀ a ∈ x, 0 ≤ a) :
    pairSum x + 2 * x.sum ≤ 2 * (x.length : K) * x.sum := by
  induction x with
  | nil => simp [pairSum]
  | cons a l ih =>
    have ha := hnn a (by simp)
    have hl : ∀ b ∈ l, 0 ≤ b := fun b hb => hnn b (by simp [hb])
    have h1 : (l.map (fun b => |a - b|)).sum ≤ (l.length : K) * a + l.sum := by
      clear ih hnn
      induction l with
      | nil => simp
      | cons b l ih =>
        have hb := hl b (by simp)
        have h3 : |a - b| ≤ a + b := by rw [abs_le]; constructor <;> linarith
        have := ih (fun c hc => hl c (by simp [hc]))
        simp only [List.map_cons, List.sum_cons, List.length_cons]; push_cast
        linarith
    have h2 := ih hl
    rw [pairSum_cons]
    simp only [List.sum_cons, List.length_cons]; push_cast
    linarith [h1, h2]

theorem pairSum_smul (c : K) (hc : 0 ≤ c) (x : List K) :
    pairSum (x.map (c * ·)) = c * pairSum x := by
  unfold pairSum
  rw [List.map_map]
  have : ∀ a, (((x.map (c * ·))).map (fun b => |c * a - b|)).sum = c * (x.map (fun b => |a - b|)).sum := by
    intro a
    rw [List.map_map, ← List.sum_map_mul_left]
    congr 1
    apply List.map_congr_left; intro b _
    simp only [Function.comp]
    rw [← mul_sub, abs_mul, abs_of_nonneg hc]
  rw [← List.sum_map_mul_left]
  congr 1
  apply List.map_congr_left; intro a _
  exact this a

end Ufunclab.Mad
