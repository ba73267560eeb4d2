import Verif.Model.Cross
import Verif.Proof.Mem
import Mathlib.Tactic.Ring
import Mathlib.Tactic.LinearCombination
import Mathlib.Algebra.Ring.Int.Defs
/-! # Property C43: cross3 and cross2 -/
namespace Ufunclab.Cross
variable {α : Type _}

theorem set3 (m : Mem α) (po os : Int) (hos : os ≠ 0) (a b c : α) :
    get (set (set (set m po os 0 a) po os 1 b) po os 2 c) po os 0 = a ∧
    get (set (set (set m po os 0 a) po os 1 b) po os 2 c) po os 1 = b ∧
    get (set (set (set m po os 0 a) po os 1 b) po os 2 c) po os 2 = c := by
  have e2 : ((2 : Nat) : Int) * os = os + os := by push_cast; ring
  refine ⟨?_, ?_, ?_⟩ <;> simp only [get, set, Mem.store, Nat.cast_zero, Nat.cast_one, Int.zero_mul, Int.one_mul, e2]
  · rw [if_neg (by omega), if_neg (by omega), if_pos trivial]
  · rw [if_neg (by omega), if_pos trivial]
  · rw [if_pos trivial]

/-- C43, law-free: the three outputs (whatever the overlap of `out` with `u` and `v`)
and nothing else is written. -/
theorem C43_cross3_formula [Mul α] [Sub α] (m : Mem α) (pu us pv vs po os : Int) (hos : os ≠ 0) :
    let u := fun i => get m pu us i
    let v := fun i => get m pv vs i
    let m' := cross3 m pu us pv vs po os
    get m' po os 0 = u 1 * v 2 - u 2 * v 1 ∧ get m' po os 1 = u 2 * v 0 - u 0 * v 2 ∧
    get m' po os 2 = u 0 * v 1 - u 1 * v 0 ∧
    ∀ b, (∀ i : Nat, i < 3 → b ≠ po + (i : Int) * os) → m' b = m b := by
  intro u v m'
  obtain ⟨a, b, c⟩ := set3 m po os hos (u 1 * v 2 - u 2 * v 1) (u 2 * v 0 - u 0 * v 2) (u 0 * v 1 - u 1 * v 0)
  refine ⟨a, b, c, ?_⟩
  intro b hb
  simp only [m', cross3, set]
  rw [Mem.store_other _ _ (hb 2 (by omega)), Mem.store_other _ _ (hb 1 (by omega)),
    Mem.store_other _ _ (hb 0 (by omega))]

/-- C43: over any commutative ring, `w = cross3(u, v)` is orthogonal to `u` and `v` and
satisfies the Lagrange identity. -/
theorem C43_cross3_geometry [CommRing α] (m : Mem α) (pu us pv vs po os : Int) (hos : os ≠ 0) :
    let u := fun i => get m pu us i
    let v := fun i => get m pv vs i
    let w := fun i => get (cross3 m pu us pv vs po os) po os i
    let dot := fun a b : Nat → α => a 0 * b 0 + a 1 * b 1 + a 2 * b 2
    dot u w = 0 ∧ dot v w = 0 ∧ dot w w + dot u v ^ 2 = dot u u * dot v v := by
  intro u v w dot
  obtain ⟨h0, h1, h2, _⟩ := C43_cross3_formula m pu us pv vs po os hos
  have e0 : w 0 = u 1 * v 2 - u 2 * v 1 := h0
  have e1 : w 1 = u 2 * v 0 - u 0 * v 2 := h1
  have e2 : w 2 = u 0 * v 1 - u 1 * v 0 := h2
  simp only [dot, e0, e1, e2]
  refine ⟨by ring, by ring, by ring⟩

/-- C43: anticommutative: swapping the arguments negates every component. -/
theorem C43_cross3_anticomm [CommRing α] (m : Mem α) (pu us pv vs po os : Int) (hos : os ≠ 0) :
    ∀ i < 3, get (cross3 m pv vs pu us po os) po os i = - get (cross3 m pu us pv vs po os) po os i := by
  obtain ⟨h0, h1, h2, _⟩ := C43_cross3_formula m pu us pv vs po os hos
  obtain ⟨k0, k1, k2, _⟩ := C43_cross3_formula m pv vs pu us po os hos
  intro i hi
  rcases (by omega : i = 0 ∨ i = 1 ∨ i = 2) with rfl | rfl | rfl
  · rw [h0, k0]; ring
  · rw [h1, k1]; ring
  · rw [h2, k2]; ring

/-- C43: the object version computes the same three expressions when no Python
operation raises. -/
theorem C43_object_agrees [Mul α] [Sub α] (m : Mem α) (pu us pv vs po os : Int) :
    cross3Object (fun a b => some (a * b)) (fun a b => some (a - b)) m pu us pv vs po os =
      (cross3 m pu us pv vs po os, false) ∧
    cross2Object (fun a b => some (a * b)) (fun a b => some (a - b)) m pu us pv vs =
      some (cross2 m pu us pv vs) := ⟨rfl, rfl⟩

/-- C43: if any Python operation raises, no output element is written. -/
theorem C43_object_error (mul sub : α → α → Option α) (m : Mem α) (pu us pv vs po os : Int)
    (h : (cross3Object mul sub m pu us pv vs po os).2 = true) :
    (cross3Object mul sub m pu us pv vs po os).1 = m := by
  revert h
  simp only [cross3Object]
  cases det2 mul sub (get m pu us 1) (get m pu us 2) (get m pv vs 1) (get m pv vs 2) with
  | none => intro _; rfl
  | some a =>
    cases det2 mul sub (get m pu us 2) (get m pu us 0) (get m pv vs 2) (get m pv vs 0) with
    | none => intro _; rfl
    | some b =>
      cases det2 mul sub (get m pu us 0) (get m pu us 1) (get m pv vs 0) (get m pv vs 1) with
      | none => intro _; rfl
      | some c => intro h; simp at h

/-- C43: an exception is reported exactly when one of the six products or three
differences raises. -/
theorem C43_object_error_iff (mul sub : α → α → Option α) (m : Mem α) (pu us pv vs po os : Int) :
    let u := fun i => get m pu us i
    let v := fun i => get m pv vs i
    let fails := fun a b c d : α => mul a d = none ∨ mul b c = none ∨
      ∃ p q, mul a d = some p ∧ mul b c = some q ∧ sub p q = none
    (cross3Object mul sub m pu us pv vs po os).2 = true ↔
      fails (u 1) (u 2) (v 1) (v 2) ∨ fails (u 2) (u 0) (v 2) (v 0) ∨ fails (u 0) (u 1) (v 0) (v 1) := by
  intro u v fails
  have hdet : ∀ a b c d, det2 mul sub a b c d = none ↔ fails a b c d := by
    intro a b c d
    simp only [det2, fails]
    cases mul a d <;> cases mul b c <;> simp
  rw [← hdet, ← hdet, ← hdet]
  simp only [cross3Object, u, v]
  cases det2 mul sub (get m pu us 1) (get m pu us 2) (get m pv vs 1) (get m pv vs 2) with
  | none => simp
  | some a =>
    cases det2 mul sub (get m pu us 2) (get m pu us 0) (get m pv vs 2) (get m pv vs 0) with
    | none => simp
    | some b =>
      cases det2 mul sub (get m pu us 0) (get m pu us 1) (get m pv vs 0) (get m pv vs 1) with
      | none => simp
      | some c => simp

/-- C43: cross2 is the 2x2 determinant, anticommutative, and
`cross2(u,v)^2 + (u.v)^2 = |u|^2 |v|^2`. -/
theorem C43_cross2 [CommRing α] (m : Mem α) (pu us pv vs : Int) :
    let u := fun i => get m pu us i
    let v := fun i => get m pv vs i
    cross2 m pu us pv vs = u 0 * v 1 - u 1 * v 0 ∧
    cross2 m pv vs pu us = - cross2 m pu us pv vs ∧
    cross2 m pu us pv vs ^ 2 + (u 0 * v 0 + u 1 * v 1) ^ 2 =
      (u 0 ^ 2 + u 1 ^ 2) * (v 0 ^ 2 + v 1 ^ 2) := by
  intro u v
  refine ⟨rfl, ?_, ?_⟩ <;> simp only [cross2, u, v] <;> ring

/-! ### Non-vacuity: u = (1,0,0), v = (0,1,0), out overlapping u -/
example : let m : Mem Int := fun a => if a = 0 ∨ a = 32 then 1 else 0
    let m' := cross3 m 0 8 24 8 0 8
    (get m' 0 8 0, get m' 0 8 1, get m' 0 8 2) = (0, 0, 1) := by decide

end Ufunclab.Cross
