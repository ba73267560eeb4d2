import Verif.Proof.OneHot
/-! # Property C08: one_hot -/
namespace Ufunclab.OneHot

open Classical in
theorem zeroed (n : Nat) (p s : Int) (mo : Mem Int) (b : Int) :
    (if s = sizeofT then memsetZero p n mo else zeroLoop p s n 0 mo) b =
      if ∃ j < n, b = p + (j : Int) * s then 0 else mo b := by
  by_cases hs : s = sizeofT
  · rw [if_pos hs, memsetZero_apply, hs]
  · rw [if_neg hs, zeroLoop_apply]; simp

/-- C08: for every length, every integer `x` (negative or too large
included), every non-zero stride (contiguous or not) and every previous
contents: element `j` of the output is 1 if `j = x` and 0 otherwise. -/
theorem C08_one_hot (n : Nat) (x p s : Int) (mo : Mem Int) (hs : s ≠ 0) (j : Nat) (hj : j < n) :
    get (core n x p s mo) p s j = if (j : Int) = x then 1 else 0 := by
  unfold core get
  have h0 : ∃ i < n, p + (j : Int) * s = p + (i : Int) * s := ⟨j, hj, rfl⟩
  by_cases hx : 0 ≤ x ∧ x < (n : Int)
  · simp only [if_pos hx]
    by_cases hjx : (j : Int) = x
    · rw [← hjx]; simp
    · rw [if_neg hjx, Mem.store_other, zeroed, if_pos h0]
      intro h
      have : (j : Int) * s = x * s := by omega
      exact hjx (Int.eq_of_mul_eq_mul_right hs this)
  · simp only [if_neg hx]
    rw [zeroed, if_pos h0, if_neg]
    omega

/-- C08, the whole output as a list. -/
theorem C08_one_hot_list (n : Nat) (x p s : Int) (mo : Mem Int) (hs : s ≠ 0) :
    elems (core n x p s mo) p s n = (List.range n).map (fun j : Nat => if (j : Int) = x then 1 else 0) := by
  apply List.map_congr_left
  intro j hj
  exact C08_one_hot n x p s mo hs j (by simpa using hj)

/-- C08: nothing outside the output view is written (any stride, any `x`). -/
theorem C08_frame (n : Nat) (x p s : Int) (mo : Mem Int) (b : Int)
    (hb : ∀ j < n, b ≠ p + (j : Int) * s) : core n x p s mo b = mo b := by
  have h0 : ¬ ∃ i < n, b = p + (i : Int) * s := by rintro ⟨i, hi, e⟩; exact hb i hi e
  unfold core
  by_cases hx : 0 ≤ x ∧ x < (n : Int)
  · simp only [if_pos hx]
    rw [Mem.store_other, zeroed, if_neg h0]
    have := hb x.toNat (by omega)
    rwa [show ((x.toNat : Nat) : Int) = x by omega] at this
  · simp only [if_neg hx]
    rw [zeroed, if_neg h0]

/-- C08: the sum of the output is 1 if `0 ≤ x < n` and 0 otherwise. -/
theorem C08_sum (n : Nat) (x p s : Int) (mo : Mem Int) (hs : s ≠ 0) :
    (elems (core n x p s mo) p s n).sum = if 0 ≤ x ∧ x < (n : Int) then 1 else 0 := by
  rw [C08_one_hot_list n x p s mo hs]
  induction n with
  | zero => simp
  | succ n ih =>
    rw [List.range_succ, List.map_append, List.sum_append, ih]
    simp only [List.map_cons, List.map_nil, List.sum_cons, List.sum_nil]
    split <;> split <;> split <;> omega

/-! ### Non-vacuity: contiguous and reversed outputs, garbage before -/
example : elems (core 4 2 1000 8 (fun _ => 55)) 1000 8 4 = [0, 0, 1, 0] := by decide
example : elems (core 4 2 1000 (-24) (fun _ => 55)) 1000 (-24) 5 = [0, 0, 1, 0, 55] := by decide
example : elems (core 3 (-1) 1000 16 (fun _ => 55)) 1000 16 3 = [0, 0, 0] := by decide

end Ufunclab.OneHot
