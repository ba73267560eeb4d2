import Verif.Spec.Overlap
import Verif.Proof.Threads
import Mathlib.Tactic.Ring
import Mathlib.Tactic.NormNum
/-!
# C120: elementwise functions with `out=` and in pieces

The result of an elementwise function does not depend on where the output is, on which arguments it is also, on the pieces in which NumPy passes the
arrays, nor on their order.
-/
namespace Ufunclab.Overlap
open Threads
variable {α : Type}

/-- The address of element `j + 1` counted from the next element. -/
theorem next (p s : Int) (j : Nat) : p + s + (j : Int) * s = p + ((j + 1 : Nat) : Int) * s := by push_cast; ring

theorem ufuncLoop_other (f : List α → α) (n : Nat) (args : List (Int × Int)) (pout so : Int) (m : Mem α) (a : Int) (h : ∀ j : Nat, j < n → a ≠ pout + (j : Int) * so) :
    ufuncLoop f n args pout so m a = m a := by
  induction n generalizing args pout m with
  | zero => rfl
  | succ n ih =>
    rw [ufuncLoop, ih]
    · simp only [Mem.store]
      rw [if_neg]
      simpa using h 0 (by omega)
    · intro j hj
      rw [next]
      exact h (j + 1) (by omega)

/-- C120: if no element of an argument is in a cell that is written before the element is read, every element of the result is the function of the original
elements, and nothing else is written. -/
theorem C120_values (f : List α → α) (n : Nat) (args : List (Int × Int)) (pout so : Int) (m : Mem α) (hso : so ≠ 0)
    (h : ∀ q ∈ args, ∀ i j : Nat, i < j → j < n → q.1 + (j : Int) * q.2 ≠ pout + (i : Int) * so) :
    (∀ j : Nat, j < n → ufuncLoop f n args pout so m (pout + (j : Int) * so) = f (args.map fun q => m (q.1 + (j : Int) * q.2))) ∧
    ∀ a, (∀ j : Nat, j < n → a ≠ pout + (j : Int) * so) → ufuncLoop f n args pout so m a = m a := by
  refine ⟨?_, fun a ha => ufuncLoop_other f n args pout so m a ha⟩
  induction n generalizing args pout m with
  | zero => intro j hj; omega
  | succ n ih =>
    intro j hj
    rw [ufuncLoop]
    cases j with
    | zero =>
      rw [ufuncLoop_other]
      · simp [Mem.store]
      · intro i hi he
        rw [next] at he
        have : ((i + 1 : Nat) : Int) * so = 0 := by push_cast at he ⊢; omega
        rcases Int.mul_eq_zero.mp this with h | h
        · omega
        · exact hso h
    | succ j =>
      rw [← next, ih]
      · rw [List.map_map]
        congr 1
        refine List.map_congr_left fun q hq => ?_
        simp only [Function.comp, next, Mem.store]
        rw [if_neg]
        have := h q hq 0 (j + 1) (by omega) (by omega)
        simpa using this
      · intro q hq i k hik hk
        obtain ⟨q', hq', rfl⟩ := List.mem_map.mp hq
        simp only [next]
        exact h q' hq' (i + 1) (k + 1) (by omega) (by omega)
      · omega

/-- C120: with NumPy's rule for overlapping arguments the result is the function of the elements that the arguments had before the call, whatever views of one
another the arguments and the output are. -/
theorem C120_out (f : List α → α) (n : Nat) (xs args : List (Int × Int)) (out : Int × Int) (m : Mem α) (hso : out.2 ≠ 0)
    (hargs : List.Forall₂ (Prepared m n out) xs args) :
    (∀ j : Nat, j < n → ufuncLoop f n args out.1 out.2 m (out.1 + (j : Int) * out.2) = f (xs.map fun q => m (q.1 + (j : Int) * q.2))) ∧
    ∀ a, (∀ j : Nat, j < n → a ≠ out.1 + (j : Int) * out.2) → ufuncLoop f n args out.1 out.2 m a = m a := by
  have hinj : ∀ i j : Nat, out.1 + (j : Int) * out.2 = out.1 + (i : Int) * out.2 → i = j := by
    intro i j he
    have : (j : Int) * out.2 = (i : Int) * out.2 := by omega
    have := Int.eq_of_mul_eq_mul_right hso this
    omega
  have hcond : ∀ q ∈ args, ∀ i j : Nat, i < j → j < n → q.1 + (j : Int) * q.2 ≠ out.1 + (i : Int) * out.2 := by
    clear f
    induction hargs with
    | nil => simp
    | cons hp _ ih =>
      intro q hq i j hij hj he
      rcases List.mem_cons.mp hq with rfl | hq
      · rcases hp with ⟨rfl, rfl | hns⟩ | ⟨hns, -⟩
        · have := hinj i j he
          omega
        · exact hns ⟨j, i, hj, by omega, he⟩
        · exact hns ⟨j, i, hj, by omega, he⟩
      · exact ih q hq i j hij hj he
  obtain ⟨h1, h2⟩ := C120_values f n args out.1 out.2 m hso hcond
  refine ⟨fun j hj => ?_, h2⟩
  rw [h1 j hj]
  congr 1
  clear h1 h2 hcond
  induction hargs with
  | nil => rfl
  | cons hp _ ih =>
    rw [List.map_cons, List.map_cons, ih]
    congr 1
    rcases hp with ⟨rfl, -⟩ | ⟨-, hv⟩
    · rfl
    · exact hv j hj

/-- C120: `f(x, out=x)`, `f(x, y, out=x)`, ...: arguments that are the output or do not share memory with it need no copy. -/
theorem C120_inplace (f : List α → α) (n : Nat) (xs : List (Int × Int)) (out : Int × Int) (m : Mem α) (hso : out.2 ≠ 0)
    (hx : ∀ x ∈ xs, x = out ∨ ¬ Shares n x out) (j : Nat) (hj : j < n) :
    ufuncLoop f n xs out.1 out.2 m (out.1 + (j : Int) * out.2) = f (xs.map fun q => m (q.1 + (j : Int) * q.2)) := by
  refine (C120_out f n xs xs out m hso ?_).1 j hj
  clear f hj
  induction xs with
  | nil => exact .nil
  | cons x xs ih => exact .cons (Or.inl ⟨rfl, hx x (by simp)⟩) (ih fun y hy => hx y (by simp [hy]))

/-- C120: a loop over `a + b` elements is a loop over the first `a` and then one over the other `b`. -/
theorem C120_split (f : List α → α) (a b : Nat) (args : List (Int × Int)) (pout so : Int) (m : Mem α) :
    ufuncLoop f (a + b) args pout so m =
      ufuncLoop f b (args.map fun q => (q.1 + (a : Int) * q.2, q.2)) (pout + (a : Int) * so) so (ufuncLoop f a args pout so m) := by
  induction a generalizing args pout m with
  | zero => simp [ufuncLoop]
  | succ a ih =>
    rw [show a + 1 + b = (a + b) + 1 by omega, ufuncLoop, ih, ufuncLoop, List.map_map, next]
    congr 1
    refine List.map_congr_left fun q _ => ?_
    simp only [Function.comp, next]

/-- NumPy runs the loop on pieces of the given lengths, one after the other. -/
def pieces (f : List α → α) : List Nat → (args : List (Int × Int)) → (pout so : Int) → Mem α → Mem α
  | [], _, _, _, m => m
  | c :: cs, args, pout, so, m =>
    pieces f cs (args.map fun q => (q.1 + (c : Int) * q.2, q.2)) (pout + (c : Int) * so) so (ufuncLoop f c args pout so m)

/-- C120: the pieces do not matter. -/
theorem C120_pieces (f : List α → α) (cs : List Nat) (args : List (Int × Int)) (pout so : Int) (m : Mem α) :
    pieces f cs args pout so m = ufuncLoop f cs.sum args pout so m := by
  induction cs generalizing args pout m with
  | nil => rfl
  | cons c cs ih => rw [pieces, ih, List.sum_cons, C120_split]

/-- C120: NumPy may run through the arrays from the other end; the memory after the call is the same. -/
theorem C120_reversed (f : List α → α) (n : Nat) (xs : List (Int × Int)) (out : Int × Int) (m : Mem α) (hso : out.2 ≠ 0)
    (hx : ∀ x ∈ xs, x = out ∨ ¬ Shares n x out) :
    ufuncLoop f n (xs.map fun q => (q.1 + ((n : Int) - 1) * q.2, -q.2)) (out.1 + ((n : Int) - 1) * out.2) (-out.2) m = ufuncLoop f n xs out.1 out.2 m := by
  have hflip : ∀ (p s : Int) (j : Nat), j < n → p + ((n : Int) - 1) * s + (j : Int) * -s = p + ((n - 1 - j : Nat) : Int) * s := by
    intro p s j hj
    rw [show ((n - 1 - j : Nat) : Int) = (n : Int) - 1 - j by omega]
    ring
  have hx' : ∀ x ∈ xs.map fun q : Int × Int => (q.1 + ((n : Int) - 1) * q.2, -q.2),
      x = (out.1 + ((n : Int) - 1) * out.2, -out.2) ∨ ¬ Shares n x (out.1 + ((n : Int) - 1) * out.2, -out.2) := by
    intro x h
    obtain ⟨q, hq, rfl⟩ := List.mem_map.mp h
    rcases hx q hq with rfl | hns
    · exact Or.inl rfl
    · refine Or.inr ?_
      rintro ⟨i, j, hi, hj, he⟩
      simp only [hflip _ _ _ hi, hflip _ _ _ hj] at he
      exact hns ⟨_, _, by omega, by omega, he⟩
  funext a
  by_cases ha : ∃ j : Nat, j < n ∧ a = out.1 + (j : Int) * out.2
  · obtain ⟨j, hj, rfl⟩ := ha
    rw [C120_inplace f n xs out m hso hx j hj]
    have := C120_inplace f n _ (out.1 + ((n : Int) - 1) * out.2, -out.2) m (by simpa using hso) hx' (n - 1 - j) (by omega)
    rw [hflip _ _ _ (by omega), show n - 1 - (n - 1 - j) = j by omega] at this
    rw [this, List.map_map]
    congr 1
    refine List.map_congr_left fun q _ => ?_
    simp only [Function.comp, hflip _ _ _ (show n - 1 - j < n by omega), show n - 1 - (n - 1 - j) = j by omega]
  · have h1 : ∀ j : Nat, j < n → a ≠ out.1 + (j : Int) * out.2 := fun j hj h => ha ⟨j, hj, h⟩
    rw [ufuncLoop_other f n xs _ _ m a h1, ufuncLoop_other]
    intro j hj
    rw [hflip _ _ _ hj]
    exact h1 _ (by omega)

/-- The copy is needed: `f(x[:-1], out=x[1:])` without it gives other results, here for `x = [5, 6, 7]`. -/
theorem C120_copy_needed : ∃ (f : List Int → Int) (m : Mem Int),
    ufuncLoop f 2 [(0, 8)] 8 8 m (8 + 1 * 8) ≠ f ([(0, 8)].map fun q : Int × Int => m (q.1 + 1 * q.2)) :=
  ⟨fun v => v.sum, fun a => 5 + a / 8, by decide⟩

/-- Two arguments, the second of which is the output; and an output shifted by one with the copy at 100. -/
example : (∀ x ∈ [((0 : Int), (8 : Int)), (100, 16)], x = (100, 16) ∨ ¬ Shares 3 x (100, 16)) := by
  intro x hx
  rcases List.mem_cons.mp hx with rfl | hx
  · right
    rintro ⟨i, j, hi, hj, h⟩
    simp only at h
    omega
  · left
    simpa using hx

example : List.Forall₂ (Prepared (fun a : Int => if a < 100 then a else a - 100) 3 (8, 8)) [(0, 8)] [(100, 8)] := by
  refine List.Forall₂.cons (Or.inr ⟨?_, ?_⟩) List.Forall₂.nil
  · rintro ⟨i, j, hi, hj, h⟩
    simp only at h
    omega
  · intro j hj
    simp only
    rw [if_neg (by omega), if_pos (by omega)]
    omega

end Ufunclab.Overlap
