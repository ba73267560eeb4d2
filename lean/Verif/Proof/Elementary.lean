import Verif.Model.Elementary
import Verif.Proof.Mem
import Verif.Proof.XF
import Mathlib.Tactic.Ring
import Mathlib.Tactic.Linarith
/-! # Helper lemmas for the elementary functions -/
namespace Ufunclab.Elementary
variable {α : Type _} [Add α] [Mul α]

theorem realContig_eq (sz pin pout : Int) (n i : Nat) (m : Mem α) :
    abssqRealContig sz pin pout n i m =
      abssqRealStrided sz sz n (pin + (i : Int) * sz) (pout + (i : Int) * sz) m := by
  induction n generalizing i m with
  | zero => rfl
  | succ n ih =>
    have e : ∀ q : Int, q + ((i + 1 : Nat) : Int) * sz = q + (i : Int) * sz + sz := by
      intro q; push_cast; ring
    simp only [abssqRealContig, abssqRealStrided, ih, e, set, get]

theorem complexContig_eq (sz pin pout : Int) (n i : Nat) (m : Mem α) :
    abssqComplexContig sz pin pout n i m =
      abssqComplexStrided sz (2 * sz) sz n (pin + (i : Int) * (2 * sz)) (pout + (i : Int) * sz) m := by
  induction n generalizing i m with
  | zero => rfl
  | succ n ih =>
    have e : ∀ q : Int, q + ((i + 1 : Nat) : Int) * sz = q + (i : Int) * sz + sz := by
      intro q; push_cast; ring
    have e2 : pin + ((i + 1 : Nat) : Int) * (2 * sz) = pin + (i : Int) * (2 * sz) + 2 * sz := by
      push_cast; ring
    have e3 : pin + ((2 * i : Nat) : Int) * sz = pin + (i : Int) * (2 * sz) := by push_cast; ring
    have e4 : pin + ((2 * i + 1 : Nat) : Int) * sz = pin + (i : Int) * (2 * sz) + sz := by push_cast; ring
    simp only [abssqComplexContig, abssqComplexStrided, ih, e, e2, set, get, e3, e4]

theorem abssqReal_eq (sz : Int) (n : Nat) (pin is pout os : Int) (m : Mem α) :
    abssqReal sz n pin is pout os m = abssqRealStrided is os n pin pout m := by
  unfold abssqReal
  split
  next h => obtain ⟨rfl, rfl⟩ := h; rw [realContig_eq]; simp
  · rfl

theorem abssqComplex_eq (sz : Int) (n : Nat) (pin is pout os : Int) (m : Mem α) :
    abssqComplex sz n pin is pout os m = abssqComplexStrided sz is os n pin pout m := by
  unfold abssqComplex
  split
  next h => obtain ⟨rfl, rfl⟩ := h; rw [complexContig_eq]; simp
  · rfl

theorem realStrided_frame (is os : Int) (n : Nat) (pin pout : Int) (m : Mem α) (b : Int)
    (h : ∀ i < n, b ≠ pout + (i : Int) * os) : abssqRealStrided is os n pin pout m b = m b := by
  induction n generalizing pin pout m with
  | zero => rfl
  | succ n ih =>
    rw [abssqRealStrided, ih, Mem.store_other]
    · simpa using h 0 (by omega)
    · intro i hi hb
      apply h (i + 1) (by omega)
      rw [hb]; push_cast; ring

theorem realStrided_get (is os : Int) (hos : os ≠ 0) (n : Nat) (pin pout : Int) (m : Mem α)
    (h : ∀ i j, i < j → j < n → pout + (i : Int) * os ≠ pin + (j : Int) * is) (j : Nat) (hj : j < n) :
    get (abssqRealStrided is os n pin pout m) pout os j = get m pin is j * get m pin is j := by
  induction n generalizing pin pout m j with
  | zero => omega
  | succ n ih =>
    rw [abssqRealStrided]
    cases j with
    | zero =>
      simp only [get, Nat.cast_zero, zero_mul, add_zero]
      rw [realStrided_frame, Mem.store_same]
      intro i hi hb
      have hz : ((i + 1 : Nat) : Int) * os = 0 := by push_cast; linarith
      rcases Int.mul_eq_zero.mp hz with h0 | h0
      · omega
      · exact hos h0
    | succ j =>
      have e : ∀ q s : Int, q + ((j + 1 : Nat) : Int) * s = q + s + (j : Int) * s := by
        intro q s; push_cast; ring
      have hne : pin + is + (j : Int) * is ≠ pout := by
        have := h 0 (j + 1) (by omega) hj
        rw [e pin is] at this
        simp only [Nat.cast_zero, zero_mul, add_zero] at this
        exact Ne.symm this
      have := ih (pin + is) (pout + os) (m.store pout (m pin * m pin)) (by
        intro a b hab hb
        have := h (a + 1) (b + 1) (by omega) (by omega)
        intro hc; apply this
        push_cast at hc ⊢; linarith) j (by omega)
      simp only [get] at this ⊢
      rw [e pout os, e pin is, this, Mem.store_other _ _ hne]

theorem complexStrided_frame (sz is os : Int) (n : Nat) (pin pout : Int) (m : Mem α) (b : Int)
    (h : ∀ i < n, b ≠ pout + (i : Int) * os) : abssqComplexStrided sz is os n pin pout m b = m b := by
  induction n generalizing pin pout m with
  | zero => rfl
  | succ n ih =>
    rw [abssqComplexStrided, ih, Mem.store_other]
    · simpa using h 0 (by omega)
    · intro i hi hb
      apply h (i + 1) (by omega)
      rw [hb]; push_cast; ring

theorem complexStrided_get (sz is os : Int) (hos : os ≠ 0) (n : Nat) (pin pout : Int) (m : Mem α)
    (h : ∀ i j, i < j → j < n → pout + (i : Int) * os ≠ pin + (j : Int) * is ∧
      pout + (i : Int) * os ≠ pin + sz + (j : Int) * is) (j : Nat) (hj : j < n) :
    get (abssqComplexStrided sz is os n pin pout m) pout os j =
      get m pin is j * get m pin is j + get m (pin + sz) is j * get m (pin + sz) is j := by
  induction n generalizing pin pout m j with
  | zero => omega
  | succ n ih =>
    rw [abssqComplexStrided]
    cases j with
    | zero =>
      simp only [get, Nat.cast_zero, zero_mul, add_zero]
      rw [complexStrided_frame, Mem.store_same]
      intro i hi hb
      have hz : ((i + 1 : Nat) : Int) * os = 0 := by push_cast; linarith
      rcases Int.mul_eq_zero.mp hz with h0 | h0
      · omega
      · exact hos h0
    | succ j =>
      have e : ∀ q s : Int, q + ((j + 1 : Nat) : Int) * s = q + s + (j : Int) * s := by
        intro q s; push_cast; ring
      have h0 := h 0 (j + 1) (by omega) hj
      rw [e pin is, e (pin + sz) is] at h0
      simp only [Nat.cast_zero, zero_mul, add_zero] at h0
      have e3 : pin + sz + is = pin + is + sz := by ring
      have := ih (pin + is) (pout + os) (m.store pout (m pin * m pin + m (pin + sz) * m (pin + sz))) (by
        intro a b hab hb
        have := h (a + 1) (b + 1) (by omega) (by omega)
        constructor
        · intro hc; apply this.1
          push_cast at hc ⊢; linarith
        · intro hc; apply this.2
          push_cast at hc ⊢; linarith) j (by omega)
      rw [e3] at h0
      simp only [get] at this ⊢
      rw [e pout os, e pin is, e (pin + sz) is, this, Mem.store_other _ _ h0.1.symm, e3,
        Mem.store_other _ _ h0.2.symm]

end Ufunclab.Elementary
