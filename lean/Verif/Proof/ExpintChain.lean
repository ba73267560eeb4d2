import Verif.Proof.ExpintCF
import Verif.Model.Expint
import Verif.Proof.XF
import Mathlib.Data.Nat.Factorial.Basic
/-! # The continued fraction of E1: numerators and denominators -/
namespace Ufunclab.Expint
open XF

/-- Numerators and denominators of the continued fraction evaluated at `a/b`, from level `m + n`
down to level `m` (scaled by a power of `b`). -/
def chain {R : Type _} [Semiring R] (a b : R) (m : Nat) : Nat → R → R → R × R
  | 0, U, D => (U, D)
  | n + 1, U, D =>
    let D' := U + ((m + n + 1 : ℕ) : R) * b * D
    chain a b m n (a * D' + ((m + n + 1 : ℕ) : R) * b * U) D'

theorem chain_cast (a b m n U D : ℕ) :
    chain (a : ℝ) (b : ℝ) m n (U : ℝ) (D : ℝ) = (((chain a b m n U D).1 : ℝ), ((chain a b m n U D).2 : ℝ)) := by
  induction n generalizing U D with
  | zero => rfl
  | succ n ih =>
    simp only [chain]
    rw [← ih]
    push_cast
    rfl

section
variable {x a b : ℝ}

theorem chain_pos (ha : 0 < a) (hb : 0 < b) (m n : Nat) (U D : ℝ) (hU : 0 < U) (hD : 0 < D) :
    0 < (chain a b m n U D).1 ∧ 0 < (chain a b m n U D).2 := by
  induction n generalizing U D with
  | zero => exact ⟨hU, hD⟩
  | succ n ih =>
    simp only [chain]
    apply ih <;> positivity

/-- One step of the chain against the integrals. -/
theorem chain_step (hx : 0 < x) (k : Nat) (U D : ℝ) :
    b * (x * B x k) * (U + ((k + 1 : ℕ) : ℝ) * b * D) - (a * (U + ((k + 1 : ℕ) : ℝ) * b * D) + ((k + 1 : ℕ) : ℝ) * b * U) * A x k =
    (b * x - a) * (A x k * (U + ((k + 1 : ℕ) : ℝ) * b * D)) + ((k + 1 : ℕ) : ℝ) * b * (b * (x * B x (k + 1)) * D - U * A x (k + 1)) := by
  have h1 := B_rec hx k
  have h2 := kA hx k
  push_cast
  rw [h1]
  linear_combination (-b * U) * h2

/-- At `x` itself the defect is multiplied by `k` in each step. -/
theorem chain_exact (hx : 0 < x) (m n : Nat) (U D : ℝ) :
    (m.factorial : ℝ) * (x * B x m * (chain x 1 m n U D).2 - (chain x 1 m n U D).1 * A x m) =
      ((m + n).factorial : ℝ) * (x * B x (m + n) * D - U * A x (m + n)) := by
  induction n generalizing U D with
  | zero => simp [chain]
  | succ n ih =>
    simp only [chain]
    rw [ih]
    have := chain_step (a := x) (b := 1) hx (m + n) U D
    simp only [one_mul, sub_self, zero_mul, zero_add] at this
    rw [this, ← Nat.add_assoc, Nat.factorial_succ]
    push_cast
    ring

theorem chain_lower (hx : 0 < x) (ha : 0 < a) (hb : 0 < b) (hab : a ≤ b * x) (m n : Nat) (U D : ℝ) (hU : 0 < U) (hD : 0 < D)
    (h : U * A x (m + n) ≤ b * (x * B x (m + n)) * D) :
    (chain a b m n U D).1 * A x m ≤ b * (x * B x m) * (chain a b m n U D).2 ∧
    (m.factorial : ℝ) * (A x (m + n) * (chain a b m n U D).2) ≤ ((m + n).factorial : ℝ) * (b ^ n * D * A x m) := by
  induction n generalizing U D with
  | zero => exact ⟨by simpa [chain] using h, by simp [chain, mul_comm]⟩
  | succ n ih =>
    simp only [chain]
    have hs := chain_step (a := a) (b := b) hx (m + n) U D
    rw [← Nat.add_assoc] at h
    have hA := A_pos hx (m + n)
    have hA' := A_pos hx (m + n + 1)
    have hD' : 0 < U + ((m + n + 1 : ℕ) : ℝ) * b * D := by positivity
    have n1 : 0 ≤ (b * x - a) * (A x (m + n) * (U + ((m + n + 1 : ℕ) : ℝ) * b * D)) :=
      mul_nonneg (by linarith) (by positivity)
    have n2 : 0 ≤ ((m + n + 1 : ℕ) : ℝ) * b * (b * (x * B x (m + n + 1)) * D - U * A x (m + n + 1)) :=
      mul_nonneg (by positivity) (by linarith)
    obtain ⟨h1, h2⟩ := ih (a * (U + ((m + n + 1 : ℕ) : ℝ) * b * D) + ((m + n + 1 : ℕ) : ℝ) * b * U)
      (U + ((m + n + 1 : ℕ) : ℝ) * b * D) (by positivity) hD' (by linarith)
    refine ⟨h1, ?_⟩
    set D1 := (chain a b m n (a * (U + ((m + n + 1 : ℕ) : ℝ) * b * D) + ((m + n + 1 : ℕ) : ℝ) * b * U)
      (U + ((m + n + 1 : ℕ) : ℝ) * b * D)).2 with hD1
    have hD1p : 0 < D1 := (chain_pos ha hb m n _ _ (by positivity) hD').2
    -- `A_{k+1} D' ≤ (k+1) b D A_k`
    have h3 : A x (m + n + 1) * (U + ((m + n + 1 : ℕ) : ℝ) * b * D) ≤ ((m + n + 1 : ℕ) : ℝ) * b * D * A x (m + n) := by
      have hk := kA hx (m + n)
      have : ((m + n + 1 : ℕ) : ℝ) * b * D * A x (m + n) = b * D * (((m + n + 1 : ℕ) : ℝ) * A x (m + n + 1) + x * B x (m + n + 1)) := by
        have e : ((m + n + 1 : ℕ) : ℝ) = ((m + n : ℕ) : ℝ) + 1 := by push_cast; ring
        rw [e, ← hk]; ring
      rw [this]; nlinarith
    rw [← Nat.add_assoc, Nat.factorial_succ]
    refine le_of_mul_le_mul_right ?_ hD'
    have hf : (0 : ℝ) < (m.factorial : ℝ) := by positivity
    have hF : (0 : ℝ) < ((m + n).factorial : ℝ) := by positivity
    calc (m.factorial : ℝ) * (A x (m + n + 1) * D1) * (U + ((m + n + 1 : ℕ) : ℝ) * b * D)
        = (m.factorial : ℝ) * D1 * (A x (m + n + 1) * (U + ((m + n + 1 : ℕ) : ℝ) * b * D)) := by ring
      _ ≤ (m.factorial : ℝ) * D1 * (((m + n + 1 : ℕ) : ℝ) * b * D * A x (m + n)) :=
          mul_le_mul_of_nonneg_left h3 (by positivity)
      _ = ((m + n + 1 : ℕ) : ℝ) * b * D * ((m.factorial : ℝ) * (A x (m + n) * D1)) := by ring
      _ ≤ ((m + n + 1 : ℕ) : ℝ) * b * D * (((m + n).factorial : ℝ) * (b ^ n * (U + ((m + n + 1 : ℕ) : ℝ) * b * D) * A x m)) :=
          mul_le_mul_of_nonneg_left h2 (by positivity)
      _ = _ := by push_cast; ring

theorem chain_upper (hx : 0 < x) (ha : 0 < a) (hb : 0 < b) (hab : b * x ≤ a) (m n : Nat) (U D : ℝ) (hU : 0 < U) (hD : 0 < D)
    (h : b * (x * B x (m + n)) * D ≤ U * A x (m + n)) :
    b * (x * B x m) * (chain a b m n U D).2 ≤ (chain a b m n U D).1 * A x m ∧
    ((m + n).factorial : ℝ) * (b ^ n * D * A x m) ≤ (m.factorial : ℝ) * (A x (m + n) * (chain a b m n U D).2) := by
  induction n generalizing U D with
  | zero => exact ⟨by simpa [chain] using h, by simp [chain, mul_comm]⟩
  | succ n ih =>
    simp only [chain]
    have hs := chain_step (a := a) (b := b) hx (m + n) U D
    rw [← Nat.add_assoc] at h
    have hA := A_pos hx (m + n)
    have hA' := A_pos hx (m + n + 1)
    have hD' : 0 < U + ((m + n + 1 : ℕ) : ℝ) * b * D := by positivity
    have n1 : (b * x - a) * (A x (m + n) * (U + ((m + n + 1 : ℕ) : ℝ) * b * D)) ≤ 0 :=
      mul_nonpos_of_nonpos_of_nonneg (by linarith) (by positivity)
    have n2 : ((m + n + 1 : ℕ) : ℝ) * b * (b * (x * B x (m + n + 1)) * D - U * A x (m + n + 1)) ≤ 0 :=
      mul_nonpos_of_nonneg_of_nonpos (by positivity) (by linarith)
    obtain ⟨h1, h2⟩ := ih (a * (U + ((m + n + 1 : ℕ) : ℝ) * b * D) + ((m + n + 1 : ℕ) : ℝ) * b * U)
      (U + ((m + n + 1 : ℕ) : ℝ) * b * D) (by positivity) hD' (by linarith)
    refine ⟨h1, ?_⟩
    set D1 := (chain a b m n (a * (U + ((m + n + 1 : ℕ) : ℝ) * b * D) + ((m + n + 1 : ℕ) : ℝ) * b * U)
      (U + ((m + n + 1 : ℕ) : ℝ) * b * D)).2 with hD1
    have hD1p : 0 < D1 := (chain_pos ha hb m n _ _ (by positivity) hD').2
    have h3 : ((m + n + 1 : ℕ) : ℝ) * b * D * A x (m + n) ≤ A x (m + n + 1) * (U + ((m + n + 1 : ℕ) : ℝ) * b * D) := by
      have hk := kA hx (m + n)
      have : ((m + n + 1 : ℕ) : ℝ) * b * D * A x (m + n) = b * D * (((m + n + 1 : ℕ) : ℝ) * A x (m + n + 1) + x * B x (m + n + 1)) := by
        have e : ((m + n + 1 : ℕ) : ℝ) = ((m + n : ℕ) : ℝ) + 1 := by push_cast; ring
        rw [e, ← hk]; ring
      rw [this]; nlinarith
    rw [← Nat.add_assoc, Nat.factorial_succ]
    refine le_of_mul_le_mul_right ?_ hD'
    have hf : (0 : ℝ) < (m.factorial : ℝ) := by positivity
    have hF : (0 : ℝ) < ((m + n).factorial : ℝ) := by positivity
    calc (((m + n + 1) * (m + n).factorial : ℕ) : ℝ) * (b ^ (n + 1) * D * A x m) * (U + ((m + n + 1 : ℕ) : ℝ) * b * D)
        = ((m + n + 1 : ℕ) : ℝ) * b * D * (((m + n).factorial : ℝ) * (b ^ n * (U + ((m + n + 1 : ℕ) : ℝ) * b * D) * A x m)) := by
          push_cast; ring
      _ ≤ ((m + n + 1 : ℕ) : ℝ) * b * D * ((m.factorial : ℝ) * (A x (m + n) * D1)) :=
          mul_le_mul_of_nonneg_left h2 (by positivity)
      _ = (m.factorial : ℝ) * D1 * (((m + n + 1 : ℕ) : ℝ) * b * D * A x (m + n)) := by ring
      _ ≤ (m.factorial : ℝ) * D1 * (A x (m + n + 1) * (U + ((m + n + 1 : ℕ) : ℝ) * b * D)) :=
          mul_le_mul_of_nonneg_left h3 (by positivity)
      _ = _ := by ring

/-- The chain at `x` dominates the chain at `a/b ≤ x`. -/
theorem chain_mono (ha : 0 < a) (hb : 0 < b) (hab : a ≤ b * x) (m n : Nat) (s U D U' D' : ℝ) (hs : 0 < s)
    (hU : 0 < U) (hD : 0 < D) (h1 : U ≤ s * b * U') (h2 : D ≤ s * D') :
    (chain a b m n U D).1 ≤ s * b ^ n * b * (chain x 1 m n U' D').1 ∧
    (chain a b m n U D).2 ≤ s * b ^ n * (chain x 1 m n U' D').2 := by
  induction n generalizing s U D U' D' with
  | zero => simpa [chain] using ⟨h1, h2⟩
  | succ n ih =>
    simp only [chain]
    have k0 : (0 : ℝ) ≤ ((m + n + 1 : ℕ) : ℝ) := Nat.cast_nonneg _
    generalize ((m + n + 1 : ℕ) : ℝ) = k at *
    have e1 : U + k * b * D ≤ s * b * (U' + k * 1 * D') := by
      have := mul_le_mul_of_nonneg_left h2 (by positivity : 0 ≤ k * b)
      calc U + k * b * D ≤ s * b * U' + k * b * (s * D') := add_le_add h1 this
        _ = _ := by ring
    have hD0 : 0 < U + k * b * D := by positivity
    have e2 : a * (U + k * b * D) + k * b * U ≤ s * b * b * (x * (U' + k * 1 * D') + k * 1 * U') := by
      have p1 : a * (U + k * b * D) ≤ b * x * (s * b * (U' + k * 1 * D')) :=
        mul_le_mul hab e1 hD0.le (by linarith)
      have p2 := mul_le_mul_of_nonneg_left h1 (by positivity : 0 ≤ k * b)
      calc a * (U + k * b * D) + k * b * U ≤ b * x * (s * b * (U' + k * 1 * D')) + k * b * (s * b * U') := add_le_add p1 p2
        _ = _ := by ring
    have := ih (s * b) _ _ _ _ (by positivity) (by positivity) hD0 e2 e1
    have q : s * b * b ^ n = s * b ^ (n + 1) := by rw [pow_succ]; ring
    rw [q] at this
    exact this

theorem cfLoop_fin (hx : 0 < x) (n : Nat) (U D t : ℝ) (hU : 0 < U) (hD : 0 < D) (ht : x + t = U / D) :
    cfLoop (.fin x) n (.fin t) = .fin ((chain x 1 0 n U D).1 / (chain x 1 0 n U D).2 - x) := by
  induction n generalizing U D t with
  | zero => simp only [cfLoop, chain]; rw [← ht]; congr 1; ring
  | succ n ih =>
    simp only [cfLoop, chain]
    have k0 : (0 : ℝ) < ((n + 1 : ℕ) : ℝ) := by positivity
    rw [Nat.zero_add]
    generalize hk : ((n + 1 : ℕ) : ℝ) = k at *
    have hr : 0 < U / D := by positivity
    rw [add_fin, ht, div_fin _ _ hr.ne', add_fin, div_fin _ _ (by positivity)]
    apply ih
    · positivity
    · positivity
    · field_simp

/-- `x·F` of the truncated continued fraction: the defect is `m!·x·B_{m+1}`. -/
theorem cf_defect (hx : 0 < x) (m : Nat) :
    Real.exp (-x) * (chain x 1 0 m x 1).2 = (chain x 1 0 m x 1).1 * E1 x + (m.factorial : ℝ) * (x * B x (m + 1)) := by
  have h := chain_exact hx 0 m x 1
  rw [B_zero hx, A_zero hx, Nat.zero_add, B_rec hx m] at h
  simp only [Nat.factorial_zero, Nat.cast_one, one_mul] at h
  linear_combination h

end

end Ufunclab.Expint
