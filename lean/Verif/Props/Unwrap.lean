import Verif.Proof.Unwrap
import Mathlib.Data.Rat.Floor
/-! # Property C34: unwrap -/
namespace Ufunclab.Unwrap
variable {K : Type _} [Field K] [LinearOrder K] [IsStrictOrderedRing K] [FloorRing K]

/-- C34: for `period > 0` and finite `x`, if the call has no undefined behaviour
(see `C34_defined`) then the output is finite, starts with `x[0]`, each element
differs from the input by an integer multiple of the period, and consecutive
outputs differ by at most half a period. -/
theorem C34_unwrap (p : K) (hp : 0 < p) (x : List K) (r : List (XF K))
    (h : unwrapCore (.fin p) (x.map .fin) = some r) :
    ∃ y : List K, r = y.map .fin ∧ y.head? = x.head? ∧
      List.Forall₂ (fun x y => ∃ m : Int, y = x + m * p) x y ∧
      List.IsChain (fun a b => |b - a| ≤ p / 2) y := by
  cases x with
  | nil => simp [unwrapCore] at h; subst h; exact ⟨[], rfl, rfl, .nil, .nil⟩
  | cons x0 xs =>
    simp only [List.map_cons, unwrapCore] at h
    cases hl : unwrapLoop (.fin p) (.fin x0) (xs.map .fin) with
    | none => rw [hl] at h; simp at h
    | some r' =>
      rw [hl] at h; simp at h
      have := loop_fin p hp.ne' xs x0 r' hl
      obtain ⟨a, b⟩ := steps_spec p hp x0 x0 xs ⟨0, by simp⟩
      exact ⟨x0 :: steps p x0 xs, by rw [← h, this]; rfl, rfl, a, b⟩

/-- C34: the call is defined when the data stay within `2^31 - 1` periods of the
first sample, less half a period per sample. -/
theorem C34_defined (p : K) (hp : 0 < p) (x0 : K) (xs : List K)
    (h : ∀ x ∈ xs, |x - x0| + (xs.length : K) * (p / 2) ≤ (2 ^ 31 - 1) * p) :
    ∃ r, unwrapCore (.fin p) ((x0 :: xs).map .fin) = some r := by
  obtain ⟨r, hr⟩ := loop_defined p hp xs x0 h
  exact ⟨.fin x0 :: r, by simp [unwrapCore, hr]⟩

/-- C34: unwrap recovers any signal whose consecutive differences are smaller than
half a period, from samples wrapped by arbitrary multiples of the period. -/
theorem C34_recovers (p : K) (hp : 0 < p) (y0 : K) (ys xs : List K)
    (hc : List.IsChain (fun a b => |b - a| < p / 2) (y0 :: ys))
    (hcong : List.Forall₂ (fun x y => ∃ m : Int, y = x + m * p) xs ys) (r : List (XF K))
    (h : unwrapCore (.fin p) ((y0 :: xs).map .fin) = some r) : r = (y0 :: ys).map .fin := by
  simp only [List.map_cons, unwrapCore] at h
  cases hl : unwrapLoop (.fin p) (.fin y0) (xs.map .fin) with
  | none => rw [hl] at h; simp at h
  | some r' =>
    rw [hl] at h; simp at h
    rw [← h, loop_fin p hp.ne' xs y0 r' hl, steps_recover p hp y0 ys xs hc hcong]; rfl

/-- C34, idempotence on signals without ties: a signal whose consecutive
differences are all smaller than half a period is returned unchanged.  Missing from
the full claim: differences of exactly half a period, where it is false
(`C34_idempotent_violated`). -/
theorem C34_idempotent_partial (p : K) (hp : 0 < p) (y : List K)
    (hc : List.IsChain (fun a b => |b - a| < p / 2) y) (r : List (XF K))
    (h : unwrapCore (.fin p) (y.map .fin) = some r) : r = y.map .fin := by
  cases y with
  | nil => simp [unwrapCore] at h; simp [h]
  | cons y0 ys =>
    have hcong : List.Forall₂ (fun x y => ∃ m : Int, y = x + m * p) ys ys :=
      List.forall₂_same.2 (fun x _ => ⟨0, by simp⟩)
    exact C34_recovers p hp y0 ys ys hc hcong r h

/-- C34: from the first non-finite sample after `x[0]` on, all outputs are NaN and
the earlier ones are those of the finite prefix. -/
theorem C34_nonfinite (p x0 : XF K) (xs rest : List (XF K)) (bad : XF K)
    (hb : XF.isfinite bad = false) (hf : ∀ x ∈ xs, XF.isfinite x = true) :
    unwrapCore p (x0 :: xs ++ bad :: rest) =
      (unwrapCore p (x0 :: xs)).map (· ++ List.replicate (rest.length + 1) .nan) := by
  simp only [List.cons_append, unwrapCore, loop_nonfinite p x0 xs rest bad hb hf]
  cases unwrapLoop p x0 xs <;> rfl

/-- C34: a non-finite first sample followed by a finite one reaches the conversion
of a non-finite value to `int`, which is undefined (the code checks every sample
but the first). -/
theorem C34_first_sample_violated (p : K) (x0 : XF K) (x1 : K) (xs : List (XF K))
    (h0 : XF.isfinite x0 = false) :
    unwrapCore (.fin p) (x0 :: .fin x1 :: xs) = none := by
  have : unwrap1 x0 (.fin x1) (.fin p) = none := by
    cases x0 with
    | fin k => simp [XF.isfinite] at h0
    | nan => rfl
    | ninf =>
      simp only [unwrap1, XF.sub, XF.neg, XF.add, XF.div, copysignHalf, XF.lt]
      by_cases h : p < 0 <;> simp [h, XF.add, toInt32]
    | pinf =>
      simp only [unwrap1, XF.sub, XF.neg, XF.add, XF.div, copysignHalf, XF.lt]
      by_cases h : p < 0 <;> simp [h, XF.add, toInt32]
  simp [unwrapCore, unwrapLoop, XF.isfinite, this]

/-- C34: unwrap is not idempotent at exact ties: with period 1, `[0, 1/2]` gives
`[0, -1/2]`, which gives `[0, 1/2]` again. -/
theorem C34_idempotent_violated :
    unwrapCore (.fin (1 : ℚ)) [.fin 0, .fin (1 / 2)] = some [.fin 0, .fin (-(1 / 2))] ∧
    unwrapCore (.fin (1 : ℚ)) [.fin 0, .fin (-(1 / 2))] = some [.fin 0, .fin (1 / 2)] := by
  constructor
  · have h1 : rnd ((1 : ℚ) / 2 - 0) 1 = 1 := by norm_num [rnd, trunc]
    simp only [unwrapCore, unwrapLoop, unwrap1_fin (1 : ℚ) _ _ one_ne_zero, XF.isfinite]
    simp only [h1, step]; norm_num
  · have h1 : rnd (-((1 : ℚ) / 2) - 0) 1 = -1 := by norm_num [rnd, trunc]
    simp only [unwrapCore, unwrapLoop, unwrap1_fin (1 : ℚ) _ _ one_ne_zero, XF.isfinite]
    simp only [h1, step]; norm_num

/-- C34 fails for a negative period: `[0, 3/5]` with period -1 is returned
unchanged although the step exceeds half of |period|. -/
theorem C34_negative_period_violated :
    unwrapCore (.fin (-1 : ℚ)) [.fin 0, .fin (3 / 5)] = some [.fin 0, .fin (3 / 5)] := by
  have h1 : rnd ((3 : ℚ) / 5 - 0) (-1) = 0 := by
    norm_num [rnd, trunc]
  simp only [unwrapCore, unwrapLoop, unwrap1_fin (-1 : ℚ) _ _ (by norm_num), XF.isfinite]
  simp only [h1, step]; norm_num

/-! ### Non-vacuity: period 10, the ramp `[0, 4, 8, 12]` sampled as `[0, 4, 8, 2]` -/
example : unwrapCore (.fin (10 : ℚ)) [.fin 0, .fin 4, .fin 8, .fin 2] =
    some [.fin 0, .fin 4, .fin 8, .fin 12] := by
  norm_num [unwrapCore, unwrapLoop, unwrap1_fin, rnd, trunc, step, XF.isfinite]
example : ∀ x ∈ [(4 : ℚ), 8, 2], |x - 0| + (([(4 : ℚ), 8, 2].length : ℕ) : ℚ) * (10 / 2) ≤ (2 ^ 31 - 1) * 10 := by
  intro x hx
  simp at hx
  rcases hx with rfl | rfl | rfl <;> norm_num [abs]

end Ufunclab.Unwrap
