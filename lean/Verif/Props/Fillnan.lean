import Verif.Proof.Fillnan
import Mathlib.Algebra.Order.Field.Rat
import Mathlib.Algebra.Field.Rat
import Mathlib.Tactic.FieldSimp
import Mathlib.Tactic.Ring
import Mathlib.Tactic.NormNum
/-! # Property C33: fillnan1d -/
namespace Ufunclab.Fillnan
variable {α : Type _}

/-- C33, law-free: non-NaN elements are unchanged; leading NaNs become the first
known value, trailing NaNs the last one; a NaN between neighbouring known
indices `a < b` gets the interpolation formula; nothing beyond `n` is written. -/
theorem C33_values (isnan : α → Bool) (nan : α) (lerp : α → α → Nat → Nat → α) (n : Nat)
    (x out : Nat → α) (hex : ∃ i < n, isnan (x i) = false) :
    let r := fillnan isnan nan lerp n x out
    (∀ i < n, isnan (x i) = false → r i = x i) ∧
    (∀ i b, i < b → b < n → isnan (x b) = false → (∀ j < b, isnan (x j) = true) → r i = x b) ∧
    (∀ a i, a < i → i < n → isnan (x a) = false → (∀ j, a < j → j < n → isnan (x j) = true) → r i = x a) ∧
    (∀ a i b, a < i → i < b → b < n → isnan (x a) = false → isnan (x b) = false →
      (∀ j, a < j → j < b → isnan (x j) = true) → r i = lerp (x a) (x b) (i - a) (b - a)) ∧
    (∀ i, n ≤ i → r i = out i) :=
  fillnan_spec isnan nan lerp n x out hex

/-- C33: an all-NaN input gives an all-NaN output. -/
theorem C33_all_nan (isnan : α → Bool) (nan : α) (lerp : α → α → Nat → Nat → α) (n : Nat)
    (x out : Nat → α) (h : ∀ i < n, isnan (x i) = true) :
    ∀ i < n, fillnan isnan nan lerp n x out i = nan := by
  intro i hi
  obtain ⟨f1, f2, f3, f4⟩ := findFirst_spec isnan x n 0
  have : findFirst isnan x n 0 = n := by
    rcases Nat.lt_or_ge (findFirst isnan x n 0) n with h1 | h1
    · have := f4 (by omega); rw [h _ h1] at this; simp at this
    · omega
  simp only [fillnan, this, if_true]
  rw [fillRange_apply, if_pos (by omega)]

variable {K : Type _} [Field K] [LinearOrder K] [IsStrictOrderedRing K]

theorem xlerp_fin (a b : K) (i d : Nat) (hd : 0 < d) :
    xlerp (.fin a) (.fin b) i d = .fin (a + (i : K) * ((b - a) / (d : K))) := by
  have : (d : K) ≠ 0 := by exact_mod_cast Nat.pos_iff_ne_zero.1 hd
  simp [xlerp, XF.sub, XF.neg, XF.add, XF.mul, XF.div, this, sub_eq_add_neg]

/-- C33: an interior NaN between finite neighbours is replaced by the point on the
line through `(a, x[a])` and `(b, x[b])`. -/
theorem C33_interpolation (n : Nat) (x out : Nat → XF K) (a i b : Nat) (va vb : K)
    (h1 : a < i) (h2 : i < b) (h3 : b < n) (hva : x a = .fin va) (hvb : x b = .fin vb)
    (hnan : ∀ j, a < j → j < b → XF.isnan (x j) = true) :
    fillnan XF.isnan .nan xlerp n x out i =
      .fin (va + ((i : K) - a) * (vb - va) / ((b : K) - a)) := by
  have h := (fillnan_spec XF.isnan .nan xlerp n x out ⟨a, by omega, by rw [hva]; rfl⟩).2.2.2.1
    a i b h1 h2 h3 (by rw [hva]; rfl) (by rw [hvb]; rfl) hnan
  rw [h, hva, hvb, xlerp_fin _ _ _ _ (by omega)]
  congr 2
  rw [Nat.cast_sub (by omega), Nat.cast_sub (by omega)]
  ring

open Classical in
/-- Greatest known index below `i`, or least known index above: helper. -/
theorem exists_neighbours (p : Nat → Prop) (n i : Nat) (hi : i < n) (hnp : ¬ p i)
    (hex : ∃ j < n, p j) :
    (∃ b, i < b ∧ b < n ∧ p b ∧ ∀ j < b, ¬ p j) ∨
    (∃ a, a < i ∧ p a ∧ ∀ j, a < j → j < n → ¬ p j) ∨
    (∃ a b, a < i ∧ i < b ∧ b < n ∧ p a ∧ p b ∧ ∀ j, a < j → j < b → ¬ p j) := by
  have below : (∃ a, a < i ∧ p a ∧ ∀ j, a < j → j < i → ¬ p j) ∨ ∀ j < i, ¬ p j := by
    clear hi hnp
    induction i with
    | zero => right; omega
    | succ i ih =>
      by_cases h : p i
      · left; exact ⟨i, by omega, h, by omega⟩
      · rcases ih with ⟨a, h1, h2, h3⟩ | h1
        · left; refine ⟨a, by omega, h2, ?_⟩
          intro j hj1 hj2
          rcases Nat.eq_or_lt_of_le (Nat.lt_succ_iff.1 hj2) with rfl | hlt
          · exact h
          · exact h3 j hj1 hlt
        · right; intro j hj
          rcases Nat.eq_or_lt_of_le (Nat.lt_succ_iff.1 hj) with rfl | hlt
          · exact h
          · exact h1 j hlt
  have above : (∃ b, i < b ∧ b < n ∧ p b ∧ ∀ j, i < j → j < b → ¬ p j) ∨ ∀ j, i < j → j < n → ¬ p j := by
    by_cases h : ∃ b, i < b ∧ b < n ∧ p b
    · left
      refine ⟨Nat.find h, (Nat.find_spec h).1, (Nat.find_spec h).2.1, (Nat.find_spec h).2.2, ?_⟩
      intro j h1 h2 h3
      exact Nat.find_min h h2 ⟨h1, by have := (Nat.find_spec h).2.1; omega, h3⟩
    · right
      intro j h1 h2 h3; exact h ⟨j, h1, h2, h3⟩
  rcases below with ⟨a, a1, a2, a3⟩ | hb
  · rcases above with ⟨b, b1, b2, b3, b4⟩ | ha
    · right; right
      refine ⟨a, b, a1, b1, b2, a2, b3, ?_⟩
      intro j h1 h2
      rcases Nat.lt_trichotomy j i with h | h | h
      · exact a3 j h1 h
      · rw [h]; exact hnp
      · exact b4 j h h2
    · right; left
      refine ⟨a, a1, a2, ?_⟩
      intro j h1 h2
      rcases Nat.lt_trichotomy j i with h | h | h
      · exact a3 j h1 h
      · rw [h]; exact hnp
      · exact ha j h h2
  · rcases above with ⟨b, b1, b2, b3, b4⟩ | ha
    · left
      refine ⟨b, b1, b2, b3, ?_⟩
      intro j h1
      rcases Nat.lt_trichotomy j i with h | h | h
      · exact hb j h
      · rw [h]; exact hnp
      · exact b4 j h h1
    · obtain ⟨j, h1, h2⟩ := hex
      exfalso
      rcases Nat.lt_trichotomy j i with h | h | h
      · exact hb j h h2
      · rw [h] at h2; exact hnp h2
      · exact ha j h h1 h2

/-- C33: if every known value is finite and at least one is known, no NaN (and no
infinity) is left.  (`_partial`: infinities must be excluded, see
`C33_inf_violated`.) -/
theorem C33_no_nan_left_partial (n : Nat) (x out : Nat → XF K)
    (hfin : ∀ i < n, XF.isnan (x i) = false → XF.isfinite (x i) = true)
    (hex : ∃ i < n, XF.isnan (x i) = false) :
    ∀ i < n, XF.isfinite (fillnan XF.isnan .nan xlerp n x out i) = true := by
  intro i hi
  obtain ⟨s1, s2, s3, s4, _⟩ := fillnan_spec XF.isnan .nan xlerp n x out hex
  cases h : XF.isnan (x i) with
  | false => rw [s1 i hi h]; exact hfin i hi h
  | true =>
    have hcast : ∀ j, ¬ (XF.isnan (x j) = false) ↔ XF.isnan (x j) = true := by intro j; simp
    rcases exists_neighbours (fun j => XF.isnan (x j) = false) n i hi (by simp [h]) hex with
      ⟨b, b1, b2, b3, b4⟩ | ⟨a, a1, a2, a3⟩ | ⟨a, b, h1, h2, h3, h4, h5, h6⟩
    · rw [s2 i b b1 b2 b3 (fun j hj => (hcast j).1 (b4 j hj))]; exact hfin b b2 b3
    · rw [s3 a i a1 hi a2 (fun j hj hj2 => (hcast j).1 (a3 j hj hj2))]; exact hfin a (by omega) a2
    · rw [s4 a i b h1 h2 h3 h4 h5 (fun j hj hj2 => (hcast j).1 (h6 j hj hj2))]
      have fa := hfin a (by omega) h4
      have fb := hfin b h3 h5
      cases hxa : x a <;> rw [hxa] at fa <;> simp [XF.isfinite] at fa
      cases hxb : x b <;> rw [hxb] at fb <;> simp [XF.isfinite] at fb
      rw [xlerp_fin _ _ _ _ (by omega)]; rfl

/-- C33 fails with infinities: `[inf, nan, inf]` keeps its NaN. -/
theorem C33_inf_violated : ∃ (x : Nat → XF ℚ), XF.isnan (x 0) = false ∧
    fillnan XF.isnan .nan xlerp 3 x (fun _ => .fin 0) 1 = .nan :=
  ⟨fun i => if i = 1 then .nan else .pinf, by decide, by
    simp [fillnan, findFirst, mainLoop, fillRange, upd, XF.isnan, xlerp, XF.sub, XF.neg, XF.add,
      XF.div, XF.mul]⟩

/-- C33: fillnan1d is idempotent when the known values are finite (or there is
none). -/
theorem C33_idempotent_partial (n : Nat) (x out out' : Nat → XF K)
    (hfin : ∀ i < n, XF.isnan (x i) = false → XF.isfinite (x i) = true) :
    ∀ i < n, fillnan XF.isnan .nan xlerp n (fillnan XF.isnan .nan xlerp n x out) out' i =
      fillnan XF.isnan .nan xlerp n x out i := by
  intro i hi
  by_cases hex : ∃ i < n, XF.isnan (x i) = false
  · have hf := C33_no_nan_left_partial n x out hfin hex
    have hnn : ∀ j < n, XF.isnan (fillnan XF.isnan .nan xlerp n x out j) = false := by
      intro j hj
      have := hf j hj
      cases h : fillnan XF.isnan .nan xlerp n x out j <;> rw [h] at this <;>
        simp [XF.isfinite] at this
      rfl
    exact (fillnan_spec XF.isnan .nan xlerp n _ out' ⟨i, hi, hnn i hi⟩).1 i hi (hnn i hi)
  · have hall : ∀ j < n, XF.isnan (x j) = true := by
      intro j hj
      cases h : XF.isnan (x j) with
      | true => rfl
      | false => exact absurd ⟨j, hj, h⟩ hex
    have h1 := C33_all_nan XF.isnan .nan xlerp n x out hall
    rw [C33_all_nan XF.isnan .nan xlerp n _ out' (fun j hj => by rw [h1 j hj]; rfl) i hi, h1 i hi]

/-! ### Non-vacuity: [nan, 1, nan, nan, 4, nan] -> [1, 1, 2, 3, 4, 4] -/
example : (List.range 6).map (fillnan XF.isnan .nan xlerp 6
    (fun i => if i = 1 then XF.fin (1 : ℚ) else if i = 4 then .fin 4 else .nan) (fun _ => .fin 0)) =
    [.fin 1, .fin 1, .fin 2, .fin 3, .fin 4, .fin 4] := by
  simp [fillnan, findFirst, mainLoop, fillRange, upd, XF.isnan, xlerp, XF.sub, XF.neg, XF.add,
      XF.div, XF.mul, List.range_succ]
  norm_num

end Ufunclab.Fillnan
