import Verif.Model.Percentile
import Verif.Spec.Cmp
import Verif.Proof.MadRound
import Mathlib.Algebra.Order.Ring.Unbundled.Rat
import Mathlib.Algebra.Field.Rat
import Mathlib.Tactic.Linarith
import Mathlib.Tactic.FieldSimp
import Mathlib.Tactic.Ring
import Mathlib.Tactic.Positivity
import Mathlib.Algebra.BigOperators.Intervals
import Mathlib.Algebra.BigOperators.Field
/-! # Property C24: percentileofscore

`β` is the (linearly ordered) element type, `K` any ordered field. -/
namespace Ufunclab.Percentile
open Spec
variable {α : Type _}

theorem countLoop_eq (lt eq : α → α → Bool) (s : α) (l e g : Nat) (xs : List α) :
    countLoop lt eq s (l, e, g) xs =
      (l + xs.countP (fun x => lt x s), e + xs.countP (fun x => !lt x s && eq x s),
       g + xs.countP (fun x => !lt x s && !eq x s)) := by
  induction xs generalizing l e g with
  | nil => simp [countLoop]
  | cons x xs ih =>
    simp only [countLoop]
    cases h1 : lt x s <;> cases h2 : eq x s <;> simp [ih, h1, h2, List.countP_cons] <;> omega

variable {β : Type _} [LinearOrder β] {K : Type _} [Field K] [LinearOrder K] [IsStrictOrderedRing K]

/-- Number of elements less than the score. -/
abbrev nLess (xs : List β) (s : β) : Nat := xs.countP (fun x => decide (x < s))
/-- Number of elements equal to the score. -/
abbrev nEqual (xs : List β) (s : β) : Nat := xs.countP (fun x => decide (x = s))

theorem count_lin (xs : List β) (s : β) :
    (count (linOps β).lt (linOps β).eq s xs).1 = nLess xs s ∧
    (count (linOps β).lt (linOps β).eq s xs).2.1 = nEqual xs s := by
  rw [count, countLoop_eq]
  simp only [Nat.zero_add]
  refine ⟨rfl, ?_⟩
  apply List.countP_congr
  intro x _
  simp [linOps]
  intro h; rw [h]

theorem less_add_equal_le (xs : List β) (s : β) : nLess xs s + nEqual xs s ≤ xs.length := by
  induction xs with
  | nil => simp [nLess, nEqual]
  | cons x xs ih =>
    simp only [nLess, nEqual, List.countP_cons, List.length_cons] at *
    by_cases h1 : x < s
    · have : x ≠ s := ne_of_lt h1
      simp [h1, this]; omega
    · simp [h1]; split <;> omega

theorem less_add_equal_le_less (xs : List β) {s t : β} (h : s < t) :
    nLess xs s + nEqual xs s ≤ nLess xs t := by
  induction xs with
  | nil => simp [nLess, nEqual]
  | cons x xs ih =>
    simp only [nLess, nEqual, List.countP_cons] at *
    by_cases h1 : x < s
    · have : x ≠ s := ne_of_lt h1
      have : x < t := lt_trans h1 h
      simp [*]; omega
    · by_cases h2 : x = s
      · subst h2; simp [h]; omega
      · simp [h1, h2]; omega

/-- percentileofscore on a linear order. -/
abbrev pos (xs : List β) (s : β) (kind : Int) : Option K :=
  percentileofscore (linOps β).lt (linOps β).eq xs s kind

theorem pos_values (xs : List β) (s : β) :
    pos (K := K) xs s 0 = some (((2 * nLess xs s + nEqual xs s
        + if 0 < nEqual xs s then 1 else 0 : Nat) : K) * 50 / xs.length) ∧
    pos (K := K) xs s 1 = some (((nLess xs s + nEqual xs s : Nat) : K) * 100 / xs.length) ∧
    pos (K := K) xs s 2 = some ((nLess xs s : K) * 100 / xs.length) ∧
    pos (K := K) xs s 3 = some (((2 * nLess xs s + nEqual xs s : Nat) : K) * 50 / xs.length) := by
  have h0 : IntTy.i32.wrap 0 = 0 := by decide
  have h1 : IntTy.i32.wrap 1 = 1 := by decide
  have h2 : IntTy.i32.wrap 2 = 2 := by decide
  have h3 : IntTy.i32.wrap 3 = 3 := by decide
  obtain ⟨c1, c2⟩ := count_lin xs s
  simp only [pos, percentileofscore, c1, c2, h0, h1, h2, h3, if_true]
  refine ⟨?_, by simp, by simp, by simp⟩
  split <;> simp

/-- C24: strict and weak are the percentages of elements `< s` and `≤ s`, mean is
their average. -/
theorem C24_strict_weak_mean (xs : List β) (s : β) :
    pos (K := K) xs s 2 = some (100 * (xs.countP (fun x => decide (x < s)) : K) / xs.length) ∧
    pos (K := K) xs s 1 = some (100 * (xs.countP (fun x => decide (x ≤ s)) : K) / xs.length) ∧
    ∀ a b, pos (K := K) xs s 2 = some a → pos (K := K) xs s 1 = some b →
      pos (K := K) xs s 3 = some ((a + b) / 2) := by
  obtain ⟨_, e1, e2, e3⟩ := pos_values (K := K) xs s
  have hle : xs.countP (fun x => decide (x ≤ s)) = nLess xs s + nEqual xs s := by
    induction xs with
    | nil => simp [nLess, nEqual]
    | cons x xs ih =>
      simp only [nLess, nEqual, List.countP_cons] at *
      rw [ih (pos_values xs s).1 (pos_values xs s).2.1 (pos_values xs s).2.2.1 (pos_values xs s).2.2.2]
      by_cases h1 : x < s
      · simp [h1, le_of_lt h1, ne_of_lt h1]; omega
      · by_cases h2 : x = s
        · simp [h2]; omega
        · have : ¬ x ≤ s := fun h => (lt_or_eq_of_le h).elim h1 h2
          simp [h1, h2, this]
  refine ⟨by rw [e2, mul_comm], by rw [e1, hle, mul_comm], ?_⟩
  intro a b ha hb
  rw [e2] at ha; rw [e1] at hb
  rw [e3, ← Option.some.inj ha, ← Option.some.inj hb]
  congr 1
  push_cast
  ring

/-- C24: rank is the mean, over the tied elements in sorted order (positions
`less+1, ..., less+equal`), of the percentage position; with no tie it is
strict. -/
theorem C24_rank (xs : List β) (s : β) :
    (nEqual xs s = 0 → pos (K := K) xs s 0 = pos (K := K) xs s 2) ∧
    (0 < nEqual xs s → pos (K := K) xs s 0 = some
      ((∑ i ∈ Finset.range (nEqual xs s), 100 * ((nLess xs s + (i + 1) : Nat) : K) / xs.length)
        / nEqual xs s)) := by
  obtain ⟨e0, _, e2, _⟩ := pos_values (K := K) xs s
  constructor
  · intro h; rw [e0, e2, h]; simp; ring
  · intro h
    rw [e0, if_pos h]
    congr 1
    have hsum : ∀ (l m : Nat), ∑ i ∈ Finset.range m, ((l + (i + 1) : Nat) : K)
        = (m : K) * (2 * l + m + 1) / 2 := by
      intro l m
      induction m with
      | zero => simp
      | succ m ih => rw [Finset.sum_range_succ, ih]; push_cast; ring
    have hne : (nEqual xs s : K) ≠ 0 := by exact_mod_cast (Nat.pos_iff_ne_zero.1 h)
    rw [← Finset.sum_div, ← Finset.mul_sum, hsum]
    push_cast
    field_simp
    ring

/-- C24: all four kinds lie in [0, 100] and strict ≤ mean ≤ weak, for every
non-empty array. -/
theorem C24_bounds (xs : List β) (hne : xs ≠ []) (s : β) :
    ∃ r w st m : K, pos xs s 0 = some r ∧ pos xs s 1 = some w ∧ pos xs s 2 = some st ∧
      pos xs s 3 = some m ∧ 0 ≤ st ∧ st ≤ m ∧ m ≤ r ∧ r ≤ w ∧ w ≤ 100 := by
  obtain ⟨e0, e1, e2, e3⟩ := pos_values (K := K) xs s
  refine ⟨_, _, _, _, e0, e1, e2, e3, ?_⟩
  have hn : (0 : K) < xs.length := by
    have := List.length_pos_iff.2 hne
    exact_mod_cast this
  have hl := less_add_equal_le xs s
  have hlK : (nLess xs s : K) + nEqual xs s ≤ xs.length := by exact_mod_cast hl
  have hle : (0 : K) ≤ nLess xs s := Nat.cast_nonneg _
  have hee : (0 : K) ≤ nEqual xs s := Nat.cast_nonneg _
  refine ⟨by positivity, ?_, ?_, ?_, ?_⟩
  · rw [div_le_div_iff_of_pos_right hn]; push_cast; linarith
  · rw [div_le_div_iff_of_pos_right hn]; push_cast
    split <;> simp <;> linarith
  · rw [div_le_div_iff_of_pos_right hn]; push_cast
    split
    · rename_i h
      have : (1 : K) ≤ nEqual xs s := by exact_mod_cast h
      push_cast; linarith
    · rename_i h
      have : nEqual xs s = 0 := by omega
      simp only [this]; push_cast; linarith
  · rw [div_le_iff₀ hn]; push_cast; linarith

/-- C24: each kind is non-decreasing in the score. -/
theorem C24_mono (xs : List β) (hne : xs ≠ []) (kind : Int) {s t : β} (hst : s ≤ t) (a b : K)
    (ha : pos xs s kind = some a) (hb : pos xs t kind = some b) : a ≤ b := by
  rcases eq_or_lt_of_le hst with rfl | hlt
  · rw [ha] at hb; exact le_of_eq (Option.some.inj hb)
  · have hn : (0 : K) < xs.length := by
      have := List.length_pos_iff.2 hne
      exact_mod_cast this
    have h1 := less_add_equal_le_less xs hlt
    have h1K : (nLess xs s : K) + nEqual xs s ≤ nLess xs t := by exact_mod_cast h1
    have hee : (0 : K) ≤ nEqual xs s := Nat.cast_nonneg _
    have hee' : (0 : K) ≤ nEqual xs t := Nat.cast_nonneg _
    have hs := count_lin xs s
    have ht := count_lin xs t
    simp only [pos, percentileofscore, hs.1, hs.2, ht.1, ht.2] at ha hb
    split at ha
    · rename_i hk; rw [if_pos hk] at hb
      rw [← Option.some.inj ha, ← Option.some.inj hb, div_le_div_iff_of_pos_right hn]
      have : (if 0 < nEqual xs s then 2 * nLess xs s + nEqual xs s + 1 else 2 * nLess xs s + nEqual xs s)
          ≤ (if 0 < nEqual xs t then 2 * nLess xs t + nEqual xs t + 1 else 2 * nLess xs t + nEqual xs t) := by
        split <;> split <;> omega
      have : ((if 0 < nEqual xs s then 2 * nLess xs s + nEqual xs s + 1 else 2 * nLess xs s + nEqual xs s : Nat) : K)
          ≤ ((if 0 < nEqual xs t then 2 * nLess xs t + nEqual xs t + 1 else 2 * nLess xs t + nEqual xs t : Nat) : K) := by
        exact_mod_cast this
      linarith
    · rename_i hk0; rw [if_neg hk0] at hb
      split at ha
      · rename_i hk; rw [if_pos hk] at hb
        rw [← Option.some.inj ha, ← Option.some.inj hb, div_le_div_iff_of_pos_right hn]
        push_cast; linarith
      · rename_i hk1; rw [if_neg hk1] at hb
        split at ha
        · rename_i hk; rw [if_pos hk] at hb
          rw [← Option.some.inj ha, ← Option.some.inj hb, div_le_div_iff_of_pos_right hn]
          linarith
        · rename_i hk2; rw [if_neg hk2] at hb
          split at ha
          · rename_i hk; rw [if_pos hk] at hb
            rw [← Option.some.inj ha, ← Option.some.inj hb, div_le_div_iff_of_pos_right hn]
            push_cast; linarith
          · simp at ha

/-- C24: permuting the array changes nothing (any comparison functions). -/
theorem C24_perm (lt eq : α → α → Bool) (xs ys : List α) (h : xs.Perm ys) (s : α) (kind : Int) :
    percentileofscore (K := K) lt eq xs s kind = percentileofscore lt eq ys s kind := by
  have : count lt eq s xs = count lt eq s ys := by
    simp only [count, countLoop_eq, h.countP_eq]
  simp only [percentileofscore, this, h.length_eq]

/-- C24, special values: a NaN element counts as greater than the score, i.e. it
counts in the length only. -/
theorem C24_nan {L : Type _} [LinearOrder L] (s : XF L) (xs : List (XF L)) :
    count XF.lt XF.eq s (XF.nan :: xs) =
      ((count XF.lt XF.eq s xs).1, (count XF.lt XF.eq s xs).2.1, (count XF.lt XF.eq s xs).2.2 + 1) := by
  simp only [count, countLoop_eq]
  cases s <;> simp [XF.lt, XF.eq]

/-- C24: exactly the kinds congruent to 0..3 modulo 2^32 produce an output. -/
theorem C24_unknown_kind (lt eq : α → α → Bool) (xs : List α) (s : α) (kind : Int) :
    percentileofscore (K := K) lt eq xs s kind = none ↔ ¬ (0 ≤ kind % 2 ^ 32 ∧ kind % 2 ^ 32 ≤ 3) := by
  have hw : IntTy.i32.wrap kind = (kind + 2147483648) % 4294967296 - 2147483648 := by
    simp [IntTy.wrap, IntTy.i32]
  simp only [percentileofscore, hw]
  norm_num
  split
  · rename_i h; simp; omega
  · split
    · rename_i h; simp; omega
    · split
      · rename_i h; simp; omega
      · split
        · rename_i h; simp; omega
        · simp; omega

theorem count_le (lt eq : α → α → Bool) (xs : List α) (s : α) :
    (count lt eq s xs).1 + (count lt eq s xs).2.1 ≤ xs.length := by
  simp only [count, countLoop_eq, Nat.zero_add]
  induction xs with
  | nil => simp
  | cons x xs ih =>
    simp only [List.countP_cons, List.length_cons]
    cases lt x s <;> cases eq x s <;> simp <;> omega

section Rounding
open Ufunclab.Float
variable {p : ℕ} {emin : ℤ} {rd : K → K}

/-- C24 in floating point: up to `2^p / 100` elements (9e13 for doubles) the result is the exact percentage,
rounded once.  Any comparison functions, so also with NaN. -/
theorem C24_rounding (h : Nearest p emin rd) (hp : 1 ≤ p) (he : emin ≤ 0) (lt eq : α → α → Bool) (xs : List α)
    (hn : 100 * xs.length ≤ 2 ^ p) (s : α) (kind : Int) :
    percentileofscoreR rd lt eq xs s kind = (percentileofscore lt eq xs s kind).map rd := by
  have hc := count_le lt eq xs s
  have hnat : ∀ m : ℕ, m ≤ 2 ^ p → rd (m : K) = m := fun m hm => h.exact (Mad.isFloat_nat hp he hm)
  have key : ∀ m c : ℕ, m * c ≤ 2 ^ p → 1 ≤ c → rd (rd (m : K) * (c : ℕ)) = m * (c : ℕ) := by
    intro m c hm hc
    rw [hnat m ((Nat.le_mul_of_pos_right m hc).trans hm), ← Nat.cast_mul]
    exact hnat _ hm
  simp only [percentileofscoreR, percentileofscore]
  rw [hnat xs.length (by omega)]
  have e50 : (50 : K) = ((50 : ℕ) : K) := by norm_num
  have e100 : (100 : K) = ((100 : ℕ) : K) := by norm_num
  generalize count lt eq s xs = c at *
  by_cases k0 : IntTy.i32.wrap kind = 0
  · rw [if_pos k0, if_pos k0, Option.map_some, e50, key _ 50 (by split <;> omega) (by norm_num)]
  rw [if_neg k0, if_neg k0]
  by_cases k1 : IntTy.i32.wrap kind = 1
  · rw [if_pos k1, if_pos k1, Option.map_some, e100, key _ 100 (by omega) (by norm_num)]
  rw [if_neg k1, if_neg k1]
  by_cases k2 : IntTy.i32.wrap kind = 2
  · rw [if_pos k2, if_pos k2, Option.map_some, e100, key _ 100 (by omega) (by norm_num)]
  rw [if_neg k2, if_neg k2]
  by_cases k3 : IntTy.i32.wrap kind = 3
  · rw [if_pos k3, if_pos k3, Option.map_some, e50, key _ 50 (by omega) (by norm_num)]
  rw [if_neg k3, if_neg k3, Option.map_none]

/-- percentileofscore on a linear order, rounded. -/
abbrev posR (rd : K → K) (xs : List β) (s : β) (kind : Int) : Option K :=
  percentileofscoreR rd (linOps β).lt (linOps β).eq xs s kind

/-- C24 in floating point: the bounds, the order of the kinds and the monotonicity survive rounding. -/
theorem C24_rounded_bounds (h : Nearest p emin rd) (hp : 7 ≤ p) (he : emin ≤ 0) (xs : List β) (hne : xs ≠ [])
    (hn : 100 * xs.length ≤ 2 ^ p) (s : β) :
    (∃ r w st m : K, posR rd xs s 0 = some r ∧ posR rd xs s 1 = some w ∧ posR rd xs s 2 = some st ∧
      posR rd xs s 3 = some m ∧ 0 ≤ st ∧ st ≤ m ∧ m ≤ r ∧ r ≤ w ∧ w ≤ 100) ∧
    ∀ (kind : Int) (t : β), s ≤ t → ∀ a b, posR rd xs s kind = some a → posR rd xs t kind = some b → a ≤ b := by
  have hr := fun s kind => C24_rounding h (by omega) he (linOps β).lt (linOps β).eq xs hn s kind
  have f100 : IsFloat p emin (100 : K) := by
    have h128 : 100 ≤ 2 ^ p := le_trans (by norm_num) (Nat.pow_le_pow_right (by norm_num) hp)
    have := Mad.isFloat_nat (K := K) (p := p) (emin := emin) (by omega) he (n := 100) h128
    simpa using this
  constructor
  · obtain ⟨r, w, st, m, e0, e1, e2, e3, b1, b2, b3, b4, b5⟩ := C24_bounds (K := K) xs hne s
    refine ⟨rd r, rd w, rd st, rd m, ?_, ?_, ?_, ?_, h.mono_float isFloat_zero b1, h.monotone b2, h.monotone b3,
      h.monotone b4, h.mono_float' f100 b5⟩
    · rw [posR, hr, show percentileofscore _ _ xs s 0 = some r from e0, Option.map_some]
    · rw [posR, hr, show percentileofscore _ _ xs s 1 = some w from e1, Option.map_some]
    · rw [posR, hr, show percentileofscore _ _ xs s 2 = some st from e2, Option.map_some]
    · rw [posR, hr, show percentileofscore _ _ xs s 3 = some m from e3, Option.map_some]
  · intro kind t hst a b ha hb
    rw [posR, hr, Option.map_eq_some_iff] at ha hb
    obtain ⟨a', ha', rfl⟩ := ha
    obtain ⟨b', hb', rfl⟩ := hb
    exact h.monotone (C24_mono xs hne kind hst a' b' ha' hb')

/-- Non-vacuity: five integers, doubles. -/
example : ∃ rd : ℚ → ℚ, Nearest 53 (-1074) rd ∧ 7 ≤ 53 ∧ ([1, 2, 2, 3, 5] : List ℤ) ≠ [] ∧ 100 * ([1, 2, 2, 3, 5] : List ℤ).length ≤ 2 ^ 53 := by
  obtain ⟨rd, h⟩ := exists_nearest (K := ℚ) (p := 53) (by norm_num) (-1074)
  exact ⟨rd, h, by norm_num, by simp, by norm_num⟩

end Rounding

/-! ### Non-vacuity -/
example : pos (K := ℚ) [1, 2, 2, 3, (5 : Int)] 2 0 = some 50 ∧
    pos (K := ℚ) [1, 2, 2, 3, (5 : Int)] 2 1 = some 60 ∧
    pos (K := ℚ) [1, 2, 2, 3, (5 : Int)] 2 2 = some 20 ∧
    pos (K := ℚ) [1, 2, 2, 3, (5 : Int)] 2 3 = some 40 := by
  refine ⟨?_, ?_, ?_, ?_⟩ <;> simp [pos, percentileofscore, count, countLoop, linOps, IntTy.wrap, IntTy.i32] <;> norm_num

end Ufunclab.Percentile
