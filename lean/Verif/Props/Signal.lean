import Verif.Proof.Signal
import Mathlib.Algebra.Order.Field.Basic
import Mathlib.Algebra.Order.Field.Rat
import Mathlib.Algebra.Field.Rat
import Mathlib.Tactic.Linarith
import Mathlib.Tactic.NormNum
/-! # Properties C25-C29: hysteresis_relay, backlash, backlash_sum -/
namespace Ufunclab.Signal
open Spec
variable {α : Type _}

section Relay
variable [LT α] [DecidableLT α]

/-- C25: after `hysteresis_relay` the output array element `k` is the value
decided by the most recent sample of `x[0..k]` that lies outside the band, or
`init` if there is none.  Any comparison, any input stride, any non-zero output
stride. -/
theorem C25_relay (lowT highT lowV highV init : α) (mx : Mem α) (px xs : Int) (mo : Mem α)
    (po os : Int) (hos : os ≠ 0) (n k : Nat) (hk : k < n) :
    get (relayCore lowT highT lowV highV init mx px xs mo po os n) po os k =
      relayValue lowT highT lowV highV init ((elems mx px xs n).take (k + 1)) := by
  have h := relayLoop_eq lowT highT lowV highV init mx px xs po os hos n 0 mo init (by simp)
  simp only [Int.natCast_zero, Int.zero_mul, Int.add_zero] at h
  have h2 := relay_getElem lowT highT lowV highV init (elems mx px xs n) k (by simpa using hk)
  rw [← h] at h2
  rw [← relayCore] at h2
  rw [List.getElem?_eq_getElem (by simpa using hk), elems_getElem] at h2
  exact Option.some.inj h2

/-- C25: nothing outside the output view is written. -/
theorem C25_relay_frame (lowT highT lowV highV init : α) (mx : Mem α) (px xs : Int) (mo : Mem α)
    (po os : Int) (n : Nat) (addr : Int) (h : ∀ j < n, addr ≠ po + (j : Int) * os) :
    relayCore lowT highT lowV highV init mx px xs mo po os n addr = mo addr :=
  relayLoop_frame _ _ _ _ _ _ _ _ _ _ _ _ _ _ (fun j _ h2 => h j (by omega))

/-- The memory-level core computes the list-level function. -/
theorem C25_relay_list (lowT highT lowV highV init : α) (mx : Mem α) (px xs : Int) (mo : Mem α)
    (po os : Int) (hos : os ≠ 0) (n : Nat) :
    elems (relayCore lowT highT lowV highV init mx px xs mo po os n) po os n =
      relay lowT highT lowV highV init (elems mx px xs n) := by
  have h := relayLoop_eq lowT highT lowV highV init mx px xs po os hos n 0 mo init (by simp)
  simpa [relayCore] using h

/-- C25: every output is one of the three given values. -/
theorem C25_relay_values (lowT highT lowV highV init : α) (xs : List α) :
    ∀ y ∈ relay lowT highT lowV highV init xs, y = lowV ∨ y = highV ∨ y = init := by
  intro y hy
  obtain ⟨k, hk, rfl⟩ := List.mem_iff_getElem.1 hy
  rw [relay_length] at hk
  have := relay_getElem lowT highT lowV highV init xs k hk
  rw [List.getElem?_eq_getElem (by rw [relay_length]; exact hk)] at this
  rw [Option.some.inj this]
  unfold relayValue
  split
  · simp
  · split <;> simp

/-- C25: a sample that compares neither below nor above (a NaN, or one inside
the band) keeps the state. -/
theorem C25_relay_keep (lowT highT lowV highV prev x : α) (h1 : ¬ x < lowT) (h2 : ¬ highT < x)
    (xs : List α) :
    relay lowT highT lowV highV prev (x :: xs) = prev :: relay lowT highT lowV highV prev xs := by
  simp [relay, h1, h2]

/-- C26: hysteresis_relay in two chunks, the second started from the last
output of the first. -/
theorem C26_relay_chunks (lowT highT lowV highV init : α) (xs ys : List α) :
    relay lowT highT lowV highV init (xs ++ ys) =
      relay lowT highT lowV highV init xs ++
      relay lowT highT lowV highV ((relay lowT highT lowV highV init xs).getLastD init) ys :=
  relay_append _ _ _ _ _ xs ys

end Relay

section BacklashFree
variable [Add α] [Sub α] [LT α] [DecidableLT α] [Div α] [OfNat α 2]

/-- C26: backlash in two chunks (bit-exact, no law of arithmetic used). -/
theorem C26_backlash_chunks (deadband initial : α) (xs ys : List α) :
    backlash deadband initial (xs ++ ys) =
      backlash deadband initial xs ++
      backlash deadband ((backlash deadband initial xs).getLastD initial) ys :=
  backlashLoop_append _ _ xs ys

variable [Mul α] [OfNat α 0]

/-- C26: backlash_sum in two chunks: outputs concatenate, `final` is passed on. -/
theorem C26_backlash_sum_chunks (chs : List (Channel α)) (initial xs ys : List α) :
    backlashSum chs initial (xs ++ ys) =
      ((backlashSum chs initial xs).1 ++ (backlashSum chs (backlashSum chs initial xs).2 ys).1,
       (backlashSum chs (backlashSum chs initial xs).2 ys).2) :=
  sumOuter_append chs initial xs ys

/-- C29: `final[j]` is the last output of the j-th backlash (its initial state if
the input is empty). -/
theorem C29_final (chs : List (Channel α)) (initial : List α) (hlen : initial.length = chs.length)
    (xs : List α) :
    (backlashSum chs initial xs).2 =
      List.zipWith (fun c y => (backlash c.deadband y xs).getLastD y) chs initial := by
  induction xs generalizing initial with
  | nil =>
    simp only [backlashSum, sumOuter, backlash, backlashLoop, List.getLastD_nil]
    apply List.ext_getElem
    · simp [hlen]
    · intro i h1 h2; simp
  | cons x xs ih =>
    simp only [backlashSum, sumOuter] at *
    rw [sumInner_fst, ih _ (by simp [hlen])]
    apply List.ext_getElem
    · simp
    · intro i h1 h2
      simp only [List.getElem_zipWith, backlash, backlashLoop]
      rw [List.getLastD_cons]

/-- C29: output `k` is the left-to-right sum, from 0, of `w[j] * b_j[k]` where
`b_j` is the backlash of channel `j` alone (bit-exact). -/
theorem C29_out (chs : List (Channel α)) (initial : List α) (hlen : initial.length = chs.length)
    (xs : List α) (k : Nat) (hk : k < xs.length) :
    (backlashSum chs initial xs).1[k]? = some
      ((List.zipWith (fun c y => c.w * ((backlash c.deadband y xs)[k]?).getD y) chs initial).foldl
        (· + ·) 0) := by
  induction xs generalizing initial k with
  | nil => simp at hk
  | cons x xs ih =>
    cases k with
    | zero => simp [backlashSum, sumOuter, sumInner_snd, backlash, backlashLoop]
    | succ k =>
      have hk' : k < xs.length := by simpa using hk
      have h1 := ih (sumInner x chs initial 0).1 (by simp [sumInner_fst, hlen]) k hk'
      simp only [backlashSum, sumOuter, List.getElem?_cons_succ] at h1 ⊢
      rw [h1, sumInner_fst]
      congr 2
      apply List.ext_getElem
      · simp
      · intro i h1 h2
        simp only [List.getElem_zipWith, backlash, backlashLoop, List.getElem?_cons_succ]
        congr 1
        rw [List.getElem?_eq_getElem (by rw [backlashLoop_length]; exact hk')]
        rfl

end BacklashFree

section BacklashOrder
/-! `α` is linearly ordered; `x - h` and `x + h` are any functions with
`x - h ≤ x + h`, monotone in `x`: exact arithmetic, or IEEE arithmetic with
monotone rounding away from NaN. -/
variable [LinearOrder α] [Add α] [Sub α]

theorem step_eq_clamp (h y x : α) (hx : x - h ≤ x + h) :
    backlashStep h y x = max (x - h) (min y (x + h)) := by
  unfold backlashStep
  simp only
  split
  · rename_i h1
    rw [max_eq_left]
    exact le_trans (min_le_left _ _) (le_of_lt h1)
  · rename_i h1
    have h1 : x - h ≤ y := not_lt.1 h1
    split
    · rename_i h2
      rw [min_eq_right (le_of_lt h2), max_eq_right hx]
    · rename_i h2
      rw [min_eq_left (not_lt.1 h2), max_eq_right h1]

theorem step_mono (h : α) (hband : ∀ x : α, x - h ≤ x + h)
    (hm : ∀ a b : α, a ≤ b → a - h ≤ b - h) (hp : ∀ a b : α, a ≤ b → a + h ≤ b + h)
    {y y' x x' : α} (hy : y ≤ y') (hx : x ≤ x') : backlashStep h y x ≤ backlashStep h y' x' := by
  rw [step_eq_clamp _ _ _ (hband x), step_eq_clamp _ _ _ (hband x')]
  exact max_le_max (hm _ _ hx) (min_le_min hy (hp _ _ hx))

variable [Div α] [OfNat α 2]

/-- C27 (monotone arithmetic): each output lies in `[x - h, x + h]`, is the
previous output if that is in the band, and is otherwise the end of the band
nearest to it (`max (x-h) (min previous (x+h))` is the projection). -/
theorem C27_band (deadband initial : α) (hband : ∀ x : α, x - deadband / 2 ≤ x + deadband / 2)
    (xs : List α) (k : Nat) (x y prev : α) (hx : xs[k]? = some x)
    (hy : (backlash deadband initial xs)[k]? = some y)
    (hprev : if k = 0 then prev = initial else (backlash deadband initial xs)[k - 1]? = some prev) :
    y = max (x - deadband / 2) (min prev (x + deadband / 2)) ∧
    x - deadband / 2 ≤ y ∧ y ≤ x + deadband / 2 ∧
    (x - deadband / 2 ≤ prev → prev ≤ x + deadband / 2 → y = prev) := by
  have key : y = max (x - deadband / 2) (min prev (x + deadband / 2)) := by
    rw [← step_eq_clamp _ _ _ (hband x)]
    unfold backlash at hy hprev
    induction xs generalizing initial k with
    | nil => simp at hx
    | cons a xs ih =>
      cases k with
      | zero =>
        simp only [backlashLoop, List.getElem?_cons_zero, Option.some.injEq, if_true] at *
        rw [hprev, ← hx, ← hy]
      | succ k =>
        simp only [backlashLoop, List.getElem?_cons_succ] at hx hy
        apply ih _ k hx hy
        simp only [Nat.add_one_ne_zero, if_false, Nat.add_sub_cancel, backlashLoop] at hprev
        cases k with
        | zero => simpa using hprev.symm
        | succ k => simpa using hprev
  refine ⟨key, ?_, ?_, ?_⟩
  · rw [key]; exact le_max_left _ _
  · rw [key]; exact max_le (hband x) (min_le_right _ _)
  · intro h1 h2; rw [key, min_eq_left h2, max_eq_right h1]

/-- C28: backlash is monotone in the input and the initial state. -/
theorem C28_monotone (deadband : α) (hband : ∀ x : α, x - deadband / 2 ≤ x + deadband / 2)
    (hm : ∀ a b : α, a ≤ b → a - deadband / 2 ≤ b - deadband / 2)
    (hp : ∀ a b : α, a ≤ b → a + deadband / 2 ≤ b + deadband / 2)
    (i i' : α) (hi : i ≤ i') (xs xs' : List α) (hx : List.Forall₂ (· ≤ ·) xs xs') :
    List.Forall₂ (· ≤ ·) (backlash deadband i xs) (backlash deadband i' xs') := by
  unfold backlash
  induction hx generalizing i i' with
  | nil => simp [backlashLoop]
  | cons h1 _ ih =>
    simp only [backlashLoop]
    have := step_mono _ hband hm hp hi h1
    exact .cons this (ih _ _ this)

/-- C28: a constant input gives a constant output. -/
theorem C28_constant (deadband : α) (hband : ∀ x : α, x - deadband / 2 ≤ x + deadband / 2)
    (i c : α) (n : Nat) :
    backlash deadband i (List.replicate n c) =
      List.replicate n (backlashStep (deadband / 2) i c) := by
  have idem : ∀ y, backlashStep (deadband / 2) (backlashStep (deadband / 2) y c) c
      = backlashStep (deadband / 2) y c := by
    intro y
    rw [step_eq_clamp _ _ _ (hband c), step_eq_clamp _ _ _ (hband c)]
    have := hband c
    rw [min_eq_left (max_le this (min_le_right _ _)), max_eq_right (le_max_left _ _)]
  have gen : ∀ (n : Nat) (y : α), backlashStep (deadband / 2) y c = y →
      backlashLoop (deadband / 2) y (List.replicate n c) = List.replicate n y := by
    intro n
    induction n with
    | zero => intro y _; rfl
    | succ n ih =>
      intro y hy
      simp only [List.replicate_succ, backlashLoop, hy, ih y hy]
  cases n with
  | zero => rfl
  | succ n =>
    simp only [backlash, List.replicate_succ, backlashLoop]
    rw [gen n _ (idem i)]

/-- C28: a non-decreasing input gives a non-decreasing output. -/
theorem C28_nondecreasing (deadband : α) (hband : ∀ x : α, x - deadband / 2 ≤ x + deadband / 2)
    (hp : ∀ a b : α, a ≤ b → a + deadband / 2 ≤ b + deadband / 2)
    (i : α) (xs : List α) (hs : xs.Pairwise (· ≤ ·)) :
    (backlash deadband i xs).Pairwise (· ≤ ·) := by
  unfold backlash
  have gen : ∀ (xs : List α) (y : α), (∀ x ∈ xs, y ≤ x + deadband / 2) → xs.Pairwise (· ≤ ·) →
      (backlashLoop (deadband / 2) y xs).Pairwise (· ≤ ·) ∧
      ∀ z ∈ backlashLoop (deadband / 2) y xs, y ≤ z := by
    intro xs
    induction xs with
    | nil => intro y _ _; simp [backlashLoop]
    | cons x xs ih =>
      intro y hy hs
      have hs := List.pairwise_cons.1 hs
      have hstep : backlashStep (deadband / 2) y x = max (x - deadband / 2) y := by
        rw [step_eq_clamp _ _ _ (hband x), min_eq_left (hy x (by simp))]
      have hy' : ∀ z ∈ xs, backlashStep (deadband / 2) y x ≤ z + deadband / 2 := by
        intro z hz
        rw [hstep]
        exact max_le (le_trans (hband x) (hp _ _ (hs.1 z hz))) (hy z (by simp [hz]))
      obtain ⟨h1, h2⟩ := ih _ hy' hs.2
      simp only [backlashLoop]
      refine ⟨List.pairwise_cons.2 ⟨h2, h1⟩, ?_⟩
      intro z hz
      have hyy : y ≤ backlashStep (deadband / 2) y x := by rw [hstep]; exact le_max_right _ _
      rcases List.mem_cons.1 hz with rfl | hz
      · exact hyy
      · exact le_trans hyy (h2 z hz)
  cases xs with
  | nil => simp [backlashLoop]
  | cons x xs =>
    have hs := List.pairwise_cons.1 hs
    have hy' : ∀ z ∈ xs, backlashStep (deadband / 2) i x ≤ z + deadband / 2 := by
      intro z hz
      rw [step_eq_clamp _ _ _ (hband x)]
      exact le_trans (max_le (hband x) (min_le_right _ _)) (hp _ _ (hs.1 z hz))
    obtain ⟨h1, h2⟩ := gen xs _ hy' hs.2
    simp only [backlashLoop]
    exact List.pairwise_cons.2 ⟨h2, h1⟩

end BacklashOrder

/-- C27 in exact arithmetic: the output is within half the deadband of the
input, for every `deadband ≥ 0`. -/
theorem C27_exact {K : Type _} [Field K] [LinearOrder K] [IsStrictOrderedRing K]
    (deadband initial : K) (hd : 0 ≤ deadband) (xs : List K) (k : Nat) (x y : K)
    (hx : xs[k]? = some x) (hy : (backlash deadband initial xs)[k]? = some y) :
    |y - x| ≤ deadband / 2 := by
  have hb : ∀ x : K, x - deadband / 2 ≤ x + deadband / 2 := fun x => by linarith
  have : ∃ prev, if k = 0 then prev = initial else (backlash deadband initial xs)[k - 1]? = some prev := by
    by_cases h0 : k = 0
    · exact ⟨initial, by simp [h0]⟩
    · have hk : k < (backlash deadband initial xs).length := by
        rcases Nat.lt_or_ge k (backlash deadband initial xs).length with h | h
        · exact h
        · rw [List.getElem?_eq_none h] at hy; simp at hy
      exact ⟨_, by rw [if_neg h0, List.getElem?_eq_getElem (by omega)]⟩
  obtain ⟨prev, hp⟩ := this
  obtain ⟨_, h1, h2, _⟩ := C27_band deadband initial hb xs k x y prev hx hy hp
  rw [abs_le]; constructor <;> linarith

/-! ### Non-vacuity -/
example : relay (α := Int) (-1) 1 10 20 0 [0, 2, 1, -2, 0, 5] = [0, 20, 20, 10, 10, 20] := by decide
example : backlash (α := ℚ) 2 0 [1/2, 3, 3, 1, 5/2] = [0, 2, 2, 2, 2] := by
  norm_num [backlash, backlashLoop, backlashStep]
example : backlashSum (α := ℚ) [⟨1, 2⟩, ⟨3, 0⟩] [0, 0] [3, 1] = ([11, 5], [2, 1]) := by
  norm_num [backlashSum, sumOuter, sumInner, backlashStep]

end Ufunclab.Signal
