import Verif.Proof.ConvertToBase
/-! # Properties C05-C07: convert_to_base -/
namespace Ufunclab.ConvertToBase
open Spec

/-- C05: for `k ≥ 0` and `base ≥ 2` (any integer type holding both), the call
completes; each digit is in `[0, base)`, the digits evaluate to
`k mod base^n`, and nothing outside the output view is written. -/
theorem C05_digits (t : IntTy) (hb : 0 < t.bits) (n : Nat) (k base p s : Int) (mo : Mem Int)
    (hk : t.InRange k) (hk0 : 0 ≤ k) (hbase : t.InRange base) (hb2 : 2 ≤ base) (hs : s ≠ 0) :
    ∃ mo', core t n k base p s mo = some mo' ∧
      (∀ d ∈ elems mo' p s n, 0 ≤ d ∧ d < base) ∧
      ofDigits base (elems mo' p s n) = k % base ^ n ∧
      (∀ b, (∀ j < n, b ≠ p + (j : Int) * s) → mo' b = mo b) := by
  refine ⟨_, loop_eq t hb base p s hbase (by omega) (by omega) n 0 k hk mo, ?_, ?_, ?_⟩
  · have h := writeFrom_elems mo p s hs (digs n k base)
    rw [digs_length] at h
    rw [h]
    exact digs_nonneg n k base hk0 (by omega)
  · have h := writeFrom_elems mo p s hs (digs n k base)
    rw [digs_length] at h
    rw [h, digs_value n k base (by omega), Int.tmod_eq_emod_of_nonneg hk0]
  · intro b hbb
    apply writeFrom_frame
    intro j _ hj
    exact hbb j (by simpa using hj)

/-- C05: with enough digits (`k < base^n`) the output is *the* base-`base`
expansion of `k`: it evaluates to `k`, and any digit list of that length with
digits in `[0, base)` and value `k` is the output. -/
theorem C05_roundtrip_unique (t : IntTy) (hb : 0 < t.bits) (n : Nat) (k base p s : Int)
    (mo : Mem Int) (hk : t.InRange k) (hk0 : 0 ≤ k) (hbase : t.InRange base) (hb2 : 2 ≤ base)
    (hs : s ≠ 0) (hn : k < base ^ n) :
    ∃ mo', core t n k base p s mo = some mo' ∧ ofDigits base (elems mo' p s n) = k ∧
      ∀ ds : List Int, ds.length = n → (∀ d ∈ ds, 0 ≤ d ∧ d < base) → ofDigits base ds = k →
        elems mo' p s n = ds := by
  obtain ⟨mo', h1, h2, h3, _⟩ := C05_digits t hb n k base p s mo hk hk0 hbase hb2 hs
  rw [Int.emod_eq_of_lt hk0 hn] at h3
  refine ⟨mo', h1, h3, fun ds hl hd hv => ?_⟩
  exact ofDigits_unique base (by omega) _ _ (by simp [hl]) h2 hd (by rw [h3, hv])

/-- C06: for any `k` (in particular negative) and `base ≥ 2` the digits
evaluate to `k` reduced modulo `base^n` towards zero; for `k ≤ 0` each digit
is in `(-base, 0]`; with enough digits `k` is recovered exactly. -/
theorem C06_negative (t : IntTy) (hb : 0 < t.bits) (n : Nat) (k base p s : Int) (mo : Mem Int)
    (hk : t.InRange k) (hbase : t.InRange base) (hb2 : 2 ≤ base) (hs : s ≠ 0) :
    ∃ mo', core t n k base p s mo = some mo' ∧
      ofDigits base (elems mo' p s n) = k.tmod (base ^ n) ∧
      (k ≤ 0 → ∀ d ∈ elems mo' p s n, -base < d ∧ d ≤ 0) ∧
      (-(base ^ n) < k → k < base ^ n → ofDigits base (elems mo' p s n) = k) := by
  refine ⟨_, loop_eq t hb base p s hbase (by omega) (by omega) n 0 k hk mo, ?_⟩
  have h := writeFrom_elems mo p s hs (digs n k base)
  rw [digs_length] at h
  rw [h]
  refine ⟨digs_value n k base (by omega), ?_, ?_⟩
  · intro hk0 d hd
    rw [show k = -(-k) by omega, digs_neg n (-k) base (by omega), List.mem_map] at hd
    obtain ⟨e, he, rfl⟩ := hd
    have := digs_nonneg n (-k) base (by omega) (by omega) e he
    omega
  · intro h1 h2
    rw [digs_value n k base (by omega)]
    rcases Int.le_total 0 k with h0 | h0
    · exact Int.tmod_eq_of_lt h0 h2
    · have : (-k).tmod (base ^ n) = -k := Int.tmod_eq_of_lt (by omega) (by omega)
      rw [Int.neg_tmod] at this; omega

/-- C07 (the true statement): the exact set of inputs on which the call traps.
For representable `k` and `base`: it traps iff at least one digit is asked for
and `base = 0`, or the type is signed with at least 32 bits, `k` is the
smallest value and `base = -1`. -/
theorem C07_traps_iff (t : IntTy) (hb : 0 < t.bits) (n : Nat) (k base p s : Int) (mo : Mem Int)
    (hk : t.InRange k) (hbase : t.InRange base) :
    core t n k base p s mo = none ↔
      0 < n ∧ (base = 0 ∨ (t.signed = true ∧ 32 ≤ t.bits ∧ k = t.min ∧ base = -1)) := by
  cases n with
  | zero => simp [core, loop]
  | succ n =>
    constructor
    · intro h
      refine ⟨by omega, ?_⟩
      by_contra hcon
      have hcon' : base ≠ 0 ∧ ¬ (t.signed = true ∧ 32 ≤ t.bits ∧ k = t.min ∧ base = -1) :=
        not_or.1 hcon
      by_cases h1 : base = -1
      · subst h1
        have hsig : t.signed = true := by
          by_contra hs
          simp [IntTy.InRange, IntTy.min, hs] at hbase
        have := loop_neg_one t hb hsig p s (n + 1) 0 k hk mo (fun hx => hcon'.2 ⟨hsig, hx.1, hx.2, rfl⟩)
        unfold core at h
        rw [h] at this
        simp at this
      · unfold core at h
        rw [loop_eq t hb base p s hbase hcon'.1 h1 (n + 1) 0 k hk mo] at h
        simp at h
    · rintro ⟨_, h⟩
      apply loop_trap
      rcases h with rfl | ⟨h1, h2, h3, rfl⟩
      · simp [traps]
      · simp [traps, h1, h2, h3]

/-- C07 as a user would want it ("never traps") is false of the code: `base = 0`. -/
theorem C07_never_traps_violated :
    ¬ ∀ (t : IntTy) (n : Nat) (k base p s : Int) (mo : Mem Int), t.InRange k → t.InRange base →
      (core t n k base p s mo).isSome := by
  intro h
  have := h IntTy.i64 1 5 0 0 8 (fun _ => 0) (by decide) (by decide)
  simp [core, loop, traps] at this

/-- C07, what remains true: for every base with `|base| ≥ 2` (and base 1) the
call completes. -/
theorem C07_completes_partial (t : IntTy) (hb : 0 < t.bits) (n : Nat) (k base p s : Int)
    (mo : Mem Int) (hk : t.InRange k) (hbase : t.InRange base) (h0 : base ≠ 0) (h1 : base ≠ -1) :
    (core t n k base p s mo).isSome := by
  unfold core
  rw [loop_eq t hb base p s hbase h0 h1 n 0 k hk mo]; rfl

/-! ### Non-vacuity -/
-- docstring example: 1249 in base 8
example : (core IntTy.i64 4 1249 8 0 8 (fun _ => 77)).map (fun mo => elems mo 0 8 4)
    = some [1, 4, 3, 2] := by decide
example : IntTy.i64.InRange 1249 ∧ (1249 : Int) < 8 ^ 4 := by decide
example : (core IntTy.i8 3 (-100) 7 0 8 (fun _ => 77)).map (fun mo => elems mo 0 8 4)
    = some [-2, 0, -2, 77] := by decide
example : core IntTy.i32 1 (-2147483648) (-1) 0 8 (fun _ => 0) = none :=
  (C07_traps_iff IntTy.i32 (by decide) 1 _ _ 0 8 _ (by decide) (by decide)).2
    ⟨by decide, Or.inr (by decide)⟩

end Ufunclab.ConvertToBase
