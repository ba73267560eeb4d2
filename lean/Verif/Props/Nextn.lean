import Verif.Proof.Nextn
/-! # Property C57: next_greater, next_less, nextn_greater, nextn_less -/
namespace Ufunclab.Nextn
variable {f : Fmt}

/-- C57: `next_greater(x)` is the least representable value above `x`: larger than `x`, with no
float strictly in between.  `x` is any number below `+inf` (also `-inf`, zeros, subnormals). -/
theorem C57_next_greater (x : Fl f) (h : (val x).lt .pinf = true) :
    (val x).lt (val (nextGreater x)) = true ∧
    ∀ z : Fl f, ¬ ((val x).lt (val z) = true ∧ (val z).lt (val (nextGreater x)) = true) := by
  have hx : isNan x = false := by cases x <;> simp_all [val, isNan, XF.lt]
  have hi : key x < f.inf := by
    rcases (key_bounds x).2.lt_or_eq with h' | h'
    · exact h'
    · rw [(val_pinf_iff x).2 ⟨hx, h'⟩] at h; simp [XF.lt] at h
  have hn : isNan (nextGreater x) = false := by rw [nextGreater, isNan_nextUp, hx]
  have hk : key (nextGreater x) = key x + 1 := by rw [nextGreater, key_nextUp x hx]; omega
  constructor
  · rw [val_lt_iff _ _ hx hn, hk]; omega
  · rintro z ⟨a, b⟩
    by_cases hz : isNan z = true
    · rw [(val_nan_iff z).2 hz] at b; simp [XF.lt] at b
    · have hz : isNan z = false := by simpa using hz
      rw [val_lt_iff _ _ hx hz] at a
      rw [val_lt_iff _ _ hz hn, hk] at b
      omega

/-- C57: `next_less(x)` is the greatest representable value below `x`. -/
theorem C57_next_less (x : Fl f) (h : XF.lt .ninf (val x) = true) :
    (val (nextLess x)).lt (val x) = true ∧
    ∀ z : Fl f, ¬ ((val (nextLess x)).lt (val z) = true ∧ (val z).lt (val x) = true) := by
  have hx : isNan x = false := by cases x <;> simp_all [val, isNan, XF.lt]
  have hi : -(f.inf : Int) < key x := by
    rcases (key_bounds x).1.lt_or_eq with h' | h'
    · exact h'
    · rw [(val_ninf_iff x).2 ⟨hx, h'.symm⟩] at h; simp [XF.lt] at h
  have hn : isNan (nextLess x) = false := by rw [nextLess, isNan_nextDown, hx]
  have hk : key (nextLess x) = key x - 1 := by rw [nextLess, key_nextDown x hx]; omega
  constructor
  · rw [val_lt_iff _ _ hn hx, hk]; omega
  · rintro z ⟨a, b⟩
    by_cases hz : isNan z = true
    · rw [(val_nan_iff z).2 hz] at a
      generalize val (nextLess x) = w at a
      cases w <;> simp [XF.lt] at a
    · have hz : isNan z = false := by simpa using hz
      rw [val_lt_iff _ _ hn hz, hk] at a
      rw [val_lt_iff _ _ hz hx] at b
      omega

/-- C57: special values: NaN stays NaN, infinity is absorbing. -/
theorem C57_special (x : Fl f) :
    (val x = .nan → val (nextGreater x) = .nan ∧ val (nextLess x) = .nan) ∧
    (val x = .pinf → val (nextGreater x) = .pinf) ∧ (val x = .ninf → val (nextLess x) = .ninf) := by
  refine ⟨?_, ?_, ?_⟩
  · intro h
    have := (val_nan_iff x).1 h
    exact ⟨(val_nan_iff _).2 (by rw [nextGreater, isNan_nextUp, this]), (val_nan_iff _).2 (by rw [nextLess, isNan_nextDown, this])⟩
  · intro h
    obtain ⟨hx, hk⟩ := (val_pinf_iff x).1 h
    refine (val_pinf_iff _).2 ⟨by rw [nextGreater, isNan_nextUp, hx], ?_⟩
    rw [nextGreater, key_nextUp x hx]; omega
  · intro h
    obtain ⟨hx, hk⟩ := (val_ninf_iff x).1 h
    refine (val_ninf_iff _).2 ⟨by rw [nextLess, isNan_nextDown, hx], ?_⟩
    rw [nextLess, key_nextDown x hx]; omega

/-- C57: stepping up and back down returns to the same value, except from `+inf`. -/
theorem C57_round_trip (x : Fl f) (h : (val x).lt .pinf = true) : val (nextLess (nextGreater x)) = val x := by
  have hx : isNan x = false := by cases x <;> simp_all [val, isNan, XF.lt]
  have hi : key x < f.inf := by
    rcases (key_bounds x).2.lt_or_eq with h' | h'
    · exact h'
    · rw [(val_pinf_iff x).2 ⟨hx, h'⟩] at h; simp [XF.lt] at h
  have hn : isNan (nextGreater x) = false := by rw [nextGreater, isNan_nextUp, hx]
  apply val_eq_of_key _ _ (by rw [nextLess, isNan_nextDown, hn]) hx
  have := (key_bounds x).1
  rw [nextLess, key_nextDown _ hn, nextGreater, key_nextUp x hx]; omega

/-- C57: `nextn_greater(x, n)`: element 0 is `next_greater(x)`, element `i+1` is
`next_greater` of element `i`; nothing else is written. -/
theorem C57_nextn_greater (n : Nat) (px pout so : Int) (hs : so ≠ 0) (m : Mem (Fl f)) :
    let m' := nextnGreater n px pout so m
    (0 < n → get m' pout so 0 = nextGreater (m px)) ∧
    (∀ i, i + 1 < n → get m' pout so (i + 1) = nextGreater (get m' pout so i)) ∧
    ∀ b, (∀ j < n, b ≠ pout + (j : Int) * so) → m' b = m b := by
  intro m'
  obtain ⟨h1, h2⟩ := nextnLoop_spec (nextUp (f := f)) pout so hs n 0 (m px) m
  refine ⟨?_, ?_, ?_⟩
  · intro hn; exact h1 0 hn
  · intro i hi
    have a := h1 i (by omega)
    have b := h1 (i + 1) (by omega)
    rw [Nat.zero_add] at a b
    change get (nextnLoop nextUp pout so n 0 (m px) m) pout so (i + 1) = nextUp (get (nextnLoop nextUp pout so n 0 (m px) m) pout so i)
    rw [a, b, Function.iterate_succ_apply' _ (i + 1)]
  · intro b hb
    exact h2 b (fun j _ hj => hb j (by omega))

/-- C57: the same for `nextn_less`. -/
theorem C57_nextn_less (n : Nat) (px pout so : Int) (hs : so ≠ 0) (m : Mem (Fl f)) :
    let m' := nextnLess n px pout so m
    (0 < n → get m' pout so 0 = nextLess (m px)) ∧
    (∀ i, i + 1 < n → get m' pout so (i + 1) = nextLess (get m' pout so i)) ∧
    ∀ b, (∀ j < n, b ≠ pout + (j : Int) * so) → m' b = m b := by
  intro m'
  obtain ⟨h1, h2⟩ := nextnLoop_spec (nextDown (f := f)) pout so hs n 0 (m px) m
  refine ⟨?_, ?_, ?_⟩
  · intro hn; exact h1 0 hn
  · intro i hi
    have a := h1 i (by omega)
    have b := h1 (i + 1) (by omega)
    rw [Nat.zero_add] at a b
    change get (nextnLoop nextDown pout so n 0 (m px) m) pout so (i + 1) = nextDown (get (nextnLoop nextDown pout so n 0 (m px) m) pout so i)
    rw [a, b, Function.iterate_succ_apply' _ (i + 1)]
  · intro b hb
    exact h2 b (fun j _ hj => hb j (by omega))

/-- C57: whole-output statement.  For `n` outputs of `nextn_greater` that have not reached
infinity, the outputs are exactly the representable values in `(x, out[i]]`: every float `z`
above `x` and at most `out[i]` has the value of one of `out[0..i]`. -/
theorem C57_none_skipped (n : Nat) (px pout so : Int) (hs : so ≠ 0) (m : Mem (Fl f)) (i : Nat) (hi : i < n)
    (z : Fl f) (h1 : (val (m px)).lt (val z) = true)
    (h2 : (val z).le (val (get (nextnGreater n px pout so m) pout so i)) = true) :
    ∃ j ≤ i, val z = val (get (nextnGreater n px pout so m) pout so j) := by
  obtain ⟨g, _⟩ := nextnLoop_spec (nextUp (f := f)) pout so hs n 0 (m px) m
  have hz : isNan z = false := by
    cases z with
    | nan => generalize val (m px) = w at h1; cases w <;> simp [val, XF.lt] at h1
    | num => rfl
  have hx : isNan (m px) = false := by
    by_contra hc
    rw [(val_nan_iff _).2 (by simpa using hc)] at h1; simp [XF.lt] at h1
  have it : ∀ j, isNan (nextUp^[j] (m px)) = false ∧ key (nextUp^[j] (m px)) = min (key (m px) + j) f.inf := by
    intro j
    induction j with
    | zero => have := key_bounds (m px); simp [hx]; omega
    | succ j ih =>
      rw [Function.iterate_succ_apply', isNan_nextUp]
      refine ⟨ih.1, ?_⟩
      rw [key_nextUp _ ih.1, ih.2]; push_cast; omega
  have gi : ∀ j ≤ i, get (nextnGreater n px pout so m) pout so j = nextUp^[j + 1] (m px) := by
    intro j hj; have := g j (by omega); rwa [Nat.zero_add] at this
  rw [val_lt_iff _ _ hx hz] at h1
  have hle : key z ≤ key (nextUp^[i + 1] (m px)) := by
    rw [gi i le_rfl] at h2
    by_contra hc
    have := (val_lt_iff _ _ (it (i + 1)).1 hz).2 (not_le.1 hc)
    revert h2 this
    cases val z <;> cases val (nextUp^[i + 1] (m px)) <;> simp [XF.le, XF.lt, XF.eq] <;> intros <;> grind
  have hb := key_bounds z
  rw [(it (i + 1)).2] at hle
  refine ⟨(key z - key (m px) - 1).toNat, by omega, ?_⟩
  rw [gi _ (by omega)]
  apply val_eq_of_key _ _ hz (it _).1
  rw [(it _).2]; omega

/-- C57: running `a + b` steps is running `a` steps and continuing from the last output. -/
theorem C57_continuation (a b : Nat) (px pout so : Int) (hs : so ≠ 0) (m m2 : Mem (Fl f))
    (ha : 0 < a) (hm2 : m2 px = get (nextnGreater a px pout so m) pout so (a - 1)) (j : Nat) (hj : j < b) :
    get (nextnGreater (a + b) px pout so m) pout so (a + j) = get (nextnGreater b px pout so m2) pout so j := by
  obtain ⟨g, _⟩ := nextnLoop_spec (nextUp (f := f)) pout so hs (a + b) 0 (m px) m
  obtain ⟨g1, _⟩ := nextnLoop_spec (nextUp (f := f)) pout so hs a 0 (m px) m
  obtain ⟨g2, _⟩ := nextnLoop_spec (nextUp (f := f)) pout so hs b 0 (m2 px) m2
  have e := g (a + j) (by omega)
  have e1 := g1 (a - 1) (by omega)
  have e2 := g2 j hj
  rw [Nat.zero_add] at e e1 e2
  unfold nextnGreater at hm2 ⊢
  rw [e, e2, hm2, e1, ← Function.iterate_add_apply, show a + j + 1 = j + 1 + (a - 1 + 1) by omega]

/-! ### Non-vacuity: a 2-bit exponent, 1-bit fraction toy format and the real ones -/
def binary64 : Fmt := ⟨52, 11, by decide⟩
def binary32 : Fmt := ⟨23, 8, by decide⟩
example : binary64.inf = 0x7FF0000000000000 ∧ binary32.inf = 0x7F800000 := by decide
example : val (f := binary32) (.num false 0x3F800000 (by decide)) = .fin 1 := by
  have h1 : ¬ (0x3F800000 = binary32.inf) := by decide
  have h2 : scaled binary32 0x3F800000 = 2 ^ 23 * 2 ^ 126 := by decide
  have h3 : ulp binary32 = (2 : ℚ) ^ (-149 : ℤ) := rfl
  simp only [val]
  rw [if_neg h1, h2, h3]
  norm_num
example : nextGreater (f := binary32) (.num true 1 (by decide)) = .num true 0 (by decide) := rfl

end Ufunclab.Nextn
