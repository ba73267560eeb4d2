import Verif.Model.Fillnan
namespace Ufunclab.Fillnan
variable {α : Type _}

theorem fillRange_apply (f : Nat → α) (fuel lo : Nat) (out : Nat → α) (j : Nat) :
    fillRange f fuel lo out j = if lo ≤ j ∧ j < lo + fuel then f j else out j := by
  induction fuel generalizing lo out with
  | zero => rw [if_neg (by omega)]; rfl
  | succ n ih =>
    simp only [fillRange, ih, upd]
    by_cases h : j = lo
    · subst h; simp
    · by_cases h2 : lo + 1 ≤ j ∧ j < lo + 1 + n
      · rw [if_pos h2, if_pos (by omega)]
      · rw [if_neg h2, if_neg h, if_neg (by omega)]

theorem findFirst_spec (isnan : α → Bool) (x : Nat → α) (fuel k : Nat) :
    k ≤ findFirst isnan x fuel k ∧ findFirst isnan x fuel k ≤ k + fuel ∧
    (∀ j, k ≤ j → j < findFirst isnan x fuel k → isnan (x j) = true) ∧
    (findFirst isnan x fuel k < k + fuel → isnan (x (findFirst isnan x fuel k)) = false) := by
  induction fuel generalizing k with
  | zero => simp [findFirst]; omega
  | succ f ih =>
    simp only [findFirst]
    cases h : isnan (x k) with
    | false => simp only [Bool.not_false, if_true]; exact ⟨by omega, by omega, by omega, fun _ => h⟩
    | true =>
      simp only [Bool.not_true, Bool.false_eq_true, if_false]
      obtain ⟨h1, h2, h3, h4⟩ := ih (k + 1)
      refine ⟨by omega, by omega, ?_, fun h => h4 (by omega)⟩
      intro j hj1 hj2
      rcases Nat.eq_or_lt_of_le hj1 with rfl | hlt
      · exact h
      · exact h3 j hlt hj2

/-- What the output has to be at index `i` when only indices `≤ l` are final:
`l` is a known index. -/
structure Good (isnan : α → Bool) (lerp : α → α → Nat → Nat → α) (x out : Nat → α) (l : Nat) : Prop where
  known : isnan (x l) = false
  same : ∀ i ≤ l, isnan (x i) = false → out i = x i
  first : ∀ i ≤ l, ∀ b ≤ l, isnan (x b) = false → i < b → (∀ j < b, isnan (x j) = true) → out i = x b
  between : ∀ a i b, a < i → i < b → b ≤ l → isnan (x a) = false → isnan (x b) = false →
    (∀ j, a < j → j < b → isnan (x j) = true) → out i = lerp (x a) (x b) (i - a) (b - a)

theorem mainLoop_spec (isnan : α → Bool) (lerp : α → α → Nat → Nat → α) (x : Nat → α)
    (fuel k l : Nat) (out : Nat → α) (hlk : l < k)
    (hnan : ∀ j, l < j → j < k → isnan (x j) = true) (hg : Good isnan lerp x out l) :
    let r := mainLoop isnan lerp x fuel k (x l) l out
    l ≤ r.2.1 ∧ r.2.1 < k + fuel ∧ r.1 = x r.2.1 ∧
    (∀ j, r.2.1 < j → j < k + fuel → isnan (x j) = true) ∧ Good isnan lerp x r.2.2 r.2.1 := by
  induction fuel generalizing k l out with
  | zero =>
    simp only [mainLoop]
    exact ⟨by omega, by omega, trivial, hnan, hg⟩
  | succ f ih =>
    simp only [mainLoop]
    cases h : isnan (x k) with
    | true =>
      simp only [Bool.not_true, Bool.false_eq_true, if_false]
      have hnan' : ∀ j, l < j → j < k + 1 → isnan (x j) = true := by
        intro j h1 h2
        rcases Nat.eq_or_lt_of_le (Nat.lt_succ_iff.1 h2) with rfl | h3
        · exact h
        · exact hnan j h1 h3
      obtain ⟨h1, h2, h3, h4, h5⟩ := ih (k + 1) l out (by omega) hnan' hg
      exact ⟨h1, by omega, h3, fun j a b => h4 j a (by omega), h5⟩
    | false =>
      simp only [Bool.not_false, if_true]
      -- uniform description of the new output
      generalize hout : (if l ≠ k - 1 then
          fillRange (fun j => lerp (x l) (x k) (j - l) (k - l)) (k - l - 1) (l + 1) (upd out k (x k))
        else upd out k (x k)) = out'
      have hval : ∀ j, out' j = if l < j ∧ j < k then lerp (x l) (x k) (j - l) (k - l)
          else if j = k then x k else out j := by
        intro j
        rw [← hout]
        by_cases hl : l ≠ k - 1
        · rw [if_pos hl, fillRange_apply]
          by_cases h1 : l < j ∧ j < k
          · rw [if_pos h1, if_pos (by omega)]
          · rw [if_neg h1, if_neg (by omega)]; rfl
        · rw [if_neg hl, if_neg (by omega)]; rfl
      have hlast : ∀ a, a < k → isnan (x a) = false → (∀ j, a < j → j < k → isnan (x j) = true) → a = l := by
        intro a ha1 ha2 ha3
        rcases Nat.lt_trichotomy a l with h1 | h1 | h1
        · have := ha3 l h1 hlk; rw [hg.known] at this; simp at this
        · exact h1
        · have := hnan a h1 ha1; rw [ha2] at this; simp at this
      have hg' : Good isnan lerp x out' k := by
        refine ⟨h, ?_, ?_, ?_⟩
        · intro i hi hin
          rw [hval]
          by_cases h1 : l < i ∧ i < k
          · have := hnan i h1.1 h1.2; rw [hin] at this; simp at this
          · rw [if_neg h1]
            by_cases h2 : i = k
            · rw [if_pos h2, h2]
            · rw [if_neg h2]; exact hg.same i (by omega) hin
        · intro i hi b hb hbn hib hall
          have hbl : b ≤ l := by
            rcases Nat.lt_or_ge l b with h1 | h1
            · have := hall l h1; rw [hg.known] at this; simp at this
            · exact h1
          rw [hval, if_neg (by omega), if_neg (by omega)]
          exact hg.first i (by omega) b hbl hbn hib hall
        · intro a i b h1 h2 h3 h4 h5 h6
          rcases Nat.eq_or_lt_of_le h3 with rfl | hbk
          · have := hlast a (by omega) h4 h6
            subst this
            rw [hval, if_pos (by omega)]
          · have hbl : b ≤ l := by
              rcases Nat.lt_or_ge l b with h7 | h7
              · have := hnan b h7 hbk; rw [h5] at this; simp at this
              · exact h7
            rw [hval, if_neg (by omega), if_neg (by omega)]
            exact hg.between a i b h1 h2 hbl h4 h5 h6
      obtain ⟨h1, h2, h3, h4, h5⟩ := ih (k + 1) k out' (by omega) (fun j a b => by omega) hg'
      exact ⟨by omega, by omega, h3, fun j a b => h4 j a (by omega), h5⟩

/-- Main lemma: pointwise description of the result when some value is known. -/
theorem fillnan_spec (isnan : α → Bool) (nan : α) (lerp : α → α → Nat → Nat → α) (n : Nat)
    (x out : Nat → α) (hex : ∃ i < n, isnan (x i) = false) :
    let r := fillnan isnan nan lerp n x out
    (∀ i < n, isnan (x i) = false → r i = x i) ∧
    (∀ i b, i < b → b < n → isnan (x b) = false → (∀ j < b, isnan (x j) = true) → r i = x b) ∧
    (∀ a i, a < i → i < n → isnan (x a) = false → (∀ j, a < j → j < n → isnan (x j) = true) → r i = x a) ∧
    (∀ a i b, a < i → i < b → b < n → isnan (x a) = false → isnan (x b) = false →
      (∀ j, a < j → j < b → isnan (x j) = true) → r i = lerp (x a) (x b) (i - a) (b - a)) ∧
    (∀ i, n ≤ i → r i = out i) := by
  intro r
  obtain ⟨f1, f2, f3, f4⟩ := findFirst_spec isnan x n 0
  have hkn : findFirst isnan x n 0 < n := by
    obtain ⟨i, hi, hin⟩ := hex
    rcases Nat.lt_or_ge (findFirst isnan x n 0) n with h | h
    · exact h
    · have := f3 i (by omega) (by omega); rw [hin] at this; simp at this
  have f4' := f4 (by omega)
  set k := findFirst isnan x n 0 with hk
  -- initial Good
  have hg : Good isnan lerp x (fillRange (fun _ => x k) (k + 1) 0 out) k := by
    refine ⟨f4', ?_, ?_, ?_⟩
    · intro i hi hin
      have : i = k := by
        rcases Nat.lt_or_ge i k with h | h
        · have := f3 i (by omega) h; rw [hin] at this; simp at this
        · omega
      rw [fillRange_apply, if_pos (by omega), this]
    · intro i hi b hb hbn hib hall
      have : b = k := by
        rcases Nat.lt_or_ge b k with h | h
        · have := f3 b (by omega) h; rw [hbn] at this; simp at this
        · omega
      rw [fillRange_apply, if_pos (by omega), this]
    · intro a i b h1 h2 h3 h4
      have := f3 a (by omega) (by omega); rw [h4] at this; simp at this
  have hm := mainLoop_spec isnan lerp x (n - (k + 1)) (k + 1) k _ (by omega) (fun j a b => by omega) hg
  have hframe : ∀ (fuel k l : Nat) (v : α) (out : Nat → α) (i : Nat), l < k → k + fuel ≤ i →
      (mainLoop isnan lerp x fuel k v l out).2.2 i = out i := by
    intro fuel
    induction fuel with
    | zero => intros; rfl
    | succ f ih =>
      intro k l v out i hl hi
      simp only [mainLoop]
      split
      · rw [ih _ _ _ _ _ (by omega) (by omega)]
        split
        · rw [fillRange_apply, if_neg (by omega), upd, if_neg (by omega)]
        · rw [upd, if_neg (by omega)]
      · exact ih _ _ _ _ _ (by omega) (by omega)
  have hfr : ∀ i, n ≤ i → _ := fun i hi => hframe (n - (k + 1)) (k + 1) k (x k)
    (fillRange (fun _ => x k) (k + 1) 0 out) i (by omega) (by omega)
  generalize hmm : mainLoop isnan lerp x (n - (k + 1)) (k + 1) (x k) k
    (fillRange (fun _ => x k) (k + 1) 0 out) = mm at hm hfr
  obtain ⟨m1, m2, m3, m4, m5⟩ := hm
  have hr : ∀ i, r i = if mm.2.1 < i ∧ i < n then x mm.2.1 else mm.2.2 i := by
    intro i
    simp only [r, fillnan]
    rw [← hk, if_neg (by omega), hmm, if_pos (by omega), fillRange_apply, m3]
    by_cases h : mm.2.1 < i ∧ i < n
    · rw [if_pos h, if_pos (by omega)]
    · rw [if_neg h, if_neg (by omega)]
  have hle : ∀ b, b < n → isnan (x b) = false → b ≤ mm.2.1 := by
    intro b hb hbn
    rcases Nat.lt_or_ge mm.2.1 b with h | h
    · have := m4 b h (by omega); rw [hbn] at this; simp at this
    · exact h
  refine ⟨?_, ?_, ?_, ?_, ?_⟩
  · intro i hi hin
    have := hle i hi hin
    rw [hr, if_neg (by omega)]
    exact m5.same i this hin
  · intro i b hib hb hbn hall
    have := hle b hb hbn
    rw [hr, if_neg (by omega)]
    exact m5.first i (by omega) b this hbn hib hall
  · intro a i hai hi han hall
    have ha := hle a (by omega) han
    have : a = mm.2.1 := by
      rcases Nat.lt_or_ge a mm.2.1 with h | h
      · have := hall mm.2.1 h (by omega); rw [m5.known] at this; simp at this
      · omega
    rw [hr, if_pos (by omega), this]
  · intro a i b h1 h2 h3 h4 h5 h6
    have := hle b h3 h5
    rw [hr, if_neg (by omega)]
    exact m5.between a i b h1 h2 this h4 h5 h6
  · intro i hi
    rw [hr, if_neg (by omega), hfr i hi, fillRange_apply, if_neg (by omega)]

end Ufunclab.Fillnan
