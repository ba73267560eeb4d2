import Verif.Model.Searchsorted
import Verif.Spec.Order
import Verif.Proof.Mem
namespace Ufunclab.Searchsorted
open Spec
variable {α : Type _}

theorem loopL_spec (lt : α → α → Bool) (a : Nat → α) (v : α) (lo hi n : Nat) (hle : lo ≤ hi)
    (hn : hi ≤ n)
    (hmono : ∀ i j, i ≤ j → j < n → lt (a j) v = true → lt (a i) v = true)
    (hL : ∀ i, i < lo → lt (a i) v = true)
    (hR : ∀ i, hi ≤ i → i < n → lt (a i) v = false) :
    let r := (loopL lt a v lo hi).1
    r ≤ n ∧ (∀ i, i < r → lt (a i) v = true) ∧ (∀ i, r ≤ i → i < n → lt (a i) v = false) := by
  fun_induction loopL lt a v lo hi with
  | case1 lo hi h mid hlt r ih =>
    refine ih (by omega) hn ?_ hR
    intro i hi'
    exact hmono i mid (by omega) (by omega) hlt
  | case2 lo hi h mid hlt r ih =>
    refine ih (by omega) (by omega) hL ?_
    intro i hi' hin
    cases hb : lt (a i) v with
    | false => rfl
    | true => exact absurd (hmono mid i hi' hin hb) hlt
  | case3 lo hi h =>
    have : lo = hi := by omega
    subst this
    exact ⟨hn, hL, hR⟩

theorem loopR_spec (lt : α → α → Bool) (a : Nat → α) (v : α) (lo hi n : Nat) (hle : lo ≤ hi)
    (hn : hi ≤ n)
    (hmono : ∀ i j, i ≤ j → j < n → lt v (a i) = true → lt v (a j) = true)
    (hL : ∀ i, i < lo → lt v (a i) = false)
    (hR : ∀ i, hi ≤ i → i < n → lt v (a i) = true) :
    let r := (loopR lt a v lo hi).1
    r ≤ n ∧ (∀ i, i < r → lt v (a i) = false) ∧ (∀ i, r ≤ i → i < n → lt v (a i) = true) := by
  fun_induction loopR lt a v lo hi with
  | case1 lo hi h mid hlt r ih =>
    refine ih (by omega) (by omega) hL ?_
    intro i hi' hin
    exact hmono mid i hi' hin hlt
  | case2 lo hi h mid hlt r ih =>
    refine ih (by omega) hn ?_ hR
    intro i hi'
    cases hb : lt v (a i) with
    | false => rfl
    | true => exact absurd (hmono i mid (by omega) (by omega) hb) hlt
  | case3 lo hi h =>
    have : lo = hi := by omega
    subst this
    exact ⟨hn, hL, hR⟩

theorem countP_range_prefix (p : Nat → Bool) (n r : Nat) (hr : r ≤ n)
    (h1 : ∀ i, i < r → p i = true) (h2 : ∀ i, r ≤ i → i < n → p i = false) :
    (List.range n).countP p = r := by
  induction n generalizing r with
  | zero => simp at *; omega
  | succ n ih =>
    rw [List.range_succ, List.countP_append]
    by_cases hrn : r ≤ n
    · rw [ih r hrn h1 (fun i a b => h2 i a (by omega))]
      simp [h2 n hrn (by omega)]
    · have : r = n + 1 := by omega
      subst this
      rw [ih n (by omega) (fun i a => h1 i (by omega)) (fun i a b => by omega)]
      simp [h1 n (by omega)]

theorem loopL_reads (lt : α → α → Bool) (a : Nat → α) (v : α) (lo hi : Nat) (hle : lo ≤ hi) :
    let r := loopL lt a v lo hi
    lo ≤ r.1 ∧ r.1 ≤ hi ∧ (∀ k ∈ r.2, lo ≤ k ∧ k < hi) ∧
    (lo < hi → 2 ^ r.2.length ≤ 2 * (hi - lo)) ∧ (lo = hi → r.2 = []) := by
  fun_induction loopL lt a v lo hi with
  | case1 lo hi h mid hlt r ih =>
    obtain ⟨h1, h2, h3, h4, h5⟩ := ih (by omega)
    refine ⟨by simp only [r] at *; omega, h2, ?_, ?_, by omega⟩
    · intro k hk
      rcases List.mem_cons.1 hk with rfl | hk
      · omega
      · have := h3 k hk; omega
    · intro _
      simp only [List.length_cons, Nat.pow_succ]
      by_cases hc : mid + 1 < hi
      · have := h4 hc; simp only [r] at *; omega
      · have := h5 (by omega); simp only [r] at *; rw [this]; simp; omega
  | case2 lo hi h mid hlt r ih =>
    obtain ⟨h1, h2, h3, h4, h5⟩ := ih (by omega)
    refine ⟨h1, by simp only [r] at *; omega, ?_, ?_, by omega⟩
    · intro k hk
      rcases List.mem_cons.1 hk with rfl | hk
      · omega
      · have := h3 k hk; omega
    · intro _
      simp only [List.length_cons, Nat.pow_succ]
      by_cases hc : lo < mid
      · have := h4 hc; simp only [r] at *; omega
      · have := h5 (by omega); simp only [r] at *; rw [this]; simp; omega
  | case3 lo hi h => simp; omega

theorem loopR_reads (lt : α → α → Bool) (a : Nat → α) (v : α) (lo hi : Nat) (hle : lo ≤ hi) :
    let r := loopR lt a v lo hi
    lo ≤ r.1 ∧ r.1 ≤ hi ∧ (∀ k ∈ r.2, lo ≤ k ∧ k < hi) ∧
    (lo < hi → 2 ^ r.2.length ≤ 2 * (hi - lo)) ∧ (lo = hi → r.2 = []) := by
  fun_induction loopR lt a v lo hi with
  | case1 lo hi h mid hlt r ih =>
    obtain ⟨h1, h2, h3, h4, h5⟩ := ih (by omega)
    refine ⟨h1, by simp only [r] at *; omega, ?_, ?_, by omega⟩
    · intro k hk
      rcases List.mem_cons.1 hk with rfl | hk
      · omega
      · have := h3 k hk; omega
    · intro _
      simp only [List.length_cons, Nat.pow_succ]
      by_cases hc : lo < mid
      · have := h4 hc; simp only [r] at *; omega
      · have := h5 (by omega); simp only [r] at *; rw [this]; simp; omega
  | case2 lo hi h mid hlt r ih =>
    obtain ⟨h1, h2, h3, h4, h5⟩ := ih (by omega)
    refine ⟨by simp only [r] at *; omega, h2, ?_, ?_, by omega⟩
    · intro k hk
      rcases List.mem_cons.1 hk with rfl | hk
      · omega
      · have := h3 k hk; omega
    · intro _
      simp only [List.length_cons, Nat.pow_succ]
      by_cases hc : mid + 1 < hi
      · have := h4 hc; simp only [r] at *; omega
      · have := h5 (by omega); simp only [r] at *; rw [this]; simp; omega
  | case3 lo hi h => simp; omega

theorem loopLObj_pure (lt : α → α → Bool) (a : Nat → α) (v : α) (lo hi : Nat) :
    loopLObj (fun x y => some (lt x y)) a v lo hi = some (loopL lt a v lo hi).1 := by
  fun_induction loopL lt a v lo hi with
  | case1 lo hi h mid hlt r ih =>
    rw [loopLObj]; simp only [h, if_true]
    have : lt (a ((lo + hi) / 2)) v = true := hlt
    simp only [this]; exact ih
  | case2 lo hi h mid hlt r ih =>
    rw [loopLObj]; simp only [h, if_true]
    have : lt (a ((lo + hi) / 2)) v = false := by simpa using hlt
    simp only [this]; exact ih
  | case3 lo hi h => rw [loopLObj]; simp [h]

theorem loopRObj_pure (lt : α → α → Bool) (a : Nat → α) (v : α) (lo hi : Nat) :
    loopRObj (fun x y => some (lt x y)) a v lo hi = some (loopR lt a v lo hi).1 := by
  fun_induction loopR lt a v lo hi with
  | case1 lo hi h mid hlt r ih =>
    rw [loopRObj]; simp only [h, if_true]
    have : lt v (a ((lo + hi) / 2)) = true := hlt
    simp only [this]; exact ih
  | case2 lo hi h mid hlt r ih =>
    rw [loopRObj]; simp only [h, if_true]
    have : lt v (a ((lo + hi) / 2)) = false := by simpa using hlt
    simp only [this]; exact ih
  | case3 lo hi h => rw [loopRObj]; simp [h]

/-- Raised comparisons: the search fails exactly when a comparison made by
the corresponding total search raises. -/
theorem loopLObj_none (lt : α → α → Option Bool) (a : Nat → α) (v : α) (lo hi : Nat) :
    let r := loopL (fun x y => (lt x y).getD false) a v lo hi
    (loopLObj lt a v lo hi = none ↔ ∃ k ∈ r.2, lt (a k) v = none) ∧
    ((∀ k ∈ r.2, lt (a k) v ≠ none) → loopLObj lt a v lo hi = some r.1) := by
  fun_induction loopLObj lt a v lo hi with
  | case1 lo hi h mid hl =>
    rw [loopL]; simp only [h, if_true]
    have hl' : lt (a ((lo + hi) / 2)) v = none := hl
    simp [hl']
  | case2 lo hi h mid hl ih =>
    rw [loopL]; simp only [h, if_true]
    have hl' : lt (a ((lo + hi) / 2)) v = some true := hl
    simp only [hl', Option.getD_some, if_true, List.mem_cons, exists_eq_or_imp, forall_eq_or_imp]
    refine ⟨by rw [ih.1]; simp [mid], fun hh => ih.2 hh.2⟩
  | case3 lo hi h mid hl ih =>
    rw [loopL]; simp only [h, if_true]
    have hl' : lt (a ((lo + hi) / 2)) v = some false := hl
    simp only [hl', Option.getD_some, List.mem_cons, exists_eq_or_imp, forall_eq_or_imp,
      Bool.false_eq_true, if_false]
    refine ⟨by rw [ih.1]; simp [mid], fun hh => ih.2 hh.2⟩
  | case4 lo hi h => rw [loopL]; simp [h]

theorem loopRObj_none (lt : α → α → Option Bool) (a : Nat → α) (v : α) (lo hi : Nat) :
    let r := loopR (fun x y => (lt x y).getD false) a v lo hi
    (loopRObj lt a v lo hi = none ↔ ∃ k ∈ r.2, lt v (a k) = none) ∧
    ((∀ k ∈ r.2, lt v (a k) ≠ none) → loopRObj lt a v lo hi = some r.1) := by
  fun_induction loopRObj lt a v lo hi with
  | case1 lo hi h mid hl =>
    rw [loopR]; simp only [h, if_true]
    have hl' : lt v (a ((lo + hi) / 2)) = none := hl
    simp [hl']
  | case2 lo hi h mid hl ih =>
    rw [loopR]; simp only [h, if_true]
    have hl' : lt v (a ((lo + hi) / 2)) = some true := hl
    simp only [hl', Option.getD_some, if_true, List.mem_cons, exists_eq_or_imp, forall_eq_or_imp]
    refine ⟨by rw [ih.1]; simp [mid], fun hh => ih.2 hh.2⟩
  | case3 lo hi h mid hl ih =>
    rw [loopR]; simp only [h, if_true]
    have hl' : lt v (a ((lo + hi) / 2)) = some false := hl
    simp only [hl', Option.getD_some, List.mem_cons, exists_eq_or_imp, forall_eq_or_imp,
      Bool.false_eq_true, if_false]
    refine ⟨by rw [ih.1]; simp [mid], fun hh => ih.2 hh.2⟩
  | case4 lo hi h => rw [loopR]; simp [h]

end Ufunclab.Searchsorted
