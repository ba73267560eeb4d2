import Verif.Model.LinearInterp
import Verif.Proof.XF
import Mathlib.Algebra.Order.Field.Basic
import Mathlib.Tactic.Linarith
import Mathlib.Tactic.FieldSimp
import Mathlib.Tactic.Ring
namespace Ufunclab.LinearInterp
variable {K : Type _} [Field K] [LinearOrder K]

/-- For any table: the bisection stays in bounds. -/
theorem searchLoop_bounds (key : XF K) (arr : List (XF K)) (klow khigh : Nat)
    (h : klow < khigh) (hh : khigh < arr.length) :
    ∃ k, searchLoop key arr klow khigh = some k ∧ k < khigh := by
  induction hd : khigh - klow using Nat.strong_induction_on generalizing klow khigh with
  | _ d ih =>
    rw [searchLoop]
    split_ifs with h1
    · have hk : (klow + khigh) / 2 < arr.length := by omega
      simp only [List.getElem?_eq_getElem hk]
      split_ifs
      · exact ⟨_, rfl, by omega⟩
      · obtain ⟨k, e, b⟩ := ih (khigh - (klow + khigh) / 2) (by omega) ((klow + khigh) / 2) khigh (by omega) hh rfl
        exact ⟨k, e, b⟩
      · obtain ⟨k, e, b⟩ := ih ((klow + khigh) / 2 - klow) (by omega) klow ((klow + khigh) / 2) (by omega) (by omega) rfl
        exact ⟨k, e, by omega⟩
    · exact ⟨klow, rfl, h⟩

theorem search_bounds (key : XF K) (arr : List (XF K)) (h : arr ≠ []) :
    ∃ k, ∃ hk : k < arr.length, search key arr = some k ∧
      (k + 1 < arr.length ∨ arr.length = 1 ∨ key.eq arr[k] = true) := by
  have hl : 0 < arr.length := List.length_pos_iff.2 h
  unfold search
  simp only [List.getElem?_eq_getElem hl, List.getElem?_eq_getElem (by omega : arr.length - 1 < arr.length)]
  by_cases h1 : arr.length = 1
  · rw [if_pos h1]; exact ⟨0, hl, rfl, .inr (.inl h1)⟩
  rw [if_neg h1]
  by_cases h2 : key.eq arr[0] = true
  · rw [if_pos h2]; exact ⟨0, hl, rfl, .inr (.inr h2)⟩
  rw [if_neg h2]
  by_cases h3 : key.eq arr[arr.length - 1] = true
  · rw [if_pos h3]; exact ⟨arr.length - 1, by omega, rfl, .inr (.inr h3)⟩
  rw [if_neg h3]
  by_cases h4 : arr.length = 2
  · rw [if_pos h4]; exact ⟨0, hl, rfl, .inl (by omega)⟩
  rw [if_neg h4]
  obtain ⟨k, e, b⟩ := searchLoop_bounds key arr 0 (arr.length - 1) (by omega) (by omega)
  exact ⟨k, by omega, e, .inl (by omega)⟩

/-- Increasing finite table. -/
theorem searchLoop_sorted (key : K) (a : List K) (hs : a.Pairwise (· < ·)) (klow khigh : Nat)
    (h : klow < khigh) (hh : khigh < a.length) (hlo : a[klow] < key) (hhi : key < a[khigh]) :
    ∃ k, ∃ hk : k + 1 < a.length, searchLoop (.fin key) (a.map .fin) klow khigh = some k ∧
      a[k] ≤ key ∧ key < a[k + 1] := by
  induction hd : khigh - klow using Nat.strong_induction_on generalizing klow khigh with
  | _ d ih =>
    rw [searchLoop]
    split_ifs with h1
    · have hk : (klow + khigh) / 2 < a.length := by omega
      have e : (a.map XF.fin)[(klow + khigh) / 2]? = some (.fin a[(klow + khigh) / 2]) := by
        simp [List.getElem?_eq_getElem hk]
      simp only [e, XF.eq_fin, XF.lt_fin, decide_eq_true_eq]
      split_ifs with h2 h3
      · refine ⟨_, by omega, rfl, h2.le, ?_⟩
        rw [← h2]
        exact List.pairwise_iff_getElem.1 hs _ _ _ _ (by omega)
      · exact ih (khigh - (klow + khigh) / 2) (by omega) ((klow + khigh) / 2) khigh (by omega) hh h3 hhi rfl
      · have : key < a[(klow + khigh) / 2] := lt_of_le_of_ne (not_lt.1 h3) (fun h => h2 h.symm)
        exact ih ((klow + khigh) / 2 - klow) (by omega) klow ((klow + khigh) / 2) (by omega) (by omega) hlo this rfl
    · have : khigh = klow + 1 := by omega
      subst this
      exact ⟨klow, hh, rfl, hlo.le, hhi⟩

theorem getElem?_map_fin (a : List K) (k : Nat) (h : k < a.length) :
    (a.map XF.fin)[k]? = some (.fin a[k]) := by simp [List.getElem?_eq_getElem h]

/-- The index found for `a[0] ≤ key ≤ a[n-1]`: the key is there, or in the open bracket
that starts there. -/
theorem search_sorted (key : K) (a : List K) (hs : a.Pairwise (· < ·)) (hn : 0 < a.length)
    (hlo : a[0] ≤ key) (hhi : key ≤ a[a.length - 1]) :
    ∃ k, ∃ hk : k < a.length, search (.fin key) (a.map .fin) = some k ∧
      (a[k] = key ∨ ∃ hk' : k + 1 < a.length, a[k] < key ∧ key < a[k + 1]) := by
  unfold search
  simp only [List.length_map, getElem?_map_fin a 0 hn, getElem?_map_fin a _ (by omega : a.length - 1 < a.length),
    XF.eq_fin, decide_eq_true_eq]
  by_cases h1 : a.length = 1
  · rw [if_pos h1]
    refine ⟨0, hn, rfl, .inl ?_⟩
    have : a[a.length - 1] = a[0] := by congr 1; omega
    rw [this] at hhi
    exact le_antisymm hlo hhi
  rw [if_neg h1]
  by_cases h2 : key = a[0]
  · rw [if_pos h2]; exact ⟨0, hn, rfl, .inl h2.symm⟩
  rw [if_neg h2]
  by_cases h3 : key = a[a.length - 1]
  · rw [if_pos h3]; exact ⟨a.length - 1, by omega, rfl, .inl h3.symm⟩
  rw [if_neg h3]
  have l : a[0] < key := lt_of_le_of_ne hlo (fun h => h2 h.symm)
  have u : key < a[a.length - 1] := lt_of_le_of_ne hhi h3
  by_cases h4 : a.length = 2
  · rw [if_pos h4]
    refine ⟨0, hn, rfl, .inr ⟨by omega, l, ?_⟩⟩
    have : a[a.length - 1] = a[0 + 1] := by congr 1; omega
    rwa [this] at u
  rw [if_neg h4]
  obtain ⟨k, hk, e, x, y⟩ := searchLoop_sorted key a hs 0 (a.length - 1) (by omega) (by omega) l u
  refine ⟨k, by omega, e, ?_⟩
  rcases x.eq_or_lt with x | x
  · exact .inl x
  · exact .inr ⟨hk, x, y⟩

end Ufunclab.LinearInterp
