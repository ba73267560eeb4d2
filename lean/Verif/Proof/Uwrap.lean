import Verif.Model.Uwrap
import Verif.Spec.Uwrap
import Verif.Proof.PyStr
import Mathlib.Tactic.Common
/-! # Helper lemmas for uwrap -/
namespace Ufunclab.Uwrap
open PyStr UwrapSpec

theorem splitAux_ne_nil (sep acc s : Str) : splitAux sep acc s ≠ [] := by
  cases s with
  | nil => rw [splitAux]; simp
  | cons c s =>
    rw [splitAux]; split
    · simp
    · exact splitAux_ne_nil sep _ s

theorem join_splitAux (sep : Str) (hsep : sep ≠ []) (n : Nat) (acc s : Str) (hn : s.length ≤ n) :
    join sep (splitAux sep acc s) = acc.reverse ++ s := by
  induction n generalizing acc s with
  | zero =>
    have : s = [] := List.length_eq_zero_iff.mp (by omega)
    subst this; rw [splitAux]; simp [join]
  | succ n ih =>
    cases s with
    | nil => rw [splitAux]; simp [join]
    | cons c s =>
      rw [splitAux]
      split
      next h =>
        rw [List.isPrefixOf_iff_prefix] at h
        obtain ⟨t, ht⟩ := h
        have hd : s.drop (sep.length - 1) = t := by
          cases sep with
          | nil => exact absurd rfl hsep
          | cons d sep =>
            simp only [List.cons_append, List.cons.injEq] at ht
            rw [← ht.2]; simp
        have hl : t.length ≤ n := by
          rw [← hd]; simp only [List.length_drop, List.length_cons] at hn ⊢; omega
        rw [join_cons _ _ _ (splitAux_ne_nil _ _ _), hd, ih [] t hl]
        simp [← ht]
      · rw [ih (c :: acc) s (by simpa using hn)]; simp

theorem join_split (sep : Str) (hsep : sep ≠ []) (s : Str) : join sep (split sep s) = s := by
  simpa [split] using join_splitAux sep hsep s.length [] s (Nat.le_refl _)

theorem split_ne_nil (sep s : Str) : split sep s ≠ [] := splitAux_ne_nil sep [] s

/-! ## to_lines -/

/-- Width that the first `k` parts take in the inner loop: `sum (len + 2)`. -/
def width (l : List Str) : Nat := (l.map (fun p => p.length + 2)).sum

theorem mem_width {q : Str} {l : List Str} (h : q ∈ l) : q.length + 2 ≤ width l := by
  induction l with
  | nil => simp at h
  | cons p ps ih =>
    simp only [width, List.map_cons, List.sum_cons] at ih ⊢
    rcases List.mem_cons.mp h with rfl | h
    · omega
    · have := ih h; omega

theorem fit_le (pad n : Nat) (l : List Str) : fit pad n l ≤ l.length := by
  induction l generalizing n with
  | nil => simp [fit]
  | cons p ps ih =>
    rw [fit]
    split
    · have := ih (n + (p.length + 2)); simp; omega
    · simp

theorem fit_width (pad n : Nat) (l : List Str) (h : fit pad n l ≠ 0) :
    n + pad + width (l.take (fit pad n l)) < 80 := by
  induction l generalizing n with
  | nil => simp [fit] at h
  | cons p ps ih =>
    rw [fit] at h ⊢
    split at h
    next hlt =>
      rw [if_pos hlt]
      by_cases h0 : fit pad (n + (p.length + 2)) ps = 0
      · simp [h0, width]; omega
      · have := ih _ h0
        simp [width] at this ⊢; omega
    · exact absurd rfl h

theorem fit_pos (pad : Nat) (p : Str) (ps : List Str) : fit pad 0 (p :: ps) ≠ 0 ↔ pad + p.length + 2 < 80 := by
  rw [fit]
  split
  next h => simp; omega
  next h => simp; omega

theorem join_length (l : List Str) (h : l ≠ []) : (join [',', ' '] l).length + 2 = width l := by
  induction l with
  | nil => exact absurd rfl h
  | cons p ps ih =>
    cases ps with
    | nil => simp [join, width]
    | cons q r =>
      have := ih (by simp)
      rw [join_cons _ _ _ (by simp)]
      simp only [List.length_append, width, List.map_cons, List.sum_cons, List.length_cons, List.length_nil] at this ⊢
      omega

theorem join_append' (sep : Str) (a b : List Str) (ha : a ≠ []) (hb : b ≠ []) :
    join sep (a ++ b) = join sep a ++ sep ++ join sep b := by
  induction a with
  | nil => exact absurd rfl ha
  | cons p ps ih =>
    cases ps with
    | nil => rw [List.singleton_append, join_cons _ _ _ hb]; rfl
    | cons q r =>
      rw [List.cons_append, join_cons sep p _ (by simp), ih (by simp), join_cons sep p (q :: r) (by simp)]
      simp

/-- Lines of the loop. -/
theorem loop_spec (offset fuel pad : Nat) (parts : List Str) (hpad : pad ≤ offset) (ls : List Str)
    (h : linesLoop offset fuel pad parts = some ls) (hne : parts ≠ []) :
    (∀ l ∈ ls, l.length ≤ 78) ∧ ls ≠ [] ∧ ls.length ≤ parts.length ∧
    ∃ first rest, ls = first :: rest ∧ first.take pad = List.replicate pad ' ' ∧
      (∀ l ∈ rest, l.take offset = List.replicate offset ' ') ∧
      first.drop pad ++ (rest.map (fun l => ' ' :: l.drop offset)).flatten = join [',', ' '] parts := by
  induction fuel generalizing pad parts ls with
  | zero => cases parts <;> simp_all [linesLoop]
  | succ fuel ih =>
    cases parts with
    | nil => exact absurd rfl hne
    | cons p ps =>
      rw [linesLoop] at h
      simp only [Option.map_eq_some_iff] at h
      obtain ⟨ls', h', rfl⟩ := h
      by_cases hk0 : fit pad 0 (p :: ps) = 0
      · -- nothing fits: the run does not end
        exfalso
        have hbig : ¬ (offset + p.length + 2 < 80) := by
          intro hlt; exact (fit_pos pad p ps).mpr (by omega) hk0
        have : ∀ f, linesLoop offset f offset (p :: ps) = none := by
          intro f
          induction f with
          | zero => rfl
          | succ f ihf =>
            have hz : fit offset 0 (p :: ps) = 0 := by
              by_contra hc; exact hbig ((fit_pos offset p ps).mp hc)
            rw [linesLoop]
            simp only [hz, List.drop_zero, ihf, Option.map_none]
        rw [hk0, List.drop_zero, this] at h'
        exact absurd h' (by simp)
      · set k := fit pad 0 (p :: ps) with hk
        have hkle : k ≤ (p :: ps).length := fit_le pad 0 (p :: ps)
        have hw := fit_width pad 0 (p :: ps) hk0
        rw [← hk] at hw
        have htne : (p :: ps).take k ≠ [] := by
          intro hc; have := congrArg List.length hc
          simp only [List.length_take, List.length_nil] at this
          have : 0 < (p :: ps).length := by simp
          omega
        have hjl := join_length _ htne
        have hlen : (List.replicate pad ' ' ++ join [',', ' '] ((p :: ps).take k) ++
            (if k = (p :: ps).length then [] else [','])).length ≤ 78 := by
          simp only [List.length_append, List.length_replicate]
          split <;> simp <;> omega
        by_cases hkl : k = (p :: ps).length
        · -- last line
          rw [hkl, List.drop_length] at h'
          have hls' : ls' = [] := by cases fuel <;> simp_all [linesLoop]
          subst hls'
          refine ⟨?_, by simp, by simp, _, [], rfl, ?_, by simp, ?_⟩
          · intro l hl; simp only [List.mem_singleton] at hl; rw [hl]; exact hlen
          · rw [List.append_assoc, List.take_left' (by simp)]
          · rw [List.append_assoc, List.drop_left' (by simp), if_pos hkl, hkl, List.take_length]; simp
        · have hdne : (p :: ps).drop k ≠ [] := by
            intro hc; have := congrArg List.length hc
            simp only [List.length_drop, List.length_nil] at this
            omega
          obtain ⟨hL, hne', hcount, first, rest, rfl, hft, hrt, hjoin⟩ := ih offset _ (Nat.le_refl _) ls' h' hdne
          refine ⟨?_, by simp, ?_, _, _, rfl, ?_, ?_, ?_⟩
          · intro l hl
            rcases List.mem_cons.mp hl with rfl | hl
            · exact hlen
            · exact hL l hl
          · simp only [List.length_drop, List.length_cons] at hcount ⊢
            omega
          · rw [List.append_assoc, List.take_left' (by simp)]
          · intro l hl
            rcases List.mem_cons.mp hl with rfl | hl
            · exact hft
            · exact hrt l hl
          · conv_rhs => rw [← List.take_append_drop k (p :: ps), join_append' _ _ _ htne hdne, ← hjoin]
            rw [List.append_assoc (List.replicate _ _), List.drop_left' (by simp), if_neg hkl]
            simp

theorem loop_terminates (offset : Nat) (parts : List Str) (h : ∀ p ∈ parts, offset + p.length + 2 < 80) (fuel : Nat)
    (hf : parts.length ≤ fuel) : (linesLoop offset fuel offset parts).isSome := by
  induction fuel generalizing parts with
  | zero => cases parts <;> simp_all [linesLoop]
  | succ fuel ih =>
    cases parts with
    | nil => simp [linesLoop]
    | cons p ps =>
      rw [linesLoop]
      simp only [Option.isSome_map]
      have hk : fit offset 0 (p :: ps) ≠ 0 := (fit_pos offset p ps).mpr (h p (by simp))
      apply ih
      · intro q hq; exact h q (List.mem_of_mem_drop hq)
      · simp only [List.length_drop, List.length_cons] at hf ⊢; omega

theorem fit_max (pad : Nat) (parts : List Str) (q : Str) (r : List Str) (n : Nat)
    (h : parts.drop (fit pad n parts) = q :: r) : ¬ (n + pad + width (parts.take (fit pad n parts)) + q.length + 2 < 80) := by
  induction parts generalizing n with
  | nil => simp [fit] at h
  | cons p ps ih =>
    rw [fit] at h ⊢
    split at h
    next hlt =>
      rw [if_pos hlt]
      have := ih (n + (p.length + 2)) (by simpa using h)
      simp only [List.take_succ_cons, width, List.map_cons, List.sum_cons] at this ⊢
      omega
    next hlt =>
      rw [if_neg hlt]
      simp only [List.drop_zero, List.cons.injEq] at h
      simp only [List.take_zero, width, List.map_nil, List.sum_nil]
      rw [← h.1]; omega

theorem loop_diverges (offset : Nat) (parts : List Str) (q : Str) (hq : q ∈ parts) (hbig : ¬ offset + q.length + 2 < 80)
    (fuel : Nat) : linesLoop offset fuel offset parts = none := by
  induction fuel generalizing parts with
  | zero => cases parts <;> simp_all [linesLoop]
  | succ fuel ih =>
    cases parts with
    | nil => simp at hq
    | cons p ps =>
      rw [linesLoop]
      simp only [Option.map_eq_none_iff]
      apply ih
      by_contra hc
      have hm : q ∈ (p :: ps).take (fit offset 0 (p :: ps)) := by
        rw [← List.take_append_drop (fit offset 0 (p :: ps)) (p :: ps), List.mem_append] at hq
        exact hq.resolve_right hc
      have h0 : fit offset 0 (p :: ps) ≠ 0 := by intro h0; rw [h0] at hm; simp at hm
      have hw := fit_width offset 0 (p :: ps) h0
      have : q.length + 2 ≤ width ((p :: ps).take (fit offset 0 (p :: ps))) := by
        exact mem_width hm
      omega

end Ufunclab.Uwrap
