import Verif.Model.PyStr
import Verif.Spec.Text
import Mathlib.Data.List.Basic
namespace Ufunclab.PyStr

theorem join_cons (sep p : List Char) (r : List (List Char)) (h : r ≠ []) : join sep (p :: r) = p ++ sep ++ join sep r := by
  cases r with
  | nil => exact absurd rfl h
  | cons q r => rfl

theorem splitAux_no_sep (sep acc s : List Char) (h : ∀ t, t <:+ s → t ≠ [] → ¬ sep <+: t) :
    splitAux sep acc s = [acc.reverse ++ s] := by
  induction s generalizing acc with
  | nil => rw [splitAux]; simp
  | cons c s ih =>
    rw [splitAux, if_neg, ih _ (fun t ht hn => h t (ht.trans (List.suffix_cons c s)) hn)]
    · simp
    · rw [List.isPrefixOf_iff_prefix]; exact h _ List.suffix_rfl (by simp)

theorem splitAux_piece (c : Char) (sep acc p s : List Char) (hp : c ∉ p) :
    splitAux (c :: sep) acc (p ++ (c :: sep) ++ s) = (acc.reverse ++ p) :: splitAux (c :: sep) [] s := by
  induction p generalizing acc with
  | nil =>
    rw [List.nil_append, List.cons_append, splitAux, if_pos]
    · simp
    · rw [List.isPrefixOf_iff_prefix]; exact ⟨s, by simp⟩
  | cons d p ih =>
    rw [List.cons_append, List.cons_append, splitAux, if_neg, ih _ (by simp_all)]
    · simp
    · rw [List.isPrefixOf_iff_prefix]
      rintro ⟨t, ht⟩
      simp at ht hp
      exact hp.1 ht.1

/-- Splitting a joined list of pieces; the last piece may be anything without the separator. -/
theorem split_join (c : Char) (sep : List Char) (parts : List (List Char)) (last : List Char)
    (hp : ∀ p ∈ parts, c ∉ p) (hl : ∀ t, t <:+ last → t ≠ [] → ¬ (c :: sep) <+: t) :
    split (c :: sep) (join (c :: sep) (parts ++ [last])) = parts ++ [last] := by
  unfold split
  induction parts with
  | nil => simp [join, splitAux_no_sep _ _ _ hl]
  | cons p r ih =>
    rw [List.cons_append, join_cons _ _ _ (by simp), splitAux_piece _ _ _ _ _ (hp p (by simp)), ih (fun q hq => hp q (by simp [hq]))]
    simp

theorem split_join_char (c : Char) (parts : List (List Char)) (hne : parts ≠ []) (hp : ∀ p ∈ parts, c ∉ p) :
    split [c] (join [c] parts) = parts := by
  obtain ⟨i, l, rfl⟩ : ∃ i l, parts = i ++ [l] := ⟨_, _, (List.dropLast_append_getLast hne).symm⟩
  apply split_join c [] i l (fun p h => hp p (by simp [h]))
  intro t ht hn hc
  have : c ∈ t := hc.subset (by simp)
  exact hp l (by simp) (ht.subset this)

theorem join_not_mem (c : Char) (sep : List Char) (parts : List (List Char)) (hs : c ∉ sep) (hp : ∀ p ∈ parts, c ∉ p) :
    c ∉ join sep parts := by
  induction parts with
  | nil => simp [join]
  | cons p r ih =>
    cases r with
    | nil => exact hp p (by simp)
    | cons q r =>
      rw [join_cons _ _ _ (by simp)]
      simp only [List.mem_append, not_or]
      exact ⟨⟨hp p (by simp), hs⟩, ih (fun x hx => hp x (by simp [hx]))⟩

theorem lstrip_of_head (c : Char) (s : List Char) (h : s.head? ≠ some c) : lstrip c s = s := by
  cases s with
  | nil => rfl
  | cons d s => simp at h; simp [lstrip, List.dropWhile_cons, h]

theorem lstrip_cons (c : Char) (s : List Char) : lstrip c (c :: s) = lstrip c s := by simp [lstrip]

theorem lstrip_not_mem (c : Char) (s : List Char) (h : c ∉ s) : lstrip c s = s := by
  apply lstrip_of_head
  cases s with
  | nil => simp
  | cons d s => simp at h ⊢; exact fun e => h.1 e.symm

theorem rstrip_not_mem (c : Char) (s : List Char) (h : c ∉ s) : rstrip c s = s := by
  unfold rstrip
  have := lstrip_not_mem c s.reverse (by simpa using h)
  unfold lstrip at this
  rw [this]; simp

theorem rstrip_append (c : Char) (s : List Char) (h : c ∉ s) : rstrip c (s ++ [c]) = s := by
  unfold rstrip
  have := lstrip_not_mem c s.reverse (by simpa using h)
  unfold lstrip at this
  simp [this]

/-- First occurrence of a pattern after a prefix in which it does not start. -/
theorem find_append (sub p s : List Char) (h : ∀ i < p.length, ¬ sub <+: (p ++ sub ++ s).drop i) :
    find sub (p ++ sub ++ s) = some p.length := by
  induction p with
  | nil =>
    cases hs : sub ++ s with
    | nil => simp at hs; simp [find, hs]
    | cons c t =>
      simp only [List.nil_append, hs, find]
      rw [if_pos (by rw [List.isPrefixOf_iff_prefix, ← hs]; exact List.prefix_append _ _)]; rfl
  | cons d p ih =>
    simp only [List.cons_append, find]
    rw [if_neg, ih]
    · simp
    · intro i hi
      have := h (i + 1) (by simp; omega)
      simpa using this
    · rw [List.isPrefixOf_iff_prefix]
      have := h 0 (by simp)
      simpa using this

end Ufunclab.PyStr
