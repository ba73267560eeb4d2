import Verif.Spec.ConvFiles
import Mathlib.Data.List.Dedup
import Mathlib.Data.List.Nodup
import Mathlib.Order.WellFounded
/-!
# Lemmas about the include files of conv_template and about `unique_key`
-/
namespace Ufunclab.ConvFilesProof
open ConvFiles ConvFilesSpec

variable {P L : Type}

theorem resolveLines_sound (fs : Files P L) (rec : P → Option (List L)) (hrec : ∀ q out, rec q = some out → Inlined fs q out) (p : P) :
    ∀ (ls acc out : List L), resolveLines fs rec p ls acc = some out → ∃ o, InlinedLines fs p ls o ∧ out = acc ++ o := by
  intro ls
  induction ls with
  | nil => intro acc out h; simp only [resolveLines, Option.some.injEq] at h; exact ⟨[], .nil, by simp [h]⟩
  | cons l rest ih =>
    intro acc out h
    rw [resolveLines] at h
    cases ht : fs.target p l with
    | none =>
      rw [ht] at h
      obtain ⟨o, ho, rfl⟩ := ih _ _ h
      exact ⟨l :: o, .keep (fun q hq => by rw [ht] at hq; cases hq) ho, by simp⟩
    | some q =>
      rw [ht] at h
      simp only at h
      by_cases hq : (fs.content q).isSome = true
      · rw [if_pos hq] at h
        cases hr : rec q with
        | none => rw [hr] at h; simp at h
        | some sub =>
          rw [hr] at h
          simp only [Option.bind_eq_bind, Option.bind_some] at h
          obtain ⟨o, ho, rfl⟩ := ih _ _ h
          exact ⟨sub ++ o, .incl ht hq (hrec q sub hr) ho, by simp⟩
      · rw [if_neg hq] at h
        obtain ⟨o, ho, rfl⟩ := ih _ _ h
        refine ⟨l :: o, .keep (fun q' hq' => ?_) ho, by simp⟩
        rw [ht] at hq'
        cases hq'
        cases hc : fs.content q with
        | none => rfl
        | some _ => rw [hc] at hq; simp at hq

theorem resolve_sound (fs : Files P L) : ∀ (d : Nat) (p : P) (out : List L), resolve fs d p = some out → Inlined fs p out := by
  intro d
  induction d with
  | zero => intro p out h; simp [resolve] at h
  | succ n ih =>
    intro p out h
    rw [resolve] at h
    cases hc : fs.content p with
    | none => rw [hc] at h; simp at h
    | some ls =>
      rw [hc] at h
      obtain ⟨o, ho, rfl⟩ := resolveLines_sound fs _ ih p ls [] out h
      simpa using Inlined.file hc ho

theorem resolve_complete (fs : Files P L) (p : P) (out : List L) (h : Inlined fs p out) :
    ∃ d0, ∀ d, d0 ≤ d → resolve fs d p = some out := by
  refine Inlined.rec (motive_1 := fun p out _ => ∃ d0, ∀ d, d0 ≤ d → resolve fs d p = some out)
    (motive_2 := fun p ls out _ => ∃ d0, ∀ d, d0 ≤ d → ∀ acc, resolveLines fs (resolve fs d) p ls acc = some (acc ++ out))
    ?_ ?_ ?_ ?_ h
  · rintro p ls out hc _ ⟨d0, hd⟩
    refine ⟨d0 + 1, fun d hd' => ?_⟩
    obtain ⟨d, rfl⟩ : ∃ e, d = e + 1 := ⟨d - 1, by omega⟩
    rw [resolve, hc]
    simpa using hd d (by omega) []
  · intro p; exact ⟨0, fun d _ acc => by simp [resolveLines]⟩
  · rintro p l rest q sub out ht hq _ _ ⟨d1, h1⟩ ⟨d2, h2⟩
    refine ⟨max d1 d2, fun d hd acc => ?_⟩
    rw [resolveLines, ht]
    simp only [hq, if_true, h1 d (by omega), Option.bind_eq_bind, Option.bind_some]
    rw [h2 d (by omega)]
    simp
  · rintro p l rest out hk _ ⟨d2, h2⟩
    refine ⟨d2, fun d hd acc => ?_⟩
    rw [resolveLines]
    cases ht : fs.target p l with
    | none => simp only; rw [h2 d hd]; simp
    | some q => simp only [hk q ht, Option.isSome_none, Bool.false_eq_true, if_false]; rw [h2 d hd]; simp

theorem inlined_of_acc (fs : Files P L) (p : P) (h : Acc (Includes fs) p) : (fs.content p).isSome → ∃ out, Inlined fs p out := by
  induction h with
  | intro p _ ih =>
    intro hp
    obtain ⟨ls, hc⟩ := Option.isSome_iff_exists.mp hp
    have key : ∀ rest : List L, (∀ l ∈ rest, l ∈ ls) → ∃ out, InlinedLines fs p rest out := by
      intro rest
      induction rest with
      | nil => intro _; exact ⟨[], .nil⟩
      | cons l rest ihr =>
        intro hsub
        obtain ⟨out, ho⟩ := ihr (fun l hl => hsub l (by simp [hl]))
        by_cases hk : ∀ q, fs.target p l = some q → fs.content q = none
        · exact ⟨l :: out, .keep hk ho⟩
        · push Not at hk
          obtain ⟨q, ht, hq⟩ := hk
          have hq' : (fs.content q).isSome := Option.isSome_iff_ne_none.mpr hq
          obtain ⟨sub, hs⟩ := ih q ⟨ls, l, hc, hsub l (by simp), ht, hq'⟩ hq'
          exact ⟨sub ++ out, .incl ht hq' hs ho⟩
    obtain ⟨out, ho⟩ := key ls (fun _ h => h)
    exact ⟨out, .file hc ho⟩

theorem acc_of_inlined (fs : Files P L) (p : P) (out : List L) (h : Inlined fs p out) : Acc (Includes fs) p := by
  refine Inlined.rec (motive_1 := fun p out _ => Acc (Includes fs) p)
    (motive_2 := fun p ls out _ => ∀ l ∈ ls, ∀ q, fs.target p l = some q → (fs.content q).isSome → Acc (Includes fs) q)
    ?_ ?_ ?_ ?_ h
  · intro p ls out hc _ ih
    refine ⟨p, fun q hq => ?_⟩
    obtain ⟨ls', l, hc', hl, ht, hs⟩ := hq
    rw [hc] at hc'
    cases hc'
    exact ih l hl q ht hs
  · intro p l hl; simp at hl
  · intro p l rest q sub out ht hq _ _ h1 h2 l' hl' q' ht' hq'
    rcases List.mem_cons.mp hl' with rfl | hl'
    · rw [ht] at ht'; cases ht'; exact h1
    · exact h2 l' hl' q' ht' hq'
  · intro p l rest out hk _ h2 l' hl' q' ht' hq'
    rcases List.mem_cons.mp hl' with rfl | hl'
    · rw [hk q' ht'] at hq'; simp at hq'
    · exact h2 l' hl' q' ht' hq'

/-! ## unique_key -/

theorem uniqueKey_sound (keys : List (List Char)) : ∀ (fuel n : Nat) (k : List Char), uniqueKey keys fuel n = some k → k ∉ keys := by
  intro fuel
  induction fuel with
  | zero => intro n k h; simp [uniqueKey] at h
  | succ f ih =>
    intro n k h
    rw [uniqueKey] at h
    by_cases hk : candidate keys n ∈ keys
    · rw [if_pos hk] at h; exact ih _ _ h
    · rw [if_neg hk] at h; cases h; exact hk

theorem uniqueKey_runs (keys : List (List Char)) : ∀ (fuel n : Nat), (∀ m, n ≤ m → candidate keys m ∈ keys) → uniqueKey keys fuel n = none := by
  intro fuel
  induction fuel with
  | zero => intro n _; rfl
  | succ f ih =>
    intro n h
    rw [uniqueKey]
    simp only [h n (Nat.le_refl n), if_true]
    exact ih (n + 1) (fun m hm => h m (by omega))

theorem uniqueKey_stops (keys : List (List Char)) : ∀ (j n : Nat), candidate keys (n + j) ∉ keys → (uniqueKey keys (j + 1) n).isSome := by
  intro j
  induction j with
  | zero => intro n h; rw [uniqueKey]; simp only [Nat.add_zero] at h; simp [h]
  | succ j ih =>
    intro n h
    rw [uniqueKey]
    by_cases hk : candidate keys n ∈ keys
    · rw [if_pos hk]; exact ih (n + 1) (by rw [show n + 1 + j = n + (j + 1) by omega]; exact h)
    · rw [if_neg hk]; rfl

theorem candidate_all (keys : List (List Char)) (n : Nat) (h : ∀ k ∈ keys, k.length ≤ n) : candidate keys n = keys.flatten := by
  unfold candidate
  congr 1
  conv_rhs => rw [← List.map_id keys]
  apply List.map_congr_left
  intro k hk
  simp [List.take_of_length_le (h k hk)]

theorem length_le_flatten (keys : List (List Char)) (k : List Char) (h : k ∈ keys) : k.length ≤ keys.flatten.length := by
  obtain ⟨a, b, rfl⟩ := List.append_of_mem h
  simp only [List.flatten_append, List.flatten_cons, List.length_append]
  omega

/-- If the concatenation of distinct strings is one of them then the others are empty. -/
theorem flatten_mem (keys : List (List Char)) (k : List Char) (hk : k ∈ keys) (hnd : keys.Nodup) (h : k.length = keys.flatten.length) :
    ∀ x ∈ keys, x = k ∨ x = [] := by
  obtain ⟨a, b, rfl⟩ := List.append_of_mem hk
  intro x hx
  simp only [List.flatten_append, List.flatten_cons, List.length_append] at h
  rcases List.mem_append.mp hx with hx | hx
  · right
    have := length_le_flatten a x hx
    exact List.length_eq_zero_iff.mp (by omega)
  · rcases List.mem_cons.mp hx with hx | hx
    · left; exact hx
    · right
      have := length_le_flatten b x hx
      exact List.length_eq_zero_iff.mp (by omega)

theorem candidate_pair (k : List Char) (n : Nat) : ∀ keys : List (List Char), keys.Nodup → k ∈ keys → k ≠ [] → (∀ x ∈ keys, x = k ∨ x = []) →
    candidate keys n = k.take n := by
  intro keys hnd hk hne hall
  obtain ⟨a, b, rfl⟩ := List.append_of_mem hk
  have hz : ∀ l : List (List Char), k ∉ l → (∀ x ∈ l, x = k ∨ x = []) → (l.map (List.take n)).flatten = [] := by
    intro l hkl hl
    apply List.flatten_eq_nil_iff.mpr
    intro y hy
    obtain ⟨x, hx, rfl⟩ := List.mem_map.mp hy
    rcases hl x hx with rfl | rfl
    · exact absurd hx hkl
    · simp
  have hnd' := List.nodup_append.mp hnd
  have ha : k ∉ a := fun h => hnd'.2.2 k h k (by simp) rfl
  have hb : k ∉ b := (List.nodup_cons.mp hnd'.2.1).1
  unfold candidate
  rw [List.map_append, List.flatten_append, List.map_cons, List.flatten_cons, hz a ha (fun x hx => hall x (by simp [hx])),
    hz b hb (fun x hx => hall x (by simp [hx]))]
  simp

/-! ## names of files -/

theorem takeWhile_append_stop (c : Char) (a b : List Char) (ha : c ∉ a) : (a ++ c :: b).takeWhile (· ≠ c) = a := by
  rw [List.takeWhile_append_of_pos (by intro x hx; simp; rintro rfl; exact ha hx)]
  simp

theorem takeWhile_all (c : Char) (a : List Char) (ha : c ∉ a) : a.takeWhile (· ≠ c) = a :=
  by
  have := List.takeWhile_append_of_pos (p := (· ≠ c)) (l₁ := a) (l₂ := []) (by intro x hx; simp; rintro rfl; exact ha hx)
  simpa using this

theorem basename_slash (dir name : List Char) (h : '/' ∉ name) : basename (dir ++ '/' :: name) = name := by
  unfold basename
  have : (dir ++ '/' :: name).reverse = name.reverse ++ '/' :: dir.reverse := by simp
  rw [this, takeWhile_append_stop _ _ _ (by simpa using h), List.reverse_reverse]

theorem basename_plain (name : List Char) (h : '/' ∉ name) : basename name = name := by
  unfold basename
  rw [takeWhile_all _ _ (by simpa using h), List.reverse_reverse]

theorem splitextRoot_dot (stem ext : List Char) (hext : '.' ∉ ext) (hstem : ∃ c ∈ stem, c ≠ '.') : splitextRoot (stem ++ '.' :: ext) = stem := by
  unfold splitextRoot lastDot
  have : (stem ++ '.' :: ext).reverse = ext.reverse ++ '.' :: stem.reverse := by simp
  rw [this, takeWhile_append_stop _ _ _ (by simpa using hext), if_pos (by simp)]
  have hl : (stem ++ '.' :: ext).length - 1 - ext.reverse.length = stem.length := by simp
  simp only [hl, List.take_left]
  rw [if_pos]
  simpa using hstem

end Ufunclab.ConvFilesProof
