import Verif.Proof.ConvFiles
import Mathlib.Logic.Relation
/-!
# C92: the files and keys of conv_template
-/
namespace Ufunclab.ConvFilesProps
open ConvFiles ConvFilesSpec ConvFilesProof

/-- C92 (includes): what `resolve_includes` returns is the file with all includes of existing files
inlined, at every depth and in order; and if there is such an expansion, the function returns it as soon as
enough nested calls are allowed. -/
theorem C92_includes_inlined {P L : Type} (fs : Files P L) (p : P) :
    (∀ d out, resolve fs d p = some out → Inlined fs p out) ∧
    (∀ out, Inlined fs p out → ∃ d0, ∀ d, d0 ≤ d → resolve fs d p = some out) :=
  ⟨fun d out => resolve_sound fs d p out, fun out => resolve_complete fs p out⟩

/-- C92 (one expansion): the expansion of a file is unique. -/
theorem C92_includes_unique {P L : Type} (fs : Files P L) (p : P) (o₁ o₂ : List L) (h₁ : Inlined fs p o₁) (h₂ : Inlined fs p o₂) : o₁ = o₂ := by
  obtain ⟨d₁, e₁⟩ := resolve_complete fs p o₁ h₁
  obtain ⟨d₂, e₂⟩ := resolve_complete fs p o₂ h₂
  have a := e₁ (max d₁ d₂) (by omega)
  have b := e₂ (max d₁ d₂) (by omega)
  rw [a] at b
  exact Option.some.inj b

/-- C92 (termination): for an existing file `resolve_includes` succeeds with some recursion depth exactly if
no chain of includes from it goes on forever. -/
theorem C92_includes_terminate_iff {P L : Type} (fs : Files P L) (p : P) (hp : (fs.content p).isSome) :
    (∃ d out, resolve fs d p = some out) ↔ Acc (Includes fs) p := by
  constructor
  · rintro ⟨d, out, h⟩
    exact acc_of_inlined fs p out (resolve_sound fs d p out h)
  · intro h
    obtain ⟨out, ho⟩ := inlined_of_acc fs p h hp
    obtain ⟨d0, hd⟩ := resolve_complete fs p out ho
    exact ⟨d0, out, hd d0 (le_refl _)⟩

/-- C92 (cycles): with a cycle of includes through the file, no recursion depth is enough: the tool ends
with a `RecursionError`, it does not report the cycle. -/
theorem C92_include_cycle_fails {P L : Type} (fs : Files P L) (p : P) (h : Relation.TransGen (Includes fs) p p) (d : Nat) :
    resolve fs d p = none := by
  cases hr : resolve fs d p with
  | none => rfl
  | some out =>
    have ha := acc_of_inlined fs p out (resolve_sound fs d p out hr)
    have hirr : ∀ x, Acc (Relation.TransGen (Includes fs)) x → ¬ Relation.TransGen (Includes fs) x x := by
      intro x hx
      induction hx with
      | intro x _ ih => exact fun hxx => ih x hxx hxx
    exact absurd h (hirr p ha.transGen)

/-- Two files, the second included twice by the first; a line naming a missing file stays. -/
def exampleFiles : Files Nat String where
  content p := if p = 0 then some ["a", "#1", "#7", "#1"] else if p = 1 then some ["b", "c"] else none
  target _ l := if l = "#1" then some 1 else if l = "#7" then some 7 else none

example : resolve exampleFiles 2 0 = some ["a", "b", "c", "#7", "b", "c"] := by decide

/-- A file that includes itself. -/
example : ∃ fs : Files Nat Nat, Relation.TransGen (Includes fs) 0 0 ∧ (fs.content 0).isSome :=
  ⟨⟨fun _ => some [0], fun _ _ => some 0⟩, .single ⟨[0], 0, rfl, by simp, rfl, rfl⟩, rfl⟩

/-- C92 (unique key): a key returned by `unique_key` is not a key of the dictionary. -/
theorem C92_unique_key_new (keys : List (List Char)) (fuel : Nat) (k : List Char) (h : uniqueKey keys fuel 1 = some k) : k ∉ keys :=
  uniqueKey_sound keys fuel 1 k h

/-- C92 (unique key, termination): `unique_key` terminates for a dictionary (whose keys are distinct) exactly
if the dictionary is empty or its keys have together at least two characters. -/
theorem C92_unique_key_terminates_iff (keys : List (List Char)) (hnd : keys.Nodup) :
    (∃ fuel k, uniqueKey keys fuel 1 = some k) ↔ keys = [] ∨ 2 ≤ keys.flatten.length := by
  constructor
  · rintro ⟨fuel, k, h⟩
    by_contra hc
    push Not at hc
    obtain ⟨hne, hlen⟩ := hc
    have hall : ∀ m, 1 ≤ m → candidate keys m ∈ keys := by
      intro m hm
      rw [candidate_all keys m (fun k hk => by have := length_le_flatten keys k hk; omega)]
      by_cases h0 : keys.flatten = []
      · rw [h0]
        obtain ⟨x, l, rfl⟩ := List.exists_cons_of_ne_nil hne
        have : x = [] := List.flatten_eq_nil_iff.mp h0 x (by simp)
        simp [this]
      · have h1 : keys.flatten.length = 1 := by
          have := List.length_pos_iff.mpr h0
          omega
        -- some key is not empty, and it is the concatenation
        obtain ⟨x, hx, hxne⟩ : ∃ x ∈ keys, x ≠ [] := by
          by_contra hcon
          push Not at hcon
          exact h0 (List.flatten_eq_nil_iff.mpr hcon)
        have hxl : x.length = 1 := by
          have := length_le_flatten keys x hx
          have := List.length_pos_iff.mpr hxne
          omega
        have hpair := candidate_pair x 1 keys hnd hx hxne (flatten_mem keys x hx hnd (by omega))
        rw [candidate_all keys 1 (fun k hk => by have := length_le_flatten keys k hk; omega), List.take_of_length_le (by omega)] at hpair
        rw [hpair]; exact hx
    rw [uniqueKey_runs keys fuel 1 hall] at h
    exact Option.some_ne_none k h.symm
  · rintro (rfl | h2)
    · exact ⟨1, [], by decide⟩
    · by_cases hm : keys.flatten ∈ keys
      · -- one key with at least two characters, the others empty: the first letter is new
        have hne : keys.flatten ≠ [] := by intro h; rw [h] at h2; simp at h2
        have hall := flatten_mem keys keys.flatten hm hnd rfl
        have hc := candidate_pair keys.flatten 1 keys hnd hm hne hall
        have hnot : candidate keys (1 + 0) ∉ keys := by
          intro hin
          rw [Nat.add_zero, hc] at hin
          have hl : (keys.flatten.take 1).length = 1 := by rw [List.length_take]; omega
          rcases hall _ hin with h | h
          · have := congrArg List.length h; omega
          · rw [h] at hl; simp at hl
        obtain ⟨k, hk⟩ := Option.isSome_iff_exists.mp (uniqueKey_stops keys 0 1 hnot)
        exact ⟨_, k, hk⟩
      · have hnot : candidate keys (1 + keys.flatten.length) ∉ keys := by
          rw [candidate_all keys _ (fun k hk => by have := length_le_flatten keys k hk; omega)]
          exact hm
        obtain ⟨k, hk⟩ := Option.isSome_iff_exists.mp (uniqueKey_stops keys _ 1 hnot)
        exact ⟨_, k, hk⟩

example : uniqueKey ["ab".toList, "c".toList, "ac".toList] 5 1 = some "aca".toList := by decide
example : (["ab".toList, "c".toList].Nodup) ∧ 2 ≤ (["ab".toList, "c".toList].flatten).length := by decide

/-- C92 (unique key, failure): "a new key is found for every dictionary" is false of the code: with the one
key `a` the loop never ends. -/
theorem C92_unique_key_violated : ∃ keys : List (List Char), keys.Nodup ∧ ∀ fuel, uniqueKey keys fuel 1 = none := by
  refine ⟨[['a']], by simp, fun fuel => ?_⟩
  cases h : uniqueKey [['a']] fuel 1 with
  | none => rfl
  | some k =>
    have := (C92_unique_key_terminates_iff [['a']] (by simp)).mp ⟨fuel, k, h⟩
    simp at this

/-- C92 (output file): the template `dir/stem.ext` is written to `destdir/stem`, whatever dots `stem` has
(`logistic.c.src` gives `logistic.c`). -/
theorem C92_output_name (dir stem ext destdir : List Char) (hs : '/' ∉ stem) (he : '/' ∉ ext) (hd : '.' ∉ ext) (hstem : ∃ c ∈ stem, c ≠ '.') :
    outPath destdir (dir ++ '/' :: (stem ++ '.' :: ext)) = destdir ++ '/' :: stem ∧
    outPath destdir (stem ++ '.' :: ext) = destdir ++ '/' :: stem := by
  have hn : '/' ∉ stem ++ '.' :: ext := by simp [hs, he]
  unfold outPath
  rw [basename_slash dir _ hn, basename_plain _ hn, splitextRoot_dot stem ext hd hstem]
  simp

/-- C92 (no collision): two templates with the same extension in one directory are written to
different files, and with the directory of the template as destination the template itself is not overwritten. -/
theorem C92_outputs_distinct (dir stem₁ stem₂ ext destdir : List Char) (h₁ : '/' ∉ stem₁) (h₂ : '/' ∉ stem₂) (he : '/' ∉ ext) (hd : '.' ∉ ext)
    (n₁ : ∃ c ∈ stem₁, c ≠ '.') (n₂ : ∃ c ∈ stem₂, c ≠ '.') (hne : stem₁ ≠ stem₂) :
    outPath destdir (dir ++ '/' :: (stem₁ ++ '.' :: ext)) ≠ outPath destdir (dir ++ '/' :: (stem₂ ++ '.' :: ext)) ∧
    outPath dir (dir ++ '/' :: (stem₁ ++ '.' :: ext)) ≠ dir ++ '/' :: (stem₁ ++ '.' :: ext) := by
  rw [(C92_output_name dir stem₁ ext destdir h₁ he hd n₁).1, (C92_output_name dir stem₂ ext destdir h₂ he hd n₂).1,
    (C92_output_name dir stem₁ ext dir h₁ he hd n₁).1]
  refine ⟨fun h => hne ?_, fun h => ?_⟩
  · simpa using h
  · have := congrArg List.length h
    simp at this

/-- C92 (failure): "the template itself is never overwritten" is false of the code for a name without
extension in the destination directory. -/
theorem C92_source_overwritten_violated : ∃ dir src : List Char, outPath dir src = src :=
  ⟨"d".toList, "d/template".toList, by decide⟩

example : outPath "build".toList "src/logistic.c.src".toList = "build/logistic.c".toList := by decide

end Ufunclab.ConvFilesProps
