import Verif.Proof.Inspector
/-!
# C91: what `ufunc_inspector` prints
-/
namespace Ufunclab.InspectorProps
open Inspector InspectorSpec InspectorProof

/-- C91 (report): for every ufunc object NumPy can create whose type numbers all have descriptors, the
text printed is the head (for a gufunc: the six lists with one entry per core dimension or argument, each
in brackets, the flags by name, and the core dimensions of each argument), one line per inner loop with
the type numbers and characters of exactly that loop and the name of its generic loop, and the registered
user loops.  No array is read outside its bounds and no exception is left set. -/
theorem C91_report {F : Type} [DecidableEq F] (gen : String → F) (descr : Int → Option (Char × Option String)) (u : UFunc F)
    (h : WellFormed u) (hknown : Listed u → ∀ t ∈ u.types, descr t ≠ none)
    (huser : ∀ d, u.userloops = some d → ∀ k ∈ d, descr k.1 ≠ none) :
    ∃ what : Nat → String,
      (Listed u → ∀ i (hi : i < u.functions.length), Describes gen u.nin u.functions[i] (what i)) ∧
      inspect gen descr u = some ⟨head u ++ loopLines descr u what ++ userReport descr u, false⟩ := by
  have huser' : ∀ d, u.userloops = some d → ∀ k ∈ d, (descr k.1).isSome := fun d hd k hk =>
    Option.isSome_iff_ne_none.mpr (huser d hd k hk)
  by_cases hl : Listed u
  · have hl' := hl
    obtain ⟨l1, l2, l3⟩ := hl'
    set out0 : Out := if u.ntypes > 0 ∧ u.nin > 0 ∧ u.nin < 5 ∧ u.nout = 1 then (⟨head u, false⟩ : Out).put "loop types:\n" else ⟨head u, false⟩ with hout0
    have e0 : out0 = ⟨head u ++ (if u.ntypes = 0 then "" else "loop types:\n"), false⟩ := by
      rw [hout0]
      by_cases hz : u.ntypes = 0
      · rw [if_neg (by omega), if_pos hz]; simp
      · rw [if_pos (by omega), if_neg hz]; rfl
    obtain ⟨what, hw, hp⟩ := printLoops_eq gen descr u h hl u.ntypes 0 out0 (by omega)
    have hmiss : ((List.range' 0 u.ntypes).any fun k => Missing descr (loopTypes u.nargs u.types k)) = false := by
      rw [List.any_eq_false]
      intro k hk
      simp only [Missing, Bool.not_eq_true, List.any_eq_false]
      intro t ht
      have hkn : k < u.ntypes := by simpa using hk
      have := hknown hl t ((mem_types_iff u.types u.nargs u.ntypes h.nargs_pos h.types t).mpr ⟨k, hkn, ht⟩)
      exact Option.isNone_eq_false_iff.mpr (Option.isSome_iff_ne_none.mpr this)
    refine ⟨what, ?_, ?_⟩
    · intro _ i hi
      obtain ⟨f, hf, hd⟩ := hw i (by omega) (by rw [← h.functions]; exact hi)
      rw [List.getElem?_eq_getElem hi] at hf
      cases hf
      exact hd
    · unfold inspect
      rw [printHead_eq u h]
      simp only [Option.bind_eq_bind, Option.bind_some]
      rw [← hout0, hp, hmiss, e0]
      simp only [Option.bind_some, Bool.or_false]
      unfold loopLines userReport
      rw [if_pos hl, List.range_eq_range']
      cases hu : u.userloops with
      | none => simp only [String.append_assoc, String.append_empty]
      | some d =>
        simp only
        rw [printUser_text descr u h.nargs d _ (h.user d hu) rfl (huser' d hu)]
        simp only [Out.put, String.append_assoc]
  · refine ⟨fun _ => "", fun h => absurd h hl, ?_⟩
    have hc : ¬ (u.ntypes > 0 ∧ u.nin > 0 ∧ u.nin < 5 ∧ u.nout = 1) := by
      unfold Listed at hl; omega
    unfold inspect
    rw [printHead_eq u h]
    simp only [Option.bind_eq_bind, Option.bind_some, if_neg hc]
    rw [printLoops_none gen descr u hl]
    simp only [Option.bind_some]
    unfold loopLines userReport
    rw [if_neg hl]
    cases hu : u.userloops with
    | none => simp only [String.append_empty]
    | some d =>
      simp only
      rw [printUser_text descr u h.nargs d _ (h.user d hu) rfl (huser' d hu)]
      simp only [Out.put, String.append_assoc, String.append_empty]

/-- C91 (exceptions): the inspector reads every array inside its bounds, and it ends with an exception set
exactly if it meets a type number without a descriptor: among the loops it lists, or as the key of a
registered user loop. -/
theorem C91_raises_iff {F : Type} [DecidableEq F] (gen : String → F) (descr : Int → Option (Char × Option String)) (u : UFunc F)
    (h : WellFormed u) : ∃ o, inspect gen descr u = some o ∧
      (o.err = true ↔ (Listed u ∧ ∃ t ∈ u.types, descr t = none) ∨ (∃ d, u.userloops = some d ∧ ∃ k ∈ d, descr k.1 = none)) := by
  set out0 : Out := if u.ntypes > 0 ∧ u.nin > 0 ∧ u.nin < 5 ∧ u.nout = 1 then (⟨head u, false⟩ : Out).put "loop types:\n" else ⟨head u, false⟩ with hout0
  have e0 : out0.err = false := by rw [hout0]; split_ifs <;> rfl
  have key : ∃ o1, printLoops gen descr u u.ntypes 0 out0 = some o1 ∧ (o1.err = true ↔ Listed u ∧ ∃ t ∈ u.types, descr t = none) := by
    by_cases hl : Listed u
    · obtain ⟨what, hw, hp⟩ := printLoops_eq gen descr u h hl u.ntypes 0 out0 (by omega)
      refine ⟨_, hp, ?_⟩
      simp only [e0, Bool.false_or, List.any_eq_true, Missing, hl, true_and]
      constructor
      · rintro ⟨k, hk, t, ht, hn⟩
        exact ⟨t, (mem_types_iff u.types u.nargs u.ntypes h.nargs_pos h.types t).mpr ⟨k, by simpa using hk, ht⟩, by simpa using hn⟩
      · rintro ⟨t, ht, hn⟩
        obtain ⟨k, hk, hm⟩ := (mem_types_iff u.types u.nargs u.ntypes h.nargs_pos h.types t).mp ht
        exact ⟨k, by simpa using hk, t, hm, by simpa using hn⟩
    · exact ⟨out0, printLoops_none gen descr u hl _ _ _, by simp [e0, hl]⟩
  obtain ⟨o1, ho1, hiff⟩ := key
  unfold inspect
  rw [printHead_eq u h]
  simp only [Option.bind_eq_bind, Option.bind_some]
  rw [← hout0, ho1]
  simp only [Option.bind_some]
  cases hu : u.userloops with
  | none => exact ⟨o1, rfl, by simp [hiff]⟩
  | some d =>
    obtain ⟨o, ho, hoiff⟩ := printUser_err descr u h.nargs d (o1.put "Registered user loops:\n") (h.user d hu)
    refine ⟨o, ho, ?_⟩
    rw [hoiff]
    simp only [Out.put, hiff, Option.some.injEq, exists_eq_left']

/-- C91 (names): if the recognised generic loops have different addresses, the description of a loop is
determined: the name printed is the name of the loop. -/
theorem C91_name_determined {F : Type} (gen : String → F) (nin : Nat) (l : List String) (hl : generics nin = some l)
    (hinj : ∀ a ∈ l, ∀ b ∈ l, gen a = gen b → a = b) (f : F) (s : String) (hs : Describes gen nin f s) :
    (∀ g ∈ l, f = gen g → s = "PyUFunc_" ++ g) ∧ ((∀ g ∈ l, f ≠ gen g) → s = "not generic (or not in the checked generics)") := by
  unfold Describes at hs
  rw [hl] at hs
  rcases hs with ⟨g, hg, hf, hs⟩ | ⟨hn, hs⟩
  · refine ⟨fun g' hg' hf' => ?_, fun hn => absurd hf (hn g hg)⟩
    rw [hs, hinj g hg g' hg' (hf.symm.trans hf')]
  · exact ⟨fun g hg hf => absurd hf (hn g hg), fun _ => hs⟩

/-- The ufunc of an example: `nin = 2`, `nout = 1`, two loops. -/
def exampleUFunc : UFunc String :=
  { name := "logistic", coreEnabled := true, signature := "(m),(m,2)->()", nin := 2, nout := 1, nargs := 3
    coreNumDimIx := 2, coreDimSizes := [-1, 2], coreDimFlags := [0#32, 6#32], coreNumDims := [1, 2, 0]
    coreDimIxs := [0, 0, 1], coreOffsets := [0, 1, 3], opFlags := [65, 65, 66], ntypes := 2
    types := [11, 11, 11, 12, 12, 12], functions := ["ff_f", "my_dd_d"], userloops := some [(256, [[256, 7, 12]])] }

/-- Descriptors of float, double and one user type. -/
def exampleDescr : Int → Option (Char × Option String)
  | 11 => some ('f', some "numpy.float32")
  | 12 => some ('d', some "numpy.float64")
  | 256 => some ('r', some "rational")
  | _ => none

theorem example_wellFormed : WellFormed exampleUFunc where
  nargs := rfl
  nargs_pos := by decide
  dims_pos := by decide
  sizes := by decide
  flags := by decide
  numDims := by decide
  offsets := by decide
  ixs := by
    intro _ i h h'
    have : i < 3 := h
    interval_cases i <;> simp [exampleUFunc]
  opFlags := by decide
  types := rfl
  functions := rfl
  user := by
    intro d hd
    cases hd
    decide

example : WellFormed exampleUFunc ∧ Listed exampleUFunc ∧ (∀ t ∈ exampleUFunc.types, exampleDescr t ≠ none) ∧
    (∀ d, exampleUFunc.userloops = some d → ∀ k ∈ d, exampleDescr k.1 ≠ none) := by
  refine ⟨example_wellFormed, by decide, by decide, ?_⟩
  intro d hd
  cases hd
  decide

/-- The report of the example. -/
example : inspect id exampleDescr exampleUFunc = some
    ⟨"'logistic' is a gufunc with signature '(m),(m,2)->()'.
nin = 2, nout = 1
...core_num_dim_ix  (number of distinct names in sig) = 2
...core_dim_sizes                  (-1 if not frozen) = [-1, 2]
...core_dim_flags             (UFUNC_CORE_DIM* flags) = [, SIZE_INFERRED | CAN_IGNORE]
...core_num_dims    (number of core dims in each arg) = [1, 2, 0]
...core_dim_ixs      (dimension indices for each arg) = [0] [0, 1] []
...core_offsets    (pos. of 1st core dim of each arg) = [0, 1, 3]
...op_flags (flags for each op when called by nditer) = [65, 65, 66]
ntypes = 2
loop types:
  0: ( 11,  11) ->  11  (ff->f)  PyUFunc_ff_f
  1: ( 12,  12) ->  12  (dd->d)  not generic (or not in the checked generics)
Registered user loops:
  typenum = 256; type name is 'rational'
      arg_types:  in: 256 7   out: 12
", false⟩ := by decide +kernel

/-- C91 (failure): "inspecting a ufunc never raises" is false of the code.  A ufunc with a type number that
has no descriptor is printed with the character `!`, but the exception set by NumPy stays set while the
function returns `None`. -/
theorem C91_never_raises_violated : ∃ (descr : Int → Option (Char × Option String)) (u : UFunc String),
    WellFormed u ∧ ∃ o, inspect id descr u = some o ∧ o.err = true := by
  refine ⟨fun t => if t = 11 then some ('f', none) else none, exampleUFunc, example_wellFormed, ?_⟩
  obtain ⟨o, ho, hiff⟩ := C91_raises_iff (id : String → String) (fun t => if t = 11 then some ('f', none) else none) exampleUFunc example_wellFormed
  exact ⟨o, ho, hiff.mpr (Or.inl ⟨by decide, 12, by decide, by decide⟩)⟩

end Ufunclab.InspectorProps
