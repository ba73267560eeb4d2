import Verif.Proof.Build
import Verif.Model.LazyImport
import Verif.Model.ImportState
/-!
# C121: building the package
-/
namespace Ufunclab.Build
variable {σ α : Type} [DecidableEq σ]

/-- Every declared output is written by its script; the scripts of the ufuncs and templates write nothing else. -/
theorem C121_outputs : (∀ t ∈ targets, ∀ f ∈ t.outputs, f ∈ t.files) ∧ ∀ t ∈ ufuncTargets ++ templateTargets, ∀ f ∈ t.files, f ∈ t.outputs := by
  decide +kernel

/-- No two targets write or look for the same file. -/
theorem C121_disjoint : targets.Pairwise fun t u => ∀ f ∈ t.steps.map Step.file, f ∉ u.steps.map Step.file := by
  decide +kernel

/-- Each extension module is built once, and every module that the package imports (`_name_to_module`, the imports of `__init__.py`, and
the imports of `_wrapped.py` and `_gendot_wrap.py`) is built or installed. -/
theorem C121_modules : extensionModules.Nodup ∧ (∀ e ∈ LazyImport.nameToModule, ∃ m ∈ extensionModules ++ pythonModules, e.2 = "." ++ m) ∧
    (∀ m ∈ ["normal", "_first", "_percentileofscore", "semivar"], m ∈ extensionModules) ∧
    (∀ m ∈ ["._wrapped", "._gendot_wrap"], ∀ n ∈ ImportState.deps m, ∃ k ∈ extensionModules, n = "." ++ k) := by
  decide +kernel

example : ImportState.deps "._wrapped" ≠ [] ∧ ImportState.deps "._gendot_wrap" ≠ [] := by decide +kernel

/-- Whatever the order of the steps of the scripts: each script ends as it does alone, and its files hold what it writes alone; other files are not changed. -/
theorem C121_parallel (ts : List Target) (hd : ts.Pairwise fun t u => ∀ f ∈ t.steps.map Step.file, f ∉ u.steps.map Step.file)
    (text : String → α) (d : Dir α) (sched : List Nat) (hend : Ended (parallel text sched (ts.map (fun t => some t.steps), d))) :
    let w := parallel text sched (ts.map (fun t => some t.steps), d)
    (∀ (i : Nat) t, ts[i]? = some t → w.1[i]? = some (if (run text t.steps d).2 then some [] else none) ∧
      ∀ f ∈ t.steps.map Step.file, w.2 f = (run text t.steps d).1 f) ∧
    ∀ f, (∀ t ∈ ts, f ∉ t.steps.map Step.file) → w.2 f = d f := by
  intro w
  obtain ⟨-, hj, hr⟩ := inv_parallel text ts hd d sched _ (inv_start text ts d)
  refine ⟨fun i t ht => ?_, hr⟩
  obtain ⟨j, hji, hm⟩ := hj i t ht
  rcases hend j (List.mem_of_getElem? hji) with rfl | rfl
  · exact ⟨by rw [hm.1]; exact hji, hm.2⟩
  · obtain ⟨-, h2, h3⟩ := hm
    exact ⟨by rw [← h2]; exact hji, h3⟩

/-- Every parallel build comes to its end. -/
theorem C121_progress (text : String → α) (ts : List Target) (d : Dir α) (sched : List Nat) :
    ∃ more, Ended (parallel text (sched ++ more) (ts.map (fun t => some t.steps), d)) := by
  obtain ⟨more, h⟩ := progress text _ (parallel text sched (ts.map (fun t => some t.steps), d)) (Nat.le_refl _)
  exact ⟨more, by rw [parallel_append]; exact h⟩

theorem fresh_ok (text : String → α) : ∀ t ∈ targets, (run text t.steps (fun _ => none)).2 = true := by
  have key : ∀ t ∈ targets, ∃ k ∈ List.range (t.steps.length + 1), (∀ s ∈ t.steps.take k, (match s with | .write _ => true | .absent _ => false) = true) ∧
      (match t.steps.drop k with
      | [] => true
      | .absent c :: rest => !((t.steps.take k).map Step.file).contains c && rest.all (fun s => match s with | .write _ => true | .absent _ => false)
      | _ => false) = true := by decide +kernel
  intro t ht
  obtain ⟨k, -, h1, h2⟩ := key t ht
  have hw : ∀ s ∈ t.steps.take k, ∃ f, s = .write f := fun s hs => by
    have := h1 s hs
    cases s with
    | write f => exact ⟨f, rfl⟩
    | absent f => cases this
  rw [← List.take_append_drop k t.steps, run_append, run_writes text _ _ hw, if_pos rfl]
  generalize hd : t.steps.drop k = r at h2
  match r, h2 with
  | [], _ => rfl
  | .absent c :: rest, h2 =>
    simp only [Bool.and_eq_true, Bool.not_eq_true', List.contains_eq_mem, decide_eq_false_iff_not, List.all_eq_true] at h2
    have hc : (run text (t.steps.take k) (fun _ => none)).1 c = none := by
      rw [run_frame text _ _ c h2.1]
    simp only [run, Step.exec, hc, Option.isSome_none, Bool.false_eq_true, if_false]
    refine run_writes text _ _ fun s hs => ?_
    have := h2.2 s hs
    cases s with
    | write f => exact ⟨f, rfl⟩
    | absent f => cases this

/-- A build in an empty build tree: whatever the schedule, every script ends well and every file holds its text. -/
theorem C121_fresh (text : String → α) (sched : List Nat)
    (hend : Ended (parallel text sched (targets.map (fun t => some t.steps), fun _ => none))) :
    let w := parallel text sched (targets.map (fun t => some t.steps), fun _ => none)
    (∀ j ∈ w.1, j = some []) ∧ (∀ t ∈ targets, ∀ f ∈ t.files, w.2 f = some (text f)) ∧
      ∀ f, (∀ t ∈ targets, f ∉ t.files) → w.2 f = none := by
  intro w
  obtain ⟨h1, h2⟩ := C121_parallel targets C121_disjoint text _ sched hend
  have hlen : w.1.length = targets.length := (inv_parallel text targets C121_disjoint _ sched _ (inv_start text targets _)).1
  refine ⟨fun j hj => ?_, fun t ht f hf => ?_, fun f hf => ?_⟩
  · obtain ⟨i, hi, rfl⟩ := List.mem_iff_getElem.mp hj
    have hi' : i < targets.length := hlen ▸ hi
    have := (h1 i _ (List.getElem?_eq_getElem hi')).1
    rw [fresh_ok text _ (List.getElem_mem hi'), if_pos rfl] at this
    have h3 : w.1[i]? = some w.1[i] := List.getElem?_eq_getElem hi
    exact Option.some.inj (h3.symm.trans this)
  · obtain ⟨i, hi⟩ := List.mem_iff_getElem?.mp ht
    exact ((h1 i t hi).2 f (files_sub t f hf)).trans (run_ok text f _ _ (fresh_ok text t ht) (mem_files hf))
  · refine h2 f fun t ht hn => hf t ht ?_
    have : ∀ t ∈ targets, ∀ f ∈ t.steps.map Step.file, f ∈ t.files := by decide +kernel
    exact this t ht f hn

example : targets.length = 43 ∧ (targets.flatMap Target.files).length = 113 := by decide +kernel

/-- The templates: after every history of builds, killed builds and deletions, with every change of the sources in between, a build ends well and
leaves the texts of the present sources. -/
theorem C121_templates (t : Target) (ht : t ∈ templateTargets) (gen : (String → σ) → String → α) (hgen : DependsOn gen t.reads)
    (es : List (Event σ α)) (s : String → σ) :
    (build gen t s (history gen t es)).2 = true ∧ UpToDate gen s t.files (build gen t s (history gen t es)).1.dir := by
  have hw : ∀ t ∈ templateTargets, (∀ s ∈ t.steps, (match s with | .write _ => true | .absent _ => false) = true) ∧ ∀ p ∈ t.reads, p ∈ t.inputs := by
    decide +kernel
  have hok := ok_build gen t (fun s hs => by
    have := (hw t ht).1 s hs
    cases s with
    | write f => exact ⟨f, rfl⟩
    | absent f => cases this) s (history gen t es)
  refine ⟨hok, upToDate_build gen t hgen s es (fun e _ => ?_) hok⟩
  cases e with
  | clean => trivial
  | build s' => exact fun p hp hn => absurd ((hw t ht).2 p hp) hn
  | kill s' k junk => exact fun p hp hn => absurd ((hw t ht).2 p hp) hn

/-- The gufuncs: the same, if gufuncgen.py, generate_utils.py and ufunc_config_types.py are not changed. -/
theorem C121_gufuncs_partial (t : Target) (ht : t ∈ gufuncTargets) (gen : (String → σ) → String → α) (hgen : DependsOn gen t.reads)
    (es : List (Event σ α)) (s : String → σ)
    (hes : ∀ e ∈ es, e.Within fun s' => ∀ p ∈ ["tools/cxxgen/gufuncgen.py", "tools/cxxgen/generate_utils.py", "tools/cxxgen/ufunc_config_types.py"], s' p = s p) :
    (build gen t s (history gen t es)).2 = true ∧ UpToDate gen s t.files (build gen t s (history gen t es)).1.dir := by
  have hw : ∀ t ∈ gufuncTargets, (∀ s ∈ t.steps, (match s with | .write _ => true | .absent _ => false) = true) ∧
      ∀ p ∈ t.reads, p ∈ t.inputs ∨ p ∈ ["tools/cxxgen/gufuncgen.py", "tools/cxxgen/generate_utils.py", "tools/cxxgen/ufunc_config_types.py"] := by
    decide +kernel
  have hok := ok_build gen t (fun s hs => by
    have := (hw t ht).1 s hs
    cases s with
    | write f => exact ⟨f, rfl⟩
    | absent f => cases this) s (history gen t es)
  refine ⟨hok, upToDate_build gen t hgen s es (fun e he => ?_) hok⟩
  have h := hes e he
  cases e with
  | clean => trivial
  | build s' => exact fun p hp hn => h p (((hw t ht).2 p hp).resolve_left hn)
  | kill s' k junk => exact fun p hp hn => h p (((hw t ht).2 p hp).resolve_left hn)

/-- A change of a module of tools/cxxgen that is not in `input` leaves the old texts: for each gufunc and each ufunc there is such a change. -/
theorem C121_stale_violated (t : Target) (ht : t ∈ gufuncTargets ++ ufuncTargets) : ∃ (gen : (String → Nat) → String → Nat) (s s' : String → Nat),
    DependsOn gen t.reads ∧ (build gen t s' (history gen t [.build s])).2 = true ∧
      ¬ UpToDate gen s' t.files (build gen t s' (history gen t [.build s])).1.dir := by
  have hp : ∀ t ∈ gufuncTargets ++ ufuncTargets, "tools/cxxgen/generate_utils.py" ∈ t.reads ∧ "tools/cxxgen/generate_utils.py" ∉ t.inputs ∧ t.files ≠ [] := by
    decide +kernel
  have htt : t ∈ targets := by
    simp only [targets, List.mem_append] at ht ⊢
    rcases ht with h | h
    · exact .inl (.inl h)
    · exact .inl (.inr h)
  obtain ⟨h1, h2, h3⟩ := hp t ht
  let gen : (String → Nat) → String → Nat := fun s _ => s "tools/cxxgen/generate_utils.py"
  let s : String → Nat := fun _ => 0
  let s' : String → Nat := fun p => if p = "tools/cxxgen/generate_utils.py" then 1 else 0
  have hb : history gen t [.build s] = ⟨some s, (run (gen s) t.steps fun _ => none).1⟩ := by
    have := fresh_ok (gen s) t htt
    simp [history, Event.apply, build, this]
  have hc : (build gen t s' (history gen t [.build s])) = (history gen t [.build s], true) := by
    rw [hb, build, if_pos]
    simp only [Option.any_some, List.all_eq_true, decide_eq_true_eq]
    intro p hpi
    have : p ≠ "tools/cxxgen/generate_utils.py" := fun h => h2 (h ▸ hpi)
    simp [s, s', this]
  refine ⟨gen, s, s', fun a b hab => by simp [gen, hab _ h1], by rw [hc], fun hU => ?_⟩
  obtain ⟨f, hf⟩ := List.exists_mem_of_ne_nil _ h3
  have := hU f hf
  rw [hc, hb] at this
  simp only at this
  rw [run_ok (gen s) f _ _ (fresh_ok (gen s) t htt) (mem_files hf)] at this
  simp [gen, s, s'] at this

/-- The ufunc targets with the source files of their modules. -/
def ufuncModules : List (Target × String) := ufuncConfigs.map (fun (d, m) => (ufuncTarget d m, m ++ ".cxx")) ++ [(normalTarget, "normal.cxx")]

example : ufuncModules.map Prod.fst = ufuncTargets := rfl

/-- The shape of the scripts of the ufuncs. -/
theorem ufunc_shape : ∀ e ∈ ufuncModules, ∃ pre post, e.1.steps = pre ++ .absent e.2 :: .write e.2 :: post ∧
    (∀ s ∈ pre, ∃ f, s = .write f ∧ f ≠ e.2) ∧ ∀ s ∈ post, ∃ f, s = .write f := by
  have h : ∀ e ∈ ufuncModules, ∃ k ∈ List.range (e.1.steps.length + 1),
      e.1.steps = e.1.steps.take k ++ .absent e.2 :: .write e.2 :: e.1.steps.drop (k + 2) ∧
      (∀ s ∈ e.1.steps.take k, (match s with | .write f => f != e.2 | .absent _ => false) = true) ∧
      ∀ s ∈ e.1.steps.drop (k + 2), (match s with | .write _ => true | .absent _ => false) = true := by decide +kernel
  intro e he
  obtain ⟨k, -, h1, h2, h3⟩ := h e he
  refine ⟨_, _, h1, fun s hs => ?_, fun s hs => ?_⟩
  · have := h2 s hs
    cases s with
    | write f => exact ⟨f, rfl, by simpa using this⟩
    | absent f => cases this
  · have := h3 s hs
    cases s with
    | write f => exact ⟨f, rfl⟩
    | absent f => cases this

theorem names_pre {pre : List Step} {c : String} (h : ∀ s ∈ pre, ∃ f, s = .write f ∧ f ≠ c) : c ∉ names pre := by
  intro hc
  obtain ⟨s, hs, rfl⟩ := List.mem_map.mp hc
  obtain ⟨f, rfl, hf⟩ := h s hs
  exact hf rfl

theorem ufunc_run (text : String → α) {e : Target × String} (he : e ∈ ufuncModules) (d : Dir α) :
    ((run text e.1.steps d).2 = true ↔ d e.2 = none) ∧ (d e.2 ≠ none → (run text e.1.steps d).1 e.2 = d e.2) := by
  obtain ⟨pre, post, h1, h2, h3⟩ := ufunc_shape e he
  have hp : (run text pre d).1 e.2 = d e.2 := run_frame text pre d e.2 (names_pre h2)
  rw [h1, run_append, run_writes text pre d (fun s hs => let ⟨f, h, _⟩ := h2 s hs; ⟨f, h⟩), if_pos rfl]
  cases hd : d e.2 with
  | none =>
    simp only [run, Step.exec, hp, hd, Option.isSome_none, Bool.false_eq_true, if_false]
    exact ⟨⟨fun _ => trivial, fun _ => run_writes text post _ h3⟩, fun h => absurd rfl h⟩
  | some x => simp [run, Step.exec, hp, hd]

/-- The ufuncs: when the script runs, it ends well exactly if the source file of the module is not there (after a deletion of the build tree, or a
killed build that had not come to this file); then the files are up to date. -/
theorem C121_ufuncs_partial (e : Target × String) (he : e ∈ ufuncModules) (gen : (String → σ) → String → α) (s : String → σ) (st : St σ α)
    (hlast : st.last = none) :
    ((build gen e.1 s st).2 = true ↔ st.dir e.2 = none) ∧
      ((build gen e.1 s st).2 = true → UpToDate gen s e.1.files (build gen e.1 s st).1.dir) := by
  have hb : build gen e.1 s st = (⟨if (run (gen s) e.1.steps st.dir).2 then some s else none, (run (gen s) e.1.steps st.dir).1⟩, (run (gen s) e.1.steps st.dir).2) := by
    simp [build, hlast]
  rw [hb]
  exact ⟨(ufunc_run (gen s) he st.dir).1, fun hok f hf => run_ok _ f _ _ hok (mem_files hf)⟩

/-- If the last build of a ufunc ended well, a build after a change of its sources always fails, and the source file of the module stays as it was. -/
theorem C121_ufunc_rebuild_violated (e : Target × String) (he : e ∈ ufuncModules) (gen : (String → σ) → String → α) (es : List (Event σ α))
    (s s' : String → σ) (hlast : (history gen e.1 es).last = some s) (hne : ∃ p ∈ e.1.inputs, s p ≠ s' p) :
    let st := history gen e.1 es
    st.dir e.2 = some (gen s e.2) ∧ (build gen e.1 s' st).2 = false ∧ (build gen e.1 s' st).1.last = none ∧
      (build gen e.1 s' st).1.dir e.2 = some (gen s e.2) := by
  intro st
  have hst : st.dir e.2 = some (gen s e.2) := by
    have hk := known_history gen e.1 (fun _ => True) es (fun e _ => by cases e <;> trivial)
    refine (hk s hlast).2 e.2 ?_
    obtain ⟨pre, post, h1, -, -⟩ := ufunc_shape e he
    simp [Target.files, h1]
  have hb : build gen e.1 s' st = (⟨if (run (gen s') e.1.steps st.dir).2 then some s' else none, (run (gen s') e.1.steps st.dir).1⟩, (run (gen s') e.1.steps st.dir).2) := by
    rw [build, if_neg]
    obtain ⟨p, hp, hn⟩ := hne
    show ¬ (st.last.any _ = true)
    rw [show st.last = some s from hlast]
    simp only [Option.any_some, List.all_eq_true, decide_eq_true_eq]
    exact fun h => hn (h p hp)
  obtain ⟨h1, h2⟩ := ufunc_run (gen s') he st.dir
  have h3 : (run (gen s') e.1.steps st.dir).2 = false := by
    rw [← Bool.not_eq_true, h1, hst]; simp
  rw [hb]
  refine ⟨hst, h3, by simp [h3], ?_⟩
  rw [← hst]; exact h2 (by rw [hst]; simp)

example (gen : (String → Nat) → String → Nat) : (history gen (ufuncTarget "step" "_step") [.build fun _ => 0]).last = some (fun _ => 0) := by
  have := fresh_ok (gen fun _ => 0) (ufuncTarget "step" "_step") (by
    have : ("step", "_step") ∈ ufuncConfigs := by decide
    simp only [targets, ufuncTargets, List.mem_append]
    exact .inl (.inr (.inl (List.mem_map.mpr ⟨_, this, rfl⟩))))
  simp [history, Event.apply, build, this]

/-- From then on every build fails, whatever the sources, until the build tree is deleted. -/
theorem C121_ufunc_stuck_violated (e : Target × String) (he : e ∈ ufuncModules) (gen : (String → σ) → String → α) (st : St σ α)
    (hlast : st.last = none) (hc : st.dir e.2 ≠ none) (builds : List (String → σ)) (s : String → σ) :
    (build gen e.1 s (builds.foldl (fun st s => (build gen e.1 s st).1) st)).2 = false := by
  have step : ∀ (st : St σ α) (s : String → σ), st.last = none → st.dir e.2 ≠ none →
      (build gen e.1 s st).2 = false ∧ (build gen e.1 s st).1.last = none ∧ (build gen e.1 s st).1.dir e.2 ≠ none := by
    intro st s hl hc
    obtain ⟨h1, h2⟩ := ufunc_run (gen s) he st.dir
    have h3 : (run (gen s) e.1.steps st.dir).2 = false := by
      rw [← Bool.not_eq_true, h1]; exact hc
    simp only [build, hl, Option.any_none, Bool.false_eq_true, if_false, h3]
    exact ⟨trivial, trivial, by rw [h2 hc]; exact hc⟩
  induction builds generalizing st with
  | nil => exact (step st s hlast hc).1
  | cons b bs ih =>
    obtain ⟨-, h2, h3⟩ := step st b hlast hc
    exact ih _ h2 h3

/-- The version file: the version is read back, for every version of PEP 440. -/
theorem C121_version (v : List Char) (hv : ∀ c ∈ v, pep440 c = true) : readVersion (versionLine v) = some v := by
  have hl : ∀ v : List Char, (∀ c ∈ v, pep440 c = true) → readLiteral (v ++ ['"', '\n']) = some v := by
    intro v
    induction v with
    | nil => intro _; rfl
    | cons c cs ih =>
      intro h
      have hc := h c (by simp)
      have h1 : c ≠ '"' := fun e => by subst e; revert hc; decide
      have h2 : c ≠ '\\' := fun e => by subst e; revert hc; decide
      have h3 : c ≠ '\n' := fun e => by subst e; revert hc; decide
      rw [List.cons_append, readLiteral]
      · rw [ih fun c hm => h c (by simp [hm])]; rfl
      · exact h1
      · exact h2
      · exact h3
  unfold readVersion versionLine
  generalize "__version__ = \"".toList = pre
  simp only [List.append_assoc, List.take_left, List.drop_left, if_true]
  exact hl v hv

example : readVersion (versionLine "0.0.8.dev1".toList) = some "0.0.8.dev1".toList := by decide +kernel

end Ufunclab.Build
