import Verif.Model.Build
/-! # Lemmas on the build -/
namespace Ufunclab.Build
variable {σ α : Type}

/-- The files that the steps write or look for. -/
def names (ss : List Step) : List String := ss.map Step.file

theorem exec_congr (text : String → α) (S : String → Prop) (s : Step) (hs : S s.file) (d d' : Dir α) (h : ∀ f, S f → d f = d' f) :
    (s.exec text d).isSome = (s.exec text d').isSome ∧ ∀ e e', s.exec text d = some e → s.exec text d' = some e' → ∀ f, S f → e f = e' f := by
  cases s with
  | write g =>
    refine ⟨rfl, fun e e' he he' f hf => ?_⟩
    simp only [Step.exec, Option.some.injEq] at he he'
    subst he; subst he'
    simp only [Dir.put]
    split <;> simp [h f hf]
  | absent g =>
    have hg := h g hs
    simp only [Step.exec, hg]
    refine ⟨by split <;> rfl, fun e e' he he' f hf => ?_⟩
    split at he
    · cases he
    · rename_i hn
      rw [if_neg hn] at he'
      cases he; cases he'; exact h f hf

theorem exec_frame (text : String → α) (s : Step) (d e : Dir α) (he : s.exec text d = some e) (f : String) (hf : f ≠ s.file) : e f = d f := by
  cases s with
  | write g => simp only [Step.exec, Option.some.injEq] at he; subst he; simp only [Step.file] at hf; simp [Dir.put, hf]
  | absent g =>
    simp only [Step.exec] at he
    split at he
    · cases he
    · cases he; rfl

theorem run_congr (text : String → α) (S : String → Prop) : ∀ (ss : List Step) (d d' : Dir α), (∀ s ∈ ss, S s.file) → (∀ f, S f → d f = d' f) →
    (run text ss d).2 = (run text ss d').2 ∧ ∀ f, S f → (run text ss d).1 f = (run text ss d').1 f
  | [], d, d', _, h => ⟨rfl, h⟩
  | s :: rest, d, d', hs, h => by
    obtain ⟨h1, h2⟩ := exec_congr text S s (hs s (by simp)) d d' h
    simp only [run]
    cases he : s.exec text d with
    | none =>
      cases he' : s.exec text d' with
      | none => exact ⟨rfl, h⟩
      | some e' => rw [he, he'] at h1; cases h1
    | some e =>
      cases he' : s.exec text d' with
      | none => rw [he, he'] at h1; cases h1
      | some e' => exact run_congr text S rest e e' (fun s hm => hs s (by simp [hm])) (h2 e e' he he')

theorem run_frame (text : String → α) : ∀ (ss : List Step) (d : Dir α) (f : String), f ∉ names ss → (run text ss d).1 f = d f
  | [], _, _, _ => rfl
  | s :: rest, d, f, hf => by
    simp only [names, List.map_cons, List.mem_cons, not_or] at hf
    simp only [run]
    cases he : s.exec text d with
    | none => rfl
    | some e => simp only; rw [run_frame text rest e f hf.2, exec_frame text s d e he f hf.1]

theorem run_append (text : String → α) : ∀ (a b : List Step) (d : Dir α),
    run text (a ++ b) d = if (run text a d).2 then run text b (run text a d).1 else run text a d
  | [], b, d => by simp [run]
  | s :: a, b, d => by
    have hc : s.exec text d = none ∨ ∃ e, s.exec text d = some e := by
      cases s.exec text d with
      | none => exact .inl rfl
      | some e => exact .inr ⟨e, rfl⟩
    rcases hc with he | ⟨e, he⟩
    · simp [run, he]
    · simp only [List.cons_append, run, he]
      exact run_append text a b e

/-- The state of a parallel build, seen from each job. -/
def Inv (text : String → α) (ts : List Target) (d0 : Dir α) (w : List Job × Dir α) : Prop :=
  w.1.length = ts.length ∧
  (∀ (i : Nat) t, ts[i]? = some t → ∃ j, w.1[i]? = some j ∧
    match j with
    | some rest => (∀ s ∈ rest, s.file ∈ names t.steps) ∧ (run text rest w.2).2 = (run text t.steps d0).2 ∧
        ∀ f ∈ names t.steps, (run text rest w.2).1 f = (run text t.steps d0).1 f
    | none => (run text t.steps d0).2 = false ∧ ∀ f ∈ names t.steps, w.2 f = (run text t.steps d0).1 f) ∧
  ∀ f, (∀ t ∈ ts, f ∉ names t.steps) → w.2 f = d0 f

/-- No two targets use the same file. -/
def Disjoint (ts : List Target) : Prop := ts.Pairwise fun t u => ∀ f ∈ names t.steps, f ∉ names u.steps

theorem disjoint_get {ts : List Target} (h : Disjoint ts) {i k : Nat} {t u : Target} (ht : ts[i]? = some t) (hu : ts[k]? = some u) (hik : i ≠ k) :
    ∀ f ∈ names t.steps, f ∉ names u.steps := by
  obtain ⟨hi, rfl⟩ := List.getElem?_eq_some_iff.mp ht
  obtain ⟨hk, rfl⟩ := List.getElem?_eq_some_iff.mp hu
  have hp := List.pairwise_iff_getElem.mp h
  rcases Nat.lt_or_gt_of_ne hik with h' | h'
  · exact hp i k hi hk h'
  · intro f hf hf'
    exact hp k i hk hi h' f hf' hf

theorem inv_tick (text : String → α) (ts : List Target) (hd : Disjoint ts) (d0 : Dir α) (w : List Job × Dir α) (h : Inv text ts d0 w) (i : Nat) :
    Inv text ts d0 (tick text i w) := by
  obtain ⟨hlen, hjobs, hrest⟩ := h
  cases hj : w.1[i]? with
  | none => simp only [tick, hj]; exact ⟨hlen, hjobs, hrest⟩
  | some j =>
    match j, hj with
    | none, hj => simp only [tick, hj]; exact ⟨hlen, hjobs, hrest⟩
    | some [], hj => simp only [tick, hj]; exact ⟨hlen, hjobs, hrest⟩
    | some (s :: rest), hj =>
      have hi : i < ts.length := by rw [← hlen]; exact (List.getElem?_eq_some_iff.mp hj).1
      have hti : ts[i]? = some ts[i] := List.getElem?_eq_getElem hi
      obtain ⟨j', hj', hinv⟩ := hjobs i _ hti
      rw [hj] at hj'
      obtain rfl := Option.some.inj hj'
      obtain ⟨hsub, hok, hval⟩ := hinv
      have hs : s.file ∈ names ts[i].steps := hsub s (by simp)
      cases he : s.exec text w.2 with
      | none =>
        simp only [tick, hj, he]
        simp only [run, he] at hok hval
        refine ⟨by simp [hlen], fun k t hk => ?_, hrest⟩
        by_cases hik : i = k
        · subst hik
          rw [hti] at hk
          obtain rfl := Option.some.inj hk
          refine ⟨none, by simp [hlen, hi], hok.symm, hval⟩
        · obtain ⟨jk, h1, h2⟩ := hjobs k t hk
          exact ⟨jk, by simp only [List.getElem?_set_ne hik, h1], h2⟩
      | some e =>
        simp only [tick, hj, he]
        simp only [run, he] at hok hval
        have hfr := exec_frame text s w.2 e he
        refine ⟨by simp [hlen], fun k t hk => ?_, fun f hf => ?_⟩
        · by_cases hik : i = k
          · subst hik
            rw [hti] at hk
            obtain rfl := Option.some.inj hk
            exact ⟨some rest, by simp [hlen, hi], fun s' hs' => hsub s' (by simp [hs']), hok, hval⟩
          · obtain ⟨jk, h1, h2⟩ := hjobs k t hk
            refine ⟨jk, by simp only [List.getElem?_set_ne hik, h1], ?_⟩
            have hag : ∀ f, f ∈ names t.steps → e f = w.2 f := fun f hf =>
              hfr f fun hc => disjoint_get hd hti hk hik _ hs (hc ▸ hf)
            cases jk with
            | none => exact ⟨h2.1, fun f hf => (hag f hf).trans (h2.2 f hf)⟩
            | some r =>
              obtain ⟨a, b, c⟩ := h2
              obtain ⟨e1, e2⟩ := run_congr text (fun f => f ∈ names t.steps) r e w.2 a hag
              exact ⟨a, e1.trans b, fun f hf => (e2 f hf).trans (c f hf)⟩
        · show e f = d0 f
          rw [hfr f fun hc => hf _ (List.getElem_mem hi) (hc ▸ hs)]
          exact hrest f hf

theorem inv_parallel (text : String → α) (ts : List Target) (hd : Disjoint ts) (d0 : Dir α) (sched : List Nat) :
    ∀ w, Inv text ts d0 w → Inv text ts d0 (parallel text sched w) := by
  induction sched with
  | nil => exact fun w h => h
  | cons i is ih => exact fun w h => ih _ (inv_tick text ts hd d0 w h i)

theorem inv_start (text : String → α) (ts : List Target) (d0 : Dir α) : Inv text ts d0 (ts.map (fun t => some t.steps), d0) := by
  refine ⟨by simp, fun i t hi => ⟨some t.steps, by simp [hi], fun s hs => List.mem_map_of_mem hs, rfl, fun _ _ => rfl⟩, fun _ _ => rfl⟩

theorem parallel_append (text : String → α) (a b : List Nat) (w : List Job × Dir α) :
    parallel text (a ++ b) w = parallel text b (parallel text a w) := by
  simp [parallel]

/-- How many steps the jobs have before them. -/
def size : Job → Nat
  | some r => r.length
  | none => 0

def left (js : List Job) : Nat := (js.map size).sum

theorem left_set (js : List Job) (i : Nat) (j j' : Job) (h : js[i]? = some j) :
    left (js.set i j') + size j = left js + size j' := by
  induction js generalizing i with
  | nil => cases h
  | cons x xs ih =>
    cases i with
    | zero =>
      simp only [List.getElem?_cons_zero, Option.some.injEq] at h
      subst h
      simp only [List.set_cons_zero, left, List.map_cons, List.sum_cons]
      omega
    | succ i =>
      simp only [List.getElem?_cons_succ] at h
      have := ih i h
      simp only [List.set_cons_succ, left, List.map_cons, List.sum_cons] at this ⊢
      omega

theorem progress (text : String → α) : ∀ (n : Nat) (w : List Job × Dir α), left w.1 ≤ n → ∃ sched, Ended (parallel text sched w)
  | n, w, hn => by
    by_cases h : Ended w
    · exact ⟨[], h⟩
    · obtain ⟨j, hm, h1, h2⟩ : ∃ j ∈ w.1, j ≠ none ∧ j ≠ some [] := Classical.byContradiction fun hn =>
        h fun j hj => Classical.byContradiction fun hc => hn ⟨j, hj, fun h1 => hc (.inl h1), fun h2 => hc (.inr h2)⟩
      obtain ⟨i, hi⟩ := List.mem_iff_getElem?.mp hm
      match j, h1, h2, hi with
      | none, h1, _, _ => exact absurd rfl h1
      | some [], _, h2, _ => exact absurd rfl h2
      | some (s :: rest), _, _, hi =>
        have hlt : left (tick text i w).1 < left w.1 := by
          simp only [tick, hi]
          split
          · have := left_set w.1 i _ (some rest) hi; simp only [size, List.length_cons] at this ⊢; omega
          · have := left_set w.1 i _ none hi; simp only [size, List.length_cons] at this ⊢; omega
        match n, hn with
        | 0, hn => omega
        | n + 1, hn =>
          obtain ⟨sched, hs⟩ := progress text n (tick text i w) (by omega)
          exact ⟨i :: sched, hs⟩

/-! ## One target -/

theorem files_sub (t : Target) : ∀ f ∈ t.files, f ∈ names t.steps := by
  intro f hf
  simp only [Target.files, List.mem_filterMap] at hf
  obtain ⟨s, hs, h⟩ := hf
  cases s with
  | write g => simp only [Option.some.injEq] at h; subst h; exact List.mem_map.mpr ⟨_, hs, rfl⟩
  | absent g => cases h

theorem run_keep (text : String → α) (f : String) : ∀ (ss : List Step) (d : Dir α), d f = some (text f) → (run text ss d).1 f = some (text f)
  | [], _, h => h
  | s :: rest, d, h => by
    simp only [run]
    cases he : s.exec text d with
    | none => exact h
    | some e =>
      refine run_keep text f rest e ?_
      cases s with
      | write g => simp only [Step.exec, Option.some.injEq] at he; subst he; simp only [Dir.put]; split <;> simp_all
      | absent g =>
        simp only [Step.exec] at he
        split at he
        · cases he
        · cases he; exact h

/-- A script that ends well leaves its texts. -/
theorem run_ok (text : String → α) (f : String) : ∀ (ss : List Step) (d : Dir α), (run text ss d).2 = true → Step.write f ∈ ss →
    (run text ss d).1 f = some (text f)
  | [], _, _, h => by cases h
  | s :: rest, d, hok, hm => by
    simp only [run] at hok ⊢
    cases he : s.exec text d with
    | none => rw [he] at hok; cases hok
    | some e =>
      rw [he] at hok
      rcases List.mem_cons.mp hm with rfl | hm
      · refine run_keep text f rest e ?_
        simp only [Step.exec, Option.some.injEq] at he
        subst he; simp [Dir.put]
      · exact run_ok text f rest e hok hm

theorem mem_files {t : Target} {f : String} (h : f ∈ t.files) : Step.write f ∈ t.steps := by
  simp only [Target.files, List.mem_filterMap] at h
  obtain ⟨s, hs, h⟩ := h
  cases s with
  | write g => simp only [Option.some.injEq] at h; subst h; exact hs
  | absent g => cases h

theorem run_writes (text : String → α) : ∀ (ss : List Step) (d : Dir α), (∀ s ∈ ss, ∃ f, s = .write f) → (run text ss d).2 = true
  | [], _, _ => rfl
  | s :: rest, d, h => by
    obtain ⟨f, rfl⟩ := h s (by simp)
    simp only [run, Step.exec]
    exact run_writes text rest _ fun s hs => h s (by simp [hs])

section
variable [DecidableEq σ]

/-- The files are those of the last run that ended well. -/
def Known (gen : (String → σ) → String → α) (t : Target) (P : (String → σ) → Prop) (st : St σ α) : Prop :=
  ∀ l, st.last = some l → P l ∧ UpToDate gen l t.files st.dir

theorem known_build (gen : (String → σ) → String → α) (t : Target) (P : (String → σ) → Prop) (s : String → σ) (hs : P s) (st : St σ α)
    (h : Known gen t P st) : Known gen t P (build gen t s st).1 := by
  intro l hl
  simp only [build] at hl ⊢
  split at hl
  · rename_i hc
    rw [if_pos hc]; exact h l hl
  · rename_i hc
    rw [if_neg hc]
    simp only at hl ⊢
    split at hl
    · rename_i hok
      obtain rfl := Option.some.inj hl
      exact ⟨hs, fun f hf => run_ok _ f _ _ hok (mem_files hf)⟩
    · cases hl

theorem known_killed (gen : (String → σ) → String → α) (t : Target) (P : (String → σ) → Prop) (s : String → σ) (k : Nat) (junk : Option α) (st : St σ α)
    (h : Known gen t P st) : Known gen t P (killed gen t s k junk st) := by
  by_cases hc : st.last.any (fun l => t.inputs.all fun p => l p = s p)
  · simp only [killed, if_pos hc]; exact h
  · intro l hl
    have : (killed gen t s k junk st).last = none := by
      simp only [killed, if_neg hc]
      split
      · split <;> rfl
      · rfl
    rw [this] at hl; cases hl

/-- The sources of an event meet `P`. -/
def Event.Within (P : (String → σ) → Prop) : Event σ α → Prop
  | .build s => P s
  | .kill s _ _ => P s
  | .clean => True

theorem known_history (gen : (String → σ) → String → α) (t : Target) (P : (String → σ) → Prop) (es : List (Event σ α)) (hes : ∀ e ∈ es, e.Within P) :
    Known gen t P (history gen t es) := by
  have aux : ∀ (es : List (Event σ α)) (st : St σ α), (∀ e ∈ es, e.Within P) → Known gen t P st →
      Known gen t P (es.foldl (fun st e => e.apply gen t st) st) := by
    intro es
    induction es with
    | nil => exact fun st _ h => h
    | cons e es ih =>
      intro st hes h
      refine ih _ (fun e he => hes e (by simp [he])) ?_
      have he := hes e (by simp)
      cases e with
      | build s => exact known_build gen t P s he st h
      | kill s k junk => exact known_killed gen t P s k junk st h
      | clean => intro l hl; cases hl
  exact aux es _ hes fun l hl => by cases hl

/-- After a build that ends well the files are up to date, if the history leaves alone what the script reads beyond `input`. -/
theorem upToDate_build (gen : (String → σ) → String → α) (t : Target) (hgen : DependsOn gen t.reads) (s : String → σ) (es : List (Event σ α))
    (hes : ∀ e ∈ es, e.Within fun s' => ∀ p ∈ t.reads, p ∉ t.inputs → s' p = s p)
    (hok : (build gen t s (history gen t es)).2 = true) : UpToDate gen s t.files (build gen t s (history gen t es)).1.dir := by
  have hk := known_history gen t _ es hes
  simp only [build] at hok ⊢
  split
  · rename_i hc
    cases hl : (history gen t es).last with
    | none => rw [hl] at hc; cases hc
    | some l =>
      rw [hl] at hc
      simp only [Option.any_some, List.all_eq_true, decide_eq_true_eq] at hc
      obtain ⟨hP, hU⟩ := hk l hl
      have : gen s = gen l := hgen s l fun p hp => by
        by_cases hi : p ∈ t.inputs
        · exact (hc p hi).symm
        · exact (hP p hp hi).symm
      intro f hf
      rw [this]; exact hU f hf
  · rename_i hc
    rw [if_neg hc] at hok
    exact fun f hf => run_ok _ f _ _ hok (mem_files hf)

theorem ok_build (gen : (String → σ) → String → α) (t : Target) (hw : ∀ s ∈ t.steps, ∃ f, s = .write f) (s : String → σ) (st : St σ α) :
    (build gen t s st).2 = true := by
  simp only [build]
  split
  · rfl
  · exact run_writes _ _ _ hw

end

end Ufunclab.Build
