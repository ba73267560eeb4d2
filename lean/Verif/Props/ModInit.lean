import Verif.Model.ModInit
import Verif.Model.LazyImport
/-! # C114: importing an extension module gives a complete module or leaves nothing behind -/
namespace Ufunclab.ModInit

/-- In the middle of the initialisation: the items `done` are there. -/
structure Inv (done : List Item) (h : Heap) : Prop where
  one : h.modRc = 1
  names : h.dict.map Prod.fst = done.map Item.name
  kinds : (h.dict.map fun e => e.2.isSome) = done.map Item.isUfunc
  counts : ∀ o, h.rc o = ((h.dict.map Prod.snd).count (some o) : Nat)
  uniq : ∀ o, (h.dict.map Prod.snd).count (some o) ≤ 1
  fresh : ∀ o, h.next ≤ o → some o ∉ h.dict.map Prod.snd

theorem decMod_clean {h : Heap} (h1 : h.modRc = 1) (hc : ∀ o, h.rc o = ((h.dict.map Prod.snd).count (some o) : Nat)) : (decMod h).Clean := by
  rw [decMod, if_pos h1]
  refine ⟨rfl, fun o => ?_⟩
  simp only [hc o]; omega

theorem filter_names {d : List (String × Option Nat)} {name : String} (hn : name ∉ d.map Prod.fst) :
    d.filter (fun e => e.1 != name) = d ∧ d.filter (fun e => e.1 == name) = [] := by
  constructor
  · refine List.filter_eq_self.2 fun e he => ?_
    have : e.1 ≠ name := fun h => hn (h ▸ List.mem_map_of_mem he)
    simpa using this
  · refine List.filter_eq_nil_iff.2 fun e he => ?_
    have : e.1 ≠ name := fun h => hn (h ▸ List.mem_map_of_mem he)
    simpa using this

theorem define_inv {done : List Item} {h : Heap} (env : Env) (i : Nat) (it : Item) (hI : Inv done h) (hn : it.name ∉ done.map Item.name) :
    match define env i it h with
    | (h', true) => Inv (done ++ [it]) h' ∧ (it.isUfunc → env (.make i)) ∧ env (.add i)
    | (h', false) => (decMod h').Clean ∧ ¬((it.isUfunc → env (.make i)) ∧ env (.add i)) := by
  have hnd : it.name ∉ h.dict.map Prod.fst := by rw [hI.names]; exact hn
  obtain ⟨f1, f2⟩ := filter_names hnd
  cases it with
  | ufunc name =>
    simp only [Item.name] at f1 f2
    rw [define]
    by_cases hm : env (.make i)
    · by_cases ha : env (.add i)
      · simp only [if_pos hm, if_pos ha]
        refine ⟨⟨hI.one, ?_, ?_, fun o => ?_, fun o => ?_, fun o ho => ?_⟩, fun _ => hm, ha⟩
        · simp [bind, newUfunc, f1, hI.names, Item.name]
        · simp [bind, newUfunc, f1, hI.kinds, Item.isUfunc]
        · simp only [bind, newUfunc, f1, f2, List.map_append, List.count_append, List.map_nil, List.count_nil, List.map_cons, List.count_cons]
          by_cases e : o = h.next
          · subst e
            rw [List.count_eq_zero_of_not_mem (hI.fresh _ (Nat.le_refl _))]; simp
          · have : ¬ h.next = o := fun e' => e e'.symm
            simp [e, this, hI.counts o]
        · simp only [bind, newUfunc, f1, List.map_append, List.count_append, List.map_nil, List.count_nil, List.map_cons, List.count_cons]
          by_cases e : o = h.next
          · subst e
            rw [List.count_eq_zero_of_not_mem (hI.fresh _ (Nat.le_refl _))]; simp
          · have : ¬ h.next = o := fun e' => e e'.symm
            simpa [this] using hI.uniq o
        · simp only [bind, newUfunc, f1, List.map_append, List.mem_append, List.map_cons, List.map_nil, List.mem_singleton, not_or] at ho ⊢
          refine ⟨hI.fresh o (by omega), fun e => ?_⟩
          cases e; omega
      · simp only [if_pos hm, if_neg ha]
        refine ⟨decMod_clean hI.one fun o => ?_, fun c => ha c.2⟩
        simp only [decUfunc, newUfunc]
        by_cases e : o = h.next
        · subst e
          rw [List.count_eq_zero_of_not_mem (hI.fresh _ (Nat.le_refl _))]; simp
        · simp [e, hI.counts o]
    · simp only [if_neg hm]
      exact ⟨decMod_clean hI.one hI.counts, fun c => hm (c.1 rfl)⟩
  | const name =>
    simp only [Item.name] at f1 f2
    rw [define]
    by_cases ha : env (.add i)
    · simp only [if_pos ha]
      refine ⟨⟨hI.one, ?_, ?_, fun o => ?_, fun o => ?_, fun o ho => ?_⟩, fun c => by simp [Item.isUfunc] at c, ha⟩
      · simp [bind, f1, hI.names, Item.name]
      · simp [bind, f1, hI.kinds, Item.isUfunc]
      · simp [bind, f1, f2, hI.counts o, List.count_cons]
      · simpa [bind, f1, List.count_cons] using hI.uniq o
      · simpa [bind, f1] using hI.fresh o ho
    · simp only [if_neg ha]
      exact ⟨decMod_clean hI.one hI.counts, fun c => ha c.2⟩

theorem defineAll_inv (env : Env) : ∀ (its done : List Item) (h : Heap), Inv done h → ((done ++ its).map Item.name).Nodup →
    match defineAll env done.length its h with
    | (h', true) => Inv (done ++ its) h' ∧ ∀ i (hi : i < its.length), (its[i].isUfunc → env (.make (done.length + i))) ∧ env (.add (done.length + i))
    | (h', false) => h'.Clean ∧ ¬∀ i (hi : i < its.length), (its[i].isUfunc → env (.make (done.length + i))) ∧ env (.add (done.length + i)) := by
  intro its
  induction its with
  | nil => intro done h hI _; rw [defineAll]; simpa using hI
  | cons it its ih =>
    intro done h hI hnd
    have hn : it.name ∉ done.map Item.name := by
      rw [List.map_append, List.map_cons] at hnd
      exact fun hm => (List.disjoint_of_nodup_append hnd) hm List.mem_cons_self
    have hd := define_inv env done.length it hI hn
    rw [defineAll]
    generalize define env done.length it h = r at hd
    obtain ⟨h1, _ | _⟩ := r
    · refine ⟨hd.1, fun c => hd.2 ?_⟩
      exact c 0 (by simp)
    · have e : done ++ [it] ++ its = done ++ it :: its := by simp
      have := ih (done ++ [it]) h1 hd.1 (by rw [e]; exact hnd)
      rw [e, List.length_append, List.length_singleton] at this
      simp only
      generalize defineAll env (done.length + 1) its h1 = r2 at this
      obtain ⟨h2, _ | _⟩ := r2
      · refine ⟨this.1, fun c => this.2 fun i hi => ?_⟩
        have := c (i + 1) (by simp; omega)
        simpa [Nat.add_assoc, Nat.add_comm 1 i] using this
      · refine ⟨this.1, fun i hi => ?_⟩
        cases i with
        | zero => simpa using hd.2
        | succ i =>
          have := this.2 i (by simpa using hi)
          simpa [Nat.add_assoc, Nat.add_comm 1 i] using this

theorem Inv.complete {items : List Item} {h : Heap} (hI : Inv items h) : h.Complete items := by
  refine ⟨hI.one, hI.names, hI.kinds, fun o => ?_, hI.uniq⟩
  rw [hI.counts o]
  by_cases hm : some o ∈ h.dict.map Prod.snd
  · rw [if_pos hm]
    have := hI.uniq o
    have := List.count_pos_iff.2 hm
    omega
  · rw [if_neg hm, List.count_eq_zero_of_not_mem hm]; rfl

theorem newMod_inv : Inv [] (newMod Heap.empty) :=
  ⟨rfl, rfl, rfl, fun _ => rfl, fun _ => Nat.zero_le _, fun o _ => by simp [newMod, Heap.empty]⟩

/-- C114: a generated module, whatever it defines and whichever steps of its initialisation fail: if no step fails, the import gives
a module with everything in it; otherwise it fails, and the module and all functions created so far have been freed. -/
theorem C114_generated (env : Env) (items : List Item) (hn : (items.map Item.name).Nodup) :
    (AllOk env items → (initGenerated env items Heap.empty).2 = true ∧ (initGenerated env items Heap.empty).1.Complete items) ∧
    (¬AllOk env items → (initGenerated env items Heap.empty).2 = false ∧ (initGenerated env items Heap.empty).1.Clean) := by
  have ec : Heap.empty.Clean := ⟨rfl, fun _ => rfl⟩
  have hd := defineAll_inv env items [] (newMod Heap.empty) newMod_inv (by simpa using hn)
  simp only [List.length_nil, Nat.zero_add, List.nil_append] at hd
  rw [initGenerated]
  by_cases h1 : env .numpy
  · by_cases h2 : env .umath
    · by_cases h3 : env .create
      · simp only [if_pos h1, if_pos h2, if_pos h3]
        generalize defineAll env 0 items (newMod Heap.empty) = r at hd
        obtain ⟨h', _ | _⟩ := r
        · exact ⟨fun c => absurd c.2.2.2 hd.2, fun _ => ⟨rfl, hd.1⟩⟩
        · exact ⟨fun _ => ⟨rfl, hd.1.complete⟩, fun c => absurd ⟨h1, h2, h3, hd.2⟩ c⟩
      · simp only [if_pos h1, if_pos h2, if_neg h3]
        exact ⟨fun c => absurd c.2.2.1 h3, fun _ => ⟨trivial, ec⟩⟩
    · simp only [if_pos h1, if_neg h2]
      exact ⟨fun c => absurd c.2.1 h2, fun _ => ⟨trivial, ec⟩⟩
  · simp only [if_neg h1]
    exact ⟨fun c => absurd c.1 h1, fun _ => ⟨trivial, ec⟩⟩

/-- C114, part: the modules written by hand do the same, if NumPy itself can be imported.  Missing: see `C114_hand_violated`. -/
theorem C114_hand_partial (env : Env) (items : List Item) (hn : (items.map Item.name).Nodup) (h1 : env .numpy) (h2 : env .umath) :
    (AllOk env items → (initHand env items Heap.empty).2 = true ∧ (initHand env items Heap.empty).1.Complete items) ∧
    (¬AllOk env items → (initHand env items Heap.empty).2 = false ∧ (initHand env items Heap.empty).1.Clean) := by
  have e : initHand env items Heap.empty = initGenerated env items Heap.empty := by
    rw [initHand, initGenerated]; simp [h1, h2]
  rw [e]; exact C114_generated env items hn

/-- C114 is violated by every module written by hand: if the import of NumPy's C API fails, the function returns NULL without
releasing the module it has created. -/
theorem C114_hand_violated (env : Env) (items : List Item) (hc : env .create) (hf : ¬(env .numpy ∧ env .umath)) :
    (initHand env items Heap.empty).2 = false ∧ (initHand env items Heap.empty).1.modRc = 1 ∧ ¬(initHand env items Heap.empty).1.Clean := by
  have e : initHand env items Heap.empty = (newMod Heap.empty, false) := by
    rw [initHand]
    by_cases h1 : env .numpy
    · have h2 : ¬env .umath := fun h2 => hf ⟨h1, h2⟩
      simp [hc, h1, h2]
    · simp [hc, h1]
  rw [e]
  exact ⟨rfl, rfl, fun c => by have := c.1; simp [newMod] at this⟩

/-- C114: the names of each module are distinct, so the theorems apply, and they are the names the package looks up (for `._gendot` a
method). -/
theorem C114_modules :
    (∀ m ∈ handModules ++ extraModules, (m.2.map Item.name).Nodup) ∧
    (∀ m ∈ handModules ++ extraModules, m.1 ≠ "._gendot" →
      LazyImport.moduleDefs.lookup m.1 = some ((m.2.filter Item.isUfunc).map Item.name)) ∧
    ∀ m ∈ LazyImport.moduleDefs, m.2.Nodup := by
  refine ⟨by decide +kernel, by decide +kernel, by decide +kernel⟩

/-- An initialisation that fails at the last of 8 steps: the hypotheses and the conclusion are not vacuous. -/
example : (initGenerated (fun s => s != .add 7) (extraModules.headD ("", [])).2 Heap.empty).2 = false ∧
    (initGenerated (fun _ => true) (extraModules.headD ("", [])).2 Heap.empty).1.dict =
      [("first", some 0), ("argfirst", some 1), ("_LT", none), ("_LE", none), ("_EQ", none), ("_NE", none), ("_GT", none), ("_GE", none)] := by
  decide +kernel

end Ufunclab.ModInit
