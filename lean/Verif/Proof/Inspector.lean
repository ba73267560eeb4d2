import Verif.Spec.Inspector
import Mathlib.Tactic.IntervalCases
/-!
# Lemmas about the report of `ufunc_inspector`
-/
namespace Ufunclab.InspectorProof
open Inspector InspectorSpec

theorem lit {a b c : String} (h : a ++ b = c) (x : String) : a ++ (b ++ x) = c ++ x := by
  rw [← h, String.append_assoc]

theorem printList_eq (item : Nat → Option String) (n : Nat) : ∀ (suf : List String) (i : Nat) (out : String),
    suf ≠ [] → (∀ k, k < suf.length → item (i + k) = suf[k]?) → i + suf.length = n →
    printList item n suf.length i out = some (out ++ joined ", " suf ++ "]\n") := by
  intro suf
  induction suf with
  | nil => intro i out h; exact absurd rfl h
  | cons a l ih =>
    intro i out _ hi hn
    have h0 := hi 0 (by simp)
    simp only [Nat.add_zero, List.getElem?_cons_zero] at h0
    cases l with
    | nil =>
      simp only [List.length_cons, List.length_nil] at hn ⊢
      simp only [Nat.zero_add] at hn ⊢
      simp [printList, h0, hn, joined, String.append_assoc]
    | cons b l =>
      simp only [List.length_cons] at hn ⊢
      have hne : ¬ i + 1 = n := by omega
      have := ih (i + 1) (out ++ a ++ ", ") (by simp)
        (fun k hk => by
          have := hi (k + 1) (by simpa using hk)
          rw [List.getElem?_cons_succ] at this
          rw [← this]; congr 1; omega) (by simp only [List.length_cons]; omega)
      rw [printList]
      simp only [h0, Option.bind_eq_bind, Option.bind_some, if_neg hne]
      rw [List.length_cons] at this
      rw [this]
      simp [joined, String.append_assoc]

theorem printList_map {α : Type} (l : List α) (f : α → String) (n : Nat) (hn : l.length = n) (hpos : 0 < n) (out : String) :
    printList (fun i => (l[i]?).map f) n n 0 out = some (out ++ joined ", " (l.map f) ++ "]\n") := by
  subst hn
  have := printList_eq (fun i => (l[i]?).map f) l.length (l.map f) 0 out
    (by intro h; simp at h; simp [h] at hpos) (by intro k hk; simp) (by simp)
  simpa using this

theorem printIxs_eq (ixs : List Int) (last : Nat) : ∀ (suf : List Int) (j : Nat) (out : String),
    (∀ k, k < suf.length → ixs[j + k]? = suf[k]?) → (suf ≠ [] → j + suf.length = last + 1) →
    printIxs ixs last suf.length j out = some (out ++ joined ", " (suf.map toString)) := by
  intro suf
  induction suf with
  | nil => intro j out _ _; simp [printIxs, joined]
  | cons a l ih =>
    intro j out hi hn
    have h0 := hi 0 (by simp)
    simp only [Nat.add_zero, List.getElem?_cons_zero] at h0
    have hn' := hn (by simp)
    have hk : ∀ k, k < l.length → ixs[j + 1 + k]? = l[k]? := fun k hk => by
      have := hi (k + 1) (by simpa using hk)
      rw [List.getElem?_cons_succ] at this
      rw [← this]; congr 1; omega
    cases l with
    | nil =>
      have hl : j = last := by simpa using hn'
      subst hl
      simp [printIxs, h0, joined]
    | cons b l =>
      simp only [List.length_cons] at hn' ⊢
      have hne : j ≠ last := by omega
      have := ih (j + 1) (out ++ toString a ++ ", ") hk (fun _ => by simp only [List.length_cons]; omega)
      rw [printIxs]
      simp only [h0, Option.bind_eq_bind, Option.bind_some, if_pos hne]
      rw [List.length_cons] at this
      rw [this]
      simp [joined, String.append_assoc]

theorem printDimIxs_eq {F : Type} (u : UFunc F) : ∀ (suf : List (Nat × Nat)) (i : Nat) (out : String),
    (∀ k, k < suf.length → u.coreOffsets[i + k]? = (suf[k]?).map Prod.fst ∧ u.coreNumDims[i + k]? = (suf[k]?).map Prod.snd) →
    (∀ a ∈ suf, a.1 + a.2 ≤ u.coreDimIxs.length) →
    printDimIxs u suf.length i out =
      some (out ++ lines (suf.map fun a => " " ++ bracketed (((u.coreDimIxs.drop a.1).take a.2).map toString))) := by
  intro suf
  induction suf with
  | nil => intro i out _ _; simp [printDimIxs, lines]
  | cons a l ih =>
    intro i out hi hb
    obtain ⟨h0, h1⟩ := hi 0 (by simp)
    simp only [Nat.add_zero, List.getElem?_cons_zero, Option.map_some] at h0 h1
    have hk : ∀ k, k < l.length → u.coreOffsets[i + 1 + k]? = (l[k]?).map Prod.fst ∧ u.coreNumDims[i + 1 + k]? = (l[k]?).map Prod.snd := fun k hk => by
      have := hi (k + 1) (by simpa using hk)
      rw [List.getElem?_cons_succ] at this
      rw [show i + 1 + k = i + (k + 1) by omega]; exact this
    have ha := hb a (by simp)
    have hlen : ((u.coreDimIxs.drop a.1).take a.2).length = a.2 := by simp; omega
    have hx := printIxs_eq u.coreDimIxs (a.1 + a.2 - 1) ((u.coreDimIxs.drop a.1).take a.2) a.1 (out ++ " [")
      (by
        intro k hk
        rw [hlen] at hk
        rw [List.getElem?_take_of_lt hk, List.getElem?_drop])
      (by
        intro hne
        have : 0 < ((u.coreDimIxs.drop a.1).take a.2).length := List.length_pos_iff.mpr hne
        omega)
    rw [hlen] at hx
    rw [List.length_cons, printDimIxs]
    simp only [h0, h1, Option.bind_eq_bind, Option.bind_some, hx]
    rw [ih (i + 1) _ hk (fun a ha => hb a (by simp [ha]))]
    simp only [lines, bracketed, String.append_assoc, List.map_cons]
    rw [lit (a := " ") (b := "[") (c := " [") rfl]

theorem printFlags_eq (f : BitVec 32) : printFlags f = joined " | " (flagNames f) := by
  have h (k : Nat) (hk : k < 32) (b : BitVec 32) (hb : b = BitVec.twoPow 32 k) : (f &&& b ≠ 0#32) ↔ f.getLsbD k = true := by
    subst hb
    rw [BitVec.and_twoPow]
    by_cases hf : f.getLsbD k = true
    · simp only [hf, if_true]
      simp only [ne_eq, iff_true]
      intro hz
      have := congrArg (fun v => BitVec.getLsbD v k) hz
      simp [BitVec.getLsbD_twoPow, hk] at this
    · simp [hf]
  have h2 := h 2 (by norm_num) 4#32 (by decide)
  have h1 := h 1 (by norm_num) 2#32 (by decide)
  have h18 := h 18 (by norm_num) 0x40000#32 (by decide)
  unfold printFlags flagNames
  simp only [h2, h1, h18]
  generalize f.getLsbD 2 = a
  generalize f.getLsbD 1 = b
  generalize f.getLsbD 18 = c
  cases a <;> cases b <;> cases c <;> rfl

theorem printHead_eq {F : Type} (u : UFunc F) (h : WellFormed u) : printHead u = some (head u) := by
  unfold printHead head
  by_cases hc : u.coreEnabled = true
  · rw [if_pos hc, if_pos hc]
    have hz : (u.coreOffsets.zip u.coreNumDims).length = u.nargs := by simp [h.offsets hc, h.numDims hc]
    have hd := fun out => printDimIxs_eq u (u.coreOffsets.zip u.coreNumDims) 0 out
      (by
        intro k hk
        have hk' : k < u.nargs := by omega
        have k1 : k < u.coreOffsets.length := by rw [h.offsets hc]; exact hk'
        have k2 : k < u.coreNumDims.length := by rw [h.numDims hc]; exact hk'
        simp [List.getElem?_eq_getElem, hk, k1, k2])
      (by
        intro a ha
        obtain ⟨k, hk, rfl⟩ := List.getElem_of_mem ha
        simp only [List.getElem_zip]
        exact h.ixs hc k _ _)
    rw [hz] at hd
    simp only [printList_map _ _ _ (h.sizes hc) (h.dims_pos hc), printList_map _ _ _ (h.flags hc) (h.dims_pos hc),
      printList_map _ _ _ (h.numDims hc) h.nargs_pos, printList_map _ _ _ (h.offsets hc) h.nargs_pos,
      printList_map _ _ _ (h.opFlags hc) h.nargs_pos, hd, Option.bind_eq_bind, Option.bind_some]
    rw [show printFlags = fun f => joined " | " (flagNames f) from funext printFlags_eq]
    simp only [bracketed, String.append_assoc]
    have l1 := fun x => lit (a := "]") (b := "\n") (c := "]\n") rfl x
    have l2 := fun x => lit (a := "...core_dim_sizes                  (-1 if not frozen) = ") (b := "[") (c := "...core_dim_sizes                  (-1 if not frozen) = [") (by decide +kernel) x
    have l3 := fun x => lit (a := "...core_dim_flags             (UFUNC_CORE_DIM* flags) = ") (b := "[") (c := "...core_dim_flags             (UFUNC_CORE_DIM* flags) = [") (by decide +kernel) x
    have l4 := fun x => lit (a := "...core_num_dims    (number of core dims in each arg) = ") (b := "[") (c := "...core_num_dims    (number of core dims in each arg) = [") (by decide +kernel) x
    have l5 := fun x => lit (a := "...core_offsets    (pos. of 1st core dim of each arg) = ") (b := "[") (c := "...core_offsets    (pos. of 1st core dim of each arg) = [") (by decide +kernel) x
    have l6 := fun x => lit (a := "...op_flags (flags for each op when called by nditer) = ") (b := "[") (c := "...op_flags (flags for each op when called by nditer) = [") (by decide +kernel) x
    simp only [l1, l2, l3, l4, l5, l6]
  · rw [if_neg hc, if_neg hc]
    simp only [String.append_assoc]

theorem checkFor_eq {F : Type} [DecidableEq F] (gen : String → F) (f : F) (l : List String) :
    ∃ s, checkFor gen f l = s ++ "\n" ∧
      ((∃ g ∈ l, f = gen g ∧ s = "PyUFunc_" ++ g) ∨ ((∀ g ∈ l, f ≠ gen g) ∧ s = "not generic (or not in the checked generics)")) := by
  induction l with
  | nil => exact ⟨_, rfl, Or.inr ⟨by simp, rfl⟩⟩
  | cons a l ih =>
    unfold checkFor
    by_cases h : f = gen a
    · rw [if_pos h]; exact ⟨_, rfl, Or.inl ⟨a, by simp, h, rfl⟩⟩
    · rw [if_neg h]
      obtain ⟨s, h1, h2⟩ := ih
      refine ⟨s, h1, ?_⟩
      rcases h2 with ⟨g, hg, h3⟩ | ⟨h3, h4⟩
      · exact Or.inl ⟨g, by simp [hg], h3⟩
      · refine Or.inr ⟨?_, h4⟩
        intro g hg
        rcases List.mem_cons.mp hg with rfl | hg
        · exact h
        · exact h3 g hg

theorem typechar_eq (descr : Int → Option (Char × Option String)) : typechar descr = charOf descr := by
  funext t
  unfold typechar charOf
  cases descr t <;> rfl

theorem typename_eq (descr : Int → Option (Char × Option String)) (t : Int) : typename descr t = nameOf descr t := by
  unfold typename nameOf
  rcases descr t with _ | ⟨c, _ | s⟩ <;> rfl

/-- Some type number of the list has no descriptor. -/
def Missing (descr : Int → Option (Char × Option String)) (ts : List Int) : Bool := ts.any fun t => (descr t).isNone

theorem slice_getElem? (types : List Int) (n i k : Nat) (hk : k < n) : types[i * n + k]? = (loopTypes n types i)[k]? := by
  unfold loopTypes
  rw [List.getElem?_take_of_lt hk, List.getElem?_drop]

theorem loopTypes_length (types : List Int) (n m i : Nat) (h : types.length = m * n) (hi : i < m) : (loopTypes n types i).length = n := by
  unfold loopTypes
  have : (i + 1) * n ≤ m * n := Nat.mul_le_mul_right _ hi
  rw [Nat.succ_mul] at this
  simp only [List.length_take, List.length_drop, h]
  omega

theorem printLoop_eq {F : Type} [DecidableEq F] (gen : String → F) (descr : Int → Option (Char × Option String)) (u : UFunc F)
    (h : WellFormed u) (hl : Listed u) (i : Nat) (hi : i < u.ntypes) (f : F) (hf : u.functions[i]? = some f) (out : Out) :
    ∃ s, Describes gen u.nin f s ∧
      printLoop gen descr u i out = some ⟨out.text ++ loopLine descr i (loopTypes u.nargs u.types i) s,
        out.err || Missing descr (loopTypes u.nargs u.types i)⟩ := by
  obtain ⟨l1, l2, l3⟩ := hl
  have hlen := loopTypes_length u.types u.nargs u.ntypes i h.types hi
  have hget := slice_getElem? u.types u.nargs i
  have hn := h.nargs
  generalize loopTypes u.nargs u.types i = ts at *
  rw [l3] at hn
  have hcases : u.nin = 1 ∨ u.nin = 2 ∨ u.nin = 3 ∨ u.nin = 4 := by omega
  unfold printLoop
  rcases hcases with e | e | e | e
  · rw [e] at hn; rw [hn] at hlen hget
    obtain ⟨t0, t1, rfl⟩ := List.length_eq_two.mp hlen
    have g0 := hget 0 (by norm_num); have g1 := hget 1 (by norm_num)
    simp only [Nat.mul_comm i, Nat.add_zero, List.getElem?_cons_zero, List.getElem?_cons_succ, Nat.reduceAdd] at g0 g1
    obtain ⟨s, hs, hd⟩ := checkFor_eq gen f unaryLoops
    refine ⟨s, ?_, ?_⟩
    · rw [e]; exact hd
    · simp [e, l3, g0, g1, hf, hs, Out.put, Out.chars, typechar_eq, loopLine, numberColumns, charColumns, Missing, String.append_assoc, Bool.or_assoc]
      simp only [lit (a := ": ") (b := " ") (c := ":  ") rfl, lit (a := ")") (b := "  ") (c := ")  ") rfl]
  · rw [e] at hn; rw [hn] at hlen hget
    obtain ⟨t0, t1, t2, rfl⟩ := List.length_eq_three.mp hlen
    have g0 := hget 0 (by norm_num); have g1 := hget 1 (by norm_num); have g2 := hget 2 (by norm_num)
    simp only [Nat.mul_comm i, Nat.add_zero, List.getElem?_cons_zero, List.getElem?_cons_succ, Nat.reduceAdd] at g0 g1 g2
    obtain ⟨s, hs, hd⟩ := checkFor_eq gen f binaryLoops
    refine ⟨s, ?_, ?_⟩
    · rw [e]; exact hd
    · simp [e, l3, g0, g1, g2, hf, hs, Out.put, Out.chars, typechar_eq, loopLine, numberColumns, joined, charColumns, Missing, String.append_assoc, Bool.or_assoc]
      simp only [lit (a := ": ") (b := "(") (c := ": (") rfl, lit (a := ")") (b := "  ") (c := ")  ") rfl]
  · rw [e] at hn; rw [hn] at hlen hget
    have h4 : ∃ t0 t1 t2 t3, ts = [t0, t1, t2, t3] := by
      rcases ts with _ | ⟨a, _ | ⟨b, _ | ⟨c, _ | ⟨d, _ | ⟨e, l⟩⟩⟩⟩⟩ <;> simp at hlen
      exact ⟨a, b, c, d, rfl⟩
    obtain ⟨t0, t1, t2, t3, rfl⟩ := h4
    have g0 := hget 0 (by norm_num); have g1 := hget 1 (by norm_num); have g2 := hget 2 (by norm_num); have g3 := hget 3 (by norm_num)
    simp only [Nat.mul_comm i, Nat.add_zero, List.getElem?_cons_zero, List.getElem?_cons_succ, Nat.reduceAdd] at g0 g1 g2 g3
    refine ⟨"", ?_, ?_⟩
    · rw [e]; rfl
    · simp [e, l3, g0, g1, g2, g3, Out.put, Out.chars, typechar_eq, loopLine, numberColumns, joined, charColumns, Missing, String.append_assoc, Bool.or_assoc]
      simp only [lit (a := ": ") (b := "(") (c := ": (") rfl, lit (a := ")") (b := "  ") (c := ")  ") rfl]
  · rw [e] at hn; rw [hn] at hlen hget
    have h4 : ∃ t0 t1 t2 t3 t4, ts = [t0, t1, t2, t3, t4] := by
      rcases ts with _ | ⟨a, _ | ⟨b, _ | ⟨c, _ | ⟨d, _ | ⟨e, _ | ⟨f, l⟩⟩⟩⟩⟩⟩ <;> simp at hlen
      exact ⟨a, b, c, d, e, rfl⟩
    obtain ⟨t0, t1, t2, t3, t4, rfl⟩ := h4
    have g0 := hget 0 (by norm_num); have g1 := hget 1 (by norm_num); have g2 := hget 2 (by norm_num); have g3 := hget 3 (by norm_num); have g4 := hget 4 (by norm_num)
    simp only [Nat.mul_comm i, Nat.add_zero, List.getElem?_cons_zero, List.getElem?_cons_succ, Nat.reduceAdd] at g0 g1 g2 g3 g4
    refine ⟨"", ?_, ?_⟩
    · rw [e]; rfl
    · simp [e, l3, g0, g1, g2, g3, g4, Out.put, Out.chars, typechar_eq, loopLine, numberColumns, joined, charColumns, Missing, String.append_assoc, Bool.or_assoc]
      simp only [lit (a := ": ") (b := "(") (c := ": (") rfl, lit (a := ")") (b := "  ") (c := ")  ") rfl]

theorem printLoop_none {F : Type} [DecidableEq F] (gen : String → F) (descr : Int → Option (Char × Option String)) (u : UFunc F)
    (hl : ¬ Listed u) (i : Nat) (out : Out) : printLoop gen descr u i out = some out := by
  unfold Listed at hl
  unfold printLoop
  rw [if_neg (by omega), if_neg (by omega), if_neg (by omega), if_neg (by omega)]

theorem printLoops_eq {F : Type} [DecidableEq F] (gen : String → F) (descr : Int → Option (Char × Option String)) (u : UFunc F)
    (h : WellFormed u) (hl : Listed u) : ∀ (fuel i : Nat) (out : Out), i + fuel = u.ntypes →
    ∃ what : Nat → String, (∀ k, i ≤ k → k < u.ntypes → ∃ f, u.functions[k]? = some f ∧ Describes gen u.nin f (what k)) ∧
      printLoops gen descr u fuel i out = some
        ⟨out.text ++ lines ((List.range' i fuel).map fun k => loopLine descr k (loopTypes u.nargs u.types k) (what k)),
         out.err || (List.range' i fuel).any fun k => Missing descr (loopTypes u.nargs u.types k)⟩ := by
  intro fuel
  induction fuel with
  | zero =>
    intro i out hi
    refine ⟨fun _ => "", fun k h1 h2 => by omega, ?_⟩
    simp [printLoops, lines]
  | succ n ih =>
    intro i out hi
    have hin : i < u.ntypes := by omega
    have hf : u.functions[i]? = some (u.functions[i]'(by rw [h.functions]; exact hin)) := by simp
    obtain ⟨s, hs, hp⟩ := printLoop_eq gen descr u h hl i hin _ hf out
    obtain ⟨what, hw, hrest⟩ := ih (i + 1) ⟨out.text ++ loopLine descr i (loopTypes u.nargs u.types i) s,
        out.err || Missing descr (loopTypes u.nargs u.types i)⟩ (by omega)
    refine ⟨fun k => if k = i then s else what k, ?_, ?_⟩
    · intro k h1 h2
      by_cases hk : k = i
      · subst hk; simp only [if_true]; exact ⟨_, hf, hs⟩
      · simp only [if_neg hk]; exact hw k (by omega) h2
    · rw [printLoops, hp]
      simp only [Option.bind_eq_bind, Option.bind_some, hrest, List.range'_succ, List.map_cons, lines, List.any_cons, if_true]
      have hm : ((List.range' (i + 1) n).map fun k => loopLine descr k (loopTypes u.nargs u.types k) (if k = i then s else what k)) =
          (List.range' (i + 1) n).map fun k => loopLine descr k (loopTypes u.nargs u.types k) (what k) := by
        apply List.map_congr_left
        intro k hk
        have : i + 1 ≤ k := by simp at hk; omega
        rw [if_neg (by omega)]
      rw [hm, String.append_assoc, Bool.or_assoc]

theorem printLoops_none {F : Type} [DecidableEq F] (gen : String → F) (descr : Int → Option (Char × Option String)) (u : UFunc F)
    (hl : ¬ Listed u) : ∀ (fuel i : Nat) (out : Out), printLoops gen descr u fuel i out = some out := by
  intro fuel
  induction fuel with
  | zero => intro i out; rfl
  | succ n ih => intro i out; simp [printLoops, printLoop_none gen descr u hl, ih]

theorem printArgTypes_eq (nin : Nat) (ts : List Int) : ∀ (suf : List Int) (i : Nat) (out : Out),
    (∀ k, k < suf.length → ts[i + k]? = suf[k]?) →
    printArgTypes nin ts suf.length i out = some ⟨out.text ++ lines ((suf.take (nin - i)).map fun t => " " ++ toString t) ++
      (if i ≤ nin ∧ nin < i + suf.length then "   out:" else "") ++ lines ((suf.drop (nin - i)).map fun t => " " ++ toString t), out.err⟩ := by
  intro suf
  induction suf with
  | nil =>
    intro i out _
    have : ¬ (i ≤ nin ∧ nin < i + 0) := by omega
    simp only [List.length_nil, printArgTypes, List.take_nil, List.map_nil, lines, List.drop_nil, if_neg this, String.append_empty]
  | cons a l ih =>
    intro i out hi
    have h0 := hi 0 (by simp)
    simp only [Nat.add_zero, List.getElem?_cons_zero] at h0
    have hk : ∀ k, k < l.length → ts[i + 1 + k]? = l[k]? := fun k hk => by
      have := hi (k + 1) (by simpa using hk)
      rw [List.getElem?_cons_succ] at this
      rw [← this]; congr 1; omega
    rw [List.length_cons, printArgTypes]
    simp only [h0, Option.bind_eq_bind, Option.bind_some]
    rw [ih (i + 1) _ hk]
    rcases Nat.lt_trichotomy i nin with hlt | heq | hgt
    · have e1 : nin - i = (nin - (i + 1)) + 1 := by omega
      have e2 : (i + 1 ≤ nin ∧ nin < i + 1 + l.length) ↔ (i ≤ nin ∧ nin < i + (l.length + 1)) := by omega
      rw [if_neg (by omega), e1]
      simp only [List.take_succ_cons, List.drop_succ_cons, List.map_cons, lines, Out.put, String.append_assoc, e2]
    · subst heq
      have c1 : ¬ (i + 1 ≤ i ∧ i < i + 1 + l.length) := by omega
      have c2 : i ≤ i ∧ i < i + (l.length + 1) := by omega
      rw [if_pos rfl, if_neg c1, if_pos c2]
      have e1 : i - (i + 1) = 0 := by omega
      simp [e1, lines, Out.put, String.append_assoc]
    · rw [if_neg (by omega), if_neg (by omega), if_neg (by omega)]
      have e1 : nin - i = 0 := by omega
      have e2 : nin - (i + 1) = 0 := by omega
      simp [e1, e2, lines, Out.put, String.append_assoc]

theorem printUserLoops_eq {F : Type} (u : UFunc F) (hn : u.nargs = u.nin + u.nout) : ∀ (l : List (List Int)) (out : Out),
    (∀ ts ∈ l, ts.length = u.nargs) →
    printUserLoops u l out = some ⟨out.text ++ lines (l.map fun ts =>
      "      arg_types:  in:" ++ lines ((ts.take u.nin).map fun t => " " ++ toString t) ++
      (if ts.length ≤ u.nin then "" else "   out:") ++ lines ((ts.drop u.nin).map fun t => " " ++ toString t) ++ "\n"), out.err⟩ := by
  intro l
  induction l with
  | nil => intro out _; simp [printUserLoops, lines]
  | cons ts l ih =>
    intro out hl
    have hts := hl ts (by simp)
    have hp := printArgTypes_eq u.nin ts ts 0 (out.put "      arg_types:  in:") (by simp)
    rw [hts, hn] at hp
    rw [printUserLoops, hp]
    simp only [Option.bind_eq_bind, Option.bind_some]
    rw [ih _ (fun ts h => hl ts (by simp [h]))]
    have e : (0 ≤ u.nin ∧ u.nin < 0 + (u.nin + u.nout)) ↔ ¬ ts.length ≤ u.nin := by rw [hts, hn]; omega
    simp only [e, List.map_cons, lines, Out.put, String.append_assoc, Nat.sub_zero, ite_not]

theorem printUser_text {F : Type} (descr : Int → Option (Char × Option String)) (u : UFunc F) (hn : u.nargs = u.nin + u.nout) :
    ∀ (d : List (Int × List (List Int))) (out : Out), (∀ k ∈ d, ∀ ts ∈ k.2, ts.length = u.nargs) →
    out.err = false → (∀ k ∈ d, (descr k.1).isSome) →
    printUser descr u d out = some ⟨out.text ++ lines (d.map (userLines descr u.nin)), false⟩ := by
  intro d
  induction d with
  | nil => intro out _ he _; obtain ⟨t, e⟩ := out; simp only at he; subst he; simp [printUser, lines]
  | cons k d ih =>
    obtain ⟨key, loops⟩ := k
    intro out hl he hk
    obtain ⟨t, e⟩ := out
    simp only at he; subst he
    have hkey : (descr key).isNone = false := by
      have := hk (key, loops) (by simp)
      simp only at this
      cases hd : descr key <;> simp_all
    rw [printUser]
    simp only [Out.put, Bool.false_eq_true, if_false, hkey]
    rw [printUserLoops_eq u hn loops _ (fun ts h => hl (key, loops) (by simp) ts h)]
    simp only [Option.bind_eq_bind, Option.bind_some]
    rw [ih _ (fun k h => hl k (by simp [h])) rfl (fun k h => hk k (by simp [h]))]
    simp only [List.map_cons, lines, userLines, typename_eq, String.append_assoc]
    rw [lit (a := "'") (b := "\n") (c := "'\n") rfl]

theorem printUser_err {F : Type} (descr : Int → Option (Char × Option String)) (u : UFunc F) (hn : u.nargs = u.nin + u.nout) :
    ∀ (d : List (Int × List (List Int))) (out : Out), (∀ k ∈ d, ∀ ts ∈ k.2, ts.length = u.nargs) →
    ∃ o, printUser descr u d out = some o ∧ (o.err = true ↔ out.err = true ∨ ∃ k ∈ d, descr k.1 = none) := by
  intro d
  induction d with
  | nil => intro out _; exact ⟨out, rfl, by simp⟩
  | cons k d ih =>
    obtain ⟨key, loops⟩ := k
    intro out hl
    rw [printUser]
    rw [printUserLoops_eq u hn loops _ (fun ts h => hl (key, loops) (by simp) ts h)]
    simp only [Option.bind_eq_bind, Option.bind_some]
    obtain ⟨o, ho, hiff⟩ := ih ⟨((if (out.put ("  typenum = " ++ toString key)).err = true then out.put ("  typenum = " ++ toString key) else
      ⟨(out.put ("  typenum = " ++ toString key)).text ++ ("; type name is '" ++ typename descr key ++ "'"), (descr key).isNone⟩).put "\n").text ++ lines (loops.map fun ts =>
      "      arg_types:  in:" ++ lines ((ts.take u.nin).map fun t => " " ++ toString t) ++
      (if ts.length ≤ u.nin then "" else "   out:") ++ lines ((ts.drop u.nin).map fun t => " " ++ toString t) ++ "\n"),
      ((if (out.put ("  typenum = " ++ toString key)).err = true then out.put ("  typenum = " ++ toString key) else
      ⟨(out.put ("  typenum = " ++ toString key)).text ++ ("; type name is '" ++ typename descr key ++ "'"), (descr key).isNone⟩).put "\n").err⟩
      (fun k h => hl k (by simp [h]))
    refine ⟨o, ho, ?_⟩
    rw [hiff]
    simp only [Out.put]
    by_cases he : out.err = true
    · simp [he]
    · simp [he]

theorem mem_types_iff (types : List Int) (n m : Nat) (hn : 0 < n) (h : types.length = m * n) (t : Int) :
    t ∈ types ↔ ∃ i, i < m ∧ t ∈ loopTypes n types i := by
  constructor
  · intro ht
    obtain ⟨j, hj, rfl⟩ := List.getElem_of_mem ht
    have hm := Nat.div_add_mod j n
    have hlt := Nat.mod_lt j hn
    refine ⟨j / n, (Nat.div_lt_iff_lt_mul hn).mpr (by omega), ?_⟩
    have := slice_getElem? types n (j / n) (j % n) hlt
    rw [show j / n * n + j % n = j by rw [Nat.mul_comm]; exact hm, List.getElem?_eq_getElem hj] at this
    exact List.mem_of_getElem? this.symm
  · rintro ⟨i, _, ht⟩
    exact List.mem_of_mem_drop (List.mem_of_mem_take ht)

end Ufunclab.InspectorProof
