import Verif.Spec.UfuncGen
import Verif.Proof.PyStr
import Verif.Proof.CxxGen
import Mathlib.Data.List.Nodup
import Mathlib.Tactic.Linarith
namespace Ufunclab.UfuncGen
open PyStr Spec

/-! ### Signatures -/

theorem typeChar_cases {c : Char} (h : c ∈ floatTypes.map Prod.fst) :
    c = 'f' ∨ c = 'd' ∨ c = 'g' ∨ c = 'F' ∨ c = 'D' ∨ c = 'G' := by
  simpa [floatTypes] using h

theorem ctype_of {c : Char} (h : c ∈ floatTypes.map Prod.fst) : ctype c = some (cTypeOf c) := by
  rcases typeChar_cases h with rfl | rfl | rfl | rfl | rfl | rfl <;> rfl

theorem npyType_of {c : Char} (h : c ∈ floatTypes.map Prod.fst) : npyType c = some (npyOf c) := by
  rcases typeChar_cases h with rfl | rfl | rfl | rfl | rfl | rfl <;> rfl

theorem ne_dash {c : Char} (h : c ∈ floatTypes.map Prod.fst) : c ≠ '-' := by
  rcases typeChar_cases h with rfl | rfl | rfl | rfl | rfl | rfl <;> decide

theorem ne_under {c : Char} (h : c ∈ floatTypes.map Prod.fst) : c ≠ '_' := by
  rcases typeChar_cases h with rfl | rfl | rfl | rfl | rfl | rfl <;> decide

theorem split_sig (ins : List Char) (out : Char) (hi : '-' ∉ ins) (ho : out ≠ '-') :
    split "->".toList (sig ins out) = [ins, [out]] := by
  have := split_join '-' ['>'] [ins] [out] (by simpa using hi) (by
    intro t ht hn hc
    have : '-' ∈ t := hc.subset (by simp)
    have := ht.subset this
    simp at this; exact ho this.symm)
  simpa [join, sig] using this

theorem parseSig_sig (ins : List Char) (out : Char) (hi : '-' ∉ ins) (ho : out ≠ '-') :
    parseSig (sig ins out) = some (ins, out) := by
  rw [parseSig, split_sig ins out hi ho]

theorem ext_sig (ins : List Char) (out : Char) (hi : '-' ∉ ins) (ho : out ≠ '-') :
    ext (sig ins out) = ins ++ ['_', out] := by
  induction ins with
  | nil => simp [sig, ext]
  | cons c ins ih =>
    simp at hi
    have := ih hi.2
    simp only [sig, List.cons_append] at this ⊢
    rw [ext, this]
    intro s hc; exact absurd hc.symm hi.1

theorem floatSig_dash {n : Nat} {s : List Char} (h : FloatSig n s) :
    ∃ ins out, s = sig ins out ∧ ins.length = n ∧ (∀ c ∈ ins, c ∈ floatTypes.map Prod.fst) ∧ out ∈ floatTypes.map Prod.fst
      ∧ '-' ∉ ins ∧ out ≠ '-' ∧ '_' ∉ ins ∧ out ≠ '_' := by
  obtain ⟨ins, out, h1, h2, h3, h4⟩ := h
  exact ⟨ins, out, h1, h2, h3, h4, fun h => ne_dash (h3 _ h) rfl, ne_dash h4, fun h => ne_under (h3 _ h) rfl, ne_under h4⟩

theorem sig_inj {ins ins' : List Char} {out out' : Char} (h : sig ins out = sig ins' out') : ins = ins' ∧ out = out' := by
  simp only [sig] at h
  have := List.append_inj' h rfl
  have h2 := List.append_inj' this.1 rfl
  exact ⟨h2.1, by simpa using this.2⟩

/-! ### Names -/

theorem cut_inj {α : Type _} [DecidableEq α] (c : α) (u u' a a' : List α) (ha : c ∉ a) (ha' : c ∉ a')
    (h : u ++ c :: a = u' ++ c :: a') : u = u' ∧ a = a' := by
  induction a using List.reverseRecOn generalizing a' with
  | nil =>
    cases a' using List.reverseRecOn with
    | nil => exact ⟨List.append_cancel_right h, rfl⟩
    | append_singleton a' x =>
      exfalso
      have : (u ++ [c]).getLast? = (u' ++ c :: (a' ++ [x])).getLast? := by rw [h]
      rw [← List.cons_append, ← List.append_assoc, List.getLast?_concat, List.getLast?_concat] at this
      simp at this ha'
      exact ha'.2 this
  | append_singleton a x ih =>
    cases a' using List.reverseRecOn with
    | nil =>
      exfalso
      have : (u ++ c :: (a ++ [x])).getLast? = (u' ++ [c]).getLast? := by rw [h]
      rw [← List.cons_append, ← List.append_assoc, List.getLast?_concat, List.getLast?_concat] at this
      simp at this ha
      exact ha.2 this.symm
    | append_singleton a' x' =>
      rw [← List.cons_append, ← List.append_assoc, ← List.cons_append, ← List.append_assoc] at h
      have h1 := List.append_inj' h rfl
      simp at ha ha'
      obtain ⟨h3, h4⟩ := ih a' ha.1 ha'.1 h1.1
      exact ⟨h3, by rw [h4, h1.2]⟩

theorem concreteName_inj {n n' : Nat} {s s' u u' : List Char} (hs : FloatSig n s) (hs' : FloatSig n' s')
    (h : concreteName u s = concreteName u' s') : u = u' ∧ s = s' := by
  obtain ⟨ins, out, rfl, -, -, -, h1, h2, h3, -⟩ := floatSig_dash hs
  obtain ⟨ins', out', rfl, -, -, -, h1', h2', h3', -⟩ := floatSig_dash hs'
  rw [concreteName, concreteName, ext_sig _ _ h1 h2, ext_sig _ _ h1' h2', ← List.cons_append, ← List.append_assoc,
    ← List.cons_append, ← List.append_assoc] at h
  have h4 := List.append_inj' h rfl
  obtain ⟨h5, h6⟩ := cut_inj _ _ _ _ _ h3 h3' h4.1
  have h7 := h4.2
  simp at h7
  exact ⟨h5, by rw [h6, h7]⟩

theorem loopName_eq (u s : List Char) : loopName u s = concreteName u s ++ "_loop".toList := by
  simp [loopName, concreteName]

theorem loopName_inj {n n' : Nat} {s s' u u' : List Char} (hs : FloatSig n s) (hs' : FloatSig n' s')
    (h : loopName u s = loopName u' s') : u = u' ∧ s = s' := by
  rw [loopName_eq, loopName_eq] at h
  exact concreteName_inj hs hs' (List.append_cancel_right h)

/-! ### Looking up a name -/

theorem theOnly_of_nodup {α : Type _} (key : α → List Char) (l : List α) (hn : (l.map key).Nodup) (x : α) (hx : x ∈ l) :
    theOnly (fun y => key y == key x) l = some x := by
  have : l.filter (fun y => key y == key x) = [x] := by
    induction l with
    | nil => simp at hx
    | cons a l ih =>
      simp only [List.map_cons, List.nodup_cons] at hn
      by_cases ha : a = x
      · subst ha
        rw [List.filter_cons_of_pos (by simp)]
        congr 1
        rw [List.filter_eq_nil_iff]
        intro y hy he
        apply hn.1
        rw [List.mem_map]
        exact ⟨y, hy, by simpa using he⟩
      · have hx' : x ∈ l := by simpa [Ne.symm ha] using hx
        rw [List.filter_cons_of_neg, ih hn.2 hx']
        intro he
        apply hn.1
        rw [List.mem_map]
        exact ⟨x, hx', by simpa using (beq_iff_eq.1 he).symm⟩
  simp [theOnly, this]

/-- The functions with their signatures. -/
def pairs (fs : List Func) : List (Func × List Char) := fs.flatMap fun f => f.types.map fun s => (f, s)

theorem mem_pairs {fs : List Func} {f : Func} {s : List Char} : (f, s) ∈ pairs fs ↔ f ∈ fs ∧ s ∈ f.types := by
  simp only [pairs, List.mem_flatMap, List.mem_map, Prod.mk.injEq]
  constructor
  · rintro ⟨g, hg, t, ht, rfl, rfl⟩; exact ⟨hg, ht⟩
  · rintro ⟨hf, hs⟩; exact ⟨f, hf, s, hs, rfl, rfl⟩

theorem pairs_nodup (name : List Char → List Char → List Char) (fs : List Func) (hn : (fs.map Func.ufuncname).Nodup)
    (ht : ∀ f ∈ fs, f.types.Nodup)
    (hinj : ∀ f ∈ fs, ∀ g ∈ fs, ∀ s ∈ f.types, ∀ t ∈ g.types, name f.ufuncname s = name g.ufuncname t → f.ufuncname = g.ufuncname ∧ s = t) :
    ((pairs fs).map fun x => name x.1.ufuncname x.2).Nodup := by
  induction fs with
  | nil => simp [pairs]
  | cons f fs ih =>
    simp only [List.map_cons, List.nodup_cons] at hn
    have e : pairs (f :: fs) = f.types.map (fun s => (f, s)) ++ pairs fs := by simp [pairs]
    rw [e, List.map_append, List.nodup_append]
    refine ⟨?_, ih hn.2 (fun g hg => ht g (by simp [hg])) (fun g hg g' hg' => hinj g (by simp [hg]) g' (by simp [hg'])), ?_⟩
    · rw [List.map_map]
      apply List.Nodup.map_on _ (ht f (by simp))
      intro s hs t ht' he
      exact (hinj f (by simp) f (by simp) s hs t ht' he).2
    · intro a ha b hb hab
      rw [List.map_map, List.mem_map] at ha
      obtain ⟨s, hs, rfl⟩ := ha
      rw [List.mem_map] at hb
      obtain ⟨⟨g, t⟩, hg, rfl⟩ := hb
      rw [mem_pairs] at hg
      have := (hinj f (by simp) g (by simp [hg.1]) s hs t hg.2 hab).1
      apply hn.1
      rw [List.mem_map]
      exact ⟨g, hg.1, this.symm⟩

/-! ### What is generated -/

/-- The generated function for inputs `ins` and output `out`. -/
def theConcrete (f : Func) (ins : List Char) (out : Char) : Concrete :=
  ⟨concreteName f.ufuncname (sig ins out), cTypeOf out, ins.map cTypeOf, f.cxxname, List.range ins.length⟩

def theLoop (f : Func) (ins : List Char) (out : Char) : Loop :=
  { name := loopName f.ufuncname (sig ins out)
    ptrs := List.range ins.length
    outArg := ins.length
    incs := List.range ins.length
    outStep := ins.length
    reads := (ins.map cTypeOf).zip (List.range ins.length)
    outType := cTypeOf out
    callee := concreteName f.ufuncname (sig ins out)
    args := List.range ins.length }

theorem genConcrete_eq (f : Func) (ins : List Char) (out : Char) (h3 : ∀ c ∈ ins, c ∈ floatTypes.map Prod.fst)
    (h4 : out ∈ floatTypes.map Prod.fst) : genConcrete f (sig ins out) = some (theConcrete f ins out) := by
  have h1 : '-' ∉ ins := fun h => ne_dash (h3 _ h) rfl
  rw [genConcrete, parseSig_sig _ _ h1 (ne_dash h4)]
  simp only [Option.bind_some]
  rw [CxxGen.mapM_some ctype cTypeOf ins (fun x hx => ctype_of (h3 x hx)), ctype_of h4]
  rfl

theorem genLoop_eq (f : Func) (ins : List Char) (out : Char) (h3 : ∀ c ∈ ins, c ∈ floatTypes.map Prod.fst)
    (h4 : out ∈ floatTypes.map Prod.fst) (h0 : 0 < ins.length) : genLoop f (sig ins out) = some (theLoop f ins out) := by
  have h1 : '-' ∉ ins := fun h => ne_dash (h3 _ h) rfl
  rw [genLoop, parseSig_sig _ _ h1 (ne_dash h4)]
  simp only [Option.bind_some]
  rw [CxxGen.mapM_some ctype cTypeOf ins (fun x hx => ctype_of (h3 x hx)), ctype_of h4]
  simp only [Option.bind_some]
  rw [if_neg (by omega)]
  have : ins.length - 1 + 1 = ins.length := by omega
  simp only [this]
  rfl

theorem typeRow_eq (ins : List Char) (out : Char) (h3 : ∀ c ∈ ins, c ∈ floatTypes.map Prod.fst)
    (h4 : out ∈ floatTypes.map Prod.fst) : typeRow (sig ins out) = some (ins.map npyOf ++ [npyOf out]) := by
  have h1 : '-' ∉ ins := fun h => ne_dash (h3 _ h) rfl
  rw [typeRow, parseSig_sig _ _ h1 (ne_dash h4)]
  simp only [Option.bind_some]
  rw [CxxGen.mapM_some npyType npyOf ins (fun x hx => npyType_of (h3 x hx)), npyType_of h4]
  rfl

/-- A slice of a concatenation of rows of one length. -/
theorem flatten_slice {α : Type _} (rows : List (List α)) (w : Nat) (h : ∀ r ∈ rows, r.length = w) (k : Nat) (r : List α)
    (hk : rows[k]? = some r) : (rows.flatten.drop (k * w)).take w = r := by
  induction rows generalizing k with
  | nil => simp at hk
  | cons a rows ih =>
    have ha := h a (by simp)
    cases k with
    | zero =>
      simp at hk; subst hk
      rw [Nat.zero_mul, List.drop_zero, List.flatten_cons, List.take_append_of_le_length (by omega), List.take_of_length_le (by omega)]
    | succ k =>
      rw [List.flatten_cons, Nat.succ_mul, Nat.add_comm, ← ha, ← List.drop_drop, List.drop_append_of_le_length (by omega),
        List.drop_length, List.nil_append, ha]
      exact ih (fun r hr => h r (by simp [hr])) k (by simpa using hk)

/-! ### Running a loop -/

section Run
variable {V : Type _} (lib : List Char → List Char → List (List Char) → List V → V)

theorem mapM_range {α : Type _} (l : List α) : (List.range l.length).mapM (fun k => l[k]?) = some l := by
  by_cases h : l = []
  · subst h; rfl
  · have hp : 0 < l.length := List.length_pos_iff.2 h
    have := CxxGen.mapM_some (fun k => l[k]?) (fun k => l[k]?.getD l[0]) (List.range l.length) (by
      intro k hk
      rw [List.mem_range] at hk
      simp [List.getElem?_eq_getElem hk])
    rw [this]
    congr 1
    apply List.ext_getElem
    · simp
    · intro i h1 h2; simp [List.getElem?_eq_getElem h2]

theorem mapM_range_append {α : Type _} (l r : List α) : (List.range l.length).mapM (fun k => (l ++ r)[k]?) = some l := by
  rw [← mapM_range l]
  have e : ∀ (L : List Nat), (∀ k ∈ L, k < l.length) → L.mapM (fun k => (l ++ r)[k]?) = L.mapM (fun k => l[k]?) := by
    intro L
    induction L with
    | nil => intro _; rfl
    | cons a L ih =>
      intro h
      rw [List.mapM_cons, List.mapM_cons, ih (fun k hk => h k (by simp [hk])), List.getElem?_append_left (h a (by simp))]
  exact e _ (fun k hk => List.mem_range.1 hk)

theorem call_eq (cs : List Concrete) (hn : (cs.map Concrete.name).Nodup) (f : Func) (ins : List Char) (out : Char)
    (hc : theConcrete f ins out ∈ cs) (vals : List V) (hv : vals.length = ins.length) :
    call cs lib (concreteName f.ufuncname (sig ins out)) (ins.map cTypeOf) vals
      = some (cTypeOf out, lib f.cxxname (cTypeOf out) (ins.map cTypeOf) vals) := by
  have := theOnly_of_nodup Concrete.name cs hn _ hc
  rw [call]
  change (theOnly (fun c => c.name == (theConcrete f ins out).name) cs).bind _ = _
  rw [this, Option.bind_some, if_neg (by simp [theConcrete, hv])]
  simp only [theConcrete]
  have h1 : List.range ins.length = List.range (ins.map cTypeOf).length := by simp
  rw [h1, mapM_range, Option.bind_some, List.length_map, ← hv, mapM_range]
  rfl

theorem reads_eq (m : Mem (Cell V)) (ts : List (List Char)) (ptrs : List Int) (hl : ptrs.length = ts.length)
    (ht : ∀ i (h : i < ptrs.length), (m ptrs[i]).1 = ts[i]'(hl ▸ h)) :
    (ts.zip (List.range ts.length)).mapM (fun r => (ptrs[r.2]?).bind (load m r.1)) = some (ptrs.map fun p => (m p).2) := by
  by_cases h : ptrs = []
  · subst h
    have : ts = [] := by simpa using hl.symm
    subst this; rfl
  have hp : 0 < ptrs.length := List.length_pos_iff.2 h
  rw [CxxGen.mapM_some _ (fun r => (m (ptrs[r.2]?.getD ptrs[0])).2)]
  · congr 1
    apply List.ext_getElem
    · simp [hl]
    · intro i h1 h2
      simp at h2
      simp [List.getElem?_eq_getElem h2]
  · rintro ⟨t, k⟩ hx
    obtain ⟨i, hi, he⟩ := List.getElem_of_mem hx
    simp at hi
    have hi2 : i < ptrs.length := by omega
    simp at he
    obtain ⟨rfl, rfl⟩ := he
    simp [List.getElem?_eq_getElem hi2, load, ht i hi2]

theorem body_eq (cs : List Concrete) (hn : (cs.map Concrete.name).Nodup) (f : Func) (ins : List Char) (out : Char)
    (hc : theConcrete f ins out ∈ cs) (ptrs : List Int) (hl : ptrs.length = ins.length) (pout : Int) (m : Mem (Cell V))
    (ht : ∀ i (h : i < ptrs.length), (m ptrs[i]).1 = cTypeOf (ins[i]'(hl ▸ h))) :
    body cs lib (theLoop f ins out) ptrs pout m
      = some (m.store pout (cTypeOf out, lib f.cxxname (cTypeOf out) (ins.map cTypeOf) (ptrs.map fun p => (m p).2))) := by
  rw [body]
  have h1 := reads_eq m (ins.map cTypeOf) ptrs (by simp [hl]) (by intro i h; simp [ht i h])
  rw [List.length_map] at h1
  simp only [theLoop]
  rw [h1, Option.bind_some]
  have h2 : List.range ins.length = List.range (ptrs.map fun p => (m p).2).length := by simp [hl]
  have h3 : (List.range ins.length).mapM (fun k => ((List.zip (ins.map cTypeOf) (List.range ins.length))[k]?).map Prod.fst)
      = some (ins.map cTypeOf) := by
    have := mapM_range (ins.map cTypeOf)
    rw [List.length_map] at this
    rw [← this]
    have e : ∀ (L : List Nat), (∀ k ∈ L, k < ins.length) →
        L.mapM (fun k => ((List.zip (ins.map cTypeOf) (List.range ins.length))[k]?).map Prod.fst) = L.mapM (fun k => (ins.map cTypeOf)[k]?) := by
      intro L
      induction L with
      | nil => intro _; rfl
      | cons a L ih =>
        intro h
        have ha := h a (by simp)
        rw [List.mapM_cons, List.mapM_cons, ih (fun k hk => h k (by simp [hk]))]
        congr 1
        rw [List.getElem?_eq_getElem (by simpa using ha), List.getElem?_eq_getElem (by simpa using ha)]
        simp
    exact e _ (fun k hk => List.mem_range.1 hk)
  rw [h3]
  rw [h2, mapM_range, Option.bind_some, Option.bind_some, call_eq lib cs hn f ins out hc _ (by simp [hl]), Option.bind_some]
  exact if_pos rfl

/-- The address of operand elements. -/
def at_ (args steps : List Int) (j : Nat) : List Int := List.zipWith (fun p s => p + j * s) args steps

theorem at_succ (args steps : List Int) (j : Nat) (h : args.length = steps.length) :
    List.zipWith (· + ·) (at_ args steps j) steps = at_ args steps (j + 1) := by
  apply List.ext_getElem
  · simp [at_]
  · intro i h1 h2
    simp [at_]
    push_cast; ring

/-- Running the loop: `m` is the memory after `j` iterations from `m0`. -/
theorem iterate_eq (cs : List Concrete) (hn : (cs.map Concrete.name).Nodup) (f : Func) (ins : List Char) (out : Char)
    (hc : theConcrete f ins out ∈ cs) (args steps : List Int) (pout so : Int) (hl : args.length = ins.length)
    (hs : steps.length = ins.length) (hso : so ≠ 0) (m0 : Mem (Cell V)) (n : Nat) (hn31 : n < 2 ^ 31)
    (ht : ∀ j < n, ∀ i (h : i < ins.length), (m0 (args[i] + j * steps[i])).1 = cTypeOf ins[i])
    (hna : ∀ i < n, ∀ j < n, i < j → ∀ k (h : k < ins.length), pout + i * so ≠ args[k] + j * steps[k])
    (d j : Nat) (hj : j + d = n) (m : Mem (Cell V))
    (hm : ∀ a, (∀ i < j, a ≠ pout + i * so) → m a = m0 a)
    (hv : ∀ i < j, m (pout + i * so) = (cTypeOf out, lib f.cxxname (cTypeOf out) (ins.map cTypeOf) ((at_ args steps i).map fun p => (m0 p).2))) :
    ∃ m', iterate cs lib (theLoop f ins out) (steps ++ [so]) n (d + 1) j (at_ args steps j) (pout + j * so) m = some m'
      ∧ (∀ a, (∀ i < n, a ≠ pout + i * so) → m' a = m0 a)
      ∧ ∀ i < n, m' (pout + i * so) = (cTypeOf out, lib f.cxxname (cTypeOf out) (ins.map cTypeOf) ((at_ args steps i).map fun p => (m0 p).2)) := by
  induction d generalizing j m with
  | zero =>
    have : j = n := by omega
    subst this
    refine ⟨m, ?_, hm, hv⟩
    rw [iterate, if_pos (by simp)]
  | succ d ih =>
    have hjn : j < n := by omega
    have hlen : (at_ args steps j).length = ins.length := by simp [at_, hl, hs]
    have hread : ∀ k (h : k < ins.length), m (args[k] + j * steps[k]) = m0 (args[k] + j * steps[k]) := by
      intro k h
      exact hm _ (fun i hi he => hna i (by omega) j hjn hi k h he.symm)
    rw [iterate, if_neg (by push_cast; omega)]
    rw [body_eq lib cs hn f ins out hc (at_ args steps j) hlen _ _ (by
      intro i h
      have h' : i < ins.length := by omega
      have e : (at_ args steps j)[i] = args[i] + j * steps[i] := by simp [at_]
      rw [e, hread i h', ht j hjn i h']), Option.bind_some, if_neg (by push_cast; omega)]
    have hincs : ((theLoop f ins out).incs.mapM fun k => (steps ++ [so])[k]?) = some steps := by
      simp only [theLoop]
      rw [← hs]; exact mapM_range_append steps [so]
    rw [hincs, Option.bind_some]
    have hout : (steps ++ [so])[(theLoop f ins out).outStep]? = some so := by
      simp only [theLoop]
      rw [← hs]; simp
    rw [hout, Option.bind_some, at_succ _ _ _ (by omega)]
    have e1 : pout + (j : Int) * so + so = pout + ((j + 1 : Nat) : Int) * so := by push_cast; ring
    have e2 : (j : Int) + 1 = ((j + 1 : Nat) : Int) := by push_cast; rfl
    rw [e1, e2]
    have hvals : ((at_ args steps j).map fun p => (m p).2) = (at_ args steps j).map fun p => (m0 p).2 := by
      apply List.ext_getElem
      · simp
      · intro i h1 h2
        simp at h1
        have h' : i < ins.length := by omega
        have e : (at_ args steps j)[i] = args[i] + j * steps[i] := by simp [at_]
        simp only [List.getElem_map, e, hread i h']
    apply ih (j + 1) (by omega)
    · intro a ha
      have h1 := ha j (by omega)
      simp only [Mem.store, if_neg h1]
      exact hm a (fun i hi => ha i (by omega))
    · intro i hi
      by_cases hij : i = j
      · subst hij
        simp only [Mem.store, if_true, hvals]
      · have hlt : i < j := by omega
        have hne : pout + (i : Int) * so ≠ pout + j * so := by
          intro he
          have h5 : ((i : Int) - j) * so = 0 := by linarith
          rcases mul_eq_zero.1 h5 with h6 | h6
          · omega
          · exact hso h6
        simp only [Mem.store, if_neg hne]
        exact hv i hlt

end Run

/-! ### The whole module -/

theorem genUfunc_eq (f : Func) (h : Entry f) (ins : List Char) (out : Char) (k : Nat) (hk : f.types[k]? = some (sig ins out)) :
    ∃ U, genUfunc f = some U ∧ U.name = f.ufuncname ∧ U.ntypes = f.types.length ∧ U.nin = ins.length
      ∧ loopTypes U k = ins.map npyOf ++ [npyOf out] ∧ U.funcs = f.types.map (loopName f.ufuncname) := by
  obtain ⟨n, hn, hs⟩ := h.sigs
  have hrow : ∀ s ∈ f.types, ∃ r, typeRow s = some r ∧ r.length = n + 1 := by
    intro s hs'
    obtain ⟨i, o, rfl, h2, h3, h4⟩ := hs s hs'
    exact ⟨_, typeRow_eq i o h3 h4, by simp [h2]⟩
  have hrows : f.types.mapM typeRow = some (f.types.map fun s => (typeRow s).getD []) := by
    apply CxxGen.mapM_some
    intro s hs'
    obtain ⟨r, hr, -⟩ := hrow s hs'
    simp [hr]
  have hmem := List.mem_of_getElem? hk
  obtain ⟨i, o, e, h2, h3, h4⟩ := hs _ hmem
  obtain ⟨rfl, rfl⟩ := sig_inj e
  rw [genUfunc, hrows, Option.bind_some]
  match hft : f.types, h.types_ne with
  | [], hne => exact absurd rfl hne
  | s :: rest, _ =>
    have hs1 : s ∈ f.types := by rw [hft]; simp
    obtain ⟨i, o, rfl, h2', h3', h4'⟩ := hs s hs1
    have hnin : ((split "->".toList (sig i o)).headD []).length = n := by
      rw [split_sig _ _ (fun h => ne_dash (h3' _ h) rfl) (ne_dash h4')]; simpa using h2'
    refine ⟨_, rfl, rfl, rfl, ?_, ?_, rfl⟩
    · simp only; rw [hnin, h2]
    · simp only [loopTypes]
      rw [hnin]
      apply flatten_slice
      · intro r hr
        rw [List.mem_map] at hr
        obtain ⟨t, ht, rfl⟩ := hr
        obtain ⟨r, hr, hl⟩ := hrow t (by rw [hft]; exact ht)
        simpa [hr] using hl
      · rw [← hft, List.getElem?_map, hk, Option.map_some, typeRow_eq ins out h3 h4]; rfl

/-- The module generated from a reasonable configuration. -/
theorem generate_eq (e : ExtMod) (h : Config e) :
    ∃ M : Module, generate e = some M ∧ (M.concretes.map Concrete.name).Nodup ∧ (M.loops.map Loop.name).Nodup
      ∧ (∀ f ∈ e.allFuncs, ∀ ins out, sig ins out ∈ f.types → theConcrete f ins out ∈ M.concretes ∧ theLoop f ins out ∈ M.loops)
      ∧ ∀ (i : Nat) (f : Func), e.allFuncs[i]? = some f → ∃ U, M.ufuncs[i]? = some U ∧ genUfunc f = some U := by
  have hsig : ∀ f s, (f, s) ∈ pairs e.allFuncs → ∃ ins out, s = sig ins out ∧ 0 < ins.length
      ∧ (∀ c ∈ ins, c ∈ floatTypes.map Prod.fst) ∧ out ∈ floatTypes.map Prod.fst := by
    intro f s hp
    rw [mem_pairs] at hp
    obtain ⟨n, hn, hs⟩ := (h.entries f hp.1).sigs
    obtain ⟨ins, out, h1, h2, h3, h4⟩ := hs s hp.2
    exact ⟨ins, out, h1, by omega, h3, h4⟩
  have hinj : ∀ f ∈ e.allFuncs, ∀ g ∈ e.allFuncs, ∀ s ∈ f.types, ∀ t ∈ g.types, (∃ n, FloatSig n s) ∧ ∃ n, FloatSig n t := by
    intro f hf g hg s hs t ht
    obtain ⟨n, -, h1⟩ := (h.entries f hf).sigs
    obtain ⟨n', -, h2⟩ := (h.entries g hg).sigs
    exact ⟨⟨n, h1 s hs⟩, n', h2 t ht⟩
  have hc : (pairs e.allFuncs).mapM (fun x => genConcrete x.1 x.2)
      = some ((pairs e.allFuncs).map fun x => (genConcrete x.1 x.2).getD ⟨[], [], [], [], []⟩) := by
    apply CxxGen.mapM_some
    rintro ⟨f, s⟩ hp
    obtain ⟨ins, out, rfl, h0, h3, h4⟩ := hsig f s hp
    simp [genConcrete_eq f ins out h3 h4]
  have hl : (pairs e.allFuncs).mapM (fun x => genLoop x.1 x.2)
      = some ((pairs e.allFuncs).map fun x => (genLoop x.1 x.2).getD ⟨[], [], 0, [], 0, [], [], [], []⟩) := by
    apply CxxGen.mapM_some
    rintro ⟨f, s⟩ hp
    obtain ⟨ins, out, rfl, h0, h3, h4⟩ := hsig f s hp
    simp [genLoop_eq f ins out h3 h4 h0]
  have hU : ∀ f ∈ e.allFuncs, ∃ U, genUfunc f = some U := by
    intro f hf
    have hE := h.entries f hf
    obtain ⟨n, hn, hs⟩ := hE.sigs
    have h0 : 0 < f.types.length := List.length_pos_iff.2 hE.types_ne
    obtain ⟨ins, out, h1, -⟩ := hs f.types[0] (List.getElem_mem h0)
    obtain ⟨U, hU, -⟩ := genUfunc_eq f hE ins out 0 (by rw [List.getElem?_eq_getElem h0, h1])
    exact ⟨U, hU⟩
  have hu : e.allFuncs.mapM genUfunc = some (e.allFuncs.map fun f => (genUfunc f).getD ⟨[], 0, 0, [], []⟩) := by
    apply CxxGen.mapM_some
    intro f hf
    obtain ⟨U, hU⟩ := hU f hf
    simp [hU]
  have hgen : generate e = ((pairs e.allFuncs).mapM (fun x => genConcrete x.1 x.2)).bind fun cs =>
      ((pairs e.allFuncs).mapM (fun x => genLoop x.1 x.2)).bind fun ls =>
      (e.allFuncs.mapM genUfunc).bind fun us => some ⟨cs, ls, us⟩ := rfl
  rw [hc, hl, hu, Option.bind_some, Option.bind_some, Option.bind_some] at hgen
  refine ⟨_, hgen, ?_, ?_, ?_, ?_⟩
  · simp only [List.map_map]
    have := pairs_nodup concreteName e.allFuncs h.names (fun f hf => (h.entries f hf).nodup) (by
      intro f hf g hg s hs t ht he
      obtain ⟨⟨n, h1⟩, n', h2⟩ := hinj f hf g hg s hs t ht
      exact concreteName_inj h1 h2 he)
    convert this using 1
    apply List.map_congr_left
    rintro ⟨f, s⟩ hp
    obtain ⟨ins, out, rfl, h0, h3, h4⟩ := hsig f s hp
    simp [genConcrete_eq f ins out h3 h4, theConcrete]
  · simp only [List.map_map]
    have := pairs_nodup loopName e.allFuncs h.names (fun f hf => (h.entries f hf).nodup) (by
      intro f hf g hg s hs t ht he
      obtain ⟨⟨n, h1⟩, n', h2⟩ := hinj f hf g hg s hs t ht
      exact loopName_inj h1 h2 he)
    convert this using 1
    apply List.map_congr_left
    rintro ⟨f, s⟩ hp
    obtain ⟨ins, out, rfl, h0, h3, h4⟩ := hsig f s hp
    simp [genLoop_eq f ins out h3 h4 h0, theLoop]
  · intro f hf ins out hs
    have hp : (f, sig ins out) ∈ pairs e.allFuncs := mem_pairs.2 ⟨hf, hs⟩
    obtain ⟨i, o, he, h0, h3, h4⟩ := hsig f _ hp
    obtain ⟨rfl, rfl⟩ := sig_inj he
    refine ⟨List.mem_map.2 ⟨_, hp, ?_⟩, List.mem_map.2 ⟨_, hp, ?_⟩⟩
    · simp [genConcrete_eq f ins out h3 h4]
    · simp [genLoop_eq f ins out h3 h4 h0]
  · intro i f hf
    obtain ⟨U, hU⟩ := hU f (List.mem_of_getElem? hf)
    exact ⟨U, by simp [hf, hU], hU⟩

/-! ### What is refused -/

theorem mapM_some_mem {α β : Type _} (f : α → Option β) (l : List α) (ys : List β) (h : l.mapM f = some ys) :
    ∀ x ∈ l, ∃ y, f x = some y := by
  induction l generalizing ys with
  | nil => simp
  | cons a l ih =>
    rw [List.mapM_cons] at h
    obtain ⟨y, hy, h⟩ := Option.bind_eq_some_iff.1 h
    obtain ⟨zs, hz, -⟩ := Option.bind_eq_some_iff.1 h
    intro x hx
    rcases List.mem_cons.1 hx with rfl | hx
    · exact ⟨y, hy⟩
    · exact ih zs hz x hx

theorem splitAux_ne_nil (sep acc s : List Char) : splitAux sep acc s ≠ [] := by
  induction s generalizing acc with
  | nil => rw [splitAux]; simp
  | cons c s ih =>
    rw [splitAux]
    split
    · simp
    · exact ih _

theorem join_splitAux (sep : List Char) (hsep : sep ≠ []) (k : Nat) : ∀ (s acc : List Char), s.length ≤ k →
    join sep (splitAux sep acc s) = acc.reverse ++ s := by
  induction k with
  | zero =>
    intro s acc h
    obtain rfl : s = [] := by simpa using h
    rw [splitAux]; simp [join]
  | succ k ih =>
    intro s acc h
    cases s with
    | nil => rw [splitAux]; simp [join]
    | cons c s =>
      rw [splitAux]
      simp at h
      split
      · next hp =>
        rw [join_cons _ _ _ (splitAux_ne_nil _ _ _), ih _ _ (by simp; omega)]
        rw [List.isPrefixOf_iff_prefix] at hp
        obtain ⟨t, ht⟩ := hp
        obtain ⟨d, sep', rfl⟩ := List.exists_cons_of_ne_nil hsep
        simp at ht
        obtain ⟨rfl, rfl⟩ := ht
        simp
      · rw [ih _ _ h]; simp

theorem parseSig_inv (s ins : List Char) (out : Char) (h : parseSig s = some (ins, out)) : s = sig ins out := by
  rw [parseSig] at h
  split at h
  · next i o heq =>
    simp at h
    obtain ⟨rfl, rfl⟩ := h
    have := join_splitAux "->".toList (by decide) s.length s [] le_rfl
    change join _ (split _ s) = _ at this
    rw [heq] at this
    simpa [join, sig] using this.symm
  · simp at h

theorem floatType_of_ctype {c : Char} {t : List Char} (h : ctype c = some t) : c ∈ floatTypes.map Prod.fst := by
  unfold ctype at h
  split at h <;> first | (simp at h; done) | decide

theorem floatSig_of_genLoop (f : Func) (s : List Char) (l : Loop) (h : genLoop f s = some l) : ∃ n, 0 < n ∧ FloatSig n s := by
  rw [genLoop] at h
  obtain ⟨⟨ins, out⟩, hp, h⟩ := Option.bind_eq_some_iff.1 h
  obtain ⟨ts, hts, h⟩ := Option.bind_eq_some_iff.1 h
  obtain ⟨t, ht, h⟩ := Option.bind_eq_some_iff.1 h
  simp only at h
  split at h
  · simp at h
  · next hne =>
    refine ⟨ins.length, by omega, ins, out, parseSig_inv _ _ _ hp, rfl, ?_, floatType_of_ctype ht⟩
    intro c hc
    obtain ⟨y, hy⟩ := mapM_some_mem _ _ _ hts c hc
    exact floatType_of_ctype hy

theorem iterate_overflow {V : Type _} (lib : List Char → List Char → List (List Char) → List V → V) (cs : List Concrete) (l : Loop)
    (steps : List Int) (n : Nat) (hn : 2 ^ 31 ≤ n) (fuel : Nat) (j : Nat) (hj : j < 2 ^ 31) (ptrs : List Int) (pout : Int) (m : Mem (Cell V)) :
    iterate cs lib l steps n fuel j ptrs pout m = none := by
  induction fuel generalizing j ptrs pout m with
  | zero => rfl
  | succ fuel ih =>
    rw [iterate, if_neg (by push_cast; omega), Option.bind_eq_none_iff]
    intro m' _
    split
    · rfl
    · next h =>
      rw [Option.bind_eq_none_iff]
      intro ds _
      rw [Option.bind_eq_none_iff]
      intro d _
      exact ih (j + 1) (by omega) _ _ _

/-! ### Docstrings -/

theorem splice_cons (c : Char) (s : List Char) (h : c ≠ '\\') : splice (c :: s) = c :: splice s := by
  rw [splice]
  intro s' hc; exact absurd hc h

theorem splice_append (u s : List Char) (h : '\\' ∉ u) : splice (u ++ s) = u ++ splice s := by
  induction u with
  | nil => rfl
  | cons c u ih =>
    simp at h
    rw [List.cons_append, splice_cons _ _ (Ne.symm h.1), ih h.2, List.cons_append]

theorem breakLines_cons (c : Char) (s : List Char) (h : c ≠ '\n') : breakLines (c :: s) = c :: breakLines s := by
  rw [breakLines]
  exact h

theorem splice_breakLines_nl (s t : List Char) :
    splice (breakLines ('\n' :: s) ++ t) = '\\' :: 'n' :: '"' :: '"' :: splice (breakLines s ++ t) := by
  simp [breakLines, splice]

theorem literals_doc (doc : List Char) (h1 : '"' ∉ doc) (h2 : '\\' ∉ doc) :
    literals true (splice (breakLines doc ++ ['"'])) = some doc := by
  induction doc with
  | nil => decide
  | cons c doc ih =>
    simp at h1 h2
    have := ih h1.2 h2.2
    by_cases hc : c = '\n'
    · subst hc
      rw [splice_breakLines_nl]
      simp [literals, this]
    · rw [breakLines_cons _ _ hc, List.cons_append, splice_cons _ _ (Ne.symm h2.1)]
      rw [literals] <;> first | (simp [this]; done) | (intros; simp_all)

theorem newline_doc (doc : List Char) (h2 : '\\' ∉ doc) : '\n' ∉ splice (breakLines doc ++ ['"']) := by
  induction doc with
  | nil => decide
  | cons c doc ih =>
    simp at h2
    by_cases hc : c = '\n'
    · subst hc
      rw [splice_breakLines_nl]
      simp [ih h2.2]
    · rw [breakLines_cons _ _ hc, List.cons_append, splice_cons _ _ (Ne.symm h2.1)]
      simp [ih h2.2, Ne.symm hc]

theorem upper_ident (name : List Char) (hn : ∀ c ∈ name, c ∈ identChars) : '\\' ∉ upper name ∧ '\n' ∉ upper name := by
  have key : ∀ c ∈ identChars, c.toUpper ≠ '\\' ∧ c.toUpper ≠ '\n' := by decide +kernel
  constructor <;> intro h <;> rw [upper, List.mem_map] at h <;> obtain ⟨c, hc, he⟩ := h
  · exact (key c (hn c hc)).1 he
  · exact (key c (hn c hc)).2 he

theorem docstring_tail : "_DOCSTRING \\\n\"".toList = "_DOCSTRING".toList ++ [' ', '\\', '\n', '"'] := by decide +kernel
theorem cdef_assoc : ∀ a b c d : List Char, a ++ b ++ (c ++ [' ', '\\', '\n', '"']) ++ d ++ ['"']
          = (a ++ (b ++ c) ++ [' ']) ++ '\\' :: '\n' :: '"' :: (d ++ ['"']) := by intros; simp
theorem cdef_eq (name doc : List Char) : cdefDocstring name doc = ("#define ".toList ++ (upper name ++ "_DOCSTRING".toList) ++ [' ']) ++
        '\\' :: '\n' :: '"' :: (breakLines doc ++ ['"']) := by
  unfold cdefDocstring
  rw [docstring_tail]
  generalize "#define ".toList = a
  generalize "_DOCSTRING".toList = b
  exact cdef_assoc a _ b _

theorem macroString_cdef (name doc : List Char) (hn : ∀ c ∈ name, c ∈ identChars) (h1 : '"' ∉ doc) (h2 : '\\' ∉ doc) :
    macroString (cdefDocstring name doc) (upper name ++ "_DOCSTRING".toList) = some doc := by
  obtain ⟨hu, hu'⟩ := upper_ident name hn
  have e : splice (cdefDocstring name doc)
      = ("#define ".toList ++ (upper name ++ "_DOCSTRING".toList) ++ [' ']) ++ '"' :: splice (breakLines doc ++ ['"']) := by
    rw [cdef_eq, splice_append _ _ (by rw [List.mem_append, List.mem_append, List.mem_append]; simp only [hu, false_or]; decide +kernel)]
    congr 1
  rw [macroString]
  simp only [e]
  rw [if_neg (by simp [hu', newline_doc doc h2]), if_pos (by rw [List.isPrefixOf_iff_prefix]; exact List.prefix_append _ _),
    List.drop_left, literals, literals_doc doc h1 h2]

/-! ### File names -/

theorem find_char_none (c : Char) (s : List Char) (h : c ∉ s) : find [c] s = none := by
  induction s with
  | nil => rfl
  | cons d s ih =>
    simp at h
    rw [find, if_neg (by simp [h.1]), ih h.2]; rfl

theorem find_char (c : Char) (p s : List Char) (h : c ∉ p) : find [c] (p ++ c :: s) = some p.length := by
  induction p with
  | nil => simp [find]
  | cons d p ih =>
    simp at h
    rw [List.cons_append, find, if_neg (by simp [h.1]), ih h.2]; rfl

theorem rfind_none (c : Char) (s : List Char) (h : c ∉ s) : rfind c s = none := by
  rw [rfind, find_char_none _ _ (by simpa using h)]; rfl

theorem rfind_some (c : Char) (s t : List Char) (h : c ∉ t) : rfind c (s ++ c :: t) = some s.length := by
  rw [rfind]
  have : (s ++ c :: t).reverse = t.reverse ++ c :: s.reverse := by simp
  rw [this, find_char _ _ _ (by simpa using h)]
  simp

theorem ext_no_special {x : List Char} (hx : x ∈ ["h".toList, "hh".toList, "hpp".toList, "h++".toList]) : '.' ∉ x ∧ '/' ∉ x := by
  simp at hx
  rcases hx with rfl | rfl | rfl | rfl <;> decide

theorem headerToConcrete_eq (root x : List Char) (hr : '/' ∉ root) (hd : ∃ c ∈ root, c ≠ '.')
    (hx : x ∈ ["h".toList, "hh".toList, "hpp".toList, "h++".toList]) :
    headerToConcrete (root ++ '.' :: x) = some (root ++ "_concrete.h".toList, root ++ "_concrete.cxx".toList) := by
  obtain ⟨h1, h2⟩ := ext_no_special hx
  have hs : splitext (root ++ '.' :: x) = (root, '.' :: x) := by
    rw [splitext, rfind_none '/' _ (by simp [hr, h2]), rfind_some _ _ _ h1]
    simp only
    rw [if_pos]
    · simp
    · refine ⟨by simp, ?_⟩
      rw [List.take_left, List.drop_zero, List.any_eq_true]
      obtain ⟨c, hc, hne⟩ := hd
      exact ⟨c, hc, by simpa using hne⟩
  rw [headerToConcrete, hs]
  simp only
  rw [lstrip_cons, lstrip_not_mem _ _ h1, if_pos hx]
  simp

theorem headerToConcrete_none (root x : List Char) (hx : '.' ∉ x) (hx' : '/' ∉ x)
    (h : x ∉ ["h".toList, "hh".toList, "hpp".toList, "h++".toList]) : headerToConcrete (root ++ '.' :: x) = none := by
  have hs : lstrip '.' (splitext (root ++ '.' :: x)).2 = x ∨ (splitext (root ++ '.' :: x)).2 = [] := by
    rw [splitext, rfind_some '.' _ _ hx]
    simp only
    split <;> split
    · left; rw [List.drop_left, lstrip_cons, lstrip_not_mem _ _ hx]
    · right; rfl
    · left; rw [List.drop_left, lstrip_cons, lstrip_not_mem _ _ hx]
    · right; rfl
  rw [headerToConcrete]
  simp only
  rcases hs with hs | hs
  · rw [hs, if_neg h]
  · rw [hs, if_neg (by decide)]

theorem splitext_dir (dir root x : List Char) (hr : '/' ∉ root) (hx : '/' ∉ x) (hd : '.' ∉ x) :
    splitext (dir ++ '/' :: (root ++ '.' :: x))
      = if root.any (· != '.') then (dir ++ '/' :: root, '.' :: x) else (dir ++ '/' :: (root ++ '.' :: x), []) := by
  have e : dir ++ '/' :: (root ++ '.' :: x) = (dir ++ '/' :: root) ++ '.' :: x := by simp
  rw [splitext, rfind_some '/' dir (root ++ '.' :: x) (by simp [hr, hx]), e, rfind_some '.' _ _ hd]
  simp only
  rw [List.take_left, List.drop_left]
  have h1 : (dir ++ '/' :: root).drop (dir.length + 1) = root := by
    rw [← List.drop_drop, List.drop_left]; rfl
  rw [h1]
  simp

theorem headerToConcrete_dir (dir root x : List Char) (hr : '/' ∉ root) (hd : ∃ c ∈ root, c ≠ '.')
    (hx : x ∈ ["h".toList, "hh".toList, "hpp".toList, "h++".toList]) :
    headerToConcrete (dir ++ '/' :: (root ++ '.' :: x))
      = some (dir ++ '/' :: (root ++ "_concrete.h".toList), dir ++ '/' :: (root ++ "_concrete.cxx".toList)) := by
  obtain ⟨h1, h2⟩ := ext_no_special hx
  have hany : root.any (· != '.') = true := by
    rw [List.any_eq_true]
    obtain ⟨c, hc, hne⟩ := hd
    exact ⟨c, hc, by simpa using hne⟩
  rw [headerToConcrete, splitext_dir _ _ _ hr h2 h1, if_pos hany]
  simp only
  rw [lstrip_cons, lstrip_not_mem _ _ h1, if_pos hx]
  simp

theorem headerToConcrete_dots (dir root x : List Char) (hr : ∀ c ∈ root, c = '.') (hd : '.' ∉ x) (hx : '/' ∉ x) :
    headerToConcrete (dir ++ '/' :: (root ++ '.' :: x)) = none := by
  have hany : ¬ root.any (· != '.') = true := by
    rw [List.any_eq_true]
    rintro ⟨c, hc, hne⟩
    simp [hr c hc] at hne
  rw [headerToConcrete, splitext_dir _ _ _ (fun h => absurd (hr _ h) (by decide)) hx hd, if_neg hany]
  simp only
  rw [if_neg (by decide)]

/-! ### Checking a configuration -/

def sigCheck (n : Nat) (s : List Char) : Bool :=
  s.length == n + 3 && s == sig (s.take n) (s.getLastD ' ') && (s.take n).all (fun c => (floatTypes.map Prod.fst).contains c)
    && (floatTypes.map Prod.fst).contains (s.getLastD ' ')

def entryCheck (f : Func) : Bool :=
  match f.types with
  | [] => false
  | s :: _ => decide (f.types.Nodup) && decide (3 < s.length) && f.types.all (sigCheck (s.length - 3))

def configCheck (e : ExtMod) : Bool := e.allFuncs.all entryCheck && decide ((e.allFuncs.map Func.ufuncname).Nodup)

theorem config_of_check (e : ExtMod) (h : configCheck e = true) : Config e := by
  rw [configCheck, Bool.and_eq_true, decide_eq_true_eq, List.all_eq_true] at h
  refine ⟨fun f hf => ?_, h.2⟩
  have hf := h.1 f hf
  rw [entryCheck] at hf
  split at hf
  · simp at hf
  · next s rest heq =>
    rw [Bool.and_eq_true, Bool.and_eq_true, decide_eq_true_eq, decide_eq_true_eq, List.all_eq_true] at hf
    refine ⟨by rw [heq]; simp, hf.1.1, s.length - 3, by omega, ?_⟩
    intro t ht
    have := hf.2 t ht
    rw [sigCheck] at this
    simp only [Bool.and_eq_true, beq_iff_eq, List.all_eq_true, List.contains_iff_mem] at this
    exact ⟨t.take (s.length - 3), t.getLastD ' ', this.1.1.2, by rw [List.length_take]; omega, this.1.2, this.2⟩

end Ufunclab.UfuncGen
