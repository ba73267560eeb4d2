import Verif.Spec.Gufunc
import Verif.Proof.PyStr
import Mathlib.Data.List.Nodup
import Mathlib.Data.List.Induction
import Mathlib.Tactic.Ring
namespace Ufunclab.CxxGen
open PyStr

/-! ### classify -/

def IsConst (w : List Char) : Prop := w.filter (· ≠ w.headD ' ') = []

instance (w : List Char) : Decidable (IsConst w) := inferInstanceAs (Decidable (_ = _))

theorem isConst_iff (w : List Char) (hw : w ≠ []) : IsConst w ↔ ∃ c, ∀ x ∈ w, x = c := by
  cases w with
  | nil => exact absurd rfl hw
  | cons a w =>
    simp only [IsConst, List.headD_cons, List.filter_eq_nil_iff]
    constructor
    · intro h; exact ⟨a, fun x hx => by
        by_contra hc; exact h x hx (decide_eq_true hc)⟩
    · rintro ⟨c, h⟩ x hx; simp [h x hx, h a (by simp)]

structure ClassInv (ws : List (List Char)) (st : List (List Char) × List VT) : Prop where
  res : st.2 = ws.map fun w => if IsConst w then .code (w.headD ' ') else .idx (st.1.idxOf w)
  nodup : st.1.Nodup
  mem : ∀ u, u ∈ st.1 ↔ u ∈ ws ∧ ¬ IsConst u
  order : st.1.Pairwise (fun a b => ws.idxOf a < ws.idxOf b)

theorem classInv (ws : List (List Char)) : ClassInv ws (ws.foldl classifyStep ([], [])) := by
  induction ws using List.reverseRecOn with
  | nil => exact ⟨rfl, by simp, by simp, by simp⟩
  | append_singleton ws w ih =>
    rw [List.foldl_append, List.foldl_cons, List.foldl_nil]
    generalize ws.foldl classifyStep ([], []) = st at ih
    obtain ⟨hr, hn, hm, ho⟩ := ih
    have ho' : st.1.Pairwise (fun a b => (ws ++ [w]).idxOf a < (ws ++ [w]).idxOf b) := by
      refine ho.imp_of_mem ?_
      intro a b ha hb hab
      rw [List.idxOf_append_of_mem ((hm a).1 ha).1, List.idxOf_append_of_mem ((hm b).1 hb).1]
      exact hab
    unfold classifyStep
    split_ifs with h1 h2
    · refine ⟨?_, hn, ?_, ho'⟩
      · simp only [hr, List.map_append, List.map_cons, List.map_nil]
        rw [if_pos (show IsConst w from h1)]
      · intro u
        simp only [hm, List.mem_append, List.mem_singleton]
        constructor
        · rintro ⟨a, b⟩; exact ⟨Or.inl a, b⟩
        · rintro ⟨a | a, b⟩
          · exact ⟨a, b⟩
          · subst a; exact absurd h1 b
    · refine ⟨?_, hn, ?_, ho'⟩
      · simp only [hr, List.map_append, List.map_cons, List.map_nil]
        rw [if_neg (show ¬ IsConst w from h1)]
      · intro u
        simp only [hm, List.mem_append, List.mem_singleton]
        constructor
        · rintro ⟨a, b⟩; exact ⟨Or.inl a, b⟩
        · rintro ⟨a | a, b⟩
          · exact ⟨a, b⟩
          · subst a; exact (hm _).1 h2
    · have hw : w ∉ ws := fun h => h2 ((hm w).2 ⟨h, h1⟩)
      refine ⟨?_, ?_, ?_, ?_⟩
      · simp only [hr, List.map_append, List.map_cons, List.map_nil]
        rw [if_neg (show ¬ IsConst w from h1), List.idxOf_append_of_notMem h2]
        congr 1
        · apply List.map_congr_left
          intro u hu
          split_ifs with h3
          · rfl
          · rw [List.idxOf_append_of_mem ((hm u).2 ⟨hu, h3⟩)]
        · simp
      · simp only
        rw [List.nodup_append]
        refine ⟨hn, by simp, ?_⟩
        intro a ha b hb e
        simp at hb; subst hb; subst e; exact h2 ha
      · intro u
        simp only [hm, List.mem_append, List.mem_singleton]
        constructor
        · rintro (⟨a, b⟩ | rfl)
          · exact ⟨Or.inl a, b⟩
          · exact ⟨Or.inr rfl, h1⟩
        · rintro ⟨a | a, b⟩
          · exact Or.inl ⟨a, b⟩
          · exact Or.inr a
      · simp only
        rw [List.pairwise_append]
        refine ⟨ho', by simp, ?_⟩
        intro a ha b hb
        simp at hb; subst hb
        rw [List.idxOf_append_of_mem ((hm a).1 ha).1, List.idxOf_append_of_notMem hw]
        have := List.idxOf_lt_length_of_mem ((hm a).1 ha).1
        omega

theorem dropArrow_no_dash (s : List Char) (h : '-' ∉ s) : dropArrow s = s := by
  induction s with
  | nil => rfl
  | cons c s ih =>
    rw [dropArrow]
    · rw [ih (by simp_all)]
    · intro t e; simp at e h; exact absurd e.symm h.1

theorem dropArrow_sig (a b : List Char) (ha : '-' ∉ a) (hb : '-' ∉ b) : dropArrow (a ++ ['-', '>'] ++ b) = a ++ b := by
  induction a with
  | nil => simp only [List.nil_append, List.cons_append]; rw [dropArrow, dropArrow_no_dash b hb]
  | cons c s ih =>
    rw [List.cons_append, List.cons_append, dropArrow]
    · rw [ih (by simp_all)]; rfl
    · intro t e; simp at e ha; exact absurd e.symm ha.1

/-! ### parse -/

theorem toDim_eq (t : List Char) (h : t ≠ []) : toDim t = dimOf t := by
  have hf : ∀ (s : List Char) (v : Nat), s.foldl (fun v c => v * 10 + (c.toNat - '0'.toNat)) v = v * 10 ^ s.length + numeral s := by
    intro s
    induction s with
    | nil => intro v; simp [numeral]
    | cons c s ih =>
      intro v
      rw [List.foldl_cons, ih, numeral, List.length_cons, pow_succ]; ring
  unfold toDim dimOf pyInt
  by_cases hd : t.all Char.isDigit = true
  · rw [if_pos ⟨h, hd⟩, if_pos hd, hf]; simp
  · rw [if_neg (fun c => hd c.2), if_neg hd]

theorem token_not_mem {s : List Char} (h : Token s) {c : Char} (hc : c ∈ special) : c ∉ s :=
  fun hm => h.2 c hm hc

theorem toseq_join (toks : List (List Char)) (h : ∀ t ∈ toks, Token t) :
    toseq (join [','] toks) = pyShape (toks.map dimOf) := by
  unfold toseq
  cases toks with
  | nil =>
    have : split [','] (join [','] []) = [[]] := by simp [split, join, splitAux]
    rw [this]; rfl
  | cons t r =>
    rw [split_join_char ',' _ (by simp) (fun p hp => token_not_mem (h p hp) (by decide))]
    have : (t :: r).map toDim = (t :: r).map dimOf :=
      List.map_congr_left fun x hx => toDim_eq x (h x hx).1
    rw [this]
    cases r with
    | nil => rfl
    | cons u r => rfl

/-- The joined text of the shapes, seen as pieces separated by `),(`. -/
theorem join_shapes (ins : List (List (List Char))) (h : ins ≠ []) :
    join [','] (ins.map shapeText) = '(' :: (join [')', ',', '('] (ins.map (join [','])) ++ [')']) := by
  induction ins with
  | nil => exact absurd rfl h
  | cons a r ih =>
    cases r with
    | nil => rfl
    | cons b r =>
      rw [List.map_cons, join_cons _ _ _ (by simp), ih (by simp), List.map_cons (l := b :: r), join_cons _ (join [','] a) _ (by simp)]
      simp [shapeText]

theorem splitParts_join (ins : List (List (List Char))) (hne : ins ≠ []) (h : ∀ s ∈ ins, ∀ t ∈ s, Token t) :
    splitParts (join [','] (ins.map shapeText)) = ins.map fun toks => pyShape (toks.map dimOf) := by
  have hin : ∀ s ∈ ins, ∀ c, c ∈ [')', '('] → c ∉ join [','] s := by
    intro s hs c hc
    apply join_not_mem
    · simp at hc; rcases hc with rfl | rfl <;> decide
    · intro p hp
      apply token_not_mem (h s hs p hp)
      simp at hc; rcases hc with rfl | rfl <;> decide
  have hlast : ∀ (x : List Char), ')' ∉ x → ∀ t, t <:+ (x ++ [')']) → t ≠ [] → ¬ [')', ',', '('] <+: t := by
    intro x hx t ht hn hp
    obtain ⟨u, hu⟩ := ht
    obtain ⟨v, hv⟩ := hp
    subst hv
    have h1 : ')' ∉ x := hx
    have : (u ++ [')', ',']) ++ ('(' :: v) = x ++ [')'] := by rw [← hu]; simp
    rcases List.eq_nil_or_concat ('(' :: v) with h2 | ⟨w, c, h2⟩
    · simp at h2
    · rw [h2, List.concat_eq_append, ← List.append_assoc] at this
      have := List.append_inj_left' this rfl
      apply h1
      rw [← this]; simp
  unfold splitParts
  rw [join_shapes ins hne]
  obtain ⟨i, l, rfl⟩ : ∃ i l, ins = i ++ [l] := ⟨_, _, (List.dropLast_append_getLast hne).symm⟩
  cases i with
  | nil =>
    have e : '(' :: (join [')', ',', '('] (([] ++ [l]).map (join [','])) ++ [')']) =
        join [')', ',', '('] ([] ++ [('(' :: join [','] l) ++ [')']]) := by simp [join]
    have hl := hin l (by simp)
    rw [e, split_join ')' [',', '('] [] _ (by simp) (hlast _ (by simp [hl ')' (by simp)]))]
    simp only [List.nil_append, List.map_cons, List.map_nil, List.cons_append]
    rw [lstrip_cons, lstrip_of_head, rstrip_append _ _ (hl ')' (by simp)), toseq_join _ (h l (by simp))]
    intro hh
    cases hj : join [','] l with
    | nil => simp [hj] at hh
    | cons c s =>
      rw [hj] at hh hl
      simp at hh
      exact hl '(' (by simp) (by simp [hh])
  | cons a r =>
    have e : '(' :: (join [')', ',', '('] ((a :: r ++ [l]).map (join [','])) ++ [')']) =
        join [')', ',', '('] ((('(' :: join [','] a) :: r.map (join [','])) ++ [join [','] l ++ [')']]) := by
      have aux : ∀ (r : List (List Char)) (x y : List Char) (b : List Char),
          '(' :: (join [')', ',', '('] (x :: r ++ [y]) ++ b) = join [')', ',', '('] ((('(' :: x) :: r) ++ [y ++ b]) := by
        intro r x y b
        induction r generalizing x with
        | nil => simp [join]
        | cons z r ih =>
          have := ih z
          simp only [List.cons_append] at this ⊢
          rw [join_cons _ _ _ (by simp), join_cons _ ('(' :: x) _ (by simp)]
          simp only [List.cons_append, List.append_assoc]
          congr 3
          have h2 := congrArg List.tail this
          rw [List.tail_cons] at h2
          rw [h2]
          cases r with
          | nil => simp [join]
          | cons w r => rw [List.cons_append, join_cons _ ('(' :: z) _ (by simp), join_cons _ z _ (by simp)]; simp
      have := aux (r.map (join [','])) (join [','] a) (join [','] l) [')']
      simpa using this
    rw [e, split_join ')' [',', '('] _ _ ?_ (hlast _ (hin l (by simp) ')' (by simp)))]
    · simp only [List.map_append, List.map_cons, List.map_nil, List.map_map, List.cons_append]
      congr 1
      · have ha := hin a (by simp)
        rw [lstrip_cons, lstrip_not_mem _ _ (ha '(' (by simp)), rstrip_not_mem _ _ (ha ')' (by simp)), toseq_join _ (h a (by simp))]
      · congr 1
        · apply List.map_congr_left
          intro s hs
          have ha := hin s (by simp [hs])
          simp only [Function.comp]
          rw [lstrip_not_mem _ _ (ha '(' (by simp)), rstrip_not_mem _ _ (ha ')' (by simp)), toseq_join _ (h s (by simp [hs]))]
        · have hl := hin l (by simp)
          rw [lstrip_not_mem _ _ (by simp [hl '(' (by simp)]), rstrip_append _ _ (hl ')' (by simp)), toseq_join _ (h l (by simp))]
    · intro p hp
      simp only [List.mem_cons, List.mem_map] at hp
      rcases hp with rfl | ⟨s, hs, rfl⟩
      · simp [hin a (by simp) ')' (by simp)]
      · exact hin s (by simp [hs]) ')' (by simp)

/-- Properties of the collected core dimensions. -/
structure Collected (ds core : List Dim) : Prop where
  nodup : core.Nodup
  mem : ∀ d, d ∈ core ↔ d ∈ ds ∧ d ≠ .str []
  order : core.Pairwise (fun a b => ds.idxOf a < ds.idxOf b)

theorem collected (ds : List Dim) (hn : ∀ s, Dim.str s ∈ ds → toDim s = .str s) : Collected ds (collect ds) := by
  induction ds using List.reverseRecOn with
  | nil => exact ⟨by simp [collect], by simp [collect], by simp [collect]⟩
  | append_singleton ds d ih =>
    obtain ⟨h1, h2, h3⟩ := ih (fun s hs => hn s (by simp [hs]))
    have hd : reInt d = d := by
      cases d with
      | str s => exact hn s (by simp)
      | int k => rfl
    have e : collect (ds ++ [d]) = if d ≠ .str [] ∧ d ∉ collect ds then collect ds ++ [d] else collect ds := by
      unfold collect
      rw [List.foldl_append, List.foldl_cons, List.foldl_nil]
      simp only [hd]
    have h3' : (collect ds).Pairwise (fun a b => (ds ++ [d]).idxOf a < (ds ++ [d]).idxOf b) := by
      refine h3.imp_of_mem ?_
      intro a b ha hb hab
      rw [List.idxOf_append_of_mem ((h2 a).1 ha).1, List.idxOf_append_of_mem ((h2 b).1 hb).1]
      exact hab
    rw [e]
    split_ifs with hc
    · have hnew : d ∉ ds := fun hm => hc.2 ((h2 d).2 ⟨hm, hc.1⟩)
      refine ⟨?_, ?_, ?_⟩
      · rw [List.nodup_append]
        refine ⟨h1, by simp, ?_⟩
        intro a ha b hb e'
        simp at hb; rw [hb] at e'; rw [e'] at ha; exact hc.2 ha
      · intro x
        simp only [List.mem_append, h2, List.mem_singleton]
        constructor
        · rintro (⟨a, b⟩ | rfl)
          · exact ⟨Or.inl a, b⟩
          · exact ⟨Or.inr rfl, hc.1⟩
        · rintro ⟨a | a, b⟩
          · exact Or.inl ⟨a, b⟩
          · exact Or.inr a
      · rw [List.pairwise_append]
        refine ⟨h3', by simp, ?_⟩
        intro a ha b hb
        simp at hb; subst hb
        rw [List.idxOf_append_of_mem ((h2 a).1 ha).1, List.idxOf_append_of_notMem hnew]
        have := List.idxOf_lt_length_of_mem ((h2 a).1 ha).1
        omega
    · refine ⟨h1, ?_, h3'⟩
      intro x
      simp only [h2, List.mem_append, List.mem_singleton]
      constructor
      · rintro ⟨a, b⟩; exact ⟨Or.inl a, b⟩
      · rintro ⟨a | a, b⟩
        · exact ⟨a, b⟩
        · subst a
          by_cases hx : x ∈ collect ds
          · exact (h2 x).1 hx
          · exact absurd ⟨b, hx⟩ hc

theorem collect_filter (ds : List Dim) : collect ds = collect (ds.filter (· ≠ .str [])) := by
  have h0 : reInt (.str []) = .str [] := rfl
  induction ds using List.reverseRecOn with
  | nil => rfl
  | append_singleton ds d ih =>
    rw [List.filter_append]
    by_cases hd : d = .str []
    · subst hd
      unfold collect at ih ⊢
      rw [List.foldl_append, List.foldl_cons, List.foldl_nil]
      simp only [h0, ne_eq, not_true_eq_false, false_and, if_false]
      rw [ih]; simp
    · unfold collect at ih ⊢
      rw [List.foldl_append, ih]
      rw [show List.filter (fun x => decide (x ≠ Dim.str [])) [d] = [d] by simp [hd], List.foldl_append]

theorem flatten_pyShape (X : List (List Dim)) (h : ∀ s ∈ X, ∀ d ∈ s, d ≠ .str []) :
    (flatten (X.map pyShape)).filter (· ≠ .str []) = X.flatten := by
  induction X with
  | nil => rfl
  | cons s X ih =>
    have ih := ih (fun t ht => h t (by simp [ht]))
    have hs := h s (by simp)
    simp only [flatten, List.map_cons, List.flatMap_cons, List.filter_append, List.flatten_cons] at ih ⊢
    rw [ih]
    congr 1
    match s, hs with
    | [], _ => rfl
    | [d], hs => simp [pyShape, hs d (by simp)]
    | a :: b :: r, hs =>
      simp only [pyShape]
      rw [List.filter_eq_self]
      intro d hd; simpa using hs d hd

/-! ### exec -/

theorem mapM_some {α β : Type _} (f : α → Option β) (g : α → β) (l : List α) (h : ∀ x ∈ l, f x = some (g x)) :
    l.mapM f = some (l.map g) := by
  induction l with
  | nil => rfl
  | cons a l ih => rw [List.mapM_cons, h a (by simp), ih (fun x hx => h x (by simp [hx]))]; rfl

theorem genAsserts_ok (n : Int) (size : Dim → Int) (pre rest : List Dim) (hs : ∀ k, Dim.int k ∈ rest → size (.int k) = k) :
    ∀ x ∈ genAsserts rest pre.length, (n :: (pre ++ rest).map size)[x.1]? = some (x.2 : Int) := by
  induction rest generalizing pre with
  | nil => simp [genAsserts]
  | cons d rest ih =>
    have ih := ih (pre ++ [d]) (fun k hk => hs k (by simp [hk]))
    rw [List.length_append, List.length_singleton, List.append_assoc, List.singleton_append] at ih
    cases d with
    | str s => simpa [genAsserts] using ih
    | int k =>
      intro x hx
      simp only [genAsserts, List.mem_cons] at hx
      rcases hx with rfl | hx
      · simp [hs k (by simp)]
      · exact ih x hx

theorem genDecls_ok (n : Int) (size : Dim → Int) (pre rest : List Dim) :
    (∀ x ∈ genDecls rest pre.length, ((n :: (pre ++ rest).map size)[x.2]?).map (fun v => (x.1, v)) = some (x.1, size (.str x.1))) ∧
    (genDecls rest pre.length).map Prod.fst = symbols rest := by
  induction rest generalizing pre with
  | nil => simp [genDecls, symbols]
  | cons d rest ih =>
    have ih := ih (pre ++ [d])
    rw [List.length_append, List.length_singleton, List.append_assoc, List.singleton_append] at ih
    cases d with
    | int k => simpa [genDecls, symbols] using ih
    | str s =>
      refine ⟨?_, ?_⟩
      · intro x hx
        simp only [genDecls, List.mem_cons] at hx
        rcases hx with rfl | hx
        · simp
        · exact ih.1 x hx
      · simp [genDecls, symbols, ih.2]

theorem lookup_map (L : List (List Char)) (g : List Char → Int) (s : List Char) (h : s ∈ L) :
    (L.map fun s => (s, g s)).lookup s = some (g s) := by
  induction L with
  | nil => simp at h
  | cons a L ih =>
    rw [List.map_cons, List.lookup_cons]
    by_cases e : s = a
    · subst e; simp
    · have : (s == a) = false := by simpa using e
      rw [this]; exact ih (by simpa [e] using h)

theorem namedSizes_eq (coreDims : List Dim) (size : Dim → Int) :
    (symbols coreDims).map (fun s => size (.str s)) = namedSizes coreDims size := by
  induction coreDims with
  | nil => rfl
  | cons d r ih => cases d <;> simp_all [symbols, namedSizes]

theorem genStrides_ok (steps : List Int) (shapes : List Shape) (ops : List Operand)
    (h : ops.map (·.core.length) = shapes.map Shape.rank) (istep : Nat) (hi : istep ≤ steps.length)
    (hd : steps.drop istep = ops.flatMap (·.core)) :
    (genStrides shapes istep).mapM (StrideArg.eval steps) = some (ops.map (·.core)) := by
  induction shapes generalizing ops istep with
  | nil => simp at h; subst h; simp [genStrides]
  | cons s shapes ih =>
    cases ops with
    | nil => simp at h
    | cons o ops =>
      simp only [List.map_cons, List.cons.injEq] at h
      obtain ⟨h1, h2⟩ := h
      simp only [List.flatMap_cons] at hd
      have hlen : istep + o.core.length ≤ steps.length := by
        have := congrArg List.length hd
        simp only [List.length_drop, List.length_append] at this
        omega
      have hdrop : steps.drop (istep + o.core.length) = ops.flatMap (·.core) := by
        rw [← List.drop_drop, hd, List.drop_left]
      have hone : o.core.length = 1 → (steps[istep]?).map (fun s => [s]) = some o.core := by
        intro hl
        obtain ⟨c, hc⟩ := List.length_eq_one_iff.1 hl
        have : (steps.drop istep)[0]? = some c := by rw [hd, hc]; rfl
        rw [List.getElem?_drop, Nat.add_zero] at this
        rw [this, hc]; rfl
      match s, h1 with
      | .one (.str []), h1 =>
        have hz : o.core = [] := List.length_eq_zero_iff.1 h1
        rw [hz] at hdrop
        have := ih ops h2 istep hi (by simpa using hdrop)
        rw [genStrides, if_neg (by simp), List.mapM_cons, this, List.map_cons, hz]
        rfl
      | .one (.str (c :: t)), h1 =>
        have h1 : o.core.length = 1 := h1
        rw [h1] at hdrop
        have := ih ops h2 (istep + 1) (by omega) hdrop
        rw [genStrides, if_pos (by simp), List.mapM_cons, this, List.map_cons]
        simp only [StrideArg.eval, hone h1]
        rfl
      | .one (.int k), h1 =>
        have h1 : o.core.length = 1 := h1
        rw [h1] at hdrop
        have := ih ops h2 (istep + 1) (by omega) hdrop
        rw [genStrides, List.mapM_cons, this, List.map_cons]
        simp only [StrideArg.eval, hone h1]
        rfl
      | .many ds, h1 =>
        have h1 : o.core.length = ds.length := h1
        rw [h1] at hdrop
        have := ih ops h2 (istep + ds.length) (by omega) hdrop
        rw [genStrides, List.mapM_cons, this, List.map_cons]
        simp only [StrideArg.eval]
        rw [if_pos (by omega), hd, ← h1, List.take_left]; rfl

theorem advance_ops (ops : List Operand) (tl : List Int) (j : Int) :
    advance (ops.map (·.outer) ++ tl) (ops.map fun o => o.base + j * o.outer) = ops.map fun o => o.base + (j + 1) * o.outer := by
  induction ops with
  | nil => simp [advance]
  | cons o ops ih =>
    simp only [advance, List.map_cons, List.cons_append, List.zipWith_cons_cons] at ih ⊢
    rw [ih]; congr 1; ring

theorem runLoop_ok (call : Int → List Int → CoreCall) (ops : List Operand) (tl : List Int) (n : Nat) (hn : n < 2 ^ 31)
    (fuel j : Nat) (hf : n < j + fuel) (hj : j ≤ n) :
    runLoop call (ops.map (·.outer) ++ tl) n fuel j (ops.map fun o => o.base + (j : Int) * o.outer) =
      some ((List.range' j (n - j)).map fun i : Nat => call i (ops.map fun o => o.base + (i : Int) * o.outer)) := by
  induction fuel generalizing j with
  | zero => omega
  | succ fuel ih =>
    rw [runLoop]
    by_cases h : j < n
    · rw [if_pos (by exact_mod_cast h), if_neg (by push_cast; omega), advance_ops]
      have := ih (j + 1) (by omega) (by omega)
      rw [show ((j : Int) + 1) = ((j + 1 : Nat) : Int) by push_cast; rfl, this,
        show n - j = (n - (j + 1)) + 1 by omega, List.range'_succ]
      rfl
    · rw [if_neg (by exact_mod_cast h), show n - j = 0 by omega]; rfl

theorem runLoop_overflow (call : Int → List Int → CoreCall) (steps : List Int) (n : Nat) (hn : 2 ^ 31 ≤ n) (fuel : Nat) (j : Nat)
    (hj : j ≤ 2 ^ 31 - 1) (ptrs : List Int) : runLoop call steps n fuel j ptrs = none := by
  induction fuel generalizing j ptrs with
  | zero => rfl
  | succ fuel ih =>
    rw [runLoop, if_pos (by omega)]
    by_cases h : (j : Int) = 2 ^ 31 - 1
    · rw [if_pos h]
    · rw [if_neg h, show ((j : Int) + 1) = ((j + 1 : Nat) : Int) by push_cast; rfl, ih (j + 1) (by omega)]; rfl

end Ufunclab.CxxGen
