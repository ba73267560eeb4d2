import Verif.Model.GendotLife
import Mathlib.Tactic.Linarith
import Mathlib.Data.List.Nodup
/-! # C115: the memory of gendot functions -/
namespace Ufunclab.GendotLife

/-- Two ranges of bytes do not overlap. -/
def Apart (a b : Nat × Nat) : Prop := a.1 + a.2 ≤ b.1 ∨ b.1 + b.2 ≤ a.1

/-- `a` lies inside `b`. -/
def Inside (a b : Nat × Nat) : Prop := b.1 ≤ a.1 ∧ a.1 + a.2 ≤ b.1 + b.2

/-- C115: the six tables in the block of a gendot function do not overlap and fill the block exactly; the tables of pointers and records are aligned, for any number of loops and any
name and docstring. -/
theorem C115_layout (w nloops name doc : Nat) (hw : w ∣ 32) :
    (layout w nloops name doc).Pairwise Apart ∧ (∀ part ∈ layout w nloops name doc, Inside part (0, total w nloops name doc)) ∧
    ((layout w nloops name doc).map Prod.snd).sum = total w nloops name doc ∧ ∀ part ∈ (layout w nloops name doc).take 3, w ∣ part.1 := by
  refine ⟨?_, ?_, ?_, ?_⟩
  · simp only [layout, List.pairwise_cons, List.mem_cons, List.not_mem_nil, or_false, Apart, forall_eq_or_imp, forall_eq]
    refine ⟨⟨?_, ?_, ?_, ?_, ?_⟩, ⟨?_, ?_, ?_, ?_⟩, ⟨?_, ?_, ?_⟩, ⟨?_, ?_⟩, ?_, ?_, List.Pairwise.nil⟩ <;> first | omega | simp
  · simp only [layout, total, List.mem_cons, List.not_mem_nil, or_false, Inside, forall_eq_or_imp, forall_eq]
    omega
  · simp [layout, total]; omega
  · simp only [layout, List.take_succ_cons, List.take_zero, List.mem_cons, List.not_mem_nil, or_false, forall_eq_or_imp, forall_eq]
    exact ⟨Nat.dvd_zero w, Nat.dvd_mul_left w nloops, Nat.dvd_add (Nat.dvd_mul_left w nloops) (Nat.dvd_mul_left w nloops)⟩

theorem mul_room {i n : Nat} (k : Nat) (h : i < n) : i * k + k ≤ n * k := by
  have := Nat.mul_le_mul_right k (Nat.succ_le_of_lt h)
  rw [Nat.succ_mul] at this; exact this

/-- C115: everything written to the block stays inside it, and no two writes touch the same byte, when no output type is larger than 32 bytes. -/
theorem C115_writes (w nloops name doc : Nat) (itemsize : Nat → Nat) (hi : ∀ i < nloops, itemsize i ≤ 32) :
    (∀ r ∈ writes w nloops name doc itemsize, Inside r (0, total w nloops name doc)) ∧ (writes w nloops name doc itemsize).Pairwise Apart := by
  have key : ∀ i < nloops, ∀ r ∈ [(i * w, w), (nloops * w + nloops * w + i * (7 * w + 32), 7 * w),
        (nloops * w + nloops * w + i * (7 * w + 32) + 7 * w, itemsize i), (nloops * w + i * w, w)],
      r.1 + r.2 ≤ nloops * w + nloops * w + nloops * (7 * w + 32) := by
    intro i hin r hr
    have h1 := mul_room w hin
    have h2 := mul_room (7 * w + 32) hin
    have h3 := hi i hin
    simp only [List.mem_cons, List.not_mem_nil, or_false] at hr
    rcases hr with rfl | rfl | rfl | rfl <;> simp only <;> omega
  constructor
  · intro r hr
    rw [writes, List.mem_append] at hr
    refine ⟨Nat.zero_le _, ?_⟩
    simp only [total, Nat.zero_add]
    rcases hr with hr | hr
    · simp only [List.mem_cons, List.not_mem_nil, or_false] at hr
      rcases hr with rfl | rfl | rfl <;> simp only <;> omega
    · obtain ⟨i, hin, hr⟩ := List.mem_flatMap.1 hr
      have := key i (List.mem_range.1 hin) r hr
      omega
  · rw [writes, List.pairwise_append]
    refine ⟨?_, ?_, ?_⟩
    · simp only [List.pairwise_cons, List.mem_cons, List.not_mem_nil, or_false, Apart, forall_eq_or_imp, forall_eq]
      refine ⟨⟨?_, ?_⟩, ?_, ?_, List.Pairwise.nil⟩ <;> first | omega | simp
    · rw [List.pairwise_flatMap]
      constructor
      · intro i hin
        have hin := List.mem_range.1 hin
        have h1 := mul_room w hin
        have h2 := mul_room (7 * w + 32) hin
        simp only [List.pairwise_cons, List.mem_cons, List.not_mem_nil, or_false, Apart, forall_eq_or_imp, forall_eq]
        refine ⟨⟨?_, ?_, ?_⟩, ⟨?_, ?_⟩, ?_, ?_, List.Pairwise.nil⟩ <;> first | omega | simp
      · have hp := List.pairwise_lt_range (n := nloops)
        refine hp.imp_of_mem ?_
        intro i j hin hjn hij r hr q hq
        have hin := List.mem_range.1 hin
        have hjn := List.mem_range.1 hjn
        have a1 := mul_room w hin
        have a2 := mul_room (7 * w + 32) hin
        have b1 := mul_room w hjn
        have b2 := mul_room (7 * w + 32) hjn
        have c1 := mul_room w hij
        have c2 := mul_room (7 * w + 32) hij
        have d1 := hi i hin
        have d2 := hi j hjn
        simp only [List.mem_cons, List.not_mem_nil, or_false] at hr hq
        rcases hr with rfl | rfl | rfl | rfl <;> rcases hq with rfl | rfl | rfl | rfl <;> simp only [Apart] <;> omega
    · intro r hr q hq
      obtain ⟨i, hin, hq⟩ := List.mem_flatMap.1 hq
      have := key i (List.mem_range.1 hin) q hq
      simp only [List.mem_cons, List.not_mem_nil, or_false] at hr
      rcases hr with rfl | rfl | rfl <;> simp only [Apart] <;> omega

/-! ## Lifetime -/

/-- Ufunc `i` is a dynamic one. -/
def World.isDynamic (W : World) (i : Nat) : Prop := ∃ r, W.ufuncs[i]? = some ⟨.dynamic, r⟩

/-- Ufunc `i` exists and is gendot of `p` and `s`, and the program still holds it. -/
def World.uses (W : World) (i p s : Nat) : Prop := ∃ r, W.ufuncs[i]? = some ⟨.gendot p s, r⟩ ∧ 0 < r

/-- The rule a program must follow: it does not release the last reference to a dynamic ufunc while it holds a gendot function made of it, and it does not
apply gendot to gendot functions (the Python wrapper rejects them: their signature is not `None` and they have two inputs). -/
def Careful : List Op → World → Prop
  | [], _ => True
  | op :: ops, W => (match op with
      | .drop i => ∀ j p s, W.ufuncs[i]? = some ⟨.dynamic, 1⟩ → W.uses j p s → i ≠ p ∧ i ≠ s
      | .gendot p s _ _ => ∀ i, i = p ∨ i = s → ∀ a b r, W.ufuncs[i]? ≠ some ⟨.gendot a b, r⟩
      | _ => True) ∧ Careful ops (step W op)

/-- No freed block was used; blocks are allocated exactly for the dynamic ufuncs and gendot functions that are held; the parts of a held gendot function are static or held. -/
structure Inv (W : World) : Prop where
  ok : W.bad = false
  nodup : W.blocks.Nodup
  blocks : ∀ i, i ∈ W.blocks ↔ ∃ u, W.ufuncs[i]? = some u ∧ u.kind ≠ .static ∧ 0 < u.refs
  parts : ∀ j p s, W.uses j p s → ∀ i, i = p ∨ i = s → ∃ u, W.ufuncs[i]? = some u ∧ (u.kind = .static ∨ u.kind = .dynamic ∧ 0 < u.refs)

theorem Inv.part_readable {W : World} (h : Inv W) {i : Nat} (hi : ∃ u, W.ufuncs[i]? = some u ∧ (u.kind = .static ∨ u.kind = .dynamic ∧ 0 < u.refs)) :
    readable W i = true := by
  obtain ⟨u, hu, hk⟩ := hi
  rw [readable, hu]
  rcases hk with hk | ⟨hk, hr⟩
  · simp [hk]
  · simp only [hk]
    exact List.contains_iff_mem.2 ((h.blocks i).2 ⟨u, hu, by simp [hk], hr⟩)

theorem Inv.append {W : World} (h : Inv W) (k : Kind) (hp : ∀ p s, k = .gendot p s → ∀ i, i = p ∨ i = s →
      ∃ u, W.ufuncs[i]? = some u ∧ (u.kind = .static ∨ u.kind = .dynamic ∧ 0 < u.refs)) :
    Inv ⟨W.ufuncs ++ [⟨k, 1⟩], if k = .static then W.blocks else W.ufuncs.length :: W.blocks, false⟩ := by
  have old : ∀ {i : Nat} {u : Ufunc}, W.ufuncs[i]? = some u → (W.ufuncs ++ [⟨k, 1⟩])[i]? = some u := by
    intro i u hu
    rw [List.getElem?_append_left (List.getElem?_eq_some_iff.1 hu).1]; exact hu
  have cases_ : ∀ {i : Nat} {u : Ufunc}, (W.ufuncs ++ [⟨k, 1⟩])[i]? = some u → W.ufuncs[i]? = some u ∨ i = W.ufuncs.length ∧ u = ⟨k, 1⟩ := by
    intro i u hu
    by_cases hl : i < W.ufuncs.length
    · left; rwa [List.getElem?_append_left hl] at hu
    · right
      rw [List.getElem?_append_right (by omega)] at hu
      have : i - W.ufuncs.length = 0 := by
        by_contra hne
        rw [List.getElem?_eq_none (by simp; omega)] at hu; cases hu
      rw [this] at hu
      simp at hu
      exact ⟨by omega, hu.symm⟩
  have notin : W.ufuncs.length ∉ W.blocks := by
    intro hm
    obtain ⟨u, hu, -⟩ := (h.blocks _).1 hm
    have := (List.getElem?_eq_some_iff.1 hu).1
    omega
  refine ⟨rfl, ?_, fun i => ?_, fun j p s hu i hi => ?_⟩
  · simp only; split_ifs
    · exact h.nodup
    · exact List.nodup_cons.2 ⟨notin, h.nodup⟩
  · constructor
    · intro hm
      have : i ∈ W.blocks ∨ i = W.ufuncs.length ∧ k ≠ .static := by
        simp only at hm
        split_ifs at hm with hk
        · exact Or.inl hm
        · rcases List.mem_cons.1 hm with e | e
          · exact Or.inr ⟨e, hk⟩
          · exact Or.inl e
      rcases this with hm | ⟨rfl, hk⟩
      · obtain ⟨u, hu, q⟩ := (h.blocks i).1 hm
        exact ⟨u, old hu, q⟩
      · exact ⟨⟨k, 1⟩, by simp, hk, Nat.one_pos⟩
    · rintro ⟨u, hu, hk, hr⟩
      rcases cases_ hu with hu | ⟨rfl, rfl⟩
      · have := (h.blocks i).2 ⟨u, hu, hk, hr⟩
        simp only; split_ifs
        · exact this
        · exact List.mem_cons_of_mem _ this
      · simp only; rw [if_neg hk]; exact List.mem_cons_self
  · obtain ⟨r, hu, hr⟩ := hu
    rcases cases_ hu with hu | ⟨-, e⟩
    · obtain ⟨v, hv, q⟩ := h.parts j p s ⟨r, hu, hr⟩ i hi
      exact ⟨v, old hv, q⟩
    · cases e
      obtain ⟨v, hv, q⟩ := hp p s rfl i hi
      exact ⟨v, old hv, q⟩

theorem step_inv {W : World} (h : Inv W) (op : Op) (hc : Careful [op] W) : Inv (step W op) := by
  have hc := hc.1
  cases op with
  | newStatic => 
    have := h.append .static (by intro p s e; cases e)
    simpa [step, h.ok] using this
  | newDynamic =>
    have := h.append .dynamic (by intro p s e; cases e)
    simpa [step, h.ok] using this
  | gendot p s mem make =>
    rw [step]
    split_ifs with h1 h2 h3
    · have hp : ∀ i, i = p ∨ i = s → ∃ u, W.ufuncs[i]? = some u ∧ (u.kind = .static ∨ u.kind = .dynamic ∧ 0 < u.refs) := by
        intro i hi
        have hh : W.held i := by rcases hi with rfl | rfl; exacts [h1.1, h1.2]
        obtain ⟨⟨k, r⟩, hu, hr⟩ := hh
        refine ⟨_, hu, ?_⟩
        cases k with
        | static => exact Or.inl rfl
        | dynamic => exact Or.inr ⟨rfl, hr⟩
        | gendot a b => exact absurd hu (hc i hi a b r)
      have := h.append (.gendot p s) (by intro p' s' e; cases e; exact hp)
      rw [h.part_readable (hp p (Or.inl rfl)), h.part_readable (hp s (Or.inr rfl))]
      simpa [h.ok] using this
    all_goals exact h
  | copy i =>
    rw [step]
    split_ifs with hh
    · obtain ⟨u, hu, hr⟩ := hh
      have get : ∀ j, (W.ufuncs.modify i fun u => { u with refs := u.refs + 1 })[j]? =
          (W.ufuncs[j]?).map fun u => if i = j then { u with refs := u.refs + 1 } else u := by
        intro j; rw [List.getElem?_modify]
        by_cases e : i = j <;> simp [e]
      refine ⟨h.ok, h.nodup, fun j => ?_, fun j p s hj q hq => ?_⟩
      · rw [h.blocks j]
        constructor
        · rintro ⟨v, hv, hk, hp⟩
          refine ⟨_, by rw [get, hv]; rfl, ?_, ?_⟩ <;> (simp only; split_ifs <;> simp_all)
        · rintro ⟨v, hv, hk, hp⟩
          rw [get] at hv
          obtain ⟨v', hv', rfl⟩ := Option.map_eq_some_iff.1 hv
          refine ⟨v', hv', ?_, ?_⟩
          · by_cases e : i = j <;> simpa [e] using hk
          · by_cases e : i = j
            · subst e; rw [hu] at hv'; cases hv'; exact hr
            · simpa [e] using hp
      · obtain ⟨r, hj, hr'⟩ := hj
        rw [get] at hj
        obtain ⟨v', hv', e'⟩ := Option.map_eq_some_iff.1 hj
        have hu' : W.uses j p s := by
          by_cases e : i = j
          · subst e; rw [hu] at hv'; cases hv'
            simp at e'
            refine ⟨u.refs, ?_, hr⟩
            rw [hu]; cases u; simp_all
          · simp [e] at e'; subst e'; exact ⟨r, hv', hr'⟩
        obtain ⟨v, hv, hk⟩ := h.parts j p s hu' q hq
        refine ⟨_, by rw [get, hv]; rfl, ?_⟩
        by_cases e : i = q
        · rcases hk with hk | ⟨hk, _⟩
          · left; simp [e, hk]
          · right; simp [e, hk]
        · simpa [e] using hk
    · exact h
  | drop i =>
    rw [step]
    cases hu : W.ufuncs[i]? with
    | none => exact h
    | some u =>
      simp only
      have get : ∀ j, (W.ufuncs.modify i fun u => { u with refs := u.refs - 1 })[j]? =
          (W.ufuncs[j]?).map fun u => if i = j then { u with refs := u.refs - 1 } else u := by
        intro j; rw [List.getElem?_modify]
        by_cases e : i = j <;> simp [e]
      have uses_of : ∀ j p s, (∃ r, (W.ufuncs.modify i fun u => { u with refs := u.refs - 1 })[j]? = some ⟨.gendot p s, r⟩ ∧ 0 < r) → W.uses j p s := by
        rintro j p s ⟨r, hj, hr'⟩
        rw [get] at hj
        obtain ⟨v', hv', e'⟩ := Option.map_eq_some_iff.1 hj
        by_cases e : i = j
        · simp only [e, if_true] at e'
          cases v' with
          | mk k r0 => cases e'; exact ⟨r0, hv', by have : 0 < r0 - 1 := hr'; omega⟩
        · simp only [e, if_false] at e'; subst e'; exact ⟨r, hv', hr'⟩
      split_ifs with h0 h1
      · exact h
      · have hm : i ∈ W.blocks := (h.blocks i).2 ⟨u, hu, h1.2, by omega⟩
        refine ⟨?_, h.nodup.erase i, fun j => ?_, fun j p s hj q hq => ?_⟩
        · simp [h.ok, hm]
        · rw [h.nodup.mem_erase_iff, h.blocks j]
          constructor
          · rintro ⟨hne, v, hv, hk, hp⟩
            refine ⟨_, by rw [get, hv]; rfl, ?_⟩
            simp only [if_neg (Ne.symm hne)]; exact ⟨hk, hp⟩
          · rintro ⟨v, hv, hk, hp⟩
            rw [get] at hv
            obtain ⟨v', hv', rfl⟩ := Option.map_eq_some_iff.1 hv
            by_cases e : i = j
            · subst e; rw [hu] at hv'; cases hv'
              simp [h1.1] at hp
            · simp only [e, if_false] at hk hp
              exact ⟨fun e' => e e'.symm, v', hv', hk, hp⟩
        · have hus := uses_of j p s hj
          obtain ⟨v, hv, hk⟩ := h.parts j p s hus q hq
          refine ⟨_, by rw [get, hv]; rfl, ?_⟩
          by_cases e : i = q
          · subst e
            rw [hu] at hv; cases hv
            rcases hk with hk | ⟨hk, -⟩
            · exact absurd hk h1.2
            · have hd : W.ufuncs[i]? = some ⟨.dynamic, 1⟩ := by
                rw [hu]; cases u; simp_all
              have := hc j p s hd hus
              rcases hq with rfl | rfl
              · exact absurd rfl this.1
              · exact absurd rfl this.2
          · simpa only [e, if_false] using hk
      · have hst : u.kind ≠ .static → 1 < u.refs := fun hk => by
          have : u.refs ≠ 1 := fun e => h1 ⟨e, hk⟩
          omega
        refine ⟨h.ok, h.nodup, fun j => ?_, fun j p s hj q hq => ?_⟩
        · rw [h.blocks j]
          constructor
          · rintro ⟨v, hv, hk, hp⟩
            refine ⟨_, by rw [get, hv]; rfl, ?_⟩
            by_cases e : i = j
            · subst e; rw [hu] at hv; cases hv
              simp only [if_true]; exact ⟨hk, by have := hst hk; omega⟩
            · simp only [e, if_false]; exact ⟨hk, hp⟩
          · rintro ⟨v, hv, hk, hp⟩
            rw [get] at hv
            obtain ⟨v', hv', rfl⟩ := Option.map_eq_some_iff.1 hv
            by_cases e : i = j
            · simp only [e, if_true] at hk hp; exact ⟨v', hv', hk, by omega⟩
            · simp only [e, if_false] at hk hp; exact ⟨v', hv', hk, hp⟩
        · obtain ⟨v, hv, hk⟩ := h.parts j p s (uses_of j p s hj) q hq
          refine ⟨_, by rw [get, hv]; rfl, ?_⟩
          by_cases e : i = q
          · subst e
            rw [hu] at hv; cases hv
            simp only [if_true]
            rcases hk with hk | ⟨hk, -⟩
            · exact Or.inl hk
            · exact Or.inr ⟨hk, by have := hst (by simp [hk]); omega⟩
          · simpa only [e, if_false] using hk
  | call i =>
    rw [step]
    split_ifs with hh
    · obtain ⟨⟨k, r⟩, hu, hr⟩ := hh
      have hr : 0 < r := hr
      cases k with
      | static => simpa [hu] using h
      | dynamic =>
        have hm : i ∈ W.blocks := (h.blocks i).2 ⟨_, hu, by simp, hr⟩
        simp only [hu]
        have : (W.bad || !W.blocks.contains i) = W.bad := by simp [hm]
        rw [this]; exact h
      | gendot p s =>
        have hm : i ∈ W.blocks := (h.blocks i).2 ⟨_, hu, by simp, hr⟩
        simp only [hu]
        have hp := h.parts i p s ⟨r, hu, hr⟩
        have : (W.bad || !W.blocks.contains i || !readable W p || !readable W s) = W.bad := by
          rw [h.part_readable (hp p (Or.inl rfl)), h.part_readable (hp s (Or.inr rfl))]; simp [hm]
        rw [this]; exact h
    · exact h

theorem run_inv : ∀ (ops : List Op) (W : World), Inv W → Careful ops W → Inv (run ops W) := by
  intro ops
  induction ops with
  | nil => intro W h _; exact h
  | cons op ops ih => intro W h hc; exact ih _ (step_inv h op ⟨hc.1, trivial⟩) hc.2

theorem start_inv : Inv start := by
  refine ⟨rfl, List.nodup_nil, fun i => ?_, fun j p s hu => ?_⟩
  · simp [start]
  · obtain ⟨r, hu, -⟩ := hu; simp [start] at hu

/-- C115: in every history of creating, copying, calling and dropping ufuncs and gendot functions, with allocation failures anywhere, no freed block is used or freed twice, and the blocks
that are still allocated are exactly those of the functions the program holds (nothing leaks) — if the program keeps dynamic ufuncs alive as long as gendot functions made of
them.  The condition should not be needed: see `C115_lifetime_violated`. -/
theorem C115_lifetime_partial (ops : List Op) (hc : Careful ops start) :
    (run ops start).bad = false ∧ (run ops start).blocks.Nodup ∧
    ∀ i, i ∈ (run ops start).blocks ↔ ∃ u, (run ops start).ufuncs[i]? = some u ∧ u.kind ≠ .static ∧ 0 < u.refs :=
  let h := run_inv ops start start_inv hc
  ⟨h.ok, h.nodup, h.blocks⟩

theorem static_run : ∀ (ops : List Op) (W : World), Inv W → (∀ (i r : Nat), W.ufuncs[i]? ≠ some ⟨.dynamic, r⟩) → (∀ op ∈ ops, op ≠ .newDynamic) →
    (∀ (pre : List Op) (p s : Nat) (m k : Bool), pre ++ [.gendot p s m k] <+: ops → ∀ i, i = p ∨ i = s → ∀ a b r, (run pre W).ufuncs[i]? ≠ some ⟨.gendot a b, r⟩) →
    (run ops W).bad = false := by
  intro ops
  induction ops with
  | nil => intro W h _ _ _; exact h.ok
  | cons op ops ih =>
    intro W h hd hn hg
    have hc : Careful [op] W := by
      refine ⟨?_, trivial⟩
      cases op with
      | drop i => intro j p s hi; exact absurd hi (hd i 1)
      | gendot p s m k => exact hg [] p s m k (by simp)
      | _ => trivial
    refine ih (step W op) (step_inv h op hc) ?_ (fun o ho => hn o (List.mem_cons_of_mem _ ho)) ?_
    · intro i r he
      have app : ∀ (k : Kind), k ≠ .dynamic → (W.ufuncs ++ [⟨k, 1⟩])[i]? ≠ some ⟨.dynamic, r⟩ := by
        intro k hk he
        by_cases hl : i < W.ufuncs.length
        · rw [List.getElem?_append_left hl] at he; exact hd i r he
        · rw [List.getElem?_append_right (by omega)] at he
          rcases hi : i - W.ufuncs.length with _ | n
          · rw [hi] at he; simp at he; exact hk he.1
          · rw [hi] at he; simp at he
      have mod : ∀ (q : Nat) (f : Nat → Nat), (W.ufuncs.modify q fun u => { u with refs := f u.refs })[i]? ≠ some ⟨.dynamic, r⟩ := by
        intro q f he
        rw [List.getElem?_modify] at he
        rcases hw : W.ufuncs[i]? with _ | ⟨k, r0⟩
        · rw [hw] at he; simp at he
        · rw [hw] at he
          by_cases e : q = i
          · simp [e] at he; exact hd i r0 (by rw [hw, he.1])
          · simp [e] at he; exact hd i r0 (by rw [hw, he.1])
      cases op with
      | newStatic => exact app .static (by simp) he
      | newDynamic => exact hn .newDynamic List.mem_cons_self rfl
      | gendot p s m k =>
        rw [step] at he
        split_ifs at he
        · exact app (.gendot p s) (by simp) he
        all_goals exact hd i r he
      | copy q =>
        rw [step] at he
        split_ifs at he
        · exact mod q (· + 1) he
        · exact hd i r he
      | drop q =>
        rw [step] at he
        split at he
        · exact hd i r he
        · split_ifs at he
          · exact hd i r he
          · exact mod q (· - 1) he
          · exact mod q (· - 1) he
      | call q =>
        rw [step] at he
        split_ifs at he
        · split at he <;> exact hd i r he
        · exact hd i r he
    · intro pre p s m k hpre
      exact hg (op :: pre) p s m k (by simpa using hpre)

/-- C115: with ufuncs of C extensions only (NumPy, SciPy, ufunclab) there is no condition but that gendot is not applied to gendot functions (which its wrapper rejects). -/
theorem C115_static (ops : List Op) (hn : ∀ op ∈ ops, op ≠ .newDynamic)
    (hg : ∀ (pre : List Op) (p s : Nat) (m k : Bool), pre ++ [.gendot p s m k] <+: ops → ∀ i, i = p ∨ i = s → ∀ a b r, (run pre start).ufuncs[i]? ≠ some ⟨.gendot a b, r⟩) :
    (run ops start).bad = false :=
  static_run ops start start_inv (by intro i r; simp [start]) hn hg

/-- C115 is violated without the condition: `f = gendot(p, s)` with dynamic ufuncs, `del p`, `f(x, y)` uses the freed loop data of `p`. -/
theorem C115_lifetime_violated : (run [.newDynamic, .newStatic, .gendot 0 1 true true, .drop 0, .call 2] start).bad = true := by decide

/-- The rule can be followed, with the same ufuncs. -/
example : Careful [.newDynamic, .newStatic, .gendot 0 1 true true, .gendot 0 1 true false, .call 2, .drop 2, .drop 0] start ∧
    (run [.newDynamic, .newStatic, .gendot 0 1 true true, .gendot 0 1 true false, .call 2, .drop 2, .drop 0] start).blocks = [] := by
  refine ⟨⟨trivial, trivial, ?_, ?_, trivial, ?_, ?_, trivial⟩, by decide⟩
  · rintro i (rfl | rfl) a b r <;> simp [step, start]
  · rintro i (rfl | rfl) a b r <;> simp [step, start, World.held, readable]
  · intro j p s h; simp [step, start, World.held, readable] at h
  · rintro j p s - ⟨r, h, hr⟩
    exfalso
    have e : (step (step (step (step (step (step start .newDynamic) .newStatic) (.gendot 0 1 true true)) (.gendot 0 1 true false)) (.call 2)) (.drop 2)).ufuncs =
        [⟨.dynamic, 1⟩, ⟨.static, 1⟩, ⟨.gendot 0 1, 0⟩] := by rfl
    rw [e] at h
    match j, h with
    | 0, h => simp at h
    | 1, h => simp at h
    | 2, h => simp at h; omega

end Ufunclab.GendotLife
