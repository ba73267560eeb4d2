import Verif.Model.Refs
import Mathlib.Tactic.Linarith
import Mathlib.Data.List.Count
/-! # Lemmas on reference counts -/
namespace Ufunclab.Refs
variable {A : List Int} {L : List Obj} {s : St}

theorem holders_nonneg (A : List Int) (cell : Int → Option Obj) (o : Obj) : 0 ≤ holders A cell o := Int.natCast_nonneg _

theorem holders_pos {cell : Int → Option Obj} {c : Int} {o : Obj} (hc : c ∈ A) (h : cell c = some o) : 0 < holders A cell o := by
  have : 0 < A.countP fun a => cell a == some o := List.countP_pos_iff.2 ⟨c, hc, by simp [h]⟩
  simpa [holders] using this

theorem Owned.alive_cell (h : Owned A L s) {c : Int} {o : Obj} (hc : c ∈ A) (hs : s.cell c = some o) : 0 < s.rc o := by
  rw [h.2 o]
  have h1 := h.1 o
  have h2 := holders_pos (A := A) hc hs
  have h3 : (0 : Int) ≤ (L.count o : Nat) := Int.natCast_nonneg _
  omega

theorem Owned.alive_local (h : Owned A L s) {o : Obj} (ho : o ∈ L) : 0 < s.rc o := by
  rw [h.2 o]
  have h1 := h.1 o
  have h2 := holders_nonneg A s.cell o
  have h3 : 0 < L.count o := List.count_pos_iff.2 ho
  omega

theorem Owned.incref (h : Owned A L s) {o : Obj} (ho : 0 < s.rc o) :
    Owned A (o :: L) (incref (some o) s) ∧ (incref (some o) s).dead = s.dead := by
  refine ⟨⟨h.1, fun q => ?_⟩, ?_⟩
  · show (if q = o then s.rc q + 1 else s.rc q) = s.ext q + holders A s.cell q + _
    by_cases e : q = o
    · subst e; rw [if_pos rfl, h.2 q, List.count_cons_self]; push_cast; omega
    · rw [if_neg e, h.2 q, List.count_cons_of_ne (Ne.symm e)]
  · simp [Refs.incref, not_le.2 ho]

theorem Owned.decref {o : Obj} (h : Owned A (o :: L) s) : Owned A L (decref o s) ∧ (decref o s).dead = s.dead := by
  have ha := h.alive_local (List.mem_cons_self (a := o))
  refine ⟨⟨h.1, fun q => ?_⟩, ?_⟩
  · show (if q = o then s.rc q - 1 else s.rc q) = s.ext q + holders A s.cell q + _
    by_cases e : q = o
    · subst e; rw [if_pos rfl, h.2 q, List.count_cons_self]; push_cast; omega
    · rw [if_neg e, h.2 q, List.count_cons_of_ne (Ne.symm e)]
  · simp [Refs.decref, not_le.2 ha]

theorem holders_store (hA : A.Nodup) {a : Int} (ha : a ∈ A) (cell : Int → Option Obj) (v : Option Obj) (o : Obj) :
    holders A (fun b => if b = a then v else cell b) o + (if cell a = some o then 1 else 0) =
      holders A cell o + (if v = some o then 1 else 0) := by
  have off : ∀ (B : List Int), a ∉ B → (B.countP fun b => (if b = a then v else cell b) == some o) = B.countP fun b => cell b == some o := by
    intro B hB
    apply List.countP_congr
    intro b hb
    have : b ≠ a := fun e => hB (e ▸ hb)
    simp [this]
  have main : ∀ B : List Int, B.Nodup → a ∈ B → ((B.countP fun b => (if b = a then v else cell b) == some o) + (if cell a = some o then 1 else 0) : Nat) =
      (B.countP fun b => cell b == some o) + (if v = some o then 1 else 0) := by
    intro B hB hm
    induction B with
    | nil => cases hm
    | cons b B ih =>
      rw [List.countP_cons, List.countP_cons]
      rcases List.nodup_cons.1 hB with ⟨hb, hB'⟩
      rcases List.mem_cons.1 hm with e | hm'
      · subst e
        rw [off B hb]
        simp only [if_true, beq_iff_eq]
        omega
      · have hne : b ≠ a := fun e => hb (e ▸ hm')
        have := ih hB' hm'
        rw [if_neg hne]
        omega
  have := main A hA ha
  simp only [holders]
  split_ifs at this ⊢ <;> omega

theorem Owned.store (hA : A.Nodup) {a : Int} (ha : a ∈ A) {v : Obj} (h : Owned A (v :: L) s) :
    Owned A ((s.cell a).toList ++ L) (store a (some v) s) := by
  refine ⟨h.1, fun q => ?_⟩
  show s.rc q = s.ext q + holders A (fun b => if b = a then some v else s.cell b) q + _
  have h1 := holders_store hA ha s.cell (some v) q
  rw [h.2 q, List.count_append, List.count_cons]
  cases hc : s.cell a with
  | none => simp [hc] at h1 ⊢; split_ifs at h1 ⊢ <;> (simp_all; try omega)
  | some w =>
    simp [hc, List.count_cons] at h1 ⊢
    split_ifs at h1 ⊢ <;> (simp_all; try omega)

theorem Owned.store_null (hA : A.Nodup) {a : Int} (ha : a ∈ A) (h : Owned A L s) : Owned A ((s.cell a).toList ++ L) (Refs.store a none s) := by
  refine ⟨h.1, fun q => ?_⟩
  show s.rc q = s.ext q + holders A (fun b => if b = a then none else s.cell b) q + _
  have h1 := holders_store hA ha s.cell none q
  rw [h.2 q, List.count_append]
  cases hc : s.cell a with
  | none => simp [hc] at h1 ⊢; omega
  | some w =>
    simp [hc, List.count_cons] at h1 ⊢
    split_ifs at h1 ⊢ <;> (simp_all; try omega)

theorem Owned.perm {L' : List Obj} (h : Owned A L s) (hp : L.Perm L') : Owned A L' s :=
  ⟨h.1, fun o => by rw [h.2 o, hp.count_eq]⟩

theorem Owned.congr {L' : List Obj} (h : Owned A L s) (hc : ∀ o, L.count o = L'.count o) : Owned A L' s :=
  ⟨h.1, fun o => by rw [h.2 o, hc o]⟩

/-- `o` is in one of the cells. -/
def InCell (A : List Int) (s : St) (v : Option Obj) : Prop := ∃ o c, v = some o ∧ c ∈ A ∧ s.cell c = some o

theorem InCell.mono {s s' : St} {v : Option Obj} (h : InCell A s v) (hk : ∀ c ∈ A, s'.cell c = s.cell c) : InCell A s' v := by
  obtain ⟨o, c, h1, h2, h3⟩ := h
  exact ⟨o, c, h1, h2, by rw [hk c h2]; exact h3⟩

theorem inCell_of (hc : c ∈ A) (h : s.cell c ≠ none) : InCell A s (s.cell c) := by
  obtain ⟨o, ho⟩ := Option.ne_none_iff_exists'.1 h
  exact ⟨o, c, ho, hc, ho⟩

/-- What a comparison leaves as it was. -/
structure Good (A : List Int) (L : List Obj) (s s' : St) : Prop where
  owned : Owned A L s'
  cells : ∀ c ∈ A, s'.cell c = s.cell c
  dead : s'.dead = s.dead

theorem Good.refl (h : Owned A L s) : Good A L s s := ⟨h, fun _ _ => rfl, rfl⟩

theorem Good.trans {s' s'' : St} (h : Good A L s s') (h' : Good A L s' s'') : Good A L s s'' :=
  ⟨h'.owned, fun c hc => (h'.cells c hc).trans (h.cells c hc), h'.dead.trans h.dead⟩

theorem api_good {β : Type _} {f : Obj → Obj → St → St × Option β} (hf : Sound A f) (hk : Keeps A f) (h : Owned A L s)
    {a b : Option Obj} (ha : InCell A s a) (hb : InCell A s b) :
    Good A L s (api f a b s).1 ∧ ((api f a b s).2 = none → (api f a b s).1.err = true) ∧
      (s.err = false → (api f a b s).1.pend = s.pend ∧ ((api f a b s).2 ≠ none → (api f a b s).1.err = false)) := by
  obtain ⟨oa, ca, rfl, hca, hsa⟩ := ha
  obtain ⟨ob, cb, rfl, hcb, hsb⟩ := hb
  have pa := h.alive_cell hca hsa
  have pb := h.alive_cell hcb hsb
  have ho : Owned A L { s with dead := s.dead || decide (s.rc oa ≤ 0) || decide (s.rc ob ≤ 0), pend := s.pend || s.err } := h
  refine ⟨⟨hf.owned L _ oa ob ho, fun c hc => hk _ oa ob c hc, ?_⟩, hf.error _ oa ob, fun he => ⟨?_, fun hn => ?_⟩⟩
  · rw [api, hf.dead]; simp [not_le.2 pa, not_le.2 pb]
  · rw [api, hf.pend]; simp [he]
  · rw [api, hf.success _ _ _ hn]; exact he

/-- Outcome of a loop that only compares: `P` holds of what it found. -/
def Ends {β : Type _} (A : List Int) (L : List Obj) (s : St) (r : St × Option β) (P : β → Prop) : Prop :=
  Good A L s r.1 ∧ (∀ v, r.2 = some v → P v) ∧ (r.2 = none → r.1.err = true) ∧
    (s.err = false → r.1.pend = s.pend ∧ (r.2 ≠ none → r.1.err = false))

theorem Ends.step {β : Type _} {s s' : St} {r : St × Option β} {P : β → Prop} (h : Good A L s s') (he : s.err = false → s'.pend = s.pend ∧ s'.err = false)
    (hr : Ends A L s' r P) : Ends A L s r P := by
  refine ⟨h.trans hr.1, hr.2.1, hr.2.2.1, fun h0 => ?_⟩
  obtain ⟨h1, h2⟩ := he h0
  obtain ⟨h3, h4⟩ := hr.2.2.2 h2
  exact ⟨h3.trans h1, h4⟩

theorem minmaxLoop_ends {lt gt : Cmp} (hl : Sound A lt) (hlk : Keeps A lt) (hg : Sound A gt) (hgk : Keeps A gt) {p stride : Int} {n : Nat} :
    ∀ fuel k xmin xmax s, k + fuel ≤ n → Owned A L s → (∀ i < n, p + (i : Int) * stride ∈ A ∧ s.cell (p + (i : Int) * stride) ≠ none) →
      InCell A s xmin → InCell A s xmax →
      Ends A L s (minmaxLoop lt gt p stride fuel k xmin xmax s) (fun v => InCell A s v.1 ∧ InCell A s v.2) := by
  intro fuel
  induction fuel with
  | zero =>
    intro k xmin xmax s _ h _ h1 h2
    rw [minmaxLoop]
    refine ⟨Good.refl h, fun v hv => ?_, fun hn => by simp at hn, fun he => ⟨rfl, fun _ => he⟩⟩
    cases hv; exact ⟨h1, h2⟩
  | succ f ih =>
    intro k xmin xmax s hk h hc h1 h2
    obtain ⟨hkA, hkn⟩ := hc k (by omega)
    have hx := inCell_of hkA hkn
    obtain ⟨g1, e1, p1⟩ := api_good hl hlk h hx h1
    rw [minmaxLoop]
    have hc' : ∀ s', Good A L s s' → ∀ i < n, p + (i : Int) * stride ∈ A ∧ s'.cell (p + (i : Int) * stride) ≠ none := by
      intro s' hs' i hi
      refine ⟨(hc i hi).1, ?_⟩
      rw [hs'.cells _ (hc i hi).1]; exact (hc i hi).2
    have back : ∀ s', Good A L s s' → ∀ r : St × Option (Option Obj × Option Obj), Ends A L s' r (fun v => InCell A s' v.1 ∧ InCell A s' v.2) →
        Ends A L s' r (fun v => InCell A s v.1 ∧ InCell A s v.2) := by
      intro s' hs' r hr
      refine ⟨hr.1, fun v hv => ?_, hr.2.2⟩
      obtain ⟨a, b⟩ := hr.2.1 v hv
      exact ⟨a.mono fun c hc => (hs'.cells c hc).symm, b.mono fun c hc => (hs'.cells c hc).symm⟩
    generalize hr : api lt (s.cell (p + (k : Int) * stride)) xmin s = r at g1 e1 p1
    obtain ⟨s1, _ | _ | _⟩ := r
    · exact ⟨g1, fun v hv => by simp at hv, fun _ => e1 rfl, fun he => ⟨(p1 he).1, fun hn => absurd rfl hn⟩⟩
    · obtain ⟨g2, e2, p2⟩ := api_good hg hgk g1.owned (hx.mono g1.cells) (h2.mono g1.cells)
      generalize hr2 : api gt (s.cell (p + (k : Int) * stride)) xmax s1 = r2 at g2 e2 p2
      have st : s.err = false → s1.pend = s.pend ∧ s1.err = false := fun he => ⟨(p1 he).1, (p1 he).2 (by simp)⟩
      obtain ⟨s2, _ | _ | _⟩ := r2
      · simp only [hr2]
        refine ⟨g1.trans g2, fun v hv => by simp at hv, fun _ => e2 rfl, fun he => ?_⟩
        exact ⟨((p2 (st he).2).1).trans (st he).1, fun hn => absurd rfl hn⟩
      · simp only [hr2]
        refine Ends.step (g1.trans g2) (fun he => ⟨((p2 (st he).2).1).trans (st he).1, (p2 (st he).2).2 (by simp)⟩) (back _ (g1.trans g2) _ ?_)
        exact ih _ _ _ _ (by omega) g2.owned (hc' _ (g1.trans g2)) (h1.mono (g1.trans g2).cells) (h2.mono (g1.trans g2).cells)
      · simp only [hr2]
        refine Ends.step (g1.trans g2) (fun he => ⟨((p2 (st he).2).1).trans (st he).1, (p2 (st he).2).2 (by simp)⟩) (back _ (g1.trans g2) _ ?_)
        exact ih _ _ _ _ (by omega) g2.owned (hc' _ (g1.trans g2)) (h1.mono (g1.trans g2).cells) (hx.mono (g1.trans g2).cells)
    · refine Ends.step g1 (fun he => ⟨(p1 he).1, (p1 he).2 (by simp)⟩) (back _ g1 _ ?_)
      exact ih _ _ _ _ (by omega) g1.owned (hc' _ g1) (hx.mono g1.cells) (h2.mono g1.cells)

theorem Ends.back {β : Type _} {s s' : St} {r : St × Option β} {P Q : β → Prop} (h : Ends A L s' r P) (hp : ∀ v, P v → Q v) : Ends A L s' r Q :=
  ⟨h.1, fun v hv => hp v (h.2.1 v hv), h.2.2⟩

theorem extremeLoop_ends {cmp : Cmp} (hl : Sound A cmp) (hlk : Keeps A cmp) {p stride : Int} {n : Nat} :
    ∀ fuel k xm s, k + fuel ≤ n → Owned A L s → (∀ i < n, p + (i : Int) * stride ∈ A ∧ s.cell (p + (i : Int) * stride) ≠ none) →
      InCell A s xm → Ends A L s (extremeLoop cmp p stride fuel k xm s) (fun v => InCell A s v) := by
  intro fuel
  induction fuel with
  | zero =>
    intro k xm s _ h _ h1
    rw [extremeLoop]
    refine ⟨Good.refl h, fun v hv => ?_, fun hn => by simp at hn, fun he => ⟨rfl, fun _ => he⟩⟩
    cases hv; exact h1
  | succ f ih =>
    intro k xm s hk h hc h1
    obtain ⟨hkA, hkn⟩ := hc k (by omega)
    have hx := inCell_of hkA hkn
    obtain ⟨g1, e1, p1⟩ := api_good hl hlk h hx h1
    rw [extremeLoop]
    have hc' : ∀ s', Good A L s s' → ∀ i < n, p + (i : Int) * stride ∈ A ∧ s'.cell (p + (i : Int) * stride) ≠ none := by
      intro s' hs' i hi
      refine ⟨(hc i hi).1, ?_⟩
      rw [hs'.cells _ (hc i hi).1]; exact (hc i hi).2
    generalize hr : api cmp (s.cell (p + (k : Int) * stride)) xm s = r at g1 e1 p1
    obtain ⟨s1, _ | _ | _⟩ := r
    · exact ⟨g1, fun v hv => by simp at hv, fun _ => e1 rfl, fun he => ⟨(p1 he).1, fun hn => absurd rfl hn⟩⟩
    · refine Ends.step g1 (fun he => ⟨(p1 he).1, (p1 he).2 (by simp)⟩) (Ends.back (s := s) ?_ fun v hv => InCell.mono hv fun c hc => (g1.cells c hc).symm)
      exact ih _ _ _ (by omega) g1.owned (hc' _ g1) (h1.mono g1.cells)
    · refine Ends.step g1 (fun he => ⟨(p1 he).1, (p1 he).2 (by simp)⟩) (Ends.back (s := s) ?_ fun v hv => InCell.mono hv fun c hc => (g1.cells c hc).symm)
      exact ih _ _ _ (by omega) g1.owned (hc' _ g1) (hx.mono g1.cells)

theorem firstLoop_ends {cmp : Cmp} (hl : Sound A cmp) (hlk : Keeps A cmp) {p stride : Int} {n : Nat} {target : Option Obj} :
    ∀ fuel k result s, k + fuel ≤ n → Owned A L s → (∀ i < n, p + (i : Int) * stride ∈ A ∧ s.cell (p + (i : Int) * stride) ≠ none) →
      InCell A s target → InCell A s result → Ends A L s (let r := firstLoop cmp p stride target fuel k result s; (r.1, r.2.map some)) (fun v => InCell A s v) := by
  intro fuel
  induction fuel with
  | zero =>
    intro k result s _ h _ _ h1
    obtain ⟨o, c, rfl, hcA, hcs⟩ := h1
    simp only [firstLoop]
    refine ⟨Good.refl h, fun v hv => ?_, fun hn => by simp at hn, fun he => ⟨rfl, fun _ => he⟩⟩
    simp at hv; subst hv; exact ⟨o, c, rfl, hcA, hcs⟩
  | succ f ih =>
    intro k result s hk h hc ht h1
    obtain ⟨hkA, hkn⟩ := hc k (by omega)
    have hx := inCell_of hkA hkn
    obtain ⟨g1, e1, p1⟩ := api_good hl hlk h hx ht
    rw [firstLoop]
    have hc' : ∀ s', Good A L s s' → ∀ i < n, p + (i : Int) * stride ∈ A ∧ s'.cell (p + (i : Int) * stride) ≠ none := by
      intro s' hs' i hi
      refine ⟨(hc i hi).1, ?_⟩
      rw [hs'.cells _ (hc i hi).1]; exact (hc i hi).2
    generalize hr : api cmp (s.cell (p + (k : Int) * stride)) target s = r at g1 e1 p1
    obtain ⟨s1, _ | _ | _⟩ := r
    · exact ⟨g1, fun v hv => by simp at hv, fun _ => e1 rfl, fun he => ⟨(p1 he).1, fun hn => absurd rfl hn⟩⟩
    · refine Ends.step g1 (fun he => ⟨(p1 he).1, (p1 he).2 (by simp)⟩) (Ends.back (s := s) ?_ fun v hv => InCell.mono hv fun c hc => (g1.cells c hc).symm)
      exact ih _ _ _ (by omega) g1.owned (hc' _ g1) (ht.mono g1.cells) (h1.mono g1.cells)
    · obtain ⟨o, c, ho, hcA, hcs⟩ := hx
      refine ⟨g1, fun v hv => ?_, fun hn => by simp [ho] at hn, fun he => ⟨(p1 he).1, fun _ => (p1 he).2 (by simp)⟩⟩
      simp [ho] at hv; subst hv; exact ⟨o, c, rfl, hcA, hcs⟩

/-- A new reference from an arithmetic operation. -/
theorem api_new {f : Num} (hf : SoundNew A f) (h : Owned A L s) {a b : Obj} (pa : 0 < s.rc a) (pb : 0 < s.rc b) :
    Owned A ((api f (some a) (some b) s).2.toList ++ L) (api f (some a) (some b) s).1 ∧ (api f (some a) (some b) s).1.dead = s.dead := by
  have ho : Owned A L { s with dead := s.dead || decide (s.rc a ≤ 0) || decide (s.rc b ≤ 0), pend := s.pend || s.err } := h
  have := hf.owned L _ a b ho
  refine ⟨?_, ?_⟩
  · simp only [api]
    split at this <;> rename_i hr <;> rw [hr] <;> exact this
  · rw [api, hf.dead]; simp [not_le.2 pa, not_le.2 pb]

theorem api_keeps {f : Num} (hk : Keeps A f) (a b : Option Obj) : ∀ c ∈ A, (api f a b s).1.cell c = s.cell c := by
  intro c hc
  cases a <;> cases b <;> try rfl
  exact hk _ _ _ c hc

theorem api_pend {f : Num} (hf : SoundNew A f) (a b : Obj) (he : s.err = false) :
    (api f (some a) (some b) s).1.pend = s.pend ∧ ((api f (some a) (some b) s).2 ≠ none → (api f (some a) (some b) s).1.err = false) ∧
      ((api f (some a) (some b) s).2 = none → (api f (some a) (some b) s).1.err = true) := by
  refine ⟨?_, fun hn => ?_, hf.error _ a b⟩
  · rw [api, hf.pend]; simp [he]
  · rw [api, hf.success _ _ _ hn]; exact he

theorem det2_good {mul sub : Num} (hm : SoundNew A mul) (hs : SoundNew A sub) (km : Keeps A mul) (ks : Keeps A sub) (h : Owned A L s)
    {a b c d : Option Obj} (ha : InCell A s a) (hb : InCell A s b) (hc : InCell A s c) (hd : InCell A s d) :
    let r := det2 mul sub a b c d s
    Owned A (r.2.toList ++ L) r.1 ∧ (∀ c ∈ A, r.1.cell c = s.cell c) ∧ r.1.dead = s.dead := by
  obtain ⟨a, ca, rfl, ha1, ha2⟩ := ha
  obtain ⟨b, cb, rfl, hb1, hb2⟩ := hb
  obtain ⟨c, cc, rfl, hc1, hc2⟩ := hc
  obtain ⟨d, cd, rfl, hd1, hd2⟩ := hd
  intro r
  obtain ⟨o1, d1⟩ := api_new hm h (h.alive_cell ha1 ha2) (h.alive_cell hd1 hd2)
  have k1 := api_keeps (s := s) km (some a) (some d)
  simp only [r, det2]
  generalize api mul (some a) (some d) s = r1 at o1 d1 k1
  obtain ⟨s1, _ | p0⟩ := r1
  · exact ⟨o1, k1, d1⟩
  · simp only [Option.toList, List.cons_append, List.nil_append] at o1
    obtain ⟨o2, d2⟩ := api_new hm o1 (o1.alive_cell hb1 ((k1 _ hb1).trans hb2)) (o1.alive_cell hc1 ((k1 _ hc1).trans hc2))
    have k2 := api_keeps (s := s1) km (some b) (some c)
    simp only
    generalize api mul (some b) (some c) s1 = r2 at o2 d2 k2
    obtain ⟨s2, _ | p1⟩ := r2
    · simp only [Option.toList, List.nil_append] at o2
      obtain ⟨o3, d3⟩ := o2.decref
      exact ⟨o3, fun c hc => (k2 c hc).trans (k1 c hc), d3.trans (d2.trans d1)⟩
    · simp only [Option.toList, List.cons_append, List.nil_append] at o2
      obtain ⟨o3, d3⟩ := api_new hs o2 (o2.alive_local (o := p0) (by simp)) (o2.alive_local (o := p1) (by simp))
      have k3 := api_keeps (s := s2) ks (some p0) (some p1)
      simp only
      generalize api sub (some p0) (some p1) s2 = r3 at o3 d3 k3
      obtain ⟨s3, diff⟩ := r3
      simp only at o3 d3 k3 ⊢
      have o4 : Owned A (p0 :: p1 :: (diff.toList ++ L)) s3 := o3.perm (by
        cases diff
        · simp only [Option.toList, List.nil_append]; exact List.Perm.swap _ _ _
        · simp only [Option.toList, List.cons_append, List.nil_append]
          exact ((List.Perm.swap _ _ _).trans ((List.Perm.swap _ _ _).cons _)).trans (List.Perm.swap _ _ _))
      obtain ⟨o5, d5⟩ := o4.decref
      obtain ⟨o6, d6⟩ := o5.decref
      exact ⟨o6, fun c hc => ((k3 c hc).trans (k2 c hc)).trans (k1 c hc), d6.trans (d5.trans (d3.trans (d2.trans d1)))⟩

end Ufunclab.Refs
