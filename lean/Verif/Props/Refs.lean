import Verif.Proof.Refs
/-!
# C113: references in the loops for object arrays

`A` are the addresses of all cells of object arrays.  `Owned A L` (Spec/Refs) says that every count is
right if the references `L` are counted that no cell and no variable owns.  The Python code behind
comparisons and arithmetic is arbitrary as long as it keeps the counts right (`Sound`, `SoundNew`)
and does not write to the arrays (`Keeps`).
-/
namespace Ufunclab.Refs
variable {A : List Int} {L : List Obj} {s : St}

/-- The references in the cells `outs` before the call. -/
def oldRefs (s : St) (outs : List Int) : List Obj := outs.flatMap fun a => (s.cell a).toList

/-- What is true of a call of a core function that writes the cells `outs`: no freed object is used,
other cells do not change, and either the new contents are owned by their cells and the references
that were there before are owned by nobody (`oldRefs` added to `L`), or an exception is set and nothing
is written. -/
def CallOk (A : List Int) (outs : List Int) (L : List Obj) (s s' : St) : Prop :=
  s'.dead = s.dead ∧ (∀ c ∈ A, c ∉ outs → s'.cell c = s.cell c) ∧
    (Owned A (oldRefs s outs ++ L) s' ∨ (s'.err = true ∧ Owned A L s' ∧ ∀ c ∈ A, s'.cell c = s.cell c))

theorem oldRefs_congr {s' : St} (hk : ∀ c ∈ A, s'.cell c = s.cell c) {outs : List Int} (ho : ∀ a ∈ outs, a ∈ A) : oldRefs s' outs = oldRefs s outs := by
  induction outs with
  | nil => rfl
  | cons a outs ih =>
    rw [oldRefs, oldRefs, List.flatMap_cons, List.flatMap_cons, hk a (ho a List.mem_cons_self)]
    congr 1
    exact ih fun b hb => ho b (List.mem_cons_of_mem _ hb)

/-- C113: `minmax` of objects. -/
theorem C113_minmax {lt gt : Cmp} (hA : A.Nodup) (hl : Sound A lt) (hlk : Keeps A lt) (hg : Sound A gt) (hgk : Keeps A gt) (n : Nat) (hn : 1 ≤ n)
    (p stride po so : Int) (hso : so ≠ 0) (h1 : po ∈ A) (h2 : po + so ∈ A) (h : Owned A L s)
    (hx : ∀ i < n, p + (i : Int) * stride ∈ A ∧ s.cell (p + (i : Int) * stride) ≠ none) :
    CallOk A [po, po + so] L s (minmaxObject lt gt n p stride po so s) := by
  have hp : InCell A s (s.cell p) := by
    have := hx 0 hn
    simp only [Int.natCast_zero, Int.zero_mul, Int.add_zero] at this
    exact inCell_of this.1 this.2
  obtain ⟨g, hv, he, -⟩ := minmaxLoop_ends hl hlk hg hgk (L := L) (n := n) (n - 1) 1 (s.cell p) (s.cell p) s (by omega) h hx hp hp
  rw [minmaxObject]
  generalize minmaxLoop lt gt p stride (n - 1) 1 (s.cell p) (s.cell p) s = r at g hv he
  obtain ⟨s1, _ | ⟨xmin, xmax⟩⟩ := r
  · exact ⟨g.dead, fun c hc _ => g.cells c hc, Or.inr ⟨he rfl, g.owned, g.cells⟩⟩
  · obtain ⟨⟨a, ca, rfl, hca, hsa⟩, ⟨b, cb, rfl, hcb, hsb⟩⟩ := hv _ rfl
    obtain ⟨o1, d1⟩ := g.owned.incref (g.owned.alive_cell hca ((g.cells _ hca).trans hsa))
    obtain ⟨o2, d2⟩ := o1.incref (o := b) (o1.alive_cell hcb (show s1.cell cb = _ from (g.cells _ hcb).trans hsb))
    have o3 := (o2.perm (List.Perm.swap _ _ _)).store hA h1
    have o4 := (o3.perm (List.perm_middle)).store hA h2
    refine ⟨(d2.trans d1).trans g.dead, fun c hc hn => ?_, Or.inl (o4.perm ?_)⟩
    · simp only [List.mem_cons, List.not_mem_nil, or_false, not_or] at hn
      simp only [store, if_neg hn.1, if_neg hn.2]
      exact g.cells c hc
    · have e1 : (store po (some a) (incref (some b) (incref (some a) s1))).cell (po + so) = s.cell (po + so) := by
        have : po + so ≠ po := by omega
        simp only [store, if_neg this]
        exact g.cells _ h2
      have e2 : (incref (some b) (incref (some a) s1)).cell po = s.cell po := g.cells _ h1
      rw [e1, e2]
      simp only [oldRefs, List.flatMap_cons, List.flatMap_nil, List.append_nil, List.append_assoc]
      rw [← List.append_assoc, ← List.append_assoc]
      exact List.Perm.append_right _ List.perm_append_comm

/-- C113: `min_argmin` and `max_argmax` of objects. -/
theorem C113_extreme {cmp : Cmp} (hA : A.Nodup) (hl : Sound A cmp) (hlk : Keeps A cmp) (n : Nat) (hn : 1 ≤ n) (p stride po : Int) (h1 : po ∈ A)
    (h : Owned A L s) (hx : ∀ i < n, p + (i : Int) * stride ∈ A ∧ s.cell (p + (i : Int) * stride) ≠ none) :
    CallOk A [po] L s (extremeObject cmp n p stride po s) := by
  have hp : InCell A s (s.cell p) := by
    have := hx 0 hn
    simp only [Int.natCast_zero, Int.zero_mul, Int.add_zero] at this
    exact inCell_of this.1 this.2
  obtain ⟨g, hv, he, -⟩ := extremeLoop_ends hl hlk (L := L) (n := n) (n - 1) 1 (s.cell p) s (by omega) h hx hp
  rw [extremeObject]
  generalize extremeLoop cmp p stride (n - 1) 1 (s.cell p) s = r at g hv he
  obtain ⟨s1, _ | xm⟩ := r
  · exact ⟨g.dead, fun c hc _ => g.cells c hc, Or.inr ⟨he rfl, g.owned, g.cells⟩⟩
  · obtain ⟨a, ca, rfl, hca, hsa⟩ := hv _ rfl
    obtain ⟨o1, d1⟩ := g.owned.incref (g.owned.alive_cell hca ((g.cells _ hca).trans hsa))
    have o3 := o1.store hA h1
    refine ⟨d1.trans g.dead, fun c hc hn => ?_, Or.inl ?_⟩
    · simp only [List.mem_cons, List.not_mem_nil, or_false] at hn
      simp only [store, if_neg hn]
      exact g.cells c hc
    · have e2 : (incref (some a) s1).cell po = s.cell po := g.cells _ h1
      rw [e2] at o3
      simpa [oldRefs] using o3

/-- C113: `first` of objects, for every value of `op`.  After an error the output cell is NULL; what it
held is owned by nobody. -/
theorem C113_first {cmp : Cmp} (hA : A.Nodup) (hl : Sound A cmp) (hlk : Keeps A cmp) (valid : Bool) (n : Nat) (p stride pt pw po : Int) (h1 : po ∈ A)
    (h : Owned A L s) (hx : ∀ i < n, p + (i : Int) * stride ∈ A ∧ s.cell (p + (i : Int) * stride) ≠ none)
    (ht : pt ∈ A ∧ s.cell pt ≠ none) (hw : pw ∈ A ∧ s.cell pw ≠ none) :
    CallOk A [po] L s (firstObject cmp valid n p stride pt pw po s) := by
  have key : ∀ (s1 : St) (v : Option Obj), Good A L s s1 → (v = none ∨ InCell A s v) → CallOk A [po] L s (store po v (xincref v s1)) := by
    intro s1 v g hv
    rcases hv with rfl | ⟨a, ca, rfl, hca, hsa⟩
    · have o3 := g.owned.store_null hA h1
      refine ⟨g.dead, fun c hc hn => ?_, Or.inl ?_⟩
      · simp only [List.mem_cons, List.not_mem_nil, or_false] at hn
        simp only [store, if_neg hn]
        exact g.cells c hc
      · rw [g.cells po h1] at o3
        simpa [oldRefs, xincref] using o3
    · obtain ⟨o1, d1⟩ := g.owned.incref (g.owned.alive_cell hca ((g.cells _ hca).trans hsa))
      have o3 := o1.store hA h1
      refine ⟨d1.trans g.dead, fun c hc hn => ?_, Or.inl ?_⟩
      · simp only [List.mem_cons, List.not_mem_nil, or_false] at hn
        simp only [store, if_neg hn]
        exact g.cells c hc
      · have e2 : (incref (some a) s1).cell po = s.cell po := g.cells _ h1
        rw [e2] at o3
        simpa [oldRefs, xincref] using o3
  cases valid with
  | false => exact key s (s.cell pw) (Good.refl h) (Or.inr (inCell_of hw.1 hw.2))
  | true =>
    obtain ⟨g, hv, -, -⟩ := firstLoop_ends hl hlk (L := L) (n := n) n 0 (s.cell pw) s (by omega) h hx (inCell_of ht.1 ht.2) (inCell_of hw.1 hw.2)
    refine key _ _ g ?_
    generalize firstLoop cmp p stride (s.cell pt) n 0 (s.cell pw) s = r at hv
    obtain ⟨s1, _ | o⟩ := r
    · exact Or.inl rfl
    · exact Or.inr (hv (some o) rfl)

/-- C113: `cross2` of objects; also after every error in the arithmetic nothing is leaked. -/
theorem C113_cross2 {mul sub : Num} (hA : A.Nodup) (hm : SoundNew A mul) (hs : SoundNew A sub) (km : Keeps A mul) (ks : Keeps A sub)
    (pu us pv vs po : Int) (h1 : po ∈ A) (h : Owned A L s) (hu : ∀ a ∈ [pu, pu + us, pv, pv + vs], a ∈ A ∧ s.cell a ≠ none) :
    let s' := cross2Object mul sub pu us pv vs po s
    s'.dead = s.dead ∧ (∀ c ∈ A, c ∉ [po] → s'.cell c = s.cell c) ∧
      (Owned A (oldRefs s [po] ++ L) s' ∨ (Owned A L s' ∧ ∀ c ∈ A, s'.cell c = s.cell c)) := by
  have hi : ∀ a ∈ [pu, pu + us, pv, pv + vs], InCell A s (s.cell a) := fun a ha => inCell_of (hu a ha).1 (hu a ha).2
  obtain ⟨o1, k1, d1⟩ := det2_good hm hs km ks h (hi pu (by simp)) (hi (pu + us) (by simp)) (hi pv (by simp)) (hi (pv + vs) (by simp))
  simp only [cross2Object]
  generalize det2 mul sub (s.cell pu) (s.cell (pu + us)) (s.cell pv) (s.cell (pv + vs)) s = r at o1 k1 d1
  obtain ⟨s1, _ | d⟩ := r
  · exact ⟨d1, fun c hc _ => k1 c hc, Or.inr ⟨o1, k1⟩⟩
  · have o2 := Owned.store hA h1 (v := d) (L := L) o1
    refine ⟨d1, fun c hc hn => ?_, Or.inl ?_⟩
    · simp only [List.mem_cons, List.not_mem_nil, or_false] at hn
      simp only [store, if_neg hn]
      exact k1 c hc
    · rw [k1 po h1] at o2
      simpa [oldRefs] using o2

/-- C113: `cross3` of objects. -/
theorem C113_cross3 {mul sub : Num} (hA : A.Nodup) (hm : SoundNew A mul) (hs : SoundNew A sub) (km : Keeps A mul) (ks : Keeps A sub)
    (pu us pv vs po os : Int) (hos : os ≠ 0) (ho : ∀ a ∈ [po, po + os, po + 2 * os], a ∈ A) (h : Owned A L s)
    (hu : ∀ a ∈ [pu, pu + us, pu + 2 * us, pv, pv + vs, pv + 2 * vs], a ∈ A ∧ s.cell a ≠ none) :
    let s' := cross3Object mul sub pu us pv vs po os s
    s'.dead = s.dead ∧ (∀ c ∈ A, c ∉ [po, po + os, po + 2 * os] → s'.cell c = s.cell c) ∧
      (Owned A (oldRefs s [po, po + os, po + 2 * os] ++ L) s' ∨ (Owned A L s' ∧ ∀ c ∈ A, s'.cell c = s.cell c)) := by
  have hi : ∀ a ∈ [pu, pu + us, pu + 2 * us, pv, pv + vs, pv + 2 * vs], InCell A s (s.cell a) := fun a ha => inCell_of (hu a ha).1 (hu a ha).2
  have i0 := hi pu (by simp)
  have i1 := hi (pu + us) (by simp)
  have i2 := hi (pu + 2 * us) (by simp)
  have j0 := hi pv (by simp)
  have j1 := hi (pv + vs) (by simp)
  have j2 := hi (pv + 2 * vs) (by simp)
  obtain ⟨o1, k1, d1⟩ := det2_good hm hs km ks h i1 i2 j1 j2
  simp only [cross3Object]
  generalize det2 mul sub (s.cell (pu + us)) (s.cell (pu + 2 * us)) (s.cell (pv + vs)) (s.cell (pv + 2 * vs)) s = r1 at o1 k1 d1
  obtain ⟨s1, _ | out0⟩ := r1
  · exact ⟨d1, fun c hc _ => k1 c hc, Or.inr ⟨o1, k1⟩⟩
  simp only [Option.toList, List.cons_append, List.nil_append] at o1
  obtain ⟨o2, k2, d2⟩ := det2_good hm hs km ks o1 (i2.mono k1) (i0.mono k1) (j2.mono k1) (j0.mono k1)
  simp only
  generalize det2 mul sub (s.cell (pu + 2 * us)) (s.cell pu) (s.cell (pv + 2 * vs)) (s.cell pv) s1 = r2 at o2 k2 d2
  have k12 : ∀ c ∈ A, r2.1.cell c = s.cell c := fun c hc => (k2 c hc).trans (k1 c hc)
  obtain ⟨s2, _ | out1⟩ := r2
  · obtain ⟨o3, d3⟩ := Owned.decref (o := out0) (L := L) o2
    exact ⟨d3.trans (d2.trans d1), fun c hc _ => k12 c hc, Or.inr ⟨o3, k12⟩⟩
  simp only [Option.toList, List.cons_append, List.nil_append] at o2
  obtain ⟨o3, k3, d3⟩ := det2_good hm hs km ks o2 (i0.mono k12) (i1.mono k12) (j0.mono k12) (j1.mono k12)
  simp only
  generalize det2 mul sub (s.cell pu) (s.cell (pu + us)) (s.cell pv) (s.cell (pv + vs)) s2 = r3 at o3 k3 d3
  have k123 : ∀ c ∈ A, r3.1.cell c = s.cell c := fun c hc => (k3 c hc).trans (k12 c hc)
  have d123 : r3.1.dead = s.dead := d3.trans (d2.trans d1)
  obtain ⟨s3, _ | out2⟩ := r3
  · obtain ⟨o4, d4⟩ := Owned.decref (o := out0) (L := out1 :: L) (o3.perm (List.Perm.swap _ _ _))
    obtain ⟨o5, d5⟩ := o4.decref
    exact ⟨d5.trans (d4.trans d123), fun c hc _ => k123 c hc, Or.inr ⟨o5, k123⟩⟩
  simp only [Option.toList, List.cons_append, List.nil_append] at o3
  have m0 := ho po (by simp)
  have m1 := ho (po + os) (by simp)
  have m2 := ho (po + 2 * os) (by simp)
  have n1 : po + os ≠ po := by omega
  have n2 : po + 2 * os ≠ po := by omega
  have n3 : po + 2 * os ≠ po + os := by omega
  have o4 := Owned.store hA m0 (v := out0) (L := out1 :: out2 :: L) (o3.congr fun o => by simp only [List.count_cons]; omega)
  have o5 := Owned.store hA m1 (v := out1) (o4.congr (L' := out1 :: out2 :: ((s3.cell po).toList ++ L)) fun o => by
    simp only [List.count_cons, List.count_append]; omega)
  have o6 := Owned.store hA m2 (v := out2) (o5.congr (L' := out2 :: (((store po (some out0) s3).cell (po + os)).toList ++ ((s3.cell po).toList ++ L))) fun o => by
    simp only [List.count_cons, List.count_append]; omega)
  refine ⟨d123, fun c hc hn => ?_, Or.inl (o6.congr fun o => ?_)⟩
  · simp only [List.mem_cons, List.not_mem_nil, or_false, not_or] at hn
    simp only [store, if_neg hn.1, if_neg hn.2.1, if_neg hn.2.2]
    exact k123 c hc
  · have e2 : (store (po + os) (some out1) (store po (some out0) s3)).cell (po + 2 * os) = s.cell (po + 2 * os) := by
      simp only [store, if_neg n3, if_neg n2]; exact k123 _ m2
    have e1 : (store po (some out0) s3).cell (po + os) = s.cell (po + os) := by
      simp only [store, if_neg n1]; exact k123 _ m1
    have e0 : s3.cell po = s.cell po := k123 _ m0
    rw [e2, e1, e0]
    simp only [oldRefs, List.flatMap_cons, List.flatMap_nil, List.append_nil, List.count_append]
    omega

theorem minmax_of_peak {lt gt : Cmp} {sub : Num} (hl : Sound A lt) (hlk : Keeps A lt) (hg : Sound A gt) (hgk : Keeps A gt) (hs : SoundNew A sub)
    (n : Nat) (hn : 1 ≤ n) (p stride po : Int) (h : Owned A L s)
    (hx : ∀ i < n, p + (i : Int) * stride ∈ A ∧ s.cell (p + (i : Int) * stride) ≠ none) :
    ∃ (s1 : St) (d : Option Obj), Owned A (d.toList ++ L) s1 ∧ s1.dead = s.dead ∧ (Keeps A sub → ∀ c ∈ A, s1.cell c = s.cell c) ∧
      (d = none → s1.err = true) ∧ (s.err = false → s1.pend = s.pend ∧ (d ≠ none → s1.err = false)) ∧
      peakObject lt gt sub n p stride po s = match d with
        | none => (s1, false)
        | some d => (store po (some d) s1, true) := by
  have hp : InCell A s (s.cell p) := by
    have := hx 0 hn
    simp only [Int.natCast_zero, Int.zero_mul, Int.add_zero] at this
    exact inCell_of this.1 this.2
  obtain ⟨g, hv, he, hpe⟩ := minmaxLoop_ends hl hlk hg hgk (L := L) (n := n) (n - 1) 1 (s.cell p) (s.cell p) s (by omega) h hx hp hp
  rw [peakObject]
  generalize minmaxLoop lt gt p stride (n - 1) 1 (s.cell p) (s.cell p) s = r at g hv he hpe
  obtain ⟨s1, _ | ⟨xmin, xmax⟩⟩ := r
  · exact ⟨s1, none, g.owned, g.dead, fun _ => g.cells, fun _ => he rfl, fun h0 => ⟨(hpe h0).1, fun hn => absurd rfl hn⟩, rfl⟩
  · obtain ⟨⟨a, ca, rfl, hca, hsa⟩, ⟨b, cb, rfl, hcb, hsb⟩⟩ := hv _ rfl
    obtain ⟨o1, d1⟩ := g.owned.incref (g.owned.alive_cell hca ((g.cells _ hca).trans hsa))
    obtain ⟨o2, d2⟩ := o1.incref (o := b) (o1.alive_cell hcb (show s1.cell cb = _ from (g.cells _ hcb).trans hsb))
    obtain ⟨o3, d3⟩ := api_new hs o2 (a := b) (b := a) (o2.alive_local (by simp)) (o2.alive_local (by simp))
    have k3 : Keeps A sub → ∀ c ∈ A, (api sub (some b) (some a) (incref (some b) (incref (some a) s1))).1.cell c = s.cell c :=
      fun ks c hc => (api_keeps ks _ _ c hc).trans (g.cells c hc)
    have p3 : s.err = false → _ := fun h0 => api_pend hs b a (s := incref (some b) (incref (some a) s1)) (show s1.err = false from (hpe h0).2 (by simp))
    have e3 : (api sub (some b) (some a) (incref (some b) (incref (some a) s1))).2 = none →
        (api sub (some b) (some a) (incref (some b) (incref (some a) s1))).1.err = true := hs.error _ b a
    simp only
    generalize api sub (some b) (some a) (incref (some b) (incref (some a) s1)) = r3 at o3 d3 k3 p3 e3
    obtain ⟨s3, diff⟩ := r3
    simp only at o3 d3 k3 p3 e3 ⊢
    obtain ⟨o4, d4⟩ := Owned.decref (o := a) (L := b :: (diff.toList ++ L)) (o3.congr fun o => by
      simp only [List.count_cons, List.count_append]; omega)
    obtain ⟨o5, d5⟩ := o4.decref
    refine ⟨decref b (decref a s3), diff, o5, d5.trans (d4.trans (d3.trans (d2.trans (d1.trans g.dead)))), k3, ?_, ?_, ?_⟩
    · rintro rfl; exact e3 rfl
    · intro h0
      exact ⟨((p3 h0).1).trans (hpe h0).1, (p3 h0).2.1⟩
    · cases diff <;> rfl

/-- C113: one item of `peaktopeak` of objects. -/
theorem C113_peaktopeak {lt gt : Cmp} {sub : Num} (hA : A.Nodup) (hl : Sound A lt) (hlk : Keeps A lt) (hg : Sound A gt) (hgk : Keeps A gt)
    (hs : SoundNew A sub) (ks : Keeps A sub) (n : Nat) (hn : 1 ≤ n) (p stride po : Int) (h1 : po ∈ A) (h : Owned A L s)
    (hx : ∀ i < n, p + (i : Int) * stride ∈ A ∧ s.cell (p + (i : Int) * stride) ≠ none) :
    CallOk A [po] L s (peakObject lt gt sub n p stride po s).1 := by
  obtain ⟨s1, d, o, hd, hk, he, -, e⟩ := minmax_of_peak hl hlk hg hgk hs n hn p stride po h hx
  rw [e]
  cases d with
  | none => exact ⟨hd, fun c hc _ => hk ks c hc, Or.inr ⟨he rfl, o, hk ks⟩⟩
  | some d =>
    have o2 := Owned.store hA h1 (v := d) (L := L) o
    refine ⟨hd, fun c hc hn => ?_, Or.inl ?_⟩
    · simp only [List.mem_cons, List.not_mem_nil, or_false] at hn
      simp only [store, if_neg hn]
      exact hk ks c hc
    · rw [hk ks po h1] at o2
      simpa [oldRefs] using o2

/-- C113: `peaktopeak` holds references to the extreme elements during the subtraction: also if the code of
`-` changes the arrays, no freed object is used. -/
theorem C113_peaktopeak_holds {lt gt : Cmp} {sub : Num} (hl : Sound A lt) (hlk : Keeps A lt) (hg : Sound A gt) (hgk : Keeps A gt)
    (hs : SoundNew A sub) (n : Nat) (hn : 1 ≤ n) (p stride po : Int) (h : Owned A L s)
    (hx : ∀ i < n, p + (i : Int) * stride ∈ A ∧ s.cell (p + (i : Int) * stride) ≠ none) :
    (peakObject lt gt sub n p stride po s).1.dead = s.dead := by
  obtain ⟨s1, d, -, hd, -, -, -, e⟩ := minmax_of_peak hl hlk hg hgk hs n hn p stride po h hx
  rw [e]; cases d <;> exact hd

/-- C113: the loop of `peaktopeak` stops at the first error: no function of the C API is called with an
exception set, and no freed object is used, for any number of items and any layout. -/
theorem C113_peaktopeak_stops {lt gt : Cmp} {sub : Num} (hA : A.Nodup) (hl : Sound A lt) (hlk : Keeps A lt) (hg : Sound A gt) (hgk : Keeps A gt)
    (hs : SoundNew A sub) (ks : Keeps A sub) (n : Nat) (hn : 1 ≤ n) (stride step ostep : Int) : ∀ (cnt : Nat) (p po : Int) (L : List Obj) (s : St),
    (∀ j < cnt, po + (j : Int) * ostep ∈ A) → Owned A L s → s.err = false →
    (∀ j < cnt, ∀ i < n, p + (j : Int) * step + (i : Int) * stride ∈ A ∧ s.cell (p + (j : Int) * step + (i : Int) * stride) ≠ none) →
    (peakLoop lt gt sub n stride step ostep cnt p po s).dead = s.dead ∧ (peakLoop lt gt sub n stride step ostep cnt p po s).pend = s.pend := by
  intro cnt
  induction cnt with
  | zero => intro p po L s _ _ _ _; exact ⟨rfl, rfl⟩
  | succ m ih =>
    intro p po L s ho h he hx
    have hx0 := hx 0 (by omega)
    simp only [Int.natCast_zero, Int.zero_mul, Int.add_zero] at hx0
    obtain ⟨s1, d, o, hd, hk, -, hp, e⟩ := minmax_of_peak hl hlk hg hgk hs n hn p stride po h hx0
    rw [peakLoop, e]
    cases d with
    | none => exact ⟨hd, (hp he).1⟩
    | some d =>
      have m0 : po ∈ A := by simpa using ho 0 (by omega)
      have o2 := Owned.store hA m0 (v := d) (L := L) o
      obtain ⟨q1, q2⟩ := ih (p + step) (po + ostep) _ (store po (some d) s1)
        (fun j hj => by
          have := ho (j + 1) (by omega)
          rw [show po + ((j + 1 : Nat) : Int) * ostep = po + ostep + (j : Int) * ostep by push_cast; rw [Int.add_mul]; omega] at this
          exact this) o2 ((hp he).2 (by simp))
        (fun j hj i hi => by
          have := hx (j + 1) (by omega) i hi
          rw [show p + ((j + 1 : Nat) : Int) * step + (i : Int) * stride = p + step + (j : Int) * step + (i : Int) * stride by
            push_cast; rw [Int.add_mul]; omega] at this
          refine ⟨this.1, ?_⟩
          simp only [store]
          split_ifs
          · simp
          · rw [hk ks _ this.1]; exact this.2)
      exact ⟨q1.trans hd, q2.trans (hp he).1⟩

/-- A core function, called for fresh (NULL) output cells. -/
def FreshOk (A ins outs : List Int) (f : St → St) : Prop :=
  ∀ L s, Owned A L s → (∀ c ∈ ins, s.cell c ≠ none) → (∀ c ∈ outs, s.cell c = none) →
    Owned A L (f s) ∧ (f s).dead = s.dead ∧ ∀ c ∈ A, c ∉ outs → (f s).cell c = s.cell c

theorem oldRefs_null {outs : List Int} (h : ∀ c ∈ outs, s.cell c = none) : oldRefs s outs = [] := by
  induction outs with
  | nil => rfl
  | cons a outs ih =>
    rw [oldRefs, List.flatMap_cons, h a List.mem_cons_self]
    exact ih fun b hb => h b (List.mem_cons_of_mem _ hb)

theorem CallOk.fresh {outs : List Int} {s' : St} (h : CallOk A outs L s s') (hf : ∀ c ∈ outs, s.cell c = none) :
    Owned A L s' ∧ s'.dead = s.dead ∧ ∀ c ∈ A, c ∉ outs → s'.cell c = s.cell c := by
  obtain ⟨h1, h2, h3⟩ := h
  refine ⟨?_, h1, h2⟩
  rcases h3 with h3 | ⟨-, h3, -⟩
  · rwa [oldRefs_null hf] at h3
  · exact h3

/-- C113: with output arrays allocated by NumPy (cells NULL) a generated loop over any number of items
leaves every count right and uses no freed object. -/
theorem C113_items (n : Nat) (ins outs : Nat → List Int) (core : Nat → St → St) (hc : ∀ i < n, FreshOk A (ins i) (outs i) (core i))
    (hi : ∀ i < n, ∀ c ∈ ins i, c ∈ A) (ho : ∀ i < n, ∀ c ∈ outs i, c ∈ A) (hio : ∀ i < n, ∀ j < n, ∀ c ∈ ins i, c ∉ outs j)
    (hoo : ∀ i < n, ∀ j < n, i ≠ j → ∀ c ∈ outs i, c ∉ outs j) (h : Owned A L s) (hin : ∀ i < n, ∀ c ∈ ins i, s.cell c ≠ none)
    (hout : ∀ i < n, ∀ c ∈ outs i, s.cell c = none) :
    Owned A L (itemLoop core n 0 s) ∧ (itemLoop core n 0 s).dead = s.dead := by
  have main : ∀ cnt k s, k + cnt ≤ n → Owned A L s → (∀ i < n, ∀ c ∈ ins i, s.cell c ≠ none) → (∀ i < n, k ≤ i → ∀ c ∈ outs i, s.cell c = none) →
      Owned A L (itemLoop core cnt k s) ∧ (itemLoop core cnt k s).dead = s.dead := by
    intro cnt
    induction cnt with
    | zero => intro k s _ h _ _; exact ⟨h, rfl⟩
    | succ m ih =>
      intro k s hk h hin hout
      obtain ⟨o1, d1, k1⟩ := hc k (by omega) L s h (hin k (by omega)) (hout k (by omega) (Nat.le_refl k))
      obtain ⟨o2, d2⟩ := ih (k + 1) (core k s) (by omega) o1
        (fun i hi' c hcc => by rw [k1 c (hi i hi' c hcc) (hio i hi' k (by omega) c hcc)]; exact hin i hi' c hcc)
        (fun i hi' hki c hcc => by rw [k1 c (ho i hi' c hcc) (hoo i hi' k (by omega) (by omega) c hcc)]; exact hout i hi' (by omega) c hcc)
      exact ⟨o2, d2.trans d1⟩
  exact main n 0 s (by omega) h hin fun i hi' _ => hout i hi'

/-- C113: the core functions meet the condition of `C113_items`. -/
theorem C113_fresh {lt gt : Cmp} {mul sub : Num} (hA : A.Nodup) (hl : Sound A lt) (hlk : Keeps A lt) (hg : Sound A gt) (hgk : Keeps A gt)
    (hm : SoundNew A mul) (hs : SoundNew A sub) (km : Keeps A mul) (ks : Keeps A sub) (n : Nat) (hn : 1 ≤ n)
    (p stride po so pt pw pv vs : Int) (hso : so ≠ 0) (hp : ∀ i < n, p + (i : Int) * stride ∈ A) (h0 : po ∈ A) (h1 : po + so ∈ A) (h2 : po + 2 * so ∈ A)
    (ht : pt ∈ A) (hw : pw ∈ A) (hu : ∀ a ∈ [p, p + stride, p + 2 * stride, pv, pv + vs, pv + 2 * vs], a ∈ A) (valid : Bool) :
    FreshOk A ((List.range n).map fun i : Nat => p + (i : Int) * stride) [po, po + so] (minmaxObject lt gt n p stride po so) ∧
    FreshOk A ((List.range n).map fun i : Nat => p + (i : Int) * stride) [po] (extremeObject lt n p stride po) ∧
    FreshOk A (pt :: pw :: (List.range n).map fun i : Nat => p + (i : Int) * stride) [po] (firstObject lt valid n p stride pt pw po) ∧
    FreshOk A [p, p + stride, pv, pv + vs] [po] (cross2Object mul sub p stride pv vs po) ∧
    FreshOk A [p, p + stride, p + 2 * stride, pv, pv + vs, pv + 2 * vs] [po, po + so, po + 2 * so] (cross3Object mul sub p stride pv vs po so) := by
  have el : ∀ (s : St) (l : List Int), (∀ c ∈ l ++ (List.range n).map fun i : Nat => p + (i : Int) * stride, s.cell c ≠ none) →
      ∀ i < n, p + (i : Int) * stride ∈ A ∧ s.cell (p + (i : Int) * stride) ≠ none := by
    intro s l hh i hi
    exact ⟨hp i hi, hh _ (List.mem_append_right _ (List.mem_map.2 ⟨i, List.mem_range.2 hi, rfl⟩))⟩
  refine ⟨fun L s h hin hout => ?_, fun L s h hin hout => ?_, fun L s h hin hout => ?_, fun L s h hin hout => ?_, fun L s h hin hout => ?_⟩
  · exact (C113_minmax hA hl hlk hg hgk n hn p stride po so hso h0 h1 h (el s [] hin)).fresh hout
  · exact (C113_extreme hA hl hlk n hn p stride po h0 h (el s [] hin)).fresh hout
  · exact (C113_first hA hl hlk valid n p stride pt pw po h0 h (el s [pt, pw] hin) ⟨ht, hin pt (by simp)⟩ ⟨hw, hin pw (by simp)⟩).fresh hout
  · obtain ⟨q1, q2, q3⟩ := C113_cross2 hA hm hs km ks p stride pv vs po h0 h (fun a ha => ⟨hu a (by
      simp only [List.mem_cons, List.not_mem_nil, or_false] at ha ⊢; tauto), hin a ha⟩)
    refine ⟨?_, q1, q2⟩
    rcases q3 with q3 | q3
    · rwa [oldRefs_null hout] at q3
    · exact q3.1
  · obtain ⟨q1, q2, q3⟩ := C113_cross3 hA hm hs km ks p stride pv vs po so hso (by
      simp only [List.mem_cons, List.not_mem_nil, or_false]; rintro a (rfl | rfl | rfl) <;> assumption) h (fun a ha => ⟨hu a ha, hin a ha⟩)
    refine ⟨?_, q1, q2⟩
    rcases q3 with q3 | q3
    · rwa [oldRefs_null hout] at q3
    · exact q3.1

/-! ### Where the claim fails -/

/-- Comparison of small integers, say: `a < b`, without side effects. -/
def plain : Cmp := fun a b s => (s, some (decide (a < b)))

theorem plain_sound (A : List Int) : Sound A plain ∧ Keeps A plain :=
  ⟨⟨fun _ _ _ _ h => h, fun _ _ _ => rfl, fun _ _ _ => rfl, fun _ _ _ h => by simp [plain] at h, fun _ _ _ _ => rfl⟩, fun _ _ _ _ _ => rfl⟩

/-- Objects 1 and 2 in the input (cells 0 and 8), object 3 in the output cell 100; nobody else refers to them. -/
def leakState : St where
  rc o := if o = 1 ∨ o = 2 ∨ o = 3 then 1 else 0
  ext _ := 0
  cell a := if a = 0 then some 1 else if a = 8 then some 2 else if a = 100 then some 3 else none
  err := false
  dead := false
  pend := false

theorem leakState_owned : Owned [0, 8, 100] [] leakState := by
  refine ⟨fun _ => Int.le_refl 0, fun o => ?_⟩
  simp only [leakState, holders, List.countP_cons, List.countP_nil, List.count_nil]
  by_cases h1 : o = 1
  · subst h1; decide
  by_cases h2 : o = 2
  · subst h2; decide
  by_cases h3 : o = 3
  · subst h3; decide
  simp [h1, h2, h3, Ne.symm h1, Ne.symm h2, Ne.symm h3]

/-- C113 is violated when the caller passes an output array that holds objects: the loops overwrite the
cell without releasing the object.  `min_argmin([1, 2], out=[3])`: afterwards object 3 has a reference
but no owner, so it is never freed. -/
theorem C113_out_leak_violated : ∃ (A : List Int) (s : St), Owned A [] s ∧ s.cell 100 = some 3 ∧
    let s' := extremeObject plain 2 0 8 100 s
    s'.rc 3 = 1 ∧ s'.ext 3 = 0 ∧ holders A s'.cell 3 = 0 ∧ s'.cell 100 = some 1 := by
  refine ⟨[0, 8, 100], leakState, leakState_owned, rfl, ?_⟩
  decide

/-- A comparison that always raises an exception. -/
def raising : Cmp := fun _ _ s => ({ s with err := true }, none)

theorem raising_sound (A : List Int) : Sound A raising ∧ Keeps A raising :=
  ⟨⟨fun _ _ _ _ h => h, fun _ _ _ => rfl, fun _ _ _ => rfl, fun _ _ _ _ => rfl, fun _ _ _ h => absurd rfl h⟩, fun _ _ _ _ _ => rfl⟩

/-- C113 is violated by the generated loops: after an error in one item the next items call the comparison
with the exception still set (two items of `min_argmin`, both the row above). -/
theorem C113_pending_violated : ∃ s : St, Owned [0, 8, 100] [] s ∧ s.err = false ∧ s.pend = false ∧
    (itemLoop (fun _ => extremeObject raising 2 0 8 100) 2 0 s).pend = true :=
  ⟨leakState, leakState_owned, rfl, rfl, by decide⟩

/-- The statement `x[1] = v` of a Python program: the cell at `a` gets a reference to `v`, the old one is released. -/
def assign (a : Int) (v : Obj) (s : St) : St :=
  { s with cell := fun b => if b = a then some v else s.cell b,
           rc := fun q => s.rc q + (if some v = some q then 1 else 0) - (if s.cell a = some q then 1 else 0) }

/-- A `<` that stores `None` (object 9) into `x[1]` when it is called for object 2. -/
def meddling : Cmp := fun a _ s => if a = 2 then (assign 8 9 s, some false) else (s, some true)

theorem meddling_sound {A : List Int} (hA : A.Nodup) (h8 : (8 : Int) ∈ A) : Sound A meddling := by
  refine ⟨fun L s a b h => ?_, fun s a b => ?_, fun s a b => ?_, fun s a b hn => ?_, fun s a b _ => ?_⟩
  · by_cases e : a = 2
    · simp only [meddling, e, if_true]
      refine ⟨h.1, fun o => ?_⟩
      have := holders_store hA h8 s.cell (some 9) o
      show s.rc o + (if some 9 = some o then 1 else 0) - (if s.cell 8 = some o then 1 else 0) = s.ext o + holders A (fun b => if b = 8 then some 9 else s.cell b) o + _
      rw [h.2 o]; omega
    · simp only [meddling, e, if_false]; exact h
  all_goals by_cases e : a = 2 <;> simp_all [meddling, assign]

/-- Objects 1, 3, 2 in the input (cells 0, 8, 16), NULL in the output cell 100, one reference to object 9 elsewhere. -/
def meddleState : St where
  rc o := if o = 1 ∨ o = 2 ∨ o = 3 ∨ o = 9 then 1 else 0
  ext o := if o = 9 then 1 else 0
  cell a := if a = 0 then some 1 else if a = 8 then some 3 else if a = 16 then some 2 else none
  err := false
  dead := false
  pend := false

/-- C113 without the condition `Keeps` is violated: the loops keep borrowed references in local variables.  If a comparison
replaces the element found so far, the object is freed and the loop returns it. -/
theorem C113_borrowed_violated : ∃ (A : List Int) (cmp : Cmp) (s : St), A.Nodup ∧ Sound A cmp ∧ Owned A [] s ∧ s.dead = false ∧
    s.cell 100 = none ∧ (extremeObject cmp 3 0 8 100 s).dead = true ∧ (extremeObject cmp 3 0 8 100 s).cell 100 = some 3 := by
  refine ⟨[0, 8, 16, 100], meddling, meddleState, by decide, meddling_sound (by decide) (by decide), ?_, rfl, rfl, by decide, by decide⟩
  refine ⟨fun o => ?_, fun o => ?_⟩
  · show (0 : Int) ≤ if o = 9 then 1 else 0
    split_ifs <;> decide
  · simp only [meddleState, holders, List.countP_cons, List.countP_nil, List.count_nil]
    by_cases h1 : o = 1
    · subst h1; decide
    by_cases h2 : o = 2
    · subst h2; decide
    by_cases h3 : o = 3
    · subst h3; decide
    by_cases h9 : o = 9
    · subst h9; decide
    simp [h1, h2, h3, h9, Ne.symm h1, Ne.symm h2, Ne.symm h3]

/-- The hypotheses hold: `min_argmin` of the two objects with a fresh output. -/
example : Owned [0, 8, 16, 100] [] (extremeObject plain 3 0 8 100 meddleState) := by
  have h : Owned [0, 8, 16, 100] [] meddleState := by
    refine ⟨fun o => ?_, fun o => ?_⟩
    · show (0 : Int) ≤ if o = 9 then 1 else 0
      split_ifs <;> decide
    · simp only [meddleState, holders, List.countP_cons, List.countP_nil, List.count_nil]
      by_cases h1 : o = 1
      · subst h1; decide
      by_cases h2 : o = 2
      · subst h2; decide
      by_cases h3 : o = 3
      · subst h3; decide
      by_cases h9 : o = 9
      · subst h9; decide
      simp [h1, h2, h3, h9, Ne.symm h1, Ne.symm h2, Ne.symm h3]
  refine ((C113_extreme (by decide) (plain_sound _).1 (plain_sound _).2 3 (by decide) 0 8 100 (by decide) h ?_).fresh ?_).1
  · intro i hi
    match i, hi with
    | 0, _ => exact ⟨by decide, by decide⟩
    | 1, _ => exact ⟨by decide, by decide⟩
    | 2, _ => exact ⟨by decide, by decide⟩
  · intro c hc
    simp only [List.mem_cons, List.not_mem_nil, or_false] at hc
    subst hc; rfl

/-- An operation that returns a new reference to object `a` (as `a - 0` does for some types). -/
def first : Num := fun a _ s => ({ s with rc := fun q => if q = a then s.rc q + 1 else s.rc q }, some a)

/-- The conditions on arithmetic operations can be met. -/
example (A : List Int) : SoundNew A first ∧ Keeps A first := by
  refine ⟨⟨fun L s a b h => ⟨h.1, fun o => ?_⟩, fun _ _ _ => rfl, fun _ _ _ => rfl, fun _ _ _ h => by simp [first] at h, fun _ _ _ _ => rfl⟩, fun _ _ _ _ _ => rfl⟩
  show (if o = a then s.rc o + 1 else s.rc o) = s.ext o + holders A s.cell o + _
  by_cases e : o = a
  · subst e; rw [if_pos rfl, h.2 o, List.count_cons_self]; push_cast; omega
  · rw [if_neg e, h.2 o, List.count_cons_of_ne (Ne.symm e)]

end Ufunclab.Refs
