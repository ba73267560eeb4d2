import Verif.Proof.Searchsorted
/-! # Properties C01-C04: searchsortedl / searchsortedr -/
namespace Ufunclab.Searchsorted
open Spec
variable {α : Type _}

/-- C01, general form: it is enough that the elements `< v` form a prefix of
the array (this includes float arrays with NaNs sorted to the end). -/
theorem C01_searchsortedl_partitioned (lt : α → α → Bool) (m : Mem α) (a step : Int) (n : Nat)
    (v : α) (hp : (elems m a step n).Pairwise (fun x y => lt y v = true → lt x v = true)) :
    (searchsortedl lt m a n step v).1 = (elems m a step n).countP (fun x => lt x v) := by
  have hmono : ∀ i j, i ≤ j → j < n → lt (get m a step j) v = true →
      lt (get m a step i) v = true := by
    intro i j hij hj h
    rcases Nat.lt_or_eq_of_le hij with h' | rfl
    · have := (List.pairwise_iff_getElem.1 hp) i j (by simp; omega) (by simp; omega) h'
      simp only [elems_getElem] at this
      exact this h
    · exact h
  obtain ⟨h1, h2, h3⟩ := loopL_spec lt (get m a step) v 0 n n (by omega) (by omega) hmono
    (by omega) (by omega)
  rw [elems, List.countP_map, countP_range_prefix _ n (loopL lt (get m a step) v 0 n).1 h1]
  · rfl
  · exact h2
  · exact h3

/-- C01: on a sorted array, `searchsortedl` is the number of elements `< v`. -/
theorem C01_searchsortedl_count (lt : α → α → Bool) (hlt : StrictWeak lt) (m : Mem α)
    (a step : Int) (n : Nat) (v : α) (hs : Sorted lt (elems m a step n)) :
    (searchsortedl lt m a n step v).1 = (elems m a step n).countP (fun x => lt x v) := by
  apply C01_searchsortedl_partitioned
  refine List.Pairwise.imp ?_ hs
  intro x y hxy hyv
  cases hx : lt x v with
  | true => rfl
  | false => exact absurd (hlt.negTrans y x v hxy hx) (by simp [hyv])

/-- C02, general form: it is enough that the elements `> v` form a suffix. -/
theorem C02_searchsortedr_partitioned (lt : α → α → Bool) (m : Mem α) (a step : Int) (n : Nat)
    (v : α) (hp : (elems m a step n).Pairwise (fun x y => lt v x = true → lt v y = true)) :
    (searchsortedr lt m a n step v).1 = (elems m a step n).countP (fun x => !lt v x) := by
  have hmono : ∀ i j, i ≤ j → j < n → lt v (get m a step i) = true →
      lt v (get m a step j) = true := by
    intro i j hij hj h
    rcases Nat.lt_or_eq_of_le hij with h' | rfl
    · have := (List.pairwise_iff_getElem.1 hp) i j (by simp; omega) (by simp; omega) h'
      simp only [elems_getElem] at this
      exact this h
    · exact h
  obtain ⟨h1, h2, h3⟩ := loopR_spec lt (get m a step) v 0 n n (by omega) (by omega) hmono
    (by omega) (by omega)
  rw [elems, List.countP_map, countP_range_prefix _ n (loopR lt (get m a step) v 0 n).1 h1]
  · rfl
  · intro i hi; simp [h2 i hi]
  · intro i hi hin; simp [h3 i hi hin]

/-- C02: on a sorted array, `searchsortedr` is the number of elements `<= v`
(not `> v`). -/
theorem C02_searchsortedr_count (lt : α → α → Bool) (hlt : StrictWeak lt) (m : Mem α)
    (a step : Int) (n : Nat) (v : α) (hs : Sorted lt (elems m a step n)) :
    (searchsortedr lt m a n step v).1 = (elems m a step n).countP (fun x => !lt v x) := by
  apply C02_searchsortedr_partitioned
  refine List.Pairwise.imp ?_ hs
  intro x y hxy hvx
  cases hy : lt v y with
  | true => rfl
  | false => exact absurd (hlt.negTrans v y x hy hxy) (by simp [hvx])

theorem sorted_insert_of (lt : α → α → Bool) (xs : List α) (r : Nat) (v : α)
    (hs : Sorted lt xs) (h1 : ∀ x ∈ xs.take r, lt v x = false)
    (h2 : ∀ x ∈ xs.drop r, lt x v = false) : Sorted lt (insertAt r v xs) := by
  unfold Sorted insertAt at *
  rw [← List.take_append_drop r xs] at hs
  rw [List.pairwise_append] at hs ⊢
  obtain ⟨ha, hb, hc⟩ := hs
  refine ⟨ha, List.pairwise_cons.2 ⟨h2, hb⟩, ?_⟩
  intro x hx y hy
  rcases List.mem_cons.1 hy with rfl | hy
  · exact h1 x hx
  · exact hc x hx y hy

/-- C01: inserting `v` at the returned index keeps the array sorted, and the
index is the leftmost such place (everything before it is `< v`). -/
theorem C01_searchsortedl_insert (lt : α → α → Bool) (hlt : StrictWeak lt) (m : Mem α)
    (a step : Int) (n : Nat) (v : α) (hs : Sorted lt (elems m a step n)) :
    let r := (searchsortedl lt m a n step v).1
    r ≤ n ∧ Sorted lt (insertAt r v (elems m a step n)) ∧
    (∀ x ∈ (elems m a step n).take r, lt x v = true) ∧
    (∀ x ∈ (elems m a step n).drop r, lt x v = false) := by
  have hmono : ∀ i j, i ≤ j → j < n → lt (get m a step j) v = true →
      lt (get m a step i) v = true := by
    intro i j hij hj h
    rcases Nat.lt_or_eq_of_le hij with h' | rfl
    · have := (List.pairwise_iff_getElem.1 hs) i j (by simp; omega) (by simp; omega) h'
      simp only [elems_getElem] at this
      cases hx : lt (get m a step i) v with
      | true => rfl
      | false => exact absurd (hlt.negTrans _ _ v this hx) (by simp [h])
    · exact h
  obtain ⟨h1, h2, h3⟩ := loopL_spec lt (get m a step) v 0 n n (by omega) (by omega) hmono
    (by omega) (by omega)
  have hE : (searchsortedl lt m a n step v).1 = (loopL lt (get m a step) v 0 n).1 := rfl
  have ht : ∀ x ∈ (elems m a step n).take (searchsortedl lt m a n step v).1, lt x v = true := by
    intro x hx
    rw [List.mem_take_iff_getElem] at hx
    obtain ⟨i, hi, rfl⟩ := hx
    rw [elems_getElem]
    exact h2 i (by rw [hE] at hi; omega)
  have hd : ∀ x ∈ (elems m a step n).drop (searchsortedl lt m a n step v).1, lt x v = false := by
    intro x hx
    rw [List.mem_drop_iff_getElem] at hx
    obtain ⟨i, hi, rfl⟩ := hx
    rw [elems_getElem]
    simp only [elems_length] at hi
    exact h3 _ (by rw [hE]; omega) (by omega)
  refine ⟨h1, sorted_insert_of lt _ _ v hs (fun x hx => ?_) hd, ht, hd⟩
  cases hb : lt v x with
  | false => rfl
  | true => exact absurd (hlt.trans v x v hb (ht x hx)) (by simp [hlt.irrefl])

/-- C02: the difference of the two results is the multiplicity of `v`
(elements neither `<` nor `>` it). -/
theorem C02_multiplicity (lt : α → α → Bool) (hlt : StrictWeak lt) (m : Mem α)
    (a step : Int) (n : Nat) (v : α) (hs : Sorted lt (elems m a step n)) :
    (searchsortedr lt m a n step v).1 = (searchsortedl lt m a n step v).1 +
      (elems m a step n).countP (fun x => !lt x v && !lt v x) := by
  rw [C01_searchsortedl_count lt hlt m a step n v hs, C02_searchsortedr_count lt hlt m a step n v hs]
  generalize elems m a step n = xs
  induction xs with
  | nil => simp
  | cons x xs ih =>
    simp only [List.countP_cons, ih]
    cases h1 : lt x v <;> cases h2 : lt v x <;> simp <;> try omega
    exact absurd (hlt.trans x v x h1 h2) (by simp [hlt.irrefl])

/-- C03: for EVERY array contents and every comparison (no order law): the
result is in `[0, n]`, every index read is `< n`, and at most
`log2 n + 1` elements are read. -/
theorem C03_in_bounds_l (lt : α → α → Bool) (m : Mem α) (a step : Int) (n : Nat) (v : α) :
    let r := searchsortedl lt m a n step v
    r.1 ≤ n ∧ (∀ k ∈ r.2, k < n) ∧ (0 < n → r.2.length ≤ Nat.log2 n + 1) ∧
    (n = 0 → r.2 = []) := by
  obtain ⟨_, h2, h3, h4, h5⟩ := loopL_reads lt (fun mid => m (a + (mid : Int) * step)) v 0 n (by omega)
  refine ⟨h2, fun k hk => (h3 k hk).2, fun hn => ?_, fun hn => h5 hn.symm⟩
  have := h4 hn
  cases hl : (searchsortedl lt m a n step v).2.length with
  | zero => omega
  | succ k =>
    simp only [searchsortedl] at hl
    rw [hl, Nat.pow_succ] at this
    have := (Nat.le_log2 (by omega)).2 (show 2 ^ k ≤ n by omega)
    omega

/-- C03 for `searchsortedr`. -/
theorem C03_in_bounds_r (lt : α → α → Bool) (m : Mem α) (a step : Int) (n : Nat) (v : α) :
    let r := searchsortedr lt m a n step v
    r.1 ≤ n ∧ (∀ k ∈ r.2, k < n) ∧ (0 < n → r.2.length ≤ Nat.log2 n + 1) ∧
    (n = 0 → r.2 = []) := by
  obtain ⟨_, h2, h3, h4, h5⟩ := loopR_reads lt (fun mid => m (a + (mid : Int) * step)) v 0 n (by omega)
  refine ⟨h2, fun k hk => (h3 k hk).2, fun hn => ?_, fun hn => h5 hn.symm⟩
  have := h4 hn
  cases hl : (searchsortedr lt m a n step v).2.length with
  | zero => omega
  | succ k =>
    simp only [searchsortedr] at hl
    rw [hl, Nat.pow_succ] at this
    have := (Nat.le_log2 (by omega)).2 (show 2 ^ k ≤ n by omega)
    omega

/-- The whole typed loop: output `i` is the search in the `i`-th array for the
`i`-th element, and no other output cell changes. -/
theorem C01_C02_loop (core : Mem α → Int → Nat → Int → α → Nat × List Nat) (inp : Mem α)
    (len_a : Nat) (s0 s1 s2 s3 : Int) (hs2 : s2 ≠ 0) (nloops : Nat) (pa pe po : Int) (mo : Mem Int) :
    let mo' := loopTyped core inp len_a s0 s1 s2 s3 nloops pa pe po mo
    (∀ i, i < nloops → get mo' po s2 i =
      ((core inp (pa + (i : Int) * s0) len_a s3 (get inp pe s1 i)).1 : Int)) ∧
    (∀ b, (∀ i, i < nloops → b ≠ po + (i : Int) * s2) → mo' b = mo b) := by
  induction nloops generalizing pa pe po mo with
  | zero => simp [loopTyped]
  | succ k ih =>
    simp only [loopTyped]
    obtain ⟨h1, h2⟩ := ih (pa + s0) (pe + s1) (po + s2)
      (mo.store po ((core inp pa len_a s3 (inp pe)).1 : Int))
    constructor
    · intro i hi
      cases i with
      | zero =>
        have := h2 po (by
          intro i _ h
          have h' : (0 : Int) = ((i : Int) + 1) * s2 := by rw [Int.add_mul]; omega
          rcases Int.mul_eq_zero.1 h'.symm with h | h <;> omega)
        simp [get, this]
      | succ i =>
        have := h1 i (by omega)
        simp only [get] at this ⊢
        have e : ∀ p s : Int, p + ((i + 1 : Nat) : Int) * s = p + s + (i : Int) * s := by
          intro p s; push_cast; rw [Int.add_mul]; omega
        rw [e, e, e]; exact this
    · intro b hb
      rw [h2 b ?_, Mem.store_other]
      · have := hb 0 (by omega); simpa using this
      · intro i hi
        have := hb (i + 1) (by omega)
        push_cast at this
        rw [Int.add_mul] at this
        omega

/-- C04: with object elements and no raising comparison, the object searches
return exactly what the typed searches return. -/
theorem C04_object_agrees (lt : α → α → Bool) (m : Mem α) (a step : Int) (n : Nat) (v : α) :
    loopLObj (fun x y => some (lt x y)) (get m a step) v 0 n
      = some (searchsortedl lt m a n step v).1 ∧
    loopRObj (fun x y => some (lt x y)) (get m a step) v 0 n
      = some (searchsortedr lt m a n step v).1 :=
  ⟨loopLObj_pure lt _ v 0 n, loopRObj_pure lt _ v 0 n⟩

/-- C04: a search fails iff one of the comparisons it makes raises, and the
comparisons it makes are those at the indices read by the typed search. -/
theorem C04_object_error_iff (lt : α → α → Option Bool) (m : Mem α) (a step : Int) (n : Nat)
    (v : α) :
    (loopLObj lt (get m a step) v 0 n = none ↔
      ∃ k ∈ (searchsortedl (fun x y => (lt x y).getD false) m a n step v).2,
        lt (get m a step k) v = none) ∧
    (loopRObj lt (get m a step) v 0 n = none ↔
      ∃ k ∈ (searchsortedr (fun x y => (lt x y).getD false) m a n step v).2,
        lt v (get m a step k) = none) :=
  ⟨(loopLObj_none lt _ v 0 n).1, (loopRObj_none lt _ v 0 n).1⟩

theorem objCode_eq_neg_one (r : Option Nat) : objCode r = -1 ↔ r = none := by
  cases r <;> simp [objCode]

/-- C04: the outer loop over object arrays.  If no search raises, all outputs
are written and no exception is set; if search number `j` is the first that
raises, outputs `0..j-1` are the correct indices, output `j` is -1, the
exception is set, and every other cell (in particular outputs `> j`) keeps its
old value. -/
theorem C04_object_loop (core : (Nat → α) → α → Nat → Nat → Option Nat) (inp : Mem α)
    (len_a : Nat) (s0 s1 s2 s3 : Int) (hs2 : s2 ≠ 0) (nloops : Nat) (pa pe po : Int) (mo : Mem Int) :
    let res := fun i : Nat =>
      core (fun mid => inp (pa + (i : Int) * s0 + (mid : Int) * s3)) (get inp pe s1 i) 0 len_a
    let out := loopObject core inp len_a s0 s1 s2 s3 nloops pa pe po mo
    ((∀ i < nloops, res i ≠ none) →
      out.2 = false ∧ (∀ i < nloops, get out.1 po s2 i = objCode (res i)) ∧
      ∀ b, (∀ i < nloops, b ≠ po + (i : Int) * s2) → out.1 b = mo b) ∧
    (∀ j < nloops, (∀ i < j, res i ≠ none) → res j = none →
      out.2 = true ∧ (∀ i < j, get out.1 po s2 i = objCode (res i)) ∧
      get out.1 po s2 j = -1 ∧
      ∀ b, (∀ i ≤ j, b ≠ po + (i : Int) * s2) → out.1 b = mo b) := by
  induction nloops generalizing pa pe po mo with
  | zero => simp [loopObject]
  | succ k ih =>
    intro res out
    have e : ∀ (i : Nat) (p s : Int), p + ((i + 1 : Nat) : Int) * s = p + s + (i : Int) * s := by
      intro i p s; push_cast; rw [Int.add_mul]; omega
    have hres0 : res 0 = core (fun mid => inp (pa + (mid : Int) * s3)) (inp pe) 0 len_a := by
      simp [res, get]
    have hne : ∀ i : Nat, po ≠ po + s2 + (i : Int) * s2 := by
      intro i h
      have h' : (0 : Int) = ((i : Int) + 1) * s2 := by rw [Int.add_mul]; omega
      rcases Int.mul_eq_zero.1 h'.symm with h | h <;> omega
    have hressucc : ∀ i : Nat, res (i + 1) =
        core (fun mid => inp (pa + s0 + (i : Int) * s0 + (mid : Int) * s3))
          (get inp (pe + s1) s1 i) 0 len_a := by
      intro i; simp only [res, get, e]
    by_cases h0 : res 0 = none
    · have hout : out = (mo.store po (-1), true) := by
        simp only [out, loopObject]
        rw [← hres0, h0]; simp [objCode]
      rw [hout]
      constructor
      · intro h; exact absurd h0 (h 0 (by omega))
      · intro j hj hlt hn
        have : j = 0 := by
          rcases Nat.eq_zero_or_pos j with h | h
          · exact h
          · exact absurd h0 (hlt 0 h)
        subst this
        refine ⟨rfl, by simp, by simp [get], ?_⟩
        intro b hb
        have := hb 0 (by omega)
        exact Mem.store_other _ _ (by simpa using this)
    · have hc : ¬ objCode (res 0) = -1 := by rw [objCode_eq_neg_one]; exact h0
      have hout : out = loopObject core inp len_a s0 s1 s2 s3 k (pa + s0) (pe + s1) (po + s2)
          (mo.store po (objCode (res 0))) := by
        simp only [out, loopObject]
        rw [← hres0]; simp [hc]
      obtain ⟨ih1, ih2⟩ := ih (pa + s0) (pe + s1) (po + s2) (mo.store po (objCode (res 0)))
      rw [← hout] at ih1 ih2
      simp only [← hressucc] at ih1 ih2
      constructor
      · intro h
        obtain ⟨g1, g2, g3⟩ := ih1 (fun i hi => h (i + 1) (by omega))
        refine ⟨g1, ?_, ?_⟩
        · intro i hi
          cases i with
          | zero =>
            have := g3 po (fun i _ => hne i)
            simp [get, this]
          | succ i => have := g2 i (by omega); simp only [get, e] at this ⊢; exact this
        · intro b hb
          rw [g3 b, Mem.store_other]
          · have := hb 0 (by omega); simpa using this
          · intro i hi; have := hb (i + 1) (by omega); rw [e] at this; exact this
      · intro j hj hlt hn
        cases j with
        | zero => exact absurd hn h0
        | succ j =>
          obtain ⟨g1, g2, g3, g4⟩ := ih2 j (by omega) (fun i hi => hlt (i + 1) (by omega)) hn
          refine ⟨g1, ?_, ?_, ?_⟩
          · intro i hi
            cases i with
            | zero =>
              have := g4 po (fun i _ => hne i)
              simp [get, this]
            | succ i => have := g2 i (by omega); simp only [get, e] at this ⊢; exact this
          · simp only [get, e] at g3 ⊢; exact g3
          · intro b hb
            rw [g4 b, Mem.store_other]
            · have := hb 0 (by omega); simpa using this
            · intro i hi; have := hb (i + 1) (by omega); rw [e] at this; exact this

/-! ### Non-vacuity -/

/-- A memory holding 1,3,3,7 at byte addresses 100,108,116,124. -/
def exMem : Mem Int := fun p =>
  if p = 100 then 1 else if p = 108 then 3 else if p = 116 then 3 else if p = 124 then 7 else 0
def exLt : Int → Int → Bool := fun a b => decide (a < b)

example : StrictWeak exLt ∧ Sorted exLt (elems exMem 100 8 4) ∧
    (searchsortedl exLt exMem 100 4 8 3).1 = 1 ∧ (searchsortedr exLt exMem 100 4 8 3).1 = 3 := by
  refine ⟨StrictWeak.int, ?_, ?_, ?_⟩
  · simp [Sorted, elems, List.range, List.range.loop, get, exMem, exLt]
  · simp [searchsortedl, loopL, exMem, exLt]
  · simp [searchsortedr, loopR, exMem, exLt]

-- an unsorted array read backwards (negative stride): still in bounds
example : (searchsortedl exLt exMem 124 4 (-8) 3).1 ≤ 4 := (C03_in_bounds_l ..).1

-- an object search that raises, and one that does not
example : loopLObj (fun x y => if x = 3 then none else some (decide (x < y))) (get exMem 100 8) 2 0 4
    = none ∧ loopLObj (fun x y => if x = 3 then none else some (decide (x < y)))
      (get exMem 100 8) 9 3 4 = some 4 := by
  constructor <;> simp [loopLObj, get, exMem]

end Ufunclab.Searchsorted
