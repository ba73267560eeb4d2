import Verif.Proof.LinearInterp
import Mathlib.Data.Rat.Defs
import Mathlib.Algebra.Order.Ring.Rat
import Mathlib.Tactic.NormNum
/-! # Property C47: linear_interp1d -/
namespace Ufunclab.LinearInterp
variable {K : Type _} [Field K] [LinearOrder K] [IsStrictOrderedRing K]

/-- the bracket is unique in an increasing table -/
theorem bracket_unique {a : List K} (hs : a.Pairwise (· < ·)) {x : K} {i k : Nat} (hi : i + 1 < a.length)
    (hk : k < a.length) (h1 : a[i] < x) (h2 : x < a[i + 1])
    (h : a[k] = x ∨ ∃ hk' : k + 1 < a.length, a[k] < x ∧ x < a[k + 1]) : k = i ∧ a[k] < x := by
  have mono : ∀ p q (hp : p < a.length) (hq : q < a.length), p ≤ q → a[p] ≤ a[q] := by
    intro p q hp hq hpq
    rcases hpq.eq_or_lt with rfl | hlt
    · exact le_rfl
    · exact (List.pairwise_iff_getElem.1 hs p q hp hq hlt).le
  rcases lt_trichotomy k i with c | c | c
  · exfalso
    rcases h with h | ⟨hk', h3, h4⟩
    · have := mono k i hk (by omega) c.le
      rw [h] at this; exact absurd h1 (not_lt.2 this)
    · have := mono (k + 1) i hk' (by omega) (by omega)
      exact absurd (h4.trans_le this) (not_lt.2 h1.le)
  · subst c; exact ⟨rfl, h1⟩
  · exfalso
    have := mono (i + 1) k hi hk (by omega)
    rcases h with h | ⟨hk', h3, h4⟩
    · rw [h] at this; exact absurd h2 (not_lt.2 this)
    · exact absurd (h3.trans h2) (not_lt.2 this)

omit [IsStrictOrderedRing K] in
theorem interpOne_of_search (x : K) (a : List K) (fp : List (XF K)) (hf : fp.length = a.length)
    (hs : a.Pairwise (· < ·)) (hn : 0 < a.length) (hlo : a[0] ≤ x) (hhi : x ≤ a[a.length - 1]) :
    ∃ k, ∃ hk : k < a.length, search (.fin x) (a.map .fin) = some k ∧
    ((a[k] = x ∧ interpOne (.fin x) (a.map .fin) fp = some (fp[k]'(by omega))) ∨
     (∃ hk' : k + 1 < a.length, a[k] < x ∧ x < a[k + 1] ∧
       interpOne (.fin x) (a.map .fin) fp = some ((fp[k]'(by omega)).add
         ((((fp[k + 1]'(by omega)).sub (fp[k]'(by omega))).div (.fin (a[k + 1] - a[k]))).mul (.fin (x - a[k])))))) := by
  obtain ⟨k, hk, e, h⟩ := search_sorted x a hs hn hlo hhi
  refine ⟨k, hk, e, ?_⟩
  have hfk : fp[k]? = some (fp[k]'(by omega)) := List.getElem?_eq_getElem _
  have hc : (XF.lt (.fin x) (.fin a[0]) || XF.gt (.fin x) (.fin a[a.length - 1])) = false := by
    simp [hlo, hhi]
  rcases h with h | ⟨hk', h1, h2⟩
  · left
    refine ⟨h, ?_⟩
    simp only [interpOne, List.length_map, getElem?_map_fin a 0 hn, getElem?_map_fin a _ (by omega : a.length - 1 < a.length),
      hc, e, getElem?_map_fin a k hk, hfk, XF.eq_fin, h]
    rw [if_neg (by omega)]; simp
  · right
    refine ⟨hk', h1, h2, ?_⟩
    have hfk' : fp[k + 1]? = some (fp[k + 1]'(by omega)) := List.getElem?_eq_getElem _
    simp only [interpOne, List.length_map, getElem?_map_fin a 0 hn, getElem?_map_fin a _ (by omega : a.length - 1 < a.length),
      hc, e, getElem?_map_fin a k hk, hfk, XF.eq_fin, getElem?_map_fin a (k + 1) hk', hfk', XF.sub_fin]
    rw [if_neg (by omega)]
    simp [h1.ne']

/-- C47: for a strictly increasing table, the result at `xp[i]` is `fp[i]` (exactly, whatever
`fp[i]` is, even NaN or infinite). -/
theorem C47_knot (a : List K) (fp : List (XF K)) (hf : fp.length = a.length) (hs : a.Pairwise (· < ·))
    (i : Nat) (hi : i < a.length) :
    interpOne (.fin a[i]) (a.map .fin) fp = some (fp[i]'(by omega)) := by
  have mono : ∀ p q (hp : p < a.length) (hq : q < a.length), p ≤ q → a[p] ≤ a[q] := by
    intro p q hp hq hpq
    rcases hpq.eq_or_lt with rfl | hlt
    · exact le_rfl
    · exact (List.pairwise_iff_getElem.1 hs p q hp hq hlt).le
  obtain ⟨k, hk, e, h⟩ := interpOne_of_search a[i] a fp hf hs (by omega) (mono 0 i _ _ (by omega)) (mono i _ _ _ (by omega))
  have inj : ∀ p q (hp : p < a.length) (hq : q < a.length), a[p] = a[q] → p = q := by
    intro p q hp hq hpq
    rcases lt_trichotomy p q with c | c | c
    · exact absurd hpq (List.pairwise_iff_getElem.1 hs p q hp hq c).ne
    · exact c
    · exact absurd hpq.symm (List.pairwise_iff_getElem.1 hs q p hq hp c).ne
  rcases h with ⟨h, r⟩ | ⟨hk', h1, h2, r⟩
  · have := inj _ _ _ _ h; subst this; exact r
  · exfalso
    rcases Nat.lt_or_ge k i with c | c
    · exact absurd h2 (not_lt.2 (mono (k + 1) i _ _ (by omega)))
    · exact absurd h1 (not_lt.2 (mono i k _ _ c))

/-- C47: between two knots the result is the linear interpolant. -/
theorem C47_between (a f : List K) (hf : f.length = a.length) (hs : a.Pairwise (· < ·))
    (i : Nat) (hi : i + 1 < a.length) (x : K) (h1 : a[i] < x) (h2 : x < a[i + 1]) :
    interpOne (.fin x) (a.map .fin) (f.map .fin) =
      some (.fin (f[i] + (f[i + 1] - f[i]) / (a[i + 1] - a[i]) * (x - a[i]))) := by
  have mono : ∀ p q (hp : p < a.length) (hq : q < a.length), p ≤ q → a[p] ≤ a[q] := by
    intro p q hp hq hpq
    rcases hpq.eq_or_lt with rfl | hlt
    · exact le_rfl
    · exact (List.pairwise_iff_getElem.1 hs p q hp hq hlt).le
  obtain ⟨k, hk, e, h⟩ := interpOne_of_search x a (f.map .fin) (by simpa using hf) hs (by omega)
    ((mono 0 i _ _ (by omega)).trans h1.le) (h2.le.trans (mono (i + 1) _ _ _ (by omega)))
  have hu := bracket_unique hs hi hk h1 h2 (by
    rcases h with ⟨h, _⟩ | ⟨hk', h1, h2, _⟩
    · exact .inl h
    · exact .inr ⟨hk', h1, h2⟩)
  obtain ⟨rfl, hlt⟩ := hu
  rcases h with ⟨h, _⟩ | ⟨hk', _, _, r⟩
  · exact absurd h hlt.ne
  · rw [r]
    have hd : a[k + 1] - a[k] ≠ 0 := by have := h1.trans h2; exact (sub_pos.2 this).ne'
    simp only [List.getElem_map, XF.sub_fin, XF.div_fin _ _ hd, XF.mul_fin, XF.add_fin]

/-- C47: the interpolated value lies between the two neighbouring function values. -/
theorem C47_range (a f : List K) (hf : f.length = a.length) (hs : a.Pairwise (· < ·))
    (i : Nat) (hi : i + 1 < a.length) (x : K) (h1 : a[i] ≤ x) (h2 : x ≤ a[i + 1]) :
    ∃ y, interpOne (.fin x) (a.map .fin) (f.map .fin) = some (.fin y) ∧
      min f[i] f[i + 1] ≤ y ∧ y ≤ max f[i] f[i + 1] := by
  rcases h1.eq_or_lt with c | c
  · subst c
    refine ⟨f[i], ?_, min_le_left _ _, le_max_left _ _⟩
    rw [C47_knot a (f.map .fin) (by simpa using hf) hs i (by omega)]; simp
  rcases h2.eq_or_lt with d | d
  · subst d
    refine ⟨f[i + 1], ?_, min_le_right _ _, le_max_right _ _⟩
    rw [C47_knot a (f.map .fin) (by simpa using hf) hs (i + 1) hi]; simp
  refine ⟨_, C47_between a f hf hs i hi x c d, ?_, ?_⟩
  all_goals
    have hd : 0 < a[i + 1] - a[i] := sub_pos.2 (c.trans d)
    have ht : (f[i + 1] - f[i]) / (a[i + 1] - a[i]) * (x - a[i]) =
      (f[i + 1] - f[i]) * ((x - a[i]) / (a[i + 1] - a[i])) := by field_simp
    have h0 : 0 ≤ (x - a[i]) / (a[i + 1] - a[i]) := div_nonneg (sub_nonneg.2 h1) hd.le
    have h1' : (x - a[i]) / (a[i + 1] - a[i]) ≤ 1 := by rw [div_le_one hd]; linarith
    rw [ht]
    generalize (x - a[i]) / (a[i + 1] - a[i]) = t at *
    rcases le_total f[i] f[i + 1] with o | o
    · simp only [min_eq_left o, max_eq_right o]
      nlinarith [mul_nonneg (sub_nonneg.2 o) h0, mul_nonneg (sub_nonneg.2 o) (sub_nonneg.2 h1')]
    · simp only [min_eq_right o, max_eq_left o]
      nlinarith [mul_nonneg (sub_nonneg.2 o) h0, mul_nonneg (sub_nonneg.2 o) (sub_nonneg.2 h1')]

omit [IsStrictOrderedRing K] in
/-- C47: no extrapolation: outside the table (including ±inf) the result is NaN. -/
theorem C47_outside (xp fp : List (XF K)) (hn : 0 < xp.length) (x : XF K)
    (h : x.lt xp[0] = true ∨ x.gt xp[xp.length - 1] = true) :
    interpOne x xp fp = some .nan := by
  have e0 : xp[0]? = some xp[0] := List.getElem?_eq_getElem hn
  have e1 : xp[xp.length - 1]? = some xp[xp.length - 1] := List.getElem?_eq_getElem (by omega)
  simp only [interpOne, e0, e1]
  rw [if_neg (by omega), if_pos]
  rcases h with h | h <;> simp [h]

omit [IsStrictOrderedRing K] in
/-- C47, the in-bounds half: for every table (unsorted, with NaN or infinities) of length at
least 2 and every `x` (NaN included) all reads are in range. -/
theorem C47_in_bounds_partial (x : XF K) (xp fp : List (XF K)) (hf : fp.length = xp.length)
    (h : xp.length ≠ 1) : interpOne x xp fp ≠ none := by
  by_cases hn : xp.length < 1
  · simp [interpOne, hn]
  · have e0 : xp[0]? = some xp[0] := List.getElem?_eq_getElem (by omega)
    have e1 : xp[xp.length - 1]? = some xp[xp.length - 1] := List.getElem?_eq_getElem (by omega)
    obtain ⟨k, hk, e, hc⟩ := search_bounds x xp (by intro h0; subst h0; simp at hn)
    have e2 : xp[k]? = some xp[k] := List.getElem?_eq_getElem hk
    have e3 : fp[k]? = some (fp[k]'(by omega)) := List.getElem?_eq_getElem _
    simp only [interpOne, e0, e1, e, e2, e3]
    rw [if_neg hn]
    split
    · simp
    · split
      · simp
      · rename_i hne
        have hk' : k + 1 < xp.length := by
          rcases hc with hc | hc | hc
          · exact hc
          · exact absurd hc h
          · exact absurd hc hne
        have e4 : xp[k + 1]? = some xp[k + 1] := List.getElem?_eq_getElem hk'
        have e5 : fp[k + 1]? = some (fp[k + 1]'(by omega)) := List.getElem?_eq_getElem _
        simp [e4, e5]

omit [IsStrictOrderedRing K] in
/-- C47, what is missing from the full claim: with a one-point table the code reads `xp[1]`,
outside the array, exactly when `x` or `xp[0]` is NaN. -/
theorem C47_in_bounds_violated (x p f : XF K) :
    interpOne x [p] [f] = none ↔ x.isnan = true ∨ p.isnan = true := by
  cases x <;> cases p <;> simp [interpOne, search, XF.lt, XF.gt, XF.eq, XF.isnan] <;>
    split_ifs <;> simp <;> grind

omit [IsStrictOrderedRing K] in
/-- C47: a NaN abscissa gives NaN (tables of at least two points with finite knots). -/
theorem C47_nan (a : List K) (fp : List (XF K)) (hf : fp.length = a.length) (h2 : 2 ≤ a.length) :
    interpOne .nan (a.map .fin) fp = some .nan := by
  have hl : (a.map XF.fin).length = a.length := by simp
  have e0 := getElem?_map_fin a 0 (by omega)
  have e1 := getElem?_map_fin a (a.length - 1) (by omega)
  obtain ⟨k, hk, e, hc⟩ := search_bounds (XF.nan : XF K) (a.map .fin) (by intro h0; simp at h0; subst h0; simp at h2)
  have hk' : k + 1 < a.length := by
    rcases hc with hc | hc | hc
    · omega
    · omega
    · simp [XF.eq] at hc
  have e2 := getElem?_map_fin a k (by omega)
  have e3 := getElem?_map_fin a (k + 1) hk'
  have e4 : fp[k]? = some (fp[k]'(by omega)) := List.getElem?_eq_getElem _
  have e5 : fp[k + 1]? = some (fp[k + 1]'(by omega)) := List.getElem?_eq_getElem _
  simp only [interpOne, hl, e0, e1, e, e2, e3, e4, e5]
  rw [if_neg (by omega)]
  have n1 : ∀ b : XF K, XF.sub .nan b = .nan := by intro b; cases b <;> rfl
  have n2 : ∀ b : XF K, XF.mul b .nan = .nan := by intro b; cases b <;> rfl
  have n3 : ∀ b : XF K, XF.add b .nan = .nan := by intro b; cases b <;> rfl
  simp [XF.lt, XF.gt, XF.eq, n1, n2, n3]

theorem infMul_pos (b : Bool) (t : K) (ht : 0 < t) :
    (XF.infMul b t : XF K) = if b then .pinf else .ninf := by
  unfold XF.infMul
  rw [if_neg ht.ne']
  cases b <;> simp [ht]

/-- `r*(Δf)` and `slope*(x-xpk)` agree for every Δf, also NaN and ±inf. -/
theorem ratio_eq (d : XF K) (u v : K) (hu : 0 < u) (hv : 0 < v) :
    (XF.div (.fin u) (.fin v)).mul d = (d.div (.fin v)).mul (.fin u) := by
  have huv : 0 < u / v := div_pos hu hv
  rw [XF.div_fin _ _ hv.ne']
  cases d with
  | nan => rfl
  | ninf => simp [XF.mul, XF.div, not_lt.2 hv.le, infMul_pos, hu, huv]
  | pinf => simp [XF.mul, XF.div, not_lt.2 hv.le, infMul_pos, hu, huv]
  | fin d => rw [XF.div_fin _ _ hv.ne', XF.mul_fin, XF.mul_fin]; congr 1; field_simp

theorem mapM_replicate {β : Type _} (n : Nat) (f : Nat → Option β) (b : β) (h : ∀ j, f j = some b) :
    (List.range n).mapM f = some (List.replicate n b) := by
  have : f = fun _ => some b := funext h
  rw [this]
  have : ∀ l : List Nat, l.mapM (fun _ => some b) = some (List.replicate l.length b) := by
    intro l
    induction l with
    | nil => rfl
    | cons a l ih => simp [List.mapM_cons, ih, List.replicate_succ]
  simpa using this (List.range n)

/-- C47: when all items share one `x` and one strictly increasing table, the fast path gives
the same values as the general path (exact arithmetic; any `fp`, NaN and infinities
included; any finite `x`). -/
theorem C47_fast_agrees (nloops : Nat) (a : List K) (hs : a.Pairwise (· < ·)) (hn : 0 < a.length)
    (fps : Nat → List (XF K)) (hf : ∀ j, (fps j).length = a.length) (x : K) :
    fast nloops (.fin x) (a.map .fin) fps =
      general nloops (fun _ => .fin x) (fun _ => a.map .fin) fps := by
  unfold fast general
  have e0 := getElem?_map_fin a 0 hn
  have e1 := getElem?_map_fin a (a.length - 1) (by omega)
  simp only [List.length_map, e0, e1]
  by_cases ho : (XF.lt (.fin x) (.fin a[0]) || XF.gt (.fin x) (.fin a[a.length - 1])) = true
  · rw [if_pos ho, mapM_replicate _ _ .nan]
    intro j
    apply C47_outside _ _ (by simpa using hn)
    simpa [Bool.or_eq_true] using ho
  · rw [if_neg ho]
    have ho' : a[0] ≤ x ∧ x ≤ a[a.length - 1] := by simpa using ho
    obtain ⟨k, hk, e, h⟩ := search_sorted x a hs hn ho'.1 ho'.2
    have e2 := getElem?_map_fin a k hk
    simp only [e, e2]
    have hi := fun j => interpOne_of_search x a (fps j) (hf j) hs hn ho'.1 ho'.2
    by_cases hx : x = a[k]
    · rw [if_pos (by simp [hx])]
      congr 1; funext j
      obtain ⟨k', hk', e', r⟩ := hi j
      have : k' = k := by rw [e] at e'; exact (Option.some.inj e').symm
      subst this
      have ef : (fps j)[k']? = some ((fps j)[k']'(by rw [hf]; omega)) := List.getElem?_eq_getElem _
      rcases r with ⟨_, r⟩ | ⟨_, h1, _, _⟩
      · rw [r, fastOne, ef]; simp [hx]
      · exact absurd hx h1.ne'
    · rw [if_neg (by simp [hx])]
      obtain ⟨hk1, h1, h2⟩ : ∃ hk' : k + 1 < a.length, a[k] < x ∧ x < a[k + 1] := by
        rcases h with h | h
        · exact absurd h.symm hx
        · exact h
      simp only [getElem?_map_fin a (k + 1) hk1]
      congr 1; funext j
      obtain ⟨k', hk', e', r⟩ := hi j
      have : k' = k := by rw [e] at e'; exact (Option.some.inj e').symm
      subst this
      have ef : (fps j)[k']? = some ((fps j)[k']'(by rw [hf]; omega)) := List.getElem?_eq_getElem _
      have ef' : (fps j)[k' + 1]? = some ((fps j)[k' + 1]'(by rw [hf]; omega)) := List.getElem?_eq_getElem _
      rcases r with ⟨h, _⟩ | ⟨_, _, _, r⟩
      · exact absurd h.symm hx
      · rw [r, fastOne, ef, ef']
        simp only [XF.eq_fin, hx, decide_false, Bool.false_eq_true, if_false, XF.sub_fin]
        rw [ratio_eq _ _ _ (sub_pos.2 h1) (sub_pos.2 (h1.trans h2))]

omit [IsStrictOrderedRing K] in
/-- C47, fast path with an empty table: the general path gives NaN, the fast path reads
outside the array. -/
theorem C47_fast_empty_violated (nloops : Nat) (x : XF K) (fps : Nat → List (XF K)) :
    fast nloops x [] fps = none ∧
    general nloops (fun _ => x) (fun _ => []) fps = some (List.replicate nloops .nan) := by
  refine ⟨rfl, mapM_replicate _ _ _ (fun j => by simp [interpOne])⟩

omit [IsStrictOrderedRing K] in
/-- C47: the shared-table path also reads outside the table when it has one point and NaN is
involved. -/
theorem C47_fast_single_violated (nloops : Nat) (x p : XF K) (fps : Nat → List (XF K)) (h : x.isnan = true ∨ p.isnan = true) :
    fast nloops x [p] fps = none := by
  cases x <;> cases p <;> simp [fast, search, XF.lt, XF.gt, XF.eq, XF.isnan] at h ⊢

/-! ### Non-vacuity: the docstring example -/
example : interpOne (.fin (3/2 : Rat)) ([0, 2, 3, 5].map .fin) ([1, 5, 6, 2].map .fin) = some (.fin 4) := by
  rw [C47_between [0, 2, 3, 5] [1, 5, 6, 2] rfl (by simp; norm_num) 0 (by simp) _ (by norm_num) (by norm_num)]
  norm_num
example : interpOne (.fin (3 : Rat)) ([0, 2, 3, 5].map .fin) ([1, 5, 6, 2].map .fin) = some (.fin 6) :=
  C47_knot [0, 2, 3, 5] _ rfl (by simp; norm_num) 2 (by simp)

end Ufunclab.LinearInterp
