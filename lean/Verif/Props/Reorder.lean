import Verif.Props.MinMax
import Verif.Props.AllSame
import Verif.Props.Ordered
import Verif.Props.First
import Verif.Props.PeakToPeak
import Verif.Props.Vnorm
import Verif.Props.Meanvar
import Verif.Props.Means
import Verif.Props.Kbnsum
import Verif.Props.Softmax
import Verif.Props.Corr
import Verif.Props.Wjaccard
import Verif.Props.Gendot
import Verif.Props.Signal
/-!
# Property C125: the order of the elements

Which results do not change when the elements are rearranged, and how the others change.
-/
namespace Ufunclab.Reorder
open Ufunclab Spec XF
variable {α : Type _}

/-! ## Comparisons -/

/-- C125: rearranging an array gives a minimum and a maximum equal to the former ones in the order; for
a linear order they are the same. -/
theorem C125_minmax (lt : α → α → Bool) (h : StrictWeak lt) (x0 y0 : α) (xs ys : List α) (hp : (x0 :: xs).Perm (y0 :: ys)) :
    let a := MinMax.minmax lt x0 xs
    let b := MinMax.minmax lt y0 ys
    (lt a.1 b.1 = false ∧ lt b.1 a.1 = false ∧ lt a.2 b.2 = false ∧ lt b.2 a.2 = false) ∧
    ((∀ u v, lt u v = false → lt v u = false → u = v) → a = b) := by
  intro a b
  obtain ⟨a1, a2, a3⟩ := MinMax.C14_minmax lt h x0 xs
  obtain ⟨b1, b2, b3⟩ := MinMax.C14_minmax lt h y0 ys
  have e : lt a.1 b.1 = false ∧ lt b.1 a.1 = false ∧ lt a.2 b.2 = false ∧ lt b.2 a.2 = false :=
    ⟨(b3 _ (hp.mem_iff.1 a1)).1, (a3 _ (hp.mem_iff.2 b1)).1, (a3 _ (hp.mem_iff.2 b2)).2, (b3 _ (hp.mem_iff.1 a2)).2⟩
  exact ⟨e, fun ht => Prod.ext (ht _ _ e.1 e.2.1) (ht _ _ e.2.2.1 e.2.2.2)⟩

/-- C125: argmin and argmax of rearranged arrays point to equal elements (linear orders). -/
theorem C125_argmin_argmax (lt : α → α → Bool) (h : StrictWeak lt) (ht : ∀ u v, lt u v = false → lt v u = false → u = v) (x0 y0 : α)
    (xs ys : List α) (hp : (x0 :: xs).Perm (y0 :: ys)) :
    (x0 :: xs)[MinMax.argmin lt x0 xs]? = (y0 :: ys)[MinMax.argmin lt y0 ys]? ∧
    (x0 :: xs)[MinMax.argmax lt x0 xs]? = (y0 :: ys)[MinMax.argmax lt y0 ys]? := by
  have e := (C125_minmax lt h x0 y0 xs ys hp).2 ht
  obtain ⟨a1, a2⟩ := MinMax.C15_value_at_index lt x0 xs
  obtain ⟨b1, b2⟩ := MinMax.C15_value_at_index lt y0 ys
  exact ⟨by rw [a1, b1, e], by rw [a2, b2, e]⟩

/-- C125: with distinct elements, argmin and argmax of the reversed array count from the other end. -/
theorem C125_arg_reverse (lt : α → α → Bool) (h : StrictWeak lt) (ht : ∀ u v, lt u v = false → lt v u = false → u = v) (x0 y0 : α)
    (xs ys : List α) (hr : y0 :: ys = (x0 :: xs).reverse) (hd : (x0 :: xs).Nodup) :
    MinMax.argmin lt y0 ys + MinMax.argmin lt x0 xs = xs.length ∧ MinMax.argmax lt y0 ys + MinMax.argmax lt x0 xs = xs.length := by
  have hp : (x0 :: xs).Perm (y0 :: ys) := hr ▸ (List.reverse_perm _).symm
  obtain ⟨e1, e2⟩ := C125_argmin_argmax lt h ht x0 y0 xs ys hp
  obtain ⟨a1, a2⟩ := MinMax.C15_value_at_index lt x0 xs
  have key : ∀ i j : Nat, ∀ v, (x0 :: xs)[i]? = some v → (x0 :: xs)[i]? = (y0 :: ys)[j]? → j + i = xs.length := by
    intro i j v hv he
    rw [hr] at he
    rw [he] at hv
    have hj : j < (x0 :: xs).reverse.length := by
      rcases Nat.lt_or_ge j (x0 :: xs).reverse.length with h | h
      · exact h
      · rw [List.getElem?_eq_none h] at hv; cases hv
    rw [List.length_reverse] at hj
    rw [List.getElem?_reverse hj] at he hv
    have hi : i < (x0 :: xs).length := by
      rcases Nat.lt_or_ge i (x0 :: xs).length with h | h
      · exact h
      · rw [List.getElem?_eq_none h, hv] at he; cases he
    have := (List.getElem?_inj hi hd).1 he
    rw [List.length_cons] at *
    omega
  exact ⟨key _ _ _ a1 e1, key _ _ _ a2 e2⟩

/-- C125 fails for minmax with NaN: the result depends on whether the NaN comes first. -/
theorem C125_minmax_nan_violated : ∃ (x0 y0 : XF Int) (xs ys : List (XF Int)), (x0 :: xs).Perm (y0 :: ys) ∧
    MinMax.minmax XF.lt x0 xs = (.nan, .nan) ∧ MinMax.minmax XF.lt y0 ys = (.fin 0, .fin 0) :=
  ⟨.nan, .fin 0, [.fin 0], [.nan], List.Perm.swap _ _ _, by decide, by decide⟩

/-- C125: all_same. -/
theorem C125_all_same (eq : α → α → Bool) (hs : ∀ a b, eq a b = true → eq b a = true)
    (ht : ∀ a b c, eq a b = true → eq b c = true → eq a c = true) (xs ys : List α) (hp : xs.Perm ys) :
    AllSame.allSame (fun a b => !eq a b) xs = AllSame.allSame (fun a b => !eq a b) ys := by
  rw [Bool.eq_iff_iff, AllSame.C21_all_same eq hs ht, AllSame.C21_all_same eq hs ht, hp.length_eq]
  simp only [hp.mem_iff]

/-- The op codes with the arguments exchanged: `<` and `>`, `<=` and `>=`. -/
def flipCode : Int → Int
  | 0 => 4 | 1 => 5 | 2 => 2 | 3 => 3 | 4 => 0 | _ => 1

/-- C125: ordered of the reversed array is ordered with the exchanged op, NaN included (the only
assumptions are `a > b` iff `b < a` and the like); an unknown code is treated as `>=`. -/
theorem C125_ordered_reverse (c : CmpOps α) (h1 : ∀ a b, c.gt a b = c.lt b a) (h2 : ∀ a b, c.ge a b = c.le b a)
    (h3 : ∀ a b, c.eq a b = c.eq b a) (h4 : ∀ a b, c.ne a b = c.ne b a) (code : Int) (xs : List α) :
    Ordered.ordered c code xs.reverse = Ordered.ordered c (flipCode code) xs := by
  have rev : ∀ (R : α → α → Prop) (l : List α), Ordered.Adjacent R l.reverse ↔ Ordered.Adjacent (fun a b => R b a) l := by
    have half : ∀ (R : α → α → Prop) (l : List α), Ordered.Adjacent R l.reverse → Ordered.Adjacent (fun a b => R b a) l := by
      intro R l hl i a b ha hb
      obtain ⟨hi, _⟩ := List.getElem?_eq_some_iff.1 hb
      refine hl (l.length - 1 - (i + 1)) b a ?_ ?_
      · rw [List.getElem?_reverse (by omega), show l.length - 1 - (l.length - 1 - (i + 1)) = i + 1 by omega]; exact hb
      · rw [List.getElem?_reverse (by omega), show l.length - 1 - (l.length - 1 - (i + 1) + 1) = i by omega]; exact ha
    intro R l
    refine ⟨half R l, fun hl => ?_⟩
    have := half (fun a b => R b a) l.reverse (by rwa [List.reverse_reverse])
    exact this
  have main : ∀ (k k' : Int) (op op' : Op), Op.ofCode k = some op → Op.ofCode k' = some op' →
      (∀ a b, Ordered.failTest c op a b = Ordered.failTest c op' b a) → Ordered.ordered c k xs.reverse = Ordered.ordered c k' xs := by
    intro k k' op op' hk hk' hf
    rw [Bool.eq_iff_iff, Ordered.C22_ordered_general c op k hk, Ordered.C22_ordered_general c op' k' hk', rev]
    simp only [hf]
  by_cases h : code < 0 ∨ 5 < code
  · rw [Ordered.C22_unknown_op c code h, show flipCode code = 1 by unfold flipCode; split <;> first | omega | rfl]
    exact main 5 1 .GE .LE rfl rfl fun a b => (h1 b a).symm
  · have : code = 0 ∨ code = 1 ∨ code = 2 ∨ code = 3 ∨ code = 4 ∨ code = 5 := by omega
    rcases this with rfl | rfl | rfl | rfl | rfl | rfl
    · exact main 0 4 .LT .GT rfl rfl fun a b => h2 a b
    · exact main 1 5 .LE .GE rfl rfl fun a b => h1 a b
    · exact main 2 2 .EQ .EQ rfl rfl fun a b => h4 a b
    · exact main 3 3 .NE .NE rfl rfl fun a b => h3 a b
    · exact main 4 0 .GT .LT rfl rfl fun a b => (h2 b a).symm
    · exact main 5 1 .GE .LE rfl rfl fun a b => (h1 b a).symm

/-- C125: argfirst finds something in an array iff it does in any rearrangement of it. -/
theorem C125_argfirst (c : CmpOps α) (op : Op) (code : Int) (hc : Op.ofCode code = some op) (target : α) (xs ys : List α) (hp : xs.Perm ys) :
    First.argfirst c code target xs = -1 ↔ First.argfirst c code target ys = -1 := by
  have key : ∀ l : List α, First.argfirst c code target l = -1 ↔ ∀ x ∈ l, c.holds op x target = false := by
    intro l
    rcases First.C19_argfirst c op code hc target l with ⟨h1, h2⟩ | ⟨i, h1, ⟨x, hx, hr⟩, _⟩
    · exact ⟨fun _ => h2, fun _ => h1⟩
    · refine ⟨fun h => by omega, fun h => ?_⟩
      rw [h x (List.mem_of_getElem? hx)] at hr; cases hr
  rw [key, key]
  simp only [hp.mem_iff]

/-- C125: peaktopeak, for any type with a linear order and any subtraction, both code paths. -/
theorem C125_peaktopeak {ρ : Type _} (lt : α → α → Bool) (h : StrictWeak lt) (ht : ∀ u v, lt u v = false → lt v u = false → u = v)
    (diff : α → α → ρ) (size size' : Int) (m m' : Mem α) (p s p' s' : Int) (n : Nat) (hp : (elems m p s n).Perm (elems m' p' s' n)) :
    PeakToPeak.peaktopeak lt diff size m p s n = PeakToPeak.peaktopeak lt diff size' m' p' s' n := by
  cases n with
  | zero => rw [PeakToPeak.C18_empty, PeakToPeak.C18_empty]
  | succ n =>
    have l1 : (elems m (p + s) s n).length = n := by simp [elems]
    have l2 : (elems m' (p' + s') s' n).length = n := by simp [elems]
    have e1 := PeakToPeak.C18_any_type lt h.irrefl h.trans diff size m p s (m p) (elems m (p + s) s n) (by rw [l1]; exact elems_succ ..)
    have e2 := PeakToPeak.C18_any_type lt h.irrefl h.trans diff size' m' p' s' (m' p') (elems m' (p' + s') s' n) (by rw [l2]; exact elems_succ ..)
    rw [l1] at e1
    rw [l2] at e2
    rw [elems_succ, elems_succ] at hp
    have e := (C125_minmax lt h _ _ _ _ hp).2 ht
    rw [e1, e2, e]

/-! ## Sums, in exact arithmetic -/

/-- C125: vdot with both arrays rearranged in the same way. -/
theorem C125_vdot {R : Type _} [Semiring R] (m m' : Mem R) (w px sx py sy px' sx' py' sy' : Int) (n : Nat) (σ : Nat → Nat)
    (hσ : Set.BijOn σ (Set.Iio n) (Set.Iio n)) (hx : ∀ i < n, get m' px' sx' i = get m px sx (σ i)) (hy : ∀ i < n, get m' py' sy' i = get m py sy (σ i)) :
    Vnorm.vdot m' w px' sx' py' sy' n = Vnorm.vdot m w px sx py sy n := by
  rw [Vnorm.C42_vdot_sum, Vnorm.C42_vdot_sum]
  refine Finset.sum_nbij σ (fun i hi => by simpa using hσ.mapsTo (by simpa using hi)) (by simpa [Set.Iio] using hσ.injOn)
    (by simpa [Set.Iio] using hσ.surjOn) fun i hi => ?_
  rw [hx i (by simpa using hi), hy i (by simpa using hi)]

/-- C125: rms. -/
theorem C125_rms (m m' : Mem ℝ) (w p s p' s' out out' : Int) (n : Nat) (hn : 0 < n) (h : ∀ i < n, p + (i : Int) * s ≠ out)
    (h' : ∀ i < n, p' + (i : Int) * s' ≠ out') (hp : (elems m p s n).Perm (elems m' p' s' n)) :
    Vnorm.rms (fun a k => √(a / (k : ℝ))) m w p s out n out = Vnorm.rms (fun a k => √(a / (k : ℝ))) m' w p' s' out' n out' := by
  obtain ⟨a1, a2, a3⟩ := Vnorm.C42_rms m w p s out n hn h
  obtain ⟨b1, b2, b3⟩ := Vnorm.C42_rms m' w p' s' out' n hn h'
  have e : ∀ (m : Mem ℝ) (p s : Int), ∑ i ∈ Finset.range n, get m p s i ^ 2 = ((elems m p s n).map (· ^ 2)).sum := by
    intro m p s
    rw [elems, List.map_map]
    clear hn h h' hp a1 a2 b1 b2 a3 b3
    induction n with
    | zero => rfl
    | succ n ih => rw [Finset.sum_range_succ, ih, List.range_succ, List.map_append, List.sum_append]; simp
  have hn' : (n : ℝ) ≠ 0 := by exact_mod_cast hn.ne'
  rw [e, (hp.map _).sum_eq, ← e, ← b2] at a2
  exact (pow_left_inj₀ a1 b1 (by norm_num)).1 (mul_left_cancel₀ hn' a2)

/-- C125: meanvar. -/
theorem C125_meanvar {K : Type _} [Field K] [LinearOrder K] [IsStrictOrderedRing K] (x y : List K) (ddof : Int) (hp : x.Perm y) :
    Meanvar.meanvar id x ddof = Meanvar.meanvar id y ddof := by
  rcases eq_or_ne x [] with rfl | hx
  · rw [List.nil_perm.1 hp]
  · have hy : y ≠ [] := by rintro rfl; exact hx (List.perm_nil.1 hp)
    rw [Meanvar.C36_meanvar x ddof hx, Meanvar.C36_meanvar y ddof hy, Meanvar.sumSq_expand, Meanvar.sumSq_expand, (hp.map _).sum_eq]
    simp only [Meanvar.Spec.mean, hp.sum_eq, hp.length_eq]

/-- C125: kbnsum of a contiguous array, infinities and NaN included. -/
theorem C125_kbnsum {K : Type _} [Field K] [LinearOrder K] [IsStrictOrderedRing K] (m m' : Mem (XF K)) (p p' w : Int) (n : Nat)
    (hp : (elems m p w n).Perm (elems m' p' w n)) : Kbnsum.kbnsum id m p w w n = Kbnsum.kbnsum id m' p' w w n := by
  by_cases h1 : .nan ∈ elems m p w n ∨ (.pinf ∈ elems m p w n ∧ .ninf ∈ elems m p w n)
  · rw [Kbnsum.C37_contiguous_nan id (fun _ => rfl) m p w n h1,
      Kbnsum.C37_contiguous_nan id (fun _ => rfl) m' p' w n (by simpa only [hp.mem_iff] using h1)]
  · rw [not_or, not_and] at h1
    by_cases h2 : .pinf ∈ elems m p w n
    · have h3 := h1.2 h2
      rw [Kbnsum.C37_contiguous_inf id (fun _ => rfl) m p w n .pinf .ninf (.inl ⟨rfl, rfl⟩) h2 h1.1 h3]
      rw [hp.mem_iff] at h2 h3
      rw [Kbnsum.C37_contiguous_inf id (fun _ => rfl) m' p' w n .pinf .ninf (.inl ⟨rfl, rfl⟩) h2 (by rw [← hp.mem_iff]; exact h1.1) h3]
    · by_cases h3 : .ninf ∈ elems m p w n
      · rw [Kbnsum.C37_contiguous_inf id (fun _ => rfl) m p w n .ninf .pinf (.inr ⟨rfl, rfl⟩) h3 h1.1 h2]
        rw [hp.mem_iff] at h2 h3
        rw [Kbnsum.C37_contiguous_inf id (fun _ => rfl) m' p' w n .ninf .pinf (.inr ⟨rfl, rfl⟩) h3 (by rw [← hp.mem_iff]; exact h1.1) h2]
      · have fin : ∀ l : List (XF K), XF.nan ∉ l → XF.pinf ∉ l → XF.ninf ∉ l → ∃ u : List K, l = u.map .fin := by
          intro l a b c
          induction l with
          | nil => exact ⟨[], rfl⟩
          | cons v l ih =>
            simp only [List.mem_cons, not_or] at a b c
            obtain ⟨u, rfl⟩ := ih a.2 b.2 c.2
            cases v with
            | fin v => exact ⟨v :: u, rfl⟩
            | nan => exact absurd rfl a.1
            | pinf => exact absurd rfl b.1
            | ninf => exact absurd rfl c.1
        obtain ⟨u, hu⟩ := fin _ h1.1 h2 h3
        rw [hp.mem_iff] at h2 h3
        obtain ⟨v, hv⟩ := fin _ (by rw [← hp.mem_iff]; exact h1.1) h2 h3
        have lu : u.length = n := by have := congrArg List.length hu; simpa [elems] using this.symm
        have lv : v.length = n := by have := congrArg List.length hv; simpa [elems] using this.symm
        have a := Kbnsum.C37_finite_sum m p w w u (by rw [lu]; exact hu)
        have b := Kbnsum.C37_finite_sum m' p' w w v (by rw [lv]; exact hv)
        rw [lu] at a
        rw [lv] at b
        rw [hu, hv] at hp
        have huv : u.Perm v := (List.map_perm_map_iff (fun a b h => by simpa using h)).1 hp
        rw [a, b, huv.sum_eq]

/-- C125: gmean, hmean and pmean of positive numbers. -/
theorem C125_means (x y : List ℝ) (hx : x ≠ []) (pos : ∀ a ∈ x, 0 < a) (p : ℝ) (hp : 2e-6 ≤ |p|) (h : x.Perm y) :
    Means.gmean (x.map .fin) = Means.gmean (y.map .fin) ∧ Means.hmean (x.map .fin) = Means.hmean (y.map .fin) ∧
    Means.pmean (x.map .fin) (.fin p) = Means.pmean (y.map .fin) (.fin p) := by
  have hy : y ≠ [] := by rintro rfl; exact hx (List.perm_nil.1 h)
  have pos' : ∀ a ∈ y, 0 < a := fun a ha => pos a (h.mem_iff.2 ha)
  rw [Means.C65_gmean x hx pos, Means.C65_gmean y hy pos', Means.C65_hmean x hx pos, Means.C65_hmean y hy pos',
    Means.C65_pmean x p hx hp (fun a ha => (pos a ha).le) (.inr pos), Means.C65_pmean y p hy hp (fun a ha => (pos' a ha).le) (.inr pos')]
  simp only [MeansSpec.geo, MeansSpec.harm, MeansSpec.power, (h.map _).sum_eq, h.length_eq, and_self]

/-- C125: wjaccard of non-negative numbers with both arrays rearranged in the same way. -/
theorem C125_wjaccard {K : Type _} [Field K] [LinearOrder K] [IsStrictOrderedRing K] (l l' : List (K × K)) (hnn : ∀ q ∈ l, 0 ≤ q.1 ∧ 0 ≤ q.2)
    (h : l.Perm l') :
    Wjaccard.wjaccard XF.add XF.div (l.map fun q => (.fin q.1, .fin q.2)) = Wjaccard.wjaccard XF.add XF.div (l'.map fun q => (.fin q.1, .fin q.2)) := by
  rcases eq_or_ne l [] with rfl | hl
  · rw [List.nil_perm.1 h]
  · have hl' : l' ≠ [] := by rintro rfl; exact hl (List.perm_nil.1 h)
    have hnn' : ∀ q ∈ l', 0 ≤ q.1 ∧ 0 ≤ q.2 := fun q hq => hnn q (h.mem_iff.2 hq)
    by_cases hz : ∃ q ∈ l, q.1 ≠ 0 ∨ q.2 ≠ 0
    · refine ((Wjaccard.C40_formula l hl hnn).1 hz).trans (Eq.trans ?_ ((Wjaccard.C40_formula l' hl' hnn').1 (by simpa only [h.mem_iff] using hz)).symm)
      rw [(h.map _).sum_eq, (h.map fun q => max q.1 q.2).sum_eq]
    · have hz : ∀ q ∈ l, q.1 = 0 ∧ q.2 = 0 := by
        intro q hq
        by_contra hc
        exact hz ⟨q, hq, not_and_or.1 hc⟩
      exact ((Wjaccard.C40_formula l hl hnn).2 hz).trans ((Wjaccard.C40_formula l' hl' hnn').2 fun q hq => hz q (h.mem_iff.2 hq)).symm

/-- C125: pearson_corr with both arrays rearranged in the same way, infinities and NaN included. -/
theorem C125_pearson (n : Nat) (hn : 2 ≤ n) (m m' : Mem (XF ℝ)) (px sx py sy px' sx' py' sy' : Int) (σ : Nat → Nat)
    (hσ : Set.BijOn σ (Set.Iio n) (Set.Iio n)) (hx : ∀ i < n, get m' px' sx' i = get m px sx (σ i)) (hy : ∀ i < n, get m' py' sy' i = get m py sy (σ i)) :
    Corr.pearson n m' px' sx' py' sy' = Corr.pearson n m px sx py sy := by
  have mt : ∀ i < n, σ i < n := fun i hi => hσ.mapsTo hi
  have st : ∀ j < n, ∃ i < n, σ i = j := fun j hj => hσ.surjOn hj
  by_cases hf : (∃ i < n, (get m px sx i).isfinite = false) ∨ (∃ i < n, (get m py sy i).isfinite = false)
  · rw [Corr.C46_nonfinite n hn m px sx py sy hf, Corr.C46_nonfinite n hn m' px' sx' py' sy']
    rcases hf with ⟨j, hj, h⟩ | ⟨j, hj, h⟩ <;> obtain ⟨i, hi, rfl⟩ := st j hj
    · exact .inl ⟨i, hi, by rw [hx i hi]; exact h⟩
    · exact .inr ⟨i, hi, by rw [hy i hi]; exact h⟩
  · simp only [not_or, not_exists, not_and, Bool.not_eq_false] at hf
    have fin : ∀ v : XF ℝ, v.isfinite = true → ∃ a, v = .fin a := by intro v hv; cases v <;> simp_all [XF.isfinite]
    have cx : ∀ i, ∃ a, i < n → get m px sx i = .fin a := by
      intro i; by_cases hi : i < n
      · obtain ⟨a, ha⟩ := fin _ (hf.1 i hi); exact ⟨a, fun _ => ha⟩
      · exact ⟨0, fun h => absurd h hi⟩
    have cy : ∀ i, ∃ a, i < n → get m py sy i = .fin a := by
      intro i; by_cases hi : i < n
      · obtain ⟨a, ha⟩ := fin _ (hf.2 i hi); exact ⟨a, fun _ => ha⟩
      · exact ⟨0, fun h => absurd h hi⟩
    choose x hxx using cx
    choose y hyy using cy
    have A := Corr.C46_value n hn m px sx py sy x y hxx hyy
    have B := Corr.C46_value n hn m' px' sx' py' sy' (x ∘ σ) (y ∘ σ) (fun i hi => by rw [hx i hi]; exact hxx _ (mt i hi))
      (fun i hi => by rw [hy i hi]; exact hyy _ (mt i hi))
    have con : ∀ z : Nat → ℝ, Corr.Constant n (z ∘ σ) ↔ Corr.Constant n z := by
      intro z
      constructor
      · intro h i hi j hj
        obtain ⟨a, ha, rfl⟩ := st i hi
        obtain ⟨b, hb, rfl⟩ := st j hj
        exact h a ha b hb
      · intro h i hi j hj
        exact h _ (mt i hi) _ (mt j hj)
    have sum : ∀ f : Nat → ℝ, ∑ i ∈ Finset.range n, f (σ i) = ∑ i ∈ Finset.range n, f i := by
      intro f
      exact Finset.sum_nbij σ (fun i hi => by simpa using mt i (by simpa using hi)) (by simpa [Set.Iio] using hσ.injOn)
        (by simpa [Set.Iio] using hσ.surjOn) fun i _ => rfl
    have mean : ∀ z : Nat → ℝ, Corr.mean n (z ∘ σ) = Corr.mean n z := by
      intro z; simp only [Corr.mean, Function.comp, sum z]
    have corr : Corr.corr n (x ∘ σ) (y ∘ σ) = Corr.corr n x y := by
      simp only [Corr.corr, mean, Function.comp]
      rw [sum fun i => (x i - Corr.mean n x) * (y i - Corr.mean n y), sum fun i => (x i - Corr.mean n x) ^ 2, sum fun i => (y i - Corr.mean n y) ^ 2]
    by_cases hc : Corr.Constant n x ∨ Corr.Constant n y
    · rw [A.2 hc, B.2 (by rwa [con, con])]
    · rw [not_or] at hc
      rw [A.1 hc.1 hc.2, B.1 (by rw [con]; exact hc.1) (by rw [con]; exact hc.2), corr]

/-- C125: softmax: every element gets a value that depends on the element and on the set of the others,
not on the order; infinities and NaN included. -/
theorem C125_softmax (x y : List (XF ℝ)) (h : x.Perm y) :
    ∃ f : XF ℝ → XF ℝ, Softmax.softmax Real.exp x = x.map f ∧ Softmax.softmax Real.exp y = y.map f := by
  have nan : ∀ l : List (XF ℝ), (.nan ∈ l ∨ 1 < l.countP (fun v => decide (v = .pinf)) ∨ (l ≠ [] ∧ ∀ v ∈ l, v = .ninf)) →
      Softmax.softmax Real.exp l = l.map fun _ => .nan := by
    intro l hl
    rw [Softmax.C35_nan _ l hl, List.map_const']
  by_cases h1 : .nan ∈ x ∨ 1 < x.countP (fun v => decide (v = .pinf)) ∨ (x ≠ [] ∧ ∀ v ∈ x, v = .ninf)
  · refine ⟨_, nan x h1, nan y ?_⟩
    have : x = [] ↔ y = [] := ⟨fun e => by subst e; exact List.nil_perm.1 h, fun e => by subst e; exact List.perm_nil.1 h⟩
    simpa only [h.mem_iff, h.countP_eq, ne_eq, this] using h1
  · rcases eq_or_ne x [] with rfl | hx
    · rw [List.nil_perm.1 h]; exact ⟨id, rfl, rfl⟩
    · simp only [not_or, not_and, not_lt] at h1
      obtain ⟨n1, n2, n3⟩ := h1
      by_cases hpi : .pinf ∈ x
      · have one : ∀ l : List (XF ℝ), XF.nan ∉ l → l.countP (fun v => decide (v = .pinf)) ≤ 1 → XF.pinf ∈ l →
            Softmax.softmax Real.exp l = l.map fun v => if v = .pinf then .fin 1 else .fin 0 := by
          intro l a b c
          obtain ⟨s, t, rfl⟩ := List.append_of_mem c
          have hs : ∀ v ∈ s ++ t, v ≠ .pinf := by
            intro v hv e
            subst e
            have : 0 < (s ++ t).countP (fun v => decide (v = .pinf)) := List.countP_pos_iff.2 ⟨_, hv, by simp⟩
            rw [List.countP_append] at this
            rw [List.countP_append, List.countP_cons] at b
            simp only [decide_true, if_true] at b
            omega
          have hs' : ∀ v ∈ s ++ t, XF.isnan v = false ∧ v ≠ .pinf := by
            intro v hv
            refine ⟨?_, hs v hv⟩
            cases v with
            | nan => exact absurd (by rcases List.mem_append.1 hv with h | h <;> simp [h]) a
            | _ => rfl
          rw [Softmax.C35_one_inf _ s t hs', List.map_append, List.map_cons, if_pos rfl]
          congr 1
          · rw [← List.map_const']
            exact List.map_congr_left fun v hv => (if_neg (hs v (List.mem_append_left _ hv))).symm
          · congr 1
            rw [← List.map_const']
            exact List.map_congr_left fun v hv => (if_neg (hs v (List.mem_append_right _ hv))).symm
        exact ⟨_, one x n1 n2 hpi, one y (by rwa [← h.mem_iff]) (by rwa [← h.countP_eq]) (h.mem_iff.1 hpi)⟩
      · have c1 : ∀ v ∈ x, XF.isnan v = false ∧ v ≠ .pinf := by
          intro v hv
          cases v with
          | nan => exact absurd hv n1
          | pinf => exact absurd hv hpi
          | _ => exact ⟨rfl, by simp⟩
        have c2 : ∃ v ∈ x, XF.isfinite v = true := by
          have := n3 hx
          simp only [not_forall] at this
          obtain ⟨v, hv, hne⟩ := this
          refine ⟨v, hv, ?_⟩
          have := c1 v hv
          cases v <;> simp_all [XF.isfinite, XF.isnan]
        refine ⟨_, Softmax.C35_formula x c1 c2, ?_⟩
        rw [Softmax.C35_formula y (fun v hv => c1 v (h.mem_iff.2 hv)) (by simpa only [h.mem_iff] using c2), (h.map Softmax.weight).sum_eq]

/-! ## gendot and backlash_sum -/

/-- C125: gendot with a commutative and associative sum function: rearranging the pairs of elements does
not change the stored results. -/
theorem C125_gendot {α₁ α₂ β : Type} (ok ok' : Int → Bool) (C : Gendot.Codec β) (f : α₁ → α₂ → β) (g : β → β → β) (hcomm : ∀ a b, g a b = g b a)
    (hassoc : ∀ a b c, g (g a b) c = g a (g b c)) (ident ident' : Option (List UInt8)) (rx rx' : Int → α₁) (ry ry' : Int → α₂)
    (s0 s1 s2 s3 s4 tmp s0' s1' s2' s3' s4' tmp' : Int) (L n : Nat) (hn : 0 < n) (px py pout px' py' pout' : Int) (m m' : Gendot.Bytes)
    (hown : Gendot.Owned ok tmp n C.size L pout s2) (hsep : Gendot.Separate tmp n C.size L pout s2)
    (hown' : Gendot.Owned ok' tmp' n C.size L pout' s2') (hsep' : Gendot.Separate tmp' n C.size L pout' s2')
    (hp : ∀ j < L, (Gendot.products f rx ry s0 s1 s3 s4 px py n j).Perm (Gendot.products f rx' ry' s0' s1' s3' s4' px' py' n j)) :
    ∃ r r', Gendot.gendotLoop ok C C f (.elementwise g) ident rx ry s0 s1 s2 s3 s4 tmp L n px py pout m = .done (some r) ∧
      Gendot.gendotLoop ok' C C f (.elementwise g) ident' rx' ry' s0' s1' s2' s3' s4' tmp' L n px' py' pout' m' = .done (some r') ∧
      ∀ j < L, Gendot.load r (pout + (j : Int) * s2) C.size = Gendot.load r' (pout' + (j : Int) * s2') C.size := by
  obtain ⟨r, a1, a2, _⟩ := Gendot.C62_elementwise ok C f g ident rx ry s0 s1 s2 s3 s4 tmp L n hn px py pout m hown hsep
  obtain ⟨r', b1, b2, _⟩ := Gendot.C62_elementwise ok' C f g ident' rx' ry' s0' s1' s2' s3' s4' tmp' L n hn px' py' pout' m' hown' hsep'
  refine ⟨r, r', a1, b1, fun j hj => ?_⟩
  obtain ⟨p, ps, c1, c2⟩ := a2 j hj
  obtain ⟨q, qs, d1, d2⟩ := b2 j hj
  have hpj := hp j hj
  rw [c1, d1] at hpj
  rw [c2, d2]
  congr 1
  have i1 : Std.Commutative g := ⟨hcomm⟩
  have i2 : Std.Associative g := ⟨hassoc⟩
  have fold : ∀ l l' : List β, l.Perm l' → ∀ a as b bs, l = a :: as → l' = b :: bs → as.foldl g a = bs.foldl g b := by
    intro l l' hll
    have key : ∀ l : List β, ∀ a as, l = a :: as → some (as.foldl g a) = l.foldl (fun (o : Option β) v => some (o.elim v fun u => g u v)) none := by
      rintro _ a as rfl
      simp only [List.foldl_cons, Option.elim]
      induction as generalizing a with
      | nil => rfl
      | cons b as ih => simp only [List.foldl_cons]; exact ih (g a b)
    intro a as b bs e1 e2
    have := hll.foldl_eq' (f := fun (o : Option β) v => some (o.elim v fun u => g u v)) (by
      intro u _ v _ z
      cases z with
      | none => simp [hcomm]
      | some z => simp [hassoc, hcomm u v]) none
    rw [← key l a as e1, ← key l' b bs e2] at this
    exact Option.some.inj this
  exact fold _ _ hpj p ps q qs rfl rfl

/-- C125: backlash_sum: rearranging the channels (weight, deadband and initial value together) does not
change the output, and rearranges the final values in the same way. -/
theorem C125_backlash_sum {K : Type _} [Field K] [LinearOrder K] [IsStrictOrderedRing K] (l l' : List (Signal.Channel K × K)) (h : l.Perm l') (xs : List K) :
    (Signal.backlashSum (l.map (·.1)) (l.map (·.2)) xs).1 = (Signal.backlashSum (l'.map (·.1)) (l'.map (·.2)) xs).1 ∧
    ∃ f : Signal.Channel K × K → K, (Signal.backlashSum (l.map (·.1)) (l.map (·.2)) xs).2 = l.map f ∧
      (Signal.backlashSum (l'.map (·.1)) (l'.map (·.2)) xs).2 = l'.map f := by
  have len : ∀ (chs : List (Signal.Channel K)) (ini : List K), (Signal.backlashSum chs ini xs).1.length = xs.length := by
    intro chs ini
    rw [Signal.backlashSum]
    induction xs generalizing ini with
    | nil => rfl
    | cons x xs ih => simp only [Signal.sumOuter, List.length_cons, ih]
  have zip : ∀ {β : Type _} (f : Signal.Channel K → K → β) (l : List (Signal.Channel K × K)),
      List.zipWith f (l.map (·.1)) (l.map (·.2)) = l.map fun q => f q.1 q.2 := by
    intro β f l
    induction l with
    | nil => rfl
    | cons q l ih => rw [List.map_cons, List.map_cons, List.zipWith_cons_cons, ih, List.map_cons]
  constructor
  · apply List.ext_getElem?
    intro k
    by_cases hk : k < xs.length
    · rw [Signal.C29_out _ _ (by simp) xs k hk, Signal.C29_out _ _ (by simp) xs k hk, zip, zip, ← List.sum_eq_foldl, ← List.sum_eq_foldl, (h.map _).sum_eq]
    · rw [List.getElem?_eq_none (by rw [len]; omega), List.getElem?_eq_none (by rw [len]; omega)]
  · exact ⟨_, by rw [Signal.C29_final _ _ (by simp), zip], by rw [Signal.C29_final _ _ (by simp), zip]⟩

/-! ## Non-vacuity -/

example : MinMax.minmax (fun a b : Int => decide (a < b)) 3 [1, 2] = MinMax.minmax (fun a b : Int => decide (a < b)) 2 [3, 1] := by decide
example : MinMax.argmin (fun a b : Int => decide (a < b)) 3 [1, 2, 5] = 1 ∧ MinMax.argmin (fun a b : Int => decide (a < b)) 5 [2, 1, 3] = 2 := by decide
example : Ordered.ordered (xfOps Int) 0 [.fin 1, .fin 2, .nan] = true ∧ Ordered.ordered (xfOps Int) (flipCode 0) [.nan, .fin 2, .fin 1] = true ∧
    Ordered.ordered (xfOps Int) 0 [.nan, .fin 2, .fin 1] = false := by decide
example : ∀ a b : XF Int, (xfOps Int).gt a b = (xfOps Int).lt b a ∧ (xfOps Int).ge a b = (xfOps Int).le b a ∧ (xfOps Int).eq a b = (xfOps Int).eq b a ∧
    (xfOps Int).ne a b = (xfOps Int).ne b a := by
  intro a b
  cases a <;> cases b <;> simp [xfOps, XF.gt, XF.ge, XF.eq, XF.ne, XF.lt, XF.le, eq_comm]
example : Set.BijOn (fun i => 2 - i) (Set.Iio 3) (Set.Iio 3) := by
  refine ⟨fun i hi => ?_, fun i hi j hj h => ?_, fun j hj => ⟨2 - j, ?_, ?_⟩⟩ <;> simp only [Set.mem_Iio] at * <;> omega
example : Signal.backlashSum [⟨1, 2⟩, ⟨3, 4⟩] [0, 1] [5, (1 : ℚ)] = ([13, 11], [2, 3]) ∧
    Signal.backlashSum [⟨3, 4⟩, ⟨1, 2⟩] [1, 0] [5, (1 : ℚ)] = ([13, 11], [3, 2]) := by
  constructor <;> decide +kernel

end Ufunclab.Reorder
