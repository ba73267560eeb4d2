import Verif.Props.OneHot
import Verif.Props.Bincount
import Verif.Props.Searchsorted
import Verif.Props.First
import Verif.Props.AllSame
import Verif.Props.Ordered
import Verif.Props.Percentile
import Verif.Props.MinMax
import Verif.Props.PeakToPeak
/-!
# C122: functions of different modules agree (counting, searching and ordering)

The array is the list of the elements of a strided memory (`elems`).  `ordered(x, op.LE)` is the
condition "sorted".
-/
namespace Ufunclab.Agree
open Spec
variable {β : Type} [LinearOrder β]

theorem strictWeak_lt : StrictWeak (fun a b : β => decide (a < b)) where
  irrefl := by simp
  trans := by intro a b c; simp only [decide_eq_true_eq]; exact lt_trans
  negTrans := by intro a b c; simp only [decide_eq_false_iff_not, not_lt]; exact fun h1 h2 => le_trans h2 h1

theorem sorted_of_ordered {xs : List β} (h : Ordered.ordered (linOps β) 1 xs = true) : Sorted (fun a b : β => decide (a < b)) xs := by
  have := (Ordered.C22_all_pairs Op.LE (by decide) 1 rfl xs).1 h
  refine this.imp fun hab => ?_
  simpa [Op.rel] using hab

/-- On a sorted array the percentiles of `percentileofscore` are the insertion points of `searchsorted`, in percent: kind weak is `searchsortedr`, kind strict
`searchsortedl`. -/
theorem C122_percentile_searchsorted {K : Type} [Field K] [LinearOrder K] [IsStrictOrderedRing K] (m : Mem β) (a step : Int) (n : Nat) (v : β)
    (h : Ordered.ordered (linOps β) 1 (elems m a step n) = true) :
    Percentile.percentileofscore (K := K) (fun a b : β => decide (a < b)) (fun a b => decide (a = b)) (elems m a step n) v 1 =
      some (100 * ((Searchsorted.searchsortedr (fun a b : β => decide (a < b)) m a n step v).1 : K) / n) ∧
    Percentile.percentileofscore (K := K) (fun a b : β => decide (a < b)) (fun a b => decide (a = b)) (elems m a step n) v 2 =
      some (100 * ((Searchsorted.searchsortedl (fun a b : β => decide (a < b)) m a n step v).1 : K) / n) := by
  have hs := sorted_of_ordered h
  obtain ⟨h1, h2, -⟩ := Percentile.C24_strict_weak_mean (K := K) (elems m a step n) v
  have hlen : ((elems m a step n).length : K) = n := by simp [elems]
  rw [Searchsorted.C02_searchsortedr_count _ strictWeak_lt m a step n v hs, Searchsorted.C01_searchsortedl_count _ strictWeak_lt m a step n v hs]
  rw [hlen] at h1 h2
  refine ⟨?_, h1⟩
  have e : (fun x : β => !decide (v < x)) = fun x => decide (x ≤ v) := by
    funext x; by_cases hx : x ≤ v <;> simp [hx, not_lt.mpr, not_le.mp]
  rw [e]; exact h2

/-- On a sorted array `searchsortedl` is the index that `argfirst` gives with `>=`, and `searchsortedr` the one with `>`; `argfirst` gives -1 where the
insertion point is the end. -/
theorem C122_argfirst_searchsorted (m : Mem β) (a step : Int) (n : Nat) (v : β)
    (h : Ordered.ordered (linOps β) 1 (elems m a step n) = true) :
    (let r := (Searchsorted.searchsortedl (fun a b : β => decide (a < b)) m a n step v).1
     First.argfirst (linOps β) 5 v (elems m a step n) = if r = n then -1 else (r : Int)) ∧
    (let r := (Searchsorted.searchsortedr (fun a b : β => decide (a < b)) m a n step v).1
     First.argfirst (linOps β) 4 v (elems m a step n) = if r = n then -1 else (r : Int)) := by
  have hs := sorted_of_ordered h
  have key : ∀ (op : Op) (code : Int), Op.ofCode code = some op → ∀ (xs : List β) (p : β → Bool), (∀ x, p x = true ↔ ¬ Op.rel op x v) →
      xs.Pairwise (fun x y => p y = true → p x = true) →
      First.argfirst (linOps β) code v xs = if xs.countP p = xs.length then -1 else ((xs.countP p : Nat) : Int) := by
    intro op code hc xs p hp hpw
    split
    · rename_i hall
      rw [First.C19_argfirst_none op code hc]
      intro x hx
      exact (hp x).1 (List.countP_eq_length.mp hall x hx)
    · rename_i hne
      rw [First.C19_argfirst_linear op code hc]
      have gen : ∀ xs : List β, xs.Pairwise (fun x y => p y = true → p x = true) →
          (∀ (j : Nat) x, xs[j]? = some x → (p x = true ↔ j < xs.countP p)) := by
        intro xs
        induction xs with
        | nil => intro _ j x hx; simp at hx
        | cons y ys ih =>
          intro hpw j x hx
          rw [List.pairwise_cons] at hpw
          by_cases hy : p y = true
          · rw [List.countP_cons_of_pos hy]
            cases j with
            | zero => simp only [List.getElem?_cons_zero, Option.some.injEq] at hx; subst hx; simp [hy]
            | succ j =>
              simp only [List.getElem?_cons_succ] at hx
              rw [ih hpw.2 j x hx]; omega
          · have hz : ys.countP p = 0 := by
              rw [List.countP_eq_zero]
              exact fun z hz hpz => hy (hpw.1 z hz hpz)
            rw [List.countP_cons_of_neg (by simpa using hy), hz]
            refine ⟨fun hpx => ?_, fun hj => absurd hj (by omega)⟩
            cases j with
            | zero => simp only [List.getElem?_cons_zero, Option.some.injEq] at hx; subst hx; exact absurd hpx hy
            | succ j =>
              simp only [List.getElem?_cons_succ] at hx
              exact absurd (hpw.1 x (List.mem_of_getElem? hx) hpx) hy
      have hlt : xs.countP p < xs.length := lt_of_le_of_ne List.countP_le_length hne
      refine ⟨⟨xs[xs.countP p], List.getElem?_eq_getElem hlt, ?_⟩, fun j hj x hx hr => ?_⟩
      · by_contra hr
        have := (gen xs hpw _ _ (List.getElem?_eq_getElem hlt)).1 ((hp _).2 hr)
        omega
      · exact (hp x).1 ((gen xs hpw j x hx).2 hj) hr
  have hlen : (elems m a step n).length = n := by simp [elems]
  constructor
  · simp only
    rw [Searchsorted.C01_searchsortedl_count _ strictWeak_lt m a step n v hs,
      key .GE 5 rfl (elems m a step n) (fun x => decide (x < v)) (by intro x; simp [Op.rel]) ?_, hlen]
    refine hs.imp fun {x y} hxy => ?_
    simp only [decide_eq_false_iff_not, not_lt, decide_eq_true_eq] at hxy ⊢
    exact fun hy => lt_of_le_of_lt hxy hy
  · simp only
    rw [Searchsorted.C02_searchsortedr_count _ strictWeak_lt m a step n v hs,
      key .GT 4 rfl (elems m a step n) (fun x => !decide (v < x)) (by intro x; simp [Op.rel]) ?_, hlen]
    refine hs.imp fun {x y} hxy => ?_
    simp only [decide_eq_false_iff_not, not_lt, Bool.not_eq_true', decide_eq_false_iff_not] at hxy ⊢
    exact fun hy => le_trans hxy hy

/-- `all_same(x)`, `ordered(x, op.EQ)` and "`argfirst(x, op.NE, x[0])` is -1" are the same. -/
theorem C122_all_same (x0 : β) (xs : List β) :
    AllSame.allSame (fun a b => decide (a ≠ b)) (x0 :: xs) = Ordered.ordered (linOps β) 2 (x0 :: xs) ∧
    (AllSame.allSame (fun a b => decide (a ≠ b)) (x0 :: xs) = true ↔ First.argfirst (linOps β) 3 x0 (x0 :: xs) = -1) := by
  have h1 := AllSame.C21_all_same_eq (x0 :: xs)
  have h2 := Ordered.C22_all_pairs Op.EQ (by decide) 2 rfl (x0 :: xs)
  have h3 := First.C19_argfirst_none Op.NE 3 rfl x0 (x0 :: xs)
  constructor
  · rw [Bool.eq_iff_iff, h1, h2]
    constructor
    · intro h
      exact List.pairwise_of_forall_mem_list fun x hx y hy => h x hx y hy
    · intro h
      have : ∀ y ∈ x0 :: xs, x0 = y := by
        rw [List.pairwise_cons] at h
        intro y hy
        rcases List.mem_cons.mp hy with rfl | hy
        · rfl
        · exact h.1 y hy
      exact fun x hx y hy => (this x hx).symm.trans (this y hy)
  · rw [h1, h3]
    simp only [Op.rel, ne_eq, not_not]
    exact ⟨fun h x hx => h x hx x0 (by simp), fun h x hx y hy => (h x hx).trans (h y hy).symm⟩

/-- `all_same(x)` holds exactly if the two results of `minmax(x)` are equal. -/
theorem C122_all_same_minmax (x0 : β) (xs : List β) :
    AllSame.allSame (fun a b => decide (a ≠ b)) (x0 :: xs) = true ↔
      (MinMax.minmax (fun a b : β => decide (a < b)) x0 xs).1 = (MinMax.minmax (fun a b : β => decide (a < b)) x0 xs).2 := by
  rw [AllSame.C21_all_same_eq]
  obtain ⟨h1, h2, h3⟩ := MinMax.C14_minmax _ strictWeak_lt x0 xs
  refine ⟨fun h => h _ h1 _ h2, fun h x hx y hy => ?_⟩
  have gx := h3 x hx
  have gy := h3 y hy
  simp only [decide_eq_false_iff_not, not_lt] at gx gy
  rw [h] at gx gy
  exact (le_antisymm gx.2 gx.1).trans (le_antisymm gy.2 gy.1).symm

/-- `argmin(x)` and `argmax(x)` are the positions at which `argfirst` finds the minimum and the maximum. -/
theorem C122_argmin_argfirst (x0 : β) (xs : List β) :
    First.argfirst (linOps β) 2 (MinMax.minmax (fun a b : β => decide (a < b)) x0 xs).1 (x0 :: xs) = (MinMax.argmin (fun a b : β => decide (a < b)) x0 xs : Nat) ∧
    First.argfirst (linOps β) 2 (MinMax.minmax (fun a b : β => decide (a < b)) x0 xs).2 (x0 :: xs) = (MinMax.argmax (fun a b : β => decide (a < b)) x0 xs : Nat) := by
  obtain ⟨e1, e2⟩ := MinMax.C15_value_at_index (fun a b : β => decide (a < b)) x0 xs
  obtain ⟨v, hv, -, h1⟩ := MinMax.C14_argmin _ strictWeak_lt x0 xs
  obtain ⟨w, hw, -, h2⟩ := MinMax.C14_argmax _ strictWeak_lt x0 xs
  rw [e1] at hv
  rw [e2] at hw
  constructor
  · rw [First.C19_argfirst_linear Op.EQ 2 rfl]
    refine ⟨⟨_, e1, rfl⟩, fun j hj x hx hr => ?_⟩
    have := h1 j hj x hx
    simp only [Op.rel] at hr
    rw [← Option.some.inj hv, hr] at this
    simp at this
  · rw [First.C19_argfirst_linear Op.EQ 2 rfl]
    refine ⟨⟨_, e2, rfl⟩, fun j hj x hx hr => ?_⟩
    have := h2 j hj x hx
    simp only [Op.rel] at hr
    rw [← Option.some.inj hw, hr] at this
    simp at this

/-- For signed integers `peaktopeak(x)` is the difference of the results of `minmax(x)`; it is 0 exactly if `all_same(x)`. -/
theorem C122_peaktopeak (bits : Nat) (hb : 0 < bits) (size : Int) (m : Mem Int) (p s : Int) (x0 : Int) (xs : List Int)
    (hx : elems m p s (xs.length + 1) = x0 :: xs) (hr : ∀ x ∈ x0 :: xs, (IntTy.mk bits true).InRange x) :
    let mm := MinMax.minmax (fun a b : Int => decide (a < b)) x0 xs
    PeakToPeak.peaktopeakSigned bits size m p s (xs.length + 1) = some (mm.2 - mm.1) ∧
      (PeakToPeak.peaktopeakSigned bits size m p s (xs.length + 1) = some 0 ↔ AllSame.allSame (fun a b => decide (a ≠ b)) (x0 :: xs) = true) := by
  intro mm
  obtain ⟨a, ha, b, hb', hab, he, -⟩ := PeakToPeak.C18_signed bits hb size m p s (xs.length + 1) (by omega) (by rw [hx]; exact hr)
  rw [hx] at ha hb' hab
  obtain ⟨h1, h2, h3⟩ := MinMax.C14_minmax _ StrictWeak.int x0 xs
  have e1 : mm.1 = b := by
    have g1 := (h3 b hb').1
    have g2 := (hab mm.1 h1).1
    simp only [decide_eq_false_iff_not, not_lt] at g1
    exact le_antisymm g1 g2
  have e2 : mm.2 = a := by
    have g1 := (h3 a ha).2
    have g2 := (hab mm.2 h2).2
    simp only [decide_eq_false_iff_not, not_lt] at g1
    exact le_antisymm g2 g1
  have he' : PeakToPeak.peaktopeakSigned bits size m p s (xs.length + 1) = some (mm.2 - mm.1) := by rw [he, e1, e2]
  refine ⟨he', ?_⟩
  rw [he', C122_all_same_minmax]
  simp only [Option.some.injEq]
  constructor
  · intro h; show mm.1 = mm.2; omega
  · intro h
    have : mm.1 = mm.2 := h
    omega

/-- `one_hot(k, n)` is `bincount([k], n)`. -/
theorem C122_one_hot_bincount (szT szU : Int) (n : Nat) (x p s po so px sx : Int) (mo mb mx : Mem Int) (hs : s ≠ 0) (hso : so ≠ 0)
    (hx : mx px = x) (hx63 : x < 2 ^ 63) (hz : ∀ j < n, get mb po so j = 0) :
    elems (OneHot.core n x p s mo) p s n = elems (Bincount.core szT szU 1 n mx px sx po so mb) po so n := by
  have he : elems mx px sx 1 = [x] := by simp [elems, get, hx]
  rw [OneHot.C08_one_hot_list n x p s mo hs, Bincount.C09_counts_zero szT szU 1 n mx px sx po so mb hso (by rw [he]; simpa using hx63) hz, he]
  refine List.map_congr_left fun j _ => ?_
  by_cases hj : (j : Int) = x
  · simp [hj]
  · have : ¬ (x = (j : Int)) := fun h => hj h.symm
    simp [hj, this]

/-- The count of `j` in `bincount(x)` is `searchsortedr(y, j) - searchsortedl(y, j)` for the sorted `y`. -/
theorem C122_bincount_searchsorted (szT szU : Int) (n m : Nat) (mx my : Mem Int) (px sx py sy po so : Int) (mo : Mem Int) (hso : so ≠ 0)
    (hx : ∀ k ∈ elems mx px sx n, k < 2 ^ 63) (hz : ∀ j < m, get mo po so j = 0)
    (hperm : (elems mx px sx n).Perm (elems my py sy n)) (hsorted : Ordered.ordered (linOps Int) 1 (elems my py sy n) = true) (j : Nat) (hj : j < m) :
    get (Bincount.core szT szU n m mx px sx po so mo) po so j =
      ((Searchsorted.searchsortedr (fun a b : Int => decide (a < b)) my py n sy j).1 : Int) -
        ((Searchsorted.searchsortedl (fun a b : Int => decide (a < b)) my py n sy j).1 : Int) := by
  rw [Bincount.C09_counts szT szU n m mx px sx po so mo hso hx j hj, hz j hj,
    Searchsorted.C02_multiplicity _ StrictWeak.int my py sy n (j : Int) (sorted_of_ordered hsorted), hperm.countP_eq]
  have e : (fun x : Int => !decide (x < (j : Int)) && !decide ((j : Int) < x)) = fun k => k == (j : Int) := by
    funext x
    rw [Bool.eq_iff_iff]
    simp only [Bool.and_eq_true, Bool.not_eq_true', decide_eq_false_iff_not, beq_iff_eq]
    omega
  rw [e]
  push_cast
  ring

example : Ordered.ordered (linOps Int) 1 (elems (fun a => a / 8) 0 8 5) = true ∧ First.argfirst (linOps Int) 4 2 (elems (fun a => a / 8) 0 8 5) = 3 := by
  decide +kernel

end Ufunclab.Agree
