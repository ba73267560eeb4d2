import Verif.Props.MinMax
import Verif.Props.First
import Verif.Props.AllSame
import Verif.Props.Ordered
import Verif.Props.Percentile
import Verif.Props.Searchsorted
import Verif.Props.Bincount
import Verif.Props.Fillnan
import Verif.Props.Unwrap
/-!
# Property C124: the result for an array made of two pieces follows from the results for the pieces

The discrete functions, and the two signal functions fillnan1d and unwrap; the numerical functions are in
Props/PiecesReal.  Arrays are the lists of their elements.
-/
namespace Ufunclab.Pieces
open Ufunclab Spec
variable {α : Type _}

/-! ## The minmax family -/

/-- One more piece: the first extreme of `y :: ys` replaces the current one only if it is strictly
smaller. -/
theorem loop_piece (lt : α → α → Bool) (h : StrictWeak lt) (k : Nat) (m : α) (i : Nat) (y : α) (ys : List α) :
    MinMax.minArgminLoop lt k m i (y :: ys) =
      if lt (MinMax.minArgminLoop lt (k + 1) y k ys).1 m then MinMax.minArgminLoop lt (k + 1) y k ys else (m, i) := by
  induction ys generalizing k m i y with
  | nil => rfl
  | cons z zs ih =>
    rw [MinMax.minArgminLoop, ih (k + 1) y k z, ih (k + 1) m i z]
    generalize MinMax.minArgminLoop lt (k + 1 + 1) z (k + 1) zs = r
    cases h1 : lt y m
    · cases h2 : lt r.1 y
      · have h3 := h.negTrans _ _ _ h2 h1
        simp [h1, h3]
      · simp
    · cases h2 : lt r.1 y
      · simp [h1]
      · have h3 := h.trans _ _ _ h2 h1
        simp [h3]

theorem loop_append (lt : α → α → Bool) (k : Nat) (m : α) (i : Nat) (xs ys : List α) :
    MinMax.minArgminLoop lt k m i (xs ++ ys) =
      MinMax.minArgminLoop lt (k + xs.length) (MinMax.minArgminLoop lt k m i xs).1 (MinMax.minArgminLoop lt k m i xs).2 ys := by
  induction xs generalizing k m i with
  | nil => rfl
  | cons x xs ih =>
    rw [List.cons_append, MinMax.minArgminLoop, MinMax.minArgminLoop, List.length_cons, show k + (xs.length + 1) = k + 1 + xs.length by omega]
    split <;> exact ih _ _ _

theorem loop_shift (lt : α → α → Bool) (c k : Nat) (m : α) (i : Nat) (xs : List α) :
    MinMax.minArgminLoop lt (c + k) m (c + i) xs =
      ((MinMax.minArgminLoop lt k m i xs).1, c + (MinMax.minArgminLoop lt k m i xs).2) := by
  induction xs generalizing k m i with
  | nil => rfl
  | cons x xs ih =>
    rw [MinMax.minArgminLoop, MinMax.minArgminLoop]
    split
    · exact ih (k + 1) x k
    · exact ih (k + 1) m i

/-- C124: min_argmin of two pieces: the second piece wins only when its minimum is strictly smaller,
and then its index is counted from the beginning. -/
theorem C124_min_argmin (lt : α → α → Bool) (h : StrictWeak lt) (x0 y0 : α) (xs ys : List α) :
    MinMax.minArgmin lt x0 (xs ++ y0 :: ys) =
      if lt (MinMax.minArgmin lt y0 ys).1 (MinMax.minArgmin lt x0 xs).1
      then ((MinMax.minArgmin lt y0 ys).1, (x0 :: xs).length + (MinMax.minArgmin lt y0 ys).2)
      else MinMax.minArgmin lt x0 xs := by
  have e := loop_shift lt (1 + xs.length) 1 y0 0 ys
  simp only [Nat.add_zero] at e
  rw [MinMax.minArgmin, loop_append, loop_piece lt h, e]
  rw [List.length_cons, show 1 + xs.length = xs.length + 1 by omega]
  rfl

/-- C124: max_argmax likewise. -/
theorem C124_max_argmax (lt : α → α → Bool) (h : StrictWeak lt) (x0 y0 : α) (xs ys : List α) :
    MinMax.maxArgmax lt x0 (xs ++ y0 :: ys) =
      if lt (MinMax.maxArgmax lt x0 xs).1 (MinMax.maxArgmax lt y0 ys).1
      then ((MinMax.maxArgmax lt y0 ys).1, (x0 :: xs).length + (MinMax.maxArgmax lt y0 ys).2)
      else MinMax.maxArgmax lt x0 xs := by
  have e : ∀ (x : α) (l : List α), MinMax.maxArgmax lt x l = MinMax.minArgmin (fun a b => lt b a) x l :=
    fun x l => MinMax.maxArgmaxLoop_eq lt 1 x 0 l
  rw [e, e, e]
  exact C124_min_argmin (fun a b => lt b a)
    ⟨h.irrefl, fun a b c h1 h2 => h.trans _ _ _ h2 h1, fun a b c h1 h2 => h.negTrans _ _ _ h2 h1⟩ x0 y0 xs ys

theorem argmin_eq (lt : α → α → Bool) (x : α) (l : List α) : MinMax.argmin lt x l = (MinMax.minArgmin lt x l).2 :=
  MinMax.argminLoop_eq lt 1 x 0 l

theorem argmax_eq (lt : α → α → Bool) (x : α) (l : List α) : MinMax.argmax lt x l = (MinMax.maxArgmax lt x l).2 :=
  MinMax.argmaxLoop_eq lt 1 x 0 l

theorem minmax_eq (lt : α → α → Bool) (x : α) (l : List α) :
    MinMax.minmax lt x l = ((MinMax.minArgmin lt x l).1, (MinMax.maxArgmax lt x l).1) :=
  MinMax.minmaxLoop_eq lt 1 x x 0 0 l

/-- C124: argmin and argmax alone, with the values of minmax. -/
theorem C124_argmin_argmax (lt : α → α → Bool) (h : StrictWeak lt) (x0 y0 : α) (xs ys : List α) :
    MinMax.argmin lt x0 (xs ++ y0 :: ys) =
      (if lt (MinMax.minmax lt y0 ys).1 (MinMax.minmax lt x0 xs).1 then (x0 :: xs).length + MinMax.argmin lt y0 ys
       else MinMax.argmin lt x0 xs) ∧
    MinMax.argmax lt x0 (xs ++ y0 :: ys) =
      (if lt (MinMax.minmax lt x0 xs).2 (MinMax.minmax lt y0 ys).2 then (x0 :: xs).length + MinMax.argmax lt y0 ys
       else MinMax.argmax lt x0 xs) := by
  simp only [argmin_eq, argmax_eq, minmax_eq]
  rw [C124_min_argmin lt h, C124_max_argmax lt h]
  constructor <;> split <;> rfl

/-- C124: minmax of two pieces: the smaller of the minima and the larger of the maxima; on a tie the
first piece's. -/
theorem C124_minmax (lt : α → α → Bool) (h : StrictWeak lt) (x0 y0 : α) (xs ys : List α) :
    let a := MinMax.minmax lt x0 xs
    let b := MinMax.minmax lt y0 ys
    MinMax.minmax lt x0 (xs ++ y0 :: ys) = (if lt b.1 a.1 then b.1 else a.1, if lt a.2 b.2 then b.2 else a.2) := by
  simp only [minmax_eq]
  rw [C124_min_argmin lt h, C124_max_argmax lt h]
  apply Prod.ext
  · simp only; split <;> rfl
  · simp only; split <;> rfl

/-- C124 fails for minmax with NaN: the minimum of `[1, nan, 0]` is 0, but the minimum of `[nan, 0]`
is NaN, and no comparison with the minimum 1 of the first piece gives 0. -/
theorem C124_minmax_nan_violated : ∃ (x0 y0 : XF Int) (ys : List (XF Int)),
    (MinMax.minmax XF.lt y0 ys).1 = (MinMax.minmax XF.lt y0 []).1 ∧
    (MinMax.minmax XF.lt x0 (y0 :: ys)).1 ≠ (MinMax.minmax XF.lt x0 [y0]).1 :=
  ⟨.fin 1, .nan, [.fin 0], by decide, by decide⟩

/-! ## Searching from the front -/

theorem argfirstOp_append (c : CmpOps α) (op : Op) (t : α) (k : Nat) (xs ys : List α) :
    First.argfirstOp c op t k (xs ++ ys) =
      if First.argfirstOp c op t k xs = -1 then First.argfirstOp c op t (k + xs.length) ys else First.argfirstOp c op t k xs := by
  induction xs generalizing k with
  | nil => simp [First.argfirstOp]
  | cons x xs ih =>
    rw [List.cons_append, First.argfirstOp, First.argfirstOp]
    split
    · rw [if_neg (by omega)]
    · rw [ih, List.length_cons, show k + (xs.length + 1) = k + 1 + xs.length by omega]

theorem argfirstOp_shift (c : CmpOps α) (op : Op) (t : α) (k : Nat) (xs : List α) :
    First.argfirstOp c op t k xs = if First.argfirstOp c op t 0 xs = -1 then -1 else (k : Int) + First.argfirstOp c op t 0 xs := by
  have gen : ∀ (j k : Nat), (First.argfirstOp c op t j xs = -1 ∧ First.argfirstOp c op t k xs = -1) ∨
      (∃ n : Nat, First.argfirstOp c op t j xs = (j : Int) + n ∧ First.argfirstOp c op t k xs = (k : Int) + n) := by
    induction xs with
    | nil => intro j k; left; exact ⟨rfl, rfl⟩
    | cons x xs ih =>
      intro j k
      rw [First.argfirstOp, First.argfirstOp]
      split
      · right; exact ⟨0, by simp, by simp⟩
      · rcases ih (j + 1) (k + 1) with h | ⟨n, h1, h2⟩
        · exact .inl h
        · exact .inr ⟨n + 1, by rw [h1]; push_cast; ring, by rw [h2]; push_cast; ring⟩
  rcases gen 0 k with ⟨h1, h2⟩ | ⟨n, h1, h2⟩
  · rw [h1, h2, if_pos rfl]
  · rw [h1, h2, if_neg (by omega)]; simp

/-- C124: argfirst and first of two pieces: the second piece is used only if nothing was found in
the first.  For any comparison and any op code, unknown ones included. -/
theorem C124_first (c : CmpOps α) (code : Int) (target otherwise : α) (xs ys : List α) :
    First.argfirst c code target (xs ++ ys) =
      (if First.argfirst c code target xs ≠ -1 then First.argfirst c code target xs
       else if First.argfirst c code target ys ≠ -1 then (xs.length : Int) + First.argfirst c code target ys else -1) ∧
    First.first c code target otherwise (xs ++ ys) = First.first c code target (First.first c code target otherwise ys) xs := by
  unfold First.argfirst First.first
  cases Op.ofCode code with
  | none => simp
  | some op =>
    refine ⟨?_, ?_⟩
    · simp only [argfirstOp_append]
      rw [Nat.zero_add, argfirstOp_shift c op target xs.length ys]
      split_ifs <;> first | rfl | contradiction
    · simp only
      induction xs with
      | nil => rfl
      | cons x xs ih => rw [List.cons_append, First.firstOp, First.firstOp, ih]

/-- C124: all_same of two pieces, for an equality that is symmetric and transitive (NaN may differ
from itself). -/
theorem C124_all_same (eq : α → α → Bool) (hs : ∀ a b, eq a b = true → eq b a = true)
    (ht : ∀ a b c, eq a b = true → eq b c = true → eq a c = true) (x0 y0 : α) (xs ys : List α) :
    AllSame.allSame (fun a b => !eq a b) (x0 :: xs ++ y0 :: ys) =
      (AllSame.allSame (fun a b => !eq a b) (x0 :: xs) && AllSame.allSame (fun a b => !eq a b) (y0 :: ys) && eq x0 y0) := by
  have loop_eq : ∀ (f : α) (l : List α), AllSame.loop (fun a b => !eq a b) f l = l.all fun a => eq a f := by
    intro f l
    induction l with
    | nil => rfl
    | cons a l ih => rw [AllSame.loop, List.all_cons, ih]; cases eq a f <;> rfl
  have as_eq : ∀ (f : α) (l : List α), AllSame.allSame (fun a b => !eq a b) (f :: l) = l.all fun a => eq a f := by
    intro f l
    cases l with
    | nil => rfl
    | cons a l => rw [AllSame.allSame, loop_eq]; simp
  rw [List.cons_append, as_eq, as_eq, as_eq, List.all_append, List.all_cons, Bool.eq_iff_iff]
  simp only [Bool.and_eq_true, List.all_eq_true]
  constructor
  · rintro ⟨h1, h2, h3⟩
    exact ⟨⟨h1, fun a ha => ht _ _ _ (h3 a ha) (hs _ _ h2)⟩, hs _ _ h2⟩
  · rintro ⟨⟨h1, h2⟩, h3⟩
    exact ⟨h1, hs _ _ h3, fun a ha => ht _ _ _ (h2 a ha) (hs _ _ h3)⟩

/-- C124: ordered of two pieces that share one element, for any comparison (also with NaN) and any op
code. -/
theorem C124_ordered (c : CmpOps α) (code : Int) (xs ys : List α) (a : α) :
    Ordered.ordered c code (xs ++ a :: ys) = (Ordered.ordered c code (xs ++ [a]) && Ordered.ordered c code (a :: ys)) := by
  have e : ∀ (x : α) (l : List α), Ordered.ordered c code (x :: l) = Ordered.checkOrdered c ((Op.ofCode code).getD .GE) x l := by
    intro x l
    cases l with
    | nil => rfl
    | cons y l =>
      simp only [Ordered.ordered]
      cases Op.ofCode code with
      | none => rfl
      | some op => cases op <;> rfl
  generalize (Op.ofCode code).getD .GE = op at e
  have k : ∀ (x : α) (l : List α), Ordered.checkOrdered c op x (l ++ a :: ys) =
      (Ordered.checkOrdered c op x (l ++ [a]) && Ordered.checkOrdered c op a ys) := by
    intro x l
    induction l generalizing x with
    | nil => simp only [List.nil_append, Ordered.checkOrdered]; cases Ordered.failTest c op x a <;> simp
    | cons y l ih => simp only [List.cons_append, Ordered.checkOrdered, ih]; cases Ordered.failTest c op x y <;> simp
  cases xs with
  | nil => simp only [List.nil_append, e, Ordered.checkOrdered, Bool.true_and]
  | cons x xs => simp only [List.cons_append, e, k]

/-! ## Counting -/

/-- C124: percentileofscore: the counts of two pieces add up, whatever the comparisons; so for the
kinds weak, strict and mean (1, 2, 3) the percentile is the mean of the pieces' weighted with their
lengths. -/
theorem C124_percentileofscore {K : Type _} [Field K] [LinearOrder K] [IsStrictOrderedRing K] (lt eq : α → α → Bool) (xs ys : List α)
    (hx : xs ≠ []) (hy : ys ≠ []) (s : α) (kind : Int) (hk : kind = 1 ∨ kind = 2 ∨ kind = 3) :
    ∃ a b : K, Percentile.percentileofscore lt eq xs s kind = some a ∧ Percentile.percentileofscore lt eq ys s kind = some b ∧
      Percentile.percentileofscore lt eq (xs ++ ys) s kind = some ((xs.length * a + ys.length * b) / (xs.length + ys.length)) := by
  have c1 : (Percentile.count lt eq s (xs ++ ys)).1 = (Percentile.count lt eq s xs).1 + (Percentile.count lt eq s ys).1 := by
    simp only [Percentile.count, Percentile.countLoop_eq, List.countP_append, Nat.zero_add]
  have c2 : (Percentile.count lt eq s (xs ++ ys)).2.1 = (Percentile.count lt eq s xs).2.1 + (Percentile.count lt eq s ys).2.1 := by
    simp only [Percentile.count, Percentile.countLoop_eq, List.countP_append, Nat.zero_add]
  have nx : (xs.length : K) ≠ 0 := by simpa using hx
  have ny : (ys.length : K) ≠ 0 := by simpa using hy
  have w1 : IntTy.i32.wrap 1 = 1 := by decide
  have w2 : IntTy.i32.wrap 2 = 2 := by decide
  have w3 : IntTy.i32.wrap 3 = 3 := by decide
  rcases hk with rfl | rfl | rfl
  · simp only [Percentile.percentileofscore, w1, c1, c2, List.length_append]
    refine ⟨_, _, rfl, rfl, ?_⟩
    norm_num
    field_simp
    ring
  · simp only [Percentile.percentileofscore, w2, c1, List.length_append]
    refine ⟨_, _, rfl, rfl, ?_⟩
    norm_num
    field_simp
  · simp only [Percentile.percentileofscore, w3, c1, c2, List.length_append]
    refine ⟨_, _, rfl, rfl, ?_⟩
    norm_num
    field_simp
    ring

/-- C124: searchsortedl and searchsortedr: if the sorted array `c` holds the elements of the sorted
arrays `a` and `b`, the insertion point in `c` is the sum of the insertion points in `a` and `b`. -/
theorem C124_searchsorted (lt : α → α → Bool) (h : StrictWeak lt) (m : Mem α) (pa sa pb sb pc sc : Int) (na nb nc : Nat) (v : α)
    (ha : Sorted lt (elems m pa sa na)) (hb : Sorted lt (elems m pb sb nb)) (hc : Sorted lt (elems m pc sc nc))
    (hp : (elems m pc sc nc).Perm (elems m pa sa na ++ elems m pb sb nb)) :
    (Searchsorted.searchsortedl lt m pc nc sc v).1 =
      (Searchsorted.searchsortedl lt m pa na sa v).1 + (Searchsorted.searchsortedl lt m pb nb sb v).1 ∧
    (Searchsorted.searchsortedr lt m pc nc sc v).1 =
      (Searchsorted.searchsortedr lt m pa na sa v).1 + (Searchsorted.searchsortedr lt m pb nb sb v).1 := by
  constructor
  · rw [Searchsorted.C01_searchsortedl_count lt h m pc sc nc v hc, Searchsorted.C01_searchsortedl_count lt h m pa sa na v ha,
      Searchsorted.C01_searchsortedl_count lt h m pb sb nb v hb, hp.countP_eq, List.countP_append]
  · rw [Searchsorted.C02_searchsortedr_count lt h m pc sc nc v hc, Searchsorted.C02_searchsortedr_count lt h m pa sa na v ha,
      Searchsorted.C02_searchsortedr_count lt h m pb sb nb v hb, hp.countP_eq, List.countP_append]

/-! ## Signals -/

theorem nearest_right (P : Nat → Bool) (i b : Nat) (h : i < b) (hb : P b = false) :
    ∃ c, i < c ∧ c ≤ b ∧ P c = false ∧ ∀ j, i < j → j < c → P j = true := by
  induction d : b - i using Nat.strong_induction_on generalizing b with
  | _ d ih =>
    by_cases hx : ∀ j, i < j → j < b → P j = true
    · exact ⟨b, h, Nat.le_refl _, hb, hx⟩
    · simp only [not_forall, Bool.not_eq_true] at hx
      obtain ⟨j, h1, h2, h3⟩ := hx
      obtain ⟨c, c1, c2, c3, c4⟩ := ih (j - i) (by omega) j h1 h3 rfl
      exact ⟨c, c1, by omega, c3, c4⟩

theorem nearest_left (P : Nat → Bool) (a i : Nat) (h : a < i) (ha : P a = false) :
    ∃ c, a ≤ c ∧ c < i ∧ P c = false ∧ ∀ j, c < j → j < i → P j = true := by
  induction d : i - a using Nat.strong_induction_on generalizing a with
  | _ d ih =>
    by_cases hx : ∀ j, a < j → j < i → P j = true
    · exact ⟨a, Nat.le_refl _, h, ha, hx⟩
    · simp only [not_forall, Bool.not_eq_true] at hx
      obtain ⟨j, h1, h2, h3⟩ := hx
      obtain ⟨c, c1, c2, c3, c4⟩ := ih (i - j) (by omega) j h2 h3 rfl
      exact ⟨c, by omega, c2, c3, c4⟩

/-- C124: fillnan1d: a known value at index `b` separates the array: what is filled in before it
depends on the part up to `b` only, what is filled in after it on the part from `b` on only.  For any
interpolation formula, with its rounding. -/
theorem C124_fillnan1d (isnan : α → Bool) (nan : α) (lerp : α → α → Nat → Nat → α) (n b : Nat) (hb : b < n)
    (x out out' out'' : Nat → α) (hk : isnan (x b) = false) :
    (∀ i ≤ b, Fillnan.fillnan isnan nan lerp n x out i = Fillnan.fillnan isnan nan lerp (b + 1) x out' i) ∧
    (∀ i, b + i < n → Fillnan.fillnan isnan nan lerp n x out (b + i) =
      Fillnan.fillnan isnan nan lerp (n - b) (fun j => x (b + j)) out'' i) := by
  obtain ⟨s1, s2, s3, s4, _⟩ := Fillnan.C33_values isnan nan lerp n x out ⟨b, hb, hk⟩
  obtain ⟨t1, t2, t3, t4, _⟩ := Fillnan.C33_values isnan nan lerp (b + 1) x out' ⟨b, by omega, hk⟩
  obtain ⟨u1, u2, u3, u4, _⟩ := Fillnan.C33_values isnan nan lerp (n - b) (fun j => x (b + j)) out'' ⟨0, by omega, hk⟩
  refine ⟨fun i hi => ?_, fun i hi => ?_⟩
  · cases hx : isnan (x i) with
    | false => rw [s1 i (by omega) hx, t1 i (by omega) hx]
    | true =>
      have hne : i ≠ b := by rintro rfl; rw [hk] at hx; cases hx
      obtain ⟨c, c1, c2, c3, c4⟩ := nearest_right (fun j => isnan (x j)) i b (by omega) hk
      by_cases hl : ∃ a < i, isnan (x a) = false
      · obtain ⟨a, a1, a2⟩ := hl
        obtain ⟨d, d1, d2, d3, d4⟩ := nearest_left (fun j => isnan (x j)) a i a1 a2
        have hm : ∀ j, d < j → j < c → isnan (x j) = true := by
          intro j h1 h2
          rcases Nat.lt_trichotomy j i with h | h | h
          · exact d4 j h1 h
          · exact h ▸ hx
          · exact c4 j h h2
        rw [s4 d i c d2 c1 (by omega) d3 c3 hm, t4 d i c d2 c1 (by omega) d3 c3 hm]
      · have hm : ∀ j < c, isnan (x j) = true := by
          intro j h2
          rcases Nat.lt_trichotomy j i with h | h | h
          · by_contra hc; exact hl ⟨j, h, by simpa using hc⟩
          · exact h ▸ hx
          · exact c4 j h h2
        rw [s2 i c c1 (by omega) c3 hm, t2 i c c1 (by omega) c3 hm]
  · cases hx : isnan (x (b + i)) with
    | false => rw [s1 (b + i) hi hx, u1 i (by omega) hx]
    | true =>
      have hne : i ≠ 0 := by rintro rfl; rw [Nat.add_zero, hk] at hx; cases hx
      obtain ⟨d, d1, d2, d3, d4⟩ := nearest_left (fun j => isnan (x j)) b (b + i) (by omega) hk
      obtain ⟨d, rfl⟩ : ∃ e, d = b + e := ⟨d - b, by omega⟩
      by_cases hr : ∃ c, b + i < c ∧ c < n ∧ isnan (x c) = false
      · obtain ⟨c, c0, c1, c2⟩ := hr
        obtain ⟨c, e1, e2, e3, e4⟩ := nearest_right (fun j => isnan (x j)) (b + i) c c0 c2
        obtain ⟨c, rfl⟩ : ∃ e, c = b + e := ⟨c - b, by omega⟩
        have hm : ∀ j, b + d < j → j < b + c → isnan (x j) = true := by
          intro j h1 h2
          rcases Nat.lt_trichotomy j (b + i) with h | h | h
          · exact d4 j h1 h
          · exact h ▸ hx
          · exact e4 j h h2
        rw [s4 (b + d) (b + i) (b + c) d2 e1 (by omega) d3 e3 hm,
          u4 d i c (by omega) (by omega) (by omega) d3 e3 (fun j h1 h2 => hm (b + j) (by omega) (by omega)),
          show b + i - (b + d) = i - d by omega, show b + c - (b + d) = c - d by omega]
      · have hm : ∀ j, b + d < j → j < n → isnan (x j) = true := by
          intro j h1 h2
          rcases Nat.lt_trichotomy j (b + i) with h | h | h
          · exact d4 j h1 h
          · exact h ▸ hx
          · by_contra hc; exact hr ⟨j, h, h2, by simpa using hc⟩
        rw [s3 (b + d) (b + i) d2 hi d3 hm,
          u3 d i (by omega) (by omega) d3 (fun j h1 h2 => hm (b + j) (by omega) (by omega))]

/-- C124: unwrap: the array can be unwrapped piece by piece: put the last unwrapped value of the first
piece in front of the second piece.  With NaN, infinities and conversions out of range. -/
theorem C124_unwrap {K : Type _} [Field K] [LinearOrder K] [FloorRing K] (period : XF K) (xs ys r : List (XF K)) (l : XF K)
    (hx : ∀ v ∈ xs, v.isfinite = true) (h : Unwrap.unwrapCore period xs = some (r ++ [l])) :
    Unwrap.unwrapCore period (xs ++ ys) = (Unwrap.unwrapCore period (l :: ys)).map fun t => r ++ t := by
  have core : ∀ (x0 : XF K) (t : List (XF K)), Unwrap.unwrapCore period (x0 :: t) = (Unwrap.unwrapLoop period x0 t).map (x0 :: ·) := by
    intro x0 t; rw [Unwrap.unwrapCore]; cases Unwrap.unwrapLoop period x0 t <;> rfl
  have gen : ∀ (xs : List (XF K)) (x0 : XF K) (r : List (XF K)), (∀ v ∈ xs, v.isfinite = true) →
      Unwrap.unwrapLoop period x0 xs = some r →
      Unwrap.unwrapLoop period x0 (xs ++ ys) = (Unwrap.unwrapLoop period (r.getLastD x0) ys).map fun t => r ++ t := by
    intro xs
    induction xs with
    | nil =>
      intro x0 r _ h
      rw [Unwrap.unwrapLoop] at h
      cases h
      simp
    | cons x xs ih =>
      intro x0 r hx h
      have hf := hx x List.mem_cons_self
      rw [Unwrap.unwrapLoop] at h
      rw [List.cons_append, Unwrap.unwrapLoop]
      simp only [hf, Bool.not_true, Bool.false_eq_true, if_false] at h ⊢
      cases h1 : Unwrap.unwrap1 x0 x period with
      | none => rw [h1] at h; cases h
      | some x1 =>
        rw [h1] at h
        simp only at h ⊢
        cases h2 : Unwrap.unwrapLoop period x1 xs with
        | none => rw [h2] at h; cases h
        | some r' =>
          rw [h2] at h
          simp only [Option.some.injEq] at h
          subst h
          rw [ih x1 r' (fun v hv => hx v (List.mem_cons_of_mem _ hv)) h2]
          have : (x1 :: r').getLastD x0 = r'.getLastD x1 := by cases r' <;> rfl
          rw [this]
          cases Unwrap.unwrapLoop period (r'.getLastD x1) ys <;> rfl
  cases xs with
  | nil => rw [Unwrap.unwrapCore] at h; simp at h
  | cons x0 xs =>
    rw [core] at h
    cases h2 : Unwrap.unwrapLoop period x0 xs with
    | none => rw [h2] at h; cases h
    | some r' =>
      rw [h2] at h
      simp only [Option.map_some, Option.some.injEq] at h
      rw [List.cons_append, core, gen xs x0 r' (fun v hv => hx v (List.mem_cons_of_mem _ hv)) h2, core]
      have hl : r'.getLastD x0 = l := by
        have := congrArg (fun t : List (XF K) => t.getLastD l) h
        simp only [List.getLastD_concat] at this
        rw [← this]; cases r' <;> rfl
      rw [hl]
      cases Unwrap.unwrapLoop period l ys with
      | none => rfl
      | some t =>
        simp only [Option.map_some, Option.some.injEq]
        rw [← List.cons_append, h, List.append_assoc]; rfl

/-! ## Non-vacuity -/

example : MinMax.minArgmin (fun a b : Int => decide (a < b)) 3 ([1] ++ [1, 0, 5]) = (0, 3) ∧
    MinMax.minArgmin (fun a b : Int => decide (a < b)) 1 [0, 5] = (0, 1) := by decide
example : MinMax.minArgmin (fun a b : Int => decide (a < b)) 3 ([1] ++ [1, 0, 5]) =
    ((MinMax.minArgmin (fun a b : Int => decide (a < b)) 1 [0, 5]).1, 2 + 1) := by
  rw [C124_min_argmin _ StrictWeak.int]; decide
example : First.argfirst (Ufunclab.Spec.linOps Int) 4 2 ([1, 2] ++ [0, 7]) = 3 ∧ First.argfirst (Ufunclab.Spec.linOps Int) 4 2 [1, 2] = -1 := by decide
example : Ordered.ordered (Ufunclab.Spec.linOps Int) 1 ([1, 2] ++ [2, 0]) = false ∧ Ordered.ordered (Ufunclab.Spec.linOps Int) 1 ([1, 2] ++ [2]) = true := by decide
example : Percentile.percentileofscore (K := ℚ) (Ufunclab.Spec.linOps Int).lt (Ufunclab.Spec.linOps Int).eq ([1, 2, 3] ++ [5]) 3 1 = some 75 := by
  simp [Percentile.percentileofscore, Percentile.count, Percentile.countLoop, IntTy.wrap, IntTy.i32, Ufunclab.Spec.linOps]; norm_num

end Ufunclab.Pieces
