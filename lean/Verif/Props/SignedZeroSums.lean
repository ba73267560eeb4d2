import Verif.Props.SignedZeroLoops
import Verif.Model.Kbnsum
import Verif.Model.MinMax
import Verif.Props.MinMax
import Verif.Model.Searchsorted
import Verif.Model.AllSame
import Verif.Model.Ordered
import Verif.Model.First
import Verif.Model.Percentile
import Verif.Spec.Cmp
/-!
# C127: the sign of a zero in kbnsum and in the functions that compare
-/
namespace Ufunclab.SZ
open SF Spec Float

theorem krnd_eq (rd : ℝ → ℝ) (w : XF ℝ) : Kbnsum.rnd rd w = Log1p.rnd rd w := by cases w <;> rfl

/-- kbnsum: the signs of zeros apart, the sum of an array of any length is that of the model with one zero,
and it is never a negative zero (not even the sum of negative zeros only). -/
theorem C127_kbnsum {prec : ℕ} {emin : ℤ} {rd : ℝ → ℝ} (h : Nearest prec emin rd) (hp : 1 ≤ prec)
    (m : Mem (SF ℝ)) (hm : ∀ i, FloatOrSpecial prec emin (m i)) (p stride w : Int) (n : Nat) :
    kbnsum rd m p stride w n ≠ .nz ∧
    (kbnsum rd m p stride w n).forget =
      Kbnsum.kbnsum (Kbnsum.rnd rd) (fun i => (m i).forget) p stride w n := by
  have fa : ∀ x y : SF ℝ, (add rd x y).forget = Kbnsum.fadd (Kbnsum.rnd rd) x.forget y.forget := by
    intro x y; rw [forget_add h.round_zero, Kbnsum.fadd, krnd_eq]; rfl
  have fs : ∀ x y : SF ℝ, (sub rd x y).forget = Kbnsum.fsub (Kbnsum.rnd rd) x.forget y.forget := by
    intro x y; rw [forget_sub h.round_zero, Kbnsum.fsub, krnd_eq]; rfl
  have scan : ∀ (xk : SF ℝ) (fuel j : Nat), xk ≠ .nz → kbnScan rd m p w xk fuel j ≠ .nz ∧
      (kbnScan rd m p w xk fuel j).forget =
        Kbnsum.infScan (Kbnsum.rnd rd) (fun i => (m i).forget) p w xk.forget fuel j := by
    intro xk fuel
    induction fuel with
    | zero => exact fun _ hx => ⟨hx, rfl⟩
    | succ f ih =>
      intro j hx
      simp only [kbnScan, Kbnsum.infScan]
      rw [show isnan (add rd xk (m (p + (j : Int) * w))) =
        XF.isnan (Kbnsum.fadd (Kbnsum.rnd rd) xk.forget (m (p + (j : Int) * w)).forget) by rw [← fa]; rfl]
      split_ifs
      · exact ⟨by simp, rfl⟩
      · exact ih _ hx
  have loop : ∀ (fuel k : Nat) (s : SF ℝ × SF ℝ), s.1 ≠ .nz → FloatOrSpecial prec emin s.1 →
      FloatOrSpecial prec emin s.2 → kbnLoop rd m p stride w fuel k s ≠ .nz ∧
      (kbnLoop rd m p stride w fuel k s).forget =
        Kbnsum.loop (Kbnsum.rnd rd) (fun i => (m i).forget) p stride w fuel k (s.1.forget, s.2.forget) := by
    intro fuel
    induction fuel with
    | zero => exact fun _ s h1 h2 h3 => ⟨add_ne_nz h hp h2 h3 (.inl h1), fa _ _⟩
    | succ f ih =>
      intro k s h1 h2 h3
      have e : get (fun i => (m i).forget) p stride k = (get m p stride k).forget := rfl
      have hx : FloatOrSpecial prec emin (get m p stride k) := hm _
      simp only [kbnLoop, Kbnsum.loop, e]
      generalize get m p stride k = x at hx
      rw [show isnan x = XF.isnan x.forget from rfl]
      split_ifs with c1 c2
      · exact ⟨by rintro rfl; simp [forget, XF.isnan] at c1, rfl⟩
      · exact scan x f (k + 1) (by rintro rfl; simp [forget, XF.isinf] at c2)
      · have hpush : ((kbnPush rd s x).1.forget, (kbnPush rd s x).2.forget) =
            Kbnsum.push (Kbnsum.rnd rd) (s.1.forget, s.2.forget) x.forget := by
          simp only [kbnPush, Kbnsum.push]
          split_ifs <;> simp only [fa, fs]
        rw [← hpush]
        refine ih (k + 1) (kbnPush rd s x) (add_ne_nz h hp h2 hx (.inl h1)) (add_float h _ _) ?_
        simp only [kbnPush]
        split_ifs <;> exact add_float h _ _
  have f0 : FloatOrSpecial prec emin (.fin 0) := by
    intro a e; simp only [SF.fin.injEq] at e; subst e; exact isFloat_zero
  exact loop n 0 (.fin 0, .fin 0) (by simp) f0 f0

/-- A memory of negative zeros meets the hypothesis; NumPy's own sum of it is -0. -/
example {prec : ℕ} {emin : ℤ} (i : Int) : FloatOrSpecial prec emin ((fun _ => .nz : Mem (SF ℝ)) i) := by
  intro a e; cases e

/-- The extremes: the positions do not depend on the signs of zeros, and -0 and 0 count as equal, so that the
first of them is returned with its own sign. -/
theorem C127_minmax (x0 : SF ℝ) (xs : List (SF ℝ)) :
    MinMax.argmin SF.lt x0 xs = MinMax.argmin XF.lt x0.forget (xs.map forget) ∧
    MinMax.argmax SF.lt x0 xs = MinMax.argmax XF.lt x0.forget (xs.map forget) ∧
    MinMax.argminmax SF.lt x0 xs = MinMax.argminmax XF.lt x0.forget (xs.map forget) ∧
    (x0 :: xs)[MinMax.argmin SF.lt x0 xs]? = some (MinMax.minmax SF.lt x0 xs).1 ∧
    (x0 :: xs)[MinMax.argmax SF.lt x0 xs]? = some (MinMax.minmax SF.lt x0 xs).2 := by
  have hmin : ∀ (xs : List (SF ℝ)) (k i : Nat) (v : SF ℝ),
      MinMax.argminLoop SF.lt k v i xs = MinMax.argminLoop XF.lt k v.forget i (xs.map forget) := by
    intro xs
    induction xs with
    | nil => exact fun _ _ _ => rfl
    | cons x xs ih =>
      intro k i v
      simp only [MinMax.argminLoop, List.map_cons]
      rw [show SF.lt x v = XF.lt x.forget v.forget from rfl]
      split_ifs <;> exact ih _ _ _
  have hmax : ∀ (xs : List (SF ℝ)) (k i : Nat) (v : SF ℝ),
      MinMax.argmaxLoop SF.lt k v i xs = MinMax.argmaxLoop XF.lt k v.forget i (xs.map forget) := by
    intro xs
    induction xs with
    | nil => exact fun _ _ _ => rfl
    | cons x xs ih =>
      intro k i v
      simp only [MinMax.argmaxLoop, List.map_cons]
      rw [show SF.lt v x = XF.lt v.forget x.forget from rfl]
      split_ifs <;> exact ih _ _ _
  have hmm : ∀ (xs : List (SF ℝ)) (k i j : Nat) (v u : SF ℝ),
      MinMax.argminmaxLoop SF.lt k v u i j xs =
        MinMax.argminmaxLoop XF.lt k v.forget u.forget i j (xs.map forget) := by
    intro xs
    induction xs with
    | nil => exact fun _ _ _ _ _ => rfl
    | cons x xs ih =>
      intro k i j v u
      simp only [MinMax.argminmaxLoop, List.map_cons]
      rw [show SF.lt x v = XF.lt x.forget v.forget from rfl, show SF.lt u x = XF.lt u.forget x.forget from rfl]
      split_ifs <;> exact ih _ _ _ _ _
  exact ⟨hmin xs 1 0 x0, hmax xs 1 0 x0, hmm xs 1 0 0 x0 x0, MinMax.C15_value_at_index SF.lt x0 xs⟩

/-- The first of two equal zeros, with its own sign. -/
example : MinMax.minmax SF.lt (.nz : SF ℝ) [.fin 0] = (.nz, .nz) ∧
    MinMax.minmax SF.lt (.fin 0 : SF ℝ) [.nz] = (.fin 0, .fin 0) := by
  simp [MinMax.minmax, MinMax.minmaxLoop, MinMax.stdMin, MinMax.stdMax, SF.lt, XF.lt, forget]

/-- The six comparisons of numbers with two zeros, which compare equal (IEEE 754, 5.11). -/
noncomputable def sfOps : CmpOps (SF ℝ) where
  lt := SF.lt
  le := SF.le
  eq := SF.eq
  ne := fun a b => !SF.eq a b
  gt := fun a b => SF.lt b a
  ge := fun a b => SF.le b a

/-- The searches, all_same, ordered, argfirst and percentileofscore do not depend on the signs of zeros, in
arrays of any length, sorted or not, with any op code; first returns the element found, with its sign. -/
theorem C127_comparisons (m : Mem (SF ℝ)) (a step : Int) (len : Nat) (v o : SF ℝ) (xs : List (SF ℝ)) (code : Int) :
    Searchsorted.searchsortedl SF.lt m a len step v =
      Searchsorted.searchsortedl XF.lt (fun i => (m i).forget) a len step v.forget ∧
    Searchsorted.searchsortedr SF.lt m a len step v =
      Searchsorted.searchsortedr XF.lt (fun i => (m i).forget) a len step v.forget ∧
    AllSame.allSame sfOps.ne xs = AllSame.allSame (Spec.xfOps ℝ).ne (xs.map forget) ∧
    Ordered.ordered sfOps code xs = Ordered.ordered (Spec.xfOps ℝ) code (xs.map forget) ∧
    First.argfirst sfOps code v xs = First.argfirst (Spec.xfOps ℝ) code v.forget (xs.map forget) ∧
    (First.first sfOps code v o xs).forget =
      First.first (Spec.xfOps ℝ) code v.forget o.forget (xs.map forget) ∧
    (Percentile.percentileofscore SF.lt SF.eq xs v code : Option ℝ) =
      Percentile.percentileofscore XF.lt XF.eq (xs.map forget) v.forget code := by
  have hl : ∀ (f : Nat → SF ℝ) (n lo hi : Nat), hi - lo ≤ n →
      Searchsorted.loopL SF.lt f v lo hi = Searchsorted.loopL XF.lt (fun i => (f i).forget) v.forget lo hi := by
    intro f n
    induction n with
    | zero =>
      intro lo hi h
      rw [Searchsorted.loopL, Searchsorted.loopL, if_neg (by omega), if_neg (by omega)]
    | succ n ih =>
      intro lo hi h
      rw [Searchsorted.loopL, Searchsorted.loopL]
      by_cases hc : lo < hi
      · rw [if_pos hc, if_pos hc]
        simp only [show SF.lt (f ((lo + hi) / 2)) v = XF.lt (f ((lo + hi) / 2)).forget v.forget from rfl,
          ih ((lo + hi) / 2 + 1) hi (by omega), ih lo ((lo + hi) / 2) (by omega)]
      · rw [if_neg hc, if_neg hc]
  have hr : ∀ (f : Nat → SF ℝ) (n lo hi : Nat), hi - lo ≤ n →
      Searchsorted.loopR SF.lt f v lo hi = Searchsorted.loopR XF.lt (fun i => (f i).forget) v.forget lo hi := by
    intro f n
    induction n with
    | zero =>
      intro lo hi h
      rw [Searchsorted.loopR, Searchsorted.loopR, if_neg (by omega), if_neg (by omega)]
    | succ n ih =>
      intro lo hi h
      rw [Searchsorted.loopR, Searchsorted.loopR]
      by_cases hc : lo < hi
      · rw [if_pos hc, if_pos hc]
        simp only [show SF.lt v (f ((lo + hi) / 2)) = XF.lt v.forget (f ((lo + hi) / 2)).forget from rfl,
          ih ((lo + hi) / 2 + 1) hi (by omega), ih lo ((lo + hi) / 2) (by omega)]
      · rw [if_neg hc, if_neg hc]
  have hne : ∀ x y : SF ℝ, sfOps.ne x y = (Spec.xfOps ℝ).ne x.forget y.forget := fun _ _ => rfl
  have hs : ∀ (f : SF ℝ) (xs : List (SF ℝ)),
      AllSame.loop sfOps.ne f xs = AllSame.loop (Spec.xfOps ℝ).ne f.forget (xs.map forget) := by
    intro f xs
    induction xs with
    | nil => rfl
    | cons x xs ih => simp only [AllSame.loop, List.map_cons, hne, ih]
  have hf : ∀ (op : Op) (x y : SF ℝ), Ordered.failTest sfOps op x y =
      Ordered.failTest (Spec.xfOps ℝ) op x.forget y.forget := by
    intro op x y; cases op <;> rfl
  have ho : ∀ (op : Op) (xs : List (SF ℝ)) (x : SF ℝ), Ordered.checkOrdered sfOps op x xs =
      Ordered.checkOrdered (Spec.xfOps ℝ) op x.forget (xs.map forget) := by
    intro op xs
    induction xs with
    | nil => exact fun _ => rfl
    | cons y ys ih => intro x; simp only [Ordered.checkOrdered, List.map_cons, hf, ih]
  have hh : ∀ (op : Op) (x y : SF ℝ), sfOps.holds op x y = (Spec.xfOps ℝ).holds op x.forget y.forget := by
    intro op x y; cases op <;> rfl
  have haf : ∀ (op : Op) (xs : List (SF ℝ)) (k : Nat), First.argfirstOp sfOps op v k xs =
      First.argfirstOp (Spec.xfOps ℝ) op v.forget k (xs.map forget) := by
    intro op xs
    induction xs with
    | nil => exact fun _ => rfl
    | cons y ys ih => intro k; simp only [First.argfirstOp, List.map_cons, hh, ih]
  have hfi : ∀ (op : Op) (xs : List (SF ℝ)), (First.firstOp sfOps op v o xs).forget =
      First.firstOp (Spec.xfOps ℝ) op v.forget o.forget (xs.map forget) := by
    intro op xs
    induction xs with
    | nil => rfl
    | cons y ys ih =>
      simp only [First.firstOp, List.map_cons, hh]
      split_ifs
      · rfl
      · exact ih
  have hc : ∀ (xs : List (SF ℝ)) (c : Nat × Nat × Nat), Percentile.countLoop SF.lt SF.eq v c xs =
      Percentile.countLoop XF.lt XF.eq v.forget c (xs.map forget) := by
    intro xs
    induction xs with
    | nil => exact fun _ => rfl
    | cons y ys ih =>
      intro c
      obtain ⟨l, e, g⟩ := c
      simp only [Percentile.countLoop, List.map_cons,
        show SF.lt y v = XF.lt y.forget v.forget from rfl, show SF.eq y v = XF.eq y.forget v.forget from rfl, ih]
  refine ⟨hl _ _ _ _ le_rfl, hr _ _ _ _ le_rfl, ?_, ?_, ?_, ?_, ?_⟩
  · match xs with
    | [] => rfl
    | [_] => rfl
    | x :: y :: xs => exact hs x (y :: xs)
  · match xs with
    | [] => rfl
    | [_] => rfl
    | x :: y :: xs =>
      simp only [Ordered.ordered, List.map_cons]
      split <;> exact ho _ (y :: xs) x
  · unfold First.argfirst
    split
    · exact haf _ _ _
    · rfl
  · unfold First.first
    split
    · exact hfi _ _
    · rfl
  · have hcount : Percentile.count SF.lt SF.eq v xs = Percentile.count XF.lt XF.eq v.forget (xs.map forget) :=
      hc xs (0, 0, 0)
    unfold Percentile.percentileofscore
    rw [hcount, List.length_map]

/-- Two zeros of different signs are the same, and argfirst finds a negative zero when asked for zero. -/
example : AllSame.allSame sfOps.ne [.nz, .fin (0 : ℝ)] = true ∧
    First.argfirst sfOps 2 (.fin 0) [.fin 1, .nz] = 1 := by
  simp [AllSame.allSame, AllSame.loop, sfOps, SF.eq, XF.eq, forget, First.argfirst, Op.ofCode, First.argfirstOp,
    CmpOps.holds]

end Ufunclab.SZ
