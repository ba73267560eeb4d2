import Verif.Props.SignedZeroLoops
import Verif.Model.MeanvarOverflow
import Verif.Model.Wjaccard
import Verif.Model.Softmax
/-!
# C127: the sign of a zero in meanvar, wjaccard, softmax and hysteresis_relay
-/
namespace Ufunclab.SZ
open SF Spec Float

theorem mrnd_eq (rd : ℝ → ℝ) (w : XF ℝ) : Meanvar.rnd rd w = Log1p.rnd rd w := by cases w <;> rfl

/-- meanvar: the signs of zeros apart, the mean and the variance of an array of any length are those of the model
with one zero; the mean is never a negative zero. -/
theorem C127_meanvar {p : ℕ} {emin : ℤ} {rd : ℝ → ℝ} (h : Nearest p emin rd) (hp : 1 ≤ p)
    (x : List (SF ℝ)) (ddof : Int) :
    (meanvar rd x ddof).1 ≠ .nz ∧
    ((meanvar rd x ddof).1.forget, (meanvar rd x ddof).2.forget) =
      Meanvar.meanvarO (Meanvar.rnd rd) (x.map forget) ddof := by
  have h0 := h.round_zero
  have fa : ∀ x y : SF ℝ, Meanvar.rnd rd (x.forget.add y.forget) = (add rd x y).forget := by
    intro x y; rw [forget_add h0, mrnd_eq]; rfl
  have fs : ∀ x y : SF ℝ, Meanvar.rnd rd (x.forget.sub y.forget) = (sub rd x y).forget := by
    intro x y; rw [forget_sub h0, mrnd_eq]; rfl
  have fm : ∀ x y : SF ℝ, Meanvar.rnd rd (x.forget.mul y.forget) = (mul rd x y).forget := by
    intro x y; rw [forget_mul h0, mrnd_eq]; rfl
  have fd : ∀ (x : SF ℝ) (v : ℝ), Meanvar.rnd rd (x.forget.div (Meanvar.rnd rd (.fin v))) =
      (div rd x (.fin (rd v))).forget := by
    intro x v; rw [forget_div h0 _ (by simp), mrnd_eq]; rfl
  have fc : ∀ v i c : SF ℝ, Meanvar.compensatedUpdateO (Meanvar.rnd rd) v.forget i.forget c.forget =
      ((compensatedUpdate rd v i c).1.forget, (compensatedUpdate rd v i c).2.forget) := by
    intro v i c
    simp only [Meanvar.compensatedUpdateO, compensatedUpdate, fs, fa]
  have loop : ∀ (xs : List (SF ℝ)) (k : Nat) (mean m2 c1 c2 : SF ℝ), mean ≠ .nz → FloatOrSpecial p emin mean →
      (meanvarLoop rd k mean m2 c1 c2 xs).1 ≠ .nz ∧
      Meanvar.loopO (Meanvar.rnd rd) k mean.forget m2.forget c1.forget c2.forget (xs.map forget) =
        ((meanvarLoop rd k mean m2 c1 c2 xs).1.forget, (meanvarLoop rd k mean m2 c1 c2 xs).2.forget) := by
    intro xs
    induction xs with
    | nil => exact fun _ _ _ _ _ hm _ => ⟨hm, rfl⟩
    | cons x xs ih =>
      intro k mean m2 c1 c2 hm hf
      simp only [meanvarLoop, Meanvar.loopO, List.map_cons, fs, fd, fc, fm]
      exact ih _ _ _ _ _ (add_ne_nz h hp hf (add_float h _ _) (.inl hm)) (add_float h _ _)
  have f0 : FloatOrSpecial p emin (.fin 0) := by
    intro a e; simp only [SF.fin.injEq] at e; subst e; exact isFloat_zero
  obtain ⟨l1, l2⟩ := loop x 0 (.fin 0) (.fin 0) (.fin 0) (.fin 0) (by simp) f0
  refine ⟨l1, ?_⟩
  have l3 : Meanvar.loopO (Meanvar.rnd rd) 0 (.fin 0) (.fin 0) (.fin 0) (.fin 0) (x.map forget) = _ := l2
  simp only [Meanvar.meanvarO, meanvar, l3, List.length_map, fd]

/-- The variance of one element with ddof 2 is a negative zero. -/
example : (meanvar id [.fin 0] 2).2 = .nz := by
  simp [meanvar, meanvarLoop, compensatedUpdate, sub, neg, add, div, mul, forget, XF.add, XF.div, XF.mul, SF.round,
    rs, signbit, SF.zero]
  norm_num

/-- wjaccard: the signs of zeros apart, the result is that of the model with one zero. -/
theorem C127_wjaccard {rd : ℝ → ℝ} (h0 : rd 0 = 0) (l : List (SF ℝ × SF ℝ)) :
    (wjaccard rd l).forget =
      Wjaccard.wjaccard (Wjaccard.rounded rd XF.add) (Wjaccard.rounded rd XF.div)
        (l.map fun z => (z.1.forget, z.2.forget)) := by
  have rn : ∀ (op : XF ℝ → XF ℝ → XF ℝ) (a b : XF ℝ), Wjaccard.rounded rd op a b = Log1p.rnd rd (op a b) := by
    intro op a b; unfold Wjaccard.rounded; cases op a b <;> rfl
  have fa : ∀ x y : SF ℝ, (add rd x y).forget = Wjaccard.rounded rd XF.add x.forget y.forget := by
    intro x y; rw [forget_add h0, rn]; rfl
  have mn : ∀ x y : SF ℝ, (stdMin x y).forget = Wjaccard.stdMin x.forget y.forget := by
    intro x y
    unfold stdMin Wjaccard.stdMin
    rw [show SF.lt y x = XF.lt y.forget x.forget from rfl]
    split_ifs <;> rfl
  have mx : ∀ x y : SF ℝ, (stdMax x y).forget = Wjaccard.stdMax x.forget y.forget := by
    intro x y
    unfold stdMax Wjaccard.stdMax
    rw [show SF.lt x y = XF.lt x.forget y.forget from rfl]
    split_ifs <;> rfl
  have loop : ∀ (l : List (SF ℝ × SF ℝ)) (a b : SF ℝ),
      (wjaccardLoop rd a b l).map (fun z => (z.1.forget, z.2.forget)) =
        Wjaccard.loop (Wjaccard.rounded rd XF.add) a.forget b.forget (l.map fun z => (z.1.forget, z.2.forget)) := by
    intro l
    induction l with
    | nil => exact fun _ _ => rfl
    | cons z l ih =>
      obtain ⟨x, y⟩ := z
      intro a b
      simp only [wjaccardLoop, Wjaccard.loop, List.map_cons]
      rw [show isnan x = XF.isnan x.forget from rfl, show isnan y = XF.isnan y.forget from rfl]
      split_ifs
      · rfl
      · rw [ih, fa, fa, mn, mx]
  match l with
  | [] => rfl
  | (x, y) :: l =>
    simp only [wjaccard, Wjaccard.wjaccard, List.map_cons]
    rw [show isnan x = XF.isnan x.forget from rfl, show isnan y = XF.isnan y.forget from rfl, ← mn, ← mx, ← loop]
    split_ifs with hn
    · rfl
    · cases wjaccardLoop rd (stdMin x y) (stdMax x y) l with
      | none => rfl
      | some r =>
        obtain ⟨a, b⟩ := r
        simp only [Option.map_some]
        rw [show SF.eq b (.fin 0) = XF.eq b.forget (.fin 0) from rfl,
          show SF.eq a (.fin 0) = XF.eq a.forget (.fin 0) from rfl]
        split_ifs with e1 e2
        · rfl
        · rfl
        · have hb : b ≠ .nz := by rintro rfl; simp [forget, XF.eq] at e1
          rw [forget_div h0 _ hb, rn]; rfl

/-- A denominator that is a negative zero counts as zero. -/
example : wjaccard id [(.nz, .nz)] = .nan := by
  simp [wjaccard, wjaccardLoop, stdMin, stdMax, SF.lt, XF.lt, SF.eq, XF.eq, forget, isnan, XF.isnan]

theorem nonneg_exp (x : SF ℝ) : NonNeg (exp x) := by
  cases x <;> simp [exp, NonNeg, Real.exp_nonneg]

theorem nonneg_div {rd : ℝ → ℝ} (h : Rounding rd) {x y : SF ℝ} (hx : NonNeg x) (hy : NonNeg y) :
    NonNeg (div rd x y) := by
  cases x with
  | nz => exact hx.elim
  | ninf => exact hx.elim
  | nan => cases y <;> simp_all [NonNeg, div, forget, XF.div, SF.round]
  | pinf =>
    cases y with
    | nz => exact hy.elim
    | ninf => exact hy.elim
    | fin b =>
      have hb : 0 ≤ b := hy
      by_cases h0 : b = 0
      · simp [div, forget, h0, NonNeg, signbit, SF.inf]
      · simp [div, forget, h0, NonNeg, XF.div, not_lt.2 hb, SF.round]
    | _ => simp [div, forget, NonNeg, XF.div, SF.round]
  | fin a =>
    have ha : 0 ≤ a := hx
    cases y with
    | nz => exact hy.elim
    | ninf => exact hy.elim
    | fin b =>
      have hb : 0 ≤ b := hy
      by_cases h0 : b = 0
      · by_cases ha0 : a = 0
        · simp [div, forget, h0, ha0, NonNeg]
        · simp [div, forget, h0, ha0, NonNeg, signbit, not_lt.2 ha, SF.inf]
      · simp only [div, forget, XF.fin.injEq, h0, if_false, XF.div]
        split_ifs
        · simp [SF.zero, signbit, not_lt.2 ha, not_lt.2 hb, NonNeg]
        · exact nonneg_rs h (div_nonneg ha hb)
    | pinf => simp [div, forget, NonNeg, XF.div, signbit, not_lt.2 ha, SF.zero]
    | nan => simp [div, forget, NonNeg, XF.div, SF.round]

/-- softmax: the signs of zeros in the argument do not matter, and no output has the sign bit set. -/
theorem C127_softmax {rd : ℝ → ℝ} (h : Rounding rd) (x : List (SF ℝ)) :
    (∀ y ∈ softmax rd x, y ≠ .nz ∧ signbit y = false) ∧
    (softmax rd x).map forget = Softmax.softmaxR (Softmax.rnd rd) Real.exp (x.map forget) := by
  have h0 := h.zero
  have rn : ∀ w : XF ℝ, Softmax.rnd rd w = Log1p.rnd rd w := by intro w; cases w <;> rfl
  have key : ∀ w : SF ℝ, NonNeg w → w ≠ .nz ∧ signbit w = false := by
    intro w hw
    cases w <;> simp_all [NonNeg, signbit]
  have fe : ∀ w : SF ℝ, (exp w).forget = Softmax.xexp Real.exp w.forget := by
    intro w; cases w <;> simp [exp, forget, Softmax.xexp]
  have ft : ∀ v m : SF ℝ, (exp (sub rd v m)).forget =
      Softmax.xexp Real.exp (Softmax.rnd rd (XF.sub v.forget m.forget)) := by
    intro v m; rw [fe, forget_sub h0, rn]; rfl
  have hsc : ∀ (xs : List (SF ℝ)) (k np idx : Nat) (m : SF ℝ),
      Softmax.scan k np idx m.forget (xs.map forget) =
        ⟨(scan k np idx m xs).hasNan, (scan k np idx m xs).nposinf, (scan k np idx m xs).posinfIndex,
          (scan k np idx m xs).xmax.forget⟩ := by
    intro xs
    induction xs with
    | nil => exact fun _ _ _ _ => rfl
    | cons x xs ih =>
      intro k np idx m
      simp only [scan, Softmax.scan, List.map_cons]
      rw [show isnan x = XF.isnan x.forget from rfl]
      by_cases hn : XF.isnan x.forget = true
      · rw [if_pos hn, if_pos hn]
      · rw [if_neg hn, if_neg hn, ← ih]
        have e1 : (XF.isinf x.forget && SF.lt (.fin 0) x) = Softmax.isPosInf x.forget := rfl
        rw [e1]
        congr 1
        rw [show SF.lt m x = XF.lt m.forget x.forget from rfl]
        split_ifs <;> rfl
  have hs := hsc x 0 0 0 (.fin 0)
  rw [show forget (.fin (0 : ℝ)) = XF.fin 0 from rfl] at hs
  have sum : ∀ (m : SF ℝ) (xs : List (SF ℝ)) (a : SF ℝ), NonNeg a →
      NonNeg (xs.foldl (fun acc v => add rd acc (exp (sub rd v m))) a) ∧
      (xs.foldl (fun acc v => add rd acc (exp (sub rd v m))) a).forget =
        (xs.map forget).foldl (fun acc v => Softmax.rnd rd (XF.add acc
          (Softmax.xexp Real.exp (Softmax.rnd rd (XF.sub v m.forget))))) a.forget := by
    intro m xs
    induction xs with
    | nil => exact fun _ ha => ⟨ha, rfl⟩
    | cons x xs ih =>
      intro a ha
      have e : (add rd a (exp (sub rd x m))).forget = Softmax.rnd rd (XF.add a.forget
          (Softmax.xexp Real.exp (Softmax.rnd rd (XF.sub x.forget m.forget)))) := by
        rw [forget_add h0, ft, rn (XF.add _ _)]; rfl
      have := ih _ (nonneg_add h ha (nonneg_exp (sub rd x m)))
      rw [e] at this
      exact this
  have f0 : NonNeg (.fin 0) := le_refl (0 : ℝ)
  unfold softmax Softmax.softmaxR
  rw [hs]
  generalize scan 0 0 0 (.fin 0) x = s
  simp only
  rw [show SF.eq s.xmax .ninf = XF.eq s.xmax.forget .ninf from rfl]
  split_ifs with c1 c2
  · refine ⟨fun y hy => ?_, by simp [forget]⟩
    rw [List.eq_of_mem_replicate hy]; simp [signbit]
  · refine ⟨fun y hy => key y ?_, by simp [forget, List.map_set]⟩
    rcases List.mem_or_eq_of_mem_set hy with h1 | h1
    · rw [List.eq_of_mem_replicate h1]; exact f0
    · rw [h1]; exact zero_le_one (α := ℝ)
  · obtain ⟨s1, s2⟩ := sum s.xmax x (.fin 0) f0
    rw [show forget (.fin (0 : ℝ)) = XF.fin 0 from rfl] at s2
    constructor
    · intro y hy
      obtain ⟨v, _, rfl⟩ := List.mem_map.1 hy
      exact key _ (nonneg_div h (nonneg_exp _) s1)
    · rw [← s2, List.map_map, List.map_map]
      refine List.map_congr_left fun v _ => ?_
      simp only [Function.comp]
      rw [forget_div h0 _ (key _ s1).1, ft, rn (XF.div _ _)]; rfl

/-- The hypothesis holds of exact arithmetic, and the softmax of two zeros of different signs is 1/2 twice. -/
example : softmax id [.nz, .fin 0] = [.fin (1 / 2), .fin (1 / 2)] := by
  simp [softmax, scan, isnan, XF.isnan, XF.isinf, SF.lt, XF.lt, SF.eq, XF.eq, forget, sub, neg, add, exp, XF.add,
    SF.round, rs, div, XF.div]
  norm_num

/-- hysteresis_relay: the signs of zeros in the input and the thresholds do not matter, and every output is one of
the two values or the initial value, with its own sign. -/
theorem C127_hysteresis_relay (lowT highT lowV highV init : SF ℝ) (xs : List (SF ℝ)) :
    ((@Signal.relay (SF ℝ) sfLT sfDec lowT highT lowV highV init xs).map forget =
      @Signal.relay (XF ℝ) xfLT xfDec lowT.forget highT.forget lowV.forget highV.forget init.forget
        (xs.map forget)) ∧
    (∀ y ∈ @Signal.relay (SF ℝ) sfLT sfDec lowT highT lowV highV init xs, y = lowV ∨ y = highV ∨ y = init) ∧
    ∀ (lowT' highT' : SF ℝ) (xs' : List (SF ℝ)), lowT'.forget = lowT.forget → highT'.forget = highT.forget →
      xs'.map forget = xs.map forget →
      @Signal.relay (SF ℝ) sfLT sfDec lowT' highT' lowV highV init xs' =
        @Signal.relay (SF ℝ) sfLT sfDec lowT highT lowV highV init xs := by
  have hl : ∀ a b : SF ℝ, @LT.lt _ sfLT a b ↔ @LT.lt _ xfLT a.forget b.forget := fun _ _ => Iff.rfl
  refine ⟨?_, ?_, ?_⟩
  · induction xs generalizing init with
    | nil => rfl
    | cons x xs ih =>
      simp only [Signal.relay, List.map_cons, ih]
      by_cases h1 : @LT.lt _ sfLT x lowT
      · rw [if_pos h1, if_pos ((hl _ _).1 h1)]
      · by_cases h2 : @LT.lt _ sfLT highT x
        · rw [if_neg h1, if_pos h2, if_neg (fun h => h1 ((hl _ _).2 h)), if_pos ((hl _ _).1 h2)]
        · rw [if_neg h1, if_neg h2, if_neg (fun h => h1 ((hl _ _).2 h)), if_neg (fun h => h2 ((hl _ _).2 h))]
  · induction xs generalizing init with
    | nil => intro y hy; simp [Signal.relay] at hy
    | cons x xs ih =>
      intro y hy
      simp only [Signal.relay, List.mem_cons] at hy
      split_ifs at hy
      all_goals
        rcases hy with rfl | hy
        · simp
        · rcases ih _ y hy with h | h | h <;> simp [h]
  · intro lowT' highT' xs' e1 e2 e3
    induction xs generalizing init xs' with
    | nil =>
      cases xs' with
      | nil => rfl
      | cons => simp at e3
    | cons x xs ih =>
      cases xs' with
      | nil => simp at e3
      | cons x' xs' =>
        simp only [List.map_cons, List.cons.injEq] at e3
        have c1 : @LT.lt _ sfLT x' lowT' ↔ @LT.lt _ sfLT x lowT := by rw [hl, hl, e1, e3.1]
        have c2 : @LT.lt _ sfLT highT' x' ↔ @LT.lt _ sfLT highT x := by rw [hl, hl, e2, e3.1]
        simp only [Signal.relay]
        by_cases h1 : @LT.lt _ sfLT x lowT
        · rw [if_pos h1, if_pos (c1.2 h1), ih _ xs' e3.2]
        · by_cases h2 : @LT.lt _ sfLT highT x
          · rw [if_neg h1, if_pos h2, if_neg (fun h => h1 (c1.1 h)), if_pos (c2.2 h2), ih _ xs' e3.2]
          · rw [if_neg h1, if_neg h2, if_neg (fun h => h1 (c1.1 h)), if_neg (fun h => h2 (c2.1 h)), ih _ xs' e3.2]

/-- A relay with thresholds at zero that returns a negative zero. -/
example : @Signal.relay (SF ℝ) sfLT sfDec (.fin 0) (.fin 0) (.fin 1) .nz .nz [.nz] = [.nz] := by
  have h : ¬ @LT.lt _ sfLT (.nz : SF ℝ) (.fin 0) := by
    show ¬ SF.lt _ _ = true
    simp [SF.lt, XF.lt, forget]
  have h' : ¬ @LT.lt _ sfLT (.fin 0) (.nz : SF ℝ) := by
    show ¬ SF.lt _ _ = true
    simp [SF.lt, XF.lt, forget]
  simp only [Signal.relay, if_neg h, if_neg h']

end Ufunclab.SZ
