import Verif.Props.SignedZero
import Verif.Model.Signal
import Verif.Model.Corr
/-!
# C127: the sign of a zero in rms, abs_squared, hmean with weights, backlash and backlash_sum
-/
namespace Ufunclab.SZ
open SF Spec Float

/-- Not negative, minus infinity or a negative zero. -/
def NonNeg : SF ℝ → Prop
  | .nz => False
  | .ninf => False
  | .fin a => 0 ≤ a
  | _ => True

theorem nonneg_rs {rd : ℝ → ℝ} (h : Rounding rd) {v : ℝ} (hv : 0 ≤ v) : NonNeg (rs rd v) := by
  have : 0 ≤ rd v := by rw [← h.zero]; exact h.mono hv
  rw [rs, if_neg (fun e => absurd e.2 (not_lt.2 hv))]
  exact this

theorem nonneg_sq {rd : ℝ → ℝ} (h : Rounding rd) (x : SF ℝ) : NonNeg (mul rd x x) := by
  cases x with
  | fin a =>
    simp only [mul, forget, XF.mul]
    split_ifs
    · simp [SF.zero, NonNeg]
    · exact nonneg_rs h (mul_self_nonneg a)
  | nz => simp [mul, forget, XF.mul, SF.zero, NonNeg]
  | _ => simp [mul, forget, XF.mul, SF.round, NonNeg]

theorem nonneg_add {rd : ℝ → ℝ} (h : Rounding rd) {x y : SF ℝ} (hx : NonNeg x) (hy : NonNeg y) :
    NonNeg (add rd x y) := by
  cases x <;> cases y <;> simp_all [NonNeg, add, forget, XF.add, SF.round]
  exact nonneg_rs h (add_nonneg hx hy)

/-- abs_squared is never a negative zero or negative, for real and complex numbers. -/
theorem C127_abs_squared {rd : ℝ → ℝ} (h : Rounding rd) (x y : SF ℝ) :
    (absSquared rd x ≠ .nz ∧ signbit (absSquared rd x) = false) ∧
    (absSquaredC rd (x, y) ≠ .nz ∧ signbit (absSquaredC rd (x, y)) = false) ∧
    (absSquared id x).forget = Elementary.absSquared x.forget ∧
    (absSquaredC id (x, y)).forget = Elementary.absSquaredC (x.forget, y.forget) := by
  have key : ∀ w : SF ℝ, NonNeg w → w ≠ .nz ∧ signbit w = false := by
    intro w hw
    cases w <;> simp_all [NonNeg, signbit]
  refine ⟨key _ (nonneg_sq h x), key _ (nonneg_add h (nonneg_sq h x) (nonneg_sq h y)), ?_, ?_⟩
  · rw [absSquared, forget_mul rfl]; simp [Log1p.fmul, Elementary.absSquared]
  · rw [absSquaredC, forget_add rfl, forget_mul rfl, forget_mul rfl]
    simp [Log1p.fadd, Log1p.fmul, Elementary.absSquaredC]

example : absSquaredC id (.nz, .nz) = .fin 0 := by
  simp [absSquaredC, mul, forget, XF.mul, SF.zero, add, XF.add, SF.round, rs]

/-- rms of an array of any length, contiguous or not, real or complex, is not negative and not a
negative zero. -/
theorem C127_rms {rd : ℝ → ℝ} (h : Rounding rd) (m : Mem (SF ℝ)) (w u p stride out : Int) (n : Nat) :
    (@Vnorm.rms (SF ℝ) ⟨add rd⟩ ⟨mul rd⟩ ⟨.fin 0⟩ (rmsFinish rd) m w p stride out n out ≠ .nz ∧
      signbit (@Vnorm.rms (SF ℝ) ⟨add rd⟩ ⟨mul rd⟩ ⟨.fin 0⟩ (rmsFinish rd) m w p stride out n out) = false) ∧
    (@Vnorm.crms (SF ℝ) ⟨add rd⟩ ⟨mul rd⟩ ⟨.fin 0⟩ (rmsFinish rd) m u p stride out n out ≠ .nz ∧
      signbit (@Vnorm.crms (SF ℝ) ⟨add rd⟩ ⟨mul rd⟩ ⟨.fin 0⟩ (rmsFinish rd) m u p stride out n out) = false) := by
  have key : ∀ w : SF ℝ, NonNeg w → w ≠ .nz ∧ signbit w = false := by
    intro w hw
    cases w <;> simp_all [NonNeg, signbit]
  have fin : ∀ s : SF ℝ, NonNeg s → NonNeg (rmsFinish rd s n) := by
    intro s hs
    have hn : (0 : ℝ) ≤ n := Nat.cast_nonneg n
    have hd : NonNeg (div rd s (.fin (n : ℝ))) := by
      by_cases h0 : (n : ℝ) = 0
      · rw [h0]
        cases s with
        | fin a =>
          have ha : 0 ≤ a := hs
          by_cases ha0 : a = 0
          · simp [div, forget, ha0, NonNeg]
          · simp [div, forget, ha0, NonNeg, signbit, not_lt.2 ha, SF.inf]
        | nz => exact hs.elim
        | ninf => exact hs.elim
        | pinf => simp [div, forget, NonNeg, signbit, SF.inf]
        | nan => simp [div, forget, NonNeg]
      · cases s with
        | fin a =>
          have ha : 0 ≤ a := hs
          simp only [div, forget, XF.fin.injEq, h0, if_false, XF.div]
          split_ifs
          · simp [SF.zero, signbit, not_lt.2 ha, not_lt.2 hn, NonNeg]
          · exact nonneg_rs h (div_nonneg ha hn)
        | nz => exact hs.elim
        | ninf => exact hs.elim
        | pinf => simp [div, forget, NonNeg, XF.div, h0, not_lt.2 hn, SF.round]
        | nan => simp [div, forget, NonNeg, XF.div, h0, SF.round]
    unfold rmsFinish
    generalize div rd s (.fin (n : ℝ)) = q at hd
    cases q with
    | fin a =>
      have ha : 0 ≤ a := hd
      simp only [sqrt, if_neg (not_lt.2 ha)]
      exact Real.sqrt_nonneg a
    | nz => exact hd.elim
    | ninf => exact hd.elim
    | _ => simp [sqrt, NonNeg]
  have f0 : NonNeg (.fin 0) := le_refl (0 : ℝ)
  have l1 : ∀ (m : Mem (SF ℝ)) (stride : Int) (fuel k : Nat) (s : SF ℝ), NonNeg s →
      NonNeg (@Vnorm.sumSqLoop (SF ℝ) ⟨add rd⟩ ⟨mul rd⟩ m p stride fuel k s) := by
    intro m stride fuel
    induction fuel with
    | zero => exact fun _ _ hs => hs
    | succ f ih => exact fun k s hs => ih (k + 1) _ (nonneg_add h hs (nonneg_sq h _))
  have l2 : ∀ (fuel k : Nat) (s : SF ℝ), NonNeg s →
      NonNeg (@Vnorm.csumSqLoop (SF ℝ) ⟨add rd⟩ ⟨mul rd⟩ m p stride u fuel k s) := by
    intro fuel
    induction fuel with
    | zero => exact fun _ _ hs => hs
    | succ f ih => exact fun k s hs => ih (k + 1) _ (nonneg_add h hs (nonneg_add h (nonneg_sq h _) (nonneg_sq h _)))
  have l3 : ∀ (fuel k : Nat) (s : SF ℝ), NonNeg s →
      NonNeg (@Vnorm.ccontigLoop (SF ℝ) ⟨add rd⟩ ⟨mul rd⟩ m p u fuel k s) := by
    intro fuel
    induction fuel with
    | zero => exact fun _ _ hs => hs
    | succ f ih => exact fun k s hs => ih (k + 1) _ (nonneg_add h hs (nonneg_add h (nonneg_sq h _) (nonneg_sq h _)))
  constructor
  · apply key
    simp only [Vnorm.rms, Mem.store, if_true]
    exact fin _ (l1 _ _ _ _ _ f0)
  · apply key
    unfold Vnorm.crms
    split_ifs
    · simp only [Mem.store, if_true]; exact fin _ (l3 _ _ _ f0)
    · simp only [Mem.store, if_true]; exact fin _ (l2 _ _ _ f0)

theorem forget_sqrt (x : SF ℝ) : (sqrt x).forget = Corr.xsqrt x.forget := by
  cases x with
  | fin a => simp only [sqrt, forget, Corr.xsqrt]; split_ifs <;> rfl
  | nz => simp [sqrt, forget, Corr.xsqrt]
  | _ => rfl

/-- rms, for every rounding: the signs of zeros in the argument do not matter at all. -/
theorem C127_rms_value {rd : ℝ → ℝ} (h0 : rd 0 = 0) (m : Mem (SF ℝ)) (w p stride out : Int) (n : Nat) :
    (@Vnorm.rms (SF ℝ) ⟨add rd⟩ ⟨mul rd⟩ ⟨.fin 0⟩ (rmsFinish rd) m w p stride out n out).forget =
      @Vnorm.rms (XF ℝ) ⟨Log1p.fadd rd⟩ ⟨Log1p.fmul rd⟩ ⟨.fin 0⟩
        (fun s n => Corr.xsqrt (Log1p.fdiv rd s (.fin (n : ℝ)))) (fun i => (m i).forget) w p stride out n out ∧
    (@Vnorm.crms (SF ℝ) ⟨add rd⟩ ⟨mul rd⟩ ⟨.fin 0⟩ (rmsFinish rd) m w p stride out n out).forget =
      @Vnorm.crms (XF ℝ) ⟨Log1p.fadd rd⟩ ⟨Log1p.fmul rd⟩ ⟨.fin 0⟩
        (fun s n => Corr.xsqrt (Log1p.fdiv rd s (.fin (n : ℝ)))) (fun i => (m i).forget) w p stride out n out := by
  have fin : ∀ s : SF ℝ, (rmsFinish rd s n).forget = Corr.xsqrt (Log1p.fdiv rd s.forget (.fin (n : ℝ))) := by
    intro s; rw [rmsFinish, forget_sqrt, forget_div h0 _ (by simp)]; rfl
  have l1 : ∀ (m : Mem (SF ℝ)) (stride : Int) (fuel k : Nat) (s : SF ℝ),
      (@Vnorm.sumSqLoop (SF ℝ) ⟨add rd⟩ ⟨mul rd⟩ m p stride fuel k s).forget =
      @Vnorm.sumSqLoop (XF ℝ) ⟨Log1p.fadd rd⟩ ⟨Log1p.fmul rd⟩ (fun i => (m i).forget) p stride fuel k s.forget := by
    intro m stride fuel
    induction fuel with
    | zero => exact fun _ _ => rfl
    | succ f ih =>
      intro k s
      refine (ih (k + 1) _).trans ?_
      show _ = @Vnorm.sumSqLoop (XF ℝ) ⟨Log1p.fadd rd⟩ ⟨Log1p.fmul rd⟩ _ p stride f (k + 1)
        (Log1p.fadd rd s.forget (Log1p.fmul rd (get m p stride k).forget (get m p stride k).forget))
      rw [← forget_mul h0, ← forget_add h0]; rfl
  have l2 : ∀ (fuel k : Nat) (s : SF ℝ),
      (@Vnorm.csumSqLoop (SF ℝ) ⟨add rd⟩ ⟨mul rd⟩ m p stride w fuel k s).forget =
      @Vnorm.csumSqLoop (XF ℝ) ⟨Log1p.fadd rd⟩ ⟨Log1p.fmul rd⟩ (fun i => (m i).forget) p stride w fuel k s.forget := by
    intro fuel
    induction fuel with
    | zero => exact fun _ _ => rfl
    | succ f ih =>
      intro k s
      refine (ih (k + 1) _).trans ?_
      refine (congrArg (fun z => @Vnorm.csumSqLoop (XF ℝ) ⟨Log1p.fadd rd⟩ ⟨Log1p.fmul rd⟩ (fun i => (m i).forget) p stride w f (k + 1) z) ?_)
      refine (forget_add h0 _ _).trans (congrArg _ ?_)
      refine (forget_add h0 _ _).trans ?_
      exact congrArg₂ _ (forget_mul h0 _ _) (forget_mul h0 _ _)
  have l3 : ∀ (fuel k : Nat) (s : SF ℝ),
      (@Vnorm.ccontigLoop (SF ℝ) ⟨add rd⟩ ⟨mul rd⟩ m p w fuel k s).forget =
      @Vnorm.ccontigLoop (XF ℝ) ⟨Log1p.fadd rd⟩ ⟨Log1p.fmul rd⟩ (fun i => (m i).forget) p w fuel k s.forget := by
    intro fuel
    induction fuel with
    | zero => exact fun _ _ => rfl
    | succ f ih =>
      intro k s
      refine (ih (k + 1) _).trans ?_
      refine (congrArg (fun z => @Vnorm.ccontigLoop (XF ℝ) ⟨Log1p.fadd rd⟩ ⟨Log1p.fmul rd⟩ (fun i => (m i).forget) p w f (k + 1) z) ?_)
      refine (forget_add h0 _ _).trans (congrArg _ ?_)
      refine (forget_add h0 _ _).trans ?_
      exact congrArg₂ _ (forget_mul h0 _ _) (forget_mul h0 _ _)
  have st : ∀ (m : Mem (SF ℝ)) (v : SF ℝ), (fun i => (m.store out v i).forget) =
      Mem.store (fun i => (m i).forget) out v.forget := by
    intro m v
    funext i
    simp only [Mem.store]
    split_ifs <;> rfl
  constructor
  · unfold Vnorm.rms
    by_cases hs : stride = w
    · simp only [if_pos hs]
      refine (congrFun (st _ _) out).trans ?_
      rw [st, fin, fin, l1, l1, st, fin, l1]; rfl
    · simp only [if_neg hs]
      refine (congrFun (st _ _) out).trans ?_
      rw [fin, l1]; rfl
  · unfold Vnorm.crms
    split_ifs
    · refine (congrFun (st _ _) out).trans ?_
      rw [fin, l3]; rfl
    · refine (congrFun (st _ _) out).trans ?_
      rw [fin, l2]; rfl

/-- hmean with weights: neither sum is ever a negative zero, and the result, the sign of a zero apart, is that
of the model with one zero. -/
theorem C127_hmeanw (x : List (SF ℝ × SF ℝ)) :
    (hmeanwSum id (.fin 0) (.fin 0) x).1 ≠ .nz ∧ (hmeanwSum id (.fin 0) (.fin 0) x).2 ≠ .nz ∧
    (hmeanw1d id x).forget = Means.hmeanw1d (x.map fun z => (z.1.forget, z.2.forget)) := by
  have addne : ∀ s y : SF ℝ, s ≠ .nz → add id s y ≠ .nz := by
    intro s y hs
    have k : ∀ v : ℝ, rs id v ≠ .nz := by
      intro v e; unfold rs at e; split_ifs at e with hc
      have h1 : v = 0 := hc.1
      exact absurd hc.2 (by rw [h1]; exact lt_irrefl _)
    cases s <;> cases y <;> simp_all [add, forget, XF.add, SF.round]
  have key : ∀ (x : List (SF ℝ × SF ℝ)) (a s : SF ℝ), a ≠ .nz → s ≠ .nz →
      (hmeanwSum id a s x).1 ≠ .nz ∧ (hmeanwSum id a s x).2 ≠ .nz ∧
      (hmeanwSum id a s x).1.forget = (Means.hmeanwSum a.forget s.forget (x.map fun z => (z.1.forget, z.2.forget))).1 ∧
      (hmeanwSum id a s x).2.forget = (Means.hmeanwSum a.forget s.forget (x.map fun z => (z.1.forget, z.2.forget))).2 := by
    intro x
    induction x with
    | nil => exact fun a s ha hs => ⟨ha, hs, rfl, rfl⟩
    | cons z x ih =>
      obtain ⟨b, w⟩ := z
      intro a s ha hs
      simp only [hmeanwSum, Means.hmeanwSum, List.map_cons]
      have e : SF.eq b (.fin 0) = XF.eq b.forget (.fin 0) := rfl
      rw [e]
      by_cases h0 : XF.eq b.forget (.fin 0) = true
      · rw [if_pos h0, if_pos h0]; exact ⟨ha, by simp, rfl, rfl⟩
      · rw [if_neg h0, if_neg h0]
        have hb : b ≠ .nz := by rintro rfl; simp [forget, XF.eq] at h0
        have e1 : (add id a w).forget = XF.add a.forget w.forget := by rw [forget_add rfl]; simp [Log1p.fadd]
        have e2 : (add id s (div id w b)).forget = XF.add s.forget (XF.div w.forget b.forget) := by
          rw [forget_add rfl, forget_div rfl _ hb]; simp [Log1p.fadd, Log1p.fdiv]
        have := ih (add id a w) (add id s (div id w b)) (addne a w ha) (addne s _ hs)
        rw [e1, e2] at this
        exact this
  obtain ⟨h1, h2, h3, h4⟩ := key x (.fin 0) (.fin 0) (by simp) (by simp)
  refine ⟨h1, h2, ?_⟩
  rw [hmeanw1d, forget_div rfl _ h2, h3, h4]
  simp [Log1p.fdiv, forget, Means.hmeanw1d]

/-- The sums differ from zero on a concrete input with a negative zero as a weight. -/
example : hmeanwSum id (.fin 0) (.fin 0) [(.fin 2, .nz), (.fin 2, .fin 1)] = (.fin 1, .fin (1 / 2)) := by
  simp [hmeanwSum, SF.eq, XF.eq, add, div, forget, XF.add, XF.div, SF.round, rs, signbit, SF.zero]

/-! ## Backlash -/

section Backlash
variable {α β : Type _}

/-- backlash commutes with every map that commutes with `+`, `-` and `<`. -/
theorem backlashStep_map [Add α] [Sub α] [LT α] [DecidableLT α] [Add β] [Sub β] [LT β] [DecidableLT β] (f : α → β)
    (ha : ∀ a b, f (a + b) = f a + f b) (hs : ∀ a b, f (a - b) = f a - f b) (hl : ∀ a b, a < b ↔ f a < f b)
    (hb y x : α) : f (Signal.backlashStep hb y x) = Signal.backlashStep (f hb) (f y) (f x) := by
  simp only [Signal.backlashStep, ← ha, ← hs, ← hl]
  split_ifs <;> rfl

end Backlash

/-- The order of the comparisons, as an instance. -/
@[instance_reducible] def sfLT : LT (SF ℝ) := ⟨fun a b => SF.lt a b = true⟩
@[instance_reducible] def xfLT : LT (XF ℝ) := ⟨fun a b => XF.lt a b = true⟩
@[instance_reducible] noncomputable def sfDec : @DecidableLT (SF ℝ) sfLT := fun a b => inferInstanceAs (Decidable (SF.lt a b = true))
@[instance_reducible] noncomputable def xfDec : @DecidableLT (XF ℝ) xfLT := fun a b => inferInstanceAs (Decidable (XF.lt a b = true))

/-- backlash, for every rounding: the signs of zeros apart, the outputs are those of the model with one zero. -/
theorem C127_backlash {rd : ℝ → ℝ} (h0 : rd 0 = 0) (deadband initial : SF ℝ) (xs : List (SF ℝ)) :
    (@Signal.backlash (SF ℝ) ⟨add rd⟩ ⟨sub rd⟩ sfLT sfDec ⟨div rd⟩ ⟨.fin 2⟩ deadband initial xs).map forget =
      @Signal.backlash (XF ℝ) ⟨Log1p.fadd rd⟩ ⟨Log1p.fsub rd⟩ xfLT xfDec ⟨Log1p.fdiv rd⟩ ⟨.fin 2⟩
        deadband.forget initial.forget (xs.map forget) := by
  have step : ∀ hb y x : SF ℝ, (@Signal.backlashStep (SF ℝ) ⟨add rd⟩ ⟨sub rd⟩ sfLT sfDec hb y x).forget =
      @Signal.backlashStep (XF ℝ) ⟨Log1p.fadd rd⟩ ⟨Log1p.fsub rd⟩ xfLT xfDec hb.forget y.forget x.forget :=
    @backlashStep_map (SF ℝ) (XF ℝ) ⟨add rd⟩ ⟨sub rd⟩ sfLT sfDec ⟨Log1p.fadd rd⟩ ⟨Log1p.fsub rd⟩ xfLT xfDec forget
      (forget_add h0) (forget_sub h0) (fun _ _ => Iff.rfl)
  have loop : ∀ (xs : List (SF ℝ)) (hb y : SF ℝ),
      (@Signal.backlashLoop (SF ℝ) ⟨add rd⟩ ⟨sub rd⟩ sfLT sfDec hb y xs).map forget =
      @Signal.backlashLoop (XF ℝ) ⟨Log1p.fadd rd⟩ ⟨Log1p.fsub rd⟩ xfLT xfDec hb.forget y.forget (xs.map forget) := by
    intro xs
    induction xs with
    | nil => exact fun _ _ => rfl
    | cons x xs ih =>
      intro hb y
      simp only [Signal.backlashLoop, List.map_cons]
      rw [ih, step]
  unfold Signal.backlash
  rw [loop]
  have e : (div rd deadband (.fin 2)).forget = Log1p.fdiv rd deadband.forget (.fin 2) := forget_div h0 _ (by simp)
  exact congrArg (fun hb => @Signal.backlashLoop (XF ℝ) ⟨Log1p.fadd rd⟩ ⟨Log1p.fsub rd⟩ xfLT xfDec hb
    initial.forget (xs.map forget)) e

/-- backlash_sum: no output is ever a negative zero, whatever the inputs, the weights and the state. -/
theorem C127_backlash_sum {p : ℕ} {emin : ℤ} {rd : ℝ → ℝ} (h : Nearest p emin rd) (hp : 1 ≤ p)
    (chs : List (Signal.Channel (SF ℝ))) (initial xs : List (SF ℝ)) :
    ∀ y ∈ (@Signal.backlashSum (SF ℝ) ⟨add rd⟩ ⟨sub rd⟩ sfLT sfDec ⟨mul rd⟩ ⟨div rd⟩ ⟨.fin 2⟩ ⟨.fin 0⟩ chs initial xs).1,
      y ≠ .nz := by
  have f0 : FloatOrSpecial p emin (.fin 0) := by
    intro a e; simp only [SF.fin.injEq] at e; subst e; exact isFloat_zero
  have inner : ∀ (x : SF ℝ) (chs : List (Signal.Channel (SF ℝ))) (ys : List (SF ℝ)) (t : SF ℝ),
      FloatOrSpecial p emin t → t ≠ .nz →
      (@Signal.sumInner (SF ℝ) ⟨add rd⟩ ⟨sub rd⟩ sfLT sfDec ⟨mul rd⟩ ⟨div rd⟩ ⟨.fin 2⟩ x chs ys t).2 ≠ .nz := by
    intro x chs
    induction chs with
    | nil => intro ys t _ ht; cases ys <;> exact ht
    | cons c chs ih =>
      intro ys t hf ht
      cases ys with
      | nil => exact ht
      | cons y ys => exact ih ys _ (add_float h _ _) (add_ne_nz h hp hf (mul_float h _ _) (.inl ht))
  have outer : ∀ (xs final : List (SF ℝ)),
      ∀ y ∈ (@Signal.sumOuter (SF ℝ) ⟨add rd⟩ ⟨sub rd⟩ sfLT sfDec ⟨mul rd⟩ ⟨div rd⟩ ⟨.fin 2⟩ ⟨.fin 0⟩ chs final xs).1, y ≠ .nz := by
    intro xs
    induction xs with
    | nil => intro final y hy; simp [Signal.sumOuter] at hy
    | cons x xs ih =>
      intro final y hy
      simp only [Signal.sumOuter, List.mem_cons] at hy
      rcases hy with rfl | hy
      · exact inner x chs final (.fin 0) f0 (by simp)
      · exact ih _ y hy
  exact outer xs initial

/-- backlash_sum commutes with every map that commutes with the operations used. -/
theorem backlashSum_map {α β : Type _} [Add α] [Sub α] [LT α] [DecidableLT α] [Mul α] [Div α] [OfNat α 2] [OfNat α 0]
    [Add β] [Sub β] [LT β] [DecidableLT β] [Mul β] [Div β] [OfNat β 2] [OfNat β 0] (f : α → β)
    (ha : ∀ a b, f (a + b) = f a + f b) (hs : ∀ a b, f (a - b) = f a - f b) (hl : ∀ a b, a < b ↔ f a < f b)
    (hm : ∀ a b, f (a * b) = f a * f b) (hd : ∀ a : α, f (a / 2) = f a / 2) (h0 : f 0 = 0)
    (chs : List (Signal.Channel α)) (initial xs : List α) :
    Signal.backlashSum (chs.map fun c => ⟨f c.w, f c.deadband⟩) (initial.map f) (xs.map f) =
      ((Signal.backlashSum chs initial xs).1.map f, (Signal.backlashSum chs initial xs).2.map f) := by
  have inner : ∀ (x : α) (chs : List (Signal.Channel α)) (ys : List α) (t : α),
      Signal.sumInner (f x) (chs.map fun c => ⟨f c.w, f c.deadband⟩) (ys.map f) (f t) =
        ((Signal.sumInner x chs ys t).1.map f, f (Signal.sumInner x chs ys t).2) := by
    intro x chs
    induction chs with
    | nil => intro ys t; cases ys <;> rfl
    | cons c chs ih =>
      intro ys t
      cases ys with
      | nil => rfl
      | cons y ys =>
        simp only [Signal.sumInner, List.map_cons, ← hd, ← backlashStep_map f ha hs hl, ← hm, ← ha, ih]
  have outer : ∀ (xs final : List α),
      Signal.sumOuter (chs.map fun c => ⟨f c.w, f c.deadband⟩) (final.map f) (xs.map f) =
        ((Signal.sumOuter chs final xs).1.map f, (Signal.sumOuter chs final xs).2.map f) := by
    intro xs
    induction xs with
    | nil => exact fun _ => rfl
    | cons x xs ih =>
      intro final
      simp only [Signal.sumOuter, List.map_cons]
      rw [← h0, inner, ih]
  exact outer xs initial

/-- backlash_sum, for every rounding: the signs of zeros apart, the outputs and the final state are those of the
model with one zero. -/
theorem C127_backlash_sum_value {rd : ℝ → ℝ} (h0 : rd 0 = 0) (chs : List (Signal.Channel (SF ℝ)))
    (initial xs : List (SF ℝ)) :
    @Signal.backlashSum (XF ℝ) ⟨Log1p.fadd rd⟩ ⟨Log1p.fsub rd⟩ xfLT xfDec ⟨Log1p.fmul rd⟩ ⟨Log1p.fdiv rd⟩ ⟨.fin 2⟩
        ⟨.fin 0⟩ (chs.map fun c => ⟨c.w.forget, c.deadband.forget⟩) (initial.map forget) (xs.map forget) =
      ((@Signal.backlashSum (SF ℝ) ⟨add rd⟩ ⟨sub rd⟩ sfLT sfDec ⟨mul rd⟩ ⟨div rd⟩ ⟨.fin 2⟩ ⟨.fin 0⟩ chs
          initial xs).1.map forget,
       (@Signal.backlashSum (SF ℝ) ⟨add rd⟩ ⟨sub rd⟩ sfLT sfDec ⟨mul rd⟩ ⟨div rd⟩ ⟨.fin 2⟩ ⟨.fin 0⟩ chs
          initial xs).2.map forget) :=
  @backlashSum_map (SF ℝ) (XF ℝ) ⟨add rd⟩ ⟨sub rd⟩ sfLT sfDec ⟨mul rd⟩ ⟨div rd⟩ ⟨.fin 2⟩ ⟨.fin 0⟩
    ⟨Log1p.fadd rd⟩ ⟨Log1p.fsub rd⟩ xfLT xfDec ⟨Log1p.fmul rd⟩ ⟨Log1p.fdiv rd⟩ ⟨.fin 2⟩ ⟨.fin 0⟩ forget
    (forget_add h0) (forget_sub h0) (fun _ _ => Iff.rfl) (forget_mul h0) (fun a => forget_div h0 a (by simp)) rfl
    chs initial xs

/-- backlash itself can return a negative zero, when the initial value is one. -/
example : @Signal.backlashStep (SF ℝ) ⟨add id⟩ ⟨sub id⟩ sfLT sfDec (.fin 1) .nz (.fin 0) = .nz := by
  have a1 : ¬ SF.lt .nz (sub id (.fin (0 : ℝ)) (.fin 1)) = true := by
    have : sub id (.fin (0 : ℝ)) (.fin 1) = .fin (-1) := by
      simp [sub, neg, add, forget, XF.add, SF.round, rs]
    rw [this]; simp [SF.lt, XF.lt, forget]
  have a2 : ¬ SF.lt (add id (.fin (0 : ℝ)) (.fin 1)) .nz = true := by
    have : add id (.fin (0 : ℝ)) (.fin 1) = .fin 1 := by
      simp [add, forget, XF.add, SF.round, rs]
    rw [this]; simp [SF.lt, XF.lt, forget]
  exact (if_neg a1).trans (if_neg a2)

end Ufunclab.SZ
