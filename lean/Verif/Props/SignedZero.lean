import Verif.Props.SpecialRamp
import Verif.Model.Vnorm
import Verif.Model.Cross
import Verif.Model.Sosfilter
import Verif.Model.Deadzone
import Verif.Model.Means
import Verif.Proof.FloatRatio
/-!
# C127: the sign of a zero

The models of the other files have one zero.  Here the code runs on numbers with two zeros; forgetting
the sign of the zeros before or after gives the same result.
-/
namespace Ufunclab.SZ
open SF Spec Float

/-- Every rounding to nearest of a binary format satisfies the hypothesis of C126. -/
theorem C126_rounding {p : ℕ} {emin : ℤ} {rd : ℝ → ℝ} (h : Nearest p emin rd) (hp : 1 ≤ p) (he : emin ≤ -1) :
    Rounding rd where
  mono := h.monotone
  zero := h.round_zero
  half := by
    have := h.exact (isFloat_zpow (K := ℝ) hp (e := -1) he)
    rwa [zpow_neg_one, ← one_div] at this
  one := by simpa using h.exact (isFloat_zpow (K := ℝ) hp (e := 0) (by linarith))
  two := by simpa using h.exact (isFloat_zpow (K := ℝ) hp (e := 1) (by linarith))
  neg_one := by simpa using h.exact (isFloat_zpow (K := ℝ) hp (e := 0) (by linarith)).neg

/-- The sum of two floats rounds to zero only if it is zero. -/
theorem add_round_zero {p : ℕ} {emin : ℤ} {rd : ℝ → ℝ} (h : Nearest p emin rd) (hp : 1 ≤ p) {a b : ℝ}
    (ha : IsFloat p emin a) (hb : IsFloat p emin b) (h0 : rd (a + b) = 0) : a + b = 0 := by
  obtain ⟨n, hn⟩ := ha.grid.add hb.grid
  have ht := two_zpow_pos (K := ℝ) emin
  have hf := isFloat_zpow (K := ℝ) hp (le_refl emin)
  rcases lt_trichotomy n 0 with h1 | h1 | h1
  · have : a + b ≤ -(2 : ℝ) ^ emin := by
      rw [hn]
      have : (n : ℝ) ≤ -1 := by exact_mod_cast Int.le_sub_one_of_lt h1
      nlinarith
    have h2 := h.monotone this
    rw [h.exact hf.neg, h0] at h2
    linarith
  · simp [hn, h1]
  · have : (2 : ℝ) ^ emin ≤ a + b := by
      rw [hn]
      have : (1 : ℝ) ≤ n := by exact_mod_cast h1
      nlinarith
    have h2 := h.monotone this
    rw [h.exact hf, h0] at h2
    linarith

/-- A finite number of the format. -/
def FloatOrSpecial (p : ℕ) (emin : ℤ) (x : SF ℝ) : Prop := ∀ a, x = .fin a → IsFloat p emin a

/-- A sum of floats is a negative zero only if both are. -/
theorem add_ne_nz {p : ℕ} {emin : ℤ} {rd : ℝ → ℝ} (h : Nearest p emin rd) (hp : 1 ≤ p) {x y : SF ℝ}
    (hx : FloatOrSpecial p emin x) (hy : FloatOrSpecial p emin y) (hne : x ≠ .nz ∨ y ≠ .nz) :
    add rd x y ≠ .nz := by
  have key : ∀ a b : ℝ, IsFloat p emin a → IsFloat p emin b → rs rd (a + b) ≠ .nz := by
    intro a b ha hb e
    unfold rs at e
    split_ifs at e with hc
    have := add_round_zero h hp ha hb hc.1
    linarith [hc.2]
  have f0 : IsFloat p emin (0 : ℝ) := isFloat_zero
  cases x <;> cases y <;> simp_all [add, forget, XF.add, SF.round]
  · have := key 0 _ f0 (hy _ rfl); simpa using this
  · have := key _ 0 (hx _ rfl) f0; simpa using this
  · exact key _ _ (hx _ rfl) (hy _ rfl)

theorem add_float {p : ℕ} {emin : ℤ} {rd : ℝ → ℝ} (h : Nearest p emin rd) (x y : SF ℝ) :
    FloatOrSpecial p emin (add rd x y) := by
  intro a e
  have h2 := congrArg forget e
  rw [forget_add h.round_zero] at h2
  unfold Log1p.fadd at h2
  generalize XF.add x.forget y.forget = w at h2
  cases w <;> simp [Log1p.rnd, forget] at h2
  rw [← h2]; exact (h _).1

theorem mul_float {p : ℕ} {emin : ℤ} {rd : ℝ → ℝ} (h : Nearest p emin rd) (x y : SF ℝ) :
    FloatOrSpecial p emin (mul rd x y) := by
  intro a e
  have h2 := congrArg forget e
  rw [forget_mul h.round_zero] at h2
  unfold Log1p.fmul at h2
  generalize XF.mul x.forget y.forget = w at h2
  cases w <;> simp [Log1p.rnd, forget] at h2
  rw [← h2]; exact (h _).1

/-- vdot: the sign of the zeros apart, the result is that of the model with one zero, and it is never a
negative zero, whatever the signs of the zeros in the arrays. -/
theorem C127_vdot {p : ℕ} {emin : ℤ} {rd : ℝ → ℝ} (h : Nearest p emin rd) (hp : 1 ≤ p) (m : Mem (SF ℝ))
    (w px sx py sy : Int) (n : Nat) :
    (@Vnorm.vdot (SF ℝ) ⟨add rd⟩ ⟨mul rd⟩ ⟨.fin 0⟩ m w px sx py sy n).forget =
      @Vnorm.vdot (XF ℝ) ⟨Log1p.fadd rd⟩ ⟨Log1p.fmul rd⟩ ⟨.fin 0⟩ (fun i => (m i).forget) w px sx py sy n ∧
    @Vnorm.vdot (SF ℝ) ⟨add rd⟩ ⟨mul rd⟩ ⟨.fin 0⟩ m w px sx py sy n ≠ .nz := by
  have key : ∀ (sx sy : Int) (fuel k : Nat) (s : SF ℝ), FloatOrSpecial p emin s → s ≠ .nz →
      (@Vnorm.dotLoop (SF ℝ) ⟨add rd⟩ ⟨mul rd⟩ m px sx py sy fuel k s).forget =
        @Vnorm.dotLoop (XF ℝ) ⟨Log1p.fadd rd⟩ ⟨Log1p.fmul rd⟩ (fun i => (m i).forget) px sx py sy fuel k s.forget ∧
      @Vnorm.dotLoop (SF ℝ) ⟨add rd⟩ ⟨mul rd⟩ m px sx py sy fuel k s ≠ .nz := by
    intro sx sy fuel
    induction fuel with
    | zero => exact fun k s _ hs => ⟨rfl, hs⟩
    | succ f ih =>
      intro k s hf hs
      have h1 := ih (k + 1) (add rd s (mul rd (get m px sx k) (get m py sy k))) (add_float h _ _)
        (add_ne_nz h hp hf (mul_float h _ _) (.inl hs))
      rw [forget_add h.round_zero, forget_mul h.round_zero] at h1
      exact h1
  have f0 : FloatOrSpecial p emin (.fin 0) := by
    intro a e; simp only [SF.fin.injEq] at e; subst e; exact isFloat_zero
  unfold Vnorm.vdot
  split_ifs
  · exact key w w n 0 (.fin 0) f0 (by simp)
  · exact key sx sy n 0 (.fin 0) f0 (by simp)

/-- cross2 and cross3 with either zero, the sign of the zeros apart. -/
theorem C127_cross {rd : ℝ → ℝ} (h : rd 0 = 0) (m : Mem (SF ℝ)) (pu us pv vs po os : Int) :
    (@Cross.cross2 (SF ℝ) ⟨mul rd⟩ ⟨sub rd⟩ m pu us pv vs).forget =
      @Cross.cross2 (XF ℝ) ⟨Log1p.fmul rd⟩ ⟨Log1p.fsub rd⟩ (fun i => (m i).forget) pu us pv vs ∧
    ∀ i, (@Cross.cross3 (SF ℝ) ⟨mul rd⟩ ⟨sub rd⟩ m pu us pv vs po os i).forget =
      @Cross.cross3 (XF ℝ) ⟨Log1p.fmul rd⟩ ⟨Log1p.fsub rd⟩ (fun i => (m i).forget) pu us pv vs po os i := by
  have det : ∀ a b c d : SF ℝ, (sub rd (mul rd a b) (mul rd c d)).forget =
      Log1p.fsub rd (Log1p.fmul rd a.forget b.forget) (Log1p.fmul rd c.forget d.forget) := by
    intro a b c d; rw [forget_sub h, forget_mul h, forget_mul h]
  refine ⟨det _ _ _ _, fun i => ?_⟩
  simp only [Cross.cross3, set, Mem.store]
  split_ifs
  · exact det _ _ _ _
  · exact det _ _ _ _
  · exact det _ _ _ _
  · rfl

/-- Exchanging the vectors does not always change the sign: for parallel vectors both results are `+0`. -/
theorem C127_cross_antisymmetry_violated :
    ∃ m : Mem (SF ℝ), @Cross.cross2 (SF ℝ) ⟨mul id⟩ ⟨sub id⟩ m 0 1 2 1 = .fin 0 ∧
      @Cross.cross2 (SF ℝ) ⟨mul id⟩ ⟨sub id⟩ m 2 1 0 1 = .fin 0 ∧
      neg (.fin (0 : ℝ)) ≠ (.fin 0 : SF ℝ) := by
  refine ⟨fun _ => .fin 1, ?_, ?_, by simp [neg]⟩ <;>
  · show sub id (mul id (.fin 1) (.fin 1)) (mul id (.fin 1) (.fin 1)) = .fin 0
    simp [mul, forget, XF.mul, rs, sub, neg, add, XF.add, SF.round]

/-- sosfilter: filtering numbers with two zeros and forgetting the signs is filtering the numbers with
one zero. -/
theorem C127_sosfilter {rd : ℝ → ℝ} (h : rd 0 = 0) (ss : List (Sosfilter.Section (SF ℝ)))
    (zs : List (Sosfilter.State (SF ℝ))) (xs : List (SF ℝ)) :
    let fs := fun s : Sosfilter.Section (SF ℝ) =>
      (⟨s.b0.forget, s.b1.forget, s.b2.forget, s.a0.forget, s.a1.forget, s.a2.forget⟩ : Sosfilter.Section (XF ℝ))
    let fz := fun z : Sosfilter.State (SF ℝ) => (⟨z.z0.forget, z.z1.forget⟩ : Sosfilter.State (XF ℝ))
    let r := @Sosfilter.filter (SF ℝ) ⟨add rd⟩ ⟨sub rd⟩ ⟨mul rd⟩ ss zs xs
    (r.1.map forget, r.2.map fz) =
      @Sosfilter.filter (XF ℝ) ⟨Log1p.fadd rd⟩ ⟨Log1p.fsub rd⟩ ⟨Log1p.fmul rd⟩ (ss.map fs) (zs.map fz) (xs.map forget) := by
  intro fs fz
  have out : ∀ s z x, (@Sosfilter.secOut (SF ℝ) ⟨add rd⟩ ⟨mul rd⟩ s z x).forget =
      @Sosfilter.secOut (XF ℝ) ⟨Log1p.fadd rd⟩ ⟨Log1p.fmul rd⟩ (fs s) (fz z) x.forget := by
    intro s z x
    show (add rd (mul rd s.b0 x) z.z0).forget = _
    rw [forget_add h, forget_mul h]; rfl
  have st : ∀ s z x, fz (@Sosfilter.secState (SF ℝ) ⟨add rd⟩ ⟨sub rd⟩ ⟨mul rd⟩ s z x) =
      @Sosfilter.secState (XF ℝ) ⟨Log1p.fadd rd⟩ ⟨Log1p.fsub rd⟩ ⟨Log1p.fmul rd⟩ (fs s) (fz z) x.forget := by
    intro s z x
    have e := out s z x
    show (⟨(sub rd (add rd z.z1 (mul rd s.b1 x)) (mul rd s.a1 (@Sosfilter.secOut (SF ℝ) ⟨add rd⟩ ⟨mul rd⟩ s z x))).forget,
      (sub rd (mul rd s.b2 x) (mul rd s.a2 (@Sosfilter.secOut (SF ℝ) ⟨add rd⟩ ⟨mul rd⟩ s z x))).forget⟩ :
        Sosfilter.State (XF ℝ)) = _
    rw [forget_sub h, forget_add h, forget_sub h, forget_mul h, forget_mul h, forget_mul h, forget_mul h, e]; rfl
  have step : ∀ (ss : List (Sosfilter.Section (SF ℝ))) (zs : List (Sosfilter.State (SF ℝ))) (x : SF ℝ),
      ((@Sosfilter.sampleStep (SF ℝ) ⟨add rd⟩ ⟨sub rd⟩ ⟨mul rd⟩ ss zs x).1.forget,
        (@Sosfilter.sampleStep (SF ℝ) ⟨add rd⟩ ⟨sub rd⟩ ⟨mul rd⟩ ss zs x).2.map fz) =
      @Sosfilter.sampleStep (XF ℝ) ⟨Log1p.fadd rd⟩ ⟨Log1p.fsub rd⟩ ⟨Log1p.fmul rd⟩ (ss.map fs) (zs.map fz) x.forget := by
    intro ss
    induction ss with
    | nil => intro zs x; cases zs <;> rfl
    | cons s ss ih =>
      intro zs x
      cases zs with
      | nil => rfl
      | cons z zs =>
        have := ih zs (@Sosfilter.secOut (SF ℝ) ⟨add rd⟩ ⟨mul rd⟩ s z x)
        rw [out] at this
        simp only [Sosfilter.sampleStep, List.map_cons, st, ← this]
  show ((@Sosfilter.filter (SF ℝ) ⟨add rd⟩ ⟨sub rd⟩ ⟨mul rd⟩ ss zs xs).1.map forget, _) = _
  induction xs generalizing zs with
  | nil => rfl
  | cons x xs ih =>
    have e := step ss zs x
    have e2 := ih (@Sosfilter.sampleStep (SF ℝ) ⟨add rd⟩ ⟨sub rd⟩ ⟨mul rd⟩ ss zs x).2
    simp only [Sosfilter.filter, List.map_cons, ← e, ← e2]

/-- deadzone: the sign of the zeros apart, and for floats never a negative zero. -/
theorem C127_deadzone {p : ℕ} {emin : ℤ} {rd : ℝ → ℝ} (h : Nearest p emin rd) (hp : 1 ≤ p) (x low high : SF ℝ) :
    (Deadzone.deadzone SF.lt (sub rd) (.fin 0) x low high).forget =
      Deadzone.deadzone XF.lt (Log1p.fsub rd) (.fin 0) x.forget low.forget high.forget ∧
    (FloatOrSpecial p emin x → FloatOrSpecial p emin low → FloatOrSpecial p emin high →
      Deadzone.deadzone SF.lt (sub rd) (.fin 0) x low high ≠ .nz) := by
  constructor
  · unfold Deadzone.deadzone
    by_cases h1 : XF.lt x.forget low.forget = true
    · rw [if_pos h1, if_pos (show SF.lt x low = true from h1)]; exact forget_sub h.round_zero _ _
    rw [if_neg h1, if_neg (show ¬ SF.lt x low = true from h1)]
    by_cases h2 : XF.lt high.forget x.forget = true
    · rw [if_pos h2, if_pos (show SF.lt high x = true from h2)]; exact forget_sub h.round_zero _ _
    · rw [if_neg h2, if_neg (show ¬ SF.lt high x = true from h2)]; rfl
  · intro hx hl hh
    have negf : ∀ y : SF ℝ, FloatOrSpecial p emin y → FloatOrSpecial p emin (neg y) := by
      intro y hy a e
      cases y with
      | fin b =>
        by_cases hb : b = 0
        · simp [neg, hb] at e
        · simp only [neg, hb, if_false, SF.fin.injEq] at e; rw [← e]; exact (hy b rfl).neg
      | nz => simp only [neg, SF.fin.injEq] at e; rw [← e]; exact isFloat_zero
      | _ => simp [neg] at e
    have main : ∀ y, FloatOrSpecial p emin y → (XF.lt x.forget y.forget = true ∨ XF.lt y.forget x.forget = true) →
        sub rd x y ≠ .nz := by
      intro y hy hlt
      refine add_ne_nz h hp hx (negf y hy) ?_
      by_contra hc
      rw [not_or, not_not, not_not] at hc
      obtain ⟨rfl, h2⟩ := hc
      have : y.forget = .fin 0 := by
        have := congrArg forget h2
        rw [forget_neg] at this
        cases y with
        | fin b => simpa [forget, XF.neg] using this
        | nz => rfl
        | _ => simp [forget, XF.neg] at this
      rw [this] at hlt
      simp [forget, XF.lt] at hlt
    unfold Deadzone.deadzone
    by_cases h1 : SF.lt x low = true
    · rw [if_pos h1]; exact main low hl (.inl h1)
    rw [if_neg h1]
    by_cases h2 : SF.lt high x = true
    · rw [if_pos h2]; exact main high hh (.inr h2)
    · rw [if_neg h2]; simp

/-- hmean: a zero element of either sign gives 0, the sum of the reciprocals is never a negative zero,
and the result, the sign of a zero apart, is that of the model with one zero. -/
theorem C127_hmean (x : List (SF ℝ)) :
    hmeanSum id (.fin 0) x ≠ .nz ∧ (hmean1d id x).forget = Means.hmean1d (x.map forget) := by
  have key : ∀ (x : List (SF ℝ)) (s : SF ℝ), s ≠ .nz →
      hmeanSum id s x ≠ .nz ∧ (hmeanSum id s x).forget = Means.hmeanSum s.forget (x.map forget) := by
    intro x
    induction x with
    | nil => exact fun s hs => ⟨hs, rfl⟩
    | cons a x ih =>
      intro s hs
      simp only [hmeanSum, Means.hmeanSum, List.map_cons]
      have e : SF.eq a (.fin 0) = XF.eq a.forget (.fin 0) := rfl
      rw [e]
      by_cases h0 : XF.eq a.forget (.fin 0) = true
      · rw [if_pos h0, if_pos h0]; exact ⟨by simp, rfl⟩
      · rw [if_neg h0, if_neg h0]
        have ha : a ≠ .nz := by rintro rfl; simp [forget, XF.eq] at h0
        have h1 : add id s (div id (.fin 1) a) ≠ .nz := by
          have k : ∀ v : ℝ, rs id v ≠ .nz := by
            intro v e; unfold rs at e; split_ifs at e with hc
            have h1 : v = 0 := hc.1
            exact absurd hc.2 (by rw [h1]; exact lt_irrefl _)
          generalize div id (.fin 1) a = y
          cases s <;> cases y <;> simp_all [add, forget, XF.add, SF.round]
        obtain ⟨h2, h3⟩ := ih _ h1
        refine ⟨h2, ?_⟩
        rw [h3, forget_add rfl, forget_div rfl _ ha]
        simp [Log1p.fadd, Log1p.fdiv, forget]
  obtain ⟨h1, h2⟩ := key x (.fin 0) (by simp)
  refine ⟨h1, ?_⟩
  rw [hmean1d, forget_div rfl _ h1, h2]
  simp [Log1p.fdiv, forget, Means.hmean1d]

/-- unwrap does not see the signs of zeros: `copysign(0.5, -0.0)` is `-0.5`, and the truncated quotient is
the same. -/
theorem C127_unwrap {K : Type _} [Field K] [LinearOrder K] [IsStrictOrderedRing K] [FloorRing K]
    (period : SF K) (x : List (SF K)) :
    (unwrapCore period x).map (List.map forget) = Unwrap.unwrapCore period.forget (x.map forget) := by
  have quot : ∀ d : SF K, Unwrap.toInt32 (add id (div id d period) (copysignHalf d)).forget =
      Unwrap.toInt32 (XF.add (XF.div d.forget period.forget) (Unwrap.copysignHalf d.forget)) := by
    intro d
    rw [forget_add rfl]
    have hc : (copysignHalf d).forget = Unwrap.copysignHalf d.forget ∨ d = .nz := by
      cases d <;> simp [copysignHalf, signbit, Unwrap.copysignHalf, forget, XF.lt]
      split_ifs <;> rfl
    by_cases hp : period = .nz
    · subst hp
      by_cases hd : d = .nan ∨ d.forget = .fin 0
      · have : div id d .nz = .nan := by rw [div, if_pos (show (SF.nz : SF K).forget = .fin 0 from rfl), if_pos hd]
        rw [this]
        rcases hd with rfl | hd
        · simp [Log1p.fadd, forget, XF.add, XF.div, Unwrap.toInt32]
        · rw [hd]; simp [Log1p.fadd, forget, XF.add, XF.div, Unwrap.toInt32]
      · have e1 : ∃ s, div id d .nz = SF.inf s := ⟨_, by rw [div, if_pos (show (SF.nz : SF K).forget = .fin 0 from rfl), if_neg hd]⟩
        obtain ⟨s, e1⟩ := e1
        rw [e1]
        have e2 : XF.div d.forget (.fin 0) = .pinf ∨ XF.div d.forget (.fin 0) = .ninf := by
          cases d with
          | fin a =>
            have ha : a ≠ 0 := by simpa [forget] using hd
            by_cases h : 0 < a <;> simp [forget, XF.div, ha, h]
          | nz => simp [forget] at hd
          | nan => simp at hd
          | _ => simp [forget, XF.div]
        have e3 : ∀ s c, Unwrap.toInt32 (Log1p.fadd id (SF.inf s : SF K).forget (copysignHalf c).forget) = none := by
          intro s c
          unfold copysignHalf
          cases s <;> split_ifs <;> simp [SF.inf, forget, Log1p.fadd, XF.add, Unwrap.toInt32]
        rw [e3]
        show _ = Unwrap.toInt32 (XF.add (XF.div d.forget (.fin 0)) _)
        unfold Unwrap.copysignHalf
        rcases e2 with e2 | e2 <;> rw [e2] <;> split_ifs <;> simp [XF.add, Unwrap.toInt32]
    · rw [forget_div rfl _ hp]
      rcases hc with hc | hc
      · rw [hc]; simp [Log1p.fadd, Log1p.fdiv]
      · subst hc
        have t1 : Unwrap.toInt32 (.fin (-(1 / 2)) : XF K) = some 0 := by
          have : Unwrap.trunc (-(1 / 2) : K) = 0 := by
            unfold Unwrap.trunc
            rw [if_neg (by norm_num)]
            rw [Int.ceil_eq_zero_iff]; constructor <;> norm_num
          simp only [Unwrap.toInt32, this]; norm_num
        have t2 : Unwrap.toInt32 (.fin (1 / 2) : XF K) = some 0 := by
          have : Unwrap.trunc (1 / 2 : K) = 0 := by
            unfold Unwrap.trunc
            rw [if_pos (by norm_num)]
            rw [Int.floor_eq_zero_iff]; constructor <;> norm_num
          simp only [Unwrap.toInt32, this]; norm_num
        have c1 : (copysignHalf (.nz : SF K)).forget = .fin (-(1 / 2)) := by simp [copysignHalf, signbit, forget]
        have c2 : Unwrap.copysignHalf (SF.nz : SF K).forget = .fin (1 / 2) := by
          simp [Unwrap.copysignHalf, forget, XF.lt]
        rw [c1, c2]
        have e3 : XF.div (SF.nz : SF K).forget period.forget = .fin 0 ∨ XF.div (SF.nz : SF K).forget period.forget = .nan := by
          cases period with
          | fin b => by_cases hb : b = 0 <;> simp [forget, XF.div, hb]
          | nz => exact absurd rfl hp
          | _ => simp [forget, XF.div]
        rcases e3 with e3 | e3
        · rw [Log1p.fdiv, e3]
          simp only [rnd_id, Log1p.fadd, XF.add, zero_add, t1, t2]
        · rw [Log1p.fdiv, e3]
          simp [Log1p.fadd, XF.add, Unwrap.toInt32]
  have h1 : ∀ x0 x1 : SF K, (unwrap1 x0 x1 period).map forget = Unwrap.unwrap1 x0.forget x1.forget period.forget := by
    intro x0 x1
    unfold unwrap1 Unwrap.unwrap1
    have ed : (sub id x1 x0).forget = XF.sub x1.forget x0.forget := by rw [forget_sub rfl]; simp [Log1p.fsub]
    have := quot (sub id x1 x0)
    rw [ed] at this
    simp only [this]
    cases Unwrap.toInt32 (XF.add (XF.div (XF.sub x1.forget x0.forget) period.forget)
        (Unwrap.copysignHalf (XF.sub x1.forget x0.forget))) with
    | none => rfl
    | some q =>
      simp only [Option.map_some, Option.some.injEq]
      rw [forget_sub rfl, forget_mul rfl]
      simp [Log1p.fsub, Log1p.fmul, forget]
  have h2 : ∀ (x : List (SF K)) (x0 : SF K), (unwrapLoop period x0 x).map (List.map forget) =
      Unwrap.unwrapLoop period.forget x0.forget (x.map forget) := by
    intro x
    induction x with
    | nil => exact fun _ => rfl
    | cons x1 xs ih =>
      intro x0
      simp only [unwrapLoop, Unwrap.unwrapLoop, List.map_cons, List.length_map]
      by_cases hf : (!x1.forget.isfinite) = true
      · rw [if_pos hf, if_pos hf]; simp [forget]
      · rw [if_neg hf, if_neg hf, ← h1]
        cases unwrap1 x0 x1 period with
        | none => rfl
        | some x1' =>
          simp only [Option.map_some]
          rw [← ih x1']
          cases unwrapLoop period x1' xs <;> rfl
  cases x with
  | nil => rfl
  | cons x0 xs =>
    simp only [unwrapCore, Unwrap.unwrapCore, List.map_cons]
    rw [← h2 xs x0]
    cases unwrapLoop period x0 xs <;> rfl

/-- The imaginary part of the complex log1p: the conjugate argument gives the conjugate result, zeros and
infinities included; on the branch cut (real part below -1) the sign of the zero imaginary part chooses
between pi and -pi; right of it a zero is returned with its sign. -/
theorem C127_log1p_im (rd : ℝ → ℝ) (x y : SF ℝ) :
    log1pIm rd x (neg y) = neg (log1pIm rd x y) ∧
    (∀ (a : ℝ) (s : Bool), rd (a + 1) < 0 → a < -1 →
      log1pIm rd (.fin a) (SF.zero s) = .fin (if s then -Real.pi else Real.pi)) ∧
    (∀ (a : ℝ) (s : Bool), 0 < rd (a + 1) → log1pIm rd (.fin a) (SF.zero s) = SF.zero s) := by
  have pip := Real.pi_pos
  have zneg : ∀ s : Bool, neg (SF.zero s : SF ℝ) = SF.zero (!s) := by intro s; cases s <;> simp [neg, SF.zero]
  have sneg : ∀ y : SF ℝ, y ≠ .nan → signbit (neg y) = !signbit y := by
    intro y hy
    cases y with
    | fin b =>
      by_cases hb : b = 0
      · simp [neg, hb, signbit]
      · rcases lt_or_gt_of_ne hb with h | h
        · simp [neg, hb, signbit, h, h.le]
        · simp [neg, hb, signbit, h, h.le]
    | nan => exact absurd rfl hy
    | _ => simp [neg, signbit]
  have nf : ∀ v : ℝ, v ≠ 0 → neg (.fin v : SF ℝ) = .fin (-v) := by intro v hv; simp [neg, hv]
  have rsf : ∀ v : ℝ, rs id v = .fin v := by
    intro v
    unfold rs
    rw [if_neg]
    · rfl
    · rintro ⟨h1, h2⟩; rw [show v = 0 from h1] at h2; exact lt_irrefl _ h2
  refine ⟨?_, ?_, ?_⟩
  · unfold log1pIm
    generalize add rd x (.fin 1) = w
    by_cases hn : y = .nan ∨ w = .nan
    · have hn' : neg y = .nan ∨ w = .nan := hn.imp (fun e => by rw [e]; rfl) id
      rw [atan2, atan2, if_pos hn, if_pos hn']; rfl
    have hn' : ¬ (neg y = .nan ∨ w = .nan) := by
      rintro (e | e)
      · refine hn (.inl ?_)
        cases y with
        | fin b => by_cases hb : b = 0 <;> simp [neg, hb] at e
        | nan => rfl
        | _ => simp [neg] at e
      · exact hn (.inr e)
    rw [not_or] at hn
    by_cases h0 : y.forget = .fin 0
    · have h0' : (neg y).forget = .fin 0 := by rw [forget_neg, h0]; simp [XF.neg]
      rw [atan2, atan2, if_neg hn', if_neg (show ¬ (y = .nan ∨ w = .nan) by rw [not_or]; exact hn), if_pos h0, if_pos h0', sneg y hn.1]
      cases hb : signbit w
      · simp [zneg]
      · cases hs : signbit y
        · simp [nf _ pip.ne']
        · simp [nf _ (neg_ne_zero.2 pip.ne')]
    · have h0' : ¬ (neg y).forget = .fin 0 := by
        intro e; apply h0
        cases y with
        | fin b =>
          by_cases hb : b = 0
          · simp [forget, hb]
          · simp [neg, hb, forget] at e
        | nz => rfl
        | _ => simp [neg, forget] at e
      rw [atan2, atan2, if_neg hn', if_neg (show ¬ (y = .nan ∨ w = .nan) by rw [not_or]; exact hn), if_neg h0, if_neg h0']
      have p2 : Real.pi / 2 ≠ 0 := by positivity
      have p4 : Real.pi / 4 ≠ 0 := by positivity
      have p34 : 3 * Real.pi / 4 ≠ 0 := by positivity
      have arg : ∀ u v : ℝ, v ≠ 0 → Complex.arg ⟨u, -v⟩ = -Complex.arg ⟨u, v⟩ ∧ Complex.arg ⟨u, v⟩ ≠ 0 := by
        intro u v hv
        have hne : Complex.arg ⟨u, v⟩ ≠ Real.pi := by
          intro e; rw [Complex.arg_eq_pi_iff] at e; exact hv e.2
        constructor
        · have := Complex.arg_conj ⟨u, v⟩
          rw [if_neg hne] at this
          exact this
        · intro e; rw [Complex.arg_eq_zero_iff] at e; exact hv e.2
      cases y with
      | nan => exact absurd rfl hn.1
      | nz => exact absurd rfl h0
      | pinf =>
        cases w with
        | nan => exact absurd rfl hn.2
        | _ => simp [neg, forget, Log1p.catan2, SF.round, rsf, p2, p4, p34]
      | ninf =>
        cases w with
        | nan => exact absurd rfl hn.2
        | _ => simp [neg, forget, Log1p.catan2, SF.round, rsf, p2, p4, p34]
      | fin b =>
        have hb : b ≠ 0 := by simpa [forget] using h0
        cases w with
        | nan => exact absurd rfl hn.2
        | pinf =>
          rw [nf b hb]
          rcases lt_or_gt_of_ne hb with h | h
          · simp [SF.zero, signbit, h, h.le, neg]
          · simp [SF.zero, signbit, h, not_lt.2 h.le, neg]
        | ninf =>
          rw [nf b hb]
          rcases lt_or_gt_of_ne hb with h | h
          · simp [forget, Log1p.catan2, SF.round, rsf, neg, h, not_lt.2 h.le, pip.ne']
          · simp [forget, Log1p.catan2, SF.round, rsf, neg, h, not_lt.2 h.le, pip.ne']
        | nz =>
          rw [nf b hb]
          obtain ⟨e1, e2⟩ := arg 0 b hb
          rw [if_neg (by simp), if_neg (by simp)]
          simp only [forget, Log1p.catan2, SF.round, rsf, e1]
          rw [nf _ e2]
        | fin u =>
          rw [nf b hb]
          obtain ⟨e1, e2⟩ := arg u b hb
          rw [if_neg (by simp), if_neg (by simp)]
          simp only [forget, Log1p.catan2, SF.round, rsf, e1]
          rw [nf _ e2]
  · intro a s h1 h2
    have e : add rd (.fin a) (.fin 1) = .fin (rd (a + 1)) := by
      simp [add, forget, XF.add, SF.round, rs, h1.ne]
    unfold log1pIm
    rw [e]
    cases s <;> simp [atan2, SF.zero, forget, signbit, h1]
  · intro a s h1
    have e : add rd (.fin a) (.fin 1) = .fin (rd (a + 1)) := by
      simp [add, forget, XF.add, SF.round, rs, h1.ne']
    unfold log1pIm
    rw [e]
    cases s <;> simp [atan2, SF.zero, forget, signbit, not_lt.2 h1.le]

/-- The real part of the complex log1p does not change when the sign of the imaginary part does, zeros and
infinities included, for a rounding that does not see signs. -/
theorem C127_log1p_re (fma : Bool) {rd : ℝ → ℝ} (h : ∀ v, rd (-v) = -rd v) (x y : SF ℝ) :
    log1pRe rd fma x (neg y) = log1pRe rd fma x y := by
  have hh : ∀ u v, u = -v → rd u = -rd v := by rintro u v rfl; exact h v
  have sq : ∀ b : ℝ, Log1p.square fma rd (-b) = Log1p.square fma rd b := by
    intro b
    have e : Log1p.split fma rd (-b) = ⟨-(Log1p.split fma rd b).upper, -(Log1p.split fma rd b).lower⟩ := by
      have t : rd ((2 ^ 27 + 1) * -b) = -rd ((2 ^ 27 + 1) * b) := by rw [mul_neg, h]
      cases fma
      · have t2 : rd (-rd ((2 ^ 27 + 1) * b) - rd (-rd ((2 ^ 27 + 1) * b) - -b)) =
            -rd (rd ((2 ^ 27 + 1) * b) - rd (rd ((2 ^ 27 + 1) * b) - b)) := by
          refine hh _ _ ?_
          rw [hh (-rd ((2 ^ 27 + 1) * b) - -b) (rd ((2 ^ 27 + 1) * b) - b) (by ring)]; ring
        simp only [Log1p.split, t, Bool.false_eq_true, if_false, t2, Log1p.DD.mk.injEq, true_and]
        exact hh _ _ (by ring)
      · have t2 : rd (-2 ^ 27 * -b + -rd ((2 ^ 27 + 1) * b)) = -rd (-2 ^ 27 * b + rd ((2 ^ 27 + 1) * b)) := by
          exact hh _ _ (by ring)
        simp only [Log1p.split, t, if_true, t2, Log1p.DD.mk.injEq, true_and]
        exact hh _ _ (by ring)
    have d : ∀ u : ℝ, rd (2 * -u) = -rd (2 * u) := fun u => by rw [mul_neg, h]
    simp only [Log1p.square, e, neg_mul_neg, d]
  have xs : ∀ a b : ℝ, Log1p.xsqPlus2xPlusYsq fma rd a (-b) = Log1p.xsqPlus2xPlusYsq fma rd a b := by
    intro a b; simp only [Log1p.xsqPlus2xPlusYsq, sq]
  have hyp : ∀ u v : XF ℝ, Log1p.chypot u (XF.neg v) = Log1p.chypot u v := by
    intro u v
    cases u <;> cases v <;> simp [Log1p.chypot, XF.neg, XF.isinf]
  have mm : ∀ v : XF ℝ, Log1p.fmul rd (XF.neg v) (XF.neg v) = Log1p.fmul rd v v := by
    intro v; cases v <;> simp [Log1p.fmul, XF.neg, XF.mul]
  have win : ∀ v : XF ℝ, (XF.gt (XF.neg v) (.fin (-rd 1.2)) && XF.lt (XF.neg v) (.fin (rd 1.2))) =
      (XF.gt v (.fin (-rd 1.2)) && XF.lt v (.fin (rd 1.2))) := by
    intro v
    cases v with
    | fin b =>
      simp only [XF.gt, XF.neg, XF.lt]
      rw [Bool.and_comm]
      congr 1
      · rw [decide_eq_decide]; constructor <;> intro <;> linarith
      · rw [decide_eq_decide]; constructor <;> intro <;> linarith
    | _ => simp [XF.gt, XF.neg, XF.lt]
  unfold log1pRe Log1p.doubledouble
  simp only [forget_neg, hyp, mm, Bool.and_assoc, win]
  congr 1
  refine if_congr Iff.rfl (if_congr Iff.rfl ?_ rfl) rfl
  generalize x.forget = u
  generalize y.forget = v
  cases u <;> cases v <;> simp [XF.neg, xs]

example : log1pIm id (.fin (-3)) (SF.zero true) = .fin (-Real.pi) := by
  have := (C127_log1p_im id .nan .nan).2.1 (-3) true (by norm_num) (by norm_num)
  simpa using this

end Ufunclab.SZ
