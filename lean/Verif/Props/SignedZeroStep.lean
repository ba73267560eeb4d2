import Verif.Props.SignedZero
import Verif.Model.StepOverflow
/-!
# C127: the sign of a zero in the step functions
-/
namespace Ufunclab.SZ
open SF Spec Float

/-- A difference of floats that are not equal is not a negative zero. -/
theorem sub_ne_nz {p : ℕ} {emin : ℤ} {rd : ℝ → ℝ} (h : Nearest p emin rd) (hp : 1 ≤ p) {x y : SF ℝ}
    (hx : FloatOrSpecial p emin x) (hy : FloatOrSpecial p emin y) (hne : ¬ SF.eq y x = true) : sub rd x y ≠ .nz := by
  refine add_ne_nz h hp hx ?_ ?_
  · intro a e
    cases y with
    | fin b =>
      simp only [neg] at e
      split_ifs at e
      cases e
      exact (hy b rfl).neg
    | nz => simp only [neg, SF.fin.injEq] at e; subst e; exact isFloat_zero
    | _ => simp [neg] at e
  · by_contra hc
    rw [not_or, not_not, not_not] at hc
    obtain ⟨rfl, h2⟩ := hc
    cases y with
    | fin b =>
      simp only [neg] at h2
      split_ifs at h2 with hb
      exact hne (by simp [SF.eq, XF.eq, forget, hb])
    | _ => simp [neg] at h2

/-- The step functions: the signs of zeros apart, the results are those of the model with one zero; in particular
a zero of either sign at an end of the interval counts as that end. -/
theorem C127_step {p : ℕ} {emin : ℤ} {rd : ℝ → ℝ} (h : Nearest p emin rd) (hp : 1 ≤ p) (x a b fa fb flow fhigh : SF ℝ)
    (ha : FloatOrSpecial p emin a) (hb : FloatOrSpecial p emin b) :
    (step x a flow fa fhigh).forget = Step.step x.forget a.forget flow.forget fa.forget fhigh.forget ∧
    (linearstep rd x a b fa fb).forget =
      Step.linearstepO (Log1p.rnd rd) x.forget a.forget b.forget fa.forget fb.forget ∧
    (smoothstep3 rd x a b fa fb).forget =
      Step.smoothstep3O (Log1p.rnd rd) x.forget a.forget b.forget fa.forget fb.forget ∧
    (smoothstep5 rd x a b fa fb).forget =
      Step.smoothstep5O (Log1p.rnd rd) x.forget a.forget b.forget fa.forget fb.forget := by
  have h0 := h.round_zero
  have fadd : ∀ x y : SF ℝ, Log1p.rnd rd (x.forget.add y.forget) = (add rd x y).forget :=
    fun x y => (forget_add h0 x y).symm
  have fsub : ∀ x y : SF ℝ, Log1p.rnd rd (x.forget.sub y.forget) = (sub rd x y).forget :=
    fun x y => (forget_sub h0 x y).symm
  have fmul : ∀ x y : SF ℝ, Log1p.rnd rd (x.forget.mul y.forget) = (mul rd x y).forget :=
    fun x y => (forget_mul h0 x y).symm
  have fdiv : ∀ x y : SF ℝ, y ≠ .nz → Log1p.rnd rd (x.forget.div y.forget) = (div rd x y).forget :=
    fun x y hy => (forget_div h0 x hy).symm
  have fc : ∀ v : ℝ, XF.fin v = forget (.fin v) := fun _ => rfl
  have e1 : SF.lt b a = a.forget.gt b.forget := rfl
  have e2 : SF.le x a = x.forget.le a.forget := rfl
  have e3 : SF.le b x = x.forget.ge b.forget := rfl
  have e4 : SF.eq a b = a.forget.eq b.forget := rfl
  have hmid : Log1p.rnd rd ((Log1p.rnd rd (fa.forget.add fb.forget)).div (.fin 2)) =
      (div rd (add rd fa fb) (.fin 2)).forget := by rw [fadd, fc, fdiv _ _ (by simp)]
  refine ⟨?_, ?_, ?_, ?_⟩
  · unfold step Step.step
    rw [show SF.lt x a = x.forget.lt a.forget from rfl]
    by_cases c1 : x.forget.lt a.forget = true
    · rw [if_pos c1, if_pos c1]
    · rw [if_neg c1, if_neg c1, show SF.lt a x = x.forget.gt a.forget from rfl]
      split_ifs <;> rfl
  · unfold linearstep Step.linearstepO
    rw [e1, e2, e3, e4]
    split_ifs with c1 c2 c3 c4
    · rfl
    · rfl
    · rfl
    · exact hmid.symm
    · have hd : sub rd b a ≠ .nz := sub_ne_nz h hp hb ha (by rw [e4]; exact c4)
      simp only [fsub, fdiv _ _ hd, fc 1, fmul, fadd]
  · unfold smoothstep3 Step.smoothstep3O
    rw [e1, e2, e3, e4]
    split_ifs with c1 c2 c3 c4
    · rfl
    · rfl
    · rfl
    · exact hmid.symm
    · have hd : sub rd b a ≠ .nz := sub_ne_nz h hp hb ha (by rw [e4]; exact c4)
      simp only [fsub, fdiv _ _ hd, fc 2, fc 3, fmul, fadd]
  · unfold smoothstep5 Step.smoothstep5O
    rw [e1, e2, e3, e4]
    split_ifs with c1 c2 c3 c4
    · rfl
    · rfl
    · rfl
    · exact hmid.symm
    · have hd : sub rd b a ≠ .nz := sub_ne_nz h hp hb ha (by rw [e4]; exact c4)
      simp only [fsub, fdiv _ _ hd, fc 6, fc 10, fc 15, fmul, fadd]

/-- At and outside the ends the result is `fa` or `fb` itself, the sign of a zero included. -/
theorem C127_step_ends (rd : ℝ → ℝ) (x a b fa fb : SF ℝ) (hab : ¬ b.forget.lt a.forget = true) :
    (x.forget.le a.forget = true → linearstep rd x a b fa fb = fa ∧ smoothstep3 rd x a b fa fb = fa ∧
      smoothstep5 rd x a b fa fb = fa) ∧
    (¬ x.forget.le a.forget = true → b.forget.le x.forget = true → linearstep rd x a b fa fb = fb ∧
      smoothstep3 rd x a b fa fb = fb ∧ smoothstep5 rd x a b fa fb = fb) := by
  have h1 : ¬ SF.lt b a = true := hab
  constructor
  · intro hx
    have h2 : SF.le x a = true := hx
    refine ⟨?_, ?_, ?_⟩
    · unfold linearstep; rw [if_neg h1, if_pos h2]
    · unfold smoothstep3; rw [if_neg h1, if_pos h2]
    · unfold smoothstep5; rw [if_neg h1, if_pos h2]
  · intro hx hb
    have h2 : ¬ SF.le x a = true := hx
    have h3 : SF.le b x = true := hb
    refine ⟨?_, ?_, ?_⟩
    · unfold linearstep; rw [if_neg h1, if_neg h2, if_pos h3]
    · unfold smoothstep3; rw [if_neg h1, if_neg h2, if_pos h3]
    · unfold smoothstep5; rw [if_neg h1, if_neg h2, if_pos h3]

/-- `step` returns one of its three values itself, the sign of a zero included. -/
theorem C127_step_values (x a flow fa fhigh : SF ℝ) :
    (x.forget.lt a.forget = true → step x a flow fa fhigh = flow) ∧
    (a.forget.lt x.forget = true → step x a flow fa fhigh = fhigh) ∧
    (x.forget.eq a.forget = true → step x a flow fa fhigh = fa) := by
  have key : ∀ p q : XF ℝ, p.lt q = true → ¬ q.lt p = true := by
    intro p q; cases p <;> cases q <;> simp [XF.lt]
    exact le_of_lt
  have keq : ∀ p q : XF ℝ, p.eq q = true → ¬ p.lt q = true ∧ ¬ q.lt p = true := by
    intro p q; cases p <;> cases q <;> simp [XF.lt, XF.eq]
    intro e; simp [e]
  refine ⟨fun h => ?_, fun h => ?_, fun h => ?_⟩
  · exact if_pos (show SF.lt x a = true from h)
  · unfold step
    rw [if_neg (show ¬ SF.lt x a = true from key _ _ h), if_pos (show SF.lt a x = true from h)]
  · unfold step
    rw [if_neg (show ¬ SF.lt x a = true from (keq _ _ h).1), if_neg (show ¬ SF.lt a x = true from (keq _ _ h).2)]

/-- With a = +0 and b = 1, x = -0 is at the lower end and a value -0 there is returned with its sign. -/
example : linearstep id .nz (.fin 0) (.fin 1) .nz (.fin 7) = .nz :=
  ((C127_step_ends id .nz (.fin 0) (.fin 1) .nz (.fin 7) (by simp [XF.lt, forget])).1 (by simp [XF.le, forget])).1

/-- A negative zero as the argument, at the lower end +0 of the interval, gives the value there. -/
example : linearstep id .nz (.fin 0) (.fin 1) (.fin 5) (.fin 7) = .fin 5 := by
  simp [linearstep, SF.lt, SF.le, XF.lt, XF.le, forget]

/-- trapezoid_pulse: the signs of zeros apart, the result is that of the model with one zero.  Left and right of the pulse
the result is +0, whatever the sign of `amp`, and in the flat part it is `amp` itself, the sign of a zero included. -/
theorem C127_trapezoid {p : ℕ} {emin : ℤ} {rd : ℝ → ℝ} (h : Nearest p emin rd) (hp : 1 ≤ p) (x a b c d amp : SF ℝ)
    (ha : FloatOrSpecial p emin a) (hb : FloatOrSpecial p emin b) (hc : FloatOrSpecial p emin c)
    (hd : FloatOrSpecial p emin d) :
    (trapezoid rd x a b c d amp).forget =
      Deadzone.trapezoidO (Log1p.rnd rd) x.forget a.forget b.forget c.forget d.forget amp.forget ∧
    (a.forget.le b.forget = true → b.forget.le c.forget = true → c.forget.le d.forget = true →
      (x.forget.le a.forget = true ∨ d.forget.le x.forget = true → trapezoid rd x a b c d amp = .fin 0) ∧
      (¬ x.forget.le a.forget = true → ¬ d.forget.le x.forget = true → b.forget.le x.forget = true →
        x.forget.le c.forget = true → trapezoid rd x a b c d amp = amp)) := by
  have h0 := h.round_zero
  have fsub : ∀ x y : SF ℝ, Log1p.rnd rd (x.forget.sub y.forget) = (sub rd x y).forget :=
    fun x y => (forget_sub h0 x y).symm
  have fmul : ∀ x y : SF ℝ, Log1p.rnd rd (x.forget.mul y.forget) = (mul rd x y).forget :=
    fun x y => (forget_mul h0 x y).symm
  have fdiv : ∀ x y : SF ℝ, y ≠ .nz → Log1p.rnd rd (x.forget.div y.forget) = (div rd x y).forget :=
    fun x y hy => (forget_div h0 x hy).symm
  have l1 : ∀ x a b : XF ℝ, ¬ x.le a = true → x.lt b = true → ¬ a.eq b = true := by
    intro x a b
    cases x <;> cases a <;> cases b <;> simp [XF.le, XF.lt, XF.eq]
    intro h1 _ h2 h3
    exact absurd (h3 ▸ h2) (not_lt.mpr h1)
  have l2 : ∀ x c d : XF ℝ, x.isnan = false → ¬ x.le c = true → ¬ d.le x = true → ¬ c.eq d = true := by
    intro x c d
    cases x <;> cases c <;> cases d <;> simp [XF.le, XF.lt, XF.eq, XF.isnan]
    intro h1 h2 h3 h4 h5
    subst h5
    exact absurd (le_antisymm h3 h1) (by first | exact h4 | exact fun e => h4 e.symm | exact h2 | exact fun e => h2 e.symm)
  have l3 : ∀ x b c : XF ℝ, x.isnan = false → b.le c = true → ¬ x.lt b = true → b.le x = true := by
    intro x b c
    cases x <;> cases b <;> cases c <;> simp [XF.le, XF.lt, XF.eq, XF.isnan]
    all_goals first
      | exact fun _ h2 => lt_or_eq_of_le h2
      | exact fun h2 => lt_or_eq_of_le h2
  constructor
  · unfold trapezoid Deadzone.trapezoidO
    rw [show SF.le a b = a.forget.le b.forget from rfl, show SF.le b c = b.forget.le c.forget from rfl,
      show SF.le c d = c.forget.le d.forget from rfl, show SF.le x a = x.forget.le a.forget from rfl,
      show SF.le d x = x.forget.ge d.forget from rfl, show SF.le b x = x.forget.ge b.forget from rfl,
      show SF.le x c = x.forget.le c.forget from rfl, show SF.lt x b = x.forget.lt b.forget from rfl]
    split_ifs with c1 c2 c3 c4
    · rfl
    · rfl
    · rfl
    · have hne : sub rd b a ≠ .nz := sub_ne_nz h hp hb ha (l1 _ _ _ (fun hh => c2 (by simp [hh])) c4)
      rw [fsub, fsub, fdiv _ _ hne, fmul]
    · by_cases hn : x.forget.isnan = true
      · have hx : x = .nan := by cases x <;> simp_all [forget, XF.isnan]
        subst hx
        cases d <;> cases c <;> cases amp <;>
          simp [sub, neg, add, div, mul, SF.round, forget, XF.sub, XF.add, XF.neg, XF.div, XF.mul, Log1p.rnd]
      · have hn' : x.forget.isnan = false := by simpa using hn
        have hbc : b.forget.le c.forget = true := by
          by_contra hh; exact c1 (by simp [hh])
        have hbx : x.forget.ge b.forget = true := l3 _ _ _ hn' hbc c4
        have hxc : ¬ x.forget.le c.forget = true := fun hh => c3 (by simp [hh, hbx])
        have hdx : ¬ d.forget.le x.forget = true := fun hh => c2 (by
          rw [Bool.or_eq_true]; exact .inr hh)
        have hne : sub rd d c ≠ .nz := sub_ne_nz h hp hd hc (l2 _ _ _ hn' hxc hdx)
        rw [fsub, fsub, fdiv _ _ hne, fmul]
  · intro h1 h2 h3
    have hh : ¬ (!(SF.le a b && SF.le b c && SF.le c d)) = true := by simp [SF.le, h1, h2, h3]
    constructor
    · intro hx
      unfold trapezoid
      rw [if_neg hh, if_pos (by simpa [SF.le] using hx)]
    · intro k1 k2 k3 k4
      unfold trapezoid
      rw [if_neg hh, if_neg (by simp only [SF.le, Bool.or_eq_true, not_or]; exact ⟨k1, k2⟩),
        if_pos (by simp [SF.le, k3, k4])]

/-- A pulse on [0, 3] of amplitude -0: +0 at its start, -0 in the flat part. -/
example : trapezoid id .nz (.fin 0) (.fin 1) (.fin 2) (.fin 3) .nz = .fin 0 ∧
    trapezoid id (.fin 1) (.fin 0) (.fin 1) (.fin 2) (.fin 3) .nz = .nz := by
  constructor <;> norm_num [trapezoid, SF.le, XF.le, XF.lt, XF.eq, forget]

end Ufunclab.SZ
