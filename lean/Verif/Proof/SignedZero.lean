import Verif.Model.SignedZero
import Verif.Model.Scalar
/-!
# The numbers with two zeros, without the sign of a zero
-/
namespace Ufunclab.SZ
open SF

section
variable {K : Type _} [Field K] [LinearOrder K] {rd : K → K}

@[simp] theorem forget_rs (v : K) : (rs rd v).forget = .fin (rd v) := by
  unfold rs
  split_ifs with h
  · simp [forget, h.1]
  · rfl

@[simp] theorem forget_round (w : XF K) : (round rd w).forget = Log1p.rnd rd w := by
  cases w with
  | fin v => exact forget_rs v
  | _ => rfl

omit [LinearOrder K] in
@[simp] theorem forget_zero (s : Bool) : (SF.zero s : SF K).forget = .fin 0 := by
  cases s <;> simp [SF.zero, forget]

@[simp] theorem forget_neg (x : SF K) : (neg x).forget = XF.neg x.forget := by
  cases x with
  | fin a =>
    by_cases h : a = 0
    · simp [neg, forget, XF.neg, h]
    · simp [neg, forget, XF.neg, h]
  | _ => simp [neg, forget, XF.neg]

/-- Rounding changes nothing: addition is that of `XF`. -/
theorem forget_add (h : rd 0 = 0) (x y : SF K) :
    (add rd x y).forget = Log1p.fadd rd x.forget y.forget := by
  unfold add Log1p.fadd
  split
  · simp [forget, XF.add, Log1p.rnd, h]
  · simp

theorem forget_sub (h : rd 0 = 0) (x y : SF K) :
    (sub rd x y).forget = Log1p.fsub rd x.forget y.forget := by
  simp [sub, forget_add h, Log1p.fsub, Log1p.fadd, XF.sub]

theorem forget_mul (h : rd 0 = 0) (x y : SF K) :
    (mul rd x y).forget = Log1p.fmul rd x.forget y.forget := by
  unfold mul Log1p.fmul
  generalize XF.mul x.forget y.forget = w
  cases w with
  | fin v =>
    by_cases hv : v = 0
    · simp [hv, Log1p.rnd, h]
    · simp [hv, Log1p.rnd]
  | _ => simp [SF.round, forget, Log1p.rnd]

/-- Division is that of `XF` unless the divisor is a negative zero (and the quotient infinite). -/
theorem forget_div (h : rd 0 = 0) (x : SF K) {y : SF K} (hy : y ≠ .nz) :
    (div rd x y).forget = Log1p.fdiv rd x.forget y.forget := by
  unfold div Log1p.fdiv
  by_cases h0 : y.forget = .fin 0
  · rw [if_pos h0]
    have : y = .fin 0 := by
      cases y <;> simp_all [forget]
    subst this
    cases x with
    | fin a =>
      by_cases ha : a = 0
      · simp [ha, forget, XF.div, Log1p.rnd]
      · rcases lt_or_gt_of_ne ha with h1 | h1
        · simp [ha, forget, XF.div, Log1p.rnd, SF.inf, signbit, h1, not_lt.2 h1.le]
        · simp [ha, forget, XF.div, Log1p.rnd, SF.inf, signbit, h1, not_lt.2 h1.le]
    | _ => simp [forget, XF.div, Log1p.rnd, SF.inf, signbit]
  · rw [if_neg h0]
    generalize XF.div x.forget y.forget = w
    cases w with
    | fin v =>
      by_cases hv : v = 0
      · simp [hv, Log1p.rnd, h]
      · simp [hv, Log1p.rnd]
    | _ => simp [SF.round, forget, Log1p.rnd]

end

@[simp] theorem rnd_id {K : Type _} (w : XF K) : Log1p.rnd id w = w := by cases w <;> rfl

theorem forget_log1p (x : SF ℝ) : (log1p x).forget = Elementary.xlog1p x.forget := by
  cases x with
  | fin a =>
    simp only [log1p, forget, Elementary.xlog1p]
    split_ifs <;> simp
  | nz => simp [log1p, forget, Elementary.xlog1p]
  | _ => simp [log1p, forget, Elementary.xlog1p]

theorem forget_expm1 (x : SF ℝ) : (expm1 x).forget = Elementary.xexpm1 x.forget := by
  cases x <;> simp [expm1, forget, Elementary.xexpm1]

end Ufunclab.SZ

namespace Ufunclab.SZ
open SF

/-- The finite number `v`, with either sign if it is a zero. -/
def Rep (x : SF ℝ) (v : ℝ) : Prop := x.forget = .fin v

theorem rep_fin (v : ℝ) : Rep (.fin v) v := rfl

theorem Rep.cases {x : SF ℝ} {v : ℝ} (h : Rep x v) : x = .fin v ∨ x = .nz ∧ v = 0 := by
  cases x with
  | fin a => left; simpa [Rep, forget] using h
  | nz => right; exact ⟨rfl, by simpa [Rep, forget, eq_comm] using h⟩
  | _ => simp [Rep, forget] at h

theorem Rep.neg {x : SF ℝ} {a : ℝ} (h : Rep x a) : Rep (SF.neg x) (-a) := by
  unfold Rep at *; rw [forget_neg, h]; rfl

theorem Rep.add {x y : SF ℝ} {a b : ℝ} (h : Rep x a) (h' : Rep y b) : Rep (SF.add id x y) (a + b) := by
  unfold Rep at *; rw [forget_add rfl, h, h']; simp [Log1p.fadd, XF.add]

theorem Rep.sub {x y : SF ℝ} {a b : ℝ} (h : Rep x a) (h' : Rep y b) : Rep (SF.sub id x y) (a - b) := by
  rw [sub_eq_add_neg]; exact h.add h'.neg

theorem Rep.mul {x y : SF ℝ} {a b : ℝ} (h : Rep x a) (h' : Rep y b) : Rep (SF.mul id x y) (a * b) := by
  unfold Rep at *; rw [forget_mul rfl, h, h']; simp [Log1p.fmul, XF.mul]

theorem Rep.div {x y : SF ℝ} {a b : ℝ} (h : Rep x a) (h' : Rep y b) (hb : b ≠ 0) :
    Rep (SF.div id x y) (a / b) := by
  have hy : y ≠ .nz := by
    rintro rfl
    simp only [Rep, forget, XF.fin.injEq] at h'
    exact hb h'.symm
  unfold Rep at *; rw [forget_div rfl _ hy, h, h']; simp [Log1p.fdiv, XF.div, hb]

theorem Rep.exp {x : SF ℝ} {a : ℝ} (h : Rep x a) : Rep (SZ.exp x) (Real.exp a) := by
  rcases h.cases with rfl | ⟨rfl, rfl⟩ <;> simp [SZ.exp, Rep, forget]

theorem Rep.expm1 {x : SF ℝ} {a : ℝ} (h : Rep x a) : Rep (SZ.expm1 x) (Scalar.expm1 a) := by
  rcases h.cases with rfl | ⟨rfl, rfl⟩ <;> simp [SZ.expm1, Rep, forget, Scalar.expm1]

theorem Rep.log1p {x : SF ℝ} {a : ℝ} (h : Rep x a) (ha : -1 < a) : Rep (SZ.log1p x) (Scalar.log1p a) := by
  rcases h.cases with rfl | ⟨rfl, rfl⟩
  · simp [SZ.log1p, Rep, forget, Scalar.log1p, not_lt.2 ha.le, ha.ne']
  · simp [SZ.log1p, Rep, forget, Scalar.log1p]

theorem Rep.sqrt {x : SF ℝ} {a : ℝ} (h : Rep x a) (ha : 0 ≤ a) : Rep (SZ.sqrt x) (√a) := by
  rcases h.cases with rfl | ⟨rfl, rfl⟩
  · simp [SZ.sqrt, Rep, forget, not_lt.2 ha]
  · simp [SZ.sqrt, Rep, forget]

theorem Rep.pow2 {x : SF ℝ} {a : ℝ} (h : Rep x a) : Rep (SZ.pow2 x) ((2 : ℝ) ^ a) := by
  rcases h.cases with rfl | ⟨rfl, rfl⟩ <;> simp [SZ.pow2, Rep, forget]

theorem Rep.lt {x y : SF ℝ} {a b : ℝ} (h : Rep x a) (h' : Rep y b) : SF.lt x y = true ↔ a < b := by
  unfold Rep at *; simp [SF.lt, h, h', XF.lt]

theorem Rep.le {x y : SF ℝ} {a b : ℝ} (h : Rep x a) (h' : Rep y b) : SF.le x y = true ↔ a ≤ b := by
  unfold Rep at *; simp [SF.le, h, h', XF.le, XF.lt, XF.eq, le_iff_lt_or_eq]

theorem Rep.eq {x y : SF ℝ} {a b : ℝ} (h : Rep x a) (h' : Rep y b) : SF.eq x y = true ↔ a = b := by
  unfold Rep at *; simp [SF.eq, h, h', XF.eq]

end Ufunclab.SZ
