import Verif.Proof.Debye1Poly
import Mathlib.Tactic.FieldSimp
/-!
# Sign of an integer polynomial on an interval, decided by the kernel

The interval `[a/d, b/e)` is the image of `t ↦ (a + b t)/(d + e t)`, `t ≥ 0` (`e = 0` for a half
line).  If the numerator of the composition has no negative coefficient, the polynomial is not
negative on the interval.
-/
namespace Ufunclab.PolyPos
open Ufunclab.Debye1

/-- Numerator of the composition, and the power of the denominator. -/
def comp (a b d e : ℤ) : List ℤ → List ℤ × List ℤ
  | [] => ([], [1])
  | f :: r =>
    let q := comp a b d e r
    (padd (psmul f q.2) (pmul [a, b] q.1), pmul [d, e] q.2)

def allNonneg : List ℤ → Bool
  | [] => true
  | a :: p => decide (0 ≤ a) && allNonneg p

theorem peval_nonneg (p : List ℤ) (h : allNonneg p = true) {t : ℝ} (ht : 0 ≤ t) : 0 ≤ peval p t := by
  induction p with
  | nil => simp
  | cons a p ih =>
    simp only [allNonneg, Bool.and_eq_true, decide_eq_true_eq] at h
    have h1 : (0 : ℝ) ≤ a := by exact_mod_cast h.1
    have h2 := ih h.2
    rw [peval_cons]; positivity

theorem comp_eval (a b d e : ℤ) (f : List ℤ) {t y : ℝ} (hy : y * (d + e * t) = a + b * t) :
    peval (comp a b d e f).1 t * (d + e * t) = peval (comp a b d e f).2 t * peval f y := by
  induction f with
  | nil => simp [comp]
  | cons c r ih =>
    have e1 : peval (comp a b d e (c :: r)).1 t = c * peval (comp a b d e r).2 t + (a + b * t) * peval (comp a b d e r).1 t := by
      simp only [comp, peval_padd, peval_psmul, peval_pmul, peval_cons, peval_nil]; ring
    have e2 : peval (comp a b d e (c :: r)).2 t = (d + e * t) * peval (comp a b d e r).2 t := by
      simp only [comp, peval_pmul, peval_cons, peval_nil]; ring
    rw [e1, e2, peval_cons, add_mul, ← hy, mul_assoc (y * _), ih]
    ring

theorem comp_pos (a b d e : ℤ) (f : List ℤ) {t : ℝ} (h : 0 < (d : ℝ) + e * t) : 0 < peval (comp a b d e f).2 t := by
  induction f with
  | nil => simp [comp]
  | cons c r ih =>
    have e2 : peval (comp a b d e (c :: r)).2 t = (d + e * t) * peval (comp a b d e r).2 t := by
      simp only [comp, peval_pmul, peval_cons, peval_nil]; ring
    rw [e2]; exact mul_pos h ih

/-- The check for one interval. -/
def cell (f : List ℤ) (a b d e : ℤ) : Bool :=
  decide (0 < d) && decide (0 ≤ e) && allNonneg (comp a b d e f).1

theorem cell_sound (f : List ℤ) (a b d e : ℤ) (h : cell f a b d e = true) {y : ℝ} (h1 : (a : ℝ) ≤ y * d)
    (h2 : y * e < b) : 0 ≤ peval f y := by
  simp only [cell, Bool.and_eq_true, decide_eq_true_eq] at h
  obtain ⟨⟨hd, he⟩, hn⟩ := h
  have hd' : (0 : ℝ) < d := by exact_mod_cast hd
  have he' : (0 : ℝ) ≤ e := by exact_mod_cast he
  have hb : 0 < (b : ℝ) - y * e := by linarith
  set t := (y * d - a) / (b - y * e) with ht
  have ht0 : 0 ≤ t := div_nonneg (by linarith) hb.le
  have hpos : 0 < (d : ℝ) + e * t := by positivity
  have hy : y * (d + e * t) = a + b * t := by
    rw [ht]; field_simp; ring
  have hc := comp_eval a b d e f hy
  have hp := comp_pos a b d e f hpos
  have hn' := peval_nonneg _ hn ht0
  have : 0 ≤ peval (comp a b d e f).2 t * peval f y := by rw [← hc]; positivity
  exact (mul_nonneg_iff_of_pos_left hp).1 this

/-- Consecutive intervals `[p₀/d, p₁/d), [p₁/d, p₂/d), …`. -/
def cells (f : List ℤ) (d : ℤ) : List ℤ → Bool
  | a :: b :: l => cell f a b d d && cells f d (b :: l)
  | _ => true

theorem cells_sound (f : List ℤ) (d : ℤ) (hd : 0 < d) : ∀ (l : List ℤ) (a : ℤ), cells f d (a :: l) = true →
    ∀ {y : ℝ}, (a : ℝ) ≤ y * d → y * d < ((a :: l).getLast (by simp) : ℤ) → 0 ≤ peval f y := by
  intro l
  induction l with
  | nil =>
    intro a _ y h1 h2
    simp at h2; linarith
  | cons b l ih =>
    intro a h y h1 h2
    simp only [cells, Bool.and_eq_true] at h
    rcases lt_or_ge (y * d) b with hb | hb
    · exact cell_sound f a b d d h.1 h1 hb
    · exact ih b h.2 hb (by simpa using h2)

/-- The half line from `a/d`. -/
theorem tail_sound (f : List ℤ) (a d : ℤ) (h : cell f a 1 d 0 = true) {y : ℝ} (h1 : (a : ℝ) ≤ y * d) : 0 ≤ peval f y :=
  cell_sound f a 1 d 0 h h1 (by simp)

end Ufunclab.PolyPos
