import Verif.Model.Unwrap
import Verif.Proof.XF
import Mathlib.Tactic.Linarith
import Mathlib.Tactic.FieldSimp
import Mathlib.Tactic.Ring
import Mathlib.Tactic.NormNum
namespace Ufunclab.Unwrap
variable {K : Type _} [Field K] [LinearOrder K] [IsStrictOrderedRing K] [FloorRing K]

/-- Rounding half away from zero, as computed. -/
def rnd (d p : K) : Int := trunc (d / p + if d < 0 then -(1 / 2) else 1 / 2)

theorem rnd_near (d p : K) (hp : 0 < p) : |d / p - (rnd d p : K)| ≤ 1 / 2 := by
  unfold rnd trunc
  by_cases hd : d < 0
  · have h1 : d / p < 0 := div_neg_of_neg_of_pos hd hp
    rw [if_pos hd, if_neg (by linarith)]
    have a := Int.le_ceil (d / p + -(1 / 2))
    have b := Int.ceil_lt_add_one (d / p + -(1 / 2))
    rw [abs_le]; constructor <;> linarith
  · have h1 : 0 ≤ d / p := div_nonneg (not_lt.1 hd) hp.le
    rw [if_neg hd, if_pos (by linarith)]
    have a := Int.floor_le (d / p + 1 / 2)
    have b := Int.lt_floor_add_one (d / p + 1 / 2)
    rw [abs_le]; constructor <;> linarith

theorem rnd_unique (d p : K) (hp : 0 < p) (m : Int) (h : |d / p - (m : K)| < 1 / 2) :
    rnd d p = m := by
  have h2 := rnd_near d p hp
  have h3 : |((rnd d p : Int) : K) - (m : K)| < 1 := by
    rw [abs_lt] at h ⊢; rw [abs_le] at h2
    constructor <;> linarith [h.1, h.2, h2.1, h2.2]
  have h4 : |rnd d p - m| < 1 := by exact_mod_cast h3
  rw [Int.abs_lt_one_iff] at h4
  omega

/-- The value computed by `unwrap1` on finite data. -/
def step (p x0 x1 : K) : K := x1 - (rnd (x1 - x0) p : K) * p

theorem unwrap1_fin (p x0 x1 : K) (hp : p ≠ 0) :
    unwrap1 (.fin x0) (.fin x1) (.fin p) =
      if -(2 ^ 31) ≤ rnd (x1 - x0) p ∧ rnd (x1 - x0) p < 2 ^ 31 then some (.fin (step p x0 x1)) else none := by
  have h1 : XF.add (XF.div (XF.sub (.fin x1) (.fin x0)) (.fin p)) (copysignHalf (XF.sub (.fin x1) (.fin x0)))
      = XF.fin ((x1 - x0) / p + if x1 - x0 < 0 then -(1 / 2) else 1 / 2) := by
    simp only [XF.sub_fin, XF.div_fin _ _ hp, copysignHalf, XF.lt_fin, decide_eq_true_eq]
    split_ifs <;> rfl
  simp only [unwrap1, h1, toInt32]
  change (match (if -(2 ^ 31) ≤ rnd (x1 - x0) p ∧ rnd (x1 - x0) p < 2 ^ 31
    then some (rnd (x1 - x0) p) else none : Option Int) with
    | none => none | some q => some (XF.sub (.fin x1) (XF.mul (.fin (q : K)) (.fin p)))) = _
  split_ifs
  · simp [XF.sub, XF.mul, XF.neg, XF.add, step, sub_eq_add_neg]
  · rfl

theorem step_near (p x0 x1 : K) (hp : 0 < p) : |step p x0 x1 - x0| ≤ p / 2 := by
  have h := rnd_near (x1 - x0) p hp
  have h2 : step p x0 x1 - x0 = ((x1 - x0) / p - (rnd (x1 - x0) p : K)) * p := by
    unfold step; field_simp; ring
  rw [h2, abs_mul, abs_of_pos hp]
  calc _ ≤ 1 / 2 * p := mul_le_mul_of_nonneg_right h hp.le
    _ = p / 2 := by ring

/-- The exact outputs after `x0`. -/
def steps (p : K) : K → List K → List K
  | _, [] => []
  | x0, x1 :: xs => step p x0 x1 :: steps p (step p x0 x1) xs

theorem loop_fin (p : K) (hp : p ≠ 0) (xs : List K) (x0 : K) (r : List (XF K))
    (h : unwrapLoop (.fin p) (.fin x0) (xs.map .fin) = some r) : r = (steps p x0 xs).map .fin := by
  induction xs generalizing x0 r with
  | nil => simp [unwrapLoop] at h; simp [steps, h]
  | cons x1 xs ih =>
    simp only [List.map_cons, unwrapLoop, XF.isfinite, Bool.not_true, Bool.false_eq_true, if_false,
      unwrap1_fin p x0 x1 hp] at h
    split_ifs at h with hr
    · simp only at h
      cases hl : unwrapLoop (.fin p) (.fin (step p x0 x1)) (xs.map .fin) with
      | none => rw [hl] at h; simp at h
      | some r' =>
        rw [hl] at h; simp at h
        rw [← h, ih _ _ hl]; rfl

theorem loop_defined (p : K) (hp : 0 < p) (xs : List K) (x0 : K)
    (h : ∀ x ∈ xs, |x - x0| + (xs.length : K) * (p / 2) ≤ (2 ^ 31 - 1) * p) :
    ∃ r, unwrapLoop (.fin p) (.fin x0) (xs.map .fin) = some r := by
  induction xs generalizing x0 with
  | nil => exact ⟨[], rfl⟩
  | cons x1 xs ih =>
    have hx1 := h x1 (by simp)
    have hlen : (0 : K) ≤ ((x1 :: xs).length : K) * (p / 2) := by positivity
    have hd : |(x1 - x0) / p| ≤ 2 ^ 31 - 1 := by
      rw [abs_div, abs_of_pos hp, div_le_iff₀ hp]; linarith
    have hn := rnd_near (x1 - x0) p hp
    rw [abs_le] at hd hn
    have hlo : -(2 ^ 31) ≤ rnd (x1 - x0) p := by
      have : (-(2 ^ 31) : K) ≤ (rnd (x1 - x0) p : K) := by linarith [hd.1, hn.2]
      exact_mod_cast this
    have hhi : rnd (x1 - x0) p < 2 ^ 31 := by
      have : (rnd (x1 - x0) p : K) < (2 ^ 31 : K) := by linarith [hd.2, hn.1]
      exact_mod_cast this
    obtain ⟨r, hr⟩ := ih (step p x0 x1) (by
      intro x hx
      have h1 := h x (by simp [hx])
      have h2 := step_near p x0 x1 hp
      have h3 : |x - step p x0 x1| ≤ |x - x0| + |step p x0 x1 - x0| := by
        have := abs_sub_le x x0 (step p x0 x1); rw [abs_sub_comm x0] at this; exact this
      simp only [List.length_cons, Nat.cast_add, Nat.cast_one] at h1
      linarith)
    refine ⟨.fin (step p x0 x1) :: r, ?_⟩
    simp only [List.map_cons, unwrapLoop, XF.isfinite, Bool.not_true, Bool.false_eq_true, if_false,
      unwrap1_fin p x0 x1 hp.ne', if_pos (And.intro hlo hhi), hr]

theorem steps_length (p : K) (x0 : K) (xs : List K) : (steps p x0 xs).length = xs.length := by
  induction xs generalizing x0 with
  | nil => rfl
  | cons x xs ih => simp [steps, ih]

theorem steps_spec (p : K) (hp : 0 < p) (x0 y0 : K) (xs : List K) (h0 : ∃ m : Int, y0 = x0 + m * p) :
    List.Forall₂ (fun x y => ∃ m : Int, y = x + m * p) (x0 :: xs) (y0 :: steps p y0 xs) ∧
    List.IsChain (fun a b => |b - a| ≤ p / 2) (y0 :: steps p y0 xs) := by
  induction xs generalizing x0 y0 with
  | nil => exact ⟨List.Forall₂.cons h0 .nil, by simp [steps]⟩
  | cons x1 xs ih =>
    obtain ⟨a, b⟩ := ih x1 (step p y0 x1) ⟨-(rnd (x1 - y0) p), by unfold step; push_cast; ring⟩
    refine ⟨List.Forall₂.cons h0 a, ?_⟩
    simp only [steps]
    rw [List.isChain_cons_cons]
    exact ⟨step_near p y0 x1 hp, b⟩

theorem steps_recover (p : K) (hp : 0 < p) (y0 : K) (ys xs : List K)
    (hc : List.IsChain (fun a b => |b - a| < p / 2) (y0 :: ys))
    (hcong : List.Forall₂ (fun x y => ∃ m : Int, y = x + m * p) xs ys) :
    steps p y0 xs = ys := by
  induction hcong generalizing y0 with
  | nil => rfl
  | @cons x y xs ys hxy _ ih =>
    rw [List.isChain_cons_cons] at hc
    obtain ⟨m, hm⟩ := hxy
    have h1 : rnd (x - y0) p = -m := by
      apply rnd_unique _ _ hp
      have h2 : (x - y0) / p - ((-m : Int) : K) = (y - y0) / p := by
        rw [hm]; push_cast; field_simp; ring
      rw [h2, abs_div, abs_of_pos hp, div_lt_iff₀ hp]; linarith [hc.1]
    have h3 : step p y0 x = y := by unfold step; rw [h1, hm]; push_cast; ring
    simp only [steps, h3, ih y hc.2]

theorem loop_nonfinite (p : XF K) (x0 : XF K) (xs rest : List (XF K)) (bad : XF K)
    (hb : XF.isfinite bad = false) (hf : ∀ x ∈ xs, XF.isfinite x = true) :
    unwrapLoop p x0 (xs ++ bad :: rest) =
      (unwrapLoop p x0 xs).map (· ++ List.replicate (rest.length + 1) .nan) := by
  induction xs generalizing x0 with
  | nil => simp [unwrapLoop, hb]
  | cons x xs ih =>
    have := hf x (by simp)
    simp only [List.cons_append, unwrapLoop, this, Bool.not_true, Bool.false_eq_true, if_false]
    cases unwrap1 x0 x p with
    | none => rfl
    | some y =>
      simp only [ih y (fun z hz => hf z (by simp [hz]))]
      cases unwrapLoop p y xs <;> rfl

end Ufunclab.Unwrap
