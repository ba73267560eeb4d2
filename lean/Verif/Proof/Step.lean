import Verif.Model.Step
import Verif.Proof.XF
import Mathlib.Analysis.Calculus.Deriv.MeanValue
import Mathlib.Analysis.Calculus.Deriv.Pow
import Mathlib.Tactic.Linarith
import Mathlib.Tactic.Ring
import Mathlib.Tactic.FieldSimp
namespace Ufunclab.Step

/-- Gluing two differentiable functions with equal value and slope at `c`. -/
theorem hasDerivAt_glue {p q p' q' : ℝ → ℝ} {c : ℝ} (hp : ∀ x, HasDerivAt p (p' x) x)
    (hq : ∀ x, HasDerivAt q (q' x) x) (h0 : p c = q c) (h1 : p' c = q' c) (x : ℝ) :
    HasDerivAt (fun x => if x ≤ c then p x else q x) (if x ≤ c then p' x else q' x) x := by
  rcases lt_trichotomy x c with h | h | h
  · rw [if_pos h.le]
    apply (hp x).congr_of_eventuallyEq
    filter_upwards [Iio_mem_nhds h] with y hy
    rw [if_pos (le_of_lt hy)]
  · subst h
    rw [if_pos le_rfl]
    have hl : HasDerivWithinAt (fun y => if y ≤ x then p y else q y) (p' x) (Set.Iic x) x := by
      apply (hp x).hasDerivWithinAt.congr
      · intro y hy; exact if_pos hy
      · exact if_pos le_rfl
    have hr : HasDerivWithinAt (fun y => if y ≤ x then p y else q y) (p' x) (Set.Ici x) x := by
      rw [h1]
      apply (hq x).hasDerivWithinAt.congr
      · intro y hy
        rcases (show x ≤ y from hy).eq_or_lt with rfl | h
        · simp [h0]
        · exact if_neg (not_le.2 h)
      · simp [h0]
    have := hl.union hr
    rw [Set.Iic_union_Ici] at this
    exact hasDerivWithinAt_univ.1 this
  · rw [if_neg (not_le.2 h)]
    apply (hq x).congr_of_eventuallyEq
    filter_upwards [Ioi_mem_nhds h] with y hy
    rw [if_neg (not_le.2 hy)]

/-- Saturation of a profile `P` on [0,1]. -/
noncomputable def sat (P : ℝ → ℝ) (lo hi : ℝ) (u : ℝ) : ℝ :=
  if u ≤ 0 then lo else if u ≤ 1 then P u else hi

theorem sat_hasDerivAt {P P' : ℝ → ℝ} (hP : ∀ u, HasDerivAt P (P' u) u) (lo hi : ℝ)
    (h0 : P 0 = lo) (h1 : P 1 = hi) (d0 : P' 0 = 0) (d1 : P' 1 = 0) (u : ℝ) :
    HasDerivAt (sat P lo hi) (sat P' 0 0 u) u := by
  have c : ∀ k x : ℝ, HasDerivAt (fun _ => k) ((fun _ => (0 : ℝ)) x) x := fun k x => hasDerivAt_const x k
  have g1 := hasDerivAt_glue (c := 1) hP (c hi) h1 d1
  have g2 := hasDerivAt_glue (c := 0) (c lo) g1 (by simp [h0]) (by simp [d0])
  exact g2 u

/-- The cubic and quintic profiles and their derivatives. -/
def P3 (u : ℝ) : ℝ := u * u * (3 - 2 * u)
def P3' (u : ℝ) : ℝ := 6 * u * (1 - u)
def P5 (u : ℝ) : ℝ := u * u * u * (u * (6 * u - 15) + 10)
def P5' (u : ℝ) : ℝ := 30 * u ^ 2 * (1 - u) ^ 2
def P5'' (u : ℝ) : ℝ := 60 * u * (1 - u) * (1 - 2 * u)

theorem P3_deriv (u : ℝ) : HasDerivAt P3 (P3' u) u := by
  have h := ((hasDerivAt_id' u).pow 2).const_mul 3 |>.sub (((hasDerivAt_id' u).pow 3).const_mul 2)
  refine (h.congr_deriv ?_).congr_of_eventuallyEq (Filter.Eventually.of_forall fun t => ?_)
  · simp only [P3']; push_cast; ring
  · simp only [P3, Pi.sub_apply, Pi.pow_apply]; ring

theorem P5_deriv (u : ℝ) : HasDerivAt P5 (P5' u) u := by
  have h := ((((hasDerivAt_id' u).pow 5).const_mul 6).sub (((hasDerivAt_id' u).pow 4).const_mul 15)).add
    (((hasDerivAt_id' u).pow 3).const_mul 10)
  refine (h.congr_deriv ?_).congr_of_eventuallyEq (Filter.Eventually.of_forall fun t => ?_)
  · simp only [P5']; push_cast; ring
  · simp only [P5, Pi.sub_apply, Pi.add_apply, Pi.pow_apply]; ring

theorem P5'_deriv (u : ℝ) : HasDerivAt P5' (P5'' u) u := by
  have h := ((((hasDerivAt_id' u).pow 2).const_mul 30).sub (((hasDerivAt_id' u).pow 3).const_mul 60)).add
    (((hasDerivAt_id' u).pow 4).const_mul 30)
  refine (h.congr_deriv ?_).congr_of_eventuallyEq (Filter.Eventually.of_forall fun t => ?_)
  · simp only [P5'']; push_cast; ring
  · simp only [P5', Pi.sub_apply, Pi.add_apply, Pi.pow_apply]; ring

theorem sat_mono_of_deriv {P P' : ℝ → ℝ} (hP : ∀ u, HasDerivAt P (P' u) u) (lo hi : ℝ)
    (h0 : P 0 = lo) (h1 : P 1 = hi) (d0 : P' 0 = 0) (d1 : P' 1 = 0)
    (hpos : ∀ u, 0 ≤ u → u ≤ 1 → 0 ≤ P' u) : Monotone (sat P lo hi) := by
  apply monotone_of_deriv_nonneg (fun u => (sat_hasDerivAt hP lo hi h0 h1 d0 d1 u).differentiableAt)
  intro u
  rw [(sat_hasDerivAt hP lo hi h0 h1 d0 d1 u).deriv]
  unfold sat
  split_ifs with a b
  · exact le_rfl
  · exact hpos u (not_le.1 a).le b
  · exact le_rfl

theorem sat3_mono : Monotone (sat P3 0 1) := by
  apply sat_mono_of_deriv P3_deriv
  · simp [P3]
  · norm_num [P3]
  · simp [P3']
  · simp [P3']
  · intro u h0 h1
    unfold P3'
    have := sub_nonneg.2 h1
    positivity

theorem sat5_mono : Monotone (sat P5 0 1) := by
  apply sat_mono_of_deriv P5_deriv
  · simp [P5]
  · norm_num [P5]
  · simp [P5']
  · simp [P5']
  · intro u h0 h1
    unfold P5'
    positivity

theorem sat1_mono : Monotone (sat id 0 1) := by
  intro x y h
  unfold sat
  simp only [id]
  split_ifs <;> linarith

theorem sat_range {P : ℝ → ℝ} (hm : Monotone (sat P 0 1)) (u : ℝ) : 0 ≤ sat P 0 1 u ∧ sat P 0 1 u ≤ 1 := by
  constructor
  · rcases le_total u 0 with h | h
    · simp [sat, h]
    · have := hm h; simpa [sat] using this
  · rcases le_or_gt u 1 with h | h
    · have := hm (h.trans (by norm_num : (1:ℝ) ≤ 2))
      simpa [sat, (by norm_num : ¬ (2:ℝ) ≤ 0), (by norm_num : ¬ (2:ℝ) ≤ 1)] using this
    · simp [sat, not_le.2 h, not_le.2 (zero_lt_one.trans h)]

/-- Range reduction: the position of `x` relative to `[a, b]`. -/
theorem u_le_zero {x a b : ℝ} (h : a < b) : (x - a) / (b - a) ≤ 0 ↔ x ≤ a := by
  rw [div_le_iff₀ (sub_pos.2 h)]; constructor <;> intro h <;> linarith

theorem one_le_u {x a b : ℝ} (h : a < b) : 1 ≤ (x - a) / (b - a) ↔ b ≤ x := by
  rw [le_div_iff₀ (sub_pos.2 h)]; constructor <;> intro h <;> linarith

theorem linearstep_eq (x a b fa fb : ℝ) (h : a < b) :
    linearstep (.fin x) (.fin a) (.fin b) (.fin fa) (.fin fb) =
      .fin (fa + (fb - fa) * sat id 0 1 ((x - a) / (b - a))) := by
  have hd : b - a ≠ 0 := (sub_pos.2 h).ne'
  simp only [linearstep, XF.gt_fin, XF.le_fin, XF.ge_fin, XF.eq_fin, decide_eq_true_eq, XF.sub_fin,
    XF.div_fin _ _ hd, XF.mul_fin, XF.add_fin]
  rw [if_neg (not_lt.2 h.le)]
  unfold sat
  by_cases h1 : x ≤ a
  · rw [if_pos h1, if_pos ((u_le_zero h).2 h1)]; simp
  rw [if_neg h1, if_neg (fun h' => h1 ((u_le_zero h).1 h'))]
  by_cases h2 : b ≤ x
  · rw [if_pos h2]
    have := (one_le_u h).2 h2
    rcases this.eq_or_lt with e | l
    · rw [← e]; simp
    · rw [if_neg (not_le.2 l)]; simp
  rw [if_neg h2, if_neg h.ne, if_pos (by have := fun h' => h2 ((one_le_u h).1 h'); linarith [not_le.1 this])]
  congr 1; simp only [id]; ring

theorem smoothstep3_eq (x a b fa fb : ℝ) (h : a < b) :
    smoothstep3 (.fin x) (.fin a) (.fin b) (.fin fa) (.fin fb) =
      .fin (fa + (fb - fa) * sat P3 0 1 ((x - a) / (b - a))) := by
  have hd : b - a ≠ 0 := (sub_pos.2 h).ne'
  simp only [smoothstep3, XF.gt_fin, XF.le_fin, XF.ge_fin, XF.eq_fin, decide_eq_true_eq, XF.sub_fin,
    XF.div_fin _ _ hd, XF.mul_fin, XF.add_fin]
  rw [if_neg (not_lt.2 h.le)]
  unfold sat
  by_cases h1 : x ≤ a
  · rw [if_pos h1, if_pos ((u_le_zero h).2 h1)]; simp
  rw [if_neg h1, if_neg (fun h' => h1 ((u_le_zero h).1 h'))]
  by_cases h2 : b ≤ x
  · rw [if_pos h2]
    have := (one_le_u h).2 h2
    rcases this.eq_or_lt with e | l
    · rw [← e]; norm_num [P3]
    · rw [if_neg (not_le.2 l)]; simp
  rw [if_neg h2, if_neg h.ne, if_pos (by have := fun h' => h2 ((one_le_u h).1 h'); linarith [not_le.1 this])]
  congr 1; simp only [P3]; ring

theorem smoothstep5_eq (x a b fa fb : ℝ) (h : a < b) :
    smoothstep5 (.fin x) (.fin a) (.fin b) (.fin fa) (.fin fb) =
      .fin (fa + (fb - fa) * sat P5 0 1 ((x - a) / (b - a))) := by
  have hd : b - a ≠ 0 := (sub_pos.2 h).ne'
  simp only [smoothstep5, XF.gt_fin, XF.le_fin, XF.ge_fin, XF.eq_fin, decide_eq_true_eq, XF.sub_fin,
    XF.div_fin _ _ hd, XF.mul_fin, XF.add_fin]
  rw [if_neg (not_lt.2 h.le)]
  unfold sat
  by_cases h1 : x ≤ a
  · rw [if_pos h1, if_pos ((u_le_zero h).2 h1)]; simp
  rw [if_neg h1, if_neg (fun h' => h1 ((u_le_zero h).1 h'))]
  by_cases h2 : b ≤ x
  · rw [if_pos h2]
    have := (one_le_u h).2 h2
    rcases this.eq_or_lt with e | l
    · rw [← e]; norm_num [P5]
    · rw [if_neg (not_le.2 l)]; simp
  rw [if_neg h2, if_neg h.ne, if_pos (by have := fun h' => h2 ((one_le_u h).1 h'); linarith [not_le.1 this])]
  congr 1; simp only [P5]; ring

theorem sat_symm {P : ℝ → ℝ} (h0 : P 0 = 0) (h1 : P 1 = 1) (hs : ∀ u, P (1 - u) = 1 - P u) (u : ℝ) :
    sat P 0 1 (1 - u) = 1 - sat P 0 1 u := by
  unfold sat
  rcases le_or_gt u 0 with a | a
  · rw [if_pos a]
    rcases a.eq_or_lt with rfl | b
    · simp [h1, (by norm_num : ¬ (1:ℝ) ≤ 0)]
    · rw [if_neg (by linarith), if_neg (by linarith)]; norm_num
  rcases le_or_gt u 1 with b | b
  · rw [if_neg (not_le.2 a), if_pos b, ← hs]
    rcases b.eq_or_lt with rfl | c
    · simp [h0]
    · rw [if_neg (by linarith), if_pos (by linarith)]
  · rw [if_neg (not_le.2 a), if_neg (not_le.2 b), if_pos (by linarith)]; norm_num

end Ufunclab.Step
