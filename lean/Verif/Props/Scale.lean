import Verif.Proof.Scale
import Verif.Model.Kbnsum
import Verif.Model.Meanvar
import Verif.Model.Corr
import Verif.Model.Mad
import Verif.Model.TriArea
import Verif.Proof.Float
import Mathlib.Tactic.IntervalCases
/-!
# C107: signs, scales and order of the data in floating point

The claims hold bit for bit with every operation rounded.  A factor `s` that commutes with the
rounding (Spec/Scale) is `-1` or a power of two (no underflow, no overflow).
-/
namespace Ufunclab.Kbnsum
open Ufunclab.Float Ufunclab.XF
variable {K : Type _} [Field K] [LinearOrder K] [IsStrictOrderedRing K] {rd : K → K} {s : K}

theorem scale_rnd (h : Commutes rd s) (hs : s ≠ 0) (a : XF K) : rnd rd (scale s a) = scale s (rnd rd a) := by
  cases a <;> simp [scale, mul, infMul, rnd, hs, h _]
  all_goals split_ifs <;> rfl

theorem scale_fadd (h : Commutes rd s) (hs : s ≠ 0) (a b : XF K) :
    fadd (rnd rd) (scale s a) (scale s b) = scale s (fadd (rnd rd) a b) := by
  rw [fadd, scale_add hs, scale_rnd h hs, fadd]

theorem scale_fsub (h : Commutes rd s) (hs : s ≠ 0) (a b : XF K) :
    fsub (rnd rd) (scale s a) (scale s b) = scale s (fsub (rnd rd) a b) := by
  rw [fsub, scale_sub hs, scale_rnd h hs, fsub]

theorem scale_push (h : Commutes rd s) (hs : s ≠ 0) (a c x : XF K) :
    push (rnd rd) (scale s a, scale s c) (scale s x) =
      (scale s (push (rnd rd) (a, c) x).1, scale s (push (rnd rd) (a, c) x).2) := by
  have hp : 0 < |s| := abs_pos.2 hs
  simp only [push, scale_fadd h hs, scale_fsub h hs, scale_abs hs, ge, scale_le hp]
  by_cases hc : x.abs.le a.abs = true <;> simp only [hc, if_true, if_false, Bool.false_eq_true]

theorem scale_infScan (h : Commutes rd s) (hs : s ≠ 0) (m : Mem (XF K)) (p w : Int) (x : XF K) :
    ∀ fuel j, infScan (rnd rd) (fun a => scale s (m a)) p w (scale s x) fuel j = scale s (infScan (rnd rd) m p w x fuel j) := by
  intro fuel
  induction fuel with
  | zero => intro j; rfl
  | succ f ih =>
    intro j
    rw [infScan, infScan, scale_fadd h hs, scale_isnan hs]
    split_ifs
    · rfl
    · exact ih (j + 1)

theorem scale_loop (h : Commutes rd s) (hs : s ≠ 0) (m : Mem (XF K)) (p stride w : Int) :
    ∀ fuel k a c, loop (rnd rd) (fun a => scale s (m a)) p stride w fuel k (scale s a, scale s c) =
      scale s (loop (rnd rd) m p stride w fuel k (a, c)) := by
  intro fuel
  induction fuel with
  | zero => intro k a c; exact scale_fadd h hs a c
  | succ f ih =>
    intro k a c
    have e : get (fun a => scale s (m a)) p stride k = scale s (get m p stride k) := rfl
    rw [loop, loop]
    simp only [e, scale_isnan hs, scale_isinf hs]
    split_ifs with c1 c2
    · rfl
    · exact scale_infScan h hs m p w _ f (k + 1)
    · rw [scale_push h hs]
      exact ih (k + 1) _ _

/-- C107: `kbnsum(s*x) = s*kbnsum(x)` bit for bit, for every array, NaN and infinities included. -/
theorem C107_kbnsum_scale (h : Commutes rd s) (hs : s ≠ 0) (m : Mem (XF K)) (p stride w : Int) (n : Nat) :
    kbnsum (rnd rd) (fun a => scale s (m a)) p stride w n = scale s (kbnsum (rnd rd) m p stride w n) := by
  have := scale_loop h hs m p stride w n 0 (.fin 0) (.fin 0)
  rwa [scale_zero] at this

end Ufunclab.Kbnsum

namespace Ufunclab.Meanvar
open Ufunclab.Float Ufunclab.XF
variable {K : Type _} [Field K] [LinearOrder K] [IsStrictOrderedRing K] {rd : K → K} {s : K}

theorem scale_update (h : Commutes rd s) (v i c : K) :
    compensatedUpdate rd (s * v) (s * i) (s * c) = (s * (compensatedUpdate rd v i c).1, s * (compensatedUpdate rd v i c).2) := by
  simp only [compensatedUpdate, ← mul_sub, ← mul_add, h _]

theorem scale_loop (h : Commutes rd s) : ∀ (x : List K) (k : Nat) (mean m2 c1 c2 : K),
    loop rd k (s * mean) (s * s * m2) (s * c1) (s * s * c2) (x.map (s * ·)) =
      (s * (loop rd k mean m2 c1 c2 x).1, s * s * (loop rd k mean m2 c1 c2 x).2)
  | [], _, _, _, _, _ => rfl
  | v :: x, k, mean, m2, c1, c2 => by
    have hss := h.mul h
    rw [List.map_cons, loop, loop]
    simp only [← mul_sub, h _, mul_div_assoc, scale_update h]
    rw [show ∀ a b : K, s * a * (s * b) = s * s * (a * b) by intros; ring, hss, scale_update hss]
    exact scale_loop h x _ _ _ _ _

theorem scale_rnd (h : Commutes rd s) (hs : s ≠ 0) (a : XF K) : rnd rd (scale s a) = scale s (rnd rd a) := by
  cases a <;> simp [scale, mul, infMul, rnd, hs, h _]
  all_goals split_ifs <;> rfl

/-- C107: multiplying the data by `s` multiplies the mean by `s` and the variance by `s*s`, bit for bit. -/
theorem C107_meanvar_scale (h : Commutes rd s) (hs : s ≠ 0) (x : List K) (ddof : Int) :
    meanvar rd (x.map (s * ·)) ddof =
      (scale s (meanvar rd x ddof).1, scale (s * s) (meanvar rd x ddof).2) := by
  have e := scale_loop h x 0 0 0 0 0
  simp only [mul_zero] at e
  simp only [meanvar, e, List.length_map, scale_fin]
  rw [← scale_fin (s * s), scale_div_left (mul_ne_zero hs hs), scale_rnd (h.mul h) (mul_ne_zero hs hs)]

end Ufunclab.Meanvar

namespace Ufunclab.Corr
open Ufunclab.Float Ufunclab.XF
variable {rd : ℝ → ℝ} {s a ε : ℝ}

theorem scale_rnd (h : Commutes rd s) (hs : s ≠ 0) (a : XF ℝ) : rnd rd (scale s a) = scale s (rnd rd a) := by
  cases a <;> simp [scale, mul, infMul, rnd, hs, h _]
  all_goals split_ifs <;> rfl

theorem rLoopR_symm (x y : Nat → XF ℝ) (xm xn ym yn : XF ℝ) : ∀ fuel k r,
    rLoopR rd x y xm xn ym yn fuel k r = rLoopR rd y x ym yn xm xn fuel k r := by
  intro fuel
  induction fuel with
  | zero => intro k r; rfl
  | succ f ih => intro k r; rw [rLoopR, rLoopR]; simp only [mul_comm' (rnd rd (div (rnd rd ((x k).sub xm)) xn))]; exact ih _ _

theorem generalR_symm (n : Nat) (x y : Nat → XF ℝ) : generalR rd n x y = generalR rd n y x := by
  simp only [generalR]
  rw [rLoopR_symm]
  split_ifs <;> rfl

/-- C107: `pearson_corr(x, y) = pearson_corr(y, x)` bit for bit. -/
theorem C107_pearson_symm (rd : ℝ → ℝ) (n : Nat) (m : Mem (XF ℝ)) (px xs py ys : Int) :
    pearsonR rd n m px xs py ys = pearsonR rd n m py ys px xs := by
  simp only [pearsonR, generalR_symm n (fun k => get m py ys k), Bool.and_comm ((m py).lt _), Bool.and_comm ((m py).gt _)]
  split_ifs <;> rfl

/-- C107: the same for integer arrays. -/
theorem C107_pearson_int_symm (rd : ℝ → ℝ) (n : Nat) (m : Mem Int) (px xs py ys : Int) :
    pearsonIntR rd n m px xs py ys = pearsonIntR rd n m py ys px xs := by
  simp only [pearsonIntR, generalR_symm n (fun k => XF.fin (rd ((get m py ys k : Int) : ℝ)))]
  split_ifs <;> first | rfl | (exfalso; omega)

theorem scale_meanLoop (h : Commutes rd s) (hs : s ≠ 0) (n : Nat) (x x' : Nat → XF ℝ) (hx : ∀ k < n, x' k = scale s (x k)) :
    ∀ fuel k mean c, k + fuel ≤ n → meanLoopR rd x' fuel k (scale s mean) (scale s c) = scale s (meanLoopR rd x fuel k mean c) := by
  intro fuel
  induction fuel with
  | zero => intro k mean c _; rfl
  | succ f ih =>
    intro k mean c hk
    rw [meanLoopR, meanLoopR, hx k (by omega)]
    simp only [scale_sub hs, scale_rnd h hs, scale_div_left hs, scale_add hs]
    exact ih _ _ _ (by omega)

theorem scale_mean (h : Commutes rd s) (hs : s ≠ 0) (n : Nat) (x x' : Nat → XF ℝ) (hx : ∀ k < n, x' k = scale s (x k)) :
    stridedMeanR rd n x' = scale s (stridedMeanR rd n x) := by
  have := scale_meanLoop h hs n x x' hx n 0 (.fin 0) (.fin 0) (by omega)
  rwa [scale_zero] at this

theorem scale_maxabsLoop (h : Commutes rd s) (hs : s ≠ 0) (n : Nat) (x x' : Nat → XF ℝ) (hx : ∀ k < n, x' k = scale s (x k)) (mean : XF ℝ) :
    ∀ fuel k M, k + fuel ≤ n → maxabsLoopR rd x' (scale s mean) fuel k (scale |s| M) = scale |s| (maxabsLoopR rd x mean fuel k M) := by
  intro fuel
  induction fuel with
  | zero => intro k M _; rfl
  | succ f ih =>
    intro k M hk
    rw [maxabsLoopR, maxabsLoopR, hx k (by omega)]
    simp only [scale_sub hs, scale_rnd h hs, scale_abs hs, gt, scale_lt (abs_pos.2 hs)]
    rw [← ih (k + 1) _ (by omega)]
    by_cases hc : M.lt (rnd rd ((x k).sub mean)).abs = true <;> simp only [hc, if_true, if_false, Bool.false_eq_true]

theorem scale_dmax (h : Commutes rd s) (hs : s ≠ 0) (n : Nat) (hn : 1 ≤ n) (x x' : Nat → XF ℝ) (hx : ∀ k < n, x' k = scale s (x k)) (mean : XF ℝ) :
    deltaMaxabsR rd n x' (scale s mean) = scale |s| (deltaMaxabsR rd n x mean) := by
  rw [deltaMaxabsR, hx 0 (by omega), scale_sub hs, scale_rnd h hs, scale_abs hs, scale_maxabsLoop h hs n x x' hx mean _ _ _ (by omega), deltaMaxabsR]

theorem scale_normLoop (h : Commutes rd a) (ha : 0 < a) (hε : ε = 1 ∨ ε = -1) (h' : Commutes rd ε) (n : Nat) (x x' : Nat → XF ℝ)
    (hx : ∀ k < n, x' k = scale (ε * a) (x k)) (mean dmax : XF ℝ) :
    ∀ fuel k q c, k + fuel ≤ n →
      normLoopR rd x' (scale (ε * a) mean) (scale a dmax) fuel k q c = normLoopR rd x mean dmax fuel k q c := by
  have hε0 : ε ≠ 0 := by rcases hε with e | e <;> rw [e] <;> norm_num
  have hs : ε * a ≠ 0 := mul_ne_zero hε0 ha.ne'
  have hee : ε * ε = 1 := by rcases hε with e | e <;> rw [e] <;> norm_num
  intro fuel
  induction fuel with
  | zero => intro k q c _; rfl
  | succ f ih =>
    intro k q c hk
    rw [normLoopR, normLoopR, hx k (by omega)]
    simp only [scale_sub hs, scale_rnd (h'.mul h) hs]
    simp only [← scale_scale hε0 ha.ne', scale_div_left hε0, scale_div ha, scale_rnd h' hε0, scale_mul_left hε0, scale_mul_right hε0]
    rw [scale_scale hε0 hε0, hee, scale_one]
    have e := fun q c => ih (k + 1) q c (by omega)
    simp only [← scale_scale hε0 ha.ne'] at e
    exact e _ _

theorem scale_norm (h : Commutes rd a) (ha : 0 < a) (hε : ε = 1 ∨ ε = -1) (h' : Commutes rd ε) (n : Nat) (x x' : Nat → XF ℝ)
    (hx : ∀ k < n, x' k = scale (ε * a) (x k)) (mean dmax : XF ℝ) :
    deltaNormR rd n x' (scale (ε * a) mean) (scale a dmax) = scale a (deltaNormR rd n x mean dmax) := by
  rw [deltaNormR, scale_normLoop h ha hε h' n x x' hx _ _ _ _ _ _ (by omega), scale_mul_left ha.ne', scale_rnd h ha.ne', deltaNormR]

theorem scale_rLoop (h : Commutes rd a) (ha : 0 < a) (hε : ε = 1 ∨ ε = -1) (h' : Commutes rd ε) (n : Nat) (x x' y y' : Nat → XF ℝ)
    (hx : ∀ k < n, x' k = scale (ε * a) (x k)) (hy : ∀ k < n, y' k = y k) (xm xn ym yn : XF ℝ) :
    ∀ fuel k r, k + fuel ≤ n →
      rLoopR rd x' y' (scale (ε * a) xm) (scale a xn) ym yn fuel k (scale ε r) = scale ε (rLoopR rd x y xm xn ym yn fuel k r) := by
  have hε0 : ε ≠ 0 := by rcases hε with e | e <;> rw [e] <;> norm_num
  have hs : ε * a ≠ 0 := mul_ne_zero hε0 ha.ne'
  intro fuel
  induction fuel with
  | zero => intro k r _; rfl
  | succ f ih =>
    intro k r hk
    rw [rLoopR, rLoopR, hx k (by omega), hy k (by omega)]
    simp only [scale_sub hs, scale_rnd (h'.mul h) hs]
    simp only [← scale_scale hε0 ha.ne', scale_div_left hε0, scale_div ha, scale_rnd h' hε0, scale_mul_left hε0, scale_add hε0]
    have := ih (k + 1) (rnd rd (r.add (rnd rd ((rnd rd ((rnd rd ((x k).sub xm)).div xn)).mul (rnd rd ((rnd rd ((y k).sub ym)).div yn)))))) (by omega)
    simpa only [← scale_scale hε0 ha.ne'] using this

theorem congr_meanLoop (n : Nat) (x x' : Nat → XF ℝ) (hx : ∀ k < n, x' k = x k) (rd : ℝ → ℝ) : stridedMeanR rd n x' = stridedMeanR rd n x := by
  have := scale_mean (rd := rd) Commutes.one one_ne_zero n x x' (fun k hk => by rw [scale_one]; exact hx k hk)
  rwa [scale_one] at this

theorem scale_general (h : Commutes rd a) (ha : 0 < a) (hε : ε = 1 ∨ ε = -1) (h' : Commutes rd ε) (n : Nat) (hn : 1 ≤ n) (x x' y y' : Nat → XF ℝ)
    (hx : ∀ k < n, x' k = scale (ε * a) (x k)) (hy : ∀ k < n, y' k = y k) :
    generalR rd n x' y' = scale ε (generalR rd n x y) := by
  have hε0 : ε ≠ 0 := by rcases hε with e | e <;> rw [e] <;> norm_num
  have hs : ε * a ≠ 0 := mul_ne_zero hε0 ha.ne'
  have hab : |ε * a| = a := by rw [abs_mul, abs_of_pos ha]; rcases hε with e | e <;> rw [e] <;> simp
  have hy1 : ∀ k < n, y' k = scale 1 (y k) := fun k hk => by rw [scale_one]; exact hy k hk
  have e1 := scale_mean (h'.mul h) hs n x x' hx
  have e2 := scale_dmax (h'.mul h) hs n hn x x' hx (stridedMeanR rd n x)
  rw [hab] at e2
  have e3 := scale_norm h ha hε h' n x x' hx (stridedMeanR rd n x) (deltaMaxabsR rd n x (stridedMeanR rd n x))
  have f1 := scale_mean (rd := rd) Commutes.one one_ne_zero n y y' hy1
  have f2 := scale_dmax (rd := rd) Commutes.one one_ne_zero n hn y y' hy1 (stridedMeanR rd n y)
  have f3 := scale_norm (rd := rd) (ε := 1) Commutes.one one_pos (Or.inl rfl) Commutes.one n y y' (by simpa using hy1) (stridedMeanR rd n y) (deltaMaxabsR rd n y (stridedMeanR rd n y))
  simp only [abs_one, mul_one, scale_one] at f1 f2 f3
  have ez : ∀ v : XF ℝ, (scale a v).eq (.fin 0) = v.eq (.fin 0) := fun v => by
    have := scale_eq ha.ne' v (.fin 0); rwa [scale_zero] at this
  simp only [generalR, e1, e2, e3, f1, f2, f3, ez]
  have e4 := scale_rLoop h ha hε h' n x x' y y' hx hy (stridedMeanR rd n x) (deltaNormR rd n x (stridedMeanR rd n x) (deltaMaxabsR rd n x (stridedMeanR rd n x)))
    (stridedMeanR rd n y) (deltaNormR rd n y (stridedMeanR rd n y) (deltaMaxabsR rd n y (stridedMeanR rd n y))) n 0 (.fin 0) (by omega)
  rw [scale_zero] at e4
  rw [e4]
  split_ifs <;> rfl

/-- C107: multiplying one array by `±a`, where `a > 0` commutes with the rounding, changes at most the sign of `pearson_corr`. -/
theorem C107_pearson_scale (h : Commutes rd a) (ha : 0 < a) (hε : ε = 1 ∨ ε = -1) (h' : Commutes rd ε) (n : Nat) (hn : 1 ≤ n)
    (m m' : Mem (XF ℝ)) (px xs py ys px' xs' py' ys' : Int)
    (hx : elems m' px' xs' n = (elems m px xs n).map (scale (ε * a))) (hy : elems m' py' ys' n = elems m py ys n) :
    pearsonR rd n m' px' xs' py' ys' = scale ε (pearsonR rd n m px xs py ys) := by
  have hx : ∀ k < n, get m' px' xs' k = scale (ε * a) (get m px xs k) := by
    intro k hk
    have := congrArg (fun l => l[k]?) hx
    simpa [elems, hk] using this
  have hy : ∀ k < n, get m' py' ys' k = get m py ys k := by
    intro k hk
    have := congrArg (fun l => l[k]?) hy
    simpa [elems, hk] using this
  have hε0 : ε ≠ 0 := by rcases hε with e | e <;> rw [e] <;> norm_num
  have hs : ε * a ≠ 0 := mul_ne_zero hε0 ha.ne'
  have g0 : ∀ (m : Mem (XF ℝ)) (p s : Int), m p = get m p s 0 := by intro m p s; simp [get]
  by_cases h1 : n = 1
  · subst h1; rfl
  by_cases h2 : n = 2
  · subst h2
    have hx0 := hx 0 (by omega)
    have hx1 := hx 1 (by omega)
    have hy0 := hy 0 (by omega)
    have hy1 := hy 1 (by omega)
    rw [← g0, ← g0] at hx0 hy0
    simp only [pearsonR, hx0, hx1, hy0, hy1, scale_isfinite hs, scale_eq hs, gt]
    generalize m px = x0, get m px xs 1 = x1, m py = y0, get m py ys 1 = y1
    simp only [OfNat.ofNat_ne_one, if_false, if_true]
    rcases hε with rfl | rfl
    · simp only [one_mul, scale_lt ha, scale_one]; congr
    · have hn : -1 * a < 0 := by linarith
      simp only [scale_lt_neg hn]
      cases x0 <;> cases x1 <;> cases y0 <;> cases y1 <;> simp [isfinite, scale, mul]
      rename_i b c d e
      by_cases hbc : b = c
      · simp [hbc, mul]
      by_cases hde : d = e
      · simp [hbc, hde, mul]
      rcases lt_or_gt_of_ne hbc with h1 | h1 <;> rcases lt_or_gt_of_ne hde with h2 | h2 <;>
        simp [hbc, hde, h1, h2, not_lt.2 h1.le, not_lt.2 h2.le, mul]
  · have e := scale_general h ha hε h' n hn (fun k => get m px xs k) (fun k => get m' px' xs' k) (fun k => get m py ys k) (fun k => get m' py' ys' k) hx hy
    simp only [pearsonR, h1, h2, if_false]
    exact e

end Ufunclab.Corr

namespace Ufunclab.Mad
open Ufunclab.Float Ufunclab.XF
variable {K : Type _} [Field K] [LinearOrder K] [IsStrictOrderedRing K] {rd : K → K} {s : K}

theorem scale_rnd (h : Commutes rd s) (hs : s ≠ 0) (a : XF K) : rnd rd (scale s a) = scale s (rnd rd a) := by
  cases a <;> simp [scale, mul, infMul, rnd, hs, h _]
  all_goals split_ifs <;> rfl

theorem scale_scanR (h : Commutes rd s) : ∀ (x : List K) (k : Nat) (sum total : K),
    scanR rd k (s * sum) (s * total) (x.map (s * ·)) = (s * (scanR rd k sum total x).1, s * (scanR rd k sum total x).2)
  | [], _, _, _ => rfl
  | t :: ts, k, sum, total => by
    rw [List.map_cons, scanR, scanR]
    simp only [mul_left_comm _ s, h _, ← mul_sub, ← mul_add]
    exact scale_scanR h ts _ _ _

theorem scale_sort (hs : 0 < s) (x : List K) : sort (x.map (s * ·)) = (sort x).map (s * ·) := by
  rw [sort, sort, List.map_mergeSort]
  intro a _ b _
  simp [mul_le_mul_iff_right₀ hs]

theorem scale_unnormalized (h : Commutes rd s) (hs : 0 < s) (x : List K) :
    unnormalizedMadR rd (x.map (s * ·)) = (s * (unnormalizedMadR rd x).1, s * (unnormalizedMadR rd x).2) := by
  rw [unnormalizedMadR, unnormalizedMadR, scale_sort hs]
  cases sort x with
  | nil => simp
  | cons t ts =>
    have := scale_scanR h ts 1 0 t
    rw [mul_zero] at this
    exact this

/-- C107: `mad(s*x) = s*mad(x)` bit for bit, `s > 0`. -/
theorem C107_mad_scale (h : Commutes rd s) (hs : 0 < s) (x : List K) (unbiased : Bool) :
    madR rd (x.map (s * ·)) unbiased = scale s (madR rd x unbiased) := by
  simp only [madR, scale_unnormalized h hs, List.length_map, mul_left_comm _ s, h _]
  cases unbiased
  · simp only [Bool.false_eq_true, if_false, ← scale_fin s, scale_div_left hs.ne', scale_rnd h hs.ne']
  · simp only [if_true, ← scale_fin s, scale_div_left hs.ne', scale_rnd h hs.ne']

/-- C107: `gini` and `rmad` do not change when the data are multiplied by `s > 0`. -/
theorem C107_gini_scale (h : Commutes rd s) (hs : 0 < s) (x : List K) (unbiased : Bool) :
    giniR rd (x.map (s * ·)) unbiased = giniR rd x unbiased ∧ rmadR rd (x.map (s * ·)) unbiased = rmadR rd x unbiased := by
  have e : giniR rd (x.map (s * ·)) unbiased = giniR rd x unbiased := by
    simp only [giniR, scale_unnormalized h hs, List.length_map, mul_left_comm _ s, h _, ← mul_ite, mul_eq_zero, hs.ne', false_or,
      mul_div_mul_left _ _ hs.ne']
  refine ⟨e, ?_⟩
  simp only [rmadR, e]

/-- C107: `mad`, `gini` and `rmad` do not depend on the order of the data, bit for bit. -/
theorem C107_mad_perm (rd : K → K) (x y : List K) (hxy : x.Perm y) (unbiased : Bool) :
    madR rd x unbiased = madR rd y unbiased ∧ giniR rd x unbiased = giniR rd y unbiased ∧ rmadR rd x unbiased = rmadR rd y unbiased := by
  have e : sort x = sort y := by
    refine ((List.mergeSort_perm _ _).trans (hxy.trans (List.mergeSort_perm _ _).symm)).eq_of_pairwise (le := fun a b => decide (a ≤ b) = true) ?_ ?_ ?_
    · intro a b _ _ h1 h2; exact le_antisymm (of_decide_eq_true h1) (of_decide_eq_true h2)
    · exact List.pairwise_mergeSort (by simp; intro a b c; exact le_trans) (by simp; exact le_total) x
    · exact List.pairwise_mergeSort (by simp; intro a b c; exact le_trans) (by simp; exact le_total) y
  have e' : unnormalizedMadR rd x = unnormalizedMadR rd y := by rw [unnormalizedMadR, unnormalizedMadR, e]
  have g : giniR rd x unbiased = giniR rd y unbiased := by simp only [giniR, e', hxy.length_eq]
  exact ⟨by simp only [madR, e', hxy.length_eq], g, by simp only [rmadR, g]⟩

end Ufunclab.Mad

namespace Ufunclab.TriArea
open Ufunclab.Float Ufunclab.XF
variable {rd : ℝ → ℝ} {s : ℝ}

theorem sumSq_symm (h : Commutes rd (-1)) (p : Int → Nat → ℝ) (i j : Int) : ∀ fuel k v,
    sumSqDiffR rd p i j fuel k v = sumSqDiffR rd p j i fuel k v := by
  intro fuel
  induction fuel with
  | zero => intro k v; rfl
  | succ f ih =>
    intro k v
    have e : rd (p j k - p i k) = -rd (p i k - p j k) := by
      have := h (p i k - p j k)
      rw [show -1 * (p i k - p j k) = p j k - p i k by ring] at this
      rw [this]; ring
    rw [sumSqDiffR, sumSqDiffR]
    simp only [e, neg_mul_neg]
    exact ih _ _

theorem norm_symm (h : Commutes rd (-1)) (n : Nat) (p : Int → Nat → ℝ) (i j : Int) : normDiffR rd n p i j = normDiffR rd n p j i := by
  rw [normDiffR, sumSq_symm h, normDiffR]

theorem sort3_swap12 (a b c : ℝ) : sort3 a b c = sort3 b a c := by
  unfold sort3
  rcases lt_trichotomy a b with h | h | h
  · simp [h, not_lt.2 h.le]
  · subst h; rfl
  · simp [h, not_lt.2 h.le]

theorem sort3_swap23 (a b c : ℝ) : sort3 a b c = sort3 a c b := by
  unfold sort3
  by_cases h1 : b > a <;> by_cases h2 : c > a <;> by_cases h3 : c > b <;> by_cases h4 : b > c <;> simp [h1, h2, h3, h4] <;>
    (try split_ifs) <;> (try simp) <;> first | linarith | (constructor <;> linarith) | (refine ⟨?_, ?_, ?_⟩ <;> linarith)

/-- C107: the area does not depend on the order of the vertices, bit for bit (the rounding treats both signs alike). -/
theorem C107_tri_area_perm (h : Commutes rd (-1)) (n : Nat) (p : Int → Nat → ℝ) (i0 i1 i2 j0 j1 j2 : Int) (hp : [i0, i1, i2].Perm [j0, j1, j2]) :
    triAreaCommonR rd n p i0 i1 i2 = triAreaCommonR rd n p j0 j1 j2 := by
  have key : ∀ {l l' : List Int}, l.Perm l' → ∀ a b c a' b' c', l = [a, b, c] → l' = [a', b', c'] →
      triAreaCommonR rd n p a b c = triAreaCommonR rd n p a' b' c' := by
    have s01 : ∀ a b c, triAreaCommonR rd n p a b c = triAreaCommonR rd n p b a c := by
      intro a b c
      simp only [triAreaCommonR, norm_symm h n p b a, sort3_swap23 _ (normDiffR rd n p b c)]
    have s12 : ∀ a b c, triAreaCommonR rd n p a b c = triAreaCommonR rd n p a c b := by
      intro a b c
      simp only [triAreaCommonR, norm_symm h n p c b, sort3_swap12 (normDiffR rd n p a c)]
    intro l l' hl a b c a' b' c' e1 e2
    subst e1; subst e2
    have hm : a' ∈ [a, b, c] := hl.symm.subset (by simp)
    have two : ∀ x y x' y' : Int, [x, y].Perm [x', y'] → (x = x' ∧ y = y') ∨ (x = y' ∧ y = x') := by
      intro x y x' y' hq
      have : x ∈ [x', y'] := hq.subset (by simp)
      simp only [List.mem_cons, List.not_mem_nil, or_false] at this
      rcases this with rfl | rfl
      · have := (List.perm_cons x).1 hq
        simp at this; exact Or.inl ⟨rfl, this⟩
      · have := (List.perm_cons x).1 (hq.trans (List.Perm.swap x x' []))
        simp at this; exact Or.inr ⟨rfl, this⟩
    simp only [List.mem_cons, List.not_mem_nil, or_false] at hm
    rcases hm with rfl | rfl | rfl
    · rcases two _ _ _ _ ((List.perm_cons _).1 hl) with ⟨rfl, rfl⟩ | ⟨rfl, rfl⟩
      · rfl
      · exact s12 _ _ _
    · have hl' := ((List.Perm.swap a a' [c]).trans hl)
      rcases two _ _ _ _ ((List.perm_cons _).1 hl') with ⟨rfl, rfl⟩ | ⟨rfl, rfl⟩
      · exact s01 _ _ _
      · rw [s01]; exact s12 _ _ _
    · have hl' : [a', a, b].Perm [a', b', c'] := by
        refine List.Perm.trans ?_ hl
        exact (List.perm_append_comm (l₁ := [a']) (l₂ := [a, b]))
      rw [s12, s01]
      rcases two _ _ _ _ ((List.perm_cons _).1 hl') with ⟨rfl, rfl⟩ | ⟨rfl, rfl⟩
      · rfl
      · exact s12 _ _ _
  exact key hp _ _ _ _ _ _ rfl rfl

theorem scale_sumSq (h : Commutes rd s) (p : Int → Nat → ℝ) (i j : Int) : ∀ fuel k v,
    sumSqDiffR rd (fun i k => s * p i k) i j fuel k (s * s * v) = s * s * sumSqDiffR rd p i j fuel k v := by
  intro fuel
  induction fuel with
  | zero => intro k v; rfl
  | succ f ih =>
    intro k v
    rw [sumSqDiffR, sumSqDiffR]
    simp only [← mul_sub, h _]
    rw [show ∀ a : ℝ, s * a * (s * a) = s * s * (a * a) by intro; ring, h.mul h, ← mul_add, h.mul h]
    exact ih _ _

theorem scale_normDiff (h : Commutes rd |s|) (h' : Commutes rd s) (n : Nat) (p : Int → Nat → ℝ) (i j : Int) :
    normDiffR rd n (fun i k => s * p i k) i j = |s| * normDiffR rd n p i j := by
  have := scale_sumSq h' p i j n 0 0
  rw [mul_zero] at this
  rw [normDiffR, this, Real.sqrt_mul (mul_self_nonneg s), Real.sqrt_mul_self_eq_abs, h, normDiffR]

theorem scale_sort3 (hs : 0 < s) (a b c : ℝ) :
    sort3 (s * a) (s * b) (s * c) = (s * (sort3 a b c).1, s * (sort3 a b c).2.1, s * (sort3 a b c).2.2) := by
  have e : ∀ u v : ℝ, s * u > s * v ↔ u > v := fun u v => mul_lt_mul_iff_right₀ hs
  unfold sort3
  simp only [e]
  split_ifs <;> simp_all

theorem scale_kahan (h : Commutes rd s) (hs : 0 < s) (a b c : ℝ) :
    kahanR rd (s * a) (s * b) (s * c) = scale (s * s) (kahanR rd a b c) := by
  have h2 := h.mul h
  have h4 := h2.mul h2
  simp only [kahanR, ← mul_add, ← mul_sub, h _]
  rw [show ∀ a b : ℝ, s * a * (s * b) = s * s * (a * b) by intros; ring, h2]
  rw [show ∀ a b : ℝ, s * s * a * (s * b) = s * (s * s * (a * b)) by intros; ring, h, h2]
  rw [show ∀ a b : ℝ, s * (s * s * a) * (s * b) = s * s * (s * s) * (a * b) by intros; ring, h4]
  have hp : 0 < s * s := mul_pos hs hs
  rw [Real.sqrt_mul (mul_pos hp hp).le, Real.sqrt_mul_self hp.le, h2, mul_div_assoc, h2]
  have e : ∀ q : ℝ, s * s * (s * s) * q < 0 ↔ q < 0 := fun q => ⟨fun hq => by
    by_contra hc; exact absurd hq (not_lt.2 (mul_nonneg (mul_pos hp hp).le (not_lt.1 hc))), fun hq => mul_neg_of_pos_of_neg (mul_pos hp hp) hq⟩
  simp only [e]
  split_ifs <;> rfl

/-- C107: multiplying all coordinates by `s` multiplies the area by `s*s`, bit for bit; `s = -1` (a point reflection) does not change it. -/
theorem C107_tri_area_scale (h : Commutes rd |s|) (h' : Commutes rd s) (hs : s ≠ 0) (n : Nat) (p : Int → Nat → ℝ) (i0 i1 i2 : Int) :
    triAreaCommonR rd n (fun i k => s * p i k) i0 i1 i2 = scale (s * s) (triAreaCommonR rd n p i0 i1 i2) := by
  simp only [triAreaCommonR, scale_normDiff h h', scale_sort3 (abs_pos.2 hs), scale_kahan h (abs_pos.2 hs), abs_mul_abs_self]

end Ufunclab.TriArea
