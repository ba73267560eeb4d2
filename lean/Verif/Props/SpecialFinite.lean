import Verif.Props.SpecialYeo
/-!
# C126: on finite arguments the functions with special values are those of Model/Scalar
-/
namespace Ufunclab.SZ
open SF Spec

/-- yeo_johnson and inv_yeo_johnson of finite numbers, zeros of either sign included. -/
theorem C126_finite_yeo {x l : SF ℝ} {a b : ℝ} (hx : x.forget = .fin a) (hl : l.forget = .fin b) :
    (yeoJohnson id x l).forget = .fin (Scalar.yeoJohnson a b) ∧
    (invYeoJohnson id x l).forget = Scalar.invYeoJohnson a b := by
  have hx : Rep x a := hx
  have hl : Rep l b := hl
  have h2l : Rep (sub id (.fin 2) l) (2 - b) := (rep_fin 2).sub hl
  constructor
  · unfold yeoJohnson Scalar.yeoJohnson
    by_cases ha : 0 ≤ a
    · rw [if_pos (((rep_fin 0).le hx).2 ha), if_pos (show a ≥ 0 from ha)]
      have hlog := hx.log1p (by linarith)
      by_cases hb : b = 0
      · rw [if_pos ((hl.eq (rep_fin 0)).2 hb), if_pos hb]; exact hlog
      · rw [if_neg (fun h => hb ((hl.eq (rep_fin 0)).1 h)), if_neg hb]
        exact ((hl.mul hlog).expm1).div hl hb
    · rw [if_neg (fun h => ha (((rep_fin 0).le hx).1 h)), if_neg (show ¬ a ≥ 0 from ha)]
      have hlog := hx.neg.log1p (by linarith)
      by_cases hb : b = 2
      · rw [if_pos ((hl.eq (rep_fin 2)).2 hb), if_pos hb]; exact hlog.neg
      · rw [if_neg (fun h => hb ((hl.eq (rep_fin 2)).1 h)), if_neg hb]
        exact (((h2l.mul hlog).expm1).neg).div h2l (sub_ne_zero.2 (Ne.symm hb))
  · unfold invYeoJohnson Scalar.invYeoJohnson
    by_cases ha : 0 ≤ a
    · rw [if_pos (((rep_fin 0).le hx).2 ha), if_pos (show a ≥ 0 from ha)]
      by_cases hb : b = 0
      · rw [if_pos ((hl.eq (rep_fin 0)).2 hb), if_pos hb]; exact hx.expm1
      · rw [if_neg (fun h => hb ((hl.eq (rep_fin 0)).1 h)), if_neg hb]
        have hq : Rep (div id (.fin (-1)) l) (-1 / b) := (rep_fin (-1)).div hl hb
        by_cases hc : b < 0 ∧ -1 / b ≤ a
        · rw [if_pos (by rw [Bool.and_eq_true]; exact ⟨(hl.lt (rep_fin 0)).2 hc.1, (hq.le hx).2 hc.2⟩),
            if_pos (show b < 0 ∧ a ≥ -1 / b from hc)]
          by_cases hg : -1 / b < a
          · rw [if_pos ((hq.lt hx).2 hg), if_pos (show a > -1 / b from hg)]; rfl
          · rw [if_neg (fun h => hg ((hq.lt hx).1 h)), if_neg (show ¬ a > -1 / b from hg)]; rfl
        · rw [if_neg (by rw [Bool.and_eq_true]; exact fun h => hc ⟨(hl.lt (rep_fin 0)).1 h.1, (hq.le hx).1 h.2⟩),
            if_neg (show ¬ (b < 0 ∧ a ≥ -1 / b) from hc)]
          refine ((((hl.mul hx).log1p ?_)).div hl hb).expm1
          rcases lt_or_gt_of_ne hb with h | h
          · have hlt : a < -1 / b := by by_contra h'; exact hc ⟨h, not_lt.1 h'⟩
            have := (lt_div_iff_of_neg h).1 hlt
            linarith [mul_comm a b]
          · have : 0 ≤ b * a := mul_nonneg h.le ha
            linarith
    · rw [if_neg (fun h => ha (((rep_fin 0).le hx).1 h)), if_neg (show ¬ a ≥ 0 from ha)]
      by_cases hb : b = 2
      · rw [if_pos ((hl.eq (rep_fin 2)).2 hb), if_pos hb]; exact hx.neg.expm1.neg
      · rw [if_neg (fun h => hb ((hl.eq (rep_fin 2)).1 h)), if_neg hb]
        have hb' : 2 - b ≠ 0 := sub_ne_zero.2 (Ne.symm hb)
        have hq : Rep (div id (.fin 1) (sub id (.fin 2) l)) (1 / (2 - b)) := (rep_fin 1).div h2l hb'
        by_cases hc : 2 < b ∧ a ≤ 1 / (2 - b)
        · rw [if_pos (by rw [Bool.and_eq_true]; exact ⟨((rep_fin 2).lt hl).2 hc.1, (hx.le hq).2 hc.2⟩),
            if_pos (show b > 2 ∧ a ≤ 1 / (2 - b) from hc)]
          by_cases hg : a < 1 / (2 - b)
          · rw [if_pos ((hx.lt hq).2 hg), if_pos hg]; rfl
          · rw [if_neg (fun h => hg ((hx.lt hq).1 h)), if_neg hg]; rfl
        · rw [if_neg (by rw [Bool.and_eq_true]; exact fun h => hc ⟨((rep_fin 2).lt hl).1 h.1, (hx.le hq).1 h.2⟩),
            if_neg (show ¬ (b > 2 ∧ a ≤ 1 / (2 - b)) from hc)]
          refine (((((h2l.neg).mul hx).log1p ?_)).div h2l hb').expm1.neg
          have ha' := not_le.1 ha
          rcases lt_or_gt_of_ne hb with h | h
          · have : 0 ≤ -(2 - b) * a := mul_nonneg_of_nonpos_of_nonpos (by linarith) ha'.le
            linarith
          · have hlt : 1 / (2 - b) < a := by by_contra h'; exact hc ⟨h, not_lt.1 h'⟩
            have := (div_lt_iff_of_neg (show 2 - b < 0 by linarith)).1 hlt
            linarith [mul_comm a (2 - b), neg_mul (2 - b) a]

example : (yeoJohnson id .nz (.fin 1)).forget = .fin (Scalar.yeoJohnson 0 1) := (C126_finite_yeo rfl rfl).1

/-- The ramp functions of finite numbers. -/
theorem C126_finite_ramp {x a : SF ℝ} {u v : ℝ} (hx : x.forget = .fin u) (ha : a.forget = .fin v) :
    (hyperbolicRamp id x a).forget = Scalar.hyperbolicRamp u v ∧
    (exponentialRamp id (Real.log 2) x a).forget = Scalar.exponentialRamp u v := by
  have hx : Rep x u := hx
  have ha : Rep a v := ha
  have l2 : Real.log 2 ≠ 0 := (Real.log_pos (by norm_num)).ne'
  have std1 : ∀ {x : SF ℝ} {u : ℝ}, Rep x u → Rep (stdHyperbolicRamp id x) (Scalar.stdHyperbolicRamp u) := by
    intro x u hx
    unfold stdHyperbolicRamp Scalar.stdHyperbolicRamp
    by_cases h0 : u = 0
    · rw [if_pos ((hx.eq (rep_fin 0)).2 h0), if_pos h0]; rfl
    · rw [if_neg (fun h => h0 ((hx.eq (rep_fin 0)).1 h)), if_neg h0]
      have hz := hx.div (rep_fin 2) two_ne_zero
      have hzz := hz.mul hz
      have hz0 : u / 2 * (u / 2) ≠ 0 := by positivity
      have hs1 := ((rep_fin 1).add ((rep_fin 1).div hzz hz0)).sqrt
        (add_nonneg zero_le_one (div_nonneg zero_le_one (mul_self_nonneg _)))
      have hs2 := (hzz.add (rep_fin 1)).sqrt (by nlinarith [mul_self_nonneg (u / 2)])
      dsimp only
      by_cases h1 : 1 ≤ u / 2
      · rw [if_pos (((rep_fin 1).le hz).2 h1), if_pos (show u / 2 ≥ 1 from h1)]
        exact hz.mul ((rep_fin 1).add hs1)
      rw [if_neg (fun h => h1 (((rep_fin 1).le hz).1 h)), if_neg (show ¬ u / 2 ≥ 1 from h1)]
      by_cases h2 : 0 < u / 2
      · rw [if_pos (((rep_fin 0).lt hz).2 h2), if_pos (show u / 2 > 0 from h2)]
        exact hz.add hs2
      rw [if_neg (fun h => h2 (((rep_fin 0).lt hz).1 h)), if_neg (show ¬ u / 2 > 0 from h2)]
      have hpos : 0 < √(u / 2 * (u / 2) + 1) := Real.sqrt_pos.2 (by nlinarith [mul_self_nonneg (u / 2)])
      by_cases h3 : -1 < u / 2
      · rw [if_pos (((rep_fin (-1)).lt hz).2 h3), if_pos (show u / 2 > -1 from h3)]
        exact (rep_fin 1).div (hs2.sub hz) (by linarith [not_lt.1 h2])
      · rw [if_neg (fun h => h3 (((rep_fin (-1)).lt hz).1 h)), if_neg (show ¬ u / 2 > -1 from h3)]
        refine ((rep_fin (-1)).div hz (by positivity)).div (hs1.add (rep_fin 1)) ?_
        have := Real.sqrt_nonneg (1 + 1 / (u / 2 * (u / 2)))
        linarith
  have std2 : ∀ {x : SF ℝ} {u : ℝ}, Rep x u →
      Rep (stdExponentialRamp id (Real.log 2) x) (Scalar.stdExponentialRamp u) := by
    intro x u hx
    unfold stdExponentialRamp Scalar.stdExponentialRamp
    have hp : ∀ t : ℝ, -1 < (2 : ℝ) ^ t := fun t => by
      have := Real.rpow_pos_of_pos (show (0 : ℝ) < 2 by norm_num) t
      linarith
    by_cases h0 : u = 0
    · rw [if_pos ((hx.eq (rep_fin 0)).2 h0), if_pos h0]; rfl
    rw [if_neg (fun h => h0 ((hx.eq (rep_fin 0)).1 h)), if_neg h0]
    by_cases h1 : 0 < u
    · rw [if_pos (((rep_fin 0).lt hx).2 h1), if_pos (show u > 0 from h1)]
      exact hx.add (((hx.neg.pow2).log1p (hp _)).div (rep_fin _) l2)
    · rw [if_neg (fun h => h1 (((rep_fin 0).lt hx).1 h)), if_neg (show ¬ u > 0 from h1)]
      exact ((hx.pow2).log1p (hp _)).div (rep_fin _) l2
  constructor
  · unfold hyperbolicRamp Scalar.hyperbolicRamp
    by_cases h0 : v = 0
    · rw [if_pos ((ha.eq (rep_fin 0)).2 h0), if_pos h0]
      by_cases hu : u < 0
      · rw [if_pos ((hx.lt (rep_fin 0)).2 hu), if_pos hu]; rfl
      · rw [if_neg (fun h => hu ((hx.lt (rep_fin 0)).1 h)), if_neg hu]; exact hx
    rw [if_neg (fun h => h0 ((ha.eq (rep_fin 0)).1 h)), if_neg h0]
    by_cases hv : v < 0
    · rw [if_pos ((ha.lt (rep_fin 0)).2 hv), if_pos hv]; rfl
    · rw [if_neg (fun h => hv ((ha.lt (rep_fin 0)).1 h)), if_neg hv]
      exact ha.mul (std1 (hx.div ha h0))
  · unfold exponentialRamp Scalar.exponentialRamp
    by_cases h0 : v = 0
    · rw [if_pos ((ha.eq (rep_fin 0)).2 h0), if_pos h0]
      by_cases hu : u < 0
      · rw [if_pos ((hx.lt (rep_fin 0)).2 hu), if_pos hu]; rfl
      · rw [if_neg (fun h => hu ((hx.lt (rep_fin 0)).1 h)), if_neg hu]; exact hx
    rw [if_neg (fun h => h0 ((ha.eq (rep_fin 0)).1 h)), if_neg h0]
    by_cases hv : v < 0
    · rw [if_pos ((ha.lt (rep_fin 0)).2 hv), if_pos hv]; rfl
    · rw [if_neg (fun h => hv ((ha.lt (rep_fin 0)).1 h)), if_neg hv]
      exact ha.mul (std2 (hx.div ha h0))

/-- The variogram models of finite numbers, for a range that is not zero. -/
theorem C126_finite_semivar {h n s r : SF ℝ} {h' n' s' r' : ℝ} (hh : h.forget = .fin h') (hn : n.forget = .fin n')
    (hs : s.forget = .fin s') (hr : r.forget = .fin r') (h0 : r' ≠ 0) :
    (semivarExponential id h n s r).forget = .fin (Scalar.semivarExponential h' n' s' r') ∧
    (semivarLinear id h n s r).forget = .fin (Scalar.semivarLinear h' n' s' r') ∧
    (semivarSpherical id h n s r).forget = .fin (Scalar.semivarSpherical h' n' s' r') ∧
    (semivarParabolic id h n s r).forget = .fin (Scalar.semivarParabolic h' n' s' r') := by
  have hh : Rep h h' := hh
  have hn : Rep n n' := hn
  have hs : Rep s s' := hs
  have hr : Rep r r' := hr
  have hd := hh.div hr h0
  refine ⟨?_, ?_, ?_, ?_⟩
  · exact hn.add ((hs.sub hn).mul ((rep_fin 1).sub (((rep_fin (-3)).mul hh).div hr h0).exp))
  · unfold semivarLinear Scalar.semivarLinear
    by_cases hc : r' < h'
    · rw [if_pos ((hr.lt hh).2 hc), if_pos (show h' > r' from hc)]; exact hs
    · rw [if_neg (fun e => hc ((hr.lt hh).1 e)), if_neg (show ¬ h' > r' from hc)]
      exact hn.add (((hs.sub hn).div hr h0).mul hh)
  · unfold semivarSpherical Scalar.semivarSpherical
    by_cases hc : r' < h'
    · rw [if_pos ((hr.lt hh).2 hc), if_pos (show h' > r' from hc)]; exact hs
    · rw [if_neg (fun e => hc ((hr.lt hh).1 e)), if_neg (show ¬ h' > r' from hc)]
      exact hn.add (((hs.sub hn).mul (hd.div (rep_fin 2) two_ne_zero)).mul ((rep_fin 3).sub (hd.mul hd)))
  · unfold semivarParabolic Scalar.semivarParabolic
    by_cases hc : r' < h'
    · rw [if_pos ((hr.lt hh).2 hc), if_pos (show h' > r' from hc)]; exact hs
    · rw [if_neg (fun e => hc ((hr.lt hh).1 e)), if_neg (show ¬ h' > r' from hc)]
      exact hn.add (((hs.sub hn).mul hd).mul ((rep_fin 2).sub hd))

example : (semivarLinear id (.fin 1) .nz (.fin 2) (.fin 4)).forget = .fin (Scalar.semivarLinear 1 0 2 4) :=
  (C126_finite_semivar rfl rfl rfl rfl (by norm_num)).2.1

end Ufunclab.SZ
