import Verif.Props.Searchsorted
import Verif.Props.Bincount
import Verif.Props.OneHot
import Verif.Props.PeakToPeak
import Verif.Props.Vnorm
import Verif.Props.Cross
import Verif.Props.Logfact
import Verif.Props.Kbnsum
import Verif.Props.Corr
import Verif.Props.CorrRound
import Verif.Props.Sosfilter
import Verif.Props.Signal
import Verif.Props.ConvertToBase
import Verif.Props.Elementary
import Verif.Props.LinearInterp
/-!
# Property C123: a result depends on the elements only, not on where they lie in memory

`elems m p s n` are the `n` elements of the array at address `p` with stride `s` in the memory `m`.
Two arrays have the same content when these lists are equal; memories, addresses and strides (also
negative, or zero for a broadcast input) may be anything.  The theorems say that two calls with
arrays of the same content give the same result, whichever of the code's paths each call takes.
-/
namespace Ufunclab.Layout
open Ufunclab
variable {α ρ : Type _}

theorem get_of_elems {m m' : Mem α} {p s p' s' : Int} {n : Nat} (h : elems m p s n = elems m' p' s' n)
    (i : Nat) (hi : i < n) : get m p s i = get m' p' s' i := by
  have := congrArg (fun l : List α => l[(i : Nat)]?) h
  simpa [elems, hi] using this

/-! ## Searching -/

theorem loopL_congr (lt : α → α → Bool) (a b : Nat → α) (v : α) (n : Nat) (h : ∀ i < n, a i = b i)
    (lo hi : Nat) (hh : hi ≤ n) : Searchsorted.loopL lt a v lo hi = Searchsorted.loopL lt b v lo hi := by
  induction k : hi - lo using Nat.strong_induction_on generalizing lo hi with
  | _ k ih =>
    rw [Searchsorted.loopL, Searchsorted.loopL]
    by_cases hl : lo < hi
    · simp only [hl, if_true]
      rw [h ((lo + hi) / 2) (by omega)]
      rw [ih (hi - ((lo + hi) / 2 + 1)) (by omega) _ hi hh rfl, ih ((lo + hi) / 2 - lo) (by omega) lo _ (by omega) rfl]
    · simp only [hl, if_false]

theorem loopR_congr (lt : α → α → Bool) (a b : Nat → α) (v : α) (n : Nat) (h : ∀ i < n, a i = b i)
    (lo hi : Nat) (hh : hi ≤ n) : Searchsorted.loopR lt a v lo hi = Searchsorted.loopR lt b v lo hi := by
  induction k : hi - lo using Nat.strong_induction_on generalizing lo hi with
  | _ k ih =>
    rw [Searchsorted.loopR, Searchsorted.loopR]
    by_cases hl : lo < hi
    · simp only [hl, if_true]
      rw [h ((lo + hi) / 2) (by omega)]
      rw [ih (hi - ((lo + hi) / 2 + 1)) (by omega) _ hi hh rfl, ih ((lo + hi) / 2 - lo) (by omega) lo _ (by omega) rfl]
    · simp only [hl, if_false]

theorem loopLObj_congr (lt : α → α → Option Bool) (a b : Nat → α) (v : α) (n : Nat) (h : ∀ i < n, a i = b i)
    (lo hi : Nat) (hh : hi ≤ n) : Searchsorted.loopLObj lt a v lo hi = Searchsorted.loopLObj lt b v lo hi := by
  induction k : hi - lo using Nat.strong_induction_on generalizing lo hi with
  | _ k ih =>
    rw [Searchsorted.loopLObj, Searchsorted.loopLObj]
    by_cases hl : lo < hi
    · simp only [hl, if_true]
      rw [h ((lo + hi) / 2) (by omega)]
      rw [ih (hi - ((lo + hi) / 2 + 1)) (by omega) _ hi hh rfl, ih ((lo + hi) / 2 - lo) (by omega) lo _ (by omega) rfl]
    · simp only [hl, if_false]

theorem loopRObj_congr (lt : α → α → Option Bool) (a b : Nat → α) (v : α) (n : Nat) (h : ∀ i < n, a i = b i)
    (lo hi : Nat) (hh : hi ≤ n) : Searchsorted.loopRObj lt a v lo hi = Searchsorted.loopRObj lt b v lo hi := by
  induction k : hi - lo using Nat.strong_induction_on generalizing lo hi with
  | _ k ih =>
    rw [Searchsorted.loopRObj, Searchsorted.loopRObj]
    by_cases hl : lo < hi
    · simp only [hl, if_true]
      rw [h ((lo + hi) / 2) (by omega)]
      rw [ih (hi - ((lo + hi) / 2 + 1)) (by omega) _ hi hh rfl, ih ((lo + hi) / 2 - lo) (by omega) lo _ (by omega) rfl]
    · simp only [hl, if_false]

/-- C123: searchsortedl and searchsortedr: equal contents give equal indices and the same
comparisons in the same order; sorted or not, for any comparison, and for Python objects whose
comparison may raise. -/
theorem C123_searchsorted (lt : α → α → Bool) (olt : α → α → Option Bool) (m m' : Mem α) (a s a' s' : Int) (n : Nat) (v : α)
    (h : elems m a s n = elems m' a' s' n) :
    Searchsorted.searchsortedl lt m a n s v = Searchsorted.searchsortedl lt m' a' n s' v ∧
    Searchsorted.searchsortedr lt m a n s v = Searchsorted.searchsortedr lt m' a' n s' v ∧
    Searchsorted.loopLObj olt (get m a s) v 0 n = Searchsorted.loopLObj olt (get m' a' s') v 0 n ∧
    Searchsorted.loopRObj olt (get m a s) v 0 n = Searchsorted.loopRObj olt (get m' a' s') v 0 n :=
  ⟨loopL_congr lt _ _ v n (get_of_elems h) 0 n (Nat.le_refl _), loopR_congr lt _ _ v n (get_of_elems h) 0 n (Nat.le_refl _),
   loopLObj_congr olt _ _ v n (get_of_elems h) 0 n (Nat.le_refl _), loopRObj_congr olt _ _ v n (get_of_elems h) 0 n (Nat.le_refl _)⟩

/-! ## Counting and base conversion -/

/-- C123: bincount, without and with weights: equal input contents and equal initial counts give
equal counts, also with different output layouts. -/
theorem C123_bincount {W : Type _} [Add W] (szT szU szT' szU' : Int) (n k : Nat) (mx mx' : Mem Int) (px sx px' sx' : Int)
    (h : elems mx px sx n = elems mx' px' sx' n) (hx : ∀ v ∈ elems mx px sx n, v < 2 ^ 63) (po so po' so' : Int) (hso : so ≠ 0) (hso' : so' ≠ 0) :
    (∀ mo mo' : Mem Int, elems mo po so k = elems mo' po' so' k →
      elems (Bincount.core szT szU n k mx px sx po so mo) po so k = elems (Bincount.core szT' szU' n k mx' px' sx' po' so' mo') po' so' k) ∧
    (∀ (mw mw' : Mem W) (pw sw pw' sw' : Int) (mo mo' : Mem W), elems mw pw sw n = elems mw' pw' sw' n →
      elems mo po so k = elems mo' po' so' k →
      elems (Bincount.coreW k mx mw px sx pw sw po so n 0 mo) po so k =
        elems (Bincount.coreW k mx' mw' px' sx' pw' sw' po' so' n 0 mo') po' so' k) := by
  refine ⟨fun mo mo' ho => ?_, fun mw mw' pw sw pw' sw' mo mo' hw ho => ?_⟩
  · apply List.map_congr_left
    intro j hj
    have hj : j < k := List.mem_range.1 hj
    rw [Bincount.C09_counts szT szU n k mx px sx po so mo hso hx j hj,
      Bincount.C09_counts szT' szU' n k mx' px' sx' po' so' mo' hso' (h ▸ hx) j hj, get_of_elems ho j hj, h]
  · apply List.map_congr_left
    intro j hj
    have hj : j < k := List.mem_range.1 hj
    rw [(Bincount.C12_weighted n k mx mw px sx pw sw po so mo hso hx).1 j hj,
      (Bincount.C12_weighted n k mx' mw' px' sx' pw' sw' po' so' mo' hso' (h ▸ hx)).1 j hj, get_of_elems ho j hj, h, hw]

/-- C123: one_hot: the output does not depend on the output's layout or previous contents. -/
theorem C123_one_hot (n : Nat) (x p s p' s' : Int) (mo mo' : Mem Int) (hs : s ≠ 0) (hs' : s' ≠ 0) :
    elems (OneHot.core n x p s mo) p s n = elems (OneHot.core n x p' s' mo') p' s' n := by
  rw [OneHot.C08_one_hot_list n x p s mo hs, OneHot.C08_one_hot_list n x p' s' mo' hs']

/-- C123: convert_to_base: the digits, or the trap, do not depend on the output's layout or
previous contents. -/
theorem C123_convert_to_base (t : IntTy) (n : Nat) (k base p s p' s' : Int) (hs : s ≠ 0) (hs' : s' ≠ 0) (mo mo' : Mem Int) :
    ((ConvertToBase.core t n k base p s mo).map fun r => elems r p s n) =
      (ConvertToBase.core t n k base p' s' mo').map fun r => elems r p' s' n := by
  have key : ∀ c i k (mo mo' : Mem Int), elems mo p s i = elems mo' p' s' i →
      ((ConvertToBase.loop t base p s c i k mo).map fun r => elems r p s (i + c)) =
      (ConvertToBase.loop t base p' s' c i k mo').map fun r => elems r p' s' (i + c) := by
    intro c
    induction c with
    | zero => intro i k mo mo' h; simp [ConvertToBase.loop, h]
    | succ c ih =>
      intro i k mo mo' h
      rw [ConvertToBase.loop, ConvertToBase.loop]
      by_cases ht : ConvertToBase.traps t k base = true
      · rw [if_pos ht, if_pos ht]; rfl
      · rw [if_neg ht, if_neg ht, show i + (c + 1) = i + 1 + c by omega]
        apply ih
        have e : ∀ (mo : Mem Int) (p s : Int), s ≠ 0 → ∀ v, elems (set mo p s i v) p s (i + 1) = elems mo p s i ++ [v] := by
          intro mo p s hs v
          simp only [elems, List.range_succ, List.map_append, List.map_cons, List.map_nil]
          congr 1
          · apply List.map_congr_left
            intro j hj
            have hj := List.mem_range.1 hj
            have : p + (j : Int) * s ≠ p + (i : Int) * s := by
              intro e
              have e : (j : Int) * s = (i : Int) * s := by omega
              have := Int.eq_of_mul_eq_mul_right hs e
              omega
            simp only [get, set, Mem.store, this, if_false]
          · simp [get, set, Mem.store]
        rw [e mo p s hs, e mo' p' s' hs', h]
  simpa [ConvertToBase.core] using key n 0 k mo mo' rfl

/-! ## Differences, sums and products -/

/-- C123: peaktopeak: the contiguous and the strided loop give the same result for every content,
when the comparison is a strict order (NaN included). -/
theorem C123_peaktopeak (lt : α → α → Bool) (hirr : ∀ a, lt a a = false)
    (htrans : ∀ a b c, lt a b = true → lt b c = true → lt a c = true) (diff : α → α → ρ)
    (size size' : Int) (m m' : Mem α) (p s p' s' : Int) (n : Nat) (h : elems m p s n = elems m' p' s' n) :
    PeakToPeak.peaktopeak lt diff size m p s n = PeakToPeak.peaktopeak lt diff size' m' p' s' n := by
  cases n with
  | zero => rw [PeakToPeak.C18_empty, PeakToPeak.C18_empty]
  | succ n =>
    cases e : elems m p s (n + 1) with
    | nil => simpa using congrArg List.length e
    | cons x0 xs =>
      have hl : xs.length = n := by simpa using (congrArg List.length e).symm
      subst hl
      rw [PeakToPeak.C18_any_type lt hirr htrans diff size m p s x0 xs e,
        PeakToPeak.C18_any_type lt hirr htrans diff size' m' p' s' x0 xs (h ▸ e)]

/-- C123: vdot, rms (real and complex) in any arithmetic. -/
theorem C123_vdot_rms [Add α] [Mul α] [Zero α] (fin : α → Nat → α) (m m' : Mem α) (w w' p s q t p' s' q' t' out out' : Int) (n : Nat)
    (h : elems m p s n = elems m' p' s' n) :
    (elems m q t n = elems m' q' t' n → Vnorm.vdot m w p s q t n = Vnorm.vdot m' w' p' s' q' t' n) ∧
    ((∀ i < n, p + (i : Int) * s ≠ out) → (∀ i < n, p' + (i : Int) * s' ≠ out') →
      Vnorm.rms fin m w p s out n out = Vnorm.rms fin m' w' p' s' out' n out') ∧
    (elems m (p + w) s n = elems m' (p' + w') s' n → Vnorm.crms fin m w p s out n out = Vnorm.crms fin m' w' p' s' out' n out') := by
  refine ⟨fun h2 => ?_, fun ho ho' => ?_, fun h2 => ?_⟩
  · rw [Vnorm.C42_vdot_fold, Vnorm.C42_vdot_fold]
    congr 1
    apply List.map_congr_left
    intro i hi
    have hi := List.mem_range.1 hi
    rw [get_of_elems h i hi, get_of_elems h2 i hi]
  · rw [Vnorm.C42_rms_store fin m w p s out n ho, Vnorm.C42_rms_store fin m' w' p' s' out' n ho']
    simp only [Mem.store, if_true]
    congr 2
    apply List.map_congr_left
    intro i hi
    rw [get_of_elems h i (List.mem_range.1 hi)]
  · rw [Vnorm.C42_crms, Vnorm.C42_crms]
    simp only [Mem.store, if_true]
    congr 1
    have key : ∀ f k z, k + f ≤ n → Vnorm.csumSqLoop m p s w f k z = Vnorm.csumSqLoop m' p' s' w' f k z := by
      intro f
      induction f with
      | zero => intros; rfl
      | succ f ih =>
        intro k z hk
        have e1 := get_of_elems h k (by omega)
        have e2 := get_of_elems h2 k (by omega)
        have r : p + w + (k : Int) * s = p + (k : Int) * s + w := by omega
        have r' : p' + w' + (k : Int) * s' = p' + (k : Int) * s' + w' := by omega
        simp only [get, r, r'] at e1 e2
        simp only [Vnorm.csumSqLoop, e1, e2]
        exact ih (k + 1) _ (by omega)
    exact key n 0 0 (by omega)

/-- C123: cross2 and cross3 in any arithmetic, and their object versions, where also the
exception is the same. -/
theorem C123_cross [Mul α] [Sub α] (mul sub : α → α → Option α) (m m' : Mem α) (pu us pv vs po os pu' us' pv' vs' po' os' : Int)
    (hos : os ≠ 0) (hos' : os' ≠ 0) :
    (elems m pu us 3 = elems m' pu' us' 3 → elems m pv vs 3 = elems m' pv' vs' 3 →
      elems (Cross.cross3 m pu us pv vs po os) po os 3 = elems (Cross.cross3 m' pu' us' pv' vs' po' os') po' os' 3 ∧
      (Cross.cross3Object mul sub m pu us pv vs po os).2 = (Cross.cross3Object mul sub m' pu' us' pv' vs' po' os').2 ∧
      ((Cross.cross3Object mul sub m pu us pv vs po os).2 = false →
        elems (Cross.cross3Object mul sub m pu us pv vs po os).1 po os 3 =
          elems (Cross.cross3Object mul sub m' pu' us' pv' vs' po' os').1 po' os' 3)) ∧
    (elems m pu us 2 = elems m' pu' us' 2 → elems m pv vs 2 = elems m' pv' vs' 2 →
      Cross.cross2 m pu us pv vs = Cross.cross2 m' pu' us' pv' vs' ∧
      Cross.cross2Object mul sub m pu us pv vs = Cross.cross2Object mul sub m' pu' us' pv' vs') := by
  refine ⟨fun hu hv => ?_, fun hu hv => ?_⟩
  · have u0 := get_of_elems hu 0 (by omega)
    have u1 := get_of_elems hu 1 (by omega)
    have u2 := get_of_elems hu 2 (by omega)
    have v0 := get_of_elems hv 0 (by omega)
    have v1 := get_of_elems hv 1 (by omega)
    have v2 := get_of_elems hv 2 (by omega)
    have st : ∀ (m m' : Mem α) (a b c : α), elems (set (set (set m po os 0 a) po os 1 b) po os 2 c) po os 3 =
        elems (set (set (set m' po' os' 0 a) po' os' 1 b) po' os' 2 c) po' os' 3 := by
      intro m m' a b c
      have e : ∀ (m : Mem α) (p o : Int), o ≠ 0 → elems (set (set (set m p o 0 a) p o 1 b) p o 2 c) p o 3 = [a, b, c] := by
        intro m p o ho
        simp [elems, get, set, Mem.store, List.range_succ, ho]
      rw [e m po os hos, e m' po' os' hos']
    refine ⟨?_, ?_, ?_⟩
    · simp only [Cross.cross3, u0, u1, u2, v0, v1, v2]
      exact st _ _ _ _ _
    · simp only [Cross.cross3Object, u0, u1, u2, v0, v1, v2]
      cases Cross.det2 mul sub (get m' pu' us' 1) (get m' pu' us' 2) (get m' pv' vs' 1) (get m' pv' vs' 2) <;>
        cases Cross.det2 mul sub (get m' pu' us' 2) (get m' pu' us' 0) (get m' pv' vs' 2) (get m' pv' vs' 0) <;>
        cases Cross.det2 mul sub (get m' pu' us' 0) (get m' pu' us' 1) (get m' pv' vs' 0) (get m' pv' vs' 1) <;> rfl
    · simp only [Cross.cross3Object, u0, u1, u2, v0, v1, v2]
      cases Cross.det2 mul sub (get m' pu' us' 1) (get m' pu' us' 2) (get m' pv' vs' 1) (get m' pv' vs' 2) <;>
        cases Cross.det2 mul sub (get m' pu' us' 2) (get m' pu' us' 0) (get m' pv' vs' 2) (get m' pv' vs' 0) <;>
        cases Cross.det2 mul sub (get m' pu' us' 0) (get m' pu' us' 1) (get m' pv' vs' 0) (get m' pv' vs' 1) <;>
        first
        | exact fun _ => st _ _ _ _ _
        | exact fun h => absurd h (by simp)
  · have u0 := get_of_elems hu 0 (by omega)
    have u1 := get_of_elems hu 1 (by omega)
    have v0 := get_of_elems hv 0 (by omega)
    have v1 := get_of_elems hv 1 (by omega)
    simp only [Cross.cross2, Cross.cross2Object, u0, u1, v0, v1, and_self]

/-- C123: multivariate_logbeta in any arithmetic: the contiguous and the strided path agree. -/
theorem C123_logbeta (ad sb : α → α → α) (lg : α → α) (zero nan : α) (size size' : Int) (m m' : Mem α) (n : Nat) (p s out p' s' out' : Int)
    (h : elems m p s n = elems m' p' s' n) :
    Logbeta.core ad sb lg zero nan size m n p s out out = Logbeta.core ad sb lg zero nan size' m' n p' s' out' out' := by
  rw [Logbeta.C66_logbeta_paths, Logbeta.C66_logbeta_paths, h]
  simp only [Mem.store, if_true]

/-- C123 for kbnsum holds for data without infinities (NaN allowed), whatever the rounding; what
is missing is data with infinities. -/
theorem C123_kbnsum_partial {K : Type _} [Field K] [LinearOrder K] (r : XF K → XF K) (m m' : Mem (XF K)) (p s w p' s' w' : Int) (n : Nat)
    (h : elems m p s n = elems m' p' s' n) (hf : ∀ v ∈ elems m p s n, v.isinf = false) :
    Kbnsum.kbnsum r m p s w n = Kbnsum.kbnsum r m' p' s' w' n := by
  have key : ∀ f k z, k + f ≤ n → Kbnsum.loop r m p s w f k z = Kbnsum.loop r m' p' s' w' f k z := by
    intro f
    induction f with
    | zero => intros; rfl
    | succ f ih =>
      intro k z hk
      have e := get_of_elems h k (by omega)
      have hi : (get m p s k).isinf = false := hf _ (by rw [elems]; exact List.mem_map.2 ⟨k, List.mem_range.2 (by omega), rfl⟩)
      rw [e] at hi
      simp only [Kbnsum.loop, e, hi, ih (k + 1) _ (by omega), Bool.false_eq_true, if_false]
  exact key n 0 _ (by omega)

/-- C123 fails for kbnsum with infinities: two arrays with the content `[inf, -inf]` give different
results, because the scan after an infinity ignores the stride. -/
theorem C123_kbnsum_violated : ∃ m m' : Mem (XF ℚ), elems m 0 16 2 = elems m' 0 16 2 ∧
    Kbnsum.kbnsum id m 0 16 8 2 ≠ Kbnsum.kbnsum id m' 0 16 8 2 := by
  obtain ⟨m, m', h1, h2, h3, h4⟩ := Kbnsum.C37_strided_violated
  exact ⟨m, m', h1.trans h2.symm, by rw [h3, h4]; intro h; cases h⟩

/-! ## Correlation -/

theorem generalR_congr (rd : ℝ → ℝ) (n : Nat) (hn : 0 < n) (x y x' y' : Nat → XF ℝ) (hx : ∀ i < n, x i = x' i) (hy : ∀ i < n, y i = y' i) :
    Corr.generalR rd n x y = Corr.generalR rd n x' y' := by
  have a : ∀ (x x' : Nat → XF ℝ), (∀ i < n, x i = x' i) → ∀ f k m c, k + f ≤ n → Corr.meanLoopR rd x f k m c = Corr.meanLoopR rd x' f k m c := by
    intro x x' h f; induction f with
    | zero => intros; rfl
    | succ f ih => intro k m c hk; simp only [Corr.meanLoopR, h k (by omega)]; exact ih _ _ _ (by omega)
  have b : ∀ (x x' : Nat → XF ℝ), (∀ i < n, x i = x' i) → ∀ μ f k M, k + f ≤ n → Corr.maxabsLoopR rd x μ f k M = Corr.maxabsLoopR rd x' μ f k M := by
    intro x x' h μ f; induction f with
    | zero => intros; rfl
    | succ f ih => intro k M hk; simp only [Corr.maxabsLoopR, h k (by omega)]; exact ih _ _ (by omega)
  have c : ∀ (x x' : Nat → XF ℝ), (∀ i < n, x i = x' i) → ∀ μ D f k s c, k + f ≤ n → Corr.normLoopR rd x μ D f k s c = Corr.normLoopR rd x' μ D f k s c := by
    intro x x' h μ D f; induction f with
    | zero => intros; rfl
    | succ f ih => intro k s c hk; simp only [Corr.normLoopR, h k (by omega)]; exact ih _ _ _ (by omega)
  have d : ∀ μ D ν E f k r, k + f ≤ n → Corr.rLoopR rd x y μ D ν E f k r = Corr.rLoopR rd x' y' μ D ν E f k r := by
    intro μ D ν E f; induction f with
    | zero => intros; rfl
    | succ f ih => intro k r hk; simp only [Corr.rLoopR, hx k (by omega), hy k (by omega)]; exact ih _ _ (by omega)
  simp only [Corr.generalR, Corr.stridedMeanR, Corr.deltaMaxabsR, Corr.deltaNormR, a x x' hx n 0 _ _ (by omega), a y y' hy n 0 _ _ (by omega),
    b x x' hx _ (n - 1) 1 _ (by omega), b y y' hy _ (n - 1) 1 _ (by omega), c x x' hx _ _ n 0 _ _ (by omega), c y y' hy _ _ n 0 _ _ (by omega),
    d _ _ _ _ n 0 _ (by omega), hx 0 hn, hy 0 hn]
  rfl

/-- C123: pearson_corr with any rounding (`rd = id` is exact arithmetic), for floating-point and
for integer data, NaN and infinities included. -/
theorem C123_pearson (rd : ℝ → ℝ) (n : Nat) (hn : 0 < n) (px xs py ys px' xs' py' ys' : Int) :
    (∀ m m' : Mem (XF ℝ), elems m px xs n = elems m' px' xs' n → elems m py ys n = elems m' py' ys' n →
      Corr.pearsonR rd n m px xs py ys = Corr.pearsonR rd n m' px' xs' py' ys') ∧
    (∀ m m' : Mem Int, elems m px xs n = elems m' px' xs' n → elems m py ys n = elems m' py' ys' n →
      Corr.pearsonIntR rd n m px xs py ys = Corr.pearsonIntR rd n m' px' xs' py' ys') := by
  have z : ∀ {β : Type} (m : Mem β) (p s : Int), m p = get m p s 0 := by intro β m p s; simp [get]
  refine ⟨fun m m' hx hy => ?_, fun m m' hx hy => ?_⟩
  · unfold Corr.pearsonR
    by_cases h1 : n = 1
    · simp only [h1, if_true]
    · by_cases h2 : n = 2
      · have x0 := get_of_elems hx 0 (by omega)
        have x1 := get_of_elems hx 1 (by omega)
        have y0 := get_of_elems hy 0 (by omega)
        have y1 := get_of_elems hy 1 (by omega)
        rw [if_neg h1, if_neg h1, if_pos h2, if_pos h2]
        rw [z m px xs, z m' px' xs', z m py ys, z m' py' ys', x0, x1, y0, y1]
      · rw [if_neg h1, if_neg h1, if_neg h2, if_neg h2]
        exact generalR_congr rd n hn _ _ _ _ (get_of_elems hx) (get_of_elems hy)
  · unfold Corr.pearsonIntR
    by_cases h1 : n = 1
    · simp only [h1, if_true]
    · by_cases h2 : n = 2
      · have x0 := get_of_elems hx 0 (by omega)
        have x1 := get_of_elems hx 1 (by omega)
        have y0 := get_of_elems hy 0 (by omega)
        have y1 := get_of_elems hy 1 (by omega)
        rw [if_neg h1, if_neg h1, if_pos h2, if_pos h2]
        rw [z m px xs, z m' px' xs', z m py ys, z m' py' ys', x0, x1, y0, y1]
      · rw [if_neg h1, if_neg h1, if_neg h2, if_neg h2]
        exact generalR_congr rd n hn _ _ _ _ (fun i hi => by rw [get_of_elems hx i hi]) (fun i hi => by rw [get_of_elems hy i hi])

/-! ## Signals -/

/-- C123: sosfilter in any arithmetic: the contiguous path, the partly contiguous path and the
strided path give the same output for equal contents of `sos` and `x`. -/
theorem C123_sosfilter [Add α] [Sub α] [Mul α] (size size' : Int) (hsz : size ≠ 0) (hsz' : size' ≠ 0) (zero : α) (k n : Nat) (hk : 0 < k)
    (mS mS' : Mem α) (S S' : Sosfilter.View2) (mx mx' : Mem α) (px xs px' xs' : Int) (my my' : Mem α) (po os po' os' : Int)
    (hos : os ≠ 0) (hos' : os' ≠ 0) (pz pz' : Int)
    (hS : ∀ i < k, ∀ j < 6, get2d mS S.p S.s0 S.s1 i j = get2d mS' S'.p S'.s0 S'.s1 i j)
    (hx : elems mx px xs n = elems mx' px' xs' n) :
    elems (Sosfilter.sosfilterCore size zero k n mS S mx px xs my po os pz) po os n =
      elems (Sosfilter.sosfilterCore size' zero k n mS' S' mx' px' xs' my' po' os' pz') po' os' n := by
  rw [(Sosfilter.C32_zero_state size hsz zero k n hk mS S mx px xs my po os hos pz).1,
    (Sosfilter.C32_zero_state size' hsz' zero k n hk mS' S' mx' px' xs' my' po' os' hos' pz').1, hx]
  congr 2
  apply List.map_congr_left
  intro i hi
  have hi := List.mem_range.1 hi
  simp only [Sosfilter.sectionAt, hS i hi 0 (by omega), hS i hi 1 (by omega), hS i hi 2 (by omega), hS i hi 3 (by omega), hS i hi 4 (by omega), hS i hi 5 (by omega)]

/-- C123: hysteresis_relay. -/
theorem C123_relay [LT α] [DecidableLT α] (lowT highT lowV highV init : α) (mx mx' : Mem α) (px xs px' xs' : Int) (mo mo' : Mem α)
    (po os po' os' : Int) (hos : os ≠ 0) (hos' : os' ≠ 0) (n : Nat) (h : elems mx px xs n = elems mx' px' xs' n) :
    elems (Signal.relayCore lowT highT lowV highV init mx px xs mo po os n) po os n =
      elems (Signal.relayCore lowT highT lowV highV init mx' px' xs' mo' po' os' n) po' os' n := by
  rw [Signal.C25_relay_list _ _ _ _ _ _ _ _ _ _ _ hos, Signal.C25_relay_list _ _ _ _ _ _ _ _ _ _ _ hos', h]

/-- C123: abs_squared, real and complex: the contiguous and the strided loops agree. -/
theorem C123_abssq [Add α] [Mul α] (sz sz' : Int) (n : Nat) (p s p' s' po os po' os' : Int) (m m' : Mem α) (hos : os ≠ 0) (hos' : os' ≠ 0)
    (ho : ∀ i j, i < j → j < n → po + (i : Int) * os ≠ p + (j : Int) * s) (ho' : ∀ i j, i < j → j < n → po' + (i : Int) * os' ≠ p' + (j : Int) * s')
    (h : elems m p s n = elems m' p' s' n) :
    elems (Elementary.abssqReal sz n p s po os m) po os n = elems (Elementary.abssqReal sz' n p' s' po' os' m') po' os' n ∧
    (elems m (p + sz) s n = elems m' (p' + sz') s' n →
      (∀ i j, i < j → j < n → po + (i : Int) * os ≠ p + sz + (j : Int) * s) → (∀ i j, i < j → j < n → po' + (i : Int) * os' ≠ p' + sz' + (j : Int) * s') →
      elems (Elementary.abssqComplex sz n p s po os m) po os n = elems (Elementary.abssqComplex sz' n p' s' po' os' m') po' os' n) := by
  refine ⟨?_, fun h2 hc hc' => ?_⟩
  · rw [(Elementary.C67_abssq_real sz n p s po os m hos ho).1, (Elementary.C67_abssq_real sz' n p' s' po' os' m' hos' ho').1, h]
  · rw [(Elementary.C67_abssq_complex sz n p s po os m hos fun i j h1 h2 => ⟨ho i j h1 h2, hc i j h1 h2⟩).1,
      (Elementary.C67_abssq_complex sz' n p' s' po' os' m' hos' fun i j h1 h2 => ⟨ho' i j h1 h2, hc' i j h1 h2⟩).1, h, h2]

/-! ## Tables -/

/-- C123 for the two paths of linear_interp1d (a table shared by all the loop's elements, or one
table per element): they give the same values for every increasing table with at least one point
and every number; what is missing is NaN and the empty table. -/
theorem C123_linear_interp1d_partial {K : Type _} [Field K] [LinearOrder K] [IsStrictOrderedRing K] (nloops : Nat) (a : List K)
    (hs : a.Pairwise (· < ·)) (hn : 0 < a.length) (fps : Nat → List (XF K)) (hf : ∀ j, (fps j).length = a.length) (x : K) :
    LinearInterp.fast nloops (.fin x) (a.map .fin) fps = LinearInterp.general nloops (fun _ => .fin x) (fun _ => a.map .fin) fps :=
  LinearInterp.C47_fast_agrees nloops a hs hn fps hf x

/-- C123 fails for linear_interp1d with an empty table: a shared one is read out of bounds, separate
ones give NaN. -/
theorem C123_linear_interp1d_violated : ∃ (x : XF ℚ) (fps : Nat → List (XF ℚ)),
    LinearInterp.fast 1 x [] fps ≠ LinearInterp.general 1 (fun _ => x) (fun _ => []) fps := by
  refine ⟨.fin 0, fun _ => [], ?_⟩
  rw [(LinearInterp.C47_fast_empty_violated 1 _ _).1, (LinearInterp.C47_fast_empty_violated 1 _ _).2]
  exact fun h => nomatch h

/-! ## Non-vacuity: `[3, -1, 4]` contiguous, reversed with a gap, and a broadcast `[2, 2, 2]` -/

/-- `[3, -1, 4]` at 0, 8, 16. -/
def exA : Mem Int := fun p => if p = 0 then 3 else if p = 8 then -1 else 4
/-- `[4, ?, -1, ?, 3]` at 100, 108, ..., read backwards from 132 with stride -16. -/
def exB : Mem Int := fun p => if p = 132 then 3 else if p = 116 then -1 else if p = 100 then 4 else 77

example : elems exA 0 8 3 = elems exB 132 (-16) 3 ∧ elems exA 0 8 3 = [3, -1, 4] ∧ exA ≠ exB :=
  ⟨by decide, by decide, fun h => absurd (congrFun h 5) (by decide)⟩
example : elems (fun _ : Int => (2 : Int)) 40 0 3 = elems (fun p : Int => if p % 8 = 0 then (2 : Int) else 0) 0 8 3 := by decide
example : (Searchsorted.searchsortedl (fun a b : Int => decide (a < b)) exA 0 3 8 2).1 =
    (Searchsorted.searchsortedl (fun a b : Int => decide (a < b)) exB 132 3 (-16) 2).1 := by
  rw [(C123_searchsorted (fun a b : Int => decide (a < b)) (fun a b => some (decide (a < b))) exA exB 0 8 132 (-16) 3 2 (by decide)).1]
example : PeakToPeak.peaktopeakSigned 64 8 exA 0 8 3 = some 5 ∧ PeakToPeak.peaktopeakSigned 64 8 exB 132 (-16) 3 = some 5 := by decide
example : elems (Bincount.core 8 8 3 5 exA 0 8 1000 8 (fun _ => 0)) 1000 8 5 =
    elems (Bincount.core 8 8 3 5 exB 132 (-16) 1000 (-24) (fun _ => 0)) 1000 (-24) 5 :=
  (C123_bincount (W := Int) 8 8 8 8 3 5 exA exB 0 8 132 (-16) (by decide) (by decide) 1000 8 1000 (-24) (by decide) (by decide)).1 _ _ (by decide)
example : Vnorm.vdot exA 8 0 8 0 8 3 = 26 ∧ Vnorm.vdot exB 8 132 (-16) 132 (-16) 3 = 26 := by decide

end Ufunclab.Layout
