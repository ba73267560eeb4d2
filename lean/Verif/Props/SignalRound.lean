import Verif.Proof.SignalRound
import Verif.Props.Deadzone
/-!
# C94: backlash, backlash_sum and deadzone in floating point

The models of `Model/Signal` used at `Fl rd`, where `rd` rounds to a nearest value of a binary format
(`Nearest p emin rd`, any rule for ties).  `u = 2^-p`, the least positive number is `2^emin`.
-/
namespace Ufunclab.Signal
open Ufunclab.Float Ufunclab.Corr
variable {p : ℕ} {emin : ℤ} {rd : ℝ → ℝ}

/-- The outputs of `backlash` in floating point for the numbers `d` (deadband), `i` (initial) and `xs`. -/
noncomputable def backlashF (rd : ℝ → ℝ) (d i : ℝ) (xs : List ℝ) : List ℝ :=
  (backlash (⟨d⟩ : Fl rd) ⟨i⟩ (xs.map Fl.mk)).map Fl.val

theorem backlashF_cons (d i x : ℝ) (xs : List ℝ) :
    backlashF rd d i (x :: xs) = (backlashStep (⟨rd (d / 2)⟩ : Fl rd) ⟨i⟩ ⟨x⟩).val ::
      backlashF rd d (backlashStep (⟨rd (d / 2)⟩ : Fl rd) ⟨i⟩ ⟨x⟩).val xs := rfl

/-- C94: every output of `backlash` is the exact next output (the projection of the previous output on
`[x - h, x + h]`), correctly rounded. -/
theorem C94_backlash_step (h : Nearest p emin rd) (d i : ℝ) (hd : 0 ≤ d) (hi : IsFloat p emin i) (xs : List ℝ) (k : Nat)
    (x y prev : ℝ) (hx : xs[k]? = some x) (hy : (backlashF rd d i xs)[k]? = some y)
    (hprev : if k = 0 then prev = i else (backlashF rd d i xs)[k - 1]? = some prev) :
    y = rd (max (x - rd (d / 2)) (min prev (x + rd (d / 2)))) := by
  induction xs generalizing i k with
  | nil => simp at hx
  | cons a xs ih =>
    rw [backlashF_cons] at hy hprev
    have e := step_round h ⟨rd (d / 2)⟩ ⟨i⟩ ⟨a⟩ (half_nonneg h hd) hi
    cases k with
    | zero =>
      simp only [List.getElem?_cons_zero, Option.some.injEq, if_true] at *
      rw [hprev, ← hx, ← hy]; exact e
    | succ k =>
      simp only [List.getElem?_cons_succ] at hx hy
      refine ih _ ?_ k hx hy ?_
      · rw [e]; exact (h _).1
      · simp only [Nat.add_one_ne_zero, if_false, Nat.add_sub_cancel] at hprev
        cases k with
        | zero => simpa using hprev.symm
        | succ k => simpa using hprev

/-- C94: while the input stays within half the deadband of the last output, the output does not move at
all (no drift by rounding). -/
theorem C94_backlash_inside (h : Nearest p emin rd) (d i : ℝ) (hd : 0 ≤ d) (hi : IsFloat p emin i) (xs : List ℝ)
    (hxs : ∀ x ∈ xs, |x - i| ≤ rd (d / 2)) : backlashF rd d i xs = List.replicate xs.length i := by
  induction xs with
  | nil => rfl
  | cons x xs ih =>
    have hx := abs_le.1 (hxs x (by simp))
    have e := step_round h ⟨rd (d / 2)⟩ ⟨i⟩ ⟨x⟩ (half_nonneg h hd) hi
    have e2 : (backlashStep (⟨rd (d / 2)⟩ : Fl rd) ⟨i⟩ ⟨x⟩).val = i := by
      rw [e]
      show rd (max (x - rd (d / 2)) (min i (x + rd (d / 2)))) = i
      rw [min_eq_left (by linarith), max_eq_right (by linarith), h.exact hi]
    rw [backlashF_cons, e2, ih (fun v hv => hxs v (by simp [hv]))]; rfl

/-- C94: every output is within half the deadband of its input, up to rounding. -/
theorem C94_backlash_band (h : Nearest p emin rd) (hp : 1 ≤ p) (d i : ℝ) (hd : 0 ≤ d) (fd : IsFloat p emin d) (hi : IsFloat p emin i)
    (xs : List ℝ) (fx : ∀ x ∈ xs, IsFloat p emin x) (k : Nat) (x y : ℝ) (hx : xs[k]? = some x)
    (hy : (backlashF rd d i xs)[k]? = some y) :
    |y - x| ≤ (1 + (2 ^ p)⁻¹) * ((d + 2 ^ emin) / 2) + (2 ^ p)⁻¹ * |x| := by
  have hprev : ∃ prev, if k = 0 then prev = i else (backlashF rd d i xs)[k - 1]? = some prev := by
    by_cases h0 : k = 0
    · exact ⟨i, by simp [h0]⟩
    · have hk : k < (backlashF rd d i xs).length := by
        rcases Nat.lt_or_ge k (backlashF rd d i xs).length with h | h
        · exact h
        · rw [List.getElem?_eq_none h] at hy; simp at hy
      exact ⟨_, by rw [if_neg h0, List.getElem?_eq_getElem (by omega)]⟩
  obtain ⟨prev, hprev⟩ := hprev
  have e := C94_backlash_step h d i hd hi xs k x y prev hx hy hprev
  have hh := half_nonneg h hd
  have fx' := fx x (List.mem_of_getElem? hx)
  have h1 := abs_le.1 (half_error h hp fd)
  have h2 := abs_le.1 (h.rel_error hp (fx'.grid.sub (h (d / 2)).1.grid))
  have h3 := abs_le.1 (h.rel_error hp (fx'.grid.add (h (d / 2)).1.grid))
  have lo : rd (x - rd (d / 2)) ≤ y := e ▸ h.monotone (le_max_left _ _)
  have hi : y ≤ rd (x + rd (d / 2)) := e ▸ h.monotone (max_le (by linarith) (min_le_right _ _))
  have u0 : (0 : ℝ) ≤ (2 ^ p)⁻¹ := by positivity
  have a1 : |x - rd (d / 2)| ≤ |x| + rd (d / 2) := (abs_sub _ _).trans (by rw [abs_of_nonneg hh])
  have a2 : |x + rd (d / 2)| ≤ |x| + rd (d / 2) := (abs_add_le _ _).trans (by rw [abs_of_nonneg hh])
  have b1 := mul_le_mul_of_nonneg_left a1 u0
  have b2 := mul_le_mul_of_nonneg_left a2 u0
  have b3 := mul_le_mul_of_nonneg_left (by linarith : rd (d / 2) ≤ (d + 2 ^ emin) / 2) (by linarith : (0:ℝ) ≤ 1 + (2 ^ p)⁻¹)
  rw [abs_le]
  constructor <;> linarith

/-- The distance can exceed half the deadband in floating point: with `x = 1`, an initial state above the band
and half the deadband three quarters of the distance between 1 and the next number. -/
theorem C94_backlash_band_violated (h : Nearest p emin rd) (hp : 3 ≤ p) (he : emin ≤ -(p : ℤ) - 1) :
    ∃ d i x : ℝ, 0 ≤ d ∧ IsFloat p emin d ∧ IsFloat p emin (d / 2) ∧ IsFloat p emin i ∧ IsFloat p emin x ∧
      ∃ y, backlashF rd d i [x] = [y] ∧ d / 2 < |y - x| := by
  have h8 : (2 : ℤ) ^ 3 ≤ 2 ^ p := pow_le_pow_right₀ (by norm_num) hp
  have e0 : (2 : ℝ) ^ (-(p : ℤ)) = 2 * 2 ^ (-(p : ℤ) - 1) := by rw [zpow_sub_one₀ (by norm_num)]; ring
  have e1 : (2 : ℝ) ^ (-(p : ℤ) + 1) = 2 * 2 ^ (-(p : ℤ)) := by rw [zpow_add_one₀ (by norm_num)]; ring
  have e2 : (2 : ℝ) ^ p * 2 ^ (-(p : ℤ)) = 1 := by rw [pow_zpow]; simp
  have t0 := two_zpow_pos (K := ℝ) (-(p : ℤ) - 1)
  have fh : IsFloat p emin (3 * (2 : ℝ) ^ (-(p : ℤ) - 1)) := ⟨3, -(p : ℤ) - 1, by rw [abs_of_pos (by norm_num)]; omega, he, by norm_num⟩
  have fh2 : IsFloat p emin (3 * (2 : ℝ) ^ (-(p : ℤ))) := ⟨3, -(p : ℤ), by rw [abs_of_pos (by norm_num)]; omega, by omega, by norm_num⟩
  have fi : IsFloat p emin (2 : ℝ) := ⟨2, 0, by rw [abs_of_pos (by norm_num)]; omega, by omega, by norm_num⟩
  have hh : 3 * (2 : ℝ) ^ (-(p : ℤ)) / 2 = 3 * 2 ^ (-(p : ℤ) - 1) := by rw [e0]; ring
  have small : (2 : ℝ) ^ (-(p : ℤ)) ≤ 1 / 8 := by
    have h8' : (2 : ℝ) ^ 3 ≤ 2 ^ p := pow_le_pow_right₀ (by norm_num) hp
    have : (2 : ℝ) ^ (-(p : ℤ)) = 1 / 2 ^ p := by rw [zpow_neg, zpow_natCast, one_div]
    rw [this]; exact one_div_le_one_div_of_le (by norm_num) (by norm_num at h8' ⊢; linarith)
  obtain ⟨q, rfl⟩ : ∃ q, p = q + 1 := ⟨p - 1, by omega⟩
  have pin : rd (1 + 3 * (2 : ℝ) ^ (-((q + 1 : ℕ) : ℤ) - 1)) = (((2 ^ q + 1 : ℤ)) : ℝ) * 2 ^ (-((q + 1 : ℕ) : ℤ) + 1) := by
    apply h.pin (by omega) (2 ^ q + 1) (-((q + 1 : ℕ) : ℤ))
    · rw [abs_of_pos (by positivity)]
      rw [pow_succ] at h8 ⊢; omega
    · omega
    · rw [e2, abs_of_pos (by positivity)]; linarith
    · have : (((2 ^ q + 1 : ℤ)) : ℝ) * 2 ^ (-((q + 1 : ℕ) : ℤ) + 1) = 2 ^ (q + 1) * 2 ^ (-((q + 1 : ℕ) : ℤ)) + 2 * 2 ^ (-((q + 1 : ℕ) : ℤ)) := by
        rw [e1, pow_succ]; push_cast; ring
      rw [this, e2, e0]
      rw [abs_lt]; constructor <;> linarith
  have val : (((2 ^ q + 1 : ℤ)) : ℝ) * 2 ^ (-((q + 1 : ℕ) : ℤ) + 1) = 1 + 4 * 2 ^ (-((q + 1 : ℕ) : ℤ) - 1) := by
    have : (((2 ^ q + 1 : ℤ)) : ℝ) * 2 ^ (-((q + 1 : ℕ) : ℤ) + 1) = 2 ^ (q + 1) * 2 ^ (-((q + 1 : ℕ) : ℤ)) + 2 * 2 ^ (-((q + 1 : ℕ) : ℤ)) := by
      rw [e1, pow_succ]; push_cast; ring
    rw [this, e2, e0]; ring
  rw [val] at pin
  refine ⟨3 * 2 ^ (-((q + 1 : ℕ) : ℤ)), 2, 1, by positivity, fh2, hh ▸ fh, fi, isFloat_one (by omega) (by omega), _,
    by rw [backlashF_cons]; rfl, ?_⟩
  rw [step_val h.monotone _ _ _ (half_nonneg h (by positivity)), hh, h.exact fh]
  show _ < |max (rd (1 - _)) (min 2 (rd (1 + _))) - 1|
  rw [pin, min_eq_right (by linarith), max_eq_right]
  · rw [abs_of_pos (by linarith)]; linarith
  · rw [← pin]; exact h.monotone (by linarith)

/-- C94: the error of `backlash` does not grow with the length of the input: it is at most the rounding
error of one `x ± deadband/2`. -/
theorem C94_backlash_accuracy (h : Nearest p emin rd) (hp : 1 ≤ p) (d i : ℝ) (hd : 0 ≤ d) (fd : IsFloat p emin d) (xs : List ℝ)
    (fx : ∀ x ∈ xs, IsFloat p emin x) {M : ℝ} (hM : ∀ x ∈ xs, |x| ≤ M) (k : Nat) (y z : ℝ)
    (hy : (backlashF rd d i xs)[k]? = some y) (hz : (backlash d i xs)[k]? = some z) :
    |y - z| ≤ (2 ^ p)⁻¹ * (M + (d + 2 ^ emin) / 2) + 2 ^ emin / 2 := by
  have gen : ∀ (xs : List ℝ) (i i' : ℝ) (k : ℕ), (∀ x ∈ xs, IsFloat p emin x) → (∀ x ∈ xs, |x| ≤ M) →
      |i - i'| ≤ (2 ^ p)⁻¹ * (M + (d + 2 ^ emin) / 2) + 2 ^ emin / 2 →
      (backlashF rd d i xs)[k]? = some y → (backlash d i' xs)[k]? = some z →
      |y - z| ≤ (2 ^ p)⁻¹ * (M + (d + 2 ^ emin) / 2) + 2 ^ emin / 2 := by
    intro xs
    induction xs with
    | nil => intro i i' k _ _ _ hy; simp [backlashF, backlash, backlashLoop] at hy
    | cons x xs ih =>
      intro i i' k fx hM hii hy hz
      rw [backlashF_cons] at hy
      have hh := half_nonneg h hd
      have fx' := fx x (by simp)
      have h1 := half_error h hp fd
      have h1' := abs_le.1 h1
      have h2 := h.rel_error hp (fx'.grid.sub (h (d / 2)).1.grid)
      have h3 := h.rel_error hp (fx'.grid.add (h (d / 2)).1.grid)
      have u0 : (0 : ℝ) ≤ (2 ^ p)⁻¹ := by positivity
      have hx := hM x (by simp)
      have a1 : |x - rd (d / 2)| ≤ M + (d + 2 ^ emin) / 2 := (abs_sub _ _).trans (by rw [abs_of_nonneg hh]; linarith)
      have a2 : |x + rd (d / 2)| ≤ M + (d + 2 ^ emin) / 2 := (abs_add_le _ _).trans (by rw [abs_of_nonneg hh]; linarith)
      have b1 := mul_le_mul_of_nonneg_left a1 u0
      have b2 := mul_le_mul_of_nonneg_left a2 u0
      have key : |(backlashStep (⟨rd (d / 2)⟩ : Fl rd) ⟨i⟩ ⟨x⟩).val - backlashStep (d / 2) i' x| ≤
          (2 ^ p)⁻¹ * (M + (d + 2 ^ emin) / 2) + 2 ^ emin / 2 := by
        rw [step_val h.monotone _ _ _ hh, step_eq_clamp (α := ℝ) _ _ _ (by linarith)]
        refine clamp_nonexpansive ?_ ?_ hii
        · calc |rd (x - rd (d / 2)) - (x - d / 2)|
              = |(rd (x - rd (d / 2)) - (x - rd (d / 2))) - (rd (d / 2) - d / 2)| := by congr 1; ring
            _ ≤ _ := abs_sub _ _
            _ ≤ _ := by linarith
        · calc |rd (x + rd (d / 2)) - (x + d / 2)|
              = |(rd (x + rd (d / 2)) - (x + rd (d / 2))) + (rd (d / 2) - d / 2)| := by congr 1; ring
            _ ≤ _ := abs_add_le _ _
            _ ≤ _ := by linarith
      cases k with
      | zero =>
        simp only [backlash, backlashLoop, List.getElem?_cons_zero, Option.some.injEq] at hy hz
        rw [← hy, ← hz]; exact key
      | succ k =>
        simp only [backlash, backlashLoop, List.getElem?_cons_succ] at hy hz
        exact ih _ _ k (fun v hv => fx v (by simp [hv])) (fun v hv => hM v (by simp [hv])) key hy hz
  have hM0 : 0 ≤ M := by
    cases xs with
    | nil => simp [backlashF, backlash, backlashLoop] at hy
    | cons x xs => exact (abs_nonneg x).trans (hM x (by simp))
  exact gen xs i i k fx hM (by rw [sub_self, abs_zero]; positivity) hy hz

/-- C94: when half the deadband and the ends of all the bands are numbers of the format (integers, say, or
multiples of a common unit), `backlash` is exact. -/
theorem C94_backlash_exact (h : Nearest p emin rd) (d i : ℝ) (hd : 0 ≤ d) (fd : IsFloat p emin (d / 2)) (xs : List ℝ)
    (fx : ∀ x ∈ xs, IsFloat p emin (x - d / 2) ∧ IsFloat p emin (x + d / 2)) : backlashF rd d i xs = backlash d i xs := by
  induction xs generalizing i with
  | nil => rfl
  | cons x xs ih =>
    have hh := half_nonneg h hd
    obtain ⟨f1, f2⟩ := fx x (by simp)
    have e : (backlashStep (⟨rd (d / 2)⟩ : Fl rd) ⟨i⟩ ⟨x⟩).val = backlashStep (d / 2) i x := by
      rw [step_val h.monotone _ _ _ hh, step_eq_clamp (α := ℝ) _ _ _ (by linarith)]
      simp only [h.exact fd, h.exact f1, h.exact f2]
    rw [backlashF_cons, e, ih _ (fun v hv => fx v (by simp [hv]))]; rfl

/-- C94: in floating point too `backlash` is monotone in the input and in the initial state. -/
theorem C94_backlash_monotone (h : Nearest p emin rd) (d : ℝ) (hd : 0 ≤ d) (i i' : ℝ) (hi : i ≤ i') (xs xs' : List ℝ)
    (hx : List.Forall₂ (· ≤ ·) xs xs') : List.Forall₂ (· ≤ ·) (backlashF rd d i xs) (backlashF rd d i' xs') := by
  have hh := half_nonneg h hd
  have := C28_monotone (⟨d⟩ : Fl rd) (fun x => h.monotone (show x.val - rd (d / 2) ≤ x.val + rd (d / 2) by linarith))
    (fun a b hab => h.monotone (show a.val - rd (d / 2) ≤ b.val - rd (d / 2) by have := (le_val a b).1 hab; linarith))
    (fun a b hab => h.monotone (show a.val + rd (d / 2) ≤ b.val + rd (d / 2) by have := (le_val a b).1 hab; linarith))
    ⟨i⟩ ⟨i'⟩ hi (xs.map Fl.mk) (xs'.map Fl.mk) (by simpa [List.forall₂_map_left_iff, List.forall₂_map_right_iff, le_val] using hx)
  simpa [backlashF, List.forall₂_map_left_iff, List.forall₂_map_right_iff, le_val] using this

/-- The numbers given to `backlash_sum`, as floating-point numbers. -/
def flChannel (rd : ℝ → ℝ) (c : Channel ℝ) : Channel (Fl rd) := ⟨⟨c.w⟩, ⟨c.deadband⟩⟩

/-- C94: the error of `backlash_sum` (with `m` channels): that of a sum of `m` products, plus that of the
outputs of the single backlashes, whatever the length of the input. -/
theorem C94_backlash_sum_accuracy (h : Nearest p emin rd) (hp : 1 ≤ p) (chs : List (Channel ℝ)) (hm : 100 * ((chs.length : ℝ) + 1) ≤ 2 ^ p)
    (fd : ∀ c ∈ chs, 0 ≤ c.deadband ∧ IsFloat p emin c.deadband) (init : List ℝ) (hlen : init.length = chs.length) (xs : List ℝ)
    (fx : ∀ x ∈ xs, IsFloat p emin x) {M : ℝ} (hM : ∀ x ∈ xs, |x| ≤ M) (k : Nat) (hk : k < xs.length) :
    ∃ (y : Fl rd) (z : ℝ), (backlashSum (chs.map (flChannel rd)) (init.map Fl.mk) (xs.map Fl.mk)).1[k]? = some y ∧
      (backlashSum chs init xs).1[k]? = some z ∧
      |y.val - z| ≤ 1.02 * (chs.length + 1) * (2 ^ p)⁻¹ *
            (List.zipWith (fun c i => |c.w * ((backlash c.deadband i xs)[k]?).getD i|) chs init).sum +
          1.02 * (chs.map fun c => |c.w| * ((2 ^ p)⁻¹ * (M + (c.deadband + 2 ^ emin) / 2) + 2 ^ emin / 2)).sum +
          1.02 * chs.length * (2 ^ emin / 2) := by
  refine ⟨_, _, C29_out _ _ (by simp [hlen]) _ k (by simpa using hk), C29_out _ _ hlen _ k hk, ?_⟩
  rw [foldl_val, zero_val]
  -- the terms, over the list of pairs
  let l := chs.zip init
  let bF : Channel ℝ × ℝ → ℝ := fun q => ((backlashF rd q.1.deadband q.2 xs)[k]?).getD q.2
  let b : Channel ℝ × ℝ → ℝ := fun q => ((backlash q.1.deadband q.2 xs)[k]?).getD q.2
  let E : Channel ℝ → ℝ := fun c => (2 ^ p)⁻¹ * (M + (c.deadband + 2 ^ emin) / 2) + 2 ^ emin / 2
  have hll : l.length = chs.length := by simp [l, hlen]
  have t1 : (List.zipWith (fun (c : Channel (Fl rd)) y => c.w * ((backlash c.deadband y (xs.map Fl.mk))[k]?).getD y)
      (chs.map (flChannel rd)) (init.map Fl.mk)).map Fl.val = l.map fun q => rd (q.1.w * bF q) := by
    rw [List.zipWith_map, List.map_zipWith, ← List.map_uncurry_zip_eq_zipWith]
    apply List.map_congr_left
    rintro ⟨c, i⟩ _
    show rd (c.w * _) = rd (c.w * _)
    congr 2
    simp only [bF, backlashF, flChannel, List.getElem?_map]
    cases (backlash (⟨c.deadband⟩ : Fl rd) ⟨i⟩ (xs.map Fl.mk))[k]? <;> rfl
  have t2 : (List.zipWith (fun (c : Channel ℝ) i => c.w * ((backlash c.deadband i xs)[k]?).getD i) chs init).foldl (· + ·) 0 =
      (l.map fun q => q.1.w * b q).sum := by
    rw [← List.sum_eq_foldl, ← List.map_uncurry_zip_eq_zipWith]; rfl
  have t3 : (List.zipWith (fun (c : Channel ℝ) i => |c.w * ((backlash c.deadband i xs)[k]?).getD i|) chs init) =
      l.map fun q => |q.1.w * b q| := by
    rw [← List.map_uncurry_zip_eq_zipWith]; rfl
  have t4 : (chs.map fun c => |c.w| * E c) = l.map fun q => |q.1.w| * E q.1 := by
    have : chs = l.map Prod.fst := by rw [List.map_fst_zip]; omega
    conv_lhs => rw [this, List.map_map]
    rfl
  have hE : ∀ q ∈ l, |bF q - b q| ≤ E q.1 := by
    rintro ⟨c, i⟩ hq
    obtain ⟨d0, df⟩ := fd c (List.of_mem_zip hq).1
    have k1 : k < (backlashF rd c.deadband i xs).length := by
      simp [backlashF, backlash, backlashLoop_length, hk]
    have k2 : k < (backlash c.deadband i xs).length := by
      simp [backlash, backlashLoop_length, hk]
    have e1 := List.getElem?_eq_getElem k1
    have e2 := List.getElem?_eq_getElem k2
    simp only [bF, b, E, e1, e2, Option.getD_some]
    exact C94_backlash_accuracy h hp c.deadband i d0 df xs fx hM k _ _ e1 e2
  rw [t1, t2, t3, t4]
  have s1 := rsum_terms_list h hp l (fun q => rd (q.1.w * bF q)) (fun q => q.1.w * bF q) (fun _ _ => (h _).1)
    (fun q _ => h.error hp (q.1.w * bF q))
  have s2 : |(l.map fun q => q.1.w * bF q).sum - (l.map fun q => q.1.w * b q).sum| ≤ (l.map fun q => |q.1.w| * E q.1).sum ∧
      (l.map fun q => |q.1.w * bF q|).sum ≤ (l.map fun q => |q.1.w * b q|).sum + (l.map fun q => |q.1.w| * E q.1).sum := by
    clear s1 t1 t2 t3 t4 hll
    clear_value l
    induction l with
    | nil => simp
    | cons q l ih =>
      obtain ⟨i1, i2⟩ := ih (fun v hv => hE v (by simp [hv]))
      have hq := mul_le_mul_of_nonneg_left (hE q (by simp)) (abs_nonneg q.1.w)
      rw [← abs_mul, mul_sub] at hq
      simp only [List.map_cons, List.sum_cons]
      constructor
      · calc _ = |(q.1.w * bF q - q.1.w * b q) + ((l.map fun q => q.1.w * bF q).sum - (l.map fun q => q.1.w * b q).sum)| := by
              congr 1; ring
          _ ≤ _ := abs_add_le _ _
          _ ≤ _ := by linarith
      · have : |q.1.w * bF q| ≤ |q.1.w * bF q - q.1.w * b q| + |q.1.w * b q| := by
          calc _ = |(q.1.w * bF q - q.1.w * b q) + q.1.w * b q| := by congr 1; ring
            _ ≤ _ := abs_add_le _ _
        linarith
  obtain ⟨s2, s3⟩ := s2
  rw [hll, ← pow_succ] at s1
  have hu0 : (0 : ℝ) ≤ (2 ^ p)⁻¹ := by positivity
  have hmu : ((chs.length : ℝ) + 1) * (2 ^ p)⁻¹ ≤ 1 / 100 := by
    rw [← div_eq_mul_inv, div_le_iff₀ (by positivity)]; linarith
  have p1 := Mad.pow_bound (u := ((2 : ℝ) ^ p)⁻¹) hu0 (chs.length + 1) (by push_cast; exact hmu)
  have p2 := Mad.pow_bound (u := ((2 : ℝ) ^ p)⁻¹) hu0 chs.length (by linarith)
  push_cast at p1
  have A0 : 0 ≤ (l.map fun q => |q.1.w * b q|).sum := List.sum_nonneg (by
    intro v hv; obtain ⟨w, _, rfl⟩ := List.mem_map.1 hv; exact abs_nonneg _)
  have E0 : 0 ≤ (l.map fun q => |q.1.w| * E q.1).sum := (abs_nonneg _).trans s2
  have F0 : 0 ≤ (l.map fun q => |q.1.w * bF q|).sum := List.sum_nonneg (by
    intro v hv; obtain ⟨w, _, rfl⟩ := List.mem_map.1 hv; exact abs_nonneg _)
  have G0 : (0 : ℝ) ≤ chs.length * (2 ^ emin / 2) := by positivity
  have tri := abs_sub_le (rsum rd 0 (l.map fun q => rd (q.1.w * bF q))) (l.map fun q => q.1.w * bF q).sum
    (l.map fun q => q.1.w * b q).sum
  refine tri.trans ?_
  have hmu' : 1.02 * ((chs.length : ℝ) + 1) * (2 ^ p)⁻¹ ≤ 0.02 := by
    rw [mul_assoc]; norm_num at *; linarith
  have hmu2 : 1.02 * (chs.length : ℝ) * (2 ^ p)⁻¹ ≤ 0.02 := by
    have : 1.02 * ((chs.length : ℝ) + 1) * (2 ^ p)⁻¹ = 1.02 * (chs.length : ℝ) * (2 ^ p)⁻¹ + 1.02 * (2 ^ p)⁻¹ := by ring
    have h0 : (0 : ℝ) ≤ 1.02 * (2 ^ p)⁻¹ := by positivity
    linarith
  have c0 : 0 ≤ 1.02 * ((chs.length : ℝ) + 1) * (2 ^ p)⁻¹ := by positivity
  have q1 := mul_le_mul_of_nonneg_right (sub_le_iff_le_add'.2 p1) F0
  have q2 := mul_le_mul_of_nonneg_left s3 c0
  have q3 := mul_le_mul_of_nonneg_right hmu' E0
  have q4 := mul_le_mul_of_nonneg_right p2 G0
  have q5 := mul_le_mul_of_nonneg_right hmu2 G0
  rw [add_mul] at q4
  rw [mul_assoc 1.02 (chs.length : ℝ) (2 ^ emin / 2)]
  generalize 1.02 * ((chs.length : ℝ) + 1) * (2 ^ p)⁻¹ = c at *
  generalize 1.02 * (chs.length : ℝ) * (2 ^ p)⁻¹ = c' at *
  generalize (chs.length : ℝ) * (2 ^ emin / 2) = g at *
  generalize (l.map fun q => |q.1.w| * E q.1).sum = e at *
  rw [mul_add] at q2
  clear t1 t2 t3 t4 hE tri hmu
  norm_num at *
  linarith

/-- C94: deadzone in floating point: the exact value with relative error `2^-p`, also among the subnormal
numbers; zero exactly on `[low, high]`, negative below and positive above. -/
theorem C94_deadzone (h : Nearest p emin rd) (hp : 1 ≤ p) (x low high : ℝ) (fx : IsFloat p emin x) (fl : IsFloat p emin low)
    (fh : IsFloat p emin high) (hlh : low ≤ high) :
    let y := Deadzone.deadzone (fun a b => decide (a < b)) (fun a b => rd (a - b)) 0 x low high
    let z := x - max low (min x high)
    |y - z| ≤ (2 ^ p)⁻¹ * |z| ∧ (y = 0 ↔ low ≤ x ∧ x ≤ high) ∧ (y < 0 ↔ x < low) ∧ (0 < y ↔ high < x) := by
  have η0 := two_zpow_pos (K := ℝ) emin
  have fη : IsFloat p emin ((2 : ℝ) ^ emin) := isFloat_zpow hp le_rfl
  have gap : ∀ a b : ℝ, IsFloat p emin a → IsFloat p emin b → a < b → 2 ^ emin ≤ b - a := by
    intro a b fa fb hab
    obtain ⟨m, hm⟩ := fb.grid.sub fa.grid
    rw [hm]
    have : (0 : ℝ) < (m : ℝ) * 2 ^ emin := by rw [← hm]; linarith
    have m0 : (0 : ℝ) < m := pos_of_mul_pos_left this η0.le
    have m0' : 0 < m := by exact_mod_cast m0
    have m1 : (1 : ℝ) ≤ m := by exact_mod_cast (by omega : 1 ≤ m)
    exact le_mul_of_one_le_left η0.le m1
  simp only [Deadzone.deadzone, decide_eq_true_eq]
  split_ifs with h1 h2
  · have g := gap x low fx fl h1
    have e := h.rel_error hp (fx.grid.sub fl.grid)
    have n : rd (x - low) ≤ -2 ^ emin := h.mono_float' fη.neg (by linarith)
    rw [min_eq_left (by linarith), max_eq_left h1.le]
    refine ⟨e, ⟨fun k => ?_, fun k => ?_⟩, ⟨fun _ => h1, fun _ => by linarith⟩, ⟨fun k => ?_, fun k => ?_⟩⟩
    all_goals linarith
  · have g := gap high x fh fx h2
    have e := h.rel_error hp (fx.grid.sub fh.grid)
    have n : 2 ^ emin ≤ rd (x - high) := h.mono_float fη (by linarith)
    rw [min_eq_right h2.le, max_eq_right hlh]
    refine ⟨e, ⟨fun k => ?_, fun k => ?_⟩, ⟨fun k => ?_, fun k => ?_⟩, ⟨fun _ => h2, fun _ => by linarith⟩⟩
    all_goals linarith
  · have l1 := not_lt.1 h1
    have l2 := not_lt.1 h2
    rw [min_eq_left l2, max_eq_right l1]
    refine ⟨by simp, ⟨fun _ => ⟨l1, l2⟩, fun _ => rfl⟩, ⟨fun k => absurd k (lt_irrefl _), fun k => absurd k h1⟩,
      ⟨fun k => absurd k (lt_irrefl _), fun k => absurd k h2⟩⟩

/-! ### Non-vacuity: binary64, deadband 1 -/
example : ∃ rd : ℝ → ℝ, Nearest 53 (-1074) rd ∧ backlashF rd 1 0 [1 / 4, 2, 1 / 4] = [0, 3 / 2, 3 / 4] ∧
    (∀ y, (backlashF rd 1 0 [1 / 4, 2, 1 / 4])[1]? = some y → |y - 2| ≤ (1 + (2 ^ 53)⁻¹) * ((1 + 2 ^ (-1074 : ℤ)) / 2) + (2 ^ 53)⁻¹ * |2|) := by
  obtain ⟨rd, h⟩ := exists_nearest (K := ℝ) (p := 53) (by norm_num) (-1074)
  have f : ∀ n : ℤ, |n| < 2 ^ 53 → IsFloat 53 (-1074) ((n : ℝ) * 2 ^ (-2 : ℤ)) := fun n hn => ⟨n, -2, hn, by norm_num, rfl⟩
  have f' : ∀ (n : ℤ) (x : ℝ), |n| < 2 ^ 53 → x = n / 4 → IsFloat 53 (-1074) x := fun n x hn hx => by
    have := f n hn; rw [hx]; convert this using 1; norm_num [zpow_neg]; ring
  refine ⟨rd, h, ?_, ?_⟩
  · rw [C94_backlash_exact h 1 0 (by norm_num) (f' 2 _ (by norm_num) (by norm_num))]
    · norm_num [backlash, backlashLoop, backlashStep]
    · intro x hx
      simp only [List.mem_cons, List.not_mem_nil, or_false] at hx
      rcases hx with rfl | rfl | rfl
      · exact ⟨f' (-1) _ (by norm_num) (by norm_num), f' 3 _ (by norm_num) (by norm_num)⟩
      · exact ⟨f' 6 _ (by norm_num) (by norm_num), f' 10 _ (by norm_num) (by norm_num)⟩
      · exact ⟨f' (-1) _ (by norm_num) (by norm_num), f' 3 _ (by norm_num) (by norm_num)⟩
  · intro y hy
    refine C94_backlash_band h (by norm_num) 1 0 (by norm_num) (f' 4 _ (by norm_num) (by norm_num)) isFloat_zero [1 / 4, 2, 1 / 4] ?_ 1 2 y rfl hy
    intro x hx
    simp only [List.mem_cons, List.not_mem_nil, or_false] at hx
    rcases hx with rfl | rfl | rfl
    · exact f' 1 _ (by norm_num) (by norm_num)
    · exact f' 8 _ (by norm_num) (by norm_num)
    · exact f' 1 _ (by norm_num) (by norm_num)

end Ufunclab.Signal
