import Verif.Spec.Erfcx
import Verif.Proof.ErfcxPiece
import Verif.Proof.Float2
import Mathlib.Analysis.Complex.ExponentialBounds
/-! # Rounding errors of `erfcx` -/
namespace Ufunclab.Erfcx
open Real Set Ufunclab.Float

/-- What is used about the arithmetic. -/
structure Ar (u η : ℝ) (rd : ℝ → ℝ) : Prop where
  rnd : ∀ z, |rd z - z| ≤ u * |z| + η
  u0 : 0 ≤ u
  u1 : u ≤ 1 / 2 ^ 24
  η0 : 0 ≤ η
  η1 : η ≤ u / 10 ^ 30

theorem Ar.of_nearest {p : ℕ} {emin : ℤ} {rd : ℝ → ℝ} (h : Nearest p emin rd) (hp : 24 ≤ p) (he : emin ≤ -p - 100) :
    Ar (1 / 2 ^ p) (2 ^ emin / 2) rd := by
  refine ⟨fun z => ?_, by positivity, ?_, by positivity, ?_⟩
  · have := h.error (by omega) z
    rwa [one_div]
  · exact one_div_le_one_div_of_le (by positivity) (pow_le_pow_right₀ (by norm_num) hp)
  · have h1 : (2 : ℝ) ^ emin ≤ 2 ^ (-(p : ℤ) - 100) := zpow_le_zpow_right₀ (by norm_num) he
    have h2 : (2 : ℝ) ^ (-(p : ℤ) - 100) = 1 / 2 ^ p / 2 ^ 100 := by
      rw [sub_eq_add_neg, zpow_add₀ (by norm_num), zpow_neg, zpow_natCast]
      norm_num
      ring
    rw [h2] at h1
    have h3 : (0 : ℝ) < 1 / 2 ^ p := by positivity
    have h4 : (1 : ℝ) / 2 ^ p / 2 ^ 100 ≤ 1 / 2 ^ p / 10 ^ 30 := by
      apply div_le_div_of_nonneg_left h3.le (by norm_num) (by norm_num)
    have h5 : (0 : ℝ) < 2 ^ emin := zpow_pos (by norm_num) _
    linarith

variable {u η : ℝ} {rd : ℝ → ℝ}

theorem aval_nonneg (cs : List (ℤ × ℕ)) : 0 ≤ aval cs := by
  induction cs with
  | nil => exact le_rfl
  | cons c cs ih => rw [aval]; positivity

theorem two_aval_le (cs : List (ℤ × ℕ)) : 2 * aval cs ≤ wval cs := by
  induction cs with
  | nil => simp [aval, wval]
  | cons c cs ih => have := aval_nonneg cs; rw [aval, wval]; linarith

theorem abs_val_le {t : ℝ} (ht : |t| ≤ 1) (cs : List (ℤ × ℕ)) : |val t cs| ≤ aval cs := by
  induction cs with
  | nil => simp [val, aval]
  | cons c cs ih =>
    rw [val, aval]
    refine (abs_add_le _ _).trans (add_le_add le_rfl ?_)
    rw [abs_mul]
    calc |t| * |val t cs| ≤ 1 * |val t cs| := mul_le_mul_of_nonneg_right ht (abs_nonneg _)
      _ ≤ _ := by linarith

theorem horner_err (A : Ar u η rd) {t : ℝ} (ht : |t| ≤ 1) (cs : List (ℤ × ℕ)) (hl : cs.length ≤ 8) :
    |horner rd t cs - val t cs| ≤ (1 + cs.length / 10 ^ 6) * (u * wval cs) + 4 * cs.length * η := by
  induction cs with
  | nil => simp [horner, val, wval]
  | cons c cs ih =>
    have hl' : cs.length ≤ 7 := by simp at hl; omega
    have ih' := ih (by omega)
    obtain ⟨h, hu0, hu, hη, hη'⟩ := A
    have hc0 := abs_nonneg (lit c)
    have hA0 := aval_nonneg cs
    have hAW := two_aval_le cs
    have h2 := h (lit c)
    have hlR : (cs.length : ℝ) ≤ 7 := by exact_mod_cast hl'
    have hn0 : (0 : ℝ) ≤ cs.length := by positivity
    cases cs with
    | nil =>
      simp only [horner, val, wval, aval, List.length_cons, List.length_nil, mul_zero, add_zero, zero_add]
      push_cast
      have : 0 ≤ u * |lit c| := by positivity
      linarith
    | cons c' cs' =>
      have ev : horner rd t (c :: c' :: cs') = rd (rd (lit c) + rd (horner rd t (c' :: cs') * t)) := rfl
      rw [ev, val, wval]
      rw [List.length_cons]
      set cs := c' :: cs'
      push_cast
      set n : ℝ := (cs.length : ℝ) with hn
      set w := horner rd t cs
      set v := val t cs
      set W := wval cs
      set a := aval cs
      set e := (1 + n / 10 ^ 6) * (u * W) + 4 * n * η with he
      have hW0 : 0 ≤ W := by linarith
      have huW : 0 ≤ u * W := by positivity
      have hnη : 0 ≤ n * η := by positivity
      have he0 : 0 ≤ e := by positivity
      have hva : |v| ≤ a := abs_val_le ht cs
      have h1 := h (w * t)
      have h3 := h (rd (lit c) + rd (w * t))
      have hwv : |w * t - v * t| ≤ e := by
        rw [← sub_mul, abs_mul]
        calc |w - v| * |t| ≤ |w - v| * 1 := mul_le_mul_of_nonneg_left ht (abs_nonneg _)
          _ ≤ e := by linarith
      have hvt : |v * t| ≤ a := by
        rw [abs_mul]
        calc |v| * |t| ≤ |v| * 1 := mul_le_mul_of_nonneg_left ht (abs_nonneg _)
          _ ≤ a := by linarith
      have hwt : |w * t| ≤ a + e := by
        calc |w * t| = |(w * t - v * t) + v * t| := by congr 1; ring
          _ ≤ _ := abs_add_le _ _
          _ ≤ _ := by linarith
      have m1 : u * |w * t| ≤ u * (a + e) := mul_le_mul_of_nonneg_left hwt hu0
      set d := e + u * (a + e) + u * |lit c| + 2 * η with hd
      have hs : |(rd (lit c) + rd (w * t)) - (lit c + t * v)| ≤ d := by
        calc |(rd (lit c) + rd (w * t)) - (lit c + t * v)|
            = |(rd (lit c) - lit c) + (rd (w * t) - w * t) + (w * t - v * t)| := by congr 1; ring
          _ ≤ |rd (lit c) - lit c| + |rd (w * t) - w * t| + |w * t - v * t| :=
            (abs_add_le _ _).trans (add_le_add (abs_add_le _ _) le_rfl)
          _ ≤ _ := by linarith
      have hcv : |lit c + t * v| ≤ |lit c| + a := by
        refine (abs_add_le _ _).trans (add_le_add le_rfl ?_)
        rw [mul_comm]; exact hvt
      have hsum : |rd (lit c) + rd (w * t)| ≤ |lit c| + a + d := by
        calc |rd (lit c) + rd (w * t)| = |((rd (lit c) + rd (w * t)) - (lit c + t * v)) + (lit c + t * v)| := by congr 1; ring
          _ ≤ _ := abs_add_le _ _
          _ ≤ _ := by linarith
      have m2 : u * |rd (lit c) + rd (w * t)| ≤ u * (|lit c| + a + d) := mul_le_mul_of_nonneg_left hsum hu0
      have hfin : |rd (rd (lit c) + rd (w * t)) - (lit c + t * v)| ≤ u * (|lit c| + a + d) + η + d := by
        calc |rd (rd (lit c) + rd (w * t)) - (lit c + t * v)|
            = |(rd (rd (lit c) + rd (w * t)) - (rd (lit c) + rd (w * t))) + ((rd (lit c) + rd (w * t)) - (lit c + t * v))| := by congr 1; ring
          _ ≤ _ := abs_add_le _ _
          _ ≤ _ := by linarith
      refine hfin.trans ?_
      -- second-order terms
      have hu' : u ≤ 1 / 10 ^ 7 := hu.trans (by norm_num)
      have hn1 : n / 10 ^ 6 * (u * W) ≤ 7 / 10 ^ 6 * (u * W) := by
        apply mul_le_mul_of_nonneg_right _ huW; linarith
      have hn2 : 4 * n * η ≤ 28 * η := by nlinarith
      have he1 : e ≤ 1.001 * (u * W) + 28 * η := by rw [he]; nlinarith
      have q0 : 0 ≤ a + |lit c| := by linarith
      have q1 : u * e ≤ 1 / 10 ^ 7 * e := mul_le_mul_of_nonneg_right hu' he0
      have q2 : u * d ≤ 1 / 10 ^ 7 * d := mul_le_mul_of_nonneg_right hu' (by positivity)
      have q3 : 0 ≤ u * (a + |lit c|) := by positivity
      have q4 : d = e + u * e + u * (a + |lit c|) + 2 * η := by rw [hd]; ring
      have q5 : u * (|lit c| + a + d) = u * (a + |lit c|) + u * d := by ring
      rw [q5]
      have q6 : (1 + (n + 1) / 10 ^ 6) * (u * (W + 2 * (|lit c| + a))) + 4 * (n + 1) * η
          = e + 1 / 10 ^ 6 * (u * W) + 2 * (1 + (n + 1) / 10 ^ 6) * (u * (a + |lit c|)) + 4 * η := by rw [he]; ring
      rw [q6]
      have q7 : 2 * (u * (a + |lit c|)) + 2 / 10 ^ 6 * (u * (a + |lit c|)) ≤ 2 * (1 + (n + 1) / 10 ^ 6) * (u * (a + |lit c|)) := by
        have : 0 ≤ n / 10 ^ 6 * (u * (a + |lit c|)) := by positivity
        linarith
      linarith

/-! ## `erfcx_y100` -/

theorem onGrid_natCast {p : ℕ} (hp : 24 ≤ p) (k : ℕ) : OnGrid (K := ℝ) (2 - p) (k : ℝ) := by
  refine OnGrid.mono (k := 0) (by omega) ⟨k, by simp⟩

theorem isFloat_natCast {p : ℕ} {emin : ℤ} (hp : 24 ≤ p) (he : emin ≤ -p - 100) {k : ℕ} (hk : k ≤ 400) :
    IsFloat p emin (k : ℝ) := by
  refine ⟨k, 0, ?_, by omega, by simp⟩
  have h1 : (2 : ℤ) ^ 24 ≤ 2 ^ p := pow_le_pow_right₀ (by norm_num) hp
  rw [abs_of_nonneg (by positivity)]
  have : (k : ℤ) ≤ 400 := by exact_mod_cast hk
  linarith

theorem isFloat_two_mul {p : ℕ} {emin : ℤ} {y : ℝ} (h : IsFloat p emin y) : IsFloat p emin (2 * y) := by
  obtain ⟨m, e, hm, he, rfl⟩ := h
  refine ⟨m, e + 1, hm, by omega, ?_⟩
  rw [zpow_add₀ (by norm_num)]; ring

theorem isFloat_arg {p : ℕ} {emin : ℤ} (hp : 24 ≤ p) (he : emin ≤ -p - 100) {y : ℝ} (h : IsFloat p emin y) (hy : 2 ≤ y)
    {k : ℕ} (h1 : |2 * y - (2 * (k : ℝ) + 1)| ≤ 1) : IsFloat p emin (2 * y - (2 * (k : ℝ) + 1)) := by
  have hpow : (2 : ℝ) ^ p * 2 ^ (1 - (p : ℤ)) = 2 := by
    rw [← zpow_natCast, ← zpow_add₀ (by norm_num)]; norm_num
  have hpow2 : (2 : ℝ) ^ p * 2 ^ (2 - (p : ℤ)) = 4 := by
    rw [← zpow_natCast, ← zpow_add₀ (by norm_num)]; norm_num
  have hg : OnGrid (2 - (p : ℤ)) y := by
    have := h.big_grid (k := 1 - (p : ℤ)) (by rw [hpow, abs_of_nonneg (by linarith)]; exact hy)
    rwa [show 1 - (p : ℤ) + 1 = 2 - p by ring] at this
  have hg2 : OnGrid (2 - (p : ℤ)) (2 * y - (2 * (k : ℝ) + 1)) := by
    have e : 2 * y - (2 * (k : ℝ) + 1) = y + y - ((2 * k + 1 : ℕ) : ℝ) := by push_cast; ring
    rw [e]
    exact (hg.add hg).sub (onGrid_natCast hp _)
  refine isFloat_of_grid (by omega) (by omega) hg2 ?_
  rw [hpow2]; linarith

/-- The hypotheses of the error analysis. -/
structure Setup (v : Variant) (p : ℕ) (emin : ℤ) (k₀ B : ℕ) : Prop where
  p0 : 24 ≤ p
  p1 : p ≤ 64
  he : emin ≤ -p - 100
  k0 : 3 ≤ k₀
  pieces : Pieces v k₀ (1.12 / 2 ^ p)
  cfk : k₀ * (4 + v.cfBound) ≤ 400
  cf5 : 5 ≤ v.cfBound
  cfT : 60 / (4 * (v.cfBound : ℝ) ^ 5 + 20 * v.cfBound ^ 3 + 15 * v.cfBound) ^ 2 ≤ 5 / 2 ^ p
  lowB : -(B : ℝ) ≤ lit v.lower
  lowk : k₀ * (4 + B) ≤ 400
  lowsq : (B : ℝ) ^ 2 / 2 ^ p ≤ 1 / 1000

theorem setup_float : Setup floatV 24 (-149) 28 10 where
  p0 := by norm_num
  p1 := by norm_num
  he := by norm_num
  k0 := by norm_num
  pieces := ⟨pieces_float.1, fun k h1 h2 => by
    obtain ⟨cs, hcs, hp⟩ := pieces_float.2 k h1 h2
    exact ⟨cs, hcs, hp.mono (by norm_num)⟩⟩
  cfk := by norm_num [floatV]
  cf5 := by norm_num [floatV]
  cfT := by norm_num [floatV]
  lowB := by norm_num [floatV, lit]
  lowk := by norm_num
  lowsq := by norm_num

theorem setup_double : Setup doubleV 53 (-1074) 7 27 where
  p0 := by norm_num
  p1 := by norm_num
  he := by norm_num
  k0 := by norm_num
  pieces := ⟨pieces_double.1, fun k h1 h2 => by
    obtain ⟨cs, hcs, hp⟩ := pieces_double.2 k h1 h2
    exact ⟨cs, hcs, hp.mono (by norm_num)⟩⟩
  cfk := by norm_num [doubleV]
  cf5 := by norm_num [doubleV]
  cfT := by norm_num [doubleV]
  lowB := by norm_num [doubleV, lit]
  lowk := by norm_num
  lowsq := by norm_num

theorem setup_longDouble : Setup longDoubleV 64 (-16445) 3 107 where
  p0 := by norm_num
  p1 := by norm_num
  he := by norm_num
  k0 := by norm_num
  pieces := pieces_longDouble
  cfk := by norm_num [longDoubleV]
  cf5 := by norm_num [longDoubleV]
  cfT := by norm_num [longDoubleV]
  lowB := by norm_num [longDoubleV, lit]
  lowk := by norm_num
  lowsq := by norm_num

variable {v : Variant} {p : ℕ} {emin : ℤ} {k₀ B : ℕ}

theorem E_lower {x : ℝ} (h0 : 0 ≤ x) (hx : x ≤ 130) : 1 / 1000 ≤ E x := by
  refine le_trans ?_ (E_ge_rat h0)
  have hc : (0.5 : ℝ) ≤ c := by
    have := (abs_le.mp c_bounds).1
    unfold cN at this
    push_cast at this
    linarith
  rw [div_le_div_iff₀ (by norm_num) (by positivity)]
  nlinarith [mul_nonneg h0 (sub_nonneg.mpr hx)]

theorem y100_err (S : Setup v p emin k₀ B) (h : Nearest p emin rd) {y : ℝ} (hy : IsFloat p emin y) (h1 : (k₀ : ℝ) ≤ y) (h2 : y ≤ 100) :
    |y100 rd v y - E (400 / y - 4)| ≤ 4.34 / 2 ^ p * E (400 / y - 4) := by
  have A := Ar.of_nearest h S.p0 S.he
  have hk3 : (3 : ℝ) ≤ k₀ := by exact_mod_cast S.k0
  have hy0 : 0 < y := by linarith
  have hup : (0 : ℝ) < 1 / 2 ^ p := by positivity
  rcases h2.lt_or_eq with hlt | rfl
  · obtain ⟨k, hk⟩ : ∃ k : ℕ, ⌊y⌋.toNat = k := ⟨_, rfl⟩
    have hfl : ((k : ℕ) : ℤ) = ⌊y⌋ := by
      have : 0 ≤ ⌊y⌋ := Int.floor_nonneg.mpr hy0.le
      omega
    have hk1 : (k : ℝ) ≤ y := by
      have := Int.floor_le y
      rw [← hfl] at this
      exact_mod_cast this
    have hk2 : y < k + 1 := by
      have := Int.lt_floor_add_one y
      rw [← hfl] at this
      exact_mod_cast this
    have hkk : k₀ ≤ k := by
      have : ((k₀ : ℤ) : ℝ) ≤ y := by exact_mod_cast h1
      have := Int.le_floor.mpr this
      omega
    have hk99 : k ≤ 99 := by
      have : (k : ℝ) < 100 := lt_of_le_of_lt hk1 hlt
      have : k < 100 := by exact_mod_cast this
      omega
    obtain ⟨cs, hcs, P⟩ := S.pieces.2 k hkk hk99
    obtain ⟨t, ht⟩ : ∃ t, t = 2 * y - (2 * (k : ℝ) + 1) := ⟨_, rfl⟩
    have htI : t ∈ Icc (-1 : ℝ) 1 := by constructor <;> linarith
    have htA : |t| ≤ 1 := abs_le.mpr htI
    have hr1 : rd (2 * y) = 2 * y := h.exact (isFloat_two_mul hy)
    have hr2 : rd t = t := h.exact (by rw [ht]; exact isFloat_arg S.p0 S.he hy (by linarith) (by rw [← ht]; exact htA))
    have ey : y100 rd v y = horner rd t cs := by
      unfold y100
      rw [hk, hcs]
      simp only
      rw [hr1, ← ht, hr2]
    have eG : G k t = E (400 / y - 4) := by
      unfold G
      rw [ht, show 2 * y - (2 * (k : ℝ) + 1) + (2 * k + 1) = 2 * y by ring]
      congr 2
      rw [div_eq_div_iff (by positivity) hy0.ne']; ring
    rw [ey, ← eG]
    have e1 := horner_err A htA cs P.len
    have e2 := P.err t htI
    have e3 := P.weight t htI
    have hG : 1 / 1000 ≤ G k t := by
      rw [eG]
      refine E_lower ?_ ?_
      · rw [sub_nonneg, le_div_iff₀ hy0]; linarith
      · rw [sub_le_iff_le_add, div_le_iff₀ hy0]; linarith
    have hl : (cs.length : ℝ) ≤ 8 := by exact_mod_cast P.len
    have hl0 : (0 : ℝ) ≤ cs.length := by positivity
    have hη := A.η1
    have hη0 := A.η0
    obtain ⟨w, hw⟩ : ∃ w : ℝ, w = 1 / 2 ^ p := ⟨_, rfl⟩
    rw [← hw] at e1 hη hup
    rw [show (1.12 : ℝ) / 2 ^ p = 1.12 * w by rw [hw]; ring] at e2
    rw [show (4.34 : ℝ) / 2 ^ p = 4.34 * w by rw [hw]; ring]
    have hW : 0 ≤ wval cs := by have := two_aval_le cs; have := aval_nonneg cs; linarith
    have e4 : (1 + (cs.length : ℝ) / 10 ^ 6) * (w * wval cs) ≤ (1 + 8 / 10 ^ 6) * (w * (3.21 * G k t)) := by
      apply mul_le_mul _ _ (by positivity) (by positivity)
      · linarith
      · exact mul_le_mul_of_nonneg_left e3 hup.le
    have e5 : 4 * (cs.length : ℝ) * (2 ^ emin / 2) ≤ 32 * (w / 10 ^ 30) := by
      apply mul_le_mul _ hη hη0 (by positivity)
      linarith
    have e6 : w * (1 / 1000) ≤ w * G k t := mul_le_mul_of_nonneg_left hG hup.le
    calc |horner rd t cs - G k t| = |(horner rd t cs - val t cs) + (val t cs - G k t)| := by congr 1; ring
      _ ≤ _ := abs_add_le _ _
      _ ≤ _ := by linarith
  · have e1 : (400 : ℝ) / 100 - 4 = 0 := by norm_num
    have ey : y100 rd v 100 = 1 := by
      unfold y100
      have : ⌊(100 : ℝ)⌋.toNat = 100 := by
        have : ⌊(100 : ℝ)⌋ = 100 := by
          rw [Int.floor_eq_iff]; norm_num
        rw [this]; rfl
      rw [this, List.getElem?_eq_none (by rw [S.pieces.1])]
    rw [e1, ey, E_zero]
    simp
    positivity

/-- The argument of `erfcx_y100`. -/
theorem arg_err (S : Setup v p emin k₀ B) (h : Nearest p emin rd) {x : ℝ} {b : ℕ} (hx : 0 ≤ x) (hb : x ≤ b) (hkb : k₀ * (4 + b) ≤ 400) :
    let y := rd (400 / rd (4 + x))
    IsFloat p emin y ∧ (k₀ : ℝ) ≤ y ∧ y ≤ 100 ∧ |y * (4 + x) / 400 - 1| ≤ 2.01 / 2 ^ p := by
  intro y
  have A := Ar.of_nearest h S.p0 S.he
  have hk3 : 3 ≤ k₀ := S.k0
  have hb400 : 4 + b ≤ 400 := by nlinarith
  have f4 : IsFloat p emin (4 : ℝ) := by have := isFloat_natCast (k := 4) S.p0 S.he (by norm_num); exact_mod_cast this
  have f100 : IsFloat p emin (100 : ℝ) := by have := isFloat_natCast (k := 100) S.p0 S.he (by norm_num); exact_mod_cast this
  have fb : IsFloat p emin ((4 : ℝ) + b) := by have := isFloat_natCast (k := 4 + b) S.p0 S.he hb400; exact_mod_cast this
  have hk400 : k₀ ≤ 400 := by nlinarith
  have fk : IsFloat p emin (k₀ : ℝ) := isFloat_natCast S.p0 S.he hk400
  have hd1 : 4 ≤ rd (4 + x) := h.mono_float f4 (by linarith)
  have hd2 : rd (4 + x) ≤ 4 + b := h.mono_float' fb (by linarith)
  have hd0 : 0 < rd (4 + x) := by linarith
  have hkbR : (k₀ : ℝ) * (4 + b) ≤ 400 := by exact_mod_cast hkb
  have hk0R : (0 : ℝ) ≤ k₀ := by positivity
  have hy1 : (k₀ : ℝ) ≤ y := by
    refine h.mono_float fk ?_
    rw [le_div_iff₀ hd0]
    nlinarith
  have hy2 : y ≤ 100 := by
    refine h.mono_float' f100 ?_
    rw [div_le_iff₀ hd0]; linarith
  refine ⟨(h _).1, hy1, hy2, ?_⟩
  have r1 := A.rnd (4 + x)
  have r2 := A.rnd (400 / rd (4 + x))
  obtain ⟨⟩ := A
  rename_i _ u0 u1 η0 η1
  obtain ⟨w, hw⟩ : ∃ w : ℝ, w = 1 / 2 ^ p := ⟨_, rfl⟩
  obtain ⟨n, hn⟩ : ∃ n : ℝ, n = 2 ^ emin / 2 := ⟨_, rfl⟩
  rw [← hw, ← hn] at r1 r2
  rw [← hw] at u0 u1 η1
  rw [← hn] at η0 η1
  rw [show (2.01 : ℝ) / 2 ^ p = 2.01 * w by rw [hw]; ring]
  obtain ⟨s, hs⟩ : ∃ s, s = 4 + x := ⟨_, rfl⟩
  obtain ⟨D, hD⟩ : ∃ D, D = rd s := ⟨_, rfl⟩
  rw [← hs] at r1 hd1 hd2 hd0 ⊢
  rw [← hs] at r2
  rw [← hD] at r1 r2 hd1 hd2 hd0
  have hy : |y - 400 / D| ≤ w * |400 / D| + n := by
    have : y = rd (400 / D) := by rw [hD, hs]
    rw [this]; exact r2
  have hs4 : 4 ≤ s := by linarith
  rw [abs_of_pos (show 0 < s by linarith)] at r1
  rw [abs_of_pos (show 0 < 400 / D by positivity)] at hy
  have u1' : w ≤ 1 / 10 ^ 7 := u1.trans (by norm_num)
  -- relative errors
  have a1 : |s / D - 1| ≤ 1.001 * w := by
    have e : s / D - 1 = -(D - s) / D := by field_simp; ring
    rw [e, abs_div, abs_neg, abs_of_pos hd0, div_le_iff₀ hd0]
    have : s ≤ D + (w * s + n) := by have := (abs_le.mp r1).1; linarith
    have : n ≤ w * s / 10 ^ 30 := by nlinarith
    nlinarith
  have a2 : |y * D / 400 - 1| ≤ 1.001 * w := by
    have e : y * D / 400 - 1 = (y - 400 / D) * (D / 400) := by field_simp
    rw [e, abs_mul, abs_of_pos (show 0 < D / 400 by positivity)]
    have hD400 : D / 400 ≤ 1 := by
      rw [div_le_one (by norm_num)]
      have : (4 : ℝ) + b ≤ 400 := by exact_mod_cast hb400
      linarith
    calc |y - 400 / D| * (D / 400) ≤ (w * (400 / D) + n) * (D / 400) := mul_le_mul_of_nonneg_right hy (by positivity)
      _ = w + n * (D / 400) := by field_simp
      _ ≤ w + n * 1 := by gcongr
      _ ≤ _ := by nlinarith
  have e : y * s / 400 - 1 = (y * D / 400 - 1) * (s / D - 1) + (y * D / 400 - 1) + (s / D - 1) := by field_simp; ring
  rw [e]
  refine (abs_add_le _ _).trans ?_
  have := abs_add_le ((y * D / 400 - 1) * (s / D - 1)) (y * D / 400 - 1)
  have hm : |(y * D / 400 - 1) * (s / D - 1)| ≤ 1.001 * w * (1.001 * w) := by
    rw [abs_mul]; exact mul_le_mul a2 a1 (abs_nonneg _) (by positivity)
  nlinarith

/-- The effect of a relative change of `4 + x`. -/
theorem E_perturb {x x' θ : ℝ} (hx : 0 ≤ x) (hx' : 0 ≤ x') (h : (4 + x) = (1 + θ) * (4 + x')) (hθ : |θ| ≤ 1 / 10 ^ 6) :
    |E x' - E x| ≤ 6.0001 * |θ| * E x := by
  have hE := E_pos x
  have hE' := E_pos x'
  obtain ⟨t1, t2⟩ := abs_le.mp hθ
  rcases le_total x x' with hle | hle
  · have h1 := E_antitone hx hle
    have h2 := pow_mul_E_mono hx hle
    have hθ0 : θ ≤ 0 := by nlinarith
    rw [abs_of_nonpos (by linarith), abs_of_nonpos hθ0]
    have h3 : (1 + θ) ^ 6 * E x ≤ E x' := by
      rw [h, mul_pow, mul_assoc, mul_comm, mul_assoc] at h2
      have h4 : (0 : ℝ) < (4 + x') ^ 6 := by positivity
      nlinarith
    have h4 : 1 + 6 * θ ≤ (1 + θ) ^ 6 := by
      have := one_add_mul_le_pow (a := θ) (by linarith) 6
      simpa using this
    nlinarith
  · have h1 := E_antitone hx' hle
    have h2 := pow_mul_E_mono hx' hle
    have hθ0 : 0 ≤ θ := by nlinarith
    rw [abs_of_nonneg (by linarith), abs_of_nonneg hθ0]
    have h3 : E x' ≤ (1 + θ) ^ 6 * E x := by
      rw [h, mul_pow] at h2
      have h4 : (0 : ℝ) < (4 + x') ^ 6 := by positivity
      have h5 : (4 + x') ^ 6 * E x' ≤ (4 + x') ^ 6 * ((1 + θ) ^ 6 * E x) := by linarith
      exact le_of_mul_le_mul_left h5 h4
    have h4 : (1 + θ) ^ 6 ≤ 1 + 6.0001 * θ := by
      have p2 : θ ^ 2 ≤ 1 / 10 ^ 6 * θ := by nlinarith
      have p3 : θ ^ 3 ≤ 1 / 10 ^ 6 * θ := by nlinarith
      have p4 : θ ^ 4 ≤ 1 / 10 ^ 6 * θ := by nlinarith
      have p5 : θ ^ 5 ≤ 1 / 10 ^ 6 * θ := by nlinarith
      have p6 : θ ^ 6 ≤ 1 / 10 ^ 6 * θ := by nlinarith
      have e : (1 + θ) ^ 6 = 1 + 6 * θ + 15 * θ ^ 2 + 20 * θ ^ 3 + 15 * θ ^ 4 + 6 * θ ^ 5 + θ ^ 6 := by ring
      rw [e]; linarith
    nlinarith

/-- The piecewise polynomial as a function of `x`. -/
theorem piece_err (S : Setup v p emin k₀ B) (h : Nearest p emin rd) {x : ℝ} {b : ℕ} (hx : 0 ≤ x) (hb : x ≤ b) (hkb : k₀ * (4 + b) ≤ 400) :
    |y100 rd v (rd (400 / rd (4 + x))) - E x| ≤ 16.5 / 2 ^ p * E x := by
  obtain ⟨hf, h1, h2, h3⟩ := arg_err S h hx hb hkb
  obtain ⟨y, hy⟩ : ∃ y, y = rd (400 / rd (4 + x)) := ⟨_, rfl⟩
  rw [← hy] at hf h1 h2 h3 ⊢
  have hk3 : (3 : ℝ) ≤ k₀ := by exact_mod_cast S.k0
  have hy0 : 0 < y := by linarith
  have e1 := y100_err S h hf h1 h2
  have hx' : 0 ≤ 400 / y - 4 := by rw [sub_nonneg, le_div_iff₀ hy0]; linarith
  have hu : (1 : ℝ) / 2 ^ p ≤ 1 / 10 ^ 7 := (one_div_le_one_div_of_le (by positivity) (pow_le_pow_right₀ (by norm_num) S.p0)).trans (by norm_num : (1 : ℝ) / 2 ^ 24 ≤ _)
  have hu0 : (0 : ℝ) < 1 / 2 ^ p := by positivity
  obtain ⟨w, hw⟩ : ∃ w : ℝ, w = 1 / 2 ^ p := ⟨_, rfl⟩
  rw [← hw] at hu hu0
  rw [show (2.01 : ℝ) / 2 ^ p = 2.01 * w by rw [hw]; ring] at h3
  rw [show (4.34 : ℝ) / 2 ^ p = 4.34 * w by rw [hw]; ring] at e1
  rw [show (16.5 : ℝ) / 2 ^ p = 16.5 * w by rw [hw]; ring]
  have e2 := E_perturb (x := x) (x' := 400 / y - 4) (θ := y * (4 + x) / 400 - 1) hx hx' (by field_simp; ring)
    (h3.trans (by linarith))
  have hE := E_pos x
  have hE' := E_pos (400 / y - 4)
  obtain ⟨F, hF⟩ : ∃ F, F = E (400 / y - 4) := ⟨_, rfl⟩
  rw [← hF] at e1 e2 hE'
  have e3 : |F - E x| ≤ 12.07 * w * E x := by
    refine e2.trans (mul_le_mul_of_nonneg_right ?_ hE.le)
    linarith
  have e4 : F ≤ 1.001 * E x := by
    have := (abs_le.mp e3).2
    nlinarith
  have e5 : 4.34 * w * F ≤ 4.34 * w * (1.001 * E x) := mul_le_mul_of_nonneg_left e4 (by positivity)
  calc |y100 rd v y - E x| = |(y100 rd v y - F) + (F - E x)| := by congr 1; ring
    _ ≤ _ := abs_add_le _ _
    _ ≤ _ := by nlinarith

/-! ## The continued fraction -/

theorem cf_step (A : Ar u η rd) {x a d D : ℝ} (hx : 5 ≤ x) (ha : 0 < a) (ha2 : a ≤ 2) (hd : x ≤ d) (hD : |D - d| ≤ 2 * u * d) :
    x ≤ x + a / d ∧ |rd (x + rd (a / D)) - (x + a / d)| ≤ 2 * u * (x + a / d) := by
  obtain ⟨h, hu0, hu, hη, hη'⟩ := A
  have hu' : u ≤ 1 / 10 ^ 7 := hu.trans (by norm_num)
  have hd0 : 0 < d := by linarith
  have had : 0 < a / d := by positivity
  refine ⟨by linarith, ?_⟩
  have hDl : 0.9999 * d ≤ D := by have := (abs_le.mp hD).1; nlinarith
  have hD0 : 0 < D := by nlinarith
  have had1 : a / d ≤ 0.4 := by rw [div_le_iff₀ hd0]; linarith
  have e1 : |a / D - a / d| ≤ 2.001 * u * (a / d) := by
    have e : a / D - a / d = (a / d) * (-(D - d) / D) := by field_simp; ring
    rw [e, abs_mul, abs_of_pos had, mul_comm]
    refine mul_le_mul_of_nonneg_right ?_ had.le
    rw [abs_div, abs_neg, abs_of_pos hD0, div_le_iff₀ hD0]
    nlinarith [mul_nonneg hu0 hd0.le]
  have e2 := h (a / D)
  have hq : a / D ≤ 0.41 := by have := (abs_le.mp e1).2; nlinarith
  have hq0 : 0 < a / D := by positivity
  rw [abs_of_pos hq0] at e2
  have hua : u * (a / d) ≤ u * 0.4 := mul_le_mul_of_nonneg_left had1 hu0
  have huq : u * (a / D) ≤ u * 0.41 := mul_le_mul_of_nonneg_left hq hu0
  have e3 : |rd (a / D) - a / d| ≤ 1.22 * u := by
    calc |rd (a / D) - a / d| = |(rd (a / D) - a / D) + (a / D - a / d)| := by congr 1; ring
      _ ≤ _ := abs_add_le _ _
      _ ≤ _ := by linarith
  have e4 := h (x + rd (a / D))
  have e5 : |x + rd (a / D)| ≤ x + a / d + 1.22 * u := by
    have := (abs_le.mp e3)
    rw [abs_of_pos (by nlinarith)]
    linarith
  have e6 : u * |x + rd (a / D)| ≤ u * (x + a / d + 1.22 * u) := mul_le_mul_of_nonneg_left e5 hu0
  have e7 : u * (1.22 * u) ≤ u * 0.01 := mul_le_mul_of_nonneg_left (by linarith) hu0
  have e8 : u * 5 ≤ u * (x + a / d) := mul_le_mul_of_nonneg_left (by linarith) hu0
  calc |rd (x + rd (a / D)) - (x + a / d)| = |(rd (x + rd (a / D)) - (x + rd (a / D))) + (rd (a / D) - a / d)| := by congr 1; ring
    _ ≤ _ := abs_add_le _ _
    _ ≤ _ := by linarith

theorem cf_eq {x : ℝ} (hx : 0 < x) : cf x = c / (x + (1 / 2) / (x + 1 / (x + (3 / 2) / (x + 2 / x)))) := by
  have h1 : x + 2 / x = (x ^ 2 + 2) / x := by field_simp
  have h2 : x + (3 / 2) / (x + 2 / x) = (2 * x ^ 3 + 7 * x) / (2 * (x ^ 2 + 2)) := by rw [h1]; field_simp; ring
  have h3 : x + 1 / (x + (3 / 2) / (x + 2 / x)) = (2 * x ^ 4 + 9 * x ^ 2 + 4) / (2 * x ^ 3 + 7 * x) := by
    rw [h2, one_div_div, eq_div_iff (by positivity), add_mul, div_mul_cancel₀ _ (by positivity)]; ring
  have h4 : x + (1 / 2) / (x + 1 / (x + (3 / 2) / (x + 2 / x))) = (4 * x ^ 5 + 20 * x ^ 3 + 15 * x) / (2 * (2 * x ^ 4 + 9 * x ^ 2 + 4)) := by
    have hne : 2 * (2 * x ^ 4 + 9 * x ^ 2 + 4) ≠ 0 := by positivity
    rw [h3, div_div_eq_mul_div, eq_div_iff hne, add_mul]
    have : 1 / 2 * (2 * x ^ 3 + 7 * x) / (2 * x ^ 4 + 9 * x ^ 2 + 4) * (2 * (2 * x ^ 4 + 9 * x ^ 2 + 4)) = 2 * x ^ 3 + 7 * x := by
      field_simp
    rw [this]; ring
  rw [h4, div_div_eq_mul_div, cf]
  congr 1; ring

theorem ispi_err : |lit ispi - c| ≤ 1.1 / 10 ^ 21 := by
  have h := c_bounds
  rw [abs_sub_comm] at h
  have e : |lit ispi - cN / 10 ^ 30| ≤ 1 / 10 ^ 29 := by
    unfold lit ispi cN
    rw [abs_le]; constructor <;> norm_num
  calc |lit ispi - c| = |(lit ispi - cN / 10 ^ 30) + (cN / 10 ^ 30 - c)| := by congr 1; ring
    _ ≤ _ := abs_add_le _ _
    _ ≤ _ := by linarith

theorem contFrac_err (A : Ar u η rd) (hu64 : 1 / 2 ^ 64 ≤ u) {x : ℝ} (hx : 5 ≤ x) :
    |contFrac rd x - cf x| ≤ 4.2 * u * cf x + η := by
  have hx0 : 0 < x := by linarith
  obtain ⟨d4, s4⟩ := cf_step A (a := 2) (d := x) (D := x) hx (by norm_num) (by norm_num) le_rfl
    (by rw [sub_self, abs_zero]; have := A.u0; positivity)
  obtain ⟨d3, s3⟩ := cf_step A (a := 3 / 2) hx (by norm_num) (by norm_num) d4 s4
  obtain ⟨d2, s2⟩ := cf_step A (a := 1) hx (by norm_num) (by norm_num) d3 s3
  obtain ⟨d1, s1⟩ := cf_step A (a := 1 / 2) hx (by norm_num) (by norm_num) d2 s2
  rw [cf_eq hx0]
  unfold contFrac
  obtain ⟨d, hd⟩ : ∃ d, d = x + (1 / 2) / (x + 1 / (x + (3 / 2) / (x + 2 / x))) := ⟨_, rfl⟩
  rw [← hd] at s1 d1 ⊢
  obtain ⟨D, hD⟩ : ∃ D, D = rd (x + rd ((1 / 2) / rd (x + rd (1 / rd (x + rd ((3 / 2) / rd (x + rd (2 / x)))))))) := ⟨_, rfl⟩
  rw [← hD] at s1 ⊢
  have hi := ispi_err
  obtain ⟨h, hu0, hu, hη, hη'⟩ := A
  have hu' : u ≤ 1 / 10 ^ 7 := hu.trans (by norm_num)
  have hc : (0.564 : ℝ) ≤ c ∧ c ≤ 0.565 := by
    have := abs_le.mp c_bounds
    unfold cN at this
    push_cast at this
    constructor <;> linarith [this.1, this.2]
  obtain ⟨hc1, hc2⟩ := hc
  have hd0 : 0 < d := by linarith
  have hDl : 0.9999 * d ≤ D := by have := (abs_le.mp s1).1; nlinarith
  have hD0 : 0 < D := by nlinarith
  have i1 := h (lit ispi)
  obtain ⟨I, hI⟩ : ∃ I, I = rd (lit ispi) := ⟨_, rfl⟩
  rw [← hI] at i1 ⊢
  have hlit : |lit ispi| ≤ c + 1.1 / 10 ^ 21 := by
    rw [abs_of_nonneg (by have := (abs_le.mp hi).1; linarith)]
    have := (abs_le.mp hi).2; linarith
  have i2 : |I - c| ≤ 1.05 * u * c := by
    have m1 : u * |lit ispi| ≤ u * (c + 1.1 / 10 ^ 21) := mul_le_mul_of_nonneg_left hlit hu0
    have m2 : (1 : ℝ) / 2 ^ 64 * c ≤ u * c := mul_le_mul_of_nonneg_right hu64 (by linarith)
    have m3 : (1.1 : ℝ) / 10 ^ 21 ≤ 0.04 * (1 / 2 ^ 64 * c) := by
      have : (1.1 : ℝ) / 10 ^ 21 ≤ 0.04 * (1 / 2 ^ 64 * 0.564) := by norm_num
      nlinarith
    calc |I - c| = |(I - lit ispi) + (lit ispi - c)| := by congr 1; ring
      _ ≤ _ := abs_add_le _ _
      _ ≤ _ := by nlinarith
  have hcd : 0 < c / d := by positivity
  have q1 : |I / D - c / d| ≤ 3.1 * u * (c / d) := by
    have e : I / D - c / d = (c / d) * (((I - c) / c * d - (D - d)) / D) := by
      have : c ≠ 0 := by linarith
      field_simp; ring
    rw [e, abs_mul, abs_of_pos hcd, mul_comm]
    refine mul_le_mul_of_nonneg_right ?_ hcd.le
    rw [abs_div, abs_of_pos hD0, div_le_iff₀ hD0]
    have h1 : |(I - c) / c * d| ≤ 1.05 * u * d := by
      rw [abs_mul, abs_div, abs_of_pos (show 0 < c by linarith), abs_of_pos hd0]
      refine mul_le_mul_of_nonneg_right ?_ hd0.le
      rw [div_le_iff₀ (by linarith)]; exact i2
    have h2 := abs_sub ((I - c) / c * d) (D - d)
    nlinarith [mul_nonneg hu0 hd0.le]
  have q2 := h (I / D)
  have q3 : |I / D| ≤ (1 + 3.1 * u) * (c / d) := by
    calc |I / D| = |(I / D - c / d) + c / d| := by congr 1; ring
      _ ≤ |I / D - c / d| + |c / d| := abs_add_le _ _
      _ ≤ _ := by rw [abs_of_pos hcd]; linarith
  have q4 : u * |I / D| ≤ u * ((1 + 3.1 * u) * (c / d)) := mul_le_mul_of_nonneg_left q3 hu0
  have q5 : u * (3.1 * u) ≤ u * 0.01 := mul_le_mul_of_nonneg_left (by linarith) hu0
  have q6 := mul_le_mul_of_nonneg_right q5 hcd.le
  calc |rd (I / D) - c / d| = |(rd (I / D) - I / D) + (I / D - c / d)| := by congr 1; ring
    _ ≤ _ := abs_add_le _ _
    _ ≤ _ := by nlinarith

/-! ## `erfcx` -/

theorem pos_err (S : Setup v p emin k₀ B) (h : Nearest p emin rd) (ex : ℝ → ℝ) {x : ℝ} (hx : 0 < x) :
    ∃ r, finite rd ex v x = .fin r ∧ |r - E x| ≤ 17 / 2 ^ p * E x + 2 ^ emin / 2 := by
  have A := Ar.of_nearest h S.p0 S.he
  have hE := E_pos x
  have hu0 : (0 : ℝ) < 1 / 2 ^ p := by positivity
  have hη0 := A.η0
  unfold finite
  rw [if_pos hx]
  split
  · rename_i hcf
    refine ⟨_, rfl, ?_⟩
    have h5 : (5 : ℝ) ≤ v.cfBound := by exact_mod_cast S.cf5
    have hu64 : (1 : ℝ) / 2 ^ 64 ≤ 1 / 2 ^ p := one_div_le_one_div_of_le (by positivity) (pow_le_pow_right₀ (by norm_num) S.p1)
    have e1 := contFrac_err A hu64 (x := x) (by linarith)
    have e2 := E_le_cf hx
    have e3 := cf_le hx
    have hu' : (1 : ℝ) / 2 ^ p ≤ 1 / 10 ^ 7 := A.u1.trans (by norm_num)
    have e4 : 60 / (4 * x ^ 5 + 20 * x ^ 3 + 15 * x) ^ 2 ≤ 5 / 2 ^ p := by
      refine le_trans ?_ S.cfT
      have : (0 : ℝ) < v.cfBound := by linarith
      gcongr
    obtain ⟨w, hw⟩ : ∃ w : ℝ, w = 1 / 2 ^ p := ⟨_, rfl⟩
    rw [← hw] at e1 hu0 hu'
    rw [show (5 : ℝ) / 2 ^ p = 5 * w by rw [hw]; ring] at e4
    rw [show (17 : ℝ) / 2 ^ p = 17 * w by rw [hw]; ring]
    have e5 : cf x ≤ (1 + 5 * w) * E x := e3.trans (mul_le_mul_of_nonneg_right (by linarith) hE.le)
    have e6 : cf x ≤ 1.01 * E x := by nlinarith
    have e7 : 4.2 * w * cf x ≤ 4.2 * w * (1.01 * E x) := mul_le_mul_of_nonneg_left e6 (by positivity)
    have e8 : |cf x - E x| ≤ 5 * w * E x := by rw [abs_of_nonneg (by linarith)]; linarith
    have e9 : 0 < w * E x := by positivity
    calc |contFrac rd x - E x| = |(contFrac rd x - cf x) + (cf x - E x)| := by congr 1; ring
      _ ≤ _ := abs_add_le _ _
      _ ≤ _ := by linarith
  · rename_i hcf
    refine ⟨_, rfl, ?_⟩
    have e1 := piece_err S h hx.le (b := v.cfBound) (by linarith) S.cfk
    have : (16.5 : ℝ) / 2 ^ p * E x ≤ 17 / 2 ^ p * E x := by gcongr; norm_num
    linarith

set_option maxHeartbeats 2000000 in
theorem neg_err (S : Setup v p emin k₀ B) (h : Nearest p emin rd) {ex : ℝ → ℝ} {ε : ℝ} (hex : ExpAcc ε ex)
    (hε0 : 0 ≤ ε) (hε : ε ≤ 1 / 1000) {x : ℝ} (hx : x ≤ 0) (hlow : rd (lit v.lower) ≤ x) :
    ∃ r, finite rd ex v x = .fin r ∧
      |r - E x| ≤ (2.01 * x ^ 2 / 2 ^ p + 2.01 * ε + 20 / 2 ^ p) * E x := by
  have A := Ar.of_nearest h S.p0 S.he
  unfold finite
  rw [if_neg (not_lt.mpr hx), if_neg (not_lt.mpr hlow)]
  refine ⟨_, rfl, ?_⟩
  have hB400 : B ≤ 400 := by have := S.lowk; have := S.k0; nlinarith
  have hB : -x ≤ B := by
    have := h.mono_float (isFloat_natCast S.p0 S.he hB400).neg S.lowB
    linarith
  have hsq : x ^ 2 / 2 ^ p ≤ 1 / 1000 := by
    refine le_trans ?_ S.lowsq
    have : x ^ 2 ≤ (B : ℝ) ^ 2 := by nlinarith
    gcongr
  have e1 := piece_err S h (x := -x) (by linarith) hB S.lowk
  rw [show 4 + -x = 4 - x by ring] at e1
  have hsum := E_neg x
  have hE := E_pos x
  have hE' := E_pos (-x)
  have hu0 : (0 : ℝ) < 1 / 2 ^ p := by positivity
  have hu' : (1 : ℝ) / 2 ^ p ≤ 1 / 10 ^ 7 := A.u1.trans (by norm_num)
  have hη' := A.η1
  have hη := A.η0
  have hle : E (-x) ≤ 1 ∧ 1 ≤ E x := by
    have h1 := E_antitone le_rfl (by linarith : (0 : ℝ) ≤ -x)
    rw [E_zero] at h1
    have h2 : 1 ≤ exp (x ^ 2) := one_le_exp (sq_nonneg x)
    exact ⟨h1, by linarith⟩
  have r1 := A.rnd (x * x)
  have r2 := A.rnd (2 * ex (rd (x * x)))
  obtain ⟨Y, hY⟩ : ∃ Y, Y = y100 rd v (rd (400 / rd (4 - x))) := ⟨_, rfl⟩
  rw [← hY] at e1 ⊢
  have r3 := A.rnd (rd (2 * ex (rd (x * x))) - Y)
  obtain ⟨w, hw⟩ : ∃ w : ℝ, w = 1 / 2 ^ p := ⟨_, rfl⟩
  rw [show (16.5 : ℝ) / 2 ^ p = 16.5 * w by rw [hw]; ring] at e1
  rw [show (20 : ℝ) / 2 ^ p = 20 * w by rw [hw]; ring, show 2.01 * x ^ 2 / 2 ^ p = 2.01 * x ^ 2 * w by rw [hw]; ring]
  rw [show x ^ 2 / 2 ^ p = x ^ 2 * w by rw [hw]; ring] at hsq
  rw [← hw] at r1 r2 r3 hu0 hu' hη'
  obtain ⟨n, hn⟩ : ∃ n : ℝ, n = 2 ^ emin / 2 := ⟨_, rfl⟩
  rw [← hn] at r1 r2 r3 hη hη'
  have exx : |x * x| = x ^ 2 := by rw [abs_of_nonneg (mul_self_nonneg x)]; ring
  rw [exx] at r1
  -- the exponential
  obtain ⟨z, hz⟩ : ∃ z, z = rd (x * x) := ⟨_, rfl⟩
  rw [← hz] at r1 r2 r3 ⊢
  obtain ⟨δ, hδ⟩ : ∃ δ, δ = z - x * x := ⟨_, rfl⟩
  have hδb : |δ| ≤ w * x ^ 2 + n := by rw [hδ]; exact r1
  have hn7 : n ≤ w / 10 ^ 30 := hη'
  have hδ1 : |δ| ≤ 0.0011 := by linarith
  obtain ⟨X, hX⟩ : ∃ X, X = exp (x ^ 2) := ⟨_, rfl⟩
  have hX0 : 0 < X := by rw [hX]; exact exp_pos _
  rw [← hX] at hsum
  have ez : exp z = X * exp δ := by rw [hX, ← exp_add, hδ]; congr 1; ring
  have hexpδ : |exp δ - 1| ≤ 1.0012 * |δ| := by
    have h1 := abs_exp_sub_one_sub_id_le (x := δ) (by linarith)
    have h2 : |exp δ - 1| ≤ |exp δ - 1 - δ| + |δ| := by
      calc |exp δ - 1| = |(exp δ - 1 - δ) + δ| := by congr 1; ring
        _ ≤ _ := abs_add_le _ _
    have h3 : δ ^ 2 ≤ 0.0011 * |δ| := by rw [← sq_abs]; nlinarith [abs_nonneg δ]
    have h4 := abs_nonneg δ
    linarith
  have g1 : |exp z - X| ≤ 1.0012 * |δ| * X := by
    rw [ez, show X * exp δ - X = (exp δ - 1) * X by ring, abs_mul, abs_of_pos hX0]
    exact mul_le_mul_of_nonneg_right hexpδ hX0.le
  have hδ' : 1.0012 * |δ| ≤ 0.0012 := by linarith
  have g2 : exp z ≤ 1.0012 * X := by
    have := (abs_le.mp g1).2
    nlinarith
  have g3 := hex z
  have g4 : |ex z - X| ≤ 1.0012 * ε * X + 1.0012 * |δ| * X := by
    have : ε * exp z ≤ ε * (1.0012 * X) := mul_le_mul_of_nonneg_left g2 hε0
    calc |ex z - X| = |(ex z - exp z) + (exp z - X)| := by congr 1; ring
      _ ≤ _ := abs_add_le _ _
      _ ≤ _ := by linarith
  have g5 : |ex z| ≤ 1.003 * X := by
    have hk : (1.0012 * ε + 1.0012 * |δ|) * X ≤ 0.003 * X := mul_le_mul_of_nonneg_right (by linarith) hX0.le
    have : |ex z| ≤ |ex z - X| + |X| := by
      calc |ex z| = |(ex z - X) + X| := by congr 1; ring
        _ ≤ _ := abs_add_le _ _
    rw [abs_of_pos hX0] at this
    linarith
  have g6 : |2 * ex z| ≤ 2.006 * X := by rw [abs_mul, abs_of_pos (by norm_num : (0:ℝ) < 2)]; linarith
  have g7 : w * |2 * ex z| ≤ w * (2.006 * X) := mul_le_mul_of_nonneg_left g6 hu0.le
  -- the first term
  obtain ⟨P, hP⟩ : ∃ P, P = rd (2 * ex z) := ⟨_, rfl⟩
  rw [← hP] at r2 r3 ⊢
  have g8 : |P - 2 * X| ≤ 2.006 * w * X + n + 2.0024 * ε * X + 2.0024 * |δ| * X := by
    calc |P - 2 * X| = |(P - 2 * ex z) + 2 * (ex z - X)| := by congr 1; ring
      _ ≤ |P - 2 * ex z| + |2 * (ex z - X)| := abs_add_le _ _
      _ ≤ _ := by rw [abs_mul 2, abs_of_pos (by norm_num : (0:ℝ) < 2)]; linarith
  have hXE : 2 * X = E x + E (-x) := by linarith
  have g9 : |P - Y - E x| ≤ 2.006 * w * X + n + 2.0024 * ε * X + 2.0024 * |δ| * X + 16.5 * w * E (-x) := by
    calc |P - Y - E x| = |(P - 2 * X) - (Y - E (-x))| := by congr 1; linarith
      _ ≤ _ := abs_sub _ _
      _ ≤ _ := by linarith
  have hXle : X ≤ E x := by linarith [hle.1, hle.2]
  obtain ⟨F, hF⟩ : ∃ F, F = E x := ⟨_, rfl⟩
  rw [← hF] at hle hXle hE g9 ⊢
  obtain ⟨hle1, hle2⟩ := hle
  have k1 : w * X ≤ w * F := mul_le_mul_of_nonneg_left hXle hu0.le
  have k2 : ε * X ≤ ε * F := mul_le_mul_of_nonneg_left hXle hε0
  have k3 : |δ| * X ≤ (w * x ^ 2 + n) * F := mul_le_mul hδb hXle hX0.le (by positivity)
  have k4 : w * E (-x) ≤ w * F := mul_le_mul_of_nonneg_left (by linarith) hu0.le
  have k5 : n ≤ n * F := le_mul_of_one_le_right hη hle2
  have k6 : n * F ≤ w / 10 ^ 30 * F := mul_le_mul_of_nonneg_right hη' hE.le
  have k7 : 0 ≤ w * F := by positivity
  have k8 : 0 ≤ w * x ^ 2 * F := by positivity
  have k9 : 0 ≤ ε * F := by positivity
  have l1 : |P - Y - F| ≤ 18.51 * (w * F) + 2.0024 * (ε * F) + 2.0024 * (w * x ^ 2 * F) := by
    refine g9.trans ?_
    linarith
  have l2 : |P - Y - F| ≤ 0.01 * F := by
    refine l1.trans ?_
    have m1 : w * F ≤ 1 / 10 ^ 7 * F := mul_le_mul_of_nonneg_right hu' hE.le
    have m2 : ε * F ≤ 1 / 1000 * F := mul_le_mul_of_nonneg_right hε hE.le
    have m3 : w * x ^ 2 * F ≤ 1 / 1000 * F := mul_le_mul_of_nonneg_right (by linarith) hE.le
    linarith
  have l3 : |P - Y| ≤ 1.01 * F := by
    have : |P - Y| ≤ |P - Y - F| + |F| := by
      calc |P - Y| = |(P - Y - F) + F| := by congr 1; ring
        _ ≤ _ := abs_add_le _ _
    rw [abs_of_pos hE] at this
    linarith
  have l4 : w * |P - Y| ≤ w * (1.01 * F) := mul_le_mul_of_nonneg_left l3 hu0.le
  calc |rd (P - Y) - F| = |(rd (P - Y) - (P - Y)) + (P - Y - F)| := by congr 1; ring
    _ ≤ _ := abs_add_le _ _
    _ ≤ _ := by linarith

end Ufunclab.Erfcx
