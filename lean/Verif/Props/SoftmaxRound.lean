import Verif.Proof.SoftmaxRound
import Verif.Props.Softmax
import Mathlib.Analysis.Complex.ExponentialBounds
/-!
# Property C80: softmax in floating point

`p` and `emin` describe the format, `rd` is any rounding to nearest of it; `exp` is the library's
exponential, of which only what is stated is assumed.
-/
namespace Ufunclab.Softmax
open Ufunclab.Float
variable {p : ℕ} {emin : ℤ} {rd exp : ℝ → ℝ}

/-- What is assumed of `std::exp` for arguments that are not positive: its values are floats, it is
not negative, it is monotone, and `exp(0) = 1`. -/
structure ExpOK (p : ℕ) (emin : ℤ) (exp : ℝ → ℝ) : Prop where
  float : ∀ z, z ≤ 0 → IsFloat p emin (exp z)
  nonneg : ∀ z, z ≤ 0 → 0 ≤ exp z
  mono : ∀ y z, y ≤ z → z ≤ 0 → exp y ≤ exp z
  zero : exp 0 = 1

/-- C80: without rounding the rounded model is the model of C35. -/
theorem C80_exact_arithmetic (x : List (XF ℝ)) : softmaxR (rnd id) Real.exp x = softmax Real.exp x := by
  have h : ∀ v : XF ℝ, rnd id v = v := fun v => by cases v <;> rfl
  simp only [softmaxR, softmax, h]

theorem term_ok (h : Nearest p emin rd) (hx : ExpOK p emin exp) {M : ℝ} {x : List (XF ℝ)} (hM : ∀ a, .fin a ∈ x → a ≤ M) :
    ∀ v ∈ x, IsFloat p emin (term rd exp M v) ∧ 0 ≤ term rd exp M v := by
  intro v hv
  cases v with
  | fin a =>
    have h0 : rd (a - M) ≤ 0 := h.mono_float' isFloat_zero (by linarith [hM a hv])
    exact ⟨hx.float _ h0, hx.nonneg _ h0⟩
  | nan => exact ⟨isFloat_zero, le_rfl⟩
  | pinf => exact ⟨isFloat_zero, le_rfl⟩
  | ninf => exact ⟨isFloat_zero, le_rfl⟩

theorem term_max (h : Nearest p emin rd) (hx : ExpOK p emin exp) (M : ℝ) : term rd exp M (.fin M) = 1 := by
  simp only [term, sub_self, h.round_zero, hx.zero]

/-- The shape of the result: the terms over their rounded sum, which is at least one and at least each term. -/
theorem shape (h : Nearest p emin rd) (hx : ExpOK p emin exp) (x : List (XF ℝ)) (hv : ∀ v ∈ x, XF.isnan v = false ∧ v ≠ .pinf)
    (hf : ∃ v ∈ x, XF.isfinite v = true) :
    ∃ (M E : ℝ), .fin M ∈ x ∧ (∀ a, .fin a ∈ x → a ≤ M) ∧ E = fsum rd (x.map (term rd exp M)) ∧ 1 ≤ E ∧
      (∀ v ∈ x, term rd exp M v ≤ E) ∧ softmaxR (rnd rd) exp x = (x.map (fun v => rd (term rd exp M v / E))).map .fin := by
  obtain ⟨M, h1, h2, h3⟩ := softmaxR_formula (rd := rd) (exp := exp) x hv hf
  have hok := term_ok h hx h2
  obtain ⟨-, i2, -⟩ := le_fold h (x.map (term rd exp M)) 0 isFloat_zero le_rfl (by
    intro v hv; obtain ⟨w, hw, rfl⟩ := List.mem_map.1 hv; exact hok w hw)
  have hle : ∀ v ∈ x, term rd exp M v ≤ fsum rd (x.map (term rd exp M)) := fun v hv => i2 _ (List.mem_map_of_mem hv)
  have h1E : 1 ≤ fsum rd (x.map (term rd exp M)) := by
    have := hle _ h1
    rwa [term_max h hx] at this
  refine ⟨M, _, h1, h2, rfl, h1E, hle, ?_⟩
  rw [h3, List.map_map]
  apply List.map_congr_left
  intro v hv
  rw [XF.div_fin _ _ (by linarith)]
  rfl

/-- C80: without NaN and `+inf` and with at least one finite element, every output is a number in
`[0, 1]`, larger inputs have outputs at least as large, and `-inf` gives `0`. -/
theorem C80_range (h : Nearest p emin rd) (hp : 1 ≤ p) (he : emin ≤ 0) (hx : ExpOK p emin exp) (x : List (XF ℝ))
    (hv : ∀ v ∈ x, XF.isnan v = false ∧ v ≠ .pinf) (hf : ∃ v ∈ x, XF.isfinite v = true) :
    ∃ y : List ℝ, softmaxR (rnd rd) exp x = y.map .fin ∧ y.length = x.length ∧ (∀ v ∈ y, 0 ≤ v ∧ v ≤ 1) ∧
      (∀ i j (hi : i < y.length) (hj : j < y.length) (hi' : i < x.length) (hj' : j < x.length),
        XF.lt x[j] x[i] = false → y[i] ≤ y[j]) ∧
      (∀ i (hi : i < y.length) (hi' : i < x.length), x[i] = .ninf → y[i] = 0) := by
  obtain ⟨M, E, h1, h2, -, h1E, hle, hy⟩ := shape h hx x hv hf
  have hok := term_ok h hx h2
  have f1 : IsFloat p emin (1 : ℝ) := isFloat_one hp he
  refine ⟨_, hy, by simp, ?_, ?_, ?_⟩
  · intro v hvm
    obtain ⟨w, hw, rfl⟩ := List.mem_map.1 hvm
    exact ⟨h.mono_float isFloat_zero (div_nonneg (hok w hw).2 (by linarith)),
      h.mono_float' f1 (by rw [div_le_one (by linarith)]; exact hle w hw)⟩
  · intro i j hi hj hi' hj' hlt
    simp only [List.getElem_map]
    apply h.monotone
    apply div_le_div_of_nonneg_right _ (by linarith)
    have hmi : x[i] ∈ x := List.getElem_mem hi'
    have hmj : x[j] ∈ x := List.getElem_mem hj'
    have hoj := hok _ hmj
    have hvi := hv _ hmi
    have hvj := hv _ hmj
    generalize x[i] = a at *
    generalize x[j] = b at *
    cases a with
    | nan => simp [XF.isnan] at hvi
    | pinf => simp at hvi
    | ninf => exact hoj.2
    | fin a =>
      cases b with
      | nan => simp [XF.isnan] at hvj
      | pinf => simp at hvj
      | ninf => simp [XF.lt] at hlt
      | fin b =>
        have hab : a ≤ b := by simpa using hlt
        exact hx.mono _ _ (h.monotone (by linarith)) (h.mono_float' isFloat_zero (by linarith [h2 b hmj]))
  · intro i hi hi' hxi
    simp only [List.getElem_map, hxi, term, zero_div, h.round_zero]

theorem sum_div (l : List ℝ) (E : ℝ) : (l.map (fun a => a / E)).sum = l.sum / E := by
  induction l with
  | nil => simp
  | cons a l ih => simp only [List.map_cons, List.sum_cons, ih]; ring

/-- The rounded quotients add up to the exact ones. -/
theorem sum_rounded (h : Nearest p emin rd) (hp : 1 ≤ p) (l : List ℝ) (hl : ∀ v ∈ l, 0 ≤ v) :
    |(l.map rd).sum - l.sum| ≤ (2 ^ p)⁻¹ * l.sum + l.length * (2 ^ emin / 2) := by
  induction l with
  | nil => simp
  | cons a l ih =>
    have ha := h.error hp a
    rw [abs_of_nonneg (hl a (by simp))] at ha
    have := ih (fun v hv => hl v (by simp [hv]))
    simp only [List.map_cons, List.sum_cons, List.length_cons]
    calc |rd a + (l.map rd).sum - (a + l.sum)| = |(rd a - a) + ((l.map rd).sum - l.sum)| := by congr 1; ring
      _ ≤ _ := abs_add_le _ _
      _ ≤ _ := add_le_add ha this
      _ = _ := by push_cast; ring

/-- C80: the outputs add up to 1 within `1.04 (n + 1)` units of roundoff (and underflow). -/
theorem C80_sum (h : Nearest p emin rd) (hp : 1 ≤ p) (hx : ExpOK p emin exp) (x : List (XF ℝ))
    (hv : ∀ v ∈ x, XF.isnan v = false ∧ v ≠ .pinf) (hf : ∃ v ∈ x, XF.isfinite v = true) (hn : 100 * (x.length : ℝ) ≤ 2 ^ p) :
    ∃ y : List ℝ, softmaxR (rnd rd) exp x = y.map .fin ∧
      |y.sum - 1| ≤ 1.04 * ((x.length : ℝ) + 1) * (2 ^ p)⁻¹ + x.length * (2 ^ emin / 2) := by
  obtain ⟨M, E, h1, h2, hE, h1E, hle, hy⟩ := shape h hx x hv hf
  have hok := term_ok h hx h2
  refine ⟨_, hy, ?_⟩
  have hnu : (x.length : ℝ) * (2 ^ p)⁻¹ ≤ 1 / 100 := by
    rw [← div_eq_mul_inv, div_le_iff₀ (by positivity)]; linarith
  set l := x.map (term rd exp M) with hl
  have hlen : l.length = x.length := by simp [hl]
  have hlok : ∀ v ∈ l, IsFloat p emin v ∧ 0 ≤ v := by
    intro v hv; obtain ⟨w, hw, rfl⟩ := List.mem_map.1 hv; exact hok w hw
  have e1 := fsum_error h hp l hlok (by rw [hlen]; exact hnu)
  rw [← hE, hlen] at e1
  have e2 := sum_rounded h hp (l.map (fun a => a / E)) (by
    intro v hv; obtain ⟨w, hw, rfl⟩ := List.mem_map.1 hv; exact div_nonneg (hlok w hw).2 (by linarith))
  rw [List.map_map, sum_div, List.length_map, hlen] at e2
  have hmm : x.map (fun v => rd (term rd exp M v / E)) = l.map (rd ∘ fun a => a / E) := by
    rw [hl, List.map_map]; rfl
  rw [hmm]
  have hs0 : 0 ≤ l.sum := List.sum_nonneg (fun v hv => (hlok v hv).2)
  have hEp : 0 < E := by linarith
  set q := l.sum / E with hq
  have hqE : l.sum = q * E := by rw [hq, div_mul_cancel₀ _ hEp.ne']
  set c := 1.02 * (x.length : ℝ) * (2 ^ p)⁻¹ with hc
  have hc0 : 0 ≤ c := by positivity
  have hc1 : c ≤ 0.0102 := by
    rw [hc, mul_assoc]
    calc 1.02 * ((x.length : ℝ) * (2 ^ p)⁻¹) ≤ 1.02 * (1 / 100) := mul_le_mul_of_nonneg_left hnu (by norm_num)
      _ = _ := by norm_num
  have hu0 : (0 : ℝ) < (2 ^ p)⁻¹ := by positivity
  rw [hqE] at e1
  have e3 : |1 - q| ≤ c * q := by
    have : |E - q * E| = |1 - q| * E := by
      rw [show E - q * E = (1 - q) * E by ring, abs_mul, abs_of_pos hEp]
    rw [this, ← mul_assoc] at e1
    exact le_of_mul_le_mul_right e1 hEp
  have hq0 : 0 ≤ q := by positivity
  have e4 := abs_le.1 e3
  have hq1 : q ≤ 1.0104 := by
    have : c * q ≤ 0.0102 * q := mul_le_mul_of_nonneg_right hc1 hq0
    norm_num at *
    linarith
  have f1 : c * q ≤ c * 1.0104 := mul_le_mul_of_nonneg_left hq1 hc0
  have f2 : (2 ^ p)⁻¹ * q ≤ (2 ^ p)⁻¹ * 1.0104 := mul_le_mul_of_nonneg_left hq1 hu0.le
  calc |(l.map (rd ∘ fun a => a / E)).sum - 1| = |((l.map (rd ∘ fun a => a / E)).sum - q) - (1 - q)| := by congr 1; ring
    _ ≤ _ := abs_sub _ _
    _ ≤ ((2 ^ p)⁻¹ * q + x.length * (2 ^ emin / 2)) + c * q := add_le_add e2 e3
    _ ≤ _ := by
      have : 0 ≤ (x.length : ℝ) * (2 ^ p)⁻¹ := by positivity
      rw [hc] at f1 ⊢
      clear_value q
      clear hn
      generalize ((2 : ℝ) ^ p)⁻¹ = u at *
      generalize (2 : ℝ) ^ emin = η at *
      generalize (x.length : ℝ) = n at *
      have f3 : 1.02 * n * u * 1.0104 ≤ 1.04 * (n * u) := by norm_num; linarith
      have f4 : 1.04 * (n + 1) * u = 1.04 * (n * u) + 1.04 * u := by ring
      have f5 : u * 1.0104 ≤ 1.04 * u := by norm_num; linarith
      linarith

/-- `t exp(-t)` is at most `1/e`. -/
theorem exp_diff {u d d' : ℝ} (hu0 : 0 ≤ u) (hu : u ≤ 1 / 1000) (hd : d ≤ 0) (hd' : |d' - d| ≤ u * |d|) : |Real.exp d' - Real.exp d| ≤ 0.4 * u := by
  rw [abs_of_nonpos hd] at hd'
  set s := -d * (1 - u) with hs
  have hs0 : 0 ≤ s := mul_nonneg (by linarith) (by linarith)
  have hb := abs_le.1 hd'
  have m1 : Real.exp d ≤ Real.exp (-s) := Real.exp_le_exp.2 (by rw [hs]; nlinarith)
  have m2 : Real.exp d' ≤ Real.exp (-s) := Real.exp_le_exp.2 (by rw [hs]; nlinarith)
  have key : |Real.exp d' - Real.exp d| ≤ |d' - d| * Real.exp (-s) := by
    rcases le_total d d' with c | c
    · rw [abs_of_nonneg (by linarith [Real.exp_le_exp.2 c]), abs_of_nonneg (by linarith)]
      have h1 : Real.exp d = Real.exp d' * Real.exp (d - d') := by rw [← Real.exp_add]; congr 1; ring
      have h2 := Real.add_one_le_exp (d - d')
      have h3 : Real.exp d' * (d - d' + 1) ≤ Real.exp d := by rw [h1]; exact mul_le_mul_of_nonneg_left h2 (Real.exp_pos _).le
      have h4 : (d' - d) * Real.exp d' ≤ (d' - d) * Real.exp (-s) := mul_le_mul_of_nonneg_left m2 (by linarith)
      linarith
    · rw [abs_of_nonpos (by linarith [Real.exp_le_exp.2 c]), abs_of_nonpos (by linarith)]
      have h1 : Real.exp d' = Real.exp d * Real.exp (d' - d) := by rw [← Real.exp_add]; congr 1; ring
      have h2 := Real.add_one_le_exp (d' - d)
      have h3 : Real.exp d * (d' - d + 1) ≤ Real.exp d' := by rw [h1]; exact mul_le_mul_of_nonneg_left h2 (Real.exp_pos _).le
      have h4 : (d - d') * Real.exp d ≤ (d - d') * Real.exp (-s) := mul_le_mul_of_nonneg_left m1 (by linarith)
      linarith
  -- s exp(-s) ≤ 1/e
  have h5 : s * Real.exp (-s) ≤ Real.exp (-1) := by
    have h1 := Real.add_one_le_exp (s - 1)
    have h2 : Real.exp (-1) = Real.exp (s - 1) * Real.exp (-s) := by rw [← Real.exp_add]; congr 1; ring
    rw [h2]; exact mul_le_mul_of_nonneg_right (by linarith) (Real.exp_pos _).le
  have h6 : Real.exp (-1) ≤ 0.37 := by
    rw [Real.exp_neg, inv_le_comm₀ (Real.exp_pos _) (by norm_num)]
    have := Real.exp_one_gt_d9
    norm_num at *; linarith
  have h7 : |d' - d| * Real.exp (-s) * (1 - u) ≤ u * 0.37 := by
    calc |d' - d| * Real.exp (-s) * (1 - u) ≤ u * -d * Real.exp (-s) * (1 - u) :=
          mul_le_mul_of_nonneg_right (mul_le_mul_of_nonneg_right hd' (Real.exp_pos _).le) (by linarith)
      _ = u * (s * Real.exp (-s)) := by rw [hs]; ring
      _ ≤ _ := mul_le_mul_of_nonneg_left (h5.trans h6) hu0
  have h8 : 0 ≤ |d' - d| * Real.exp (-s) := by positivity
  have h9 : u * (|d' - d| * Real.exp (-s)) ≤ 1 / 1000 * (|d' - d| * Real.exp (-s)) := mul_le_mul_of_nonneg_right hu h8
  refine key.trans ?_
  norm_num at *
  linarith

theorem sum_close (x : List (XF ℝ)) (f g : XF ℝ → ℝ) (ε b : ℝ) (h : ∀ v ∈ x, |f v - g v| ≤ ε * g v + b) :
    |(x.map f).sum - (x.map g).sum| ≤ ε * (x.map g).sum + x.length * b := by
  induction x with
  | nil => simp
  | cons a l ih =>
    have ha := h a (by simp)
    have := ih (fun v hv => h v (by simp [hv]))
    simp only [List.map_cons, List.sum_cons, List.length_cons]
    calc |f a + (l.map f).sum - (g a + (l.map g).sum)| = |(f a - g a) + ((l.map f).sum - (l.map g).sum)| := by congr 1; ring
      _ ≤ _ := abs_add_le _ _
      _ ≤ _ := add_le_add ha this
      _ = _ := by push_cast; ring

/-- C80: each output is the exact softmax within `1.5 (n + 1)` units of roundoff and 2.1 times the
relative error `ε` of the library's exponential. -/
theorem C80_accuracy (h : Nearest p emin rd) (hp : 10 ≤ p) (he : emin ≤ -2 * p) (hx : ExpOK p emin exp) (ε : ℝ) (hε0 : 0 ≤ ε)
    (hε : ε ≤ 1 / 100) (hacc : ∀ z, z ≤ 0 → |exp z - Real.exp z| ≤ ε * Real.exp z + 2 ^ emin) (x : List ℝ) (hne : x ≠ [])
    (hfl : ∀ v ∈ x, IsFloat p emin v) (hn : 100 * (x.length : ℝ) ≤ 2 ^ p) :
    ∃ y : List ℝ, softmaxR (rnd rd) exp (x.map .fin) = y.map .fin ∧ y.length = x.length ∧
      ∀ i (hi : i < y.length) (hi' : i < x.length),
        |y[i] - Real.exp x[i] / (x.map Real.exp).sum| ≤ 2.1 * ε + 1.5 * ((x.length : ℝ) + 1) * (2 ^ p)⁻¹ := by
  have hfin : ∃ v ∈ x.map XF.fin, XF.isfinite v = true := by
    obtain ⟨a, l, rfl⟩ := List.exists_cons_of_ne_nil hne
    exact ⟨.fin a, by simp, rfl⟩
  obtain ⟨M, E, h1, h2, hE, h1E, hle, hy⟩ := shape h hx (x.map .fin) (by simp) hfin
  have hok := term_ok h hx h2
  have hMx : M ∈ x := by simpa using h1
  have hxM : ∀ a ∈ x, a ≤ M := fun a ha => h2 a (by simpa using ha)
  refine ⟨_, hy, by simp, ?_⟩
  intro i hi hi'
  simp only [List.getElem_map]
  have hu0 : (0 : ℝ) < (2 ^ p)⁻¹ := by positivity
  have hu := Ufunclab.Mad.unit_le_thousandth (K := ℝ) hp
  have hη : (2 : ℝ) ^ emin ≤ 1 / 1000 * (2 ^ p)⁻¹ := by
    have := eta_le (emin := emin) he
    have h3 : (2 ^ p : ℝ)⁻¹ * (2 ^ p)⁻¹ ≤ 1 / 1000 * (2 ^ p)⁻¹ := mul_le_mul_of_nonneg_right hu hu0.le
    linarith
  have hη0 : (0 : ℝ) < 2 ^ emin := by positivity
  have hnu : (x.length : ℝ) * (2 ^ p)⁻¹ ≤ 1 / 100 := by
    rw [← div_eq_mul_inv, div_le_iff₀ (by positivity)]; linarith
  have hn1 : (1 : ℝ) ≤ x.length := by exact_mod_cast List.length_pos_iff.2 hne
  have herr := h.error (by omega) (term rd exp M (.fin x[i]) / E)
  -- the exact terms
  set t : XF ℝ → ℝ := fun v => match v with | .fin a => Real.exp (a - M) | _ => 0 with ht
  have hterm : ∀ v ∈ x.map XF.fin, |term rd exp M v - t v| ≤ ε * t v + 0.41 * (2 ^ p)⁻¹ := by
    intro v hv
    obtain ⟨a, ha, rfl⟩ := List.mem_map.1 hv
    have hd0 : a - M ≤ 0 := by linarith [hxM a ha]
    have hd := h.rel_error (by omega) ((hfl a ha).grid.sub (hfl M hMx).grid)
    have e1 := exp_diff hu0.le hu hd0 hd
    have e2 := hacc (rd (a - M)) (h.mono_float' isFloat_zero hd0)
    simp only [term, ht]
    have e3 := (abs_le.1 e1).2
    have e4 : ε * Real.exp (rd (a - M)) ≤ ε * (Real.exp (a - M) + 0.4 * (2 ^ p)⁻¹) := mul_le_mul_of_nonneg_left (by linarith) hε0
    have e5 : ε * (2 ^ p)⁻¹ ≤ 1 / 100 * (2 ^ p)⁻¹ := mul_le_mul_of_nonneg_right hε hu0.le
    calc |exp (rd (a - M)) - Real.exp (a - M)| = |(exp (rd (a - M)) - Real.exp (rd (a - M))) + (Real.exp (rd (a - M)) - Real.exp (a - M))| := by congr 1; ring
      _ ≤ _ := abs_add_le _ _
      _ ≤ ε * (Real.exp (a - M) + 0.4 * (2 ^ p)⁻¹) + 2 ^ emin + 0.4 * (2 ^ p)⁻¹ := by linarith
      _ ≤ _ := by
        have : ε * (0.4 * (2 ^ p)⁻¹) = 0.4 * (ε * (2 ^ p)⁻¹) := by ring
        rw [mul_add, this]
        generalize ((2 : ℝ) ^ p)⁻¹ = u at *
        norm_num at *
        linarith
  have hclose := sum_close (x.map XF.fin) (term rd exp M) t ε (0.41 * (2 ^ p)⁻¹) hterm
  rw [List.length_map] at hclose
  have hlok : ∀ v ∈ (x.map XF.fin).map (term rd exp M), IsFloat p emin v ∧ 0 ≤ v := by
    intro v hv; obtain ⟨w, hw, rfl⟩ := List.mem_map.1 hv; exact hok w hw
  have e1 := fsum_error h (by omega) _ hlok (by simpa using hnu)
  rw [← hE] at e1
  simp only [List.length_map] at e1
  set Z := ((x.map XF.fin).map t).sum with hZ
  set S := ((x.map XF.fin).map (term rd exp M)).sum with hS
  have htm : t (.fin M) = 1 := by simp [ht]
  have ht0 : ∀ v, 0 ≤ t v := by
    intro v; cases v <;> simp [ht, Real.exp_nonneg]
  have hZ1 : 1 ≤ Z := by
    rw [← htm, hZ]
    exact List.single_le_sum (by intro y hy; obtain ⟨w, _, rfl⟩ := List.mem_map.1 hy; exact ht0 w) _ (List.mem_map_of_mem h1)
  -- the exact softmax
  have hZe : Z = (x.map Real.exp).sum * Real.exp (-M) := by
    rw [hZ, List.map_map]
    clear_value Z
    have : ∀ l : List ℝ, (l.map (t ∘ XF.fin)).sum = (l.map Real.exp).sum * Real.exp (-M) := by
      intro l
      induction l with
      | nil => simp
      | cons a l ih =>
        have e : (t ∘ XF.fin) a = Real.exp a * Real.exp (-M) := by
          show Real.exp (a - M) = _
          rw [sub_eq_add_neg, Real.exp_add]
        rw [List.map_cons, List.sum_cons, ih, e, List.map_cons, List.sum_cons, add_mul]
    exact this x
  have hti : t (.fin x[i]) = Real.exp x[i] * Real.exp (-M) := by
    simp only [ht]; rw [sub_eq_add_neg, Real.exp_add]
  have hexact : Real.exp x[i] / (x.map Real.exp).sum = t (.fin x[i]) / Z := by
    rw [hti, hZe, mul_div_mul_right _ _ (Real.exp_pos _).ne']
  rw [hexact]
  have hmem : XF.fin x[i] ∈ x.map XF.fin := List.mem_map_of_mem (List.getElem_mem hi')
  have hti1 := hterm _ hmem
  have hei := hle _ hmem
  have hei0 := (hok _ hmem).2
  have htZ : t (.fin x[i]) ≤ Z := by
    rw [hZ]
    exact List.single_le_sum (by intro y hy; obtain ⟨w, _, rfl⟩ := List.mem_map.1 hy; exact ht0 w) _ (List.mem_map_of_mem hmem)
  have ht0i := ht0 (.fin x[i])
  generalize term rd exp M (.fin x[i]) = e at *
  generalize t (.fin x[i]) = τ at *
  clear_value Z S
  generalize hnn : (x.length : ℝ) = n at *
  generalize (2 : ℝ) ^ emin = η at *
  generalize ((2 : ℝ) ^ p)⁻¹ = u at *
  have hnu0 : 0 ≤ n * u := by positivity
  have hSb := abs_le.1 hclose
  have hεZ : ε * Z ≤ 1 / 100 * Z := mul_le_mul_of_nonneg_right hε (by linarith)
  have hnuZ : n * u ≤ n * u * Z := le_mul_of_one_le_right hnu0 hZ1
  have hnuZ2 : n * u * Z ≤ 1 / 100 * Z := mul_le_mul_of_nonneg_right hnu (by linarith)
  have hS1 : S ≤ 1.0142 * Z := by norm_num at *; linarith [hSb.2]
  have hEZ : |E - Z| ≤ (ε + 1.45 * (n * u)) * Z := by
    have f1 : 1.02 * n * u * S ≤ 1.02 * n * u * (1.0142 * Z) := mul_le_mul_of_nonneg_left hS1 (by positivity)
    calc |E - Z| = |(E - S) + (S - Z)| := by congr 1; ring
      _ ≤ _ := abs_add_le _ _
      _ ≤ 1.02 * n * u * (1.0142 * Z) + (ε * Z + n * (0.41 * u)) := by linarith
      _ ≤ _ := by norm_num at *; linarith
  have hEb := abs_le.1 hEZ
  have hE0 : 0.975 * Z ≤ E := by norm_num at *; linarith [hEb.1]
  have hEp : 0 < E := by linarith
  have hZp : 0 < Z := by linarith
  set q := τ / Z with hq
  have hq0 : 0 ≤ q := div_nonneg ht0i hZp.le
  have hq1 : q ≤ 1 := by rw [hq, div_le_one hZp]; exact htZ
  have hτ : τ = q * Z := by rw [hq, div_mul_cancel₀ _ hZp.ne']
  have g1 : |e / E - q| ≤ 2.06 * ε + 1.49 * (n * u) + 0.43 * u := by
    have e1 : e / E - q = ((e - τ) - q * (E - Z)) / E := by rw [hτ]; field_simp; ring
    rw [e1, abs_div, abs_of_pos hEp, div_le_iff₀ hEp]
    have k1 : |q * (E - Z)| ≤ 1 * ((ε + 1.45 * (n * u)) * Z) := by
      rw [abs_mul, abs_of_nonneg hq0]
      exact mul_le_mul hq1 hEZ (abs_nonneg _) (by norm_num)
    have k2 : ε * τ ≤ ε * Z := mul_le_mul_of_nonneg_left htZ hε0
    refine ((abs_sub _ _).trans (add_le_add hti1 k1)).trans ?_
    refine le_trans ?_ (mul_le_mul_of_nonneg_left hE0 (by positivity))
    have k3 : u ≤ u * Z := le_mul_of_one_le_right hu0.le hZ1
    have k4 : 0 ≤ ε * Z := by positivity
    norm_num at *
    linarith
  have g2 : |e / E| ≤ 1 := by
    rw [abs_of_nonneg (div_nonneg hei0 hEp.le), div_le_one hEp]; exact hei
  have g3 := mul_le_mul_of_nonneg_left g2 hu0.le
  calc |rd (e / E) - q| = |(rd (e / E) - e / E) + (e / E - q)| := by congr 1; ring
    _ ≤ _ := abs_add_le _ _
    _ ≤ u * 1 + η / 2 + (2.06 * ε + 1.49 * (n * u) + 0.43 * u) := by linarith
    _ ≤ _ := by norm_num at *; linarith

/-- C80: NaN, infinities and all `-inf` are treated as by C35: the branches do no arithmetic. -/
theorem C80_special (rd exp : ℝ → ℝ) (x : List (XF ℝ))
    (h : (∃ v ∈ x, XF.isnan v = true) ∨ .pinf ∈ x ∨ (x ≠ [] ∧ ∀ v ∈ x, v = .ninf)) : softmaxR (rnd rd) exp x = softmax Real.exp x := by
  simp only [softmaxR, softmax]
  set s := scan 0 0 0 (.fin 0) x with hs
  by_cases hc : (s.hasNan || decide (s.nposinf > 1) || XF.eq s.xmax .ninf) = true
  · rw [if_pos hc, if_pos hc]
  rw [if_neg hc, if_neg hc]
  by_cases h1 : s.nposinf = 1
  · rw [if_pos h1, if_pos h1]
  exfalso
  simp only [Bool.or_eq_true, decide_eq_true_eq, not_or] at hc
  obtain ⟨⟨c1, c2⟩, c3⟩ := hc
  have hnan : ∀ v ∈ x, XF.isnan v = false := by
    rw [hs, scan_hasNan] at c1
    simpa using c1
  rcases h with ⟨v, hv, hvn⟩ | hpi | ⟨hne, hall⟩
  · rw [hnan v hv] at hvn; exact Bool.noConfusion hvn
  · rw [hs, scan_nposinf 0 0 0 _ x hnan] at c2 h1
    have : 0 < x.countP isPosInf := List.countP_pos_iff.2 ⟨_, hpi, (isPosInf_iff _).2 rfl⟩
    omega
  · have := (scan_max0 x hne hnan).1
    rw [← hs] at this
    rw [hall _ this] at c3
    exact c3 rfl

/-- The hypotheses on `exp` are those of a correctly rounded exponential, with `ε = u`. -/
theorem expOK_rounded (h : Nearest p emin rd) (hp : 1 ≤ p) (he : emin ≤ 0) :
    ExpOK p emin (fun z => rd (Real.exp z)) ∧
      ∀ z, z ≤ 0 → |rd (Real.exp z) - Real.exp z| ≤ (2 ^ p)⁻¹ * Real.exp z + 2 ^ emin := by
  refine ⟨⟨fun z _ => (h _).1, fun z _ => h.mono_float isFloat_zero (Real.exp_nonneg z),
    fun y z hyz _ => h.monotone (Real.exp_le_exp.2 hyz), ?_⟩, ?_⟩
  · show rd (Real.exp 0) = 1
    rw [Real.exp_zero]; exact h.exact (isFloat_one hp he)
  · intro z _
    have h1 := h.error hp (Real.exp z)
    rw [abs_of_pos (Real.exp_pos z)] at h1
    have : (0 : ℝ) < 2 ^ emin := by positivity
    linarith

/-- Non-vacuity: three doubles and `-inf`, with a correctly rounded exponential. -/
example : ∃ rd : ℝ → ℝ, Nearest 53 (-1074) rd ∧ ExpOK 53 (-1074) (fun z => rd (Real.exp z)) ∧
    (∀ v ∈ ([.fin 1, .ninf, .fin (-2), .fin 3] : List (XF ℝ)), XF.isnan v = false ∧ v ≠ .pinf) ∧
    (∃ v ∈ ([.fin 1, .ninf, .fin (-2), .fin 3] : List (XF ℝ)), XF.isfinite v = true) ∧
    (∀ v ∈ ([1, -2, 3] : List ℝ), IsFloat 53 (-1074) v) ∧
    100 * ((([1, -2, 3] : List ℝ).length : ℕ) : ℝ) ≤ 2 ^ 53 ∧ ((2 : ℝ) ^ 53)⁻¹ ≤ 1 / 100 := by
  obtain ⟨rd, h⟩ := exists_nearest (K := ℝ) (p := 53) (by norm_num) (-1074)
  refine ⟨rd, h, (expOK_rounded h (by norm_num) (by norm_num)).1, by simp [XF.isnan], ⟨.fin 1, by simp, rfl⟩, ?_, by norm_num, by norm_num⟩
  have f1 : IsFloat 53 (-1074) (1 : ℝ) := isFloat_one (by norm_num) (by norm_num)
  have f3 : IsFloat 53 (-1074) (3 : ℝ) := by simpa using Mad.isFloat_nat (K := ℝ) (p := 53) (emin := -1074) (by norm_num) (by norm_num) (n := 3) (by norm_num)
  simp only [List.mem_cons, List.not_mem_nil, or_false, forall_eq_or_imp, forall_eq]
  refine ⟨f1, ?_, f3⟩
  have := (f1.two_mul).neg
  simpa using this

end Ufunclab.Softmax
