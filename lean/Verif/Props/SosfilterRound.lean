import Verif.Proof.Magnitude
import Verif.Proof.MadRound
import Verif.Props.Sosfilter
/-!
# C96: sosfilter in floating point

The model of `Model/Sosfilter` used at `Fl rd`, where `rd` rounds to a nearest value of a binary format
(`Nearest p emin rd`, any rule for ties).  `u = 2^-p`.
-/
namespace Ufunclab.Sosfilter
open Ufunclab.Float
variable {p : ℕ} {emin : ℤ} {rd : ℝ → ℝ} {c : ℝ}

/-- The same row of coefficients in another arithmetic. -/
def Section.map {α β : Type _} (f : α → β) (s : Section α) : Section β := ⟨f s.b0, f s.b1, f s.b2, f s.a0, f s.a1, f s.a2⟩
def State.map {α β : Type _} (f : α → β) (z : State α) : State β := ⟨f z.z0, f z.z1⟩

/-- The magnitude of a number. -/
def mag (c : ℝ) (x : ℝ) : Mag c := ⟨|x|⟩

/-- States that are related component by component. -/
def RelState (p : ℕ) (emin : ℤ) (n : ℕ) (a : State (Fl rd)) (b : State ℝ) (m : State (Mag c)) : Prop :=
  Rel p emin n a.z0 b.z0 m.z0 ∧ Rel p emin n a.z1 b.z1 m.z1

theorem out_rel (h : Nearest p emin rd) (hp : 1 ≤ p) (hc : 2 ^ emin / 2 ≤ (2 ^ p)⁻¹ * c) (s : Section ℝ) {n : ℕ} {zf : State (Fl rd)}
    {z : State ℝ} {zm : State (Mag c)} {xf : Fl rd} {x : ℝ} {xm : Mag c} (hz : RelState p emin n zf z zm) (hx : Rel p emin n xf x xm) :
    Rel p emin (n + 2) (secOut (s.map Fl.mk) zf xf) (secOut s z x) (secOut (s.map (mag c)) zm xm) :=
  Rel.add h hp (Rel.mul h hp hc s.b0 hx) (hz.1.mono (by omega))

theorem state_rel (h : Nearest p emin rd) (hp : 1 ≤ p) (hc : 2 ^ emin / 2 ≤ (2 ^ p)⁻¹ * c) (s : Section ℝ) {n : ℕ} {zf : State (Fl rd)}
    {z : State ℝ} {zm : State (Mag c)} {xf : Fl rd} {x : ℝ} {xm : Mag c} (hz : RelState p emin n zf z zm) (hx : Rel p emin n xf x xm) :
    RelState p emin (n + 4) (secState (s.map Fl.mk) zf xf) (secState s z x) (secState (s.map (mag c)) zm xm) := by
  have ho := out_rel h hp hc s hz hx
  constructor
  · exact Rel.sub h hp (Rel.mono (by omega) (Rel.add h hp (hz.2.mono (by omega)) (Rel.mul h hp hc s.b1 hx)))
      (Rel.mul h hp hc s.a1 ho)
  · exact Rel.sub h hp (Rel.mono (by omega) (Rel.mul h hp hc s.b2 hx)) (Rel.mul h hp hc s.a2 ho)

/-- Three lists of states, related one by one. -/
inductive RelStates (p : ℕ) (emin : ℤ) (n : ℕ) : List (State (Fl rd)) → List (State ℝ) → List (State (Mag c)) → Prop
  | nil : RelStates p emin n [] [] []
  | cons {a b m as bs ms} : RelState p emin n a b m → RelStates p emin n as bs ms → RelStates p emin n (a :: as) (b :: bs) (m :: ms)

theorem RelStates.mono {n n' : ℕ} (hn : n ≤ n') {zf : List (State (Fl rd))} {z : List (State ℝ)} {zm : List (State (Mag c))}
    (h : RelStates p emin n zf z zm) : RelStates p emin n' zf z zm := by
  induction h with
  | nil => exact .nil
  | cons h _ ih => exact .cons ⟨h.1.mono hn, h.2.mono hn⟩ ih

theorem sample_rel (h : Nearest p emin rd) (hp : 1 ≤ p) (hc : 2 ^ emin / 2 ≤ (2 ^ p)⁻¹ * c) (ss : List (Section ℝ)) : ∀ {n : ℕ}
    {zf : List (State (Fl rd))} {z : List (State ℝ)} {zm : List (State (Mag c))} {xf : Fl rd} {x : ℝ} {xm : Mag c},
    z.length = ss.length → RelStates p emin n zf z zm → Rel p emin n xf x xm →
    Rel p emin (n + 2 * ss.length) (sampleStep (ss.map (Section.map Fl.mk)) zf xf).1 (sampleStep ss z x).1
        (sampleStep (ss.map (Section.map (mag c))) zm xm).1 ∧
    RelStates p emin (n + 2 * ss.length + 2) (sampleStep (ss.map (Section.map Fl.mk)) zf xf).2 (sampleStep ss z x).2
        (sampleStep (ss.map (Section.map (mag c))) zm xm).2 ∧ (sampleStep ss z x).2.length = ss.length := by
  induction ss with
  | nil =>
    intro n zf z zm xf x xm hl hz hx
    exact ⟨by simpa [sampleStep] using hx, by simpa [sampleStep] using .nil, by simp [sampleStep]⟩
  | cons s ss ih =>
    intro n zf z zm xf x xm hl hz hx
    cases hz with
    | nil => simp at hl
    | cons h1 h2 =>
      have ho := out_rel h hp hc s h1 hx
      obtain ⟨i1, i2, i3⟩ := ih (by simpa using hl) (h2.mono (by omega : n ≤ n + 2)) ho
      simp only [List.map_cons, sampleStep, List.length_cons]
      refine ⟨i1.mono (by omega), .cons ?_ (i2.mono (by omega)), by rw [i3]⟩
      have := state_rel h hp hc s h1 hx
      exact ⟨this.1.mono (by omega), this.2.mono (by omega)⟩

theorem filter_rel (h : Nearest p emin rd) (hp : 1 ≤ p) (hc : 2 ^ emin / 2 ≤ (2 ^ p)⁻¹ * c) (ss : List (Section ℝ)) (xs : List ℝ) :
    ∀ {n : ℕ} {zf : List (State (Fl rd))} {z : List (State ℝ)} {zm : List (State (Mag c))}, (∀ x ∈ xs, IsFloat p emin x) →
    z.length = ss.length → RelStates p emin n zf z zm → ∀ (i : ℕ) (yf : Fl rd) (y : ℝ) (ym : Mag c),
    (filter (ss.map (Section.map Fl.mk)) zf (xs.map Fl.mk)).1[i]? = some yf → (filter ss z xs).1[i]? = some y →
    (filter (ss.map (Section.map (mag c))) zm (xs.map (mag c))).1[i]? = some ym →
    Rel p emin (n + (2 * ss.length + 2) * i + 2 * ss.length) yf y ym := by
  induction xs with
  | nil => intro n zf z zm _ _ _ i yf y ym h1; simp [filter] at h1
  | cons x xs ih =>
    intro n zf z zm fx hl hz i yf y ym h1 h2 h3
    obtain ⟨s1, s2, s3⟩ := sample_rel h hp hc ss hl hz (Rel.exact x (fx x (by simp)) n)
    simp only [List.map_cons, filter] at h1 h2 h3
    cases i with
    | zero =>
      simp only [List.getElem?_cons_zero, Option.some.injEq] at h1 h2 h3
      rw [← h1, ← h2, ← h3]; exact s1
    | succ i =>
      simp only [List.getElem?_cons_succ] at h1 h2 h3
      have := ih (fun v hv => fx v (by simp [hv])) s3 s2 i yf y ym h1 h2 h3
      refine this.mono (le_of_eq ?_)
      ring

/-- C96: the computed output `i` of a filter with `m` sections differs from the exact one by at most
`(2m+2)(i+1)` roundings relative to the output of the filter run on magnitudes (the absolute values of
the input, the coefficients and the states, with all subtractions turned into additions and
`2^(p+emin-1)` added to each product on account of underflow). -/
theorem C96_sosfilter_accuracy (h : Nearest p emin rd) (hp : 1 ≤ p) (ss : List (Section ℝ)) (zi : List (State ℝ)) (hl : zi.length = ss.length)
    (fz : ∀ z ∈ zi, IsFloat p emin z.z0 ∧ IsFloat p emin z.z1) (xs : List ℝ) (fx : ∀ x ∈ xs, IsFloat p emin x) (i : ℕ) (hi : i < xs.length) :
    let c : ℝ := 2 ^ p * (2 ^ emin / 2)
    ∃ (yf : Fl rd) (y : ℝ) (ym : Mag c), (filter (ss.map (Section.map Fl.mk)) (zi.map (State.map Fl.mk)) (xs.map Fl.mk)).1[i]? = some yf ∧
      (filter ss zi xs).1[i]? = some y ∧ (filter (ss.map (Section.map (mag c))) (zi.map (State.map (mag c))) (xs.map (mag c))).1[i]? = some ym ∧
      |y| ≤ ym.val ∧ |yf.val - y| ≤ ((1 + (2 ^ p)⁻¹) ^ ((2 * ss.length + 2) * (i + 1)) - 1) * ym.val := by
  intro c
  have hz : RelStates p emin 0 (zi.map (State.map (Fl.mk (rd := rd)))) zi (zi.map (State.map (mag c))) := by
    clear hl
    induction zi with
    | nil => exact .nil
    | cons z zi ih =>
      have f := fz z (by simp)
      exact .cons ⟨Rel.exact _ f.1 0, Rel.exact _ f.2 0⟩ (ih (fun v hv => fz v (by simp [hv])))
  have l1 : i < (filter (ss.map (Section.map (Fl.mk (rd := rd)))) (zi.map (State.map Fl.mk)) (xs.map Fl.mk)).1.length := by
    rw [filter_length]; simpa using hi
  have l2 : i < (filter ss zi xs).1.length := by rw [filter_length]; exact hi
  have l3 : i < (filter (ss.map (Section.map (mag c))) (zi.map (State.map (mag c))) (xs.map (mag c))).1.length := by
    rw [filter_length]; simpa using hi
  have e1 := List.getElem?_eq_getElem l1
  have e2 := List.getElem?_eq_getElem l2
  have e3 := List.getElem?_eq_getElem l3
  refine ⟨_, _, _, e1, e2, e3, ?_⟩
  have := filter_rel h hp (under p emin) ss xs fx hl hz i _ _ _ e1 e2 e3
  exact ⟨this.le, (this.mono (by ring_nf; omega)).error⟩

/-- C96, the same with a linear factor while the number of roundings is small against `2^p`. -/
theorem C96_sosfilter_accuracy_linear (h : Nearest p emin rd) (hp : 1 ≤ p) (ss : List (Section ℝ)) (zi : List (State ℝ))
    (hl : zi.length = ss.length) (fz : ∀ z ∈ zi, IsFloat p emin z.z0 ∧ IsFloat p emin z.z1) (xs : List ℝ)
    (fx : ∀ x ∈ xs, IsFloat p emin x) (hn : 100 * ((2 * (ss.length : ℝ) + 2) * xs.length) ≤ 2 ^ p) (i : ℕ) (hi : i < xs.length) :
    let c : ℝ := 2 ^ p * (2 ^ emin / 2)
    ∃ (yf : Fl rd) (y : ℝ) (ym : Mag c), (filter (ss.map (Section.map Fl.mk)) (zi.map (State.map Fl.mk)) (xs.map Fl.mk)).1[i]? = some yf ∧
      (filter ss zi xs).1[i]? = some y ∧ (filter (ss.map (Section.map (mag c))) (zi.map (State.map (mag c))) (xs.map (mag c))).1[i]? = some ym ∧
      |yf.val - y| ≤ 1.02 * ((2 * ss.length + 2) * (i + 1)) * (2 ^ p)⁻¹ * ym.val := by
  intro c
  obtain ⟨yf, y, ym, e1, e2, e3, e4, e5⟩ := C96_sosfilter_accuracy h hp ss zi hl fz xs fx i hi
  refine ⟨yf, y, ym, e1, e2, e3, e5.trans (mul_le_mul_of_nonneg_right ?_ ((abs_nonneg y).trans e4))⟩
  have hu0 : (0 : ℝ) ≤ (2 ^ p)⁻¹ := by positivity
  have hi' : ((i : ℝ) + 1) ≤ xs.length := by exact_mod_cast hi
  have := Mad.pow_bound (u := ((2 : ℝ) ^ p)⁻¹) hu0 ((2 * ss.length + 2) * (i + 1)) (by
    push_cast
    rw [← div_eq_mul_inv, div_le_iff₀ (by positivity)]
    have := mul_le_mul_of_nonneg_left hi' (by positivity : (0 : ℝ) ≤ 2 * (ss.length : ℝ) + 2)
    linarith)
  push_cast at this
  linarith

/-- C96: the outputs of one section (computed with any rounding to nearest) satisfy its difference
equation with a residual of at most five roundings of the terms; this holds at every sample, however long
the input: the local errors are not amplified by the recursion.  `X`, `Y`: the input and the computed
output with two zeros in front. -/
theorem C96_residual (h : Nearest p emin rd) (hp : 1 ≤ p) (s : Section ℝ) (xs : List ℝ) (fx : ∀ x ∈ xs, IsFloat p emin x) (n : ℕ)
    (hn : n < xs.length) :
    let ys := (filter [s.map (Fl.mk (rd := rd))] [⟨⟨0⟩, ⟨0⟩⟩] (xs.map Fl.mk)).1.map Fl.val
    let X := 0 :: 0 :: xs
    let Y := 0 :: 0 :: ys
    |Y.getD (n + 2) 0 - (s.b0 * X.getD (n + 2) 0 + s.b1 * X.getD (n + 1) 0 + s.b2 * X.getD n 0
        - s.a1 * Y.getD (n + 1) 0 - s.a2 * Y.getD n 0)| ≤
      ((1 + (2 ^ p)⁻¹) ^ 5 - 1) * (|s.b0 * X.getD (n + 2) 0| + |s.b1 * X.getD (n + 1) 0| + |s.b2 * X.getD n 0|
        + |s.a1 * Y.getD (n + 1) 0| + |s.a2 * Y.getD n 0| + 5 * (2 ^ p * (2 ^ emin / 2))) := by
  obtain ⟨c, hcdef⟩ : ∃ c : ℝ, c = 2 ^ p * (2 ^ emin / 2) := ⟨_, rfl⟩
  have hc : 2 ^ emin / 2 ≤ (2 ^ p)⁻¹ * c := hcdef ▸ under p emin
  rw [← hcdef]
  -- one step, from a state that holds the past up to four roundings
  have gen : ∀ (xs : List ℝ) (x1 x2 y1 y2 : ℝ) (z : State (Fl rd)) (n : ℕ), (∀ x ∈ xs, IsFloat p emin x) → n < xs.length →
      Rel p emin 4 z.z0 (s.b2 * x2 - s.a2 * y2 + s.b1 * x1 - s.a1 * y1)
        (⟨(|s.b2 * x2| + c + (|s.a2 * y2| + c)) + (|s.b1 * x1| + c) + (|s.a1 * y1| + c)⟩ : Mag c) →
      Rel p emin 2 z.z1 (s.b2 * x1 - s.a2 * y1) (⟨|s.b2 * x1| + c + (|s.a2 * y1| + c)⟩ : Mag c) →
      let ys := (filter [s.map (Fl.mk (rd := rd))] [z] (xs.map Fl.mk)).1.map Fl.val
      let X := x2 :: x1 :: xs
      let Y := y2 :: y1 :: ys
      |Y.getD (n + 2) 0 - (s.b0 * X.getD (n + 2) 0 + s.b1 * X.getD (n + 1) 0 + s.b2 * X.getD n 0
          - s.a1 * Y.getD (n + 1) 0 - s.a2 * Y.getD n 0)| ≤
        ((1 + (2 ^ p)⁻¹) ^ 5 - 1) * (|s.b0 * X.getD (n + 2) 0| + |s.b1 * X.getD (n + 1) 0| + |s.b2 * X.getD n 0|
          + |s.a1 * Y.getD (n + 1) 0| + |s.a2 * Y.getD n 0| + 5 * c) := by
    intro xs
    induction xs with
    | nil => intro _ _ _ _ _ n _ hn; simp at hn
    | cons x xs ih =>
      intro x1 x2 y1 y2 z n fx hn h0 h1
      have rx : Rel p emin 0 (⟨x⟩ : Fl rd) x (⟨|x|⟩ : Mag c) := Rel.exact x (fx x (by simp)) 0
      have mulm : ∀ (a b : ℝ), ((⟨|a|⟩ : Mag c) * ⟨|b|⟩).val = |a * b| + c := fun a b => by
        show |a| * |b| + c = _
        rw [abs_mul]
      have ro := Rel.add h hp (Rel.mono (by omega : 1 ≤ 4) (Rel.mul h hp hc s.b0 rx)) h0
      cases n with
      | zero =>
        have e := ro.error
        simp only [List.map_cons, filter, sampleStep, List.getD_cons_succ, List.getD_cons_zero]
        show |(secOut (s.map Fl.mk) z ⟨x⟩).val - _| ≤ _
        have e1 : (((⟨|s.b0|⟩ : Mag c) * ⟨|x|⟩) + (⟨(|s.b2 * x2| + c + (|s.a2 * y2| + c)) + (|s.b1 * x1| + c) + (|s.a1 * y1| + c)⟩ : Mag c)).val =
            |s.b0 * x| + |s.b1 * x1| + |s.b2 * x2| + |s.a1 * y1| + |s.a2 * y2| + 5 * c := by
          show ((⟨|s.b0|⟩ : Mag c) * ⟨|x|⟩).val + _ = _
          rw [mulm]; ring
        have e2 : s.b0 * x + (s.b2 * x2 - s.a2 * y2 + s.b1 * x1 - s.a1 * y1) = s.b0 * x + s.b1 * x1 + s.b2 * x2 - s.a1 * y1 - s.a2 * y2 := by ring
        rw [e1, e2] at e
        exact e
      | succ n =>
        obtain ⟨y, hy⟩ : ∃ y, y = (secOut (s.map Fl.mk) z ⟨x⟩).val := ⟨_, rfl⟩
        have fy : IsFloat p emin y := hy ▸ ro.float
        have ry : Rel p emin 0 (⟨y⟩ : Fl rd) y (⟨|y|⟩ : Mag c) := Rel.exact y fy 0
        have hy' : secOut (s.map Fl.mk) z ⟨x⟩ = ⟨y⟩ := by rw [hy]
        have r1 := Rel.sub h hp (Rel.mul h hp hc s.b2 rx) (Rel.mul h hp hc s.a2 ry)
        have r0 := Rel.sub h hp (Rel.add h hp h1 (Rel.mono (by omega : 1 ≤ 2) (Rel.mul h hp hc s.b1 rx)))
          (Rel.mono (by omega : 1 ≤ 3) (Rel.mul h hp hc s.a1 ry))
        have := ih x x1 y y1 (secState (s.map Fl.mk) z ⟨x⟩) n (fun v hv => fx v (by simp [hv])) (by simpa using hn) (by
            have e : (⟨(|s.b2 * x1| + c + (|s.a2 * y1| + c)) + (|s.b1 * x| + c) + (|s.a1 * y| + c)⟩ : Mag c) =
                (⟨|s.b2 * x1| + c + (|s.a2 * y1| + c)⟩ : Mag c) + (⟨|s.b1|⟩ : Mag c) * ⟨|x|⟩ - (⟨|s.a1|⟩ : Mag c) * ⟨|y|⟩ := by
              show _ = (⟨_ + ((⟨|s.b1|⟩ : Mag c) * ⟨|x|⟩).val + ((⟨|s.a1|⟩ : Mag c) * ⟨|y|⟩).val⟩ : Mag c)
              rw [mulm, mulm]
            rw [e]
            show Rel p emin 4 (z.z1 + (⟨s.b1⟩ : Fl rd) * ⟨x⟩ - (⟨s.a1⟩ : Fl rd) * secOut (s.map Fl.mk) z ⟨x⟩) _ _
            rw [hy']; exact r0) (by
            have e : (⟨|s.b2 * x| + c + (|s.a2 * y| + c)⟩ : Mag c) = (⟨|s.b2|⟩ : Mag c) * ⟨|x|⟩ - (⟨|s.a2|⟩ : Mag c) * ⟨|y|⟩ := by
              show _ = (⟨((⟨|s.b2|⟩ : Mag c) * ⟨|x|⟩).val + ((⟨|s.a2|⟩ : Mag c) * ⟨|y|⟩).val⟩ : Mag c)
              rw [mulm, mulm]
            rw [e]
            show Rel p emin 2 ((⟨s.b2⟩ : Fl rd) * ⟨x⟩ - (⟨s.a2⟩ : Fl rd) * secOut (s.map Fl.mk) z ⟨x⟩) _ _
            rw [hy']; exact r1)
        simp only [List.map_cons, filter, sampleStep, hy'] at this ⊢
        simpa only [List.getD_cons_succ] using this
  have c0 : 0 ≤ c := by rw [hcdef]; positivity
  have g : ∀ k, 0 ≤ (1 + ((2 : ℝ) ^ p)⁻¹) ^ k - 1 := fun k => sub_nonneg.2 (one_le_growth (p := p) k)
  refine gen xs 0 0 0 0 ⟨⟨0⟩, ⟨0⟩⟩ n fx hn ?_ ?_
  · refine ⟨isFloat_zero, ?_, ?_⟩
    · simp only [mul_zero, sub_zero, add_zero, abs_zero, zero_add]; positivity
    · simp only [mul_zero, sub_zero, add_zero, abs_zero, zero_add]
      exact mul_nonneg (g 4) (by positivity)
  · refine ⟨isFloat_zero, ?_, ?_⟩
    · simp only [mul_zero, sub_zero, abs_zero, zero_add]; positivity
    · simp only [mul_zero, sub_zero, abs_zero, zero_add]
      exact mul_nonneg (g 2) (by positivity)

/-! ### Non-vacuity: doubles, one section `y[n] = x[n] + y[n-1] / 2`, the unit impulse -/
example : ∃ rd : ℝ → ℝ, Nearest 53 (-1074) rd ∧
    ∃ (yf : Fl rd) (y : ℝ) (ym : Mag (2 ^ 53 * (2 ^ (-1074 : ℤ) / 2))),
      (filter [Section.map Fl.mk ⟨1, 0, 0, 1, -(1 / 2), 0⟩] [⟨⟨0⟩, ⟨0⟩⟩] [⟨1⟩, ⟨0⟩]).1[1]? = some yf ∧
      (filter [(⟨1, 0, 0, 1, -(1 / 2), 0⟩ : Section ℝ)] [⟨0, 0⟩] [1, 0]).1[1]? = some y ∧ y = 1 / 2 ∧
      |yf.val - y| ≤ ((1 + (2 ^ 53)⁻¹) ^ 8 - 1) * ym.val := by
  obtain ⟨rd, h⟩ := exists_nearest (K := ℝ) (p := 53) (by norm_num) (-1074)
  refine ⟨rd, h, ?_⟩
  obtain ⟨yf, y, ym, e1, e2, _, _, e5⟩ := C96_sosfilter_accuracy h (by norm_num) [⟨1, 0, 0, 1, -(1 / 2), 0⟩] [⟨0, 0⟩] rfl
    (by intro z hz; simp only [List.mem_singleton] at hz; subst hz; exact ⟨isFloat_zero, isFloat_zero⟩) [1, 0]
    (by intro x hx; simp only [List.mem_cons, List.not_mem_nil, or_false] at hx
        rcases hx with rfl | rfl
        · exact isFloat_one (by norm_num) (by norm_num)
        · exact isFloat_zero) 1 (by norm_num)
  refine ⟨yf, y, ym, e1, e2, ?_, e5⟩
  simp [filter, sampleStep, secOut, secState] at e2
  linarith

end Ufunclab.Sosfilter
