import Verif.Model.Kbnsum
import Verif.Proof.XF
import Verif.Proof.Mem
import Verif.Proof.Float
import Mathlib.Algebra.Order.Field.Rat
import Mathlib.Algebra.Field.Rat
import Mathlib.Tactic.Ring
import Mathlib.Tactic.Linarith
import Mathlib.Tactic.NormNum
/-! # Property C37: kbnsum -/
namespace Ufunclab.Kbnsum
variable {K : Type _} [Field K] [LinearOrder K] [IsStrictOrderedRing K]

omit [IsStrictOrderedRing K] in
@[simp] theorem fadd_fin (rd : K → K) (a b : K) : fadd (rnd rd) (.fin a) (.fin b) = .fin (rd (a + b)) := rfl
omit [IsStrictOrderedRing K] in
@[simp] theorem fsub_fin (rd : K → K) (a b : K) : fsub (rnd rd) (.fin a) (.fin b) = .fin (rd (a - b)) := by rw [fsub, XF.sub_fin]; rfl
omit [IsStrictOrderedRing K] in
theorem push_fin (a x : K) : push id (.fin a, .fin 0) (.fin x) = (.fin (a + x), .fin 0) := by
  simp only [push, fadd, fsub, XF.add_fin, XF.sub_fin, XF.abs_fin, XF.ge_fin, id]
  split <;> congr 2 <;> ring

theorem loop_shift (m : Mem (XF K)) (p s w : Int) (fuel k : Nat) (st : XF K × XF K) (xs : List K)
    (acc : K) (hst : st = (.fin acc, .fin 0)) (hlen : xs.length = fuel)
    (h : ∀ i (hi : i < xs.length), get m p s (k + i) = .fin xs[i]) :
    loop id m p s w fuel k st = .fin (acc + xs.sum) := by
  induction fuel generalizing k st xs acc with
  | zero => cases xs <;> simp_all [loop, fadd, XF.add_fin]
  | succ f ih =>
    cases xs with
    | nil => simp at hlen
    | cons x xs =>
      have h0 := h 0 (by simp)
      simp only [Nat.add_zero, List.getElem_cons_zero] at h0
      simp only [loop, h0, XF.isnan_fin, XF.isinf_fin, Bool.false_eq_true, if_false]
      rw [ih (k + 1) _ xs (acc + x) (by rw [hst, push_fin]) (by simpa using hlen)]
      · simp [add_assoc]
      · intro i hi
        have := h (i + 1) (by simpa using hi)
        simpa [Nat.add_assoc, Nat.add_comm 1 i] using this

/-- C37: on finite data, for every stride, kbnsum is the exact sum: the compensation
changes nothing in exact arithmetic. -/
theorem C37_finite_sum (m : Mem (XF K)) (p stride w : Int) (xs : List K)
    (h : elems m p stride xs.length = xs.map .fin) :
    kbnsum id m p stride w xs.length = .fin xs.sum := by
  have := loop_shift m p stride w xs.length 0 (.fin 0, .fin 0) xs 0 rfl rfl (by
    intro i hi
    have h1 : (elems m p stride xs.length)[i]? = (xs.map XF.fin)[i]? := by rw [h]
    simp [elems, hi] at h1
    simpa using h1)
  simpa [kbnsum] using this

omit [IsStrictOrderedRing K] in
theorem infScan_spec (r : XF K → XF K) (hr : ∀ v, XF.isnan (r v) = XF.isnan v) (m : Mem (XF K)) (p w : Int) (xk : XF K) (fuel j : Nat) :
    ((∃ i < fuel, XF.isnan (XF.add xk (get m p w (j + i))) = true) → infScan r m p w xk fuel j = .nan) ∧
    ((∀ i < fuel, XF.isnan (XF.add xk (get m p w (j + i))) = false) → infScan r m p w xk fuel j = xk) := by
  induction fuel generalizing j with
  | zero => simp [infScan]
  | succ f ih =>
    obtain ⟨a, b⟩ := ih (j + 1)
    simp only [infScan, fadd, hr]
    change (_ → (if XF.isnan (XF.add xk (get m p w j)) = true then _ else _) = _) ∧
      (_ → (if XF.isnan (XF.add xk (get m p w j)) = true then _ else _) = _)
    constructor
    · rintro ⟨i, hi, h⟩
      split
      · rfl
      · rename_i hn
        cases i with
        | zero => exact absurd h hn
        | succ i =>
          apply a
          exact ⟨i, by omega, by rwa [show j + 1 + i = j + (i + 1) by omega]⟩
    · intro h
      have h0 := h 0 (by omega)
      rw [Nat.add_zero] at h0
      rw [if_neg (by simp [h0])]
      apply b
      intro i hi
      have := h (i + 1) (by omega)
      rwa [show j + 1 + i = j + (i + 1) by omega]

omit [IsStrictOrderedRing K] in
/-- Behaviour of the main loop at the first non-finite element. -/
theorem loop_first (r : XF K → XF K) (m : Mem (XF K)) (p s w : Int) (fuel k d : Nat) (st : XF K × XF K) (hd : d < fuel)
    (hfin : ∀ i < d, XF.isfinite (get m p s (k + i)) = true)
    (hbad : XF.isfinite (get m p s (k + d)) = false) :
    loop r m p s w fuel k st = if XF.isnan (get m p s (k + d)) then .nan
      else infScan r m p w (get m p s (k + d)) (fuel - d - 1) (k + d + 1) := by
  induction fuel generalizing k d st with
  | zero => omega
  | succ f ih =>
    cases d with
    | zero =>
      simp only [Nat.add_zero] at hbad ⊢
      simp only [loop]
      cases hx : get m p s k with
      | fin a => rw [hx] at hbad; simp at hbad
      | _ => simp [XF.isnan, XF.isinf]
    | succ d =>
      obtain ⟨a, ha⟩ := (XF.isfinite_iff _).1 (hfin 0 (by omega))
      simp only [Nat.add_zero] at ha
      simp only [loop, ha, XF.isnan_fin, XF.isinf_fin, Bool.false_eq_true, if_false]
      rw [ih (k + 1) d _ (by omega) (fun i hi => by
        have := hfin (i + 1) (by omega); rwa [show k + 1 + i = k + (i + 1) by omega])
        (by rwa [show k + 1 + d = k + (d + 1) by omega])]
      rw [show k + 1 + d = k + (d + 1) by omega, show f - d - 1 = f + 1 - (d + 1) - 1 by omega]

omit [IsStrictOrderedRing K] in
theorem exists_first (m : Mem (XF K)) (p s : Int) (n : Nat)
    (h : ∃ i < n, XF.isfinite (get m p s i) = false) :
    ∃ d < n, XF.isfinite (get m p s d) = false ∧ ∀ i < d, XF.isfinite (get m p s i) = true := by
  refine ⟨Nat.find h, (Nat.find_spec h).1, (Nat.find_spec h).2, ?_⟩
  intro i hi
  have h1 := Nat.find_min h hi
  have h2 := (Nat.find_spec h).1
  cases hq : XF.isfinite (get m p s i) with
  | true => rfl
  | false => exact absurd ⟨by omega, hq⟩ h1

omit [IsStrictOrderedRing K] in
/-- C37: on contiguous data a NaN, or infinities of both signs, gives NaN, with any rounding `r` that
neither makes nor removes a NaN (exact, rounded, or rounded with overflow). -/
theorem C37_contiguous_nan (r : XF K → XF K) (hr : ∀ v, XF.isnan (r v) = XF.isnan v) (m : Mem (XF K)) (p w : Int) (n : Nat)
    (h : .nan ∈ elems m p w n ∨ (.pinf ∈ elems m p w n ∧ .ninf ∈ elems m p w n)) :
    kbnsum r m p w w n = .nan := by
  have hget : ∀ v, v ∈ elems m p w n ↔ ∃ i < n, get m p w i = v := by
    intro v; simp [elems]
  simp only [hget] at h
  have hex : ∃ i < n, XF.isfinite (get m p w i) = false := by
    rcases h with ⟨i, hi, h⟩ | ⟨⟨i, hi, h⟩, _⟩ <;> exact ⟨i, hi, by rw [h]; rfl⟩
  obtain ⟨d, hd, hbad, hfin⟩ := exists_first m p w n hex
  have hl := loop_first r m p w w n 0 d (.fin 0, .fin 0) hd (by simpa using hfin) (by simpa using hbad)
  rw [kbnsum, hl]
  simp only [Nat.zero_add]
  -- any later offending index
  have later : ∀ i < n, ∀ v, get m p w i = v → XF.isfinite v = false → v ≠ get m p w d → d < i := by
    intro i hi v hv hf hne
    rcases Nat.lt_trichotomy i d with h1 | h1 | h1
    · have := hfin i h1; rw [hv, hf] at this; simp at this
    · subst h1; exact absurd hv.symm hne
    · exact h1
  have fin : ∀ i, d < i → i < n → XF.isnan (XF.add (get m p w d) (get m p w i)) = true →
      infScan r m p w (get m p w d) (n - d - 1) (d + 1) = .nan := by
    intro i h1 h2 h3
    apply (infScan_spec r hr m p w _ _ _).1
    exact ⟨i - (d + 1), by omega, by rwa [show d + 1 + (i - (d + 1)) = i by omega]⟩
  cases hx : get m p w d with
  | fin a => rw [hx] at hbad; simp at hbad
  | nan => rfl
  | pinf =>
    rw [if_neg (by simp [XF.isnan])]
    rw [hx] at fin later
    rcases h with ⟨i, hi, h⟩ | ⟨_, i, hi, h⟩
    · exact fin i (later i hi _ h rfl (by simp)) hi (by rw [h]; rfl)
    · exact fin i (later i hi _ h rfl (by simp)) hi (by rw [h]; rfl)
  | ninf =>
    rw [if_neg (by simp [XF.isnan])]
    rw [hx] at fin later
    rcases h with ⟨i, hi, h⟩ | ⟨⟨i, hi, h⟩, _⟩
    · exact fin i (later i hi _ h rfl (by simp)) hi (by rw [h]; rfl)
    · exact fin i (later i hi _ h rfl (by simp)) hi (by rw [h]; rfl)

omit [IsStrictOrderedRing K] in
/-- C37: on contiguous data without NaN and with infinities of one sign only, the
result is that infinity. -/
theorem C37_contiguous_inf (r : XF K → XF K) (hr : ∀ v, XF.isnan (r v) = XF.isnan v) (m : Mem (XF K)) (p w : Int) (n : Nat) (v o : XF K)
    (hv : v = .pinf ∧ o = .ninf ∨ v = .ninf ∧ o = .pinf)
    (h1 : v ∈ elems m p w n) (h2 : .nan ∉ elems m p w n) (h3 : o ∉ elems m p w n) :
    kbnsum r m p w w n = v := by
  have hget : ∀ v, v ∈ elems m p w n ↔ ∃ i < n, get m p w i = v := by
    intro v; simp [elems]
  simp only [hget, not_exists, not_and] at h1 h2 h3
  obtain ⟨i, hi, hiv⟩ := h1
  obtain ⟨d, hd, hbad, hfin⟩ := exists_first m p w n
    ⟨i, hi, by rw [hiv]; rcases hv with ⟨rfl, _⟩ | ⟨rfl, _⟩ <;> rfl⟩
  have hdv : get m p w d = v := by
    have a := h2 d hd; have b := h3 d hd
    rcases hv with ⟨rfl, rfl⟩ | ⟨rfl, rfl⟩ <;>
    · cases hx : get m p w d with
      | fin a => rw [hx] at hbad; simp at hbad
      | _ => first | rfl | exact absurd hx a | exact absurd hx b
  have hl := loop_first r m p w w n 0 d (.fin 0, .fin 0) hd (by simpa using hfin) (by simpa using hbad)
  rw [kbnsum, hl]
  simp only [Nat.zero_add, hdv]
  rw [if_neg (by rcases hv with ⟨rfl, _⟩ | ⟨rfl, _⟩ <;> simp [XF.isnan])]
  apply (infScan_spec r hr m p w _ _ _).2
  intro j hj
  have a := h2 (d + 1 + j) (by omega); have b := h3 (d + 1 + j) (by omega)
  rcases hv with ⟨rfl, rfl⟩ | ⟨rfl, rfl⟩ <;>
  · cases hx : get m p w (d + 1 + j) with
    | nan => exact absurd hx a
    | fin _ => rfl
    | pinf => first | rfl | exact absurd hx b
    | ninf => first | rfl | exact absurd hx b

/-- C37 fails for non-contiguous data: with a stride of two items, `[inf, -inf]`
sums to `inf`, because the scan reads the cells in between; and the result depends on
cells that are not elements of the array. -/
theorem C37_strided_violated :
    ∃ m m' : Mem (XF ℚ), elems m 0 16 2 = [.pinf, .ninf] ∧ elems m' 0 16 2 = [.pinf, .ninf] ∧
      kbnsum id m 0 16 8 2 = .pinf ∧ kbnsum id m' 0 16 8 2 = .nan := by
  refine ⟨fun a => if a = 0 then .pinf else if a = 16 then .ninf else .fin 0,
    fun a => if a = 0 then .pinf else if a = 16 then .ninf else .nan, ?_, ?_, ?_, ?_⟩ <;>
  simp [elems, get, kbnsum, loop, infScan, fadd, XF.isnan, XF.isinf, XF.add, List.range_succ]

/-! ### Rounded arithmetic -/

section Rounded
open Float
variable {p : ℕ} {emin : ℤ} {rd : K → K}

/-- One step on floats: the accumulator takes the rounded sum and the compensation receives
exactly its rounding error. -/
theorem push_rd (h : Nearest p emin rd) (hp : 1 ≤ p) (a c x : K) (ha : IsFloat p emin a) (hx : IsFloat p emin x) :
    push (rnd rd) (.fin a, .fin c) (.fin x) = (.fin (rd (a + x)), .fin (rd (c + (a + x - rd (a + x))))) := by
  simp only [push, fadd_fin, fsub_fin, XF.abs_fin, XF.ge_fin, decide_eq_true_eq]
  split_ifs with hc
  · rw [fast2sum h hp ha hx hc]
  · have := fast2sum h hp hx ha (not_le.1 hc).le
    rw [add_comm x a] at this
    rw [this]

theorem loop_rd [Archimedean K] (h : Nearest p emin rd) (hp : 1 ≤ p) (u : K) (hu : u = (2 ^ p)⁻¹)
    (m : Mem (XF K)) (q s w : Int) (xs : List K) :
    ∀ (k j : Nat) (a c E T X : K), IsFloat p emin a → IsFloat p emin c →
    (∀ x ∈ xs, IsFloat p emin x) →
    (∀ i (hi : i < xs.length), get m q s (k + i) = .fin xs[i]) →
    |E| ≤ T → |c - E| ≤ ((1 + u) ^ j - 1) * T → T ≤ j * u * (1 + u) ^ j * X → |a| ≤ (1 + u) ^ j * X → 0 ≤ X →
    ∃ r, loop (rnd rd) m q s w xs.length k (.fin a, .fin c) = .fin r ∧
      |r - (a + E + xs.sum)| ≤ u * |a + E + xs.sum| +
        (1 + u) * (((1 + u) ^ (j + xs.length) - 1) *
          ((j + xs.length : ℕ) * u * (1 + u) ^ (j + xs.length) * (X + (xs.map (|·|)).sum))) := by
  have hu0 : 0 < u := by rw [hu]; positivity
  induction xs with
  | nil =>
    intro k j a c E T X ha hc _ _ hE hcE hT hA hX
    refine ⟨rd (a + c), by simp [loop], ?_⟩
    have hz : OnGrid emin (a + c) := ha.grid.add hc.grid
    have hr := h.rel_error hp hz
    rw [← hu] at hr
    simp only [List.sum_nil, List.map_nil, List.length_nil, Nat.add_zero, add_zero]
    have h1 : |a + c| ≤ |a + E| + |c - E| := by
      calc |a + c| = |(a + E) + (c - E)| := by ring_nf
        _ ≤ _ := abs_add_le _ _
    have h0 : 0 ≤ (1 + u) ^ j - 1 := by linarith [one_le_pow₀ (a := 1 + u) (by linarith) (n := j)]
    have h2 : |c - E| ≤ ((1 + u) ^ j - 1) * (j * u * (1 + u) ^ j * X) :=
      le_trans hcE (mul_le_mul_of_nonneg_left hT h0)
    calc |rd (a + c) - (a + E)| = |(rd (a + c) - (a + c)) + (c - E)| := by ring_nf
      _ ≤ |rd (a + c) - (a + c)| + |c - E| := abs_add_le _ _
      _ ≤ u * (|a + E| + |c - E|) + |c - E| := by
        linarith [mul_le_mul_of_nonneg_left h1 hu0.le]
      _ = u * |a + E| + (1 + u) * |c - E| := by ring
      _ ≤ _ := by linarith [mul_le_mul_of_nonneg_left h2 (show 0 ≤ 1 + u by linarith)]
  | cons x xs ih =>
    intro k j a c E T X ha hc hf hg hE hcE hT hA hX
    have h0 := hg 0 (by simp)
    simp only [Nat.add_zero, List.getElem_cons_zero] at h0
    have hx := hf x (by simp)
    simp only [List.length_cons, loop, h0, XF.isnan_fin, XF.isinf_fin, Bool.false_eq_true, if_false]
    rw [push_rd h hp a c x ha hx]
    set t := rd (a + x) with ht
    set e := a + x - t with he
    have hX' : 0 ≤ X + |x| := add_nonneg hX (abs_nonneg _)
    have h1u : 1 ≤ 1 + u := by linarith
    have hpj : 1 ≤ (1 + u) ^ j := one_le_pow₀ h1u
    -- the exact sum of one step
    have hax : |a + x| ≤ (1 + u) ^ j * (X + |x|) := by
      calc |a + x| ≤ |a| + |x| := abs_add_le _ _
        _ ≤ (1 + u) ^ j * X + (1 + u) ^ j * |x| := by
          have := mul_le_mul_of_nonneg_right hpj (abs_nonneg x)
          linarith
        _ = _ := by ring
    have hrel : |t - (a + x)| ≤ u * |a + x| := by
      have := h.rel_error hp (ha.grid.add hx.grid)
      rwa [← hu] at this
    have heb : |e| ≤ u * ((1 + u) ^ j * (X + |x|)) := by
      rw [he, abs_sub_comm]
      exact le_trans hrel (mul_le_mul_of_nonneg_left hax hu0.le)
    have hta : |t| ≤ (1 + u) ^ (j + 1) * (X + |x|) := by
      calc |t| = |(t - (a + x)) + (a + x)| := by ring_nf
        _ ≤ |t - (a + x)| + |a + x| := abs_add_le _ _
        _ ≤ (1 + u) * |a + x| := by linarith
        _ ≤ (1 + u) * ((1 + u) ^ j * (X + |x|)) := mul_le_mul_of_nonneg_left hax (by linarith)
        _ = _ := by rw [pow_succ]; ring
    have hTT : T + |e| ≤ ((j + 1 : ℕ) : K) * u * (1 + u) ^ (j + 1) * (X + |x|) := by
      have q1 : (j : K) * u * (1 + u) ^ j * X ≤ (j : K) * u * (1 + u) ^ (j + 1) * (X + |x|) := by
        have a1 : (1 + u) ^ j ≤ (1 + u) ^ (j + 1) := pow_le_pow_right₀ h1u (by omega)
        have a2 : (1 + u) ^ j * X ≤ (1 + u) ^ (j + 1) * (X + |x|) :=
          mul_le_mul a1 (by linarith [abs_nonneg x]) hX (by positivity)
        have := mul_le_mul_of_nonneg_left a2 (show 0 ≤ (j : K) * u by positivity)
        linarith
      have q2 : u * ((1 + u) ^ j * (X + |x|)) ≤ u * ((1 + u) ^ (j + 1) * (X + |x|)) :=
        mul_le_mul_of_nonneg_left (mul_le_mul_of_nonneg_right (pow_le_pow_right₀ h1u (by omega)) hX') hu0.le
      push_cast
      linarith
    have hcf : IsFloat p emin (rd (c + e)) := (h _).1
    have htf : IsFloat p emin t := (h _).1
    have heg : OnGrid emin e := (ha.grid.add hx.grid).sub htf.grid
    have hce : |rd (c + e) - (c + e)| ≤ u * |c + e| := by
      have := h.rel_error hp (hc.grid.add heg)
      rwa [← hu] at this
    have hE' : |E + e| ≤ T + |e| := le_trans (abs_add_le _ _) (by linarith)
    have hcE' : |rd (c + e) - (E + e)| ≤ ((1 + u) ^ (j + 1) - 1) * (T + |e|) := by
      have b1 : |c + e| ≤ |c - E| + (T + |e|) := by
        calc |c + e| = |(c - E) + (E + e)| := by ring_nf
          _ ≤ |c - E| + |E + e| := abs_add_le _ _
          _ ≤ _ := by linarith
      have b2 : |c - E| ≤ ((1 + u) ^ j - 1) * (T + |e|) :=
        le_trans hcE (mul_le_mul_of_nonneg_left (by linarith [abs_nonneg e]) (by linarith))
      calc |rd (c + e) - (E + e)| = |(rd (c + e) - (c + e)) + (c - E)| := by ring_nf
        _ ≤ |rd (c + e) - (c + e)| + |c - E| := abs_add_le _ _
        _ ≤ u * (|c - E| + (T + |e|)) + |c - E| := by linarith [mul_le_mul_of_nonneg_left b1 hu0.le]
        _ = (1 + u) * |c - E| + u * (T + |e|) := by ring
        _ ≤ (1 + u) * (((1 + u) ^ j - 1) * (T + |e|)) + u * (T + |e|) := by
          linarith [mul_le_mul_of_nonneg_left b2 (show 0 ≤ 1 + u by linarith)]
        _ = _ := by rw [pow_succ]; ring
    obtain ⟨r, hr, hb⟩ := ih (k + 1) (j + 1) t (rd (c + e)) (E + e) (T + |e|) (X + |x|) htf hcf
      (fun y hy => hf y (by simp [hy]))
      (fun i hi => by
        have := hg (i + 1) (by simpa using hi)
        simpa [Nat.add_assoc, Nat.add_comm 1 i] using this)
      hE' hcE' hTT hta hX'
    refine ⟨r, hr, ?_⟩
    have hs : t + (E + e) + xs.sum = a + E + (x :: xs).sum := by rw [he, List.sum_cons]; ring
    have hn : j + 1 + xs.length = j + (xs.length + 1) := by omega
    rw [hs, hn, show X + |x| + (xs.map (|·|)).sum = X + ((x :: xs).map (|·|)).sum by
      rw [List.map_cons, List.sum_cons]; ring] at hb
    exact hb

/-- C37: on floats, with every addition and subtraction rounded to a nearest float, kbnsum is
the exact sum up to one rounding (`u*|sum|`) and a term of second order in `u = 2^-p`,
whatever the cancellation: the compensated summation error bound. -/
theorem C37_compensated [Archimedean K] (p : ℕ) (hp : 1 ≤ p) (emin : ℤ) (rd : K → K) (h : Nearest p emin rd)
    (u : K) (hu : u = (2 ^ p)⁻¹) (m : Mem (XF K)) (q stride w : Int) (xs : List K)
    (hf : ∀ x ∈ xs, IsFloat p emin x) (hx : elems m q stride xs.length = xs.map .fin) :
    ∃ r, kbnsum (rnd rd) m q stride w xs.length = .fin r ∧
      |r - xs.sum| ≤ u * |xs.sum| +
        (1 + u) * (((1 + u) ^ xs.length - 1) * (xs.length * u * (1 + u) ^ xs.length * (xs.map (|·|)).sum)) := by
  have := loop_rd h hp u hu m q stride w xs 0 0 0 0 0 0 0 isFloat_zero isFloat_zero hf (by
    intro i hi
    have h1 : (elems m q stride xs.length)[i]? = (xs.map XF.fin)[i]? := by rw [hx]
    simp [elems, hi] at h1
    simpa using h1) (by simp) (by simp) (by simp) (by simp) le_rfl
  simpa [kbnsum] using this

/-- C37: the sum of two floats is correctly rounded (the compensation never spoils it). -/
theorem C37_pair (p : ℕ) (hp : 1 ≤ p) (emin : ℤ) (rd : K → K) (h : Nearest p emin rd)
    (m : Mem (XF K)) (q stride w : Int) (a b : K) (ha : IsFloat p emin a) (hb : IsFloat p emin b)
    (hx : elems m q stride 2 = [.fin a, .fin b]) :
    kbnsum (rnd rd) m q stride w 2 = .fin (rd (rd (a + b) + (a + b - rd (a + b)))) ∧
    kbnsum (rnd rd) m q stride w 2 = .fin (rd (a + b)) := by
  have e0 : get m q stride 0 = .fin a ∧ get m q stride 1 = .fin b := by
    simpa [elems, List.range_succ] using hx
  have hb0 : ∀ y, IsFloat p emin y → rd y = y := fun y hy => h.exact hy
  have hz := isFloat_zero (K := K) (p := p) (emin := emin)
  have key : kbnsum (rnd rd) m q stride w 2 = .fin (rd (rd (a + b) + (a + b - rd (a + b)))) := by
    simp only [kbnsum, loop, Nat.zero_add, e0.1, e0.2, XF.isnan_fin, XF.isinf_fin, Bool.false_eq_true, if_false]
    rw [push_rd h hp 0 0 a hz ha]
    simp only [zero_add, hb0 a ha, sub_self, hb0 0 hz]
    rw [push_rd h hp a 0 b ha hb]
    have he : rd (a + b - rd (a + b)) = a + b - rd (a + b) := by
      rcases le_total |b| |a| with c | c
      · have := fast2sum h hp ha hb c
        rw [← this]; exact hb0 _ (h _).1
      · have := fast2sum h hp hb ha c
        rw [add_comm b a] at this
        rw [← this]; exact hb0 _ (h _).1
    simp only [zero_add, fadd_fin, he]
  refine ⟨key, ?_⟩
  rw [key]
  congr 2
  ring

end Rounded

/-! ### Non-vacuity -/
example : ∃ rd : ℚ → ℚ, Float.Nearest 53 (-1074) rd ∧ Float.IsFloat 53 (-1074) (1 : ℚ) :=
  let ⟨rd, h⟩ := Float.exists_nearest (K := ℚ) (p := 53) (by norm_num) (-1074)
  ⟨rd, h, ⟨1, 0, by norm_num, by norm_num, by norm_num⟩⟩
example : kbnsum id (fun a => if a = 0 then .fin (1 : ℚ) else .fin 5) 0 8 8 3 = .fin 11 := by
  have := C37_finite_sum (fun a => if a = 0 then XF.fin (1 : ℚ) else .fin 5) 0 8 8 [1, 5, 5]
    (by simp [elems, get, List.range_succ])
  norm_num at this
  exact this
example : kbnsum id (fun a => if a = 8 then (.ninf : XF ℚ) else .fin 5) 0 8 8 3 = .ninf :=
  C37_contiguous_inf id (fun _ => rfl) _ 0 8 3 .ninf .pinf (.inr ⟨rfl, rfl⟩)
    (by simp [elems, get, List.range_succ]) (by simp [elems, get, List.range_succ])
    (by simp [elems, get, List.range_succ])

end Ufunclab.Kbnsum
