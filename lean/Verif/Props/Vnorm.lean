import Verif.Proof.Vnorm
/-! # Properties C41 (vnorm) and C42 (rms, vdot) -/
namespace Ufunclab.Vnorm
variable {T : Type _}

/-- C41: for a finite order `p > 0` and elements with finite absolute values `a v`
(real or complex), vnorm is `(sum |x|^p)^(1/p)`; the scaling by the maximum does not
change the value. -/
theorem C41_pnorm (a : T → ℝ) (x : List T) (p : ℝ) (hp : 0 < p) (hnn : ∀ v ∈ x, 0 ≤ a v) :
    vnorm (fun v => .fin (a v)) x (.fin p) = .fin ((x.map (fun v => a v ^ p)).sum ^ (1 / p)) :=
  vnorm_fin a x p hp hnn

/-- C41: order `inf` gives the largest absolute value, 0 for the empty vector. -/
theorem C41_maxnorm (a : T → ℝ) (x : List T) (hnn : ∀ v ∈ x, 0 ≤ a v) :
    ∃ M, vnorm (fun v => .fin (a v)) x .pinf = .fin M ∧ 0 ≤ M ∧ (∀ v ∈ x, a v ≤ M) ∧
      (M = 0 ∨ ∃ v ∈ x, a v = M) := vnorm_inf a x hnn

/-- C41: an order that is not positive gives NaN, whatever the data. -/
theorem C41_order_nonpos (absf : T → XF ℝ) (x : List T) :
    (∀ p : ℝ, p ≤ 0 → vnorm absf x (.fin p) = .nan) ∧ vnorm absf x .ninf = .nan := by
  constructor
  · intro p hp
    have : XF.le (XF.fin p) (.fin 0) = true := by simp [hp]
    simp [vnorm, this]
  · simp [vnorm, XF.le, XF.lt]

/-- C41: permutation invariance (finite data). -/
theorem C41_permutation (a : T → ℝ) (x y : List T) (h : x.Perm y) (p : ℝ) (hp : 0 < p)
    (hnn : ∀ v ∈ x, 0 ≤ a v) :
    vnorm (fun v => .fin (a v)) x (.fin p) = vnorm (fun v => .fin (a v)) y (.fin p) := by
  rw [C41_pnorm a x p hp hnn, C41_pnorm a y p hp (fun v hv => hnn v (h.mem_iff.2 hv)),
    (h.map (fun v => a v ^ p)).sum_eq]

/-- C41: absolute homogeneity: multiplying a real vector by `c` multiplies the norm by `|c|`. -/
theorem C41_homogeneous (x : List ℝ) (c p : ℝ) (hp : 0 < p) :
    ∃ N, vnorm (fun v : ℝ => .fin |v|) x (.fin p) = .fin N ∧
      vnorm (fun v : ℝ => .fin |v|) (x.map (c * ·)) (.fin p) = .fin (|c| * N) := by
  refine ⟨_, C41_pnorm _ x p hp (fun v _ => abs_nonneg v), ?_⟩
  rw [C41_pnorm _ _ p hp (fun v _ => abs_nonneg v)]
  congr 1
  have hs : ((x.map (c * ·)).map (fun v => |v| ^ p)).sum = |c| ^ p * (x.map (fun v => |v| ^ p)).sum := by
    rw [List.map_map, ← List.sum_map_mul_left]
    congr 1
    apply List.map_congr_left
    intro v _
    simp only [Function.comp, abs_mul, Real.mul_rpow (abs_nonneg c) (abs_nonneg v)]
  have hsn : 0 ≤ (x.map (fun v => |v| ^ p)).sum := List.sum_nonneg (by
    intro y hy; obtain ⟨v, _, rfl⟩ := List.mem_map.1 hy; positivity)
  rw [hs, Real.mul_rpow (by positivity) hsn, ← Real.rpow_mul (abs_nonneg c),
    mul_one_div_cancel hp.ne', Real.rpow_one]

/-- C41: the norm is zero exactly for the zero (or empty) vector. -/
theorem C41_zero_iff (x : List ℝ) (p : ℝ) (hp : 0 < p) :
    vnorm (fun v : ℝ => .fin |v|) x (.fin p) = .fin 0 ↔ ∀ v ∈ x, v = 0 := by
  rw [C41_pnorm _ x p hp (fun v _ => abs_nonneg v), XF.fin.injEq]
  have hnn : ∀ y ∈ x.map (fun v => |v| ^ p), (0 : ℝ) ≤ y := by
    intro y hy; obtain ⟨v, _, rfl⟩ := List.mem_map.1 hy; positivity
  have hsn : 0 ≤ (x.map (fun v => |v| ^ p)).sum := List.sum_nonneg hnn
  rw [Real.rpow_eq_zero hsn (by positivity)]
  constructor
  · intro h v hv
    have h1 : |v| ^ p ≤ (x.map (fun v => |v| ^ p)).sum :=
      List.single_le_sum hnn _ (List.mem_map_of_mem (f := fun v => |v| ^ p) hv)
    rw [h] at h1
    have h2 : |v| ^ p = 0 := le_antisymm h1 (by positivity)
    rw [Real.rpow_eq_zero (abs_nonneg v) hp.ne'] at h2
    exact abs_eq_zero.1 h2
  · intro h
    exact sum_rpow_zero (fun v => |v|) x p hp (fun v hv => by simp [h v hv])

/-- C41: triangle inequality (Minkowski) for `p ≥ 1`. -/
theorem C41_triangle (l : List (ℝ × ℝ)) (p : ℝ) (hp : 1 ≤ p) :
    ∃ N1 N2 N3, vnorm (fun v : ℝ => .fin |v|) (l.map (·.1)) (.fin p) = .fin N1 ∧
      vnorm (fun v : ℝ => .fin |v|) (l.map (·.2)) (.fin p) = .fin N2 ∧
      vnorm (fun v : ℝ => .fin |v|) (l.map (fun q => q.1 + q.2)) (.fin p) = .fin N3 ∧ N3 ≤ N1 + N2 := by
  have hp0 : 0 < p := by linarith
  refine ⟨_, _, _, C41_pnorm _ _ p hp0 (fun v _ => abs_nonneg v),
    C41_pnorm _ _ p hp0 (fun v _ => abs_nonneg v), C41_pnorm _ _ p hp0 (fun v _ => abs_nonneg v), ?_⟩
  have hconv : ∀ f : ℝ × ℝ → ℝ, (l.map f).sum = ∑ i : Fin l.length, f l[i] := by
    intro f
    rw [← List.sum_ofFn]
    congr 1
    apply List.ext_getElem <;> simp
  simp only [List.map_map]
  rw [hconv, hconv, hconv]
  exact Real.Lp_add_le Finset.univ (fun i : Fin l.length => (l[i]).1) (fun i => (l[i]).2) hp

/-- C41 fails on NaN and infinite elements: the norm of `[NaN]` is 0 (for every order
`> 0`) and the 2-norm of `[inf]` is NaN. -/
theorem C41_nonfinite_violated :
    (∀ p : ℝ, 0 < p → vnorm (fun v : XF ℝ => XF.abs v) [.nan] (.fin p) = .fin 0) ∧
    vnorm (fun v : XF ℝ => XF.abs v) [.pinf] (.fin 2) = .nan := by
  constructor
  · intro p hp
    have : XF.le (XF.fin p) (.fin 0) = false := by simp [hp]
    simp [vnorm, this, maxAbs, XF.abs, XF.lt]
  · simp [vnorm, maxAbs, XF.abs, XF.lt, XF.eq, XF.isinf, XF.div, xpow, XF.add, XF.mul]

/-- C41, order NaN: a single non-zero element is returned as its own norm although the
order is not a number (`pow(1, NaN) = 1`). -/
theorem C41_order_nan_violated (a : ℝ) (ha : a ≠ 0) :
    vnorm (fun v : ℝ => .fin |v|) [a] .nan = .fin |a| := by
  have h1 : 0 < |a| := abs_pos.2 ha
  simp [vnorm, maxAbs, XF.le, XF.lt, XF.eq, XF.isinf, h1, h1.ne', ha, XF.div, xpow]

section mem
variable {α : Type _}

/-- C42, law-free: rms writes `sqrt(s/n)` at `out`, `s` the left-to-right sum of
squares over the strided elements, and nothing else, whether or not the redundant
contiguous computation runs first; `out` must not be one of the elements. -/
theorem C42_rms_store [Add α] [Mul α] [Zero α] (fin : α → Nat → α) (m : Mem α) (w p stride out : Int) (n : Nat)
    (hout : ∀ i < n, p + (i : Int) * stride ≠ out) :
    rms fin m w p stride out n = m.store out (fin
      (((List.range n).map (fun i => get m p stride i * get m p stride i)).foldl (· + ·) 0) n) := by
  rw [List.range_eq_range', ← sumSqLoop_foldl]
  unfold rms
  by_cases h : stride = w
  · subst h
    simp only [if_true]
    rw [sumSqLoop_congr (m.store out _) m p stride n 0 0 (by
      intro i hi
      exact Mem.store_other _ _ (by simpa using hout i hi))]
    funext b
    by_cases hb : b = out
    · subst hb; rw [Mem.store_same, Mem.store_same]
    · simp only [Mem.store_other _ _ hb]
  · simp only [h, if_false]

/-- C42: the real value: `rms = sqrt(sum x^2 / n)`, so `n * rms^2 = sum x^2`,
`0 ≤ rms`, and `rms ≤ max |x|`. -/
theorem C42_rms (m : Mem ℝ) (w p stride out : Int) (n : Nat) (hn : 0 < n)
    (hout : ∀ i < n, p + (i : Int) * stride ≠ out) :
    let r := rms (fun s k => Real.sqrt (s / (k : ℝ))) m w p stride out n out
    0 ≤ r ∧ (n : ℝ) * r ^ 2 = ∑ i ∈ Finset.range n, get m p stride i ^ 2 ∧
    ∀ M, (∀ i < n, |get m p stride i| ≤ M) → r ≤ M := by
  intro r
  have hnr : (0 : ℝ) < n := by exact_mod_cast hn
  have hr : r = Real.sqrt ((∑ i ∈ Finset.range n, get m p stride i ^ 2) / (n : ℝ)) := by
    simp only [r]
    rw [C42_rms_store _ m w p stride out n hout, Mem.store_same, List.range_eq_range',
      ← sumSqLoop_foldl, sumSqLoop_sum]
    simp [sq]
  have hs : 0 ≤ ∑ i ∈ Finset.range n, get m p stride i ^ 2 := Finset.sum_nonneg (fun i _ => sq_nonneg _)
  refine ⟨by rw [hr]; exact Real.sqrt_nonneg _, ?_, ?_⟩
  · rw [hr, Real.sq_sqrt (by positivity)]; field_simp
  · intro M hM
    have hM0 : 0 ≤ M := (abs_nonneg _).trans (hM 0 hn)
    rw [hr]
    apply Real.sqrt_le_iff.2 ⟨hM0, ?_⟩
    rw [div_le_iff₀ hnr]
    calc ∑ i ∈ Finset.range n, get m p stride i ^ 2 ≤ ∑ i ∈ Finset.range n, M ^ 2 := by
          apply Finset.sum_le_sum
          intro i hi
          exact sq_le_sq' (by linarith [abs_le.1 (hM i (Finset.mem_range.1 hi))])
            (abs_le.1 (hM i (Finset.mem_range.1 hi))).2
      _ = M ^ 2 * n := by simp; ring

/-- C42, complex rms, law-free: the contiguous path and the strided path compute the
same value. -/
theorem C42_crms [Add α] [Mul α] [Zero α] (fin : α → Nat → α) (m : Mem α) (u p stride out : Int) (n : Nat) :
    crms fin m u p stride out n = m.store out (fin (csumSqLoop m p stride u n 0 0) n) := by
  unfold crms
  split_ifs with h
  · rw [ccontig_eq, h]
  · rfl

/-- C42: complex rms: `n * rms^2 = sum (re^2 + im^2)`. -/
theorem C42_crms_value (m : Mem ℝ) (u p stride out : Int) (n : Nat) (hn : 0 < n) :
    let r := crms (fun s k => Real.sqrt (s / (k : ℝ))) m u p stride out n out
    0 ≤ r ∧ (n : ℝ) * r ^ 2 = ∑ i ∈ Finset.range n,
      (m (p + (i : Int) * stride) ^ 2 + m (p + (i : Int) * stride + u) ^ 2) := by
  intro r
  have hnr : (0 : ℝ) < n := by exact_mod_cast hn
  have hr : r = Real.sqrt ((∑ i ∈ Finset.range n,
      (m (p + (i : Int) * stride) ^ 2 + m (p + (i : Int) * stride + u) ^ 2)) / (n : ℝ)) := by
    simp only [r]
    rw [C42_crms, Mem.store_same, csumSqLoop_sum]
    simp [sq]
  refine ⟨by rw [hr]; exact Real.sqrt_nonneg _, ?_⟩
  have hs : 0 ≤ ∑ i ∈ Finset.range n,
      (m (p + (i : Int) * stride) ^ 2 + m (p + (i : Int) * stride + u) ^ 2) :=
    Finset.sum_nonneg (fun i _ => by positivity)
  rw [hr, Real.sq_sqrt (by positivity)]; field_simp

/-- C42, law-free: vdot adds the products from left to right starting from 0; the
contiguous path computes the same. -/
theorem C42_vdot_fold [Add α] [Mul α] [Zero α] (m : Mem α) (w px sx py sy : Int) (n : Nat) :
    vdot m w px sx py sy n =
      ((List.range n).map (fun i => get m px sx i * get m py sy i)).foldl (· + ·) 0 := by
  unfold vdot
  split_ifs with h
  · rw [dotLoop_foldl, h.1, h.2, List.range_eq_range']
  · rw [dotLoop_foldl, List.range_eq_range']

/-- C42: in exact arithmetic vdot is `sum x*y`. -/
theorem C42_vdot_sum [Semiring α] (m : Mem α) (w px sx py sy : Int) (n : Nat) :
    vdot m w px sx py sy n = ∑ i ∈ Finset.range n, get m px sx i * get m py sy i := by
  unfold vdot
  split_ifs with h
  · rw [dotLoop_sum, h.1, h.2]; simp
  · rw [dotLoop_sum]; simp

/-- C42: Cauchy-Schwarz. -/
theorem C42_cauchy_schwarz (m : Mem ℝ) (w px sx py sy : Int) (n : Nat) :
    vdot m w px sx py sy n ^ 2 ≤ vdot m w px sx px sx n * vdot m w py sy py sy n := by
  rw [C42_vdot_sum, C42_vdot_sum, C42_vdot_sum]
  have := Finset.sum_mul_sq_le_sq_mul_sq (Finset.range n) (fun i => get m px sx i) (fun i => get m py sy i)
  simpa [sq] using this

/-- C42: symmetry and linearity of vdot in the first argument (over a commutative
ring); `x = a*y + b*z` elementwise. -/
theorem C42_bilinear [CommRing α] (m : Mem α) (w px py pz pv s : Int) (n : Nat) (a b : α)
    (h : ∀ i < n, get m px s i = a * get m py s i + b * get m pz s i) :
    vdot m w px s pv s n = a * vdot m w py s pv s n + b * vdot m w pz s pv s n ∧
    vdot m w px s pv s n = vdot m w pv s px s n := by
  simp only [C42_vdot_sum]
  constructor
  · rw [Finset.mul_sum, Finset.mul_sum, ← Finset.sum_add_distrib]
    apply Finset.sum_congr rfl
    intro i hi
    rw [h i (Finset.mem_range.1 hi)]; ring
  · apply Finset.sum_congr rfl
    intro i _; ring

end mem

/-! ### Non-vacuity -/
example : vnorm (fun v : ℝ => .fin |v|) [3, -4] (.fin 2) = .fin 5 := by
  rw [C41_pnorm _ _ 2 (by norm_num) (fun v _ => abs_nonneg v)]
  have : (List.map (fun v : ℝ => |v| ^ (2 : ℝ)) [3, -4]).sum = 5 ^ (2 : ℝ) := by norm_num
  rw [this, ← Real.rpow_mul (by norm_num)]
  norm_num
example : vdot (α := Int) (fun a => a) 8 0 8 8 16 3 = 0 * 8 + 8 * 24 + 16 * 40 := by
  rw [C42_vdot_sum]; simp [Finset.sum_range_succ, get]
example : ∀ i < 3, (0 : Int) + (i : Int) * 8 ≠ 24 := by omega

end Ufunclab.Vnorm
