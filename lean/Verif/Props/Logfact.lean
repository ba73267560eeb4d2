import Verif.Proof.Logfact
import Verif.Proof.XF
import Verif.Proof.Mem
import Verif.Model.Logbeta
import Verif.Spec.Logfact
import Mathlib.Probability.Distributions.Beta
/-!
# C66: logfactorial and multivariate_logbeta
-/
namespace Ufunclab.Logfact
open Real

/-! ### logfactorial -/

theorem formula (k : ℕ) (hk : 126 ≤ k) : ∃ v, logfactorial k = some v ∧ v = stirling k + (halfln2pi - log (2 * π) / 2) := by
  have hl : table.length = 126 := by decide +kernel
  have hk0 : (0 : ℝ) < k := by exact_mod_cast (by omega : 0 < k)
  refine ⟨_, by rw [logfactorial, if_neg (by rw [hl]; omega)], ?_⟩
  rw [stirling, corr]
  simp only [Int.cast_natCast]
  norm_num
  field_simp
  ring

/-- For every `k ≥ 126` the series branch is within `1/(1260 k⁵) + 1e-16` of `log k!`. -/
theorem C66_stirling (k : ℕ) (hk : 126 ≤ k) :
    ∃ v, ufunc k = some (.fin v) ∧ |v - log (k.factorial)| ≤ 1 / (1260 * (k : ℝ) ^ 5) + 1e-16 := by
  obtain ⟨v, h1, h2⟩ := formula k hk
  refine ⟨v, by rw [ufunc, if_neg (by omega), h1]; rfl, ?_⟩
  obtain ⟨r1, r2⟩ := rem_bounds k (by omega)
  have c := abs_le.1 halfln2pi_ok
  rw [rem] at r1 r2
  have : (0 : ℝ) ≤ 1 / (1260 * (k : ℝ) ^ 5) := by positivity
  rw [h2, abs_le]
  constructor <;> linarith [c.1, c.2]

/-- `logfactorial(k)` is a number for every `k ≥ 0` (the table is never read outside its bounds)
and is within 3.4e-14 of `log k!`, in both branches. -/
theorem C66_logfactorial (k : ℕ) : ∃ v, ufunc k = some (.fin v) ∧ |v - log (k.factorial)| ≤ 3.4e-14 := by
  by_cases hk : k < 126
  · have hl : table.length = 126 := by decide +kernel
    have hk' : k < table.length := by omega
    refine ⟨(table[k] : ℝ) / 10 ^ 17, ?_, (table_ok k hk').trans (by norm_num)⟩
    rw [ufunc, if_neg (by omega), logfactorial, if_pos (by rw [hl]; omega), lookup, if_neg (by omega)]
    simp [hk']
  · obtain ⟨v, h1, h2⟩ := C66_stirling k (by omega)
    refine ⟨v, h1, h2.trans ?_⟩
    have hkr : (126 : ℝ) ≤ k := by exact_mod_cast (by omega : 126 ≤ k)
    have h5 : (126 : ℝ) ^ 5 ≤ (k : ℝ) ^ 5 := pow_le_pow_left₀ (by norm_num) hkr 5
    have : 1 / (1260 * (k : ℝ) ^ 5) ≤ 1 / (1260 * 126 ^ 5) := by
      apply one_div_le_one_div_of_le (by norm_num); linarith
    refine (add_le_add_left this _).trans (by norm_num)

/-- Negative input gives NaN, and only negative input does. -/
theorem C66_negative (k : Int) : ufunc k = some .nan ↔ k < 0 := by
  constructor
  · intro h
    by_contra hk
    obtain ⟨n, rfl⟩ := Int.eq_ofNat_of_zero_le (not_lt.1 hk)
    obtain ⟨v, h1, -⟩ := C66_logfactorial n
    rw [h1] at h
    simp at h
  · intro h; rw [ufunc, if_pos h]

/-- The function is strictly increasing from 1 on, across the switch between table and series. -/
theorem C66_increasing (j k : ℕ) (hj : 1 ≤ j) (hjk : j < k) :
    ∃ v w, ufunc j = some (.fin v) ∧ ufunc k = some (.fin w) ∧ v < w := by
  obtain ⟨v, h1, h2⟩ := C66_logfactorial j
  obtain ⟨w, h3, h4⟩ := C66_logfactorial k
  refine ⟨v, w, h1, h3, ?_⟩
  have a : ((j + 1).factorial : ℝ) ≤ k.factorial := by exact_mod_cast Nat.factorial_le hjk
  have b : log ((j + 1).factorial : ℝ) = log ((j + 1 : ℕ) : ℝ) + log (j.factorial : ℝ) := by
    rw [Nat.factorial_succ, Nat.cast_mul, log_mul (by positivity) (by positivity)]
  have c : log ((j + 1).factorial : ℝ) ≤ log (k.factorial : ℝ) := log_le_log (by positivity) a
  have d : log 2 ≤ log ((j + 1 : ℕ) : ℝ) := log_le_log (by norm_num) (by exact_mod_cast (by omega : 2 ≤ j + 1))
  have e := one_sub_inv_le_log_of_pos (show (0 : ℝ) < 2 by norm_num)
  norm_num at e
  have h2' := abs_le.1 h2
  have h4' := abs_le.1 h4
  norm_num at h2' h4'
  linarith [h2'.2, h4'.1]

/-- The table holds exactly the 126 values `log 0! … log 125!`, each to 3.3e-14. -/
theorem C66_table : table.length = 126 ∧ ∀ k (hk : k < table.length), |(table[k] : ℝ) / 10 ^ 17 - log (k.factorial)| ≤ 3.3e-14 :=
  ⟨by decide +kernel, fun k hk => table_ok k hk⟩

/-- `logfactorial(0)` and `logfactorial(1)` are exactly 0. -/
theorem C66_zero_one : ufunc 0 = some (.fin 0) ∧ ufunc 1 = some (.fin 0) := by
  have h0 : table[0]? = some 0 := by decide +kernel
  have h1 : table[1]? = some 0 := by decide +kernel
  have hl : table.length = 126 := by decide +kernel
  constructor
  · rw [ufunc, if_neg (by norm_num), logfactorial, if_pos (by rw [hl]; norm_num), lookup, if_neg (by norm_num)]
    simp [h0]
  · rw [ufunc, if_neg (by norm_num), logfactorial, if_pos (by rw [hl]; norm_num), lookup, if_neg (by norm_num)]
    simp [h1]

example : ufunc (-5) = some .nan := (C66_negative (-5)).2 (by norm_num)
example : ∃ v, ufunc (1000000 : ℕ) = some (.fin v) ∧ |v - log (Nat.factorial 1000000)| ≤ 1 / (1260 * ((1000000 : ℕ) : ℝ) ^ 5) + 1e-16 :=
  C66_stirling 1000000 (by norm_num)

end Ufunclab.Logfact

/-! ### multivariate_logbeta -/
namespace Ufunclab.Logbeta
open XF LogbetaSpec

section
variable {α : Type _}

theorem loop_eq (ad : α → α → α) (lg : α → α) (m : Mem α) (p stride : Int) (n k : Nat) (a s : α) :
    loop ad lg m p stride n k a s =
      (((List.range' k n).map fun i => get m p stride i).foldl ad a,
       ((List.range' k n).map fun i => lg (get m p stride i)).foldl ad s) := by
  induction n generalizing k a s with
  | zero => rfl
  | succ n ih => rw [loop]; simp only [ih, List.range'_succ, List.map_cons, List.foldl_cons]

/-- The contiguous and the strided path compute the same function of the elements, for every
stride and whatever the arithmetic: sum of `lgamma` in order, minus `lgamma` of the sum; only the
output cell changes; an empty vector gives NaN. -/
theorem C66_logbeta_paths (ad sb : α → α → α) (lg : α → α) (zero nan : α) (size : Int) (m : Mem α) (n : Nat) (p stride pout : Int) :
    core ad sb lg zero nan size m n p stride pout =
      m.store pout (if n = 0 then nan else
        sb (((elems m p stride n).map lg).foldl ad zero) (lg ((elems m p stride n).foldl ad zero))) := by
  rw [core]
  by_cases h : n = 0
  · rw [if_pos h, if_pos h]
  · rw [if_neg h, if_neg h]
    have e : ∀ s : Int, loop ad lg m p s n 0 zero zero = ((elems m p s n).foldl ad zero, ((elems m p s n).map lg).foldl ad zero) := by
      intro s
      rw [loop_eq, ← List.range_eq_range', elems, List.map_map]; rfl
    by_cases h2 : stride = size
    · rw [if_pos h2, contig]
      simp only [e, h2]
    · rw [if_neg h2]
      simp only [e]
end

theorem foldl_fin (f : ℝ → ℝ) (x : List ℝ) (a : ℝ) : (x.map fun v => XF.fin (f v)).foldl XF.add (.fin a) = .fin (a + (x.map f).sum) := by
  induction x generalizing a with
  | nil => simp
  | cons v x ih => simp only [List.map_cons, List.foldl_cons, add_fin, ih, List.sum_cons, add_assoc]

theorem lgamma_pos (a : ℝ) (h : 0 < a) : lgamma (.fin a) = .fin (Real.log (Real.Gamma a)) := by
  have hn : ¬ ∃ n : ℕ, a = -(n : ℝ) := by
    rintro ⟨n, hn⟩
    have : (0 : ℝ) ≤ n := Nat.cast_nonneg n
    linarith
  rw [lgamma, if_neg hn, abs_of_pos (Real.Gamma_pos_of_pos h)]

theorem sum_pos (x : List ℝ) (hne : x ≠ []) (h : ∀ a ∈ x, 0 < a) : 0 < x.sum := List.sum_pos x h hne

theorem log_prod (x : List ℝ) (h : ∀ a ∈ x, 0 < a) :
    (x.map fun a => Real.log (Real.Gamma a)).sum = Real.log (x.map Real.Gamma).prod := by
  induction x with
  | nil => simp
  | cons v x ih =>
    have h1 : Real.Gamma v ≠ 0 := (Real.Gamma_pos_of_pos (h v (by simp))).ne'
    have h2 : (x.map Real.Gamma).prod ≠ 0 := by
      apply List.prod_ne_zero
      intro h0
      obtain ⟨a, ha, h0⟩ := List.mem_map.1 h0
      exact (Real.Gamma_pos_of_pos (h a (by simp [ha]))).ne' h0
    rw [List.map_cons, List.sum_cons, List.map_cons, List.prod_cons, Real.log_mul h1 h2, ih fun a ha => h a (by simp [ha])]

/-- For positive parameters the result is `log B(x)` with `B(x) = ∏Γ(xᵢ)/Γ(Σxᵢ)`; every stride. -/
theorem C66_logbeta (size : Int) (m : Mem (XF ℝ)) (n : Nat) (p stride pout : Int) (x : List ℝ)
    (hx : elems m p stride n = x.map XF.fin) (hn : n ≠ 0) (hpos : ∀ a ∈ x, 0 < a) :
    logbeta size m n p stride pout = m.store pout (.fin (Real.log (betaFn x))) := by
  have hlen : x.length = n := by
    have := congrArg List.length hx
    simpa [elems] using this.symm
  have hne : x ≠ [] := by rintro rfl; exact hn hlen.symm
  rw [logbeta, C66_logbeta_paths, if_neg hn, hx]
  have e1 : (x.map XF.fin).map lgamma = x.map fun a => XF.fin (Real.log (Real.Gamma a)) := by
    rw [List.map_map]
    exact List.map_congr_left fun a ha => lgamma_pos a (hpos a ha)
  have e2 : (x.map XF.fin).foldl XF.add (.fin 0) = .fin x.sum := by
    have := foldl_fin id x 0
    simpa using this
  have hs := sum_pos x hne hpos
  rw [e1, foldl_fin, e2, lgamma_pos _ hs, sub_fin, zero_add, log_prod x hpos, betaFn]
  congr 2
  rw [Real.log_div _ (Real.Gamma_pos_of_pos hs).ne']
  apply List.prod_ne_zero
  intro h0
  obtain ⟨a, ha, h0⟩ := List.mem_map.1 h0
  exact (Real.Gamma_pos_of_pos (hpos a ha)).ne' h0

/-- The order of the parameters does not matter. -/
theorem C66_logbeta_perm (size : Int) (m m' : Mem (XF ℝ)) (n : Nat) (p stride p' stride' pout : Int) (x y : List ℝ)
    (hx : elems m p stride n = x.map XF.fin) (hy : elems m' p' stride' n = y.map XF.fin) (hxy : x.Perm y) (hn : n ≠ 0)
    (hpos : ∀ a ∈ x, 0 < a) : logbeta size m n p stride pout pout = logbeta size m' n p' stride' pout pout := by
  rw [C66_logbeta size m n p stride pout x hx hn hpos,
    C66_logbeta size m' n p' stride' pout y hy hn (fun a ha => hpos a (hxy.mem_iff.2 ha)), betaFn, betaFn,
    (hxy.map _).prod_eq, hxy.sum_eq]
  simp [Mem.store]

theorem foldl_nan (l : List (XF ℝ)) : l.foldl XF.add .nan = .nan := by
  induction l with
  | nil => rfl
  | cons a l ih => rw [List.foldl_cons, show XF.add .nan a = .nan by cases a <;> rfl, ih]

theorem foldl_nan_mem (l : List (XF ℝ)) (h : XF.nan ∈ l) (a : XF ℝ) : l.foldl XF.add a = .nan := by
  induction l generalizing a with
  | nil => simp at h
  | cons b l ih =>
    rw [List.foldl_cons]
    rcases List.mem_cons.1 h with rfl | h
    · rw [show XF.add a .nan = .nan by cases a <;> rfl, foldl_nan]
    · exact ih h _

/-- A NaN among the parameters gives NaN, whatever the others are. -/
theorem C66_logbeta_nan (size : Int) (m : Mem (XF ℝ)) (n : Nat) (p stride pout : Int) (h : XF.nan ∈ elems m p stride n) :
    logbeta size m n p stride pout = m.store pout .nan := by
  rw [logbeta, C66_logbeta_paths]
  have h1 : XF.nan ∈ (elems m p stride n).map lgamma := List.mem_map.2 ⟨_, h, rfl⟩
  rw [foldl_nan_mem _ h1, foldl_nan_mem _ h, show XF.sub .nan (lgamma .nan) = (.nan : XF ℝ) from rfl, ite_self]

example : XF.nan ∈ elems (fun a => if a = 8 then XF.nan else XF.fin (1 : ℝ)) 0 8 3 := by simp [elems, get, List.range_succ]

theorem foldl_pinf (l : List (XF ℝ)) (h : ∀ v ∈ l, v = .pinf ∨ ∃ a, v = .fin a) : l.foldl XF.add .pinf = .pinf := by
  induction l with
  | nil => rfl
  | cons a l ih =>
    have h2 := ih fun v hv => h v (by simp [hv])
    rcases h a (by simp) with rfl | ⟨b, rfl⟩ <;> exact h2

theorem foldl_pinf_mem (l : List (XF ℝ)) (h : ∀ v ∈ l, v = .pinf ∨ ∃ a, v = .fin a) (hp : XF.pinf ∈ l) (b : ℝ) :
    l.foldl XF.add (.fin b) = .pinf := by
  induction l generalizing b with
  | nil => simp at hp
  | cons a l ih =>
    have h2 := fun v hv => h v (List.mem_cons_of_mem _ hv)
    rcases h a (by simp) with rfl | ⟨c, rfl⟩
    · exact foldl_pinf l h2
    · rw [List.foldl_cons, show XF.add (.fin b) (.fin c) = XF.fin (b + c) from rfl]
      exact ih h2 (by simpa using hp) _

/-- A parameter that is zero or a negative integer, where the gamma function has a pole, gives
`+∞` when the sum of the parameters is not such a number. -/
theorem C66_logbeta_pole (size : Int) (m : Mem (XF ℝ)) (n : Nat) (p stride pout : Int) (x : List ℝ)
    (hx : elems m p stride n = x.map XF.fin) (hp : ∃ k : ℕ, -(k : ℝ) ∈ x) (hs : ¬ ∃ k : ℕ, x.sum = -(k : ℝ)) :
    logbeta size m n p stride pout = m.store pout .pinf := by
  obtain ⟨k, hk⟩ := hp
  have hn : n ≠ 0 := by
    rintro rfl
    have := congrArg List.length hx
    have : x = [] := by simpa [elems] using this.symm
    simp [this] at hk
  rw [logbeta, C66_logbeta_paths, if_neg hn, hx]
  have e2 : (x.map XF.fin).foldl XF.add (.fin 0) = .fin x.sum := by simpa using foldl_fin id x 0
  have e1 : ((x.map XF.fin).map lgamma).foldl XF.add (.fin 0) = .pinf := by
    apply foldl_pinf_mem
    · intro v hv
      obtain ⟨w, hw, rfl⟩ := List.mem_map.1 hv
      obtain ⟨a, _, rfl⟩ := List.mem_map.1 hw
      rw [lgamma]; split_ifs
      · exact Or.inl rfl
      · exact Or.inr ⟨_, rfl⟩
    · refine List.mem_map.2 ⟨_, List.mem_map.2 ⟨_, hk, rfl⟩, ?_⟩
      rw [lgamma, if_pos ⟨k, rfl⟩]
  rw [e1, e2, lgamma, if_neg hs]; rfl

/-- When only the sum of the parameters is zero or a negative integer the result is `-∞`. -/
theorem C66_logbeta_sum_pole (size : Int) (m : Mem (XF ℝ)) (n : Nat) (p stride pout : Int) (x : List ℝ)
    (hx : elems m p stride n = x.map XF.fin) (hn : n ≠ 0) (hp : ∀ a ∈ x, ¬ ∃ k : ℕ, a = -(k : ℝ)) (hs : ∃ k : ℕ, x.sum = -(k : ℝ)) :
    logbeta size m n p stride pout = m.store pout .ninf := by
  rw [logbeta, C66_logbeta_paths, if_neg hn, hx]
  have e2 : (x.map XF.fin).foldl XF.add (.fin 0) = .fin x.sum := by simpa using foldl_fin id x 0
  have e1 : (x.map XF.fin).map lgamma = x.map fun a => XF.fin (Real.log |Real.Gamma a|) := by
    rw [List.map_map]
    refine List.map_congr_left fun a ha => ?_
    rw [Function.comp, lgamma, if_neg (hp a ha)]
  rw [e1, foldl_fin, e2, lgamma, if_pos hs]; rfl

example : (∃ k : ℕ, -(k : ℝ) ∈ [0, 1 / 2]) ∧ ¬ ∃ k : ℕ, ([0, 1 / 2] : List ℝ).sum = -(k : ℝ) := by
  refine ⟨⟨0, by simp⟩, ?_⟩
  rintro ⟨k, hk⟩
  have : (0 : ℝ) ≤ k := Nat.cast_nonneg k
  simp at hk
  linarith

/-- No parameters: NaN. -/
theorem C66_logbeta_empty (size : Int) (m : Mem (XF ℝ)) (p stride pout : Int) :
    logbeta size m 0 p stride pout = m.store pout .nan := by
  rw [logbeta, C66_logbeta_paths, if_pos rfl]

/-- One parameter: the result is 0. -/
theorem C66_logbeta_one (size : Int) (m : Mem (XF ℝ)) (p stride pout : Int) (a : ℝ) (h : m p = .fin a) (ha : 0 < a) :
    logbeta size m 1 p stride pout = m.store pout (.fin 0) := by
  rw [C66_logbeta size m 1 p stride pout [a] (by simp [elems, get, h]) (by simp) (by simpa using ha), betaFn]
  simp [(Real.Gamma_pos_of_pos ha).ne']

/-- Two parameters: the exponential of the result is Euler's beta integral. -/
theorem C66_logbeta_integral (size : Int) (m : Mem (XF ℝ)) (p stride pout : Int) (a b : ℝ) (h0 : m p = .fin a) (h1 : m (p + stride) = .fin b)
    (ha : 0 < a) (hb : 0 < b) : ∃ v, logbeta size m 2 p stride pout = m.store pout (.fin v) ∧ Real.exp v = (Complex.betaIntegral a b).re := by
  refine ⟨_, C66_logbeta size m 2 p stride pout [a, b] (by simp [elems, get, h0, h1, List.range_succ]) (by simp) (by simp [ha, hb]), ?_⟩
  have e : betaFn [a, b] = ProbabilityTheory.beta a b := by simp [betaFn, ProbabilityTheory.beta]
  rw [e, Real.exp_log (ProbabilityTheory.beta_pos ha hb), ProbabilityTheory.beta_eq_betaIntegralReal a b ha hb]

/-- Non-positive parameters are not rejected: with a parameter `-1/2` the result is a finite
number (the logarithm of an absolute value), not NaN. -/
theorem C66_logbeta_nonpositive : ∃ m : Mem (XF ℝ), (∃ a : ℝ, a < 0 ∧ m 0 = .fin a) ∧
    ∃ v, logbeta 1 m 3 0 1 100 100 = .fin v := by
  refine ⟨fun i => if i = 0 then .fin (-1/2) else if i = 1 then .fin (1/2) else .fin 1, ⟨-1/2, by norm_num, by simp⟩, ?_⟩
  have hnp : ∀ a : ℝ, (∀ n : ℕ, a ≠ -(n : ℝ)) → lgamma (.fin a) = .fin (Real.log |Real.Gamma a|) := by
    intro a h
    rw [lgamma, if_neg]; rintro ⟨n, hn⟩; exact h n hn
  have h1 := hnp (-1/2) (by
    intro n hn
    have h2 : (2 * n : ℝ) = 1 := by linarith
    have h3 : 2 * n = 1 := by exact_mod_cast h2
    omega)
  refine ⟨Real.log |Real.Gamma (-1/2)| + Real.log (Real.Gamma (1/2)) + Real.log (Real.Gamma 1) - Real.log (Real.Gamma 1), ?_⟩
  · rw [logbeta, C66_logbeta_paths]
    simp only [elems, get, List.range_succ, List.range_zero, List.nil_append, List.cons_append, List.map_cons, List.map_nil, List.foldl_cons, List.foldl_nil]
    norm_num [Mem.store]
    norm_num at h1
    rw [h1, lgamma_pos (1/2) (by norm_num), lgamma_pos 1 (by norm_num)]
    simp only [add_fin, sub_fin]
    congr 1
    ring

example : ∃ v, logbeta 8 (fun i => if i = 0 then .fin 2 else .fin 3) 2 0 8 100 100 = .fin v := by
  obtain ⟨v, h, -⟩ := C66_logbeta_integral 8 (fun i => if i = 0 then .fin 2 else .fin 3) 0 8 100 2 3 rfl rfl (by norm_num) (by norm_num)
  exact ⟨v, by rw [h]; simp [Mem.store]⟩

end Ufunclab.Logbeta
