import Verif.Model.Logfact
import Mathlib.Analysis.SpecialFunctions.Log.Deriv
import Mathlib.Analysis.SpecialFunctions.Stirling
import Mathlib.Analysis.Real.Pi.Bounds
import Mathlib.Tactic.Linarith
import Mathlib.Tactic.FieldSimp
import Mathlib.Tactic.Ring
import Mathlib.Tactic.Positivity
namespace Ufunclab.Logfact
open Real

/-! ### Rational bounds for logarithms -/

/-- The partial sum of `2·artanh t`. -/
noncomputable def psum (J : Nat) (t : ℝ) : ℝ := ∑ j ∈ Finset.range J, 2 * (1 / (2 * (j : ℝ) + 1)) * t ^ (2 * j + 1)

theorem log_series (J : Nat) (t : ℝ) (h0 : 0 ≤ t) (h1 : t < 1) :
    psum J t ≤ log (1 + t) - log (1 - t) ∧
    log (1 + t) - log (1 - t) ≤ psum J t + 2 * t ^ (2 * J + 1) / (2 * J + 1) / (1 - t ^ 2) := by
  have hs := hasSum_log_sub_log_of_abs_lt_one (x := t) (by rw [abs_of_nonneg h0]; exact h1)
  have hnn : ∀ j : ℕ, 0 ≤ 2 * (1 / (2 * (j : ℝ) + 1)) * t ^ (2 * j + 1) := fun j => by positivity
  refine ⟨sum_le_hasSum _ (fun j _ => hnn j) hs, ?_⟩
  have ht := (hasSum_nat_add_iff' J).2 hs
  have t2 : t ^ 2 < 1 := by nlinarith
  have hg := (hasSum_geometric_of_lt_one (sq_nonneg t) t2).mul_left (2 * t ^ (2 * J + 1) / (2 * J + 1))
  have := hasSum_le (fun k => ?_) ht hg
  · rw [psum]
    rw [div_eq_mul_inv (2 * t ^ (2 * J + 1) / (2 * J + 1))]
    linarith
  · have e : t ^ (2 * (k + J) + 1) = t ^ (2 * J + 1) * (t ^ 2) ^ k := by rw [← pow_mul, ← pow_add]; congr 1; ring
    rw [e]
    push_cast
    have hp : 0 ≤ t ^ (2 * J + 1) * (t ^ 2) ^ k := by positivity
    have hq : (1 : ℝ) / (2 * (k + J) + 1) ≤ 1 / (2 * J + 1) := by
      apply one_div_le_one_div_of_le (by positivity)
      have : (0 : ℝ) ≤ k := Nat.cast_nonneg k
      linarith
    have := mul_le_mul_of_nonneg_right hq hp
    calc 2 * (1 / (2 * ((k : ℝ) + J) + 1)) * (t ^ (2 * J + 1) * (t ^ 2) ^ k)
        = 2 * (1 / (2 * ((k : ℝ) + J) + 1) * (t ^ (2 * J + 1) * (t ^ 2) ^ k)) := by ring
      _ ≤ 2 * (1 / (2 * J + 1) * (t ^ (2 * J + 1) * (t ^ 2) ^ k)) := by linarith
      _ = _ := by ring

/-- Fixed point partial sum: `10^30·2·artanh(1/(2n+1))`, each term rounded down. -/
def fsum (n : Nat) : Nat → Nat
  | 0 => 0
  | J + 1 => fsum n J + 2 * 10 ^ 30 / ((2 * J + 1) * (2 * n + 1) ^ (2 * J + 1))

theorem fsum_bounds (n J : Nat) :
    (fsum n J : ℝ) ≤ 10 ^ 30 * psum J (1 / (2 * n + 1)) ∧ 10 ^ 30 * psum J (1 / (2 * n + 1)) ≤ fsum n J + J := by
  induction J with
  | zero => simp [fsum, psum]
  | succ J ih =>
    have hd : 0 < (2 * J + 1) * (2 * n + 1) ^ (2 * J + 1) := by positivity
    have e : (10 : ℝ) ^ 30 * (2 * (1 / (2 * (J : ℝ) + 1)) * (1 / (2 * n + 1)) ^ (2 * J + 1)) =
        ((2 * 10 ^ 30 : ℕ) : ℝ) / (((2 * J + 1) * (2 * n + 1) ^ (2 * J + 1) : ℕ) : ℝ) := by
      push_cast; rw [one_div_pow]; field_simp; norm_num
    have h1 : (((2 * 10 ^ 30 / ((2 * J + 1) * (2 * n + 1) ^ (2 * J + 1)) : ℕ) : ℝ)) ≤ ((2 * 10 ^ 30 : ℕ) : ℝ) / (((2 * J + 1) * (2 * n + 1) ^ (2 * J + 1) : ℕ) : ℝ) :=
      Nat.cast_div_le
    have h2 : ((2 * 10 ^ 30 : ℕ) : ℝ) / (((2 * J + 1) * (2 * n + 1) ^ (2 * J + 1) : ℕ) : ℝ) ≤
        ((2 * 10 ^ 30 / ((2 * J + 1) * (2 * n + 1) ^ (2 * J + 1)) : ℕ) : ℝ) + 1 := by
      rw [div_le_iff₀ (by exact_mod_cast hd)]
      have := Nat.lt_div_mul_add (a := 2 * 10 ^ 30) hd
      have h3 : (2 * 10 ^ 30 : ℕ) ≤ (2 * 10 ^ 30 / ((2 * J + 1) * (2 * n + 1) ^ (2 * J + 1)) + 1) * ((2 * J + 1) * (2 * n + 1) ^ (2 * J + 1)) := by
        rw [Nat.add_mul, one_mul]; exact this.le
      exact_mod_cast h3
    rw [psum, Finset.sum_range_succ, ← psum, mul_add, e, fsum]
    generalize ((2 * 10 ^ 30 : ℕ) : ℝ) / (((2 * J + 1) * (2 * n + 1) ^ (2 * J + 1) : ℕ) : ℝ) = q at *
    generalize 2 * 10 ^ 30 / ((2 * J + 1) * (2 * n + 1) ^ (2 * J + 1)) = r at *
    push_cast
    constructor <;> linarith [ih.1, ih.2]

theorem step_bounds (n : Nat) (hn : 1 ≤ n) :
    (fsum n 32 : ℝ) ≤ 10 ^ 30 * (log (n + 1) - log n) ∧ 10 ^ 30 * (log (n + 1) - log n) ≤ fsum n 32 + 33 := by
  have hnr : (1 : ℝ) ≤ n := by exact_mod_cast hn
  set t : ℝ := 1 / (2 * n + 1) with ht
  have ht0 : 0 < t := by positivity
  have ht1 : t ≤ 1 / 3 := by apply one_div_le_one_div_of_le <;> linarith
  have e : log (1 + t) - log (1 - t) = log (n + 1) - log n := by
    have a : 1 + t = (n + 1) * (2 * t) := by rw [ht]; field_simp; ring
    have b : 1 - t = n * (2 * t) := by rw [ht]; field_simp; ring
    rw [a, b, log_mul (x := (n : ℝ) + 1) (by linarith) (by positivity), log_mul (x := (n : ℝ)) (by linarith) (by positivity)]; ring
  obtain ⟨h1, h2⟩ := log_series 32 t ht0.le (by linarith)
  rw [e] at h1 h2
  obtain ⟨h3, h4⟩ := fsum_bounds n 32
  rw [← ht] at h3 h4
  have tail : (10 : ℝ) ^ 30 * (2 * t ^ (2 * 32 + 1) / (2 * (32 : ℕ) + 1) / (1 - t ^ 2)) ≤ 1 := by
    have p1 : t ^ 65 ≤ (1 / 3) ^ 65 := pow_le_pow_left₀ ht0.le ht1 65
    have p2 : (8 : ℝ) / 9 ≤ 1 - t ^ 2 := by nlinarith
    have p3 : 2 * t ^ 65 / 65 / (1 - t ^ 2) ≤ 2 * (1 / 3 : ℝ) ^ 65 / 65 / (8 / 9) := by
      apply div_le_div₀ (by positivity) _ (by norm_num) p2
      apply div_le_div_of_nonneg_right _ (by norm_num)
      linarith
    calc (10 : ℝ) ^ 30 * (2 * t ^ (2 * 32 + 1) / (2 * (32 : ℕ) + 1) / (1 - t ^ 2)) = 10 ^ 30 * (2 * t ^ 65 / 65 / (1 - t ^ 2)) := by norm_num
      _ ≤ 10 ^ 30 * (2 * (1 / 3 : ℝ) ^ 65 / 65 / (8 / 9)) := by
        apply mul_le_mul_of_nonneg_left p3 (by norm_num)
      _ ≤ 1 := by norm_num
  constructor
  · exact h3.trans (mul_le_mul_of_nonneg_left h1 (by norm_num))
  · have := mul_le_mul_of_nonneg_left h2 (by norm_num : (0 : ℝ) ≤ 10 ^ 30)
    rw [mul_add] at this
    push_cast at h4
    linarith

/-- Walk through the table: `l` is the fixed point `log k`, `f` the fixed point `log k!`; every
entry (times `10^17`) must be within 3.3e-14 of `f` (minus the slack of the fixed point sums). -/
def walk : (k l f : Nat) → List Nat → Bool
  | _, _, _, [] => true
  | k, l, f, v :: vs =>
    decide (v * 10 ^ 13 ≤ f + 32999 * 10 ^ 12) && decide (f ≤ v * 10 ^ 13 + 32999 * 10 ^ 12) &&
      (let l' := if k = 0 then 0 else l + fsum k 32
       walk (k + 1) l' (f + l') vs)

theorem walk_ok : walk 0 0 0 table = true := by decide +kernel

theorem walk_spec (vs : List Nat) (k l f : Nat) (h : walk k l f vs = true) (hk : k + vs.length ≤ 200)
    (hl : (l : ℝ) ≤ 10 ^ 30 * log k ∧ 10 ^ 30 * log k ≤ l + 33 * k)
    (hf : (f : ℝ) ≤ 10 ^ 30 * log (k.factorial) ∧ 10 ^ 30 * log (k.factorial) ≤ f + 33 * k * k) :
    ∀ i (hi : i < vs.length), |(vs[i] : ℝ) / 10 ^ 17 - log ((k + i).factorial)| ≤ 3.3e-14 := by
  induction vs generalizing k l f with
  | nil => intro i hi; simp at hi
  | cons v vs ih =>
    rw [walk] at h
    simp only [Bool.and_eq_true, decide_eq_true_eq] at h
    obtain ⟨⟨h1, h2⟩, h3⟩ := h
    have hkr : (k : ℝ) ≤ 200 := by
      have : k ≤ 200 := by simp at hk; omega
      exact_mod_cast this
    have hk0 : (0 : ℝ) ≤ k := Nat.cast_nonneg k
    intro i hi
    rcases i with _ | i
    · simp only [List.getElem_cons_zero, add_zero]
      have h1' : (v : ℝ) * 10 ^ 13 ≤ f + 32999 * 10 ^ 12 := by exact_mod_cast h1
      have h2' : (f : ℝ) ≤ v * 10 ^ 13 + 32999 * 10 ^ 12 := by exact_mod_cast h2
      have hkk : 33 * (k : ℝ) * k ≤ 33 * 200 * 200 := by nlinarith
      have e : (v : ℝ) / 10 ^ 17 = v * 10 ^ 13 / 10 ^ 30 := by ring
      rw [e, abs_le]
      constructor
      · rw [le_sub_iff_add_le, le_div_iff₀ (by norm_num)]
        have : (-3.3e-14 + log (k.factorial : ℝ)) * 10 ^ 30 = 10 ^ 30 * log (k.factorial : ℝ) - 33000 * 10 ^ 12 := by
          ring
        rw [this]; linarith [hf.2]
      · rw [sub_le_iff_le_add, div_le_iff₀ (by norm_num)]
        have : (3.3e-14 + log (k.factorial : ℝ)) * 10 ^ 30 = 10 ^ 30 * log (k.factorial : ℝ) + 33000 * 10 ^ 12 := by
          ring
        rw [this]; linarith [hf.1]
    · have hl' : (((if k = 0 then 0 else l + fsum k 32 : ℕ) : ℝ)) ≤ 10 ^ 30 * log ((k + 1 : ℕ) : ℝ) ∧
          10 ^ 30 * log ((k + 1 : ℕ) : ℝ) ≤ ((if k = 0 then 0 else l + fsum k 32 : ℕ) : ℝ) + 33 * ((k + 1 : ℕ) : ℝ) := by
        by_cases c : k = 0
        · subst c; simp
        · rw [if_neg c]
          obtain ⟨s1, s2⟩ := step_bounds k (by omega)
          push_cast
          rw [mul_sub] at s1 s2
          constructor <;> linarith [hl.1, hl.2]
      have hf' : (((f + if k = 0 then 0 else l + fsum k 32 : ℕ) : ℝ)) ≤ 10 ^ 30 * log ((k + 1).factorial : ℝ) ∧
          10 ^ 30 * log ((k + 1).factorial : ℝ) ≤ ((f + if k = 0 then 0 else l + fsum k 32 : ℕ) : ℝ) + 33 * ((k + 1 : ℕ) : ℝ) * ((k + 1 : ℕ) : ℝ) := by
        have e : log ((k + 1).factorial : ℝ) = log ((k + 1 : ℕ) : ℝ) + log (k.factorial : ℝ) := by
          rw [Nat.factorial_succ, Nat.cast_mul, log_mul (by positivity) (by positivity)]
        rw [e, mul_add, Nat.cast_add]
        have : (33 : ℝ) * k * k + 33 * ((k + 1 : ℕ) : ℝ) ≤ 33 * ((k + 1 : ℕ) : ℝ) * ((k + 1 : ℕ) : ℝ) := by
          push_cast; nlinarith
        constructor <;> linarith [hf.1, hf.2, hl'.1, hl'.2]
      have := ih (k + 1) _ _ h3 (by simp at hk ⊢; omega) hl' hf' i (by simpa using hi)
      simp only [List.getElem_cons_succ]
      have e : k + (i + 1) = k + 1 + i := by omega
      rw [e]; exact this

theorem table_ok (k : Nat) (hk : k < table.length) : |(table[k] : ℝ) / 10 ^ 17 - log (k.factorial)| ≤ 3.3e-14 := by
  have := walk_spec table 0 0 0 walk_ok (by decide +kernel) (by simp) (by simp) k hk
  simpa using this

/-! ### The Stirling series -/

/-- The correction terms of the truncated series. -/
noncomputable def corr (k : ℝ) : ℝ := 1 / (12 * k) - 1 / (360 * k ^ 3)

/-- The truncated Stirling series. -/
noncomputable def stirling (k : ℝ) : ℝ := (k + 1 / 2) * log k - k + log (2 * π) / 2 + corr k

/-- `log k! − stirling k`. -/
noncomputable def rem (k : ℕ) : ℝ := log (k.factorial) - stirling k

theorem half_log (k : ℝ) (hk : 0 < k) : (k + 1 / 2) * (log (k + 1) - log k) =
    (1 / (2 * (1 / (2 * k + 1)))) * (log (1 + 1 / (2 * k + 1)) - log (1 - 1 / (2 * k + 1))) := by
  set t : ℝ := 1 / (2 * k + 1) with ht
  have ht0 : 0 < t := by positivity
  have a : 1 + t = (k + 1) * (2 * t) := by rw [ht]; field_simp; ring
  have b : 1 - t = k * (2 * t) := by rw [ht]; field_simp; ring
  rw [a, b, log_mul (x := k + 1) (by linarith) (by positivity), log_mul (x := k) (by linarith) (by positivity)]
  have c : k + 1 / 2 = 1 / (2 * t) := by rw [ht]; field_simp
  rw [c]; ring

/-- `D = (k+1/2)·log(1+1/k) − 1` between partial sums, in `y = 1/(2k+1)²`. -/
theorem half_log_bounds (k : ℝ) (hk : 1 ≤ k) :
    let y := (1 / (2 * k + 1)) ^ 2
    1 + y / 3 + y ^ 2 / 5 + y ^ 3 / 7 ≤ (k + 1 / 2) * (log (k + 1) - log k) ∧
    (k + 1 / 2) * (log (k + 1) - log k) ≤ 1 + y / 3 + y ^ 2 / 5 + y ^ 3 / 7 + y ^ 4 / 9 / (1 - y) := by
  intro y
  rw [half_log k (by linarith)]
  set t : ℝ := 1 / (2 * k + 1) with ht
  have ht0 : 0 < t := by positivity
  have ht1 : t ≤ 1 / 3 := by apply one_div_le_one_div_of_le <;> linarith
  obtain ⟨h1, h2⟩ := log_series 4 t ht0.le (by linarith)
  have e : psum 4 t = 2 * t * (1 + y / 3 + y ^ 2 / 5 + y ^ 3 / 7) := by
    simp only [psum, Finset.sum_range_succ, Finset.sum_range_zero]
    push_cast
    show _ = 2 * t * (1 + t ^ 2 / 3 + (t ^ 2) ^ 2 / 5 + (t ^ 2) ^ 3 / 7)
    ring
  have e2 : 2 * t ^ (2 * 4 + 1) / (2 * ((4 : ℕ) : ℝ) + 1) / (1 - t ^ 2) = 2 * t * (y ^ 4 / 9 / (1 - y)) := by
    show _ = 2 * t * ((t ^ 2) ^ 4 / 9 / (1 - t ^ 2))
    push_cast; ring
  rw [e2, e] at h2
  rw [e] at h1
  have ht2 : 0 < 2 * t := by positivity
  constructor
  · rw [one_div_mul_eq_div, le_div_iff₀ ht2]; linarith
  · rw [one_div_mul_eq_div, div_le_iff₀ ht2]; linarith

theorem poly_lower (y : ℝ) (h0 : 0 < y) (h1 : y ≤ 1 / 9) :
    y / (3 * (1 - y)) - (6 * y ^ 2 + 2 * y ^ 3) / (45 * (1 - y) ^ 3) ≤ y / 3 + y ^ 2 / 5 + y ^ 3 / 7 := by
  have hp : 0 < 1 - y := by linarith
  have e : (y / 3 + y ^ 2 / 5 + y ^ 3 / 7) - (y / (3 * (1 - y)) - (6 * y ^ 2 + 2 * y ^ 3) / (45 * (1 - y) ^ 3)) =
      y ^ 3 * (80 - 51 * y + 72 * y ^ 2 - 45 * y ^ 3) / (315 * (1 - y) ^ 3) := by
    field_simp
    ring
  have k0 : 0 ≤ 80 - 51 * y + 72 * y ^ 2 - 45 * y ^ 3 := by
    have : 45 * y ^ 3 ≤ 45 * y ^ 2 := by nlinarith [sq_nonneg y]
    nlinarith [sq_nonneg y]
  have : 0 ≤ y ^ 3 * (80 - 51 * y + 72 * y ^ 2 - 45 * y ^ 3) / (315 * (1 - y) ^ 3) := by positivity
  linarith

theorem poly_upper (y : ℝ) (h0 : 0 < y) (h1 : y ≤ 1 / 9) :
    y / 3 + y ^ 2 / 5 + y ^ 3 / 7 + y ^ 4 / 9 / (1 - y) ≤
      y / (3 * (1 - y)) - (6 * y ^ 2 + 2 * y ^ 3) / (45 * (1 - y) ^ 3) + 8 / 315 * y ^ 3 * (10 + 20 * y + 2 * y ^ 2) / (1 - y) ^ 5 := by
  have hp : 0 < 1 - y := by linarith
  have e : (y / (3 * (1 - y)) - (6 * y ^ 2 + 2 * y ^ 3) / (45 * (1 - y) ^ 3) + 8 / 315 * y ^ 3 * (10 + 20 * y + 2 * y ^ 2) / (1 - y) ^ 5) -
      (y / 3 + y ^ 2 / 5 + y ^ 3 / 7 + y ^ 4 / 9 / (1 - y)) =
      y ^ 4 * (336 - 98 * y + 30 * y ^ 2 - 22 * y ^ 3 + 10 * y ^ 4) / (315 * (1 - y) ^ 5) := by
    field_simp
    ring
  have k0 : 0 ≤ 336 - 98 * y + 30 * y ^ 2 - 22 * y ^ 3 + 10 * y ^ 4 := by
    have a : 22 * y ^ 3 ≤ 22 * y ^ 2 := by nlinarith [sq_nonneg y]
    have b : 0 ≤ y ^ 4 := by positivity
    nlinarith [sq_nonneg y]
  have : 0 ≤ y ^ 4 * (336 - 98 * y + 30 * y ^ 2 - 22 * y ^ 3 + 10 * y ^ 4) / (315 * (1 - y) ^ 5) := by positivity
  linarith

theorem corr_diff (k : ℝ) (hk : 1 ≤ k) :
    let y := (1 / (2 * k + 1)) ^ 2
    corr k - corr (k + 1) = y / (3 * (1 - y)) - (6 * y ^ 2 + 2 * y ^ 3) / (45 * (1 - y) ^ 3) := by
  intro y
  have hk0 : 0 < k := by linarith
  have h1 : 1 - y = 4 * k * (k + 1) / (2 * k + 1) ^ 2 := by
    show 1 - (1 / (2 * k + 1)) ^ 2 = _
    field_simp
    ring
  have h2 : y = 1 / (2 * k + 1) ^ 2 := by show (1 / (2 * k + 1)) ^ 2 = _; rw [one_div_pow]
  rw [h1, h2, corr, corr]
  field_simp
  ring

theorem tail_diff (k : ℝ) (hk : 1 ≤ k) :
    let y := (1 / (2 * k + 1)) ^ 2
    1 / (1260 * k ^ 5) - 1 / (1260 * (k + 1) ^ 5) = 8 / 315 * y ^ 3 * (10 + 20 * y + 2 * y ^ 2) / (1 - y) ^ 5 := by
  intro y
  have hk0 : 0 < k := by linarith
  have h1 : 1 - y = 4 * k * (k + 1) / (2 * k + 1) ^ 2 := by
    show 1 - (1 / (2 * k + 1)) ^ 2 = _
    field_simp
    ring
  have h2 : y = 1 / (2 * k + 1) ^ 2 := by show (1 / (2 * k + 1)) ^ 2 = _; rw [one_div_pow]
  rw [h1, h2]
  field_simp
  ring

/-- The remainder decreases, and by no more than the next term does. -/
theorem rem_step (k : ℕ) (hk : 1 ≤ k) : 0 ≤ rem k - rem (k + 1) ∧
    rem k - rem (k + 1) ≤ 1 / (1260 * (k : ℝ) ^ 5) - 1 / (1260 * ((k + 1 : ℕ) : ℝ) ^ 5) := by
  have hkr : (1 : ℝ) ≤ k := by exact_mod_cast hk
  have ef : log ((k + 1).factorial : ℝ) = log ((k : ℝ) + 1) + log (k.factorial : ℝ) := by
    rw [Nat.factorial_succ, Nat.cast_mul, log_mul (by positivity) (by positivity)]; push_cast; rfl
  have e : rem k - rem (k + 1) = (k + 1 / 2) * (log (k + 1) - log k) - 1 - (corr k - corr (k + 1)) := by
    rw [rem, rem, ef, stirling, stirling]; push_cast; ring
  have hb := half_log_bounds k hkr
  have hc := corr_diff k hkr
  have ht := tail_diff k hkr
  simp only [] at hb hc ht
  set y : ℝ := (1 / (2 * (k : ℝ) + 1)) ^ 2 with hy
  have hy0 : 0 < y := by positivity
  have hy1 : y ≤ 1 / 9 := by
    have : (1 : ℝ) / (2 * k + 1) ≤ 1 / 3 := by apply one_div_le_one_div_of_le <;> linarith
    calc y ≤ (1 / 3) ^ 2 := pow_le_pow_left₀ (by positivity) this 2
      _ = 1 / 9 := by norm_num
  have p1 := poly_lower y hy0 hy1
  have p2 := poly_upper y hy0 hy1
  push_cast
  rw [e, hc, ht]
  constructor <;> linarith [hb.1, hb.2]

open Filter Topology in
theorem rem_tendsto : Tendsto rem atTop (𝓝 0) := by
  have h1 : Tendsto (fun n => log (Stirling.stirlingSeq n)) atTop (𝓝 (log (√π))) :=
    (Stirling.tendsto_stirlingSeq_sqrt_pi).log (by positivity)
  have h2 : Tendsto (fun n : ℕ => corr (n : ℝ)) atTop (𝓝 0) := by
    have a : Tendsto (fun n : ℕ => (1 / (12 * (n : ℝ)))) atTop (𝓝 0) := by
      have := (tendsto_one_div_atTop_nhds_zero_nat (𝕜 := ℝ)).const_mul (1 / 12)
      rw [mul_zero] at this
      refine this.congr fun n => ?_
      rw [one_div_mul_one_div]
    have b : Tendsto (fun n : ℕ => (1 / (360 * (n : ℝ) ^ 3))) atTop (𝓝 0) := by
      have := ((tendsto_one_div_atTop_nhds_zero_nat (𝕜 := ℝ)).pow 3).const_mul (1 / 360)
      rw [zero_pow (by norm_num), mul_zero] at this
      refine this.congr fun n => ?_
      rw [one_div_pow, one_div_mul_one_div]
    have := a.sub b
    rw [sub_zero] at this
    exact this
  have h3 := (h1.sub h2).sub_const (log (√π))
  rw [sub_zero, sub_self] at h3
  refine h3.congr' ?_
  filter_upwards [eventually_gt_atTop 0] with n hn
  have hnr : (0 : ℝ) < n := by exact_mod_cast hn
  rw [Stirling.log_stirlingSeq_formula, rem, stirling, log_sqrt pi_pos.le, log_mul (by norm_num) pi_pos.ne',
    log_mul (by norm_num) hnr.ne', log_div hnr.ne' (exp_pos 1).ne', log_exp]
  ring

/-- Stirling's series truncated at `1/k³`: the remainder is positive and less than the next term. -/
theorem rem_bounds (k : ℕ) (hk : 1 ≤ k) : 0 ≤ rem k ∧ rem k ≤ 1 / (1260 * (k : ℝ) ^ 5) := by
  have hanti : Antitone fun n => rem (n + 1) := antitone_nat_of_succ_le fun n => by
    have := (rem_step (n + 1) (by omega)).1; linarith
  have hmono : Monotone fun n => rem (n + 1) - 1 / (1260 * ((n + 1 : ℕ) : ℝ) ^ 5) := monotone_nat_of_le_succ fun n => by
    have := (rem_step (n + 1) (by omega)).2; linarith
  have l1 := (Filter.tendsto_add_atTop_iff_nat 1).2 rem_tendsto
  have l2 : Filter.Tendsto (fun n : ℕ => 1 / (1260 * ((n + 1 : ℕ) : ℝ) ^ 5)) Filter.atTop (nhds 0) := by
    have := ((tendsto_one_div_add_atTop_nhds_zero_nat (𝕜 := ℝ)).pow 5).const_mul (1 / 1260)
    rw [zero_pow (by norm_num), mul_zero] at this
    refine this.congr fun n => ?_
    rw [one_div_pow, one_div_mul_one_div]; push_cast; rfl
  have l3 := l1.sub l2
  rw [sub_zero] at l3
  obtain ⟨m, rfl⟩ : ∃ m, k = m + 1 := ⟨k - 1, by omega⟩
  constructor
  · exact hanti.le_of_tendsto l1 m
  · have := hmono.ge_of_tendsto l3 m
    linarith

/-! ### The constant -/

theorem log6 : |log 6 - 1.791759469228055000812| ≤ 1e-20 := by
  have h1 := step_bounds 1 (by norm_num)
  have h2 := step_bounds 2 (by norm_num)
  have f1 : fsum 1 32 = 693147180559945309417232121442 := by decide +kernel
  have f2 : fsum 2 32 = 405465108108164381978013115455 := by decide +kernel
  have e : log 6 = log 2 + log 3 := by rw [← log_mul (by norm_num) (by norm_num)]; norm_num
  rw [f1] at h1
  rw [f2] at h2
  norm_num at h1 h2
  rw [e, abs_le]
  constructor <;> norm_num <;> linarith [h1.1, h1.2, h2.1, h2.2]

theorem log_ratio (q t : ℝ) (hq : 6 < q) (ht : t = (q - 6) / (q + 6)) : log q - log 6 = log (1 + t) - log (1 - t) := by
  have a : 1 + t = q * (2 / (q + 6)) := by rw [ht]; field_simp; ring
  have b : 1 - t = 6 * (2 / (q + 6)) := by rw [ht]; field_simp; ring
  have c : (2 / (q + 6)) ≠ 0 := by positivity
  rw [a, b, log_mul (x := q) (by linarith) c, log_mul (x := 6) (by norm_num) c]; ring

theorem halfln2pi_ok : |halfln2pi - log (2 * π) / 2| ≤ 1e-16 := by
  have h6 := abs_le.1 log6
  have b1 : log 6.28318530717958647692 ≤ log (2 * π) := log_le_log (by norm_num) (by linarith [pi_gt_d20])
  have b2 : log (2 * π) ≤ log 6.28318530717958647694 := log_le_log (by positivity) (by linarith [pi_lt_d20])
  have r1 := log_ratio 6.28318530717958647692 _ (by norm_num) rfl
  have r2 := log_ratio 6.28318530717958647694 _ (by norm_num) rfl
  have s1 := (log_series 6 ((6.28318530717958647692 - 6) / (6.28318530717958647692 + 6)) (by norm_num) (by norm_num)).1
  have s2 := (log_series 6 ((6.28318530717958647694 - 6) / (6.28318530717958647694 + 6)) (by norm_num) (by norm_num)).2
  rw [← r1] at s1
  rw [← r2] at s2
  have p1 : (0.0461175971812904 : ℝ) ≤ psum 6 ((6.28318530717958647692 - 6) / (6.28318530717958647692 + 6)) := by
    simp only [psum, Finset.sum_range_succ, Finset.sum_range_zero]; norm_num
  have p2 : psum 6 ((6.28318530717958647694 - 6) / (6.28318530717958647694 + 6)) +
      2 * ((6.28318530717958647694 - 6) / (6.28318530717958647694 + 6) : ℝ) ^ (2 * 6 + 1) / (2 * (6 : ℕ) + 1) /
        (1 - ((6.28318530717958647694 - 6) / (6.28318530717958647694 + 6)) ^ 2) ≤ 0.0461175971812905 := by
    simp only [psum, Finset.sum_range_succ, Finset.sum_range_zero]; norm_num
  rw [halfln2pi, abs_le]
  constructor <;> norm_num at * <;> linarith

end Ufunclab.Logfact
