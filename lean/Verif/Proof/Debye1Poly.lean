import Mathlib.Analysis.Calculus.Deriv.Mul
import Mathlib.Analysis.Calculus.Deriv.Add
import Mathlib.Tactic.Ring
import Mathlib.Tactic.Linarith
import Mathlib.Tactic.NormNum
import Mathlib.Tactic.Positivity
/-! # Integer polynomials, evaluated by the kernel -/
namespace Ufunclab.Debye1

def padd : List ℤ → List ℤ → List ℤ
  | [], q => q
  | p, [] => p
  | a :: p, b :: q => (a + b) :: padd p q

def psmul (c : ℤ) : List ℤ → List ℤ
  | [] => []
  | a :: p => (c * a) :: psmul c p

def pmul : List ℤ → List ℤ → List ℤ
  | [], _ => []
  | a :: p, q => padd (psmul a q) (0 :: pmul p q)

def pabs : List ℤ → ℤ
  | [] => 0
  | a :: p => |a| + pabs p

/-- The formal derivative. -/
def pder : List ℤ → List ℤ
  | [] => []
  | _ :: p => padd p (0 :: pder p)

def pevalZ : List ℤ → ℤ → ℤ
  | [], _ => 0
  | a :: p, t => a + t * pevalZ p t

noncomputable def peval : List ℤ → ℝ → ℝ
  | [], _ => 0
  | a :: p, t => a + t * peval p t

@[simp] theorem peval_nil (t : ℝ) : peval [] t = 0 := rfl
@[simp] theorem peval_cons (a : ℤ) (p : List ℤ) (t : ℝ) : peval (a :: p) t = a + t * peval p t := rfl

theorem peval_padd (p q : List ℤ) (t : ℝ) : peval (padd p q) t = peval p t + peval q t := by
  induction p generalizing q with
  | nil => simp [padd]
  | cons a p ih =>
    cases q with
    | nil => simp [padd]
    | cons b q => simp only [padd, peval_cons, ih]; push_cast; ring

theorem peval_psmul (c : ℤ) (p : List ℤ) (t : ℝ) : peval (psmul c p) t = c * peval p t := by
  induction p with
  | nil => simp [psmul]
  | cons a p ih => simp only [psmul, peval_cons, ih]; push_cast; ring

theorem peval_pmul (p q : List ℤ) (t : ℝ) : peval (pmul p q) t = peval p t * peval q t := by
  induction p with
  | nil => simp [pmul]
  | cons a p ih => simp only [pmul, peval_padd, peval_psmul, peval_cons, ih]; push_cast; ring

theorem peval_intCast (p : List ℤ) (t : ℤ) : peval p t = pevalZ p t := by
  induction p with
  | nil => simp [pevalZ]
  | cons a p ih => simp only [pevalZ, peval_cons, ih]; push_cast; ring

theorem pabs_nonneg (p : List ℤ) : 0 ≤ pabs p := by
  induction p with
  | nil => simp [pabs]
  | cons a p ih => simp only [pabs]; have := abs_nonneg a; omega

theorem peval_abs_le_pow (p : List ℤ) {t τ : ℝ} (h1 : 1 ≤ τ) (ht : |t| ≤ τ) :
    |peval p t| ≤ pabs p * τ ^ p.length := by
  induction p with
  | nil => simp [pabs]
  | cons a p ih =>
    simp only [peval_cons, pabs, List.length_cons]
    push_cast
    have h2 : |t * peval p t| ≤ τ * (pabs p * τ ^ p.length) := by
      rw [abs_mul]; exact mul_le_mul ht ih (abs_nonneg _) (by linarith)
    have h3 : |(a : ℝ)| ≤ |(a : ℝ)| * τ ^ (p.length + 1) :=
      le_mul_of_one_le_right (abs_nonneg _) (one_le_pow₀ h1)
    calc |(a : ℝ) + t * peval p t| ≤ |(a : ℝ)| + |t * peval p t| := abs_add_le _ _
      _ ≤ |(a : ℝ)| * τ ^ (p.length + 1) + τ * (pabs p * τ ^ p.length) := add_le_add h3 h2
      _ = _ := by ring

/-- On the interval slightly larger than `[-1, 1]`. -/
theorem peval_abs_le (p : List ℤ) (hp : p.length ≤ 40) {t : ℝ} (ht : |t| ≤ 1 + 1 / 10 ^ 11) :
    |peval p t| ≤ 1.001 * pabs p := by
  have h := peval_abs_le_pow p (by norm_num) ht
  have h1 : ((1 : ℝ) + 1 / 10 ^ 11) ^ p.length ≤ (1 + 1 / 10 ^ 11) ^ 40 :=
    pow_le_pow_right₀ (by norm_num) hp
  have h2 : ((1 : ℝ) + 1 / 10 ^ 11) ^ 40 ≤ 1.001 := by norm_num
  have h3 : (0 : ℝ) ≤ pabs p := by exact_mod_cast pabs_nonneg p
  have h4 := mul_le_mul_of_nonneg_left (h1.trans h2) h3
  linarith

theorem hasDerivAt_peval (p : List ℤ) (t : ℝ) : HasDerivAt (peval p) (peval (pder p) t) t := by
  induction p with
  | nil => exact hasDerivAt_const t (0 : ℝ)
  | cons a p ih =>
    have h : HasDerivAt (fun x : ℝ => (a : ℝ) + x * peval p x) (1 * peval p t + t * peval (pder p) t) t :=
      ((hasDerivAt_id t).mul ih).const_add (a : ℝ)
    have e : peval (pder (a :: p)) t = 1 * peval p t + t * peval (pder p) t := by
      simp only [pder, peval_padd, peval_cons]; push_cast; ring
    rw [e]
    exact h

end Ufunclab.Debye1
