import Verif.Model.XF
namespace Ufunclab.XF
variable {K : Type _}

@[simp] theorem isnan_fin (a : K) : isnan (fin a) = false := rfl
@[simp] theorem isnan_nan : isnan (nan : XF K) = true := rfl
@[simp] theorem isinf_fin (a : K) : isinf (fin a) = false := rfl
@[simp] theorem isfinite_fin (a : K) : isfinite (fin a) = true := rfl
theorem isfinite_iff (x : XF K) : isfinite x = true ↔ ∃ a, x = fin a := by
  cases x <;> simp [isfinite]
theorem isnan_iff (x : XF K) : isnan x = true ↔ x = nan := by cases x <;> simp [isnan]

variable [LinearOrder K]
@[simp] theorem lt_fin (a b : K) : lt (fin a) (fin b) = decide (a < b) := rfl
@[simp] theorem eq_fin (a b : K) : eq (fin a) (fin b) = decide (a = b) := rfl
@[simp] theorem le_fin (a b : K) : le (fin a) (fin b) = decide (a ≤ b) := by
  simp [le, Bool.eq_iff_iff, le_iff_lt_or_eq]
@[simp] theorem ge_fin (a b : K) : ge (fin a) (fin b) = decide (b ≤ a) := le_fin b a
@[simp] theorem gt_fin (a b : K) : gt (fin a) (fin b) = decide (b < a) := rfl

variable [Field K]
@[simp] theorem neg_fin (a : K) : neg (fin a) = fin (-a) := rfl
@[simp] theorem add_fin (a b : K) : add (fin a) (fin b) = fin (a + b) := rfl
@[simp] theorem sub_fin (a b : K) : sub (fin a) (fin b) = fin (a - b) := by
  simp [sub, sub_eq_add_neg]
@[simp] theorem mul_fin (a b : K) : mul (fin a) (fin b) = fin (a * b) := rfl
theorem div_fin (a b : K) (h : b ≠ 0) : div (fin a) (fin b) = fin (a / b) := by simp [div, h]
@[simp] theorem abs_fin (a : K) : abs (fin a) = fin |a| := rfl

end Ufunclab.XF
