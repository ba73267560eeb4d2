import Mathlib.Data.Real.Basic
/-!
# Arithmetic of magnitudes

`Mag c`: numbers whose addition and subtraction both add, and whose multiplication multiplies and adds `c`.
A program that is generic in the operations, run on the absolute values of its inputs at this type, gives a
bound for all the intermediate results that no cancellation reduces.
-/
namespace Ufunclab.Float

structure Mag (c : ℝ) where
  val : ℝ

variable {c : ℝ}
noncomputable instance : Add (Mag c) := ⟨fun a b => ⟨a.val + b.val⟩⟩
noncomputable instance : Sub (Mag c) := ⟨fun a b => ⟨a.val + b.val⟩⟩
noncomputable instance : Mul (Mag c) := ⟨fun a b => ⟨a.val * b.val + c⟩⟩

end Ufunclab.Float
