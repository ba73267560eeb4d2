import Verif.Model.Mem
/-!
# Arguments that overlap the output

An array of `n` elements is `(p, s)`: element `j` is at `p + j*s`.  NumPy's rule for elementwise functions (NPY_ITER_COPY_IF_OVERLAP with
NPY_ITER_OVERLAP_ASSUME_ELEMENTWISE): an argument that is the output itself is used as it is, an argument that shares memory with the output in another way is
copied first.
-/
namespace Ufunclab.Overlap
variable {α : Type}

/-- The two arrays share a cell. -/
def Shares (n : Nat) (x out : Int × Int) : Prop := ∃ i j : Nat, i < n ∧ j < n ∧ x.1 + (i : Int) * x.2 = out.1 + (j : Int) * out.2

/-- `arg` is what the loop gets for `x`: `x`, or, if `x` shares memory with the output and is not the output, a copy outside the output. -/
def Prepared (m : Mem α) (n : Nat) (out x arg : Int × Int) : Prop :=
  arg = x ∧ (x = out ∨ ¬ Shares n x out) ∨
  ¬ Shares n arg out ∧ ∀ j : Nat, j < n → m (arg.1 + (j : Int) * arg.2) = m (x.1 + (j : Int) * x.2)

end Ufunclab.Overlap
