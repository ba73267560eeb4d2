/-! # Specification: reassembling broken lines -/
namespace Ufunclab.UwrapSpec

/-- Undo the line breaking: the first line as it is, every further line after a blank and without its
`offset` characters of indentation. -/
def glue (offset : Nat) : List (List Char) → List Char
  | [] => []
  | l :: ls => l ++ (ls.map (fun l => ' ' :: l.drop offset)).flatten

/-- Every line after the first starts with `offset` blanks. -/
def Indented (offset : Nat) : List (List Char) → Prop
  | [] => True
  | _ :: ls => ∀ l ∈ ls, l.take offset = List.replicate offset ' '

/-- The positional parameters come first. -/
def PosFirst {α : Type _} (isPos : α → Bool) (l : List α) : Prop :=
  ∃ a b, l = a ++ b ∧ (∀ x ∈ a, isPos x = true) ∧ (∀ x ∈ b, isPos x = false)

/-- The names a ufunc call already gives a meaning to: the eleven keyword arguments and, for a
ufunc with several outputs, `out1`, `out2`, ... -/
inductive Reserved (nout : Nat) : List Char → Prop where
  | out : Reserved nout "out".toList
  | casting : Reserved nout "casting".toList
  | order : Reserved nout "order".toList
  | dtype : Reserved nout "dtype".toList
  | subok : Reserved nout "subok".toList
  | signature : Reserved nout "signature".toList
  | extobj : Reserved nout "extobj".toList
  | where_ : Reserved nout "where".toList
  | axis : Reserved nout "axis".toList
  | axes : Reserved nout "axes".toList
  | keepdims : Reserved nout "keepdims".toList
  | outK (k : Nat) (several : 2 ≤ nout) (h1 : 1 ≤ k) (h2 : k ≤ nout) : Reserved nout ("out".toList ++ (toString k).toList)

end Ufunclab.UwrapSpec
