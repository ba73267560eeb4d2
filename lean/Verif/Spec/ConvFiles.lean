import Verif.Model.ConvFiles
/-!
# Specification of the include files of conv_template
-/
namespace Ufunclab.ConvFilesSpec
open ConvFiles

/-- `q` is an existing file that a line of the file `p` includes. -/
def Includes {P L : Type} (fs : Files P L) (q p : P) : Prop :=
  ∃ ls l, fs.content p = some ls ∧ l ∈ ls ∧ fs.target p l = some q ∧ (fs.content q).isSome

mutual
/-- `out` are the lines of the file `p` with every include line of an existing file replaced by the
lines of that file, in which the same has been done. -/
inductive Inlined {P L : Type} (fs : Files P L) : P → List L → Prop
  | file {p ls out} : fs.content p = some ls → InlinedLines fs p ls out → Inlined fs p out
/-- The same for some lines of the file `p`. -/
inductive InlinedLines {P L : Type} (fs : Files P L) : P → List L → List L → Prop
  | nil {p} : InlinedLines fs p [] []
  | incl {p l rest q sub out} : fs.target p l = some q → (fs.content q).isSome → Inlined fs q sub →
      InlinedLines fs p rest out → InlinedLines fs p (l :: rest) (sub ++ out)
  | keep {p l rest out} : (∀ q, fs.target p l = some q → fs.content q = none) →
      InlinedLines fs p rest out → InlinedLines fs p (l :: rest) (l :: out)
end

end Ufunclab.ConvFilesSpec
