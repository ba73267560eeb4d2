import Verif.Model.CxxGen
import Verif.Spec.Text
/-!
# Specification: gufunc shape signatures and NumPy's calling convention
-/
namespace Ufunclab.CxxGen
open PyStr

/-- The characters with a meaning in a signature. -/
def special : List Char := [' ', '(', ')', ',', '-', '>']

/-- A core dimension as written: a name or a numeral. -/
def Token (s : List Char) : Prop := s ≠ [] ∧ ∀ c ∈ s, c ∉ special

/-- `(a,b,c)`. -/
def shapeText (toks : List (List Char)) : List Char := '(' :: (join [','] toks ++ [')'])

/-- `(a,b),(c)->(d)`. -/
def sigText (ins outs : List (List (List Char))) : List Char :=
  join [','] (ins.map shapeText) ++ ['-', '>'] ++ join [','] (outs.map shapeText)

/-- Value of a decimal numeral. -/
def numeral : List Char → Nat
  | [] => 0
  | c :: s => (c.toNat - '0'.toNat) * 10 ^ s.length + numeral s

/-- What a token denotes. -/
def dimOf (t : List Char) : Dim := if t.all Char.isDigit then .int (numeral t) else .str t

/-- Python representation of a shape: `''` for `()`, the item itself for one dimension, a list
otherwise. -/
def pyShape : List Dim → Shape
  | [] => .one (.str [])
  | [d] => .one d
  | ds => .many ds

/-- Number of core dimensions of an argument. -/
def Shape.rank : Shape → Nat
  | .one (.str []) => 0
  | .one _ => 1
  | .many ds => ds.length

/-- One operand as NumPy hands it to the loop: base address, stride of the outer loop, strides
of the core dimensions. -/
structure Operand where
  base : Int
  outer : Int
  core : List Int

/-- NumPy's `args`, `dimensions` and `steps` arrays. -/
def npArgs (ops : List Operand) : List Int := ops.map (·.base)
def npDimensions (n : Nat) (coreDims : List Dim) (size : Dim → Int) : List Int := n :: coreDims.map size
def npSteps (ops : List Operand) : List Int := ops.map (·.outer) ++ ops.flatMap (·.core)

/-- The sizes of the named core dimensions, in order. -/
def namedSizes (coreDims : List Dim) (size : Dim → Int) : List Int :=
  coreDims.filterMap fun | .str s => some (size (.str s)) | .int _ => none

/-- Names the generated loop can declare: those of the core dimensions must differ from each other,
from the pointers `p_v` for the variables, and from the names the loop uses itself; the variables must
differ. -/
structure Names (coreDims : List Dim) (vars : List (List Char)) : Prop where
  dims : coreDims.Nodup
  distinct : vars.Nodup
  own : ∀ s, Dim.str s ∈ coreDims →
    s ∉ ["args".toList, "dimensions".toList, "steps".toList, "data".toList, "nloops".toList]
  pointers : ∀ v ∈ vars, Dim.str ("p_".toList ++ v) ∉ coreDims

/-- Number of arrows in a text. -/
def arrows : List Char → Nat
  | '-' :: '>' :: s => arrows s + 1
  | _ :: s => arrows s
  | [] => 0

end Ufunclab.CxxGen
