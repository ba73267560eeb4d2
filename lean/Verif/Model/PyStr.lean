/-! # The Python string methods used by the code generators, on character lists -/
namespace Ufunclab.PyStr

/-- `s.replace(' ', '')`. -/
def dropSpaces (s : List Char) : List Char := s.filter (· ≠ ' ')

/-- `s.split(sep)` for a non-empty separator: leftmost, non-overlapping.  `acc` is the current
piece, reversed. -/
def splitAux (sep : List Char) : (acc s : List Char) → List (List Char)
  | acc, [] => [acc.reverse]
  | acc, c :: s =>
    if sep.isPrefixOf (c :: s) then acc.reverse :: splitAux sep [] (s.drop (sep.length - 1))
    else splitAux sep (c :: acc) s
  termination_by _ s => s.length
  decreasing_by
    · simp only [List.length_drop, List.length_cons]; omega
    · simp

def split (sep s : List Char) : List (List Char) := splitAux sep [] s

/-- `s.lstrip(c)`. -/
def lstrip (c : Char) (s : List Char) : List Char := s.dropWhile (· == c)
/-- `s.rstrip(c)`. -/
def rstrip (c : Char) (s : List Char) : List Char := (s.reverse.dropWhile (· == c)).reverse

/-- `int(s)`; `none` is ValueError.  Simplified: only unsigned ASCII decimal numerals are
accepted (Python also takes a sign, underscores, surrounding blanks, other Unicode digits). -/
def pyInt (s : List Char) : Option Nat :=
  if s ≠ [] ∧ s.all Char.isDigit then some (s.foldl (fun v c => v * 10 + (c.toNat - '0'.toNat)) 0) else none

/-- `s.find(sub)`: index of the first occurrence. -/
def find (sub : List Char) : List Char → Option Nat
  | [] => if sub.isEmpty then some 0 else none
  | c :: s => if sub.isPrefixOf (c :: s) then some 0 else (find sub s).map (· + 1)

end Ufunclab.PyStr
