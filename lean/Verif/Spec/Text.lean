/-! # Specification: joining pieces of text -/
namespace Ufunclab.PyStr

/-- `sep.join(parts)`. -/
def join (sep : List Char) : List (List Char) → List Char
  | [] => []
  | [p] => p
  | p :: q :: r => p ++ sep ++ join sep (q :: r)

end Ufunclab.PyStr
