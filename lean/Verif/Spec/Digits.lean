/-! # Specification: positional notation -/
namespace Ufunclab.Spec

/-- `d₀ + d₁·base + d₂·base² + ...` (lowest order digit first). -/
def ofDigits (base : Int) : List Int → Int
  | [] => 0
  | d :: ds => d + base * ofDigits base ds

end Ufunclab.Spec
