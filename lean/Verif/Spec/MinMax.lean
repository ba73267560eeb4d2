import Verif.Spec.Order
/-! # Specification: first extreme element -/
namespace Ufunclab.Spec

/-- Comparison on a type with NaNs (`isnan`): NaN compares less with nothing,
and on the other elements `lt` is a strict weak order. -/
structure NanOrder {α : Type _} (lt : α → α → Bool) (isnan : α → Bool) : Prop where
  irrefl : ∀ a, lt a a = false
  trans : ∀ a b c, lt a b = true → lt b c = true → lt a c = true
  nan_left : ∀ a b, lt a b = true → isnan a = false
  nan_right : ∀ a b, lt a b = true → isnan b = false
  negTrans : ∀ a b c, isnan b = false → lt a b = false → lt b c = false → lt a c = false

/-- `v` is the element at index `i` of `xs`, it is not NaN, no element is
less, and every earlier element is greater (or NaN): `i` is the first index of
a minimal non-NaN element. -/
structure IsFirstMin {α : Type _} (lt : α → α → Bool) (isnan : α → Bool) (xs : List α) (i : Nat)
    (v : α) : Prop where
  at_index : xs[i]? = some v
  not_nan : isnan v = false
  least : ∀ y ∈ xs, lt y v = false
  first : ∀ j < i, ∀ y, xs[j]? = some y → isnan y = true ∨ lt v y = true

/-- The same for the maximum (comparison reversed). -/
def IsFirstMax {α : Type _} (lt : α → α → Bool) (isnan : α → Bool) (xs : List α) (i : Nat)
    (v : α) : Prop := IsFirstMin (fun a b => lt b a) isnan xs i v

theorem StrictWeak.nanOrder {α : Type _} {lt : α → α → Bool} (h : StrictWeak lt) :
    NanOrder lt (fun _ => false) :=
  ⟨h.irrefl, h.trans, fun _ _ _ => rfl, fun _ _ _ => rfl, fun a b c _ => h.negTrans a b c⟩

theorem NanOrder.flip {α : Type _} {lt : α → α → Bool} {isnan : α → Bool} (h : NanOrder lt isnan) :
    NanOrder (fun a b => lt b a) isnan :=
  ⟨h.irrefl, fun a b c h1 h2 => h.trans c b a h2 h1, fun a b h1 => h.nan_right b a h1,
   fun a b h1 => h.nan_left b a h1, fun a b c hb h1 h2 => h.negTrans c b a hb h2 h1⟩

end Ufunclab.Spec
