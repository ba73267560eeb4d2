import Verif.Spec.FloatArith
/-!
# Division and order of the numbers with rounded operations
-/
namespace Ufunclab.Float
variable {rd : ℝ → ℝ}

theorem Fl.val_injective : Function.Injective (Fl.val : Fl rd → ℝ) := by
  intro a b h; cases a; cases b; cases h; rfl

noncomputable instance : Div (Fl rd) := ⟨fun a b => ⟨rd (a.val / b.val)⟩⟩
/-- A small integer literal is converted exactly. -/
noncomputable instance : OfNat (Fl rd) 2 := ⟨⟨2⟩⟩
noncomputable instance : LinearOrder (Fl rd) := LinearOrder.lift' Fl.val Fl.val_injective

end Ufunclab.Float
