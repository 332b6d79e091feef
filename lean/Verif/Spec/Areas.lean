import Verif.Prelude.GridFn
import Mathlib.Data.Real.Basic

/-! Vocabulary for C31/C32. -/
namespace Surfalize.Spec

/-- The heights of a fully measured surface are the values of `f`. -/
def HasHeights (g : Grid (Option ℝ)) (f : Nat → Nat → ℝ) : Prop :=
  g.WF ∧ ∀ i < g.ny, ∀ j < g.nx, g.get i j = some (f i j)

/-- All heights are equal. -/
def Flat (ny nx : Nat) (f : Nat → Nat → ℝ) : Prop := ∀ i < ny, ∀ j < nx, f i j = f 0 0

end Surfalize.Spec
