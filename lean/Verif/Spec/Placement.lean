import Verif.Spec.Spectrum

/-! Vocabulary for C99: the same sample placed differently (see also `IsMirror`, `IsTranspose`, `IsAffine` in
`Verif.Spec.Spectrum`). -/
namespace Surfalize.Spec
open Surfalize

/-- `g'` is `g` mirrored top and bottom. -/
def IsFlip (g g' : Grid (Option ℝ)) : Prop :=
  g'.WF ∧ g'.ny = g.ny ∧ g'.nx = g.nx ∧ ∀ i < g.ny, ∀ j < g.nx, g'.get i j = g.get (g.ny - 1 - i) j

end Surfalize.Spec
