import Verif.Spec.Placement
import Verif.Spec.Autocorr
import Verif.Model.Autocorr

/-! Vocabulary for C108: the autocorrelation of the same sample placed differently. -/
namespace Surfalize.Spec
open Surfalize

/-- `g'` is `g` turned by 180 degrees. -/
def IsTurn (g g' : Grid (Option ℝ)) : Prop :=
  g'.WF ∧ g'.ny = g.ny ∧ g'.nx = g.nx ∧ ∀ i < g.ny, ∀ j < g.nx, g'.get i j = g.get (g.ny - 1 - i) (g.nx - 1 - j)

/-- The interpolation along a line from the centre sees a mirrored or transposed array with an odd number of rows and columns
as the mirrored or transposed line. -/
structure LineMoves (line : Autocorr.LineInterp) : Prop where
  mirror : ∀ A B : Grid (Option ℝ), A.ny % 2 = 1 → A.nx % 2 = 1 → IsMirror A B → ∀ i < A.ny, ∀ j < A.nx,
    line B (i, A.nx - 1 - j) = line A (i, j)
  flip : ∀ A B : Grid (Option ℝ), A.ny % 2 = 1 → A.nx % 2 = 1 → IsFlip A B → ∀ i < A.ny, ∀ j < A.nx,
    line B (A.ny - 1 - i, j) = line A (i, j)
  transpose : ∀ A B : Grid (Option ℝ), A.ny % 2 = 1 → A.nx % 2 = 1 → IsTranspose A B → ∀ i < A.ny, ∀ j < A.nx,
    line B (j, i) = line A (i, j)

/-- Two lags of the same length with the same autocorrelation are the same or opposite. -/
def NoTies (g : Grid (Option ℝ)) (sx sy : ℝ) : Prop :=
  ∀ dy dx ey ex : Int, |dy| < g.ny → |dx| < g.nx → |ey| < g.ny → |ex| < g.nx →
    (dy * sy) ^ 2 + (dx * sx) ^ 2 = (ey * sy) ^ 2 + (ex * sx) ^ 2 →
    autocov g.ny g.nx g.val dy dx = autocov g.ny g.nx g.val ey ex → (ey = dy ∧ ex = dx) ∨ (ey = -dy ∧ ex = -dx)

end Surfalize.Spec
