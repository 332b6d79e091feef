import Verif.Model.SplineLine
/-!
# What the spline filter of scipy guarantees
-/
namespace Surfalize.SplineSpec
open Surfalize Spline

/-- There are as many coefficients as points, and the spline with these coefficients takes the values of the array at its points. -/
structure Interpolates (coef : Prefilter) : Prop where
  shape : ∀ (A : Grid (Option ℝ)) i j, A.ny ≤ i ∨ A.nx ≤ j → coef A i j = 0
  value : ∀ A : Grid (Option ℝ), ∀ i < A.ny, ∀ j < A.nx, at2 A.ny A.nx (coef A) i j = A.val i j

end Surfalize.SplineSpec
