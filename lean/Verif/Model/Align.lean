import Verif.Model.FillRotate
import Verif.Model.Orientation
/-!
# Aligning a texture with an axis
-/
namespace Surfalize.Align
open FillRotate Orientation Fourier

/-- surface.py:742-746: the check of `axis` and the angle in degrees the surface is turned by, from the outcome of
`orientation(method=method)`, which is only computed for a valid axis. `none` is NaN. -/
noncomputable def alignAngle (axis : String) (orient : Except Err (Option ℝ)) : Except Err (Option ℝ) :=
  if axis = "x" ∨ axis = "y" then
    orient.map fun o => o.map fun θ => -(if axis = "x" then θ + 90 else θ)
  else .error .valueError

/-- surface.py:721-747 `align`: the heights and new steps `(step_y, step_x)`. `ndrotate` is
`ndimage.rotate(data, angle, reshape=True)`, here with the angle in degrees. Simplification: turning by NaN degrees is
an error. -/
noncomputable def align (argsort : Argsort) (fit : Fit) (ndrotate : Grid (Option ℝ) → ℝ → Grid (Option ℝ))
    (axis method : String) (g : Grid (Option ℝ)) (stepY stepX : ℝ) : Except Err (Grid (Option ℝ) × ℝ × ℝ) :=
  match alignAngle axis (orientation argsort fit method g (((g.nx : ℝ) - 1) * stepX) (((g.ny : ℝ) - 1) * stepY) stepX stepY) with
  | .error e => .error e
  | .ok none => .error .valueError
  | .ok (some angle) => rotateData g (ndrotate g angle) stepY stepX |Real.sin (angle * Real.pi / 180)|
      |Real.cos (angle * Real.pi / 180)|

end Surfalize.Align
