import Verif.Model.Autocorr
/-!
# Interpolation along a line (surfalize/mathutils.py:12-37)

`scipy.ndimage.map_coordinates(array, coords, order=3)` is the cubic spline through the array: `spline_filter` computes coefficients, whose
array is continued beyond its edges by reflection in the outermost points, and the spline is the sum of cubic B-splines with these
coefficients. The computation of the coefficients is an external call, `Prefilter`; the rounding of the computation is not modelled.
-/
namespace Surfalize.Spline
open Surfalize Finset Autocorr

/-- The cubic B-spline of unit knots (scipy/ndimage/src/ni_splines.c, `get_spline_interpolation_weights`, order 3). -/
noncomputable def bspline (t : ℝ) : ℝ :=
  if |t| < 1 then 2 / 3 - |t| ^ 2 + |t| ^ 3 / 2 else if |t| < 2 then (2 - |t|) ^ 3 / 6 else 0

/-- The index that stands for the index `k - 1` of an axis of `n` points, `k = 0, …, n + 1`: -1 is 1, and `n` is `n - 2`. -/
def fold (n k : Nat) : Nat :=
  if n = 1 then 0 else if k = 0 then 1 else if k = n + 1 then n - 2 else k - 1

/-- The value at `y` of the one-dimensional spline with coefficients `c`. -/
noncomputable def at1 (n : Nat) (c : Nat → ℝ) (y : ℝ) : ℝ :=
  ∑ k ∈ range (n + 2), bspline (y - ((k : ℝ) - 1)) * c (fold n k)

/-- The value at `(y, x)` of the two-dimensional spline. -/
noncomputable def at2 (ny nx : Nat) (c : Nat → Nat → ℝ) (y x : ℝ) : ℝ := at1 ny (fun i => at1 nx (c i) x) y

/-- `ndimage.spline_filter(array, 3)`: the coefficients. -/
abbrev Prefilter := Grid (Option ℝ) → Nat → Nat → ℝ

/-- mathutils.py:32-37 and autocorrelation.py:98-104 `interpolate_line_on_2d_array(data, center, idx, num_points=1000)`: the spline at 1000 points
`np.linspace(center, idx, 1000)`. -/
noncomputable def splineLine (coef : Prefilter) : LineInterp := fun A idx =>
  (List.range 1000).map fun k : Nat =>
    at2 A.ny A.nx (coef A) ((centerIdx A).1 + k * ((idx.1 : ℝ) - (centerIdx A).1) / 999) ((centerIdx A).2 + k * ((idx.2 : ℝ) - (centerIdx A).2) / 999)

end Surfalize.Spline
