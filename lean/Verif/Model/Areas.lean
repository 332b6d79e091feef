import Verif.Model.BaseOps
import Verif.Prelude.GridFn
import Mathlib.Algebra.BigOperators.Ring.Finset
import Mathlib.Algebra.Order.BigOperators.Ring.Finset

/-!
# Model of the hybrid parameters (surfalize/surface.py:973-1040, surfalize/profile.py:437-445)
-/
namespace Surfalize.Areas
open Surfalize BaseOps Finset

/-- surface.py:984 `projected_area`: `(width_um - step_x) * (height_um - step_y)`. -/
def projectedArea (widthUm heightUm stepX stepY : ℝ) : ℝ := (widthUm - stepX) * (heightUm - stepY)

/-- `np.diff(data, axis=0)[i, j]` -/
def dzY (g : Grid (Option ℝ)) (i j : Nat) : ℝ := g.val (i + 1) j - g.val i j
/-- `np.diff(data, axis=1)[i, j]` -/
def dzX (g : Grid (Option ℝ)) (i j : Nat) : ℝ := g.val i (j + 1) - g.val i j

/-- surface.py:1000-1013 `surface_area` of fully measured data; the arrays `cross_x`, `cross_y` have shape
`(ny-1, nx-1)`. -/
noncomputable def surfaceAreaOf (g : Grid (Option ℝ)) (stepX stepY : ℝ) : ℝ :=
  2 * ∑ i ∈ range (g.ny - 1), ∑ j ∈ range (g.nx - 1),
    (1 / 2) * Real.sqrt ((stepY * dzY g i j) ^ 2 + (stepX * dzX g i j) ^ 2 + (stepX * stepY) ^ 2)

/-- surface.py:986-1013 with its guard. -/
noncomputable def surfaceArea (g : Grid (Option ℝ)) (stepX stepY : ℝ) : Except Err ℝ :=
  noNonmeasured (fun g => .ok (surfaceAreaOf g stepX stepY)) g

/-- surface.py:1015-1024 `Sdr = (surface_area / projected_area - 1) * 100`; a zero projected area gives an
infinite or NaN result, modelled as `none`. `width_um`, `height_um` are those of a surface whose extents
match its data (C04). -/
noncomputable def sdr (g : Grid (Option ℝ)) (stepX stepY : ℝ) : Except Err (Option ℝ) :=
  (surfaceArea g stepX stepY).map fun a =>
    let p := projectedArea (((g.nx : ℝ) - 1) * stepX) (((g.ny : ℝ) - 1) * stepY) stepX stepY
    if p = 0 then none else some ((a / p - 1) * 100)

/-- surface.py:1037-1040 `Sdq`: the sum of squared slopes divided by the number of points. An empty array
gives 0/0 = NaN (`none`). -/
noncomputable def sdq (g : Grid (Option ℝ)) (stepX stepY : ℝ) : Except Err (Option ℝ) :=
  noNonmeasured (fun g =>
    let A : ℝ := (g.ny : ℝ) * (g.nx : ℝ)
    let sx := ∑ i ∈ range g.ny, ∑ j ∈ range (g.nx - 1), (dzX g i j / stepX) ^ 2
    let sy := ∑ i ∈ range (g.ny - 1), ∑ j ∈ range g.nx, (dzY g i j / stepY) ^ 2
    .ok (if A = 0 then none else some (Real.sqrt ((sx + sy) / A)))) g

/-- profile.py:445 `Rdq`: root mean square of the `n-1` slopes; fewer than two points give NaN. -/
noncomputable def rdq (p : List (Option ℝ)) (step : ℝ) : Except Err (Option ℝ) :=
  noNonmeasured (C := List) (fun p =>
    let v := fun i => ((p[i]?).getD none).getD 0
    let n := p.length
    .ok (if n ≤ 1 then none
      else some (Real.sqrt ((∑ i ∈ range (n - 1), ((v (i + 1) - v i) / step) ^ 2) / ((n - 1 : Nat) : ℝ))))) p

end Surfalize.Areas
