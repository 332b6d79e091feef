import Verif.Prelude.Py
import Mathlib.Analysis.SpecialFunctions.Trigonometric.Basic

/-!
# Model of the sinusoid (surfalize/mathutils.py:210-341)

`scipy.optimize.curve_fit` is a parameter: it returns four real numbers or raises RuntimeError.
-/
namespace Surfalize.Sinusoid

/-- mathutils.py:210-230 `_sinusoid` (the period is not zero). -/
noncomputable def sinusoid (a p x0 y0 x : ℝ) : ℝ := a * Real.sin ((x - x0) / p * 2 * Real.pi) + y0

/-- mathutils.py:233-253 `Sinusoid`. -/
structure Sinus where
  amplitude : ℝ
  period : ℝ
  x0 : ℝ
  y0 : ℝ

/-- mathutils.py:301-315 `__call__`. -/
noncomputable def Sinus.eval (s : Sinus) (x : ℝ) : ℝ := sinusoid s.amplitude s.period s.x0 s.y0 x

/-- mathutils.py:291-299: what `from_fit` makes of the fitted parameters `a, p, x0, y0`. -/
noncomputable def ofPopt (popt : ℝ × ℝ × ℝ × ℝ) : Sinus :=
  let (a, p, x0, y0) := popt
  if a < 0 then ⟨|a|, p, x0 - p / 2, y0⟩ else ⟨a, p, x0, y0⟩

/-- mathutils.py:317-330 `first_extremum` (the period is not zero); `//` is floor division. -/
noncomputable def Sinus.firstExtremum (s : Sinus) : ℝ :=
  let x0e := s.x0 + s.period / 4
  x0e - ⌊x0e / (s.period / 2)⌋ * s.period / 2

/-- mathutils.py:332-341 `first_peak` (the period is not zero). -/
noncomputable def Sinus.firstPeak (s : Sinus) : ℝ :=
  let x0e := s.x0 + s.period / 4
  x0e - ⌊x0e / s.period⌋ * s.period

end Surfalize.Sinusoid
