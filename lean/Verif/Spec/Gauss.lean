import Verif.Prelude.GridFn
import Mathlib.Analysis.SpecialFunctions.Trigonometric.Basic
import Mathlib.Analysis.SpecialFunctions.Pow.Real
/-!
# Specification: fully measured topographies
-/
namespace Surfalize.GaussSpec
open Surfalize

/-- The surface of `ny` rows and `nx` columns with the height `h i j` in row `i` and column `j`. -/
def surfaceOf (ny nx : Nat) (h : Nat → Nat → ℝ) : Grid (Option ℝ) := Grid.ofFn ny nx fun i j => some (h i j)

/-- The profile of `n` points with the height `h i` at point `i`. -/
def profileOf (n : Nat) (h : Nat → ℝ) : List (Option ℝ) := (List.range n).map fun i => some (h i)

/-- The height of a cosine wave of wavelength `lam` with a crest at the border, at the centre of point `j`. -/
noncomputable def crest (step lam : ℝ) (j : Nat) : ℝ := Real.cos (2 * Real.pi * ((j + 1 / 2) * step) / lam)

/-- `T` is the transmission of the ideal Gaussian filter for the wavelength `lam`, up to what sampling the kernel at points
`step` apart (first summand) and truncating it (second summand) can change. -/
def NearIdeal (cutoff step lam T : ℝ) : Prop :=
  |T - (1 / 2 : ℝ) ^ ((cutoff / lam) ^ 2)| ≤ 3 * (1 / 2 : ℝ) ^ ((cutoff / step - cutoff / lam) ^ 2) + 1 / 5000

end Surfalize.GaussSpec
