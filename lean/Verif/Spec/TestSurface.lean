import Verif.Prelude.GridFn
import Mathlib.Analysis.SpecialFunctions.Trigonometric.Basic

/-! Surfaces with known parameters (C115). -/
namespace Surfalize.TestSurface
open Surfalize

/-- A sine wave with `kx` periods along the rows and `ky` periods along the columns, amplitude `a` around the height `c`. -/
noncomputable def wave (ny nx : Nat) (ky kx : Int) (c a φ : ℝ) : Grid (Option ℝ) :=
  Grid.ofFn ny nx fun i j => some (c + a * Real.sin (2 * Real.pi * ((ky : ℝ) * i / ny + (kx : ℝ) * j / nx) + φ))

/-- A sine wave of `k` periods along a profile of `n` points. -/
noncomputable def waveProfile (n : Nat) (k : Int) (c a φ : ℝ) : List (Option ℝ) :=
  (List.range n).map fun j : Nat => some (c + a * Real.sin (2 * Real.pi * ((k : ℝ) * j / n) + φ))

/-- An inclined plane that rises by `a` from row to row and by `b` from column to column. -/
def plane (ny nx : Nat) (c a b : ℝ) : Grid (Option ℝ) := Grid.ofFn ny nx fun i j => some (c + a * i + b * j)

/-- More than four points per period, and at least one period. -/
def Resolved (n : Nat) (k : Int) : Prop := k ≠ 0 ∧ 4 * |k| < n

/-- `N` heights from `lo` upwards in equal steps `d`. -/
def ramp {K : Type} [Field K] (N : Nat) (lo d : K) : List K := (List.range N).map fun i : Nat => lo + d * i

end Surfalize.TestSurface
