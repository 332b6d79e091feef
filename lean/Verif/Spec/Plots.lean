import Verif.Model.Plots
import Mathlib.Order.Interval.Set.UnorderedInterval

/-!
# Vocabulary of C105: where things are drawn
-/
namespace Surfalize.PlotSpec
open Surfalize Plots

/-- Where `imshow` (with its default origin, the upper left corner) draws: the extent is divided evenly among the columns.
The `x` of the axes lies in column `j` of the picture. -/
def ColumnAt {α K : Type} [Field K] [LinearOrder K] (p : Picture α K) (j : Nat) (x : K) : Prop :=
  x ∈ Set.uIcc (p.left + (j : K) * ((p.right - p.left) / (p.data.nx : K))) (p.left + ((j : K) + 1) * ((p.right - p.left) / (p.data.nx : K)))

/-- The extent is divided evenly among the rows, the first of which is at the top. The `y` of the axes lies in row `i` of the
picture. -/
def RowAt {α K : Type} [Field K] [LinearOrder K] (p : Picture α K) (i : Nat) (y : K) : Prop :=
  y ∈ Set.uIcc (p.top - (i : K) * ((p.top - p.bottom) / (p.data.ny : K))) (p.top - ((i : K) + 1) * ((p.top - p.bottom) / (p.data.ny : K)))

/-- The point `(x, y)` of the axes lies in the pixel in row `i` and column `j`. -/
def Covers {α K : Type} [Field K] [LinearOrder K] (p : Picture α K) (i j : Nat) (x y : K) : Prop :=
  ColumnAt p j x ∧ RowAt p i y

/-- The place of the point in row `i` and column `j` of an array of `ny` rows: `x` to the right, `y` upwards, the last row
at `y = 0`. -/
def place {K : Type} [Field K] (ny : Nat) (stepX stepY : K) (i j : Nat) : K × K :=
  ((j : K) * stepX, ((ny : K) - 1 - i) * stepY)

/-- The component of `d` with `ky` periods over the rows and `kx` periods over the columns. -/
noncomputable def transform (N M : Nat) (d : Nat → Nat → ℝ) (ky kx : Int) : ℂ :=
  ∑ i ∈ Finset.range N, ∑ j ∈ Finset.range M,
    (d i j : ℂ) * Complex.exp (-(2 * Real.pi * Complex.I) * ((ky : ℂ) * i / N + (kx : ℂ) * j / M))

/-- Twice the area of a triangle (shoelace formula). -/
def doubleArea {K : Type} [Field K] [LinearOrder K] : List (K × K) → K
  | [a, b, c] => |(b.1 - a.1) * (c.2 - a.2) - (c.1 - a.1) * (b.2 - a.2)|
  | _ => 0

end Surfalize.PlotSpec
