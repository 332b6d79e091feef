import Verif.Prelude.GridFn
import Mathlib.Data.Real.Basic

/-! Specification of square gratings. -/
namespace Surfalize.Spec
open Surfalize

/-- A square profile: plateaus of `m` points, alternately at height `hi` and `lo`; a `hi` plateau begins at position `s`
(and at every other position an even number of plateaus away). -/
noncomputable def square (lo hi : ℝ) (m : Nat) (s x : Int) : ℝ := if (x - s) % (2 * m) < m then hi else lo

/-- A fully measured surface with `k` periods of a square profile along x, the same in every row. -/
structure SquareGrating (g : Grid (Option ℝ)) (lo hi : ℝ) (m k : Nat) (s : Int) : Prop where
  wf : g.WF
  rows : 0 < g.ny
  columns : g.nx = 2 * m * k
  heights : ∀ i < g.ny, ∀ j < g.nx, g.get i j = some (square lo hi m s j)
  /-- the two heights differ -/
  contrast : lo ≠ hi
  /-- each plateau has at least two points -/
  plateau : 2 ≤ m
  periods : 1 ≤ k

/-- The same with the square profile along y: the same in every column. -/
structure SquareGratingY (g : Grid (Option ℝ)) (lo hi : ℝ) (m k : Nat) (s : Int) : Prop where
  wf : g.WF
  columns : 0 < g.nx
  rows : g.ny = 2 * m * k
  heights : ∀ i < g.ny, ∀ j < g.nx, g.get i j = some (square lo hi m s i)
  contrast : lo ≠ hi
  plateau : 2 ≤ m
  periods : 1 ≤ k

end Surfalize.Spec
