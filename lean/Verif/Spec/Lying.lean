import Verif.Prelude.GridFn
import Verif.Prelude.Err
import Verif.Model.Filter
import Verif.Spec.FillRotate

/-!
# Specification for C118: the same sample lying differently, or measured in another unit and from another datum
-/
namespace Surfalize.LyingSpec
open Surfalize

/-- The three moves from which every way to lay a rectangular sample can be combined. -/
inductive Move where
  /-- left and right exchanged -/
  | mirror
  /-- top and bottom exchanged -/
  | flip
  /-- rows and columns exchanged -/
  | transpose
deriving DecidableEq

/-- Where the point in row `i` and column `j` after the move was before, on a surface that had `ny` rows and `nx` columns. -/
def Move.source (m : Move) (ny nx i j : Nat) : Nat × Nat :=
  match m with
  | .mirror => (i, nx - 1 - j)
  | .flip => (ny - 1 - i, j)
  | .transpose => (j, i)

/-- The rows and columns after the move of a surface with `ny` rows and `nx` columns. -/
def Move.size (m : Move) (ny nx : Nat) : Nat × Nat := if m = .transpose then (nx, ny) else (ny, nx)

variable {K : Type}

/-- The surface `g'` is the surface `g` after the move. -/
structure Laid (m : Move) (g g' : Grid (Option K)) : Prop where
  wf : g.WF
  wf' : g'.WF
  size : (g'.ny, g'.nx) = m.size g.ny g.nx
  points : ∀ i < g'.ny, ∀ j < g'.nx, g'.get i j = g.get (m.source g.ny g.nx i j).1 (m.source g.ny g.nx i j).2

/-- The surface `g'` shows the heights of `g` in a unit `1/c` times as large and from a datum lower by `d` of the new units. -/
structure Rescaled [Field K] (c d : K) (g g' : Grid (Option K)) : Prop where
  wf : g.WF
  wf' : g'.WF
  ny : g'.ny = g.ny
  nx : g'.nx = g.nx
  points : ∀ i < g.ny, ∀ j < g.nx, g'.get i j = (g.get i j).map fun z => c * z + d

/-- Two calls raise the same error, or both succeed with results that are related. -/
def Both {α β : Type} (R : α → β → Prop) : Except Err α → Except Err β → Prop
  | .ok a, .ok b => R a b
  | .error e, .error e' => e = e'
  | _, _ => False

/-- Related results of `filter`: one surface each, or two. -/
def BothRes {K : Type} (H L : Grid (Option K) → Grid (Option K) → Prop) : Filter.Res Grid K → Filter.Res Grid K → Prop
  | .one a, .one b => L a b
  | .two a b, .two a' b' => H a a' ∧ L b b'
  | _, _ => False

/-- The distances of neighbouring points along x and y after the move. -/
def Move.steps {K : Type} (m : Move) (stepX stepY : K) : K × K := if m = .transpose then (stepY, stepX) else (stepX, stepY)

/-- The pixel box `((x0, x1), (y0, y1))`, ends included, after the move of a surface with `ny` rows and `nx` columns. -/
def Move.box (m : Move) (ny nx x0 x1 y0 y1 : Nat) : (Nat × Nat) × (Nat × Nat) :=
  match m with
  | .mirror => ((nx - 1 - x1, nx - 1 - x0), (y0, y1))
  | .flip => ((x0, x1), (ny - 1 - y1, ny - 1 - y0))
  | .transpose => ((y0, y1), (x0, x1))

/-- No point has two nearest measured points of different height. -/
def NoTies (g : Grid (Option K)) : Prop :=
  ∀ i < g.ny, ∀ j < g.nx, ∀ a b : Nat × Nat, ∀ y z : K, a.1 < g.ny → a.2 < g.nx → b.1 < g.ny → b.2 < g.nx →
    g.get a.1 a.2 = some y → g.get b.1 b.2 = some z →
    (∀ c : Nat × Nat, c.1 < g.ny → c.2 < g.nx → g.get c.1 c.2 ≠ none → Spec.dist2 a (i, j) ≤ Spec.dist2 c (i, j)) →
    (∀ c : Nat × Nat, c.1 < g.ny → c.2 < g.nx → g.get c.1 c.2 ≠ none → Spec.dist2 b (i, j) ≤ Spec.dist2 c (i, j)) → y = z

end Surfalize.LyingSpec
