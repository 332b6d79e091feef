import Verif.Prelude.Num
import Mathlib.Algebra.BigOperators.Group.Finset.Basic

/-!
# Index access to 2-d arrays
-/
namespace Surfalize

/-- `data[i, j]`, `none` for a non-measured point (and outside the array; callers stay inside). -/
def Grid.get {α : Type} (g : Grid (Option α)) (i j : Nat) : Option α := ((g.rows[i]?).bind fun r => r[j]?).getD none

/-- `data[i, j]` of NaN-free data, as a number. -/
def Grid.val {K : Type} [Zero K] (g : Grid (Option K)) (i j : Nat) : K := (g.get i j).getD 0

/-- The array of shape `(ny, nx)` with entries `f i j`. -/
def Grid.ofFn {α : Type} (ny nx : Nat) (f : Nat → Nat → α) : Grid α :=
  { rows := (List.range ny).map fun i => (List.range nx).map fun j => f i j, nx := nx }

/-- All index pairs of an array of shape `(ny, nx)` in row-major order. -/
def pixels (ny nx : Nat) : List (Nat × Nat) := (List.range ny).flatMap fun i => (List.range nx).map fun j => (i, j)

/-- ndarray equality of shape: `nx` is kept explicitly, `ny` is the number of rows. -/
def Grid.SameShape {α β : Type} (g : Grid α) (h : Grid β) : Prop := g.ny = h.ny ∧ g.nx = h.nx

end Surfalize
