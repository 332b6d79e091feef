import Verif.Spec.Geometry
import Verif.Prelude.GridFn
/-!
# What indices, masks and lists of indices mean
-/
namespace Surfalize.IndexingSpec
open Surfalize Spec

/-- `i` is an index of position `k` of an axis with `n` points: counted from 0, or from the end if negative. -/
def IsAt (n : Nat) (i : Int) (k : Nat) : Prop := k < n ∧ (0 ≤ i ∧ (k : Int) = i ∨ i < 0 ∧ (k : Int) = i + n)

/-- The points where a mask is `true`, row by row, from the left to the right. -/
def marked (m : Grid Bool) : List (Nat × Nat) := (pixels m.ny m.nx).filter fun p => at? m p.1 p.2 = some true

/-- The heights of these points of a surface. -/
def heightsAt {α : Type} (g : Grid α) (ps : List (Nat × Nat)) : List (Option α) := ps.map fun p => at? g p.1 p.2

end Surfalize.IndexingSpec
