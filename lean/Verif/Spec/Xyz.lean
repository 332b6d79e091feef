import Verif.Prelude.GridFn
/-!
# Specification: point lists

The points of a grid with given spacing, in metres, in some order.
-/
namespace Surfalize
namespace XyzSpec
variable {K : Type} [Field K] [LinearOrder K]

/-- The line of the point in row `i` and column `j`: coordinates and height. -/
def line (x0 y0 dx dy : K) (z : Grid (Option K)) (p : Nat × Nat) : List (Option K) :=
  [some (x0 + (p.2 : K) * dx), some (y0 + (p.1 : K) * dy), z.get p.1 p.2]

/-- The order lists every point of the grid once. -/
def Lists (order : List (Nat × Nat)) (ny nx : Nat) : Prop :=
  order.Nodup ∧ ∀ p : Nat × Nat, p ∈ order ↔ p.1 < ny ∧ p.2 < nx

/-- Row by row. -/
def byRows (ny nx : Nat) : List (Nat × Nat) := (List.range ny).flatMap fun i => (List.range nx).map fun j => (i, j)

/-- Column by column. -/
def byColumns (ny nx : Nat) : List (Nat × Nat) := (List.range nx).flatMap fun j => (List.range ny).map fun i => (i, j)

end XyzSpec
end Surfalize
