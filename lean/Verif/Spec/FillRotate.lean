import Verif.Prelude.GridFn
import Mathlib.Data.Nat.Dist

/-! Vocabulary for C29. -/
namespace Surfalize.Spec

/-- Squared Euclidean distance of two pixels. -/
def dist2 (p q : Nat × Nat) : Nat := Nat.dist p.1 q.1 ^ 2 + Nat.dist p.2 q.2 ^ 2

/-- `pick` finds, for non-empty data, one of the points at smallest distance. -/
def IsNearest {ι K : Type} (dist : ι → ι → Nat) (pick : List (ι × K) → ι → ι × K) : Prop :=
  ∀ (v : List (ι × K)) (p : ι), v ≠ [] → pick v p ∈ v ∧ ∀ q ∈ v, dist (pick v p).1 p ≤ dist q.1 p

end Surfalize.Spec
