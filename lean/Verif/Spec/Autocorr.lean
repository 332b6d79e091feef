import Verif.Prelude.GridFn
import Mathlib.Algebra.BigOperators.Group.Finset.Basic
import Mathlib.Data.Finset.Prod
import Mathlib.Data.Real.Basic

/-! Vocabulary for C42 and C75. -/
namespace Surfalize.Spec
open Finset

variable {K : Type} [Field K]

/-- All pairs of pixels `p`, `q` of an `ny × nx` array with `q = p + (dy, dx)`. -/
def lagPairs (ny nx : Nat) (dy dx : Int) : Finset ((Nat × Nat) × (Nat × Nat)) :=
  ((range ny ×ˢ range nx) ×ˢ (range ny ×ˢ range nx)).filter fun pq =>
    (pq.2.1 : Int) = pq.1.1 + dy ∧ (pq.2.2 : Int) = pq.1.2 + dx

/-- The sum of products of deviations from `m` over all pairs of points that lie the lag `(dy, dx)` apart. -/
def lagSum (ny nx : Nat) (h : Nat → Nat → K) (m : K) (dy dx : Int) : K :=
  ∑ pq ∈ lagPairs ny nx dy dx, (h pq.1.1 pq.1.2 - m) * (h pq.2.1 pq.2.2 - m)

/-- The mean height of a fully measured surface. -/
def meanHeight (ny nx : Nat) (h : Nat → Nat → K) : K :=
  (∑ i ∈ range ny, ∑ j ∈ range nx, h i j) / ((ny : K) * (nx : K))

/-- The autocorrelation of a fully measured surface at the lag `(dy, dx)`: the mean product of the deviations from
the mean height over all pairs of points that lie this lag apart. -/
def autocov (ny nx : Nat) (h : Nat → Nat → K) (dy dx : Int) : K :=
  lagSum ny nx h (meanHeight ny nx h) dy dx / ((lagPairs ny nx dy dx).card : K)

/-- The lags at which the autocorrelation has decayed to the fraction `s` of its value at the origin. -/
def Decayed (ny nx : Nat) (h : Nat → Nat → ℝ) (s : ℝ) (dy dx : Int) : Prop :=
  |dy| < ny ∧ |dx| < nx ∧ autocov ny nx h dy dx ≤ s * autocov ny nx h 0 0

end Surfalize.Spec
