import Verif.Model.Detrend
import Mathlib.Algebra.BigOperators.Ring.Finset

/-! Vocabulary for C27/C28: polynomials in the pixel indices and sums of squared residuals. -/
namespace Surfalize.Spec
open Finset

variable {K : Type} [Field K] [LinearOrder K]

/-- The polynomial of total degree at most `d` with coefficients `c`. -/
def poly2 (d : Nat) (c : Nat → Nat → K) (x y : K) : K :=
  ∑ a ∈ range (d + 1), ∑ b ∈ range (d + 1 - a), c a b * x ^ a * y ^ b

/-- The polynomial of degree at most `d` with coefficients `c`. -/
def poly1 (d : Nat) (c : Nat → K) (x : K) : K := ∑ a ∈ range (d + 1), c a * x ^ a

/-- Squared difference; a non-measured point counts 0. -/
def sqDiff (z : Option K) (t : K) : K := match z with | none => 0 | some z => (z - t) ^ 2

/-- Sum over the measured points of the squared distance to the function `f` of the pixel (row `i`, column `j`). -/
def sumSq2 (g : Grid (Option K)) (f : Nat → Nat → K) : K :=
  ∑ i ∈ range g.ny, ∑ j ∈ range g.nx, sqDiff (g.get i j) (f i j)

/-- The same for a profile. -/
def sumSq1 (p : List (Option K)) (f : Nat → K) : K := ∑ k ∈ range p.length, sqDiff ((p[k]?).getD none) (f k)

/-- What is assumed of `np.linalg.lstsq` (and of the solver inside `polyfit`): for a matrix with `w` columns it
returns `w` coefficients minimising the sum of squared residuals. -/
def IsLstsq (lstsq : Nat → List (List K) → List K → List K) : Prop :=
  ∀ (w : Nat) (A : List (List K)) (z : List K), A.length = z.length → (∀ r ∈ A, r.length = w) →
    (lstsq w A z).length = w ∧
    ∀ c : List K, c.length = w →
      (List.zipWith (fun r y => (y - (List.zipWith (fun a b => a * b) r (lstsq w A z)).sum) ^ 2) A z).sum
        ≤ (List.zipWith (fun r y => (y - (List.zipWith (fun a b => a * b) r c).sum) ^ 2) A z).sum

end Surfalize.Spec
