import Verif.Prelude.GridFn

/-!
# Specification for C125: an upper level that determines a plane
-/
namespace Surfalize.Spec
open Surfalize

variable {K : Type} [LinearOrder K]

/-- Three points higher than `t` that do not lie on one line. -/
def Spread (t : K) (g : Grid (Option K)) : Prop :=
  ∃ p q r : Nat × Nat, (∀ s ∈ [p, q, r], s.1 < g.ny ∧ s.2 < g.nx ∧ ∃ z, g.get s.1 s.2 = some z ∧ t < z) ∧
    ((q.1 : Int) - p.1) * ((r.2 : Int) - p.2) ≠ ((r.1 : Int) - p.1) * ((q.2 : Int) - p.2)

variable [Field K]

/-- What `np.linalg.lstsq` promises when several solutions minimise the squared residuals: the one with the smallest coefficients. -/
def IsMinNorm (lstsq : Nat → List (List K) → List K → List K) : Prop :=
  ∀ (w : Nat) (A : List (List K)) (z : List K), A.length = z.length → (∀ r ∈ A, r.length = w) →
    ∀ c : List K, c.length = w → (List.zipWith (fun r y => y - (List.zipWith (fun a b => a * b) r c).sum) A z).all (fun e => decide (e = 0)) = true →
      ((lstsq w A z).map fun a => a ^ 2).sum ≤ (c.map fun a => a ^ 2).sum

end Surfalize.Spec
