import Verif.Prelude.Num
import Mathlib.Order.Monotone.Defs

/-! Vocabulary for C46: what is assumed of `np.argsort`, and neighbouring sample points. -/
namespace Surfalize.Spec

variable {K : Type} [LinearOrder K]

/-- A function that reorders sample points so that the abscissae are non-decreasing; nothing is said about ties. -/
def IsSort (sort : List (K × K) → List (K × K)) : Prop :=
  ∀ l, (sort l).Perm l ∧ (sort l).Pairwise fun p q => p.1 ≤ q.1

/-- A sort that only compares abscissae: a strictly increasing change of the abscissae does not change the order it
chooses (which includes the order of ties). -/
def ComparesOnly (sort : List (K × K) → List (K × K)) : Prop :=
  ∀ (f : K → K), StrictMono f → ∀ l, sort (l.map fun p => (f p.1, p.2)) = (sort l).map fun p => (f p.1, p.2)

/-- All abscissae differ. -/
def DistinctX (l : List (K × K)) : Prop := (l.map fun p => p.1).Nodup

/-- `p` and `q` are sample points with no sample in between. -/
def Neighbours (l : List (K × K)) (p q : K × K) : Prop :=
  p ∈ l ∧ q ∈ l ∧ p.1 < q.1 ∧ ∀ r ∈ l, r.1 ≤ p.1 ∨ q.1 ≤ r.1

end Surfalize.Spec
