import Verif.Prelude.Num
import Mathlib.Analysis.Real.Sqrt

/-! ISO 25178-2 definitions of the height parameters, for comparison with the code. -/
namespace Surfalize.Spec
open Surfalize

/-- mean height -/
noncomputable def mu (l : List ℝ) : ℝ := l.sum / l.length
/-- `k`-th central moment `1/n Σ (z - μ)^k` -/
noncomputable def moment (k : Nat) (l : List ℝ) : ℝ := (l.map fun z => (z - mu l) ^ k).sum / l.length
/-- `m` is the least height -/
def IsMin (l : List ℝ) (m : ℝ) : Prop := m ∈ l ∧ ∀ z ∈ l, m ≤ z
/-- `m` is the greatest height -/
def IsMax (l : List ℝ) (m : ℝ) : Prop := m ∈ l ∧ ∀ z ∈ l, z ≤ m

end Surfalize.Spec
