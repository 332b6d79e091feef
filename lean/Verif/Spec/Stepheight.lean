import Verif.Prelude.Num

/-! Vocabulary for C34/C72: Otsu's criterion on the points themselves. -/
namespace Surfalize.Spec

variable {K : Type} [Field K] [LinearOrder K]

/-- Between-class variance (times the squared number of points) of the points `l`, each represented by the value
`rep v`, split into the class where `low` holds and the rest: `n₁ n₂ (μ₁ - μ₂)²`. -/
def betweenVariance (l : List K) (rep : K → K) (low : K → Bool) : K :=
  let a := l.filter low
  let b := l.filter fun v => ! low v
  (a.length : K) * (b.length : K) * ((a.map rep).sum / (a.length : K) - (b.map rep).sum / (b.length : K)) ^ 2

/-- A surface without missing points whose heights are not all equal. -/
def Splittable (g : Grid (Option K)) : Prop :=
  none ∉ Container.flat g ∧ ∃ x y : K, some x ∈ Container.flat g ∧ some y ∈ Container.flat g ∧ x ≠ y

/-- The heights above `t`. -/
def higher (t : K) (l : List K) : List K := l.filter fun z => decide (t < z)
/-- The heights up to `t`. -/
def lower (t : K) (l : List K) : List K := l.filter fun z => decide (z ≤ t)

end Surfalize.Spec
