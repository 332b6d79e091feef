import Mathlib.Analysis.SpecialFunctions.Trigonometric.Basic
import Mathlib.Algebra.BigOperators.Field
/-!
# Specification: a periodic profile
-/
namespace Surfalize.PeriodSpec

/-- The heights of the profile are `k` whole periods of a sinusoid of amplitude `a` around the height `c`: one period
takes `n / k` points. -/
def Sinusoidal (y : List ℝ) (k : Nat) (a φ c : ℝ) : Prop :=
  ∀ j < y.length, y[j]? = some (c + a * Real.cos (2 * Real.pi * ((k : ℝ) * j / y.length) + φ))

/-- The strength of the component of the profile with `u` periods over its length, the heights taken relative to their
mean. For a sinusoid of amplitude `a` over `n` points it is `n |a| / 2`. -/
noncomputable def strength (y : List ℝ) (u : Nat) : ℝ :=
  ‖∑ j ∈ Finset.range y.length, ((y.getD j 0 - (∑ i ∈ Finset.range y.length, y.getD i 0) / y.length : ℝ) : ℂ)
    * Complex.exp (2 * Real.pi * Complex.I * ((u : ℂ) * j / y.length))‖

end Surfalize.PeriodSpec
