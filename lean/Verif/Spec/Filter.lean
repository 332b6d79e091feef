import Mathlib.Probability.Distributions.Gaussian.Real

/-! Vocabulary for C13. -/
namespace Surfalize.Spec
open ProbabilityTheory

/-- Gaussian smoothing with standard deviation `s`: the weighted average of the neighbourhood of `x`. -/
noncomputable def gaussAverage (s : ℝ) (f : ℝ → ℝ) (x : ℝ) : ℝ :=
  ∫ u, f (x - u) ∂(gaussianReal 0 (⟨s ^ 2, sq_nonneg s⟩ : NNReal))

/-- A wave of wavelength `lam` (µm) and phase `ph` sampled every `step` µm, as a function of the pixel
position. -/
noncomputable def waveAt (step lam ph : ℝ) (px : ℝ) : ℝ := Real.cos (2 * Real.pi * (px * step) / lam + ph)

/-- Smoothing with standard deviation `s` pixels transmits the fraction `T` of a wave of wavelength `lam`
µm sampled every `step` µm: the smoothed wave is the same wave with amplitude `T`. -/
def Transmits (s step lam T : ℝ) : Prop :=
  ∀ ph px, gaussAverage s (waveAt step lam ph) px = T * waveAt step lam ph px

end Surfalize.Spec
