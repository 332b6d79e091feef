import Verif.Model.Filter
import Verif.Lemmas.HeightParams
import Mathlib.Probability.Distributions.Gaussian.Real

set_option linter.unusedSectionVars false
namespace Surfalize.Filter
open Surfalize MeasureTheory ProbabilityTheory

/-- Averaging a cosine with a centred Gaussian weight of standard deviation `s` damps it by
`exp(-(s t)²/2)`. -/
theorem gaussian_cos (s : ℝ) (a t : ℝ) :
    ∫ u, Real.cos (a - t * u) ∂(gaussianReal 0 (⟨s ^ 2, sq_nonneg s⟩ : NNReal)) = Real.exp (-(s * t) ^ 2 / 2) * Real.cos a := by
  set v : NNReal := ⟨s ^ 2, sq_nonneg s⟩ with hv
  have hvs : (v : ℝ) = s ^ 2 := rfl
  have h1 : ∀ u : ℝ, Real.cos (a - t * u) = (Complex.exp (a * Complex.I) * Complex.exp (((-t * u : ℝ) : ℂ) * Complex.I)).re := by
    intro u
    rw [← Complex.exp_add, ← add_mul, ← Complex.ofReal_add, Complex.exp_ofReal_mul_I_re]
    congr 1; ring
  have hint : Integrable (fun u : ℝ => Complex.exp (((-t * u : ℝ) : ℂ) * Complex.I)) (gaussianReal 0 v) := by
    apply Integrable.mono' (integrable_const (1 : ℝ))
    · exact (by fun_prop : Measurable fun u : ℝ => Complex.exp (((-t * u : ℝ) : ℂ) * Complex.I)).aestronglyMeasurable
    · filter_upwards with u
      rw [Complex.norm_exp_ofReal_mul_I]
  have hc : ∫ u, Complex.exp (((-t * u : ℝ) : ℂ) * Complex.I) ∂(gaussianReal 0 v) = Complex.exp (-(v : ℂ) * (t : ℂ) ^ 2 / 2) := by
    have := charFun_gaussianReal (μ := 0) (v := v) (-t)
    rw [charFun_apply_real] at this
    rw [show (-(v : ℂ) * (t : ℂ) ^ 2 / 2) = ((-t : ℝ) : ℂ) * ((0 : ℝ) : ℂ) * Complex.I - (v : ℂ) * ((-t : ℝ) : ℂ) ^ 2 / 2 by push_cast; ring,
      ← this]
    congr 1
    ext u
    push_cast
    ring_nf
  simp_rw [h1]
  have hre := integral_re (𝕜 := ℂ) (μ := gaussianReal 0 v) (hint.const_mul (Complex.exp (a * Complex.I)))
  simp only [RCLike.re_to_complex] at hre
  rw [hre, integral_const_mul, hc]
  have e : Complex.exp (-(v : ℂ) * (t : ℂ) ^ 2 / 2) = ((Real.exp (-(s * t) ^ 2 / 2) : ℝ) : ℂ) := by
    rw [Complex.ofReal_exp]
    congr 1
    have : ((v : ℝ) : ℂ) = ((s ^ 2 : ℝ) : ℂ) := by rw [hvs]
    have h2 : (v : ℂ) = ((v : ℝ) : ℂ) := rfl
    rw [h2, this]
    push_cast
    ring
  rw [e, mul_comm, Complex.re_ofReal_mul, Complex.exp_ofReal_mul_I_re]

end Surfalize.Filter
