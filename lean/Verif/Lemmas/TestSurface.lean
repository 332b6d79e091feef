import Verif.Spec.TestSurface
import Verif.Lemmas.Fourier
import Verif.Lemmas.HeightParams
import Verif.Lemmas.GridFn
import Verif.Lemmas.Detrend
import Mathlib.Analysis.SpecialFunctions.Trigonometric.Basic

/-! Helper lemmas for C115. -/
set_option linter.unusedSectionVars false
namespace Surfalize.TestSurface
open Surfalize Container HeightParams Spec

/-- heights of a fully measured surface as a list over the pixels -/
theorem measured_ofFn (ny nx : Nat) (f : Nat → Nat → ℝ) :
    measured (flat (Grid.ofFn ny nx fun i j => some (f i j))) = (pixels ny nx).map fun p => f p.1 p.2 := by
  rw [flat_ofFn]
  have := measured_some ((pixels ny nx).map fun p => f p.1 p.2)
  rw [List.map_map] at this
  exact this

theorem pixels_length (ny nx : Nat) : (pixels ny nx).length = ny * nx := by
  simp [pixels, List.length_flatMap]

/-- a wave with a whole number of periods has no sum -/
theorem sum_cos {ny nx : Nat} (hy : 0 < ny) (hx : 0 < nx) {ky kx : Int} (h : ¬ ((ny : Int) ∣ ky ∧ (nx : Int) ∣ kx)) (φ : ℝ) :
    ∑ i ∈ Finset.range ny, ∑ j ∈ Finset.range nx, Real.cos (2 * Real.pi * ((ky : ℝ) * i / ny + (kx : ℝ) * j / nx) + φ) = 0 := by
  have h' : ¬ ((ny : Int) ∣ -ky ∧ (nx : Int) ∣ -kx) := by rwa [Int.dvd_neg, Int.dvd_neg]
  have : ((∑ i ∈ Finset.range ny, ∑ j ∈ Finset.range nx, Real.cos (2 * Real.pi * ((ky : ℝ) * i / ny + (kx : ℝ) * j / nx) + φ) : ℝ) : ℂ) = 0 := by
    push_cast
    have e : ∀ i j : Nat, Complex.cos (2 * (Real.pi : ℂ) * ((ky : ℂ) * (i : ℂ) / (ny : ℂ) + (kx : ℂ) * (j : ℂ) / (nx : ℂ)) + (φ : ℂ))
        = (Complex.exp (φ * Complex.I) * (Fourier.E ny ky i * Fourier.E nx kx j)
          + Complex.exp (-(φ * Complex.I)) * (Fourier.E ny (-ky) i * Fourier.E nx (-kx) j)) / 2 := by
      intro i j
      rw [← Fourier.cos_E]
      push_cast
      rfl
    simp only [e]
    simp only [← Finset.sum_div, Finset.sum_add_distrib, ← Finset.mul_sum]
    have s1 := Fourier.sum_EE ny nx hy hx ky kx
    have s2 := Fourier.sum_EE ny nx hy hx (-ky) (-kx)
    rw [if_neg h] at s1
    rw [if_neg h'] at s2
    simp only [← Finset.mul_sum] at s1 s2
    rw [s1, s2]
    simp
  exact_mod_cast this

theorem not_dvd {n : Nat} {k : Int} (h : Resolved n k) {m : Int} (m0 : 1 ≤ m) (m4 : m ≤ 4) : ¬ (n : Int) ∣ m * k := by
  rintro ⟨q, hq⟩
  obtain ⟨h0, h4⟩ := h
  have hn : (0 : Int) < n := by have := abs_nonneg k; omega
  have hk : 0 < |k| := abs_pos.2 h0
  have e : m * |k| = n * |q| := by
    rw [← abs_of_nonneg (by omega : (0 : Int) ≤ m), ← abs_of_pos hn, ← abs_mul, ← abs_mul, hq]
  have hq0 : q ≠ 0 := by
    rintro rfl
    rw [abs_zero, mul_zero] at e
    have : 0 < m * |k| := mul_pos (by omega) hk
    omega
  have hq1 : 1 ≤ |q| := Int.one_le_abs hq0
  have : m * |k| ≤ 4 * |k| := mul_le_mul_of_nonneg_right m4 (abs_nonneg k)
  have : (n : Int) * 1 ≤ n * |q| := mul_le_mul_of_nonneg_left hq1 hn.le
  omega

section Wave
variable {ny nx : Nat} {ky kx : Int} (hy : 0 < ny) (hx : 0 < nx) (hr : Resolved ny ky ∨ Resolved nx kx) (φ : ℝ)
include hy hx hr

/-- the multiples of the angle of a wave -/
theorem sum_cos_mul {m : Int} (m0 : 1 ≤ m) (m4 : m ≤ 4) (ψ : ℝ) :
    ∑ i ∈ Finset.range ny, ∑ j ∈ Finset.range nx,
      Real.cos (m * (2 * Real.pi * ((ky : ℝ) * i / ny + (kx : ℝ) * j / nx) + φ) + ψ) = 0 := by
  have := sum_cos hy hx (ky := m * ky) (kx := m * kx) (by
    rintro ⟨h1, h2⟩
    rcases hr with hr | hr
    · exact not_dvd hr m0 m4 h1
    · exact not_dvd hr m0 m4 h2) (m * φ + ψ)
  rw [← this]
  refine Finset.sum_congr rfl fun i _ => Finset.sum_congr rfl fun j _ => ?_
  congr 1
  push_cast
  ring

theorem sum_sin1 : ∑ i ∈ Finset.range ny, ∑ j ∈ Finset.range nx,
    Real.sin (2 * Real.pi * ((ky : ℝ) * i / ny + (kx : ℝ) * j / nx) + φ) = 0 := by
  rw [← sum_cos_mul hy hx hr φ (m := 1) (by omega) (by omega) (-(Real.pi / 2))]
  refine Finset.sum_congr rfl fun i _ => Finset.sum_congr rfl fun j _ => ?_
  rw [Int.cast_one, one_mul, ← sub_eq_add_neg, Real.cos_sub_pi_div_two]

theorem sum_sin2 : ∑ i ∈ Finset.range ny, ∑ j ∈ Finset.range nx,
    Real.sin (2 * Real.pi * ((ky : ℝ) * i / ny + (kx : ℝ) * j / nx) + φ) ^ 2 = (ny * nx : ℝ) / 2 := by
  have h := sum_cos_mul hy hx hr φ (m := 2) (by omega) (by omega) 0
  have : ∀ x : ℝ, Real.sin x ^ 2 = 1 / 2 - Real.cos ((2 : Int) * x + 0) / 2 := by
    intro x
    rw [add_zero, Int.cast_ofNat, Real.sin_sq_eq_half_sub]
  simp only [this, Finset.sum_sub_distrib, ← Finset.sum_div, h]
  simp

theorem sum_sin3 : ∑ i ∈ Finset.range ny, ∑ j ∈ Finset.range nx,
    Real.sin (2 * Real.pi * ((ky : ℝ) * i / ny + (kx : ℝ) * j / nx) + φ) ^ 3 = 0 := by
  have h1 := sum_sin1 hy hx hr φ
  have h := sum_cos_mul hy hx hr φ (m := 3) (by omega) (by omega) (-(Real.pi / 2))
  have : ∀ x : ℝ, Real.sin x ^ 3 = (3 * Real.sin x - Real.cos ((3 : Int) * x + -(Real.pi / 2))) / 4 := by
    intro x
    rw [← sub_eq_add_neg, Real.cos_sub_pi_div_two, Int.cast_ofNat, Real.sin_three_mul]
    ring
  simp only [this, Finset.sum_sub_distrib, ← Finset.sum_div, ← Finset.mul_sum, h, h1]
  simp

theorem sum_sin4 : ∑ i ∈ Finset.range ny, ∑ j ∈ Finset.range nx,
    Real.sin (2 * Real.pi * ((ky : ℝ) * i / ny + (kx : ℝ) * j / nx) + φ) ^ 4 = 3 * (ny * nx : ℝ) / 8 := by
  have h2 := sum_cos_mul hy hx hr φ (m := 2) (by omega) (by omega) 0
  have h4 := sum_cos_mul hy hx hr φ (m := 4) (by omega) (by omega) 0
  have : ∀ x : ℝ, Real.sin x ^ 4 = 3 / 8 - Real.cos ((2 : Int) * x + 0) / 2 + Real.cos ((4 : Int) * x + 0) / 8 := by
    intro x
    rw [add_zero, add_zero, Int.cast_ofNat, Int.cast_ofNat, show Real.sin x ^ 4 = (Real.sin x ^ 2) ^ 2 by ring, Real.sin_sq_eq_half_sub,
      show (4 : ℝ) * x = 2 * (2 * x) by ring, Real.cos_two_mul (2 * x)]
    ring
  simp only [this, Finset.sum_sub_distrib, Finset.sum_add_distrib, ← Finset.sum_div, h2, h4]
  simp
  ring

end Wave

/-! ## Lists over the pixels -/

theorem sum_pix (ny nx : Nat) (f : Nat → Nat → ℝ) (F : ℝ → ℝ) :
    (((pixels ny nx).map fun p => f p.1 p.2).map F).sum = ∑ i ∈ Finset.range ny, ∑ j ∈ Finset.range nx, F (f i j) := by
  rw [List.map_map]
  exact Detrend.sum_pixels ny nx fun p => F (f p.1 p.2)

/-- the moments of `c + a s` for values `s` with sum 0 -/
theorem moment_pix {ny nx : Nat} (hy : 0 < ny) (hx : 0 < nx) (c a : ℝ) {s : Nat → Nat → ℝ}
    (h0 : ∑ i ∈ Finset.range ny, ∑ j ∈ Finset.range nx, s i j = 0) :
    mu ((pixels ny nx).map fun p => c + a * s p.1 p.2) = c ∧
    ∀ k, moment k ((pixels ny nx).map fun p => c + a * s p.1 p.2)
      = a ^ k * ((∑ i ∈ Finset.range ny, ∑ j ∈ Finset.range nx, s i j ^ k) / (ny * nx)) := by
  have hN : (ny * nx : ℝ) ≠ 0 := by positivity
  have hmu : mu ((pixels ny nx).map fun p => c + a * s p.1 p.2) = c := by
    unfold mu
    rw [List.length_map, pixels_length, Detrend.sum_pixels ny nx fun p => c + a * s p.1 p.2]
    simp only [Finset.sum_add_distrib, ← Finset.mul_sum, h0]
    simp
    field_simp
  refine ⟨hmu, fun k => ?_⟩
  unfold moment
  rw [hmu, List.length_map, pixels_length, sum_pix ny nx (fun i j => c + a * s i j)]
  simp only [add_sub_cancel_left, mul_pow, ← Finset.mul_sum]
  push_cast
  ring

end Surfalize.TestSurface
