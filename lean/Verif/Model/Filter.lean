import Verif.Model.BaseOps
import Verif.Prelude.Zip
import Mathlib.Analysis.SpecialFunctions.Log.Basic
import Mathlib.Analysis.SpecialFunctions.Trigonometric.Basic

/-!
# Model of the Gaussian filter (surfalize/filter.py:31-101, surfalize/base.py:338-404)

`scipy.ndimage.gaussian_filter` is a parameter: for a cutoff it is a function `smooth cutoff` from height
data to height data.
-/
namespace Surfalize.Filter
open Surfalize Container ZipContainer BaseOps

section Generic
variable {C : Type → Type} [ZipContainer C] {K : Type} [Field K] [LinearOrder K]

/-- What `filter` returns: one topography or the pair of mode `'both'`. -/
inductive Res (C : Type → Type) (K : Type) where
  | one (d : C (Option K))
  | two (h l : C (Option K))

/-- filter.py:94-96 with `filter_type='lowpass'`. -/
def lowpass (smooth : K → C (Option K) → C (Option K)) (cutoff : K) (d : C (Option K)) : C (Option K) :=
  smooth cutoff d

/-- filter.py:94-96 with `filter_type='highpass'`: data minus the smoothed data. -/
def highpass (smooth : K → C (Option K) → C (Option K)) (cutoff : K) (d : C (Option K)) : C (Option K) :=
  zipW osub d (smooth cutoff d)

/-- base.py:338-404 `filter(filter_type, cutoff, cutoff2, inplace)` with its guard, on the height data. -/
def filter (smooth : K → C (Option K) → C (Option K)) (mode : String) (cutoff : K) (cutoff2 : Option K)
    (inplace : Bool) (d : C (Option K)) : Except Err (Res C K) :=
  noNonmeasured (fun d =>
    if mode ≠ "highpass" ∧ mode ≠ "lowpass" ∧ mode ≠ "both" ∧ mode ≠ "bandpass" then .error .valueError
    else if mode = "both" ∧ inplace = true then .error .valueError
    else if mode = "bandpass" then
      match cutoff2 with
      | none => .error .valueError
      | some c2 =>
        if c2 ≤ cutoff then .error .valueError
        else .ok (.one (highpass smooth c2 (lowpass smooth cutoff d)))
    else if mode = "lowpass" then .ok (.one (lowpass smooth cutoff d))
    else if mode = "highpass" then .ok (.one (highpass smooth cutoff d))
    else .ok (.two (highpass smooth cutoff d) (lowpass smooth cutoff d))) d

end Generic

/-- filter.py:51 `GaussianFilter.sigma`: `cutoff / np.pi * np.sqrt(np.log(2) / 2)`. -/
noncomputable def sigma (cutoff : ℝ) : ℝ := cutoff / Real.pi * Real.sqrt (Real.log 2 / 2)

/-- filter.py:89-92: the standard deviations in pixels along the array axes `(y, x)` of a surface. -/
noncomputable def sigmas2 (cutoff stepX stepY : ℝ) : ℝ × ℝ := (sigma (cutoff / stepY), sigma (cutoff / stepX))

/-- filter.py:88: the standard deviation in pixels for a profile. -/
noncomputable def sigma1 (cutoff step : ℝ) : ℝ := sigma (cutoff / step)

end Surfalize.Filter
