import Verif.Model.Filter
import Mathlib.Algebra.Order.Floor.Ring
import Mathlib.Algebra.BigOperators.Intervals
/-!
# The Gaussian smoothing (surfalize/filter.py:83-101)

`scipy.ndimage.gaussian_filter(data, sigma, mode)` with its defaults `truncate=4`, `order=0`, `cval=0` as scipy computes it
(`_filters.py`: `gaussian_filter`, `gaussian_filter1d`, `_gaussian_kernel1d`, `correlate1d`): one axis after the other with
a sampled kernel that is cut off and normalised. Exact arithmetic.
-/
namespace Surfalize.Gauss
open Surfalize Finset Container

/-- `endeffect_mode` (surfalize/base.py:340, surfalize/filter.py:24). -/
inductive End where
  | reflect | constant | nearest | mirror | wrap
  deriving DecidableEq

/-- The position of the array that stands at position `k` of the axis of length `n` continued beyond its ends
(`NI_ExtendLine`); `none` where a zero stands. -/
def ext (mode : End) (n : Nat) (k : Int) : Option Nat :=
  match mode with
  | .reflect => some (if k % (2 * n) < n then (k % (2 * n)).toNat else (2 * n - 1 - k % (2 * n)).toNat)
  | .constant => if 0 ≤ k ∧ k < n then some k.toNat else none
  | .nearest => some (if k < 0 then 0 else if k < n then k.toNat else n - 1)
  | .mirror => some (if n ≤ 1 then 0 else if k % (2 * n - 2) < n then (k % (2 * n - 2)).toNat else (2 * n - 2 - k % (2 * n - 2)).toNat)
  | .wrap => some (k % n).toNat

/-- The value at position `k` of the continued axis. -/
def pick (mode : End) (n : Nat) (z : Nat → ℝ) (k : Int) : ℝ :=
  match ext mode n k with
  | some j => z j
  | none => 0

/-- `lw = int(truncate * sd + 0.5)` for positive `sd`. -/
noncomputable def radius (σ : ℝ) : Nat := ⌊4 * σ + 1 / 2⌋₊

/-- `np.exp(-0.5 / sigma2 * x ** 2)`. -/
noncomputable def phi (σ : ℝ) (m : Int) : ℝ := Real.exp (-(1 / 2) / (σ * σ) * (m : ℝ) ^ 2)

/-- `_gaussian_kernel1d(sigma, 0, lw)` at `m = -lw, …, lw`. -/
noncomputable def weight (σ : ℝ) (m : Int) : ℝ := phi σ m / ∑ l ∈ Icc (-(radius σ : Int)) (radius σ), phi σ l

/-- `gaussian_filter1d` along one axis, which `gaussian_filter` skips if `sigma <= 1e-15`. -/
noncomputable def axis (mode : End) (σ : ℝ) (n : Nat) (z : Nat → ℝ) (i : Nat) : ℝ :=
  if 1 / 10 ^ 15 < σ then ∑ m ∈ Icc (-(radius σ : Int)) (radius σ), weight σ m * pick mode n z (i + m) else z i

/-- `ndimage.gaussian_filter(data, sigma, mode)` for a profile; `sigma` as in surfalize/filter.py:87-88. -/
noncomputable def smooth1 (mode : End) (step : ℝ) (cutoff : ℝ) (l : List (Option ℝ)) : List (Option ℝ) :=
  (List.range l.length).map fun i =>
    some (axis mode (Filter.sigma1 cutoff step) l.length (fun j => (l.getD j none).getD 0) i)

/-- `ndimage.gaussian_filter(data, (sigma_y, sigma_x), mode)` for a surface; `sigma` as in surfalize/filter.py:90-92. -/
noncomputable def smooth2 (mode : End) (stepX stepY : ℝ) (cutoff : ℝ) (g : Grid (Option ℝ)) : Grid (Option ℝ) :=
  let s := Filter.sigmas2 cutoff stepX stepY
  let a := fun i j => axis mode s.1 g.ny (fun k => g.val k j) i
  Grid.ofFn g.ny g.nx fun i j => some (axis mode s.2 g.nx (fun k => a i k) j)

/-- `surface.filter(kind, cutoff, cutoff2, inplace, endeffect_mode)` (surfalize/base.py:338-404). -/
noncomputable def filterSurface (mode : End) (stepX stepY : ℝ) (kind : String) (cutoff : ℝ) (cutoff2 : Option ℝ) (inplace : Bool)
    (g : Grid (Option ℝ)) : Except Err (Filter.Res Grid ℝ) :=
  Filter.filter (smooth2 mode stepX stepY) kind cutoff cutoff2 inplace g

/-- `profile.filter(kind, cutoff, cutoff2, inplace, endeffect_mode)`. -/
noncomputable def filterProfile (mode : End) (step : ℝ) (kind : String) (cutoff : ℝ) (cutoff2 : Option ℝ) (inplace : Bool)
    (l : List (Option ℝ)) : Except Err (Filter.Res List ℝ) :=
  Filter.filter (smooth1 mode step) kind cutoff cutoff2 inplace l

end Surfalize.Gauss
