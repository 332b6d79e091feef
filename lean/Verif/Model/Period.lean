import Verif.Model.Fourier
/-!
# The period of a profile (surfalize/mathutils.py:183-208, surfalize/profile.py:272-284)

`scipy.signal.find_peaks(x, distance=10, prominence=10)` is modelled after its documentation and source (scipy 1.x,
`_peak_finding.py`, `_peak_finding_utils.pyx`): local maxima, then the selection by distance, then by prominence.
-/
namespace Surfalize.Period
open Surfalize Fourier Finset

section
variable {K : Type} [LinearOrder K]

/-- The end of the plateau that starts at `i`: the first later position that is the last one or has another value. -/
def ahead (x : Nat → K) (n i : Nat) : Nat :=
  ((List.range n).find? fun j => decide (i < j) && (decide (j = n - 1) || decide (x j ≠ x i))).getD (n - 1)

/-- `_local_maxima_1d`: the middles of the plateaus that both neighbours are below of; the first and the last position
do not count. (The positions the loop skips are no rises.) -/
def localMaxima (x : Nat → K) (n : Nat) : List Nat :=
  (List.range n).filterMap fun i =>
    if 1 ≤ i ∧ i < n - 1 ∧ x (i - 1) < x i ∧ x (ahead x n i) < x i then some ((i + (ahead x n i - 1)) / 2) else none

/-- One step of `_select_by_peak_distance`: a peak that is still there removes the others that are too close. -/
def suppress (dist : Nat) (peaks : List Nat) (keep : List Bool) (j : Nat) : List Bool :=
  if keep.getD j false then
    keep.mapIdx fun k b => b && (decide (k = j) || decide (dist ≤ (peaks.getD k 0 - peaks.getD j 0) + (peaks.getD j 0 - peaks.getD k 0)))
  else keep

/-- `_select_by_peak_distance`: from the highest peak to the lowest. -/
def byDistance (argsort : List K → List Nat) (dist : Nat) (x : Nat → K) (peaks : List Nat) : List Nat :=
  let keep := (argsort (peaks.map x)).reverse.foldl (suppress dist peaks) (peaks.map fun _ => true)
  ((peaks.zip keep).filter fun p => p.2).map Prod.fst

/-- The lowest value to the left of a peak as far as no value is above `t`. -/
def walkLeft (x : Nat → K) (t : K) : Nat → K → K
  | 0, m => if x 0 ≤ t then min m (x 0) else m
  | i + 1, m => if x (i + 1) ≤ t then walkLeft x t i (min m (x (i + 1))) else m

/-- The same to the right, over `r` positions from `i` on. -/
def walkRight (x : Nat → K) (t : K) : Nat → Nat → K → K
  | 0, _, m => m
  | r + 1, i, m => if x i ≤ t then walkRight x t r (i + 1) (min m (x i)) else m

/-- `_peak_prominences` of one peak, without `wlen`. -/
def prominence [Sub K] (x : Nat → K) (n p : Nat) : K :=
  x p - max (walkLeft x (x p) p (x p)) (walkRight x (x p) (n - p) p (x p))

/-- `find_peaks(x, distance=dist, prominence=prom)` (surfalize/mathutils.py:200): peaks with their prominences. -/
def findPeaks [Sub K] (argsort : List K → List Nat) (dist : Nat) (prom : K) (x : Nat → K) (n : Nat) : List (Nat × K) :=
  ((byDistance argsort dist x (localMaxima x n)).map fun p => (p, prominence x n p)).filter fun p => decide (prom ≤ p.2)

end

/-- `np.fft.fft(y)[u]`. -/
noncomputable def fft1 (y : List ℝ) (u : Nat) : ℂ :=
  ∑ j ∈ range y.length, (y.getD j 0 : ℂ) * Complex.exp (-(2 * Real.pi * Complex.I) * ((u * j : ℂ) / y.length))

/-- `get_period_fft_1d(xdata, ydata)` (surfalize/mathutils.py:183-208) for points with the distance
`xdata[1] - xdata[0] = d`. -/
noncomputable def periodFft (argsort : Argsort) (d : ℝ) (y : List ℝ) : Except Err ℝ :=
  if y.length = 0 then .error .valueError
  else if y.length = 1 then .error .indexError
  else
    let peaks := findPeaks argsort 10 10 (fun u => ‖fft1 y u‖) y.length
    match (argsort (peaks.map Prod.snd)).reverse with
    | [] => .error .indexError
    | i :: _ => .ok (1 / |fftfreq y.length d (peaks.getD i (0, 0)).1|)

/-- `Profile.period` (surfalize/profile.py:272-284). -/
noncomputable def profilePeriod (argsort : Argsort) (step : ℝ) (data : List (Option ℝ)) : Except Err ℝ :=
  if none ∈ data then .error .valueError else periodFft argsort step (measured data)

end Surfalize.Period
