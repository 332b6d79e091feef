import Verif.Model.BaseOps
import Verif.Model.Interp
import Verif.Prelude.GridFn
import Mathlib.Algebra.BigOperators.Ring.Finset
import Mathlib.Logic.Relation
import Mathlib.Data.Finset.Prod

/-!
# Model of `AutocorrelationFunction` (surfalize/autocorrelation.py:11-152)

`scipy.signal.fftconvolve` is modelled as the exact linear convolution it computes; the rounding of the FFT is not
modelled.
-/
namespace Surfalize.Autocorr
open Surfalize BaseOps Finset Container

section Generic
variable {K : Type} [Field K] [LinearOrder K]

/-- `fftconvolve(a, b, mode='full')[k, l]` for arrays of shape `(ny, nx)`. -/
def conv2Full (ny nx : Nat) (a b : Nat → Nat → K) (k l : Nat) : K :=
  ∑ i ∈ range ny, ∑ j ∈ range nx,
    if i ≤ k ∧ k - i < ny ∧ j ≤ l ∧ l - j < nx then a i j * b (k - i) (l - j) else 0

/-- autocorrelation.py:49-51 `overlap_counts[k, l]`, with `lag_y[k] = |-(ny-1) + k|`. -/
def overlapCount (ny nx k l : Nat) : Int :=
  (ny - |-((ny : Int) - 1) + k|) * (nx - |-((nx : Int) - 1) + l|)

/-- autocorrelation.py:23-27, 36-53: the array `data` of shape `(2·ny-1, 2·nx-1)`; missing points raise ValueError.
`data[::-1, ::-1][i, j] = data[ny-1-i, nx-1-j]`. -/
def acf (g : Grid (Option K)) : Except Err (Grid (Option K)) :=
  if hasMissing g then .error .valueError
  else
    let d := center g
    let ny := d.ny
    let nx := d.nx
    let raw := conv2Full ny nx d.val (fun i j => d.val (ny - 1 - i) (nx - 1 - j))
    .ok (Grid.ofFn (2 * ny - 1) (2 * nx - 1) fun k l => some (raw k l / (overlapCount ny nx k l : K)))

/-- autocorrelation.py:34 `center = np.array(data.shape) // 2`. -/
def centerIdx (A : Grid (Option K)) : Nat × Nat := (A.ny / 2, A.nx / 2)

end Generic

/-- The default structuring element of `ndimage.label` and `ndimage.binary_dilation`: the four direct neighbours. -/
def Adj4 (p q : Nat × Nat) : Prop :=
  (p.1 = q.1 ∧ (p.2 + 1 = q.2 ∨ q.2 + 1 = p.2)) ∨ (p.2 = q.2 ∧ (p.1 + 1 = q.1 ∨ q.1 + 1 = p.1))

instance (p q : Nat × Nat) : Decidable (Adj4 p q) := by unfold Adj4; infer_instance

/-- `labels == labels[center]` for `labels, _ = ndimage.label(mask)`: the connected component of `mask` that contains
`c`, or, when `c` has the background label 0, everything outside `mask`. -/
def Region (mask : Nat × Nat → Prop) (c p : Nat × Nat) : Prop :=
  (mask c ∧ Relation.ReflTransGen (fun a b => Adj4 a b ∧ mask b) c p) ∨ (¬ mask c ∧ ¬ mask p)

open Classical in
/-- autocorrelation.py:77-84: `np.argwhere(region ^ binary_dilation(region))` in row-major order, for
`mask = data > threshold`. -/
noncomputable def edgeIdx (A : Grid (Option ℝ)) (threshold : ℝ) : List (Nat × Nat) :=
  let c := centerIdx A
  let inside := fun p : Nat × Nat => p.1 < A.ny ∧ p.2 < A.nx
  let mask := fun p : Nat × Nat => inside p ∧ A.val p.1 p.2 > threshold
  let region := fun p : Nat × Nat => inside p ∧ Region mask c p
  let dilation := fun p : Nat × Nat => inside p ∧ (region p ∨ ∃ q, region q ∧ Adj4 q p)
  (pixels A.ny A.nx).filter fun p => decide (Xor (region p) (dilation p))

/-- autocorrelation.py:85-88, 95-96: the distance of an index from the centre in length units. -/
noncomputable def lagLength (A : Grid (Option ℝ)) (stepX stepY : ℝ) (p : Nat × Nat) : ℝ :=
  Real.sqrt ((((p.1 : ℝ) - (centerIdx A).1) * stepY) ^ 2 + (((p.2 : ℝ) - (centerIdx A).2) * stepX) ^ 2)

/-- autocorrelation.py:89-93: among the edge points with the extremal distance (`idx_edge[sel]`) the one with the
smallest autocorrelation. -/
noncomputable def pickEdge (A : Grid (Option ℝ)) (edge : List (Nat × Nat)) (sel : List Nat) : Nat × Nat :=
  let all := sel.map fun i => edge.getD i (0, 0)
  all.getD (argmin (all.map fun p => A.val p.1 p.2)) (0, 0)

/-- `interpolate_line_on_2d_array(data, center, idx, num_points=1000)` (mathutils.py:12-37): cubic spline
interpolation by scipy along the line, an external function of the array and the end point. -/
abbrev LineInterp := Grid (Option ℝ) → (Nat × Nat) → List ℝ

/-- autocorrelation.py:98-106: `np.linspace(0, length, 1000)[argclosest(threshold, line)]`. -/
noncomputable def decayAlong (line : LineInterp) (A : Grid (Option ℝ)) (stepX stepY threshold : ℝ)
    (idx : Nat × Nat) : ℝ :=
  lagLength A stepX stepY idx * (argclosest threshold (line A idx) : ℝ) / 999

/-- autocorrelation.py:55-108 `_calculate_decay_lengths(s)`: shortest and longest decay length. `np.min` of the
distances raises ValueError when there is no edge point. -/
noncomputable def decayLengths (line : LineInterp) (A : Grid (Option ℝ)) (stepX stepY s : ℝ) :
    Except Err (ℝ × ℝ) :=
  let c := centerIdx A
  let threshold := s * A.val c.1 c.2
  let edge := edgeIdx A threshold
  let distances := edge.map fun p => some (lagLength A stepX stepY p)
  match Interp.argminAll distances, Interp.argmaxAll distances with
  | .ok imin, .ok imax =>
    .ok (decayAlong line A stepX stepY threshold (pickEdge A edge imin),
      decayAlong line A stepX stepY threshold (pickEdge A edge imax))
  | .error e, _ => .error e
  | _, .error e => .error e

/-- surface.py `Sal` through autocorrelation.py:111-130. -/
noncomputable def sal (line : LineInterp) (g : Grid (Option ℝ)) (stepX stepY s : ℝ) : Except Err ℝ :=
  (acf g).bind fun A => (decayLengths line A stepX stepY s).map Prod.fst

/-- autocorrelation.py:132-152 `Str`: the quotient of shortest and longest decay length; NaN or infinite (`none`)
when the longest is 0. -/
noncomputable def str (line : LineInterp) (g : Grid (Option ℝ)) (stepX stepY s : ℝ) : Except Err (Option ℝ) :=
  (acf g).bind fun A => (decayLengths line A stepX stepY s).map fun d =>
    if d.2 = 0 then none else some (d.1 / d.2)

end Surfalize.Autocorr
