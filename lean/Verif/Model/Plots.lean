import Verif.Model.Abbott
import Verif.Model.Autocorr
import Verif.Model.Fourier
import Verif.Model.Geometry
import Verif.Model.Stepheight
import Mathlib.Analysis.SpecialFunctions.Log.Base

/-!
# Model of the plots: what is drawn where
(surfalize/surface.py:1715-1779, surfalize/plotting.py:43-113, surfalize/autocorrelation.py:157-176,
surfalize/fourier.py:208-290, surfalize/profile.py:630-651, surfalize/abbottfirestone.py:364-414)

A plot is the data with the arguments that place them on the axes. Not modelled: colour maps and their limits (except
that the limits of the spectrum cannot be computed without data), labels, ticks, figure sizes, camera and light of the
3d plot, saving of the figure.
-/
namespace Surfalize.Plots
open Surfalize BaseOps Container Autocorr Interp

/-- The arguments of `ax.imshow(data, extent=(left, right, bottom, top))`. -/
structure Picture (α K : Type) where
  data : Grid α
  left : K
  right : K
  bottom : K
  top : K

section
variable {K : Type} [Field K] [LinearOrder K]

/-! ## Surfaces and profiles -/

/-- An image layer: pixels of one or several channels (`ndim` 2 or 3). -/
structure Layer where
  pixels : Grid (List Nat)
  colour : Bool

/-- The colour map handed to `imshow`. -/
inductive Cmap where
  | given
  | gray
  | none
  deriving DecidableEq, Repr

/-- What `plot_2d` draws: heights or an image, with a colour map, with or without colour bar and with or without the
legend for non-measured points. -/
structure Plot2d (K : Type) where
  picture : Picture (Option K) K ⊕ Picture (List Nat) K
  cmap : Cmap
  colorbar : Bool
  legend : Bool

/-- surface.py:1715-1779 `plot_2d(layer=…, show_cbar=…)`; `width_um` and `height_um` are those of C04. -/
def plot2d (g : Grid (Option K)) (stepX stepY : K) (layers : List (String × Layer)) (layer : String)
    (showCbar : Option Bool) : Except Err (Plot2d K) :=
  let right := ((g.nx : K) - 1) * stepX
  let top := ((g.ny : K) - 1) * stepY
  if layer = "Topography" then
    .ok ⟨.inl ⟨g, 0, right, 0, top⟩, .given, showCbar.getD true, hasMissing g⟩
  else
    match layers.lookup layer with
    | some i => .ok ⟨.inr ⟨i.pixels, 0, right, 0, top⟩, if i.colour then .none else .gray, showCbar.getD false, false⟩
    | none => .error .valueError

/-- profile.py:630-651 `Profile.plot_2d`: the points of the line, with `length_um` of the profile. -/
def profilePlot (l : List (Option K)) (length : K) : List (K × Option K) :=
  List.zip (Geometry.linspace 0 length l.length) l

/-- plotting.py:106-116: the points of the 3d plot, `StructuredGrid(x, y, z)` with `x, y` from `np.meshgrid`, row by row. -/
def points3d (g : Grid (Option K)) (stepX stepY : K) : List (List (K × K × Option K)) :=
  List.zipWith (fun y r => List.zipWith (fun x z => (x, y, z)) (Geometry.linspace 0 (((g.nx : K) - 1) * stepX) g.nx) r)
    (Geometry.linspace 0 (((g.ny : K) - 1) * stepY) g.ny).reverse g.rows

/-- plotting.py:43-116 `plot_3d(level_of_detail=…)`: `resample` is `ndimage.zoom`. -/
def plot3d (resample : Grid (Option K) → K → Grid (Option K)) (g : Grid (Option K)) (stepX stepY detail : K) :
    List (List (K × K × Option K)) :=
  if detail < 100 then points3d (resample g (detail / 100)) (stepX / (detail / 100)) (stepY / (detail / 100))
  else points3d g stepX stepY

/-- autocorrelation.py:157-176 `plot_autocorrelation`. -/
def autocorrPlot (g : Grid (Option K)) (stepX stepY : K) : Except Err (Picture (Option K) K) :=
  match acf g with
  | .error e => .error e
  | .ok A =>
    let c := centerIdx A
    .ok ⟨A, -((c.2 : K) * stepX), (c.2 : K) * stepX, -((c.1 : K) * stepY), (c.1 : K) * stepY⟩

/-! ## Abbott curve -/

/-- A horizontal bar of the histogram: from `lo` to `hi`, as long as `percent`. -/
structure Bar (K : Type) where
  lo : K
  hi : K
  percent : K

/-- abbottfirestone.py:364-387 `plot(nbars)`: the bars from top to bottom, for heights with extremes `mn < mx`. `barh` draws
a bar of the stated height around the stated centre. -/
def bars [FloorRing K] (nbars : Nat) (mn mx : K) (data : List K) : List (Bar K) :=
  let dist := (Stepheight.counts nbars mn mx data).reverse
  let edges := ((List.range (nbars + 1)).map fun k : Nat => mn + (k : K) * ((mx - mn) / nbars)).reverse
  let h := (mx - mn) / nbars
  List.zipWith (fun e d => ⟨e - h / 2, e + h / 2, d / dist.sum * 100⟩)
    (List.zipWith (fun a b => a + (b - a) / 2) edges edges.tail) dist

/-- abbottfirestone.py:389-414 `visual_parameter_study`: the corners of the two triangles, for peaks and valleys. -/
def triangles (sort : PtSort K) (c : Abbott.Curve K) : Option (List (K × K)) × Option (List (K × K)) :=
  ((c.pk sort).map fun pk => [(0, c.yupper), (0, c.yupper + pk), (c.mr1 sort, c.yupper)],
   (c.vk sort).map fun vk => [(100, c.ylower), (100, c.ylower - vk), (c.mr2 sort, c.ylower)])

end

/-! ## Spectrum -/

/-- `np.hanning(n)[k]`. -/
noncomputable def hanning (n k : Nat) : ℝ :=
  if n = 1 then 1 else 1 / 2 + 1 / 2 * Real.cos (Real.pi * ((1 : ℝ) - n + 2 * k) / ((n : ℝ) - 1))

/-- fourier.py:244-252: the data that are transformed. -/
noncomputable def prepared (subtractMean window : Bool) (g : Grid (Option ℝ)) (i j : Nat) : ℝ :=
  let d := if subtractMean then g.val i j - mean (measured (flat g)) else g.val i j
  if window then d * (hanning g.ny i * hanning g.nx j) else d

/-- fourier.py:258-259: the shifted frequencies of an axis of `n` points and length `len`. -/
noncomputable def freqs (n : Nat) (len : ℝ) : List ℝ :=
  (List.range n).map fun k => Fourier.fftfreq n (len / n) (Fourier.shiftIdx n k)

/-- fourier.py:264-277: the first and the last index that is shown along one axis. -/
noncomputable def window (n : Nat) (freq : List ℝ) : Option ℝ → Nat × Nat
  | none => (0, n - 1)
  | some f => (n - argclosest f freq, argclosest f freq)

/-- fourier.py:208-290 `plot(...)`. The constructor raises ValueError for missing points; `fftfreq` divides by the
extents. `fft.max()` of nothing raises ValueError, an index behind the end IndexError. -/
noncomputable def spectrumPlot (g : Grid (Option ℝ)) (stepX stepY : ℝ) (log han subtractMean adjust : Bool)
    (fxmax fymax : Option ℝ) : Except Err (Picture ℝ ℝ) :=
  let width := ((g.nx : ℝ) - 1) * stepX
  let height := ((g.ny : ℝ) - 1) * stepY
  if hasMissing g then .error .valueError
  else if width = 0 ∨ height = 0 then .error .zeroDivision
  else
    let fx := freqs g.nx width
    let fy := freqs g.ny height
    let amp := fun a b => ‖Fourier.fft2 g.ny g.nx (prepared subtractMean han g) (Fourier.shiftIdx g.ny a) (Fourier.shiftIdx g.nx b)‖
    let val := fun a b => if log then Real.logb 10 (amp a b + 1 / 10 ^ 10) else amp a b
    let wx := window g.nx fx fxmax
    let wy := window g.ny fy fymax
    let ncols := wx.2 + 1 - wx.1
    let nrows := wy.2 + 1 - wy.1
    if adjust = true ∧ (ncols = 0 ∨ nrows = 0) then .error .valueError
    else
      match fx[wx.1]?, fx[wx.2]?, fy[wy.2]?, fy[wy.1]? with
      | some l, some r, some b, some t => .ok ⟨Grid.ofFn nrows ncols fun a c => val (wy.1 + a) (wx.1 + c), l, r, b, t⟩
      | _, _, _, _ => .error .indexError

/-- fourier.py:292-317 `plot_angular_power_spectrum(angle_step)` (surface.py:1712-1713): the curve drawn on polar axes, as pairs of an angle in
radians, counted counter-clockwise from the right (`set_theta_direction(1)`, `set_theta_zero_location('E')`), and a radius. -/
noncomputable def angularPlot (g : Grid (Option ℝ)) (stepX stepY angleStep : ℝ) : Except Err (List (ℝ × ℝ)) :=
  match Fourier.angularSpectrum g (((g.nx : ℝ) - 1) * stepX) (((g.ny : ℝ) - 1) * stepY) angleStep true with
  | .error e => .error e
  | .ok (angles, spectrum) => .ok ((angles.map fun a => a * Real.pi / 180).zip spectrum)

/-- The place of axes in a figure divided into `rows × cols` cells: the cells from number `start` to number `stop`, counted from 0
(matplotlib `SubplotSpec.get_geometry`). -/
structure Place where
  rows : Nat
  cols : Nat
  start : Nat
  stop : Nat
deriving DecidableEq

/-- matplotlib `fig.add_subplot(rows, cols, index)` with one index counted from 1. -/
def addSubplot (rows cols index : Nat) : Except Err Place :=
  if 1 ≤ index ∧ index ≤ rows * cols then .ok ⟨rows, cols, index - 1, index - 1⟩ else .error .valueError

/-- fourier.py:301-305: axes that are passed in are removed and replaced by polar ones. -/
def replaceAxes (p : Place) : Except Err Place := addSubplot p.rows p.cols (p.start + 1)

end Surfalize.Plots
