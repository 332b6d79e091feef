import Verif.Model.Detrend
import Verif.Model.BaseOps
import Verif.Prelude.Py

/-!
# Model of Otsu's threshold and the step height functions
(surfalize/mathutils.py:113-145, surfalize/surface.py:753-862)
-/
namespace Surfalize.Stepheight
open Surfalize Container

variable {K : Type} [Field K] [LinearOrder K] [FloorRing K]

/-- `np.histogram(values, bins=nbins)`: index of the bin of `v` for data in `[mn, mx]`, `mn < mx`; the last bin is
closed. -/
def binOf (nbins : Nat) (mn mx v : K) : Nat := min (⌊(v - mn) * nbins / (mx - mn)⌋).toNat (nbins - 1)

/-- `np.histogram`: the counts. -/
def counts (nbins : Nat) (mn mx : K) (l : List K) : List K :=
  (List.range nbins).map fun k => ((l.countP fun v => decide (binOf nbins mn mx v = k) : Nat) : K)

/-- mathutils.py:133 `bin_centers`: the mean of two neighbouring edges `mn + k (mx - mn) / nbins`. -/
def centers (nbins : Nat) (mn mx : K) : List K :=
  (List.range nbins).map fun k : Nat =>
    ((mn + (k : K) * ((mx - mn) / nbins)) + (mn + ((k : K) + 1) * ((mx - mn) / nbins))) / 2

/-- mathutils.py:135-143: between-class variance for a threshold between bin `i` and `i+1`. The cumulative sums are
written as sums over the first `i+1` and the remaining bins. (Weights are never 0 for non-constant data.) -/
def variance12 (cs ms : List K) (i : Nat) : K :=
  let w1 := (cs.take (i + 1)).sum
  let w2 := (cs.drop (i + 1)).sum
  let p := List.zipWith (fun c m => c * m) cs ms
  let mean1 := (p.take (i + 1)).sum / w1
  let mean2 := (p.drop (i + 1)).sum / w2
  w1 * w2 * (mean1 - mean2) ^ 2

/-- mathutils.py:113-145 `otsu_threshold(values, nbins)`, on the finite values `l`, `nbins ≥ 2`.
Constant data: numpy widens the range by 0.5 on both sides, the class weights of the first bins are 0, so
`variance12` starts with NaN, which `argmax` selects: the first bin centre. No data: the range is `[0, 1]` and the
same happens. -/
def otsu (nbins : Nat) (l : List K) : K :=
  match l.min?, l.max? with
  | some mn, some mx =>
    if mn = mx then (centers nbins (mn - 1 / 2) (mn + 1 / 2)).getD 0 0
    else
      let cs := counts nbins mn mx l
      let ms := centers nbins mn mx
      ms.getD (argmax ((List.range (nbins - 1)).map (variance12 cs ms))) 0
  | _, _ => (centers nbins 0 1).getD 0 0

/-- `arr.mean()` / `np.median(arr)`: NaN for data with NaN or without elements. -/
def statO (f : List K → K) (l : List (Option K)) : Option K := if none ∈ l ∨ l = [] then none else some (f (measured l))

/-- `self.data > threshold` for one height; NaN compares false. -/
def above (t : K) (z : Option K) : Bool := match z with | none => false | some z => decide (z > t)

/-- Comparison of two possibly NaN numbers. -/
def gtO (a b : Option K) : Bool := match a, b with | some a, some b => decide (a > b) | _, _ => false

/-- surface.py:753-768 `_stepheight_get_mask`: the mask as a function of the height (the code's array comparison is
elementwise in the height). -/
def maskFn (nbins : Nat) (heights : List (Option K)) : Option K → Bool :=
  let t := otsu nbins (measured heights)
  let lower := heights.filter fun z => ! above t z
  let upper := heights.filter fun z => above t z
  if gtO (statO mean lower) (statO mean upper) then fun z => ! above t z else fun z => above t z

/-- The number of bins used by the code (default argument of `otsu_threshold`). -/
def defaultBins : Nat := 256

/-- surface.py:814-828 `_stepheight_get_upper_lower_median` for a given mask over the points: `pts` are the heights
with their mask values. -/
def upperLowerMedian (pts : List (Option K × Bool)) : Option K × Option K :=
  (statO median ((pts.filter fun p => p.2).map fun p => p.1), statO median ((pts.filter fun p => ! p.2).map fun p => p.1))

/-- The heights with the mask computed from them. -/
def ownMask (heights : List (Option K)) : List (Option K × Bool) :=
  heights.map fun z => (z, maskFn defaultBins heights z)

/-- surface.py:831-842 `stepheight`: upper median minus lower median. -/
def stepheightWith (pts : List (Option K × Bool)) : Option K := osub (upperLowerMedian pts).1 (upperLowerMedian pts).2

/-- surface.py:831-842 `stepheight()` of a surface whose mask is its own. -/
def stepheight (g : Grid (Option K)) : Option K := stepheightWith (ownMask (flat g))

/-- surface.py:844-862 `cavity_volume(threshold)` for given medians: points below `upper - threshold * stepheight`;
comparisons with NaN are false, so NaN medians give an empty sum. -/
def cavityVolumeWith (pts : List (Option K × Bool)) (threshold stepX stepY : K) : K :=
  match (upperLowerMedian pts).1, stepheightWith pts with
  | some u, some sh =>
    (((measured (pts.map fun p => p.1)).filter fun z => decide (z < u - threshold * sh)).map fun z => u - z).sum * stepX * stepY
  | _, _ => 0

/-- surface.py:844-862 `cavity_volume(threshold)`. -/
def cavityVolume (g : Grid (Option K)) (threshold stepX stepY : K) : K :=
  cavityVolumeWith (ownMask (flat g)) threshold stepX stepY

/-- surface.py:787-802: the plane fitted to the masked points, minus its mean over all pixels. -/
def levelPlane (lstsq : Detrend.Lstsq K) (g : Grid (Option K)) (mask : Option K → Bool) : Nat → Nat → K :=
  let v := (Detrend.validPixels g).filter fun p => mask (some p.2)
  let coeffs := lstsq 3 (v.map fun p => [(p.1.2 : K), (p.1.1 : K), 1]) (v.map fun p => p.2)
  let plane := fun (i j : Nat) => coeffs.getD 0 0 * (j : K) + coeffs.getD 1 0 * (i : K) + coeffs.getD 2 0
  let m := mean ((pixels g.ny g.nx).map fun p => plane p.1 p.2)
  fun i j => plane i j - m

/-- surface.py:803 `leveled_data = data - plane`, for a non-empty surface whose mask selects measured points only
(fully measured data). -/
def levelData (lstsq : Detrend.Lstsq K) (g : Grid (Option K)) : Grid (Option K) :=
  let p := levelPlane lstsq g (maskFn defaultBins (flat g))
  Grid.ofFn g.ny g.nx fun i j => (g.get i j).map fun z => z - p i j

/-- surface.py:811: the returned surface carries the mask of the *original* heights in its cache; its step
parameters are evaluated with it. -/
def levelledPts (lstsq : Detrend.Lstsq K) (g : Grid (Option K)) : List (Option K × Bool) :=
  List.zipWith (fun z z0 => (z, maskFn defaultBins (flat g) z0)) (flat (levelData lstsq g)) (flat g)

end Surfalize.Stepheight
