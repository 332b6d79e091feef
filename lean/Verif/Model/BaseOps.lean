import Verif.Prelude.Err
import Verif.Prelude.Num
import Mathlib.Analysis.Real.Sqrt

/-!
# Model of the dimension-agnostic operations of `BaseTopography` (surfalize/base.py:128-404)

Each function maps the height data to the new height data (what `_set_data` / `_with_data` receives).
The handling of `inplace` is in `Verif.Model.Object`.
-/
namespace Surfalize.BaseOps
open Surfalize Container

section Generic
variable {C : Type → Type} [Container C] {K : Type} [Field K] [LinearOrder K]

/-- base.py:136-145 `has_missing_points`. -/
def hasMissing {α : Type} (c : C (Option α)) : Bool := (flat c).any Option.isNone

/-- base.py:17-37 `no_nonmeasured_points`: the decorator's guard. -/
def noNonmeasured {α β : Type} (f : C (Option α) → Except Err β) (c : C (Option α)) : Except Err β :=
  if hasMissing c then .error .valueError else f c

/-- base.py:214 `center`: `data - np.nanmean(data)`. -/
def center (c : C (Option K)) : C (Option K) :=
  map (fun z => osub z (nanmean (flat c))) c

/-- base.py:235 `zero`: `data - np.nanmin(data)`; `np.nanmin` raises ValueError on an empty array. -/
def zero (c : C (Option K)) : Except Err (C (Option K)) :=
  if flat c = [] then .error .valueError
  else .ok (map (fun z => osub z (nanmin (flat c))) c)

/-- base.py:256 `invert`: `data.min() + data.max() - data`, with the NaN-propagating `min`/`max`. -/
def invert (c : C (Option K)) : Except Err (C (Option K)) :=
  if flat c = [] then .error .valueError
  else .ok (map (fun z => osub (oadd (propmin (flat c)) (propmax (flat c))) z) c)

/-- base.py:290-291 `remove_outliers(method='median')`: distances to `np.nanmedian`, points further than
`n` times the `np.nanmedian` of the distances become NaN. With nothing measured the medians are NaN and
every comparison is false. -/
def removeOutliersMedian (n : K) (c : C (Option K)) : C (Option K) :=
  let l := measured (flat c)
  let m := median l
  let md := median (l.map fun z => |z - m|)
  map (fun z => z.bind fun z => if |z - m| > n * md then none else some z) c

/-- base.py:321-336 `threshold(threshold=(u, l))`.
`y` are the measured heights in descending order, `x_i = (i+1)/n`; points above `y[idx0]` or below
`y[idx1]` become NaN. `argclosest` on an empty array raises ValueError. -/
def threshold (u l : K) (c : C (Option K)) : Except Err (C (Option K)) :=
  let y := sortDesc (measured (flat c))
  let x : List K := (List.range y.length).map fun i : Nat => ((i : K) + 1) / (y.length : K)
  if l + u ≥ 100 then .error .valueError
  else if y = [] then .error .valueError
  else
    let idx0 := argclosest (u / 100) x
    let idx1 := argclosest (1 - l / 100) x
    .ok (map (fun z => z.bind fun z =>
      if z > y.getD idx0 0 ∨ z < y.getD idx1 0 then none else some z) c)

/-- base.py:300, 323-326: a scalar threshold is used for both sides. -/
def thresholdScalar (t : K) (c : C (Option K)) : Except Err (C (Option K)) := threshold t t c

end Generic

section Real
variable {C : Type → Type} [Container C]

/-- `np.nanstd` of the measured points. -/
noncomputable def std (l : List ℝ) : ℝ := Real.sqrt (variance l)

/-- base.py:288 `remove_outliers(method='mean')`: `|z - nanmean| > n * nanstd` becomes NaN. -/
noncomputable def removeOutliersMean (n : ℝ) (c : C (Option ℝ)) : C (Option ℝ) :=
  let l := measured (flat c)
  map (fun z => z.bind fun z => if |z - mean l| > n * std l then none else some z) c

/-- base.py:286-297 `remove_outliers`: dispatch on the method string. -/
noncomputable def removeOutliers (n : ℝ) (method : String) (c : C (Option ℝ)) :
    Except Err (C (Option ℝ)) :=
  if method = "mean" then .ok (removeOutliersMean n c)
  else if method = "median" then .ok (removeOutliersMedian n c)
  else .error .valueError

end Real
end Surfalize.BaseOps
