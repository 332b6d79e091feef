import Verif.Model.Fourier
import Verif.Model.Sinusoid

/-!
# Model of `Surface.orientation` (surfalize/surface.py:1376-1455)

`scipy.optimize.curve_fit` is a parameter: given a profile and the first guess it returns four real numbers or raises.
Constants 0.1 and 0.05 are the exact fractions. NaN is `none`.
-/
namespace Surfalize.Orientation
open Surfalize BaseOps Container Fourier Sinusoid

/-- `curve_fit(_sinusoid, np.arange(len(profile)), profile, p0)` inside `Sinusoid.from_fit`
(surfalize/mathutils.py:288-291): a RuntimeError has become a FittingError. -/
abbrev Fit := List ℝ → ℝ × ℝ × ℝ × ℝ → Except Err (ℝ × ℝ × ℝ × ℝ)

/-- `a < b` for periods, where `none` is infinity. -/
def ltPeriod (a b : Option ℝ) : Prop :=
  match a, b with
  | some x, some y => x < y
  | some _, none => True
  | none, _ => False

noncomputable instance (a b : Option ℝ) : Decidable (ltPeriod a b) := Classical.propDecidable _

/-- surface.py:1390, 1395 `int(period / step)`: OverflowError for an infinite period. -/
noncomputable def periodPx (p : Option ℝ) (step : ℝ) : Except Err Int :=
  match p with
  | none => .error .overflow
  | some p => .ok (pyInt (p / step))

/-- surface.py:1402-1407: the position of the first extremum of a profile: NaN for a fitted period of 0. -/
noncomputable def extremum (fit : Fit) (period : Int) (profile : List ℝ) : Except Err (Option ℝ) :=
  let p0 := ((profile.max?.getD 0 - profile.min?.getD 0) / 2, (period : ℝ), 0, mean profile)
  (fit profile p0).map fun popt =>
    let s := ofPopt popt
    if s.period = 0 then none else some s.firstExtremum

/-- `np.diff` -/
def diffs : List ℝ → List ℝ
  | a :: b :: l => (b - a) :: diffs (b :: l)
  | _ => []

/-- surface.py:1409-1419: the mean of the differences within 5% of the median, relative to the largest deviation.
Without any difference `max` raises ValueError; NaN if all are the same (0/0) or if none is kept. -/
noncomputable def slope (xs : List (Option ℝ)) : Except Err (Option ℝ) :=
  if xs.length < 2 then .error .valueError
  else if none ∈ xs then .ok none
  else
    let d := diffs (xs.filterMap id)
    let dev := d.map fun x => |x - median d|
    let top := dev.max?.getD 0
    let kept := d.filter fun x => |x - median d| / top < 1 / 20
    if top = 0 ∨ kept = [] then .ok none else .ok (some (mean kept))

/-- surface.py:1389-1408 for one axis: `size` profiles are available; the distance of the sampled profiles and the
positions of their first extrema. A period below ten points gives distance 0 and a division by zero; a negative number
of profiles a ValueError, an index that does not exist an IndexError. -/
noncomputable def positions (fit : Fit) (p : Option ℝ) (step : ℝ) (size : Nat) (profile : Nat → List ℝ) :
    Except Err (Int × List (Option ℝ)) :=
  (periodPx p step).bind fun px =>
    let dist := pyInt ((px : ℝ) * (1 / 10))
    if dist = 0 then .error .zeroDivision
    else
      let n := pyInt ((size : ℝ) / dist)
      if n < 0 then .error .valueError
      else ((List.range n.toNat).mapM fun i : Nat =>
          let idx := (i : Int) * dist
          if idx < -(size : Int) ∨ (size : Int) ≤ idx then .error .indexError
          else extremum fit px (profile (if idx < 0 then idx + size else idx).toNat)).map fun xs => (dist, xs)

/-- `np.sign` -/
noncomputable def sign (x : ℝ) : ℝ := if x < 0 then -1 else if 0 < x then 1 else 0

/-- surface.py:1422-1427: the angle in degrees. -/
noncomputable def angle (horizontal : Prop) [Decidable horizontal] (d : Option ℝ) (dist : Int) : Option ℝ :=
  d.map fun d =>
    let a := Real.arctan (d / dist) * 180 / Real.pi
    if horizontal then sign a * 90 - a else a

/-- surface.py:1376-1427 `_orientation_refined` for known periods along the axes. -/
noncomputable def refinedOf (fit : Fit) (px py : Option ℝ) (g : Grid (Option ℝ)) (stepX stepY : ℝ) :
    Except Err (Option ℝ) :=
  (if ltPeriod px py then
      positions fit px stepX g.ny fun i => (List.range g.nx).map fun j => g.val i j
    else positions fit py stepY g.nx fun j => (List.range g.ny).map fun i => g.val i j).bind fun r =>
    (slope r.2).map fun d => angle (ltPeriod py px) d r.1

/-- surface.py:1376-1427 `_orientation_refined`. -/
noncomputable def refined (argsort : Argsort) (fit : Fit) (g : Grid (Option ℝ)) (width height stepX stepY : ℝ) :
    Except Err (Option ℝ) :=
  (periodXY argsort g width height).bind fun p => refinedOf fit p.1 p.2 g stepX stepY

/-- surface.py:1430-1455 `orientation(method)`; surfaces with missing points raise ValueError (base.py:20-39). -/
noncomputable def orientation (argsort : Argsort) (fit : Fit) (method : String) (g : Grid (Option ℝ))
    (width height stepX stepY : ℝ) : Except Err (Option ℝ) :=
  if hasMissing g then .error .valueError
  else if method = "fft_refined" then refined argsort fit g width height stepX stepY
  else if method = "fft" then (Fourier.orientation argsort g width height).map some
  else .error .valueError

end Surfalize.Orientation
