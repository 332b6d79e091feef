import Verif.Model.Fourier
import Verif.Model.Sinusoid
import Verif.Model.Stepheight

/-!
# Model of `Surface.depth` and `aspect_ratio` (surfalize/surface.py:1531-1650)

The optimiser behind `Sinusoid.from_fit` is a parameter. Plotting is not modelled.
-/
namespace Surfalize.Depth
open Surfalize Fourier Sinusoid Container BaseOps

/-- `scipy.optimize.curve_fit(_sinusoid, xp, line, p0)`: from the heights of the profile and the starting values to
the parameters, or an exception (RuntimeError already turned into FittingError, mathutils.py:288-290). -/
abbrev Fit := List ℝ → ℝ × ℝ × ℝ × ℝ → Except Err (ℝ × ℝ × ℝ × ℝ)

/-- surface.py:1590-1592: the starting values `((max - min)/2, period_px, 0, mean)`. -/
noncomputable def p0 (line : List ℝ) (periodPx : ℝ) : ℝ × ℝ × ℝ × ℝ :=
  (((line.max?).getD 0 - (line.min?).getD 0) / 2, periodPx, 0, mean line)

/-- surface.py:1606-1617: the median around the extremum number `j`, or NaN when the window leaves the profile or is
empty. -/
noncomputable def extremumHeight (s : Sinus) (samplingWidth : ℝ) (line : List ℝ) (j : Nat) : Option ℝ :=
  let idx := (1 / 2 * (j : ℝ)) * s.period + s.firstExtremum
  let w := pyInt (s.period * samplingWidth / 2)
  let lo := pyInt idx - w
  let hi := pyInt idx + w
  if lo < 0 ∨ hi > (line.length : Int) - 1 then none
  else
    let win := pySlice line lo (hi + 1)
    if win = [] then none else some (median win)

/-- surface.py:1593-1629 for one profile. A fitted period of 0 makes the first extremum NaN, and `int(nan)` raises
ValueError (if there is any interval to evaluate). -/
noncomputable def depthLine (fit : Fit) (periodPx samplingWidth : ℝ) (nint : Nat) (line : List ℝ) :
    Except Err (List (Option ℝ)) :=
  (fit line (p0 line periodPx)).bind fun popt =>
    let s := ofPopt popt
    if s.period = 0 ∧ nint ≠ 0 then .error .valueError
    else .ok ((List.range nint).map fun k =>
      (osub (extremumHeight s samplingWidth line (2 * k)) (extremumHeight s samplingWidth line (2 * k + 1))).map
        fun x => |x|)

/-- Row `r` of the heights. -/
def rowOf (g : Grid (Option ℝ)) (r : Nat) : List ℝ := (List.range g.nx).map fun j => g.val r j
/-- Column `c` of the heights. -/
def colOf (g : Grid (Option ℝ)) (c : Nat) : List ℝ := (List.range g.ny).map fun i => g.val i c

/-- surface.py:1574, 1578, 1586-1589: the number of the row or column used for profile `i`;
`profile_dist_px = int(size / (nprofiles-1))`. -/
def profileIndex (size nprofiles i : Nat) : Nat := size / (nprofiles - 1) * i

/-- surface.py:1531-1631 `depth(nprofiles, sampling_width)`: mean and standard deviation, NaN (`none`) if no depth
could be measured. For a negative `nprofiles` the allocation of `depths` raises ValueError. An infinite period along
the chosen axis (`none`) does not occur; see `axis_finite`. -/
noncomputable def depth (argsort : Argsort) (fit : Fit) (g : Grid (Option ℝ)) (stepX stepY : ℝ) (nprofiles : Int)
    (samplingWidth : ℝ) : Except Err (Option ℝ × Option ℝ) :=
  if hasMissing g then .error .valueError
  else
    let W := ((g.nx : ℝ) - 1) * stepX
    let H := ((g.ny : ℝ) - 1) * stepY
    (orientation argsort g W H).bind fun θ =>
      let vertical := decide (-45 < θ ∧ θ < 45)
      let size := if vertical then g.ny else g.nx
      if nprofiles > size then .error .valueError
      else (periodXY argsort g W H).bind fun pxy =>
        match (if vertical then pxy.1 else pxy.2) with
        | none => .error .valueError
        | some p =>
          if nprofiles = 1 then .error .zeroDivision
          else
            let nint := (pyInt ((if vertical then W else H) / p)).toNat
            let periodPx := p / (if vertical then stepX else stepY)
            if nprofiles * (nint : Int) < 0 then .error .valueError
            else
              ((List.range nprofiles.toNat).mapM (m := Except Err) fun i =>
                let r := profileIndex size nprofiles.toNat i
                if size ≤ r then .error .indexError
                else depthLine fit periodPx samplingWidth nint (if vertical then rowOf g r else colOf g r)).map fun ls =>
                let l := measured ls.flatten
                if l = [] then (none, none) else (some (mean l), some (std l))

/-- surface.py:1633-1643 `aspect_ratio`: `depth()[0] / period()` with the default arguments `nprofiles=30`,
`sampling_width=0.2`. -/
noncomputable def aspectRatio (argsort : Argsort) (fit : Fit) (g : Grid (Option ℝ)) (stepX stepY : ℝ) :
    Except Err (Option ℝ) :=
  (depth argsort fit g stepX stepY 30 (1 / 5)).bind fun d =>
    (period argsort g (((g.nx : ℝ) - 1) * stepX) (((g.ny : ℝ) - 1) * stepY)).map fun p =>
      match d.1, p with
      | some d, some p => some (d / p)
      | none, _ => none
      | some _, none => some 0

end Surfalize.Depth
