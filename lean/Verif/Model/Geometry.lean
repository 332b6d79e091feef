import Verif.Prelude.Err
import Verif.Prelude.Py

/-!
# Model of cropping, zooming, slicing and profile extraction
(surfalize/surface.py:260-271, 361-488, 662-720; surfalize/profile.py:213-269)

The functions map height data to height data; object handling (`inplace`, cache) is in
`Verif.Model.Object`. Heights may be of any type `α`.
-/
namespace Surfalize.Geometry
open Surfalize

variable {α : Type} {K : Type} [Field K] [LinearOrder K] [FloorRing K]

/-- `data[y0:y1+1, x0:x1+1]` -/
def sliceGrid (g : Grid α) (y0 y1 x0 x1 : Int) : Grid α :=
  { rows := (pySlice g.rows y0 (y1 + 1)).map fun r => pySlice r x0 (x1 + 1)
    nx := (pySlice (List.replicate g.nx ()) x0 (x1 + 1)).length }

/-- surface.py:711-716 `crop(box, in_units=False)`, box = (x0, x1, y0, y1) in pixels. -/
def cropPx (g : Grid α) (x0 x1 y0 y1 : Int) : Except Err (Grid α) :=
  if x0 < 0 ∨ y0 < 0 ∨ x1 > (g.nx : Int) - 1 ∨ y1 > (g.ny : Int) - 1 then .error .valueError
  else .ok (sliceGrid g y0 y1 x0 x1)

/-- surface.py:705-716 `crop(box)` with the box in µm; y counts from the bottom edge. -/
def cropUnits (g : Grid α) (stepX stepY : K) (b0 b1 b2 b3 : K) : Except Err (Grid α) :=
  let x0 := pyRound (b0 / stepX)
  let x1 := pyRound (b1 / stepX)
  let y1 := (g.ny : Int) - pyRound (b2 / stepY) - 1
  let y0 := (g.ny : Int) - pyRound (b3 / stepY) - 1
  cropPx g x0 x1 y0 y1

/-- surface.py:681-682 / profile.py:264-265: start index and end index (exclusive) of the zoom window on an
axis of `n` points. -/
def zoomWindow (n : Nat) (factor : K) : Int × Int :=
  let nn := pyInt ((n : K) / factor)
  let s := pyInt ((((n : Int) - nn : Int) : K) / 2)
  (s, nn + s + 1)

/-- surface.py:680-682 `zoom`. -/
def zoom (g : Grid α) (factor : K) : Except Err (Grid α) :=
  if factor = 0 then .error .zeroDivision
  else
    let wy := zoomWindow g.ny factor
    let wx := zoomWindow g.nx factor
    .ok { rows := (pySlice g.rows wy.1 wy.2).map fun r => pySlice r wx.1 wx.2
          nx := (pySlice (List.replicate g.nx ()) wx.1 wx.2).length }

/-- profile.py:263-265 `Profile.zoom`. -/
def zoom1 (l : List α) (factor : K) : Except Err (List α) :=
  if factor = 0 then .error .zeroDivision
  else
    let w := zoomWindow l.length factor
    .ok (pySlice l w.1 w.2)

/-- profile.py:236-241 `Profile.crop(interval, in_units=False)`. -/
def crop1Px (l : List α) (x0 x1 : Int) : Except Err (List α) :=
  if x0 < 0 ∨ x1 > (l.length : Int) - 1 ∨ x0 ≥ x1 then .error .valueError
  else .ok (pySlice l x0 (x1 + 1))

/-- profile.py:232-241 `Profile.crop(interval)` in µm. -/
def crop1Units (l : List α) (step b0 b1 : K) : Except Err (List α) :=
  crop1Px l (pyRound (b0 / step)) (pyRound (b1 / step))

/-- One component of an index expression. -/
inductive Item where
  | idx (i : Int)
  | sl (s : PySlice)
  deriving DecidableEq, Repr

/-- An index expression: `s[item]` or `s[item_y, item_x]`. Masks, index arrays and ellipses are
in `Model/Indexing.lean`. -/
inductive Index where
  | one (i : Item)
  | two (iy ix : Item)
  deriving DecidableEq, Repr

/-- surface.py:263-270: the new step along one axis; only slices with an explicit step change it. -/
def newStep (step : K) : Item → K
  | .idx _ => step
  | .sl s => match s.step with
    | none => step
    | some k => (k : K) * step

/-- surface.py:260-271 `__getitem__`: the selected block with its `step_y` and `step_x`. An integer index
leaves an array of fewer than two dimensions, on which the data setter's `value.shape[1]`
(surface.py:143) raises IndexError; so does an index out of range. A slice step of 0 raises ValueError. -/
def getitem (g : Grid α) (stepY stepX : K) : Index → Except Err (Grid α × K × K)
  | .one (.idx _) => .error .indexError
  | .one (.sl s) =>
    match s.apply g.rows with
    | none => .error .valueError
    | some rows => .ok ({ rows := rows, nx := g.nx }, newStep stepY (.sl s), stepX)
  | .two (.sl sy) (.sl sx) =>
    match sy.apply g.rows, sx.apply (List.replicate g.nx ()) with
    | some rows, some cols =>
      .ok ({ rows := rows.map fun r => (sx.apply r).getD [], nx := cols.length },
        newStep stepY (.sl sy), newStep stepX (.sl sx))
    | _, _ => .error .valueError
  | .two (.idx _) (.sl s) => if s.step = some 0 then .error .valueError else .error .indexError
  | .two (.sl s) (.idx _) => if s.step = some 0 then .error .valueError else .error .indexError
  | .two (.idx _) (.idx _) => .error .indexError

section Profiles

/-- `[...].mean(axis=0)` over rows with `nx` columns, NaN-propagating; NaN for no rows. -/
def meanRows (rows : List (List (Option K))) (nx : Nat) : List (Option K) :=
  (List.range nx).map fun j =>
    let col := rows.map fun r => (r[j]?).getD none
    if col = [] ∨ none ∈ col then none else some (mean (measured col))

/-- surface.py:391-398: the rows selected for a horizontal profile (indices before slicing).
`total` is `height_um`, `n` is `size.y`, `avgPx` is `average_step_px`. -/
def profileWindow (n : Nat) (total y : K) (average : Nat) (avgPx : Int) : Int × Int :=
  let idx := pyInt (y / total * (n : K))
  let half := (average / 2 : Nat) * avgPx
  let lo := idx - half
  let lo := if lo < 0 then 0 else lo
  let hi := idx + half
  let hi := if hi > (n : Int) then (n : Int) else hi
  (lo, hi)

/-- surface.py:385-388: `average_step_px`. -/
def averagePx (step : K) : Option K → Int
  | none => 1
  | some a => pyInt (a / step)

/-- surface.py:382-399 `get_horizontal_profile(y, average, average_step)`; `avgStep = none` is one pixel.
`height_um = 0` (one row) divides by zero; a slice step of 0 raises ValueError; a negative one
(negative `average_step`) is outside this model and reported as ValueError. -/
def horizontalProfile (g : Grid (Option K)) (stepY heightUm y : K) (average : Nat) (avgStep : Option K) :
    Except Err (List (Option K)) :=
  if y > heightUm then .error .valueError
  else
    let px : Int := averagePx stepY avgStep
    if heightUm = 0 then .error .zeroDivision
    else
      let w := profileWindow g.ny heightUm y average px
      if px ≤ 0 then .error .valueError
      else .ok (meanRows (stride px.toNat (pySlice g.rows w.1 (w.2 + 1))) g.nx)

/-- Transposition, used to express column access `data[:, a:b]`. -/
def transpose (g : Grid (Option K)) : Grid (Option K) :=
  { rows := (List.range g.nx).map fun j => g.rows.map fun r => (r[j]?).getD none
    nx := g.ny }

/-- surface.py:422-439 `get_vertical_profile(x, ...)`: the same on columns. -/
def verticalProfile (g : Grid (Option K)) (stepX widthUm x : K) (average : Nat) (avgStep : Option K) :
    Except Err (List (Option K)) :=
  horizontalProfile (transpose g) stepX widthUm x average avgStep

/-- `np.linspace(a, b, n)`. -/
def linspace (a b : K) (n : Nat) : List K :=
  if n = 1 then [a]
  else (List.range n).map fun i : Nat => a + (i : K) * ((b - a) / ((n : K) - 1))

/-- surface.py:466-484 `get_oblique_profile`: the list of sampled (y, x) pixel coordinates. The number of
samples `int(np.hypot(dx, dy))` is the integer square root of `dx² + dy²`. Interpolation at the sampled
coordinates (`ndimage.map_coordinates`) is not modelled. `width_um` or `height_um` 0 divides by zero. -/
def obliqueCoords (g : Grid α) (widthUm heightUm x0 y0 x1 y1 : K) : Except Err (List (K × K)) :=
  if widthUm = 0 ∨ heightUm = 0 then .error .zeroDivision
  else
    let x0px := pyInt (x0 / widthUm * (g.nx : K))
    let y0px := pyInt (y0 / heightUm * (g.ny : K))
    let x1px := pyInt (x1 / widthUm * (g.nx : K))
    let y1px := pyInt (y1 / heightUm * (g.ny : K))
    if ¬ (0 ≤ x0px ∧ x0px ≤ g.nx) ∨ ¬ (0 ≤ y0px ∧ y0px ≤ g.ny) ∨
        ¬ (0 ≤ x1px ∧ x1px ≤ g.nx) ∨ ¬ (0 ≤ y1px ∧ y1px ≤ g.ny) then .error .valueError
    else
      let dx := x1px - x0px
      let dy := y1px - y0px
      let size := Nat.sqrt (dx * dx + dy * dy).toNat
      if dx = 0 then .error .zeroDivision
      else
        let m : K := (dy : K) / (dx : K)
        let xp := linspace (x0px : K) (x1px : K) size
        .ok (xp.map fun x => (m * x, x))

end Profiles
end Surfalize.Geometry
