import Verif.Model.Detrend
import Verif.Model.Object

/-!
# Model of `fill_nonmeasured` and `rotate` (surfalize/surface.py:492-522, 608-660; surfalize/profile.py:131-157)
-/
namespace Surfalize.FillRotate
open Surfalize Detrend BaseOps Geometry Object

section Fill
variable {K : Type}

/-- The neighbour search of `scipy.interpolate.griddata(..., method='nearest')`: from the measured points with
their heights and a query point to the chosen measured point. Ties are left open. -/
abbrev Pick (ι K : Type) := List (ι × K) → ι → ι × K

/-- the measured points of a 2-d array -/
def points2 (g : Grid (Option K)) : List ((Nat × Nat) × K) :=
  (pixels g.ny g.nx).filterMap fun p => (g.get p.1 p.2).map fun z => (p, z)

/-- the measured points of a 1-d array -/
def points1 (p : List (Option K)) : List (Nat × K) :=
  (List.range p.length).filterMap fun k => (at1 p k).map fun z => (k, z)

/-- surface.py:511-517: `griddata(points[mask], values[mask], (grid_x, grid_y), method='nearest')`. With no measured
point the result depends on the scipy version (NaN or IndexError); modelled as NaN. -/
def griddataNearest (pick : Pick (Nat × Nat) K) (g : Grid (Option K)) : Grid (Option K) :=
  Grid.ofFn g.ny g.nx fun i j => if (points2 g).isEmpty then none else some (pick (points2 g) (i, j)).2

/-- profile.py:149-151: `griddata(indices[mask], data[mask], indices, method='nearest')`. -/
def griddataNearest1 (pick : Pick Nat K) (p : List (Option K)) : List (Option K) :=
  (List.range p.length).map fun k => if (points1 p).isEmpty then none else some (pick (points1 p) k).2

end Fill

section FillObject
variable {K V : Type} [Field K] [LinearOrder K] [FloorRing K]

/-- surface.py:509-522 `fill_nonmeasured(method='nearest', inplace)`. -/
def fillNearest (pick : Pick (Nat × Nat) K) (s : Surf K V) (inplace : Bool) : Surf K V × Ret K V :=
  if hasMissing s.data then finishSurface s (griddataNearest pick s.data) inplace else (s, .self)

/-- profile.py:147-157 `Profile.fill_nonmeasured(method='nearest')`: the heights of the returned profile, and
whether it is the profile itself. -/
def fillNearest1 (pick : Pick Nat K) (p : List (Option K)) : List (Option K) × Bool :=
  if hasMissing (C := List) p then (griddataNearest1 pick p, false) else (p, true)

end FillObject

section Rotate
variable {K : Type} [Field K] [LinearOrder K] [FloorRing K]

/-- surface.py:628-647: width and height in pixels of the crop rectangle, from the shape of the surface, the shape
of the rotated array and `|sin|`, `|cos|` of the angle. The shape of the array returned by `ndimage.rotate` is a
whole number of pixels; here it may be any number. -/
def cropSize (sizeY sizeX rotY rotX sin cos : K) : K × K :=
  let aspect := sizeY / sizeX
  let rotatedAspect := rotY / rotX
  let total := if aspect < 1 then sizeY / rotatedAspect else sizeX
  let w := total / (aspect * sin + cos)
  (w, w * aspect)

/-- surface.py:650-653: first and last index kept on an axis of `n` points when the crop rectangle is `h` long. -/
def cropIndices (n : Nat) (h : K) : Int × Int :=
  (pyInt (((n : K) - h) / 2) + 1, pyInt ((n : K) - ((n : K) - h) / 2) - 1)

/-- surface.py:628-660 `rotate`: heights and new steps `(step_y, step_x)`. `rot` is the array
`ndimage.rotate(data, angle, reshape=True)`, `sin`, `cos` are `|sin angle|`, `|cos angle|`. A zero extent of the
cropped array divides by zero (inf/NaN steps), reported as an error here. -/
def rotateData (g rot : Grid (Option K)) (stepY stepX sin cos : K) : Except Err (Grid (Option K) × K × K) :=
  if hasMissing g then .error .valueError
  else if g.nx = 0 ∨ rot.nx = 0 ∨ rot.ny = 0 then .error .zeroDivision
  else
    let wh := cropSize (g.ny : K) g.nx rot.ny rot.nx sin cos
    let ys := cropIndices rot.ny wh.2
    let xs := cropIndices rot.nx wh.1
    let cropped := sliceGrid rot ys.1 ys.2 xs.1 xs.2
    let widthUm := ((g.nx : K) - 1) * stepX
    let heightUm := ((g.ny : K) - 1) * stepY
    let w' := (widthUm * cos + heightUm * sin) * wh.1 / rot.nx
    let h' := (widthUm * sin + heightUm * cos) * wh.2 / rot.ny
    if cropped.ny = 0 ∨ cropped.nx = 0 then .error .zeroDivision
    else .ok (cropped, h' / cropped.ny, w' / cropped.nx)

end Rotate
end Surfalize.FillRotate
