import Verif.Prelude.Err
import Mathlib.Analysis.SpecialFunctions.Trigonometric.Basic

/-!
# Model of the 3d picture: camera, removal of the white border, colour bar, saving
(surfalize/plotting.py:43-193, surfalize/surface.py:1781-1856)

The points that are drawn are those of `Plots.plot3d`. The renderer, matplotlib's colour bar and Pillow's resampling are
parameters. Not modelled: colours, the labelled box around the surface, the intensity of the light, the projection.
-/
namespace Surfalize.Scene
open Surfalize

/-! ## Camera -/

/-- A point in space. -/
structure Point where
  x : ℝ
  y : ℝ
  z : ℝ

/-- Position of the camera, the point it looks at, the direction that is up, and the position of the light. -/
structure View where
  camera : Point
  target : Point
  up : Point
  light : Point

/-- `np.deg2rad` (surfalize/plotting.py:132-135). -/
noncomputable def deg2rad (a : ℝ) : ℝ := a * (Real.pi / 180)

/-- surfalize/plotting.py:129-145: `width` and `height` are `width_um` and `height_um` of the surface that is drawn.
Simplification: zoom 0 is not an exception here. -/
noncomputable def view (width height zoom vertical horizontal : ℝ) (light : Option Point) : View :=
  let target : Point := ⟨width / 2, height / 2, 0⟩
  let distance := width * 2 / zoom
  let hDist := Real.cos (deg2rad vertical) * distance
  let camera : Point :=
    ⟨target.x - Real.sin (deg2rad horizontal) * hDist, target.y - Real.cos (deg2rad horizontal) * hDist,
      target.z + Real.sin (deg2rad vertical) * distance⟩
  ⟨camera, target, ⟨0, 0, 1⟩, light.getD camera⟩

/-! ## Pictures -/

/-- A Pillow image: the pixel in row `i` (from the top) and column `j` is `px i j`, for `i < height` and `j < width`. -/
structure Img (α : Type) where
  width : Nat
  height : Nat
  px : Nat → Nat → α

variable {α : Type} [DecidableEq α]

/-- Columns with a pixel that is not white: the nonzero columns of `ImageChops.difference` with a white image
(surfalize/plotting.py:177-178). -/
def inked (white : α) (p : Img α) : List Nat :=
  (List.range p.width).filter fun j => (List.range p.height).any fun i => decide (p.px i j ≠ white)

/-- First and one past the last column of `diff.getbbox()`, `None` for an image without differences
(surfalize/plotting.py:180). Rows are not needed. -/
def bbox (white : α) (p : Img α) : Option (Nat × Nat) :=
  match inked white p with
  | [] => none
  | j :: js => some (j, (j :: js).getLast (by simp) + 1)

/-- `img.crop((left, 0, right, img.height))` (surfalize/plotting.py:183). -/
def cropColumns (p : Img α) (left right : Nat) : Img α :=
  ⟨right - left, p.height, fun i j => p.px i (left + j)⟩

/-- surfalize/plotting.py:176-183: `crop_white`. -/
def cropWhite (white : α) (p : Img α) : Img α :=
  match bbox white p with
  | some (l, r) => cropColumns p l r
  | none => p

/-- surfalize/plotting.py:186-192: the colour bar is brought to the height of the picture and set beside it on a white
canvas. `resize` is Pillow's: it raises for a size of zero. A negative canvas size is a ValueError; pasting cuts off what
does not fit. Simplification: an image without rows is not handled (ZeroDivisionError for the colour bar). -/
def withColorbar (white : α) (resize : Img α → Nat → Nat → Except Err (Img α)) (p bar : Img α) (pad : Int) :
    Except Err (Img α) :=
  match resize bar (bar.width * p.height / bar.height) p.height with
  | .error e => .error e
  | .ok cb =>
    let w : Int := p.width + cb.width + pad
    if w < 0 then .error .valueError
    else
      .ok
        { width := w.toNat
          height := p.height
          px := fun i j =>
            let k : Int := (j : Int) - (p.width + pad)
            if 0 ≤ k ∧ k < cb.width ∧ i < cb.height then cb.px i k.toNat
            else if j < p.width then p.px i j else white }

/-- The arguments of `plot_3d` that decide about the picture. -/
structure Args where
  interactive : Bool
  cropWhite : Bool
  colorbar : Bool
  pad : Int

/-- surfalize/plotting.py:163-193: the end of `plot_3d`. `none` is Python's None: an interactive plot returns nothing. -/
def finish (white : α) (resize : Img α → Nat → Nat → Except Err (Img α)) (screenshot bar : Img α) (a : Args) :
    Except Err (Option (Img α)) :=
  if a.interactive then .ok none
  else
    let img := if a.cropWhite then cropWhite white screenshot else screenshot
    if a.colorbar then (withColorbar white resize img bar a.pad).map some else .ok (some img)

/-- What `Surface.plot_3d` does: windows opened and pictures rendered, what it returns, files written. -/
structure Effect (α : Type) where
  rendered : Bool
  returned : Except Err (Option (Img α))
  saved : List (String × Img α)

/-- surfalize/surface.py:1831-1856 `Surface.plot_3d`: an empty `save_to` counts as none. -/
def plot3d (white : α) (resize : Img α → Nat → Nat → Except Err (Img α)) (screenshot bar : Img α) (a : Args)
    (saveTo : Option String) : Effect α :=
  let path := saveTo.filter fun s => s ≠ ""
  if a.interactive && path.isSome then ⟨false, .error .valueError, []⟩
  else
    match finish white resize screenshot bar a with
    | .error e => ⟨true, .error e, []⟩
    | .ok none => ⟨true, .ok none, []⟩
    | .ok (some img) => ⟨true, .ok (some img), path.toList.map fun s => (s, img)⟩

/-- surfalize/image.py:42-55 `Image.is_grayscale` for three-channel pixels. -/
def isGrayscale (p : Img (Nat × Nat × Nat)) : Bool :=
  (List.range p.height).all fun i => (List.range p.width).all fun j =>
    decide ((p.px i j).1 = (p.px i j).2.1) && decide ((p.px i j).1 = (p.px i j).2.2)

end Surfalize.Scene
