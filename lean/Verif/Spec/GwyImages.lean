import Verif.Spec.Gwy
import Verif.Model.GwyImages
/-!
# Specification: the images of a Gwyddion file

A channel is an image if its values have no unit. It belongs to the surface if it has the same raster: the same
number of points in both directions and the same lateral unit.
-/
namespace Surfalize
namespace GwySpec
open Gwy

/-- The channel `j` is an image. -/
def IsImage (top : Fields) (j : List Char) : Prop := Channel top j ∧ ∃ f, DataOf top j f ∧ f.get "si_unit_z".toList = none

/-- The raster of a data field: points per row, rows and the lateral unit. -/
def Raster (f : Fields) (nx ny : Int) (u : List Char) : Prop :=
  f.get "xres".toList = some (.int nx) ∧ f.get "yres".toList = some (.int ny) ∧ UnitOf f "si_unit_xy" u

/-- The title of a channel. -/
def TitleOf (top : Fields) (j t : List Char) : Prop := top.get ("/".toList ++ j ++ "/data/title".toList) = some (.str t)

/-- Every image has a raster, a title and as many values as points. -/
def ImagesOk (top : Fields) : Prop :=
  ∀ j, IsImage top j → ∃ f t nx ny u bits, DataOf top j f ∧ TitleOf top j t ∧ Raster f nx ny u ∧
    f.get "data".toList = some (.dbls bits) ∧ 0 ≤ nx ∧ 0 ≤ ny ∧ (bits.length : Int) = ny * nx

/-- The image called `t` with the raster of the channel `k`: `v i j` is the value stored for column `j` of row `i`. -/
def ImageOf (top : Fields) (k j t : List Char) (bits : List Nat) : Prop :=
  ∃ f g nx ny u, DataOf top k f ∧ Raster f nx ny u ∧ IsImage top j ∧ DataOf top j g ∧ Raster g nx ny u ∧
    TitleOf top j t ∧ g.get "data".toList = some (.dbls bits)

/-- The titles of the images with the raster of the channel `k` differ. -/
def TitlesDiffer (top : Fields) (k : List Char) : Prop :=
  ∀ i j t b c, ImageOf top k i t b → ImageOf top k j t c → i = j

end GwySpec
end Surfalize
