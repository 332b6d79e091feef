import Verif.Spec.SurFile
import Verif.Prelude.Num
/-!
# Specification: the objects of a Digital Surf file
-/
namespace Surfalize
namespace SurFile

/-- The number of points an object states. -/
def points (o : Bytes) : Int := int o 116 4

/-- The bytes `o` are an uncompressed object: as many bytes as its header, comment, private zone and points need. -/
def IsObject (o : Bytes) : Prop :=
  Classic o ∧ 0 ≤ commentSize o ∧ 0 ≤ privateSize o ∧ 0 ≤ points o ∧ o.length = start o + (points o).toNat * width o

/-- The image `g` is the one the object `o` stores. -/
def Shows (o : Bytes) (g : Grid Int) : Prop :=
  g.WF ∧ (g.nx : Int) = columns o ∧ (g.ny : Int) = rows o ∧
    ∀ i j, i < g.ny → j < g.nx → g.rows[i]?.bind (·[j]?) = some (point o (o.drop (start o)) i j)

/-- The kind of the file: 2 a surface, 16 a surface with colours and intensity. -/
def kind (buf : Bytes) : Int := int buf 18 2

end SurFile
end Surfalize
