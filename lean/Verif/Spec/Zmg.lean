import Verif.Spec.Nms
/-!
# Specification: ZMG and OS3D files

All numbers are little-endian.
-/
namespace Surfalize
/-- A signed number of `w` bytes. -/
def NmsSpec.sint (buf : Bytes) (off w : Nat) : Int :=
  if 2 * uint buf off w < 256 ^ w then uint buf off w else (uint buf off w : Int) - 256 ^ w

namespace ZmgSpec
/-- Numbers of columns and rows, distances and the height of one digit in µm, length of the comment. -/
def columns (buf : Bytes) : Nat := NmsSpec.uint buf 85 4
def rows (buf : Bytes) : Nat := NmsSpec.uint buf 89 4
def distX (K : Type) [Field K] (buf : Bytes) : FVal K := NmsSpec.single K buf 97
def distY (K : Type) [Field K] (buf : Bytes) : FVal K := NmsSpec.single K buf 101
def digit (K : Type) [Field K] (buf : Bytes) : FVal K := NmsSpec.single K buf 105
def comment (buf : Bytes) : Nat := NmsSpec.uint buf 117 4
/-- The number stored for row `i` and column `j`, behind the comment. -/
def raw (buf : Bytes) (i j : Nat) : Int := NmsSpec.sint buf (205 + comment buf + 2 * (i * columns buf + j)) 2
end ZmgSpec

namespace Os3dSpec
/-- The length of the identification and the place behind it. -/
def nameLength (buf : Bytes) : Int := NmsSpec.sint buf 18 4
def datePlace (buf : Bytes) : Nat := 22 + (nameLength buf).toNat
/-- The length of the date and the place behind it. -/
def dateLength (buf : Bytes) : Int := NmsSpec.sint buf (datePlace buf) 4
def sizePlace (buf : Bytes) : Nat := datePlace buf + 4 + (dateLength buf).toNat
/-- The texts. -/
def name (buf : Bytes) : Bytes := (buf.drop 22).take (nameLength buf).toNat
def date (buf : Bytes) : Bytes := (buf.drop (datePlace buf + 4)).take (dateLength buf).toNat
/-- Numbers of columns and rows, distances in µm, heights in µm. -/
def columns (buf : Bytes) : Int := NmsSpec.sint buf (sizePlace buf) 4
def rows (buf : Bytes) : Int := NmsSpec.sint buf (sizePlace buf + 4) 4
def distX (K : Type) [Field K] (buf : Bytes) : FVal K := NmsSpec.double K buf (sizePlace buf + 8)
def distY (K : Type) [Field K] (buf : Bytes) : FVal K := NmsSpec.double K buf (sizePlace buf + 16)
def height (K : Type) [Field K] (buf : Bytes) (i j : Nat) : FVal K :=
  NmsSpec.single K buf (sizePlace buf + 40 + 4 * (i * (columns buf).toNat + j))
/-- The place behind the heights. -/
def tail (buf : Bytes) : Nat := sizePlace buf + 40 + 4 * ((columns buf).toNat * (rows buf).toNat)
end Os3dSpec
end Surfalize
