import Verif.Prelude.Bytes
/-!
# Specification: NMS and PLu files

Offsets of the fields the surface depends on. All numbers are little-endian.
-/
namespace Surfalize
namespace NmsSpec

/-- An unsigned number of `w` bytes. -/
def uint (buf : Bytes) (off w : Nat) : Nat := leNat ((buf.drop off).take w)
/-- A double-precision number. -/
def double (K : Type) [Field K] (buf : Bytes) (off : Nat) : FVal K := f64.val K (leNat ((buf.drop off).take 8))
/-- A single-precision number. -/
def single (K : Type) [Field K] (buf : Bytes) (off : Nat) : FVal K := f32.val K (leNat ((buf.drop off).take 4))

/-- NMS: the range of heights in µm, numbers of columns and rows, distances in nm. -/
def zMin (K : Type) [Field K] (buf : Bytes) : FVal K := double K buf 16
def zMax (K : Type) [Field K] (buf : Bytes) : FVal K := double K buf 24
def columns (buf : Bytes) : Nat := uint buf 1368 4
def rows (buf : Bytes) : Nat := uint buf 1372 4
def distX (K : Type) [Field K] (buf : Bytes) : FVal K := double K buf 1376
def distY (K : Type) [Field K] (buf : Bytes) : FVal K := double K buf 1384
/-- The number stored for row `i` and column `j`. -/
def raw (buf : Bytes) (i j : Nat) : Nat := uint buf (3468 + 2 * (i * columns buf + j)) 2

end NmsSpec

namespace PluSpec
/-- PLu: numbers of rows and columns, distances in µm, the heights. -/
def rows (buf : Bytes) : Nat := NmsSpec.uint buf 388 4
def columns (buf : Bytes) : Nat := NmsSpec.uint buf 392 4
def distX (K : Type) [Field K] (buf : Bytes) : FVal K := NmsSpec.single K buf 404
def distY (K : Type) [Field K] (buf : Bytes) : FVal K := NmsSpec.single K buf 408
def height (K : Type) [Field K] (buf : Bytes) (i j : Nat) : FVal K :=
  NmsSpec.single K buf (500 + 4 * (i * columns buf + j))
/-- Channel `c` of the image behind the heights. -/
def color (buf : Bytes) (c i j : Nat) : Nat :=
  NmsSpec.uint buf (500 + 4 * (columns buf * rows buf) + 16 + 3 * (i * columns buf + j) + c) 1
end PluSpec
end Surfalize
