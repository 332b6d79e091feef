import Verif.Model.Layout
/-!
# Specification: Digital Surf files

Offsets of the header fields the surface depends on; all numbers are little-endian. Behind the header of 512 bytes
follow the comment, the private zone and the points, row by row.
-/
namespace Surfalize
namespace SurFile

/-- A signed number of `w` bytes. -/
def int (buf : Bytes) (off w : Nat) : Int := bytesInt true false w ((buf.drop off).take w)
/-- A single-precision number. -/
def single (K : Type) [Field K] (buf : Bytes) (off : Nat) : FVal K := f32.val K (leNat ((buf.drop off).take 4))
/-- A text of 16 bytes is `s`, padded with blanks or NULs. -/
def Text (enc : LayoutM.Encoding) (buf : Bytes) (off : Nat) (s : List Char) : Prop :=
  ∃ t, LayoutM.decode enc ((buf.drop off).take 16) = .ok t ∧ s = rstrip LayoutM.padChar t

/-- How many objects the file holds. -/
def objects (buf : Bytes) : Int := int buf 14 2
/-- What is stored: 1 a profile, 2 a surface, 16 a surface with colours and intensity. -/
def stored (buf : Bytes) : Int := int buf 18 2
/-- Gwyddion calls the surfaces it exports profiles; they are known by the names of object and operator (30 bytes each). -/
def FromGwyddion (enc : LayoutM.Encoding) (buf : Bytes) : Prop :=
  (∃ t, LayoutM.decode enc ((buf.drop 20).take 30) = .ok t ∧ rstrip LayoutM.padChar t = "SCRATCH".toList) ∧
  ∃ t, LayoutM.decode enc ((buf.drop 50).take 30) = .ok t ∧ rstrip LayoutM.padChar t = "csm".toList

/-- Whether points may be marked as non-measured. -/
def hasMissing (buf : Bytes) : Prop := int buf 86 2 = 1
/-- Bits per point. -/
def bits (buf : Bytes) : Int := int buf 98 2
/-- Bytes per point. -/
def width (buf : Bytes) : Nat := (bits buf / 8).toNat
/-- The smallest number of a measured point; the mark of missing points is two less. -/
def minPoint (buf : Bytes) : Int := int buf 100 4
def columns (buf : Bytes) : Int := int buf 108 4
def rows (buf : Bytes) : Int := int buf 112 4
def spacingX (K : Type) [Field K] (buf : Bytes) : FVal K := single K buf 120
def spacingY (K : Type) [Field K] (buf : Bytes) : FVal K := single K buf 124
def spacingZ (K : Type) [Field K] (buf : Bytes) : FVal K := single K buf 128
def unitX (enc : LayoutM.Encoding) (buf : Bytes) := Text enc buf 180
def unitY (enc : LayoutM.Encoding) (buf : Bytes) := Text enc buf 196
def unitZ (enc : LayoutM.Encoding) (buf : Bytes) := Text enc buf 212
/-- The size stated for the compressed data. -/
def packedSize (buf : Bytes) : Nat := leNat ((buf.drop 324).take 4)
def commentSize (buf : Bytes) : Int := int buf 334 2
def privateSize (buf : Bytes) : Int := int buf 336 2
def offsetZ (K : Type) [Field K] (buf : Bytes) : FVal K := single K buf 474
/-- Where the points start. -/
def start (buf : Bytes) : Nat := 512 + (commentSize buf).toNat + (privateSize buf).toNat

/-- The two kinds of files. -/
def Classic (buf : Bytes) : Prop := buf.take 12 = utf8 "DIGITAL SURF".toList
def Compressed (buf : Bytes) : Prop := buf.take 12 = utf8 "DSCOMPRESSED".toList

/-- The number stored for a point, `data` being the bytes of all points. -/
def point (buf data : Bytes) (i j : Nat) : Int :=
  bytesInt true false (width buf) ((data.drop ((i * (columns buf).toNat + j) * width buf)).take (width buf))

/-- A compressed data section: the number of streams, for each the sizes before and after compression, the streams. -/
def packed (streams : List (Nat × Bytes)) : Bytes :=
  leBytes 4 streams.length ++ streams.flatMap (fun s => leBytes 4 s.1 ++ leBytes 4 s.2.length) ++
    streams.flatMap fun s => s.2

end SurFile
end Surfalize
