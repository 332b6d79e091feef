import Verif.Prelude.Bytes
/-!
# Specification: MetroPro files

Offsets and meaning of the fields the heights depend on, as the MetroPro reference guide lists them. All
numbers are big-endian.
-/
namespace Surfalize
namespace DatSpec
variable {K : Type} [Field K] [LinearOrder K]

/-- An unsigned 16-bit number. -/
def u16 (buf : Bytes) (off : Nat) : Nat := bytesNat true ((buf.drop off).take 2)
/-- An unsigned 32-bit number. -/
def u32 (buf : Bytes) (off : Nat) : Nat := bytesNat true ((buf.drop off).take 4)
/-- A signed 16-bit number. -/
def s16 (buf : Bytes) (off : Nat) : Int := bytesInt true true 2 ((buf.drop off).take 2)
/-- A single-precision number. -/
def real (K : Type) [Field K] (buf : Bytes) (off : Nat) : FVal K := f32.val K (bytesNat true ((buf.drop off).take 4))

def headerFormat (buf : Bytes) : Nat := u16 buf 4
def headerSize (buf : Bytes) : Nat := u32 buf 6
/-- Columns, rows and number of the intensity images, the largest intensity and their size in bytes. -/
def acWidth (buf : Bytes) : Nat := u16 buf 52
def acHeight (buf : Bytes) : Nat := u16 buf 54
def acBuckets (buf : Bytes) : Nat := u16 buf 56
def acRange (buf : Bytes) : Int := s16 buf 58
def acBytes (buf : Bytes) : Nat := u32 buf 60
/-- Columns and rows of the phase data. -/
def width (buf : Bytes) : Nat := u16 buf 68
def height (buf : Bytes) : Nat := u16 buf 70
/-- Factors of the heights. -/
def scaleFactor (K : Type) [Field K] (buf : Bytes) : FVal K := real K buf 164
def wavelength (K : Type) [Field K] (buf : Bytes) : FVal K := real K buf 168
def obliquity (K : Type) [Field K] (buf : Bytes) : FVal K := real K buf 176
/-- Distance of neighbouring points in metres. -/
def lateralRes (K : Type) [Field K] (buf : Bytes) : FVal K := real K buf 184
def phaseRes (buf : Bytes) : Int := s16 buf 218

/-- The number of phase units in one wavelength, for each value of the resolution field. -/
inductive Units : Int → Nat → Prop
  | normal : Units 1 4096
  | high : Units 2 32768
  | super : Units 3 131072

/-- The intensity of a bucket at row `i` and column `j`. -/
def intensity (buf : Bytes) (k i j : Nat) : Nat :=
  u16 buf (headerSize buf + 2 * ((i * acWidth buf + j) * acBuckets buf + k))

/-- The phase value of row `i` and column `j`: behind header and intensity images. -/
def phase (buf : Bytes) (i j : Nat) : Int :=
  bytesInt true true 4 ((buf.drop (headerSize buf + acBytes buf + 4 * (i * width buf + j))).take 4)

/-- Offset and length of the texts of the header, and of those only headers of the third format have. -/
def texts : List (Nat × Nat) :=
  [(12, 30), (80, 82), (246, 12), (258, 40), (320, 40), (398, 8), (408, 20), (534, 28), (562, 8), (590, 24),
   (614, 24)]
def texts3 : List (Nat × Nat) :=
  [(870, 28), (904, 28), (938, 28), (966, 28), (1040, 42), (1082, 42), (1454, 12), (1466, 12), (1478, 12)]

/-- The file identifies itself as one of the three formats. -/
inductive Identified (buf : Bytes) : Prop
  | one : buf.take 4 = [0x88, 0x1b, 0x03, 0x6f] → headerFormat buf = 1 → headerSize buf = 834 → Identified buf
  | two : buf.take 4 = [0x88, 0x1b, 0x03, 0x70] → headerFormat buf = 2 → headerSize buf = 834 → Identified buf
  | three : buf.take 4 = [0x88, 0x1b, 0x03, 0x71] → headerFormat buf = 3 → headerSize buf = 4096 → Identified buf

end DatSpec
end Surfalize
