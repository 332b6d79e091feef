import Verif.Spec.Nms
/-!
# Specification: VK4 files

Where the numbers of a VK4 file are. All of them are unsigned, little-endian, of four bytes. The offset table says where
the blocks are.
-/
namespace Surfalize
namespace VkSpec

/-- The number at an offset. -/
def word (buf : Bytes) (off : Nat) : Nat := NmsSpec.uint buf off 4

/-- Where the measurement conditions, the two color images, the intensity image, the heights and the texts are. -/
def conditions (buf : Bytes) : Nat := word buf 12
def colorPeak (buf : Bytes) : Nat := word buf 16
def colorLight (buf : Bytes) : Nat := word buf 20
def light (buf : Bytes) : Nat := word buf 24
def heights (buf : Bytes) : Nat := word buf 36
def strings (buf : Bytes) : Nat := word buf 76

/-- Pixel sizes and the height of one digit, in pm. -/
def xLength (buf : Bytes) : Nat := word buf (conditions buf + 168)
def yLength (buf : Bytes) : Nat := word buf (conditions buf + 172)
def zLength (buf : Bytes) : Nat := word buf (conditions buf + 176)
/-- Ten times the optical zoom and the magnification. -/
def zoom (buf : Bytes) : Nat := word buf (conditions buf + 72)
def magnification (buf : Bytes) : Nat := word buf (conditions buf + 96)
/-- Year, month, day, hour, minute, second. -/
def time (buf : Bytes) (k : Nat) : Nat := word buf (conditions buf + 4 + 4 * k)

/-- A block of pixels at an offset: columns, rows, bits per pixel, number of bytes. -/
def columns (buf : Bytes) (off : Nat) : Nat := word buf off
def rows (buf : Bytes) (off : Nat) : Nat := word buf (off + 4)
def bits (buf : Bytes) (off : Nat) : Nat := word buf (off + 8)
def size (buf : Bytes) (off : Nat) : Nat := word buf (off + 16)
/-- A block of numbers (behind a palette): the number of row `i` and column `j`. -/
def digit (buf : Bytes) (off i j : Nat) : Nat :=
  NmsSpec.uint buf (off + 796 + bits buf off / 8 * (i * columns buf off + j)) (bits buf off / 8)
/-- A color image: the byte `c` of a pixel. -/
def color (buf : Bytes) (off c i j : Nat) : Nat :=
  NmsSpec.uint buf (off + 20 + 3 * (i * columns buf off + j) + c) 1

/-- The block of heights or intensities is sound: it states the right size, has 16 or 32 bits per point, and is
complete. -/
structure SoundDigits (buf : Bytes) (off : Nat) : Prop where
  depth : bits buf off = 16 ∨ bits buf off = 32
  agrees : size buf off * 8 = columns buf off * rows buf off * bits buf off
  complete : off + 796 + size buf off ≤ buf.length

/-- The days of the months of a year. -/
def monthDays (year : Nat) : List Nat :=
  [31, if (4 ∣ year ∧ ¬ 100 ∣ year) ∨ 400 ∣ year then 29 else 28, 31, 30, 31, 30, 31, 31, 30, 31, 30, 31]

/-- There is such a time, in the years 1 to 9999. -/
def IsTime (year month day hour minute second : Nat) : Prop :=
  1 ≤ year ∧ year ≤ 9999 ∧ 1 ≤ month ∧ 1 ≤ day ∧ (∃ n, (monthDays year)[month - 1]? = some n ∧ day ≤ n) ∧
    hour ≤ 23 ∧ minute ≤ 59 ∧ second ≤ 59

/-- A text: the number of characters, and two bytes for each. -/
def TextAt (buf : Bytes) (off : Nat) (bytes : Bytes) : Prop :=
  off + 4 ≤ buf.length ∧ bytes = (buf.drop (off + 4)).take (2 * word buf off)

/-- Two bytes per character, the second one zero: how texts with characters below 256 are stored. -/
def wide (s : List Char) : Bytes := s.flatMap fun c => [UInt8.ofNat c.toNat, 0]

end VkSpec
end Surfalize
