import Verif.Model.Fits
/-!
# Specification: extensions of FITS files

An extension is a header block, the array row by row, and padding up to a multiple of the block size.
-/
namespace Surfalize
namespace FitsSpec
open Fits FileArr LayoutM

/-- An extension: its header block, the size and value of an item, and the bytes of the array. -/
structure Hdu (K : Type) where
  head : Bytes
  name : List Char
  nx : Nat
  ny : Nat
  width : Nat
  value : Bytes → Option K
  data : Bytes

variable {K : Type} [Field K] [LinearOrder K]

/-- The value stored at row `i` and column `j`. -/
def Hdu.at (u : Hdu K) (i j : Nat) : Option K := u.value ((u.data.drop ((i * u.nx + j) * u.width)).take u.width)

/-- Zeros up to the next multiple of 2880. -/
def Hdu.padding (u : Hdu K) : Bytes := List.replicate ((2880 - u.data.length % 2880) % 2880) 0

/-- The bytes of an extension. -/
def Hdu.bytes (u : Hdu K) : Bytes := u.head ++ u.data ++ u.padding

/-- Neither the heights nor the mask. -/
def Hdu.isImage (u : Hdu K) : Bool := decide (u.name ≠ "HEIGHTS".toList ∧ u.name ≠ "MASK".toList)

/-- The header block is one of an extension and describes the array. -/
structure Hdu.Described (T : FloatText K) (enc : Encoding) (u : Hdu K) : Prop where
  block : u.head.length = 2880
  magic : utf8 "XTENSION".toList <+: u.head
  header : ∃ (hd : Header K) (ended : Bool) (bitpix : Int), parseBytes T enc u.head = .ok (hd, ended) ∧
    hd "NAXIS".toList = some (.int 2) ∧ hd "NAXIS1".toList = some (.int u.nx) ∧
    hd "NAXIS2".toList = some (.int u.ny) ∧ hd "BITPIX".toList = some (.int bitpix) ∧
    hd "EXTNAME".toList = some (.str u.name) ∧ itemOf K bitpix = some (u.width, u.value)
  full : u.data.length = u.nx * u.ny * u.width

end FitsSpec
end Surfalize
