import Verif.Model.Layout
import Verif.Prelude.Num
/-!
# Arrays in files: surfalize/file/common.py:338-381 and the numpy calls around them
-/
namespace Surfalize
namespace FileArr
open LayoutM

/-- `RawSurface` (surfalize/file/common.py:373-382), without metadata and image layers; a
surface handed to a writer is represented by the same data. -/
structure Raw (K : Type) where
  data : Grid (Option K)
  stepX : K
  stepY : K

/-- Cut a byte string into items of `w` bytes. -/
def items (w : Nat) (bs : Bytes) : List Bytes :=
  (List.range (bs.length / w)).map fun k => (bs.drop (k * w)).take w

/-- `np.frombuffer(buffer, dtype)` (surfalize/file/common.py:338-364, sur.py:250) with items
decoded by `dec`: ValueError unless the size is a multiple of the item size. -/
def fromBuffer {α : Type} (w : Nat) (dec : Bytes → α) (bs : Bytes) : Except Err (List α) :=
  if bs.length % w = 0 then .ok ((items w bs).map dec) else .error .valueError

/-- `read_array(fileobject, dtype, count, offset)` (surfalize/file/common.py:338-366): no
check that enough items were read. -/
def readArray {α : Type} (w : Nat) (dec : Bytes → α) (count : Int) (offset : Nat) (h : Handle) :
    Except Err (List α × Handle) :=
  let h := h.skip offset
  let r := if count < 0 then h.readAll else h.read (count.toNat * w)
  match fromBuffer w dec r.1 with
  | .error e => .error e
  | .ok l => .ok (l, r.2)

/-- `write_array(data, fileobject)` (surfalize/file/common.py:368-371): the items in row-major
order. -/
def writeArray {α : Type} (enc : α → Bytes) (l : List α) : Bytes := l.flatMap enc

/-- `array.reshape(ny, nx)`: ValueError unless the number of items fits.
Simplification: the `-1` wildcard of numpy is an error here. -/
def reshape {α : Type} (l : List α) (ny nx : Int) : Except Err (Grid α) :=
  if 0 ≤ ny ∧ 0 ≤ nx ∧ (l.length : Int) = ny * nx then
    .ok ⟨(List.range ny.toNat).map fun i => (l.drop (i * nx.toNat)).take nx.toNat, nx.toNat⟩
  else .error .valueError

section
variable {K : Type}
/-- Numeric value of a header float; infinities are not distinguished from NaN. -/
def toOpt : FVal K → Option K
  | .fin x => some x
  | _ => none

/-- A header value used as an integer. -/
def getInt (d : Dict K) (k : String) : Except Err Int :=
  match d k with
  | some (.int i) => .ok i
  | some _ => .error .typeError
  | none => .error .keyError

/-- A header value used as a float. -/
def getNum (d : Dict K) (k : String) : Except Err (Option K) :=
  match d k with
  | some (.num x) => .ok (toOpt x)
  | some _ => .error .typeError
  | none => .error .keyError

/-- A header value used as a text. -/
def getStr (d : Dict K) (k : String) : Except Err (List Char) :=
  match d k with
  | some (.str s) => .ok s
  | some _ => .error .typeError
  | none => .error .keyError

/-- `x.astype(float32 or float64).tobytes()` of one item, little-endian as on the machines the code
runs on (surfalize/file/common.py:368-371): numbers beyond the range become infinite. -/
def encFloat (c : FloatCodec K) (double : Bool) (z : Option K) : Bytes :=
  natBytes false (Fmt.fw double) (c.enc (Fmt.ff double) z)

/-- One item of `np.frombuffer(bytes, float32 or float64)` (surfalize/file/common.py:338-364);
infinities are not distinguished from NaN. -/
def decFloat (K : Type) [Field K] (double : Bool) (bs : Bytes) : Option K :=
  toOpt ((Fmt.ff double).val K (bytesNat false bs))

end
end FileArr
end Surfalize
