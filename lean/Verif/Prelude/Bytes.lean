import Mathlib.Algebra.Order.Field.Basic
import Mathlib.Algebra.Order.Floor.Ring
import Mathlib.Data.Rat.Floor
import Verif.Prelude.Err
/-!
# Bytes, integers, floats and text as files store them

These definitions model Python's `struct` module, `numpy.ndarray.tofile`/`frombuffer`
and `str.encode`/`bytes.decode`, which the file code of surfalize calls
(surfalize/file/common.py:214-276, 338-371).

Integers and the *decoding* of IEEE 754 floats are defined outright.  The *encoding* of
a number as a float is left open up to the rounding of ties: every theorem is about all
encoders that round to the nearest representable number (`FloatCodec.Nearest`).
-/
namespace Surfalize

/-- A `bytes` object (Python builtin). -/
abbrev Bytes := List UInt8

/-- Little-endian bytes of `n`, `w` of them (`struct.pack('<…')`; the native order of the
machines the code runs on, surfalize/file/common.py:257-258). -/
def leBytes : Nat → Nat → Bytes
  | 0, _ => []
  | w + 1, n => UInt8.ofNat n :: leBytes w (n / 256)

/-- The number little-endian bytes stand for (`struct.unpack('<…')`,
surfalize/file/common.py:271-272). -/
def leNat : Bytes → Nat
  | [] => 0
  | b :: bs => b.toNat + 256 * leNat bs

/-- Bytes of `n` in the byte order of a format (`'>'` or not). -/
def natBytes (big : Bool) (w n : Nat) : Bytes :=
  if big then (leBytes w n).reverse else leBytes w n

/-- The number bytes stand for in the byte order of a format. -/
def bytesNat (big : Bool) (bs : Bytes) : Nat :=
  if big then leNat bs.reverse else leNat bs

/-- Smallest value of a `w`-byte integer format. -/
def intMin (signed : Bool) (w : Nat) : Int :=
  if signed then -((256 : Int) ^ w / 2) else 0

/-- Largest value of a `w`-byte integer format. -/
def intMax (signed : Bool) (w : Nat) : Int :=
  if signed then (256 : Int) ^ w / 2 - 1 else (256 : Int) ^ w - 1

/-- `struct.pack` of an in-range integer: two's complement. -/
def intBytes (big : Bool) (w : Nat) (v : Int) : Bytes :=
  natBytes big w (v % (256 : Int) ^ w).toNat

/-- `struct.unpack` of an integer format. -/
def bytesInt (signed big : Bool) (w : Nat) (bs : Bytes) : Int :=
  let n : Int := bytesNat big bs
  if signed ∧ (256 : Int) ^ w / 2 ≤ n then n - (256 : Int) ^ w else n

/-! ## IEEE 754 numbers -/

/-- What the bits of a float stand for. -/
inductive FVal (K : Type) where
  | fin (x : K)
  | inf (negative : Bool)
  | nan
  deriving DecidableEq

/-- A binary interchange format: number of exponent bits and of stored significand bits. -/
structure FFormat where
  eb : Nat
  mb : Nat

/-- numpy `float32`, struct `'f'`. -/
def f32 : FFormat := ⟨8, 23⟩
/-- numpy `float64`, struct `'d'`, Python `float`. -/
def f64 : FFormat := ⟨11, 52⟩

namespace FFormat
variable {K : Type} [Field K] [LinearOrder K]

/-- Exponent bias. -/
def bias (f : FFormat) : Int := 2 ^ (f.eb - 1) - 1
/-- Number of bits. -/
def bits (f : FFormat) : Nat := 1 + f.eb + f.mb

/-- The number with biased exponent `e` and stored significand `m`. -/
def magnitude (K : Type) [Field K] (f : FFormat) (e m : Nat) : K :=
  if e = 0 then (m : K) * (2 : K) ^ (1 - f.bias - (f.mb : Int))
  else ((2 ^ f.mb + m : Nat) : K) * (2 : K) ^ ((e : Int) - f.bias - (f.mb : Int))

/-- IEEE 754 decoding of a bit pattern. -/
def val (K : Type) [Field K] (f : FFormat) (n : Nat) : FVal K :=
  let m := n % 2 ^ f.mb
  let e := n / 2 ^ f.mb % 2 ^ f.eb
  let neg := decide (n / 2 ^ (f.mb + f.eb) % 2 = 1)
  if e = 2 ^ f.eb - 1 then (if m = 0 then .inf neg else .nan)
  else .fin (if neg then -magnitude K f e m else magnitude K f e m)

/-- Numbers of at least this size round to infinity. -/
def threshold (K : Type) [Field K] (f : FFormat) : K :=
  (2 ^ (f.mb + 2) - 1 : K) * (2 : K) ^ (f.bias - (f.mb : Int) - 1)

end FFormat

/-- Encoders of numbers as bit patterns (`struct.pack('f')`/`('d')`,
`ndarray.astype('float32')`); `none` is NaN. -/
structure FloatCodec (K : Type) where
  enc : FFormat → Option K → Nat

/-- The encoder rounds to the nearest representable number, to infinity beyond the
overflow threshold, and encodes NaN as a NaN. -/
structure FloatCodec.Nearest {K : Type} [Field K] [LinearOrder K] [IsStrictOrderedRing K]
    (c : FloatCodec K) : Prop where
  lt : ∀ f x, c.enc f x < 2 ^ f.bits
  nan : ∀ f, f = f32 ∨ f = f64 → f.val K (c.enc f none) = .nan
  fin : ∀ f, f = f32 ∨ f = f64 → ∀ x : K, |x| < f.threshold K →
    ∃ y : K, f.val K (c.enc f (some x)) = .fin y ∧
      ∀ n (y' : K), f.val K n = .fin y' → |y - x| ≤ |y' - x|
  inf : ∀ f, f = f32 ∨ f = f64 → ∀ x : K, f.threshold K ≤ |x| →
    f.val K (c.enc f (some x)) = .inf (decide (x < 0))

/-! ## Text -/

/-- `str.encode('utf-8')`. -/
def utf8 (s : List Char) : Bytes := s.flatMap String.utf8EncodeChar

/-- `bytes.decode('utf-8')` (strict). -/
def utf8? (bs : Bytes) : Option (List Char) :=
  (bs.toByteArray.utf8Decode?).map Array.toList

/-- `bytes.decode('latin1')`: every byte is a character. -/
def latin1 (bs : Bytes) : List Char := bs.map fun b => Char.ofNat b.toNat

/-- `str.rstrip(chars)`. -/
def rstrip (p : Char → Bool) (s : List Char) : List Char := (s.reverse.dropWhile p).reverse

/-- `str.ljust(n)`. -/
def ljust (n : Nat) (s : List Char) : List Char := s ++ List.replicate (n - s.length) ' '

/-! ## File objects -/

/-- A binary file opened for reading: contents and position. -/
structure Handle where
  buf : Bytes
  pos : Nat
  deriving DecidableEq

namespace Handle
/-- `filehandle.read(n)`: at most `n` bytes, fewer at the end. -/
def read (h : Handle) (n : Nat) : Bytes × Handle :=
  let out := (h.buf.drop h.pos).take n
  (out, { h with pos := h.pos + out.length })

/-- `filehandle.read()`. -/
def readAll (h : Handle) : Bytes × Handle :=
  let out := h.buf.drop h.pos
  (out, { h with pos := h.pos + out.length })

/-- `filehandle.seek(n, 1)`, `n ≥ 0`: may go beyond the end. -/
def skip (h : Handle) (n : Nat) : Handle := { h with pos := h.pos + n }

/-- `filehandle.seek(n)`. -/
def seek (h : Handle) (n : Nat) : Handle := { h with pos := n }
end Handle

end Surfalize
