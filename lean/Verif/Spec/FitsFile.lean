import Verif.Prelude.Bytes
import Verif.Prelude.Text
/-!
# Specification: what a FITS file says

A header is made of lines of 80 printable ASCII characters, 36 to a block. A line is a card (a name, `=` and
a value, perhaps followed by a remark behind `/`), a comment, blank, or the end. Of several cards with the
same name the last one counts. Numbers of arrays are stored with the most significant byte first.
Nothing here uses the model of the reader.
-/
namespace Surfalize
namespace FitsSpec

/-- Blanks. -/
def Blank (s : List Char) : Prop := ∀ c ∈ s, c = ' '

/-- What a line says. -/
inductive Line where
  | skip
  | stop
  | card (key text : List Char)

/-- A name: printable characters without blanks. -/
structure Name (key : List Char) : Prop where
  nonempty : key ≠ []
  chars : ∀ c ∈ key, 32 < c.toNat ∧ c.toNat < 127 ∧ c ≠ '/' ∧ c ≠ '='
  notComment : ¬ "COMMENT".toList <+: key
  notLong : ¬ "HIERARCH".toList <+: key

/-- A value: printable characters, no blanks at the ends. -/
structure Val (text : List Char) : Prop where
  chars : ∀ c ∈ text, 32 ≤ c.toNat ∧ c.toNat < 127 ∧ c ≠ '/' ∧ c ≠ '='
  first : text.head? ≠ some ' '
  last : text.getLast? ≠ some ' '

/-- What a line says. -/
inductive Says : List Char → Line → Prop
  | blank (s : List Char) : Blank s → Says s .skip
  | comment (s : List Char) : Says ("COMMENT".toList ++ s) .skip
  | stop (s : List Char) : Blank s → Says ("END".toList ++ s) .stop
  | card (pre key a b text c tail : List Char) : (pre = [] ∨ pre = "HIERARCH ".toList) → Name key → Blank a →
      Blank b → Val text → Blank c → (tail = [] ∨ ∃ t, tail = '/' :: t) →
      Says (pre ++ (key ++ (a ++ '=' :: (b ++ (text ++ (c ++ tail)))))) (.card key text)

/-- Lines of 80 printable characters. -/
def Lines (lines : List (List Char)) : Prop :=
  ∀ l ∈ lines, l.length = 80 ∧ ∀ c ∈ l, 32 ≤ c.toNat ∧ c.toNat < 127

/-- The lines up to `END`. -/
structure Upto (lines cards : List (List Char)) (after : List (List Char)) : Prop where
  parts : ∃ e, lines = cards ++ e :: after ∧ Says e .stop
  each : ∀ l ∈ cards, Says l .skip ∨ ∃ k t, Says l (.card k t)

/-- The value of `key`: that of the last card of this name. -/
def Has (cards : List (List Char)) (key text : List Char) : Prop :=
  ∃ before l after, cards = before ++ l :: after ∧ Says l (.card key text) ∧
    ∀ l' ∈ after, ∀ t, ¬ Says l' (.card key t)

/-- An integer in decimal digits. -/
def IsInt (text : List Char) (i : Int) : Prop :=
  ∃ n : Nat, (text = natText n ∧ i = n) ∨ (text = '-' :: natText n ∧ i = -(n : Int))

/-- A number: an integer, or a text with a decimal point or an exponent that `float()` reads. -/
def IsNum {K : Type} [Field K] (T : FloatText K) (text : List Char) (x : K) : Prop :=
  (∃ i : Int, IsInt text i ∧ x = (i : K)) ∨ (('.' ∈ text ∨ 'E' ∈ text) ∧ T.parse text = .ok (.fin x))

/-- A string in quotes, perhaps filled up with blanks. -/
def IsStr (text s : List Char) : Prop :=
  (∃ pad, Blank pad ∧ text = '\'' :: (s ++ pad ++ ['\''])) ∧ s ≠ [] ∧
    (∀ c ∈ s.head?, c ≠ ' ' ∧ c ≠ '\'') ∧ ∀ c ∈ s.getLast?, c ≠ ' ' ∧ c ≠ '\''

/-- `float()` accepts no text that begins with a quote. -/
def NoQuotes {K : Type} (T : FloatText K) : Prop := ∀ s, ∃ e, T.parse ('\'' :: s) = .error e

/-- The bytes of lines. -/
def ascii (lines : List (List Char)) : Bytes := lines.flatten.map fun c => UInt8.ofNat c.toNat

/-- The number bytes stand for, the most significant first. -/
def be (bs : Bytes) : Nat := bs.foldl (fun n b => 256 * n + b.toNat) 0

/-- Two's complement. -/
def twos (bits n : Nat) : Int := if n < 2 ^ (bits - 1) then (n : Int) else (n : Int) - 2 ^ bits

/-- A float that is a number. -/
def finite {K : Type} : FVal K → Option K
  | .fin x => some x
  | _ => none

/-- The number of an item: `8` unsigned, `16`, `32` and `64` signed integers, `-32` and `-64` floats. -/
def item (K : Type) [Field K] (bitpix : Int) (bs : Bytes) : Option K :=
  if bitpix = 8 then some (be bs : K)
  else if bitpix = -32 then finite (f32.val K (be bs))
  else if bitpix = -64 then finite (f64.val K (be bs))
  else some ((twos bitpix.toNat (be bs) : Int) : K)

/-- An extension: the 36 lines of its header, and an array. -/
structure Ext where
  lines : List (List Char)
  name : List Char
  nx : Nat
  ny : Nat
  bitpix : Int
  data : Bytes

/-- The size of an item. -/
def Ext.size (e : Ext) : Nat := e.bitpix.natAbs / 8

/-- The number in row `i` and column `j`. -/
def Ext.num (K : Type) [Field K] (e : Ext) (i j : Nat) : Option K :=
  item K e.bitpix ((e.data.drop ((i * e.nx + j) * e.size)).take e.size)

/-- The bytes: header, array, zeros up to the end of a block. -/
def Ext.bytes (e : Ext) : Bytes :=
  ascii e.lines ++ e.data ++ List.replicate ((2880 - e.data.length % 2880) % 2880) 0

/-- The header of the extension describes the array. -/
structure Ext.Right (e : Ext) : Prop where
  count : e.lines.length = 36
  lines : Lines e.lines
  magic : "XTENSION".toList <+: e.lines.flatten
  cards : ∃ cards after, Upto e.lines cards after ∧
    (∃ t, Has cards "NAXIS".toList t ∧ IsInt t 2) ∧ (∃ t, Has cards "NAXIS1".toList t ∧ IsInt t e.nx) ∧
    (∃ t, Has cards "NAXIS2".toList t ∧ IsInt t e.ny) ∧ (∃ t, Has cards "BITPIX".toList t ∧ IsInt t e.bitpix) ∧
    (∃ t, Has cards "EXTNAME".toList t ∧ IsStr t e.name)
  bitpix : e.bitpix ∈ [8, 16, 32, 64, -32, -64]
  full : e.data.length = e.nx * e.ny * e.size

/-- The header of a file: whole blocks, and `END` in the last one. -/
structure Main (lines cards : List (List Char)) : Prop where
  printable : Lines lines
  magic : "SIMPLE".toList <+: lines.flatten
  upto : ∃ after, Upto lines cards after ∧ after.length < 36
  blocks : 36 ∣ lines.length

end FitsSpec
end Surfalize
