import Verif.Prelude.Bytes
/-!
# Fixed binary headers: surfalize/file/common.py:187-335

`struct` formats are represented by `Fmt`, header dictionaries by partial functions.
Text is UTF-8, the default `encoding`; `'auto'` is modelled for reading.
Not modelled: other named encodings, `chardet` (never reached: decoding as latin1 cannot
fail).
-/
namespace Surfalize
namespace LayoutM

/-- A Python value found in a header dictionary (surfalize/file/common.py:255-258).
`bool`s and `IntEnum` members are the integers they are equal to. -/
inductive Val (K : Type) where
  | int (i : Int)
  | num (x : FVal K)
  | str (s : List Char)
  | bytes (b : Bytes)

/-- A `struct` format with its byte order (`big` for `'>'`). -/
inductive Fmt where
  | int (signed big : Bool) (w : Nat)    -- b B h H i I q Q
  | bool                                  -- ?
  | flt (double big : Bool) (count : Nat) -- f d, and repeated: 4f, 14f, …
  | str (n : Nat)                         -- ns

/-- Bits of an infinity. -/
def infBits (f : FFormat) (neg : Bool) : Nat :=
  (2 ^ f.eb - 1) * 2 ^ f.mb + (if neg then 2 ^ (f.mb + f.eb) else 0)

namespace Fmt
/-- The IEEE format behind `'f'` and `'d'`. -/
def ff (double : Bool) : FFormat := if double then f64 else f32
/-- Its number of bytes. -/
def fw (double : Bool) : Nat := if double then 8 else 4

/-- `struct.calcsize` (surfalize/file/common.py:215, 258, 271). -/
def size : Fmt → Nat
  | .int _ _ w => w
  | .bool => 1
  | .flt d _ n => n * fw d
  | .str n => n

variable {K : Type} [Field K] [LinearOrder K]

/-- `struct.pack('f'/'d', x)` of one number: OverflowError when a finite number does not
fit. -/
def packFloat (c : FloatCodec K) (d big : Bool) (x : FVal K) : Except Err Bytes :=
  match x with
  | .nan => .ok (natBytes big (fw d) (c.enc (ff d) none))
  | .inf neg => .ok (natBytes big (fw d) (infBits (ff d) neg))
  | .fin y =>
    if (ff d).threshold K ≤ |y| then .error .overflow
    else .ok (natBytes big (fw d) (c.enc (ff d) (some y)))

/-- `struct.pack(format, value)` with one value (surfalize/file/common.py:217, 260):
integers out of range, repeated formats and values of the wrong type raise
`struct.error`; byte strings are cut or padded with NULs.
Simplification: an integer written to a float field is rounded once. -/
def pack (c : FloatCodec K) : Fmt → Val K → Except Err Bytes
  | .int s big w, .int v =>
    if intMin s w ≤ v ∧ v ≤ intMax s w then .ok (intBytes big w v) else .error .structError
  | .bool, .int v => .ok [if v = 0 then 0 else 1]
  | .flt d big 1, .int v => packFloat c d big (.fin (v : K))
  | .flt d big 1, .num x => packFloat c d big x
  | .str n, .bytes b => .ok (b.take n ++ List.replicate (n - b.length) 0)
  | _, _ => .error .structError

/-- `struct.unpack(format, bytes)[0]` (surfalize/file/common.py:211, 272): the buffer must
have exactly the size of the format; of a repeated format the first item is returned. -/
def unpack (K : Type) [Field K] (fmt : Fmt) (bs : Bytes) : Except Err (Val K) :=
  if bs.length ≠ fmt.size then .error .structError
  else match fmt with
    | .int s big w => .ok (.int (bytesInt s big w bs))
    | .bool => .ok (.int (if bs = [0] then 0 else 1))
    | .flt d big n =>
      if n = 0 then .error .indexError
      else .ok (.num ((ff d).val K (bytesNat big (bs.take (fw d)))))
    | .str _ => .ok (.bytes bs)
end Fmt

/-- A header dictionary. -/
abbrev Dict (K : Type) := String → Option (Val K)

/-- `d[k]`. -/
def Dict.at {K : Type} (d : Dict K) (k : String) : Except Err (Val K) :=
  match d k with
  | some v => .ok v
  | none => .error .keyError

/-- `d[k] = v`. -/
def Dict.set {K : Type} (d : Dict K) (k : String) (v : Val K) : Dict K :=
  fun j => if j = k then some v else d j

/-- The encoding argument of `Layout.read`. -/
inductive Encoding where
  | utf8
  | auto

/-- `decode(data, encoding)` (surfalize/file/common.py:147-170). -/
def decode (e : Encoding) (bs : Bytes) : Except Err (List Char) :=
  match e, utf8? bs with
  | _, some s => .ok s
  | .utf8, none => .error .unicode
  | .auto, none => .ok (latin1 bs)

/-- The characters stripped from the right of text fields
(surfalize/file/common.py:275, `rstrip(' \x00')`). -/
def padChar (c : Char) : Bool := c = ' ' || c = '\x00'

/-- The format of an entry: `str`, `FormatFromPrevious` or `Apply`
(surfalize/file/common.py:187-217). -/
inductive Format (K : Type) where
  | fixed (f : Fmt)
  | fromPrevious (previous : String)
  | apply (f : Fmt) (read write : Val K → Except Err (Val K))

/-- Entries of a layout (surfalize/file/common.py:229-246). -/
inductive Entry (K : Type) where
  | field (name : String) (format : Format K)
  | reserved (n : Nat)

section
variable {K : Type} [Field K] [LinearOrder K]

/-- `FormatFromPrevious.get_format` with dtype `'s'` (surfalize/file/common.py:192-194);
a negative or non-integer size makes an invalid format. -/
def previousFormat (d : Dict K) (previous : String) : Except Err Fmt :=
  match d.at previous with
  | .error e => .error e
  | .ok (.int n) => if 0 ≤ n then .ok (.str n.toNat) else .error .structError
  | .ok _ => .error .structError

/-- The value packed: strings are padded with spaces to the size of the format, counting
characters, and encoded (surfalize/file/common.py:256-259). -/
def encodeValue (fmt : Fmt) : Val K → Val K
  | .str s => .bytes (utf8 (ljust fmt.size s))
  | v => v

/-- `Entry.write` and `Reserved.write` (surfalize/file/common.py:237-238, 247-260): the
bytes written. -/
def Entry.write (c : FloatCodec K) (d : Dict K) : Entry K → Except Err Bytes
  | .reserved n => .ok (List.replicate n 0)
  | .field name (.apply f _ wr) =>
    match d.at name with
    | .error e => .error e
    | .ok v =>
      match wr v with
      | .error e => .error e
      | .ok v' => f.pack c v'
  | .field name (.fixed f) =>
    match d.at name with
    | .error e => .error e
    | .ok v => f.pack c (encodeValue f v)
  | .field name (.fromPrevious p) =>
    match previousFormat d p with
    | .error e => .error e
    | .ok f =>
      match d.at name with
      | .error e => .error e
      | .ok v => f.pack c (encodeValue f v)

/-- `Layout.write` (surfalize/file/common.py:283-299). -/
def write (c : FloatCodec K) (d : Dict K) : List (Entry K) → Except Err Bytes
  | [] => .ok []
  | e :: es =>
    match e.write c d with
    | .error x => .error x
    | .ok b =>
      match write c d es with
      | .error x => .error x
      | .ok bs => .ok (b ++ bs)

/-- The value stored in the dictionary: byte strings are decoded and stripped
(surfalize/file/common.py:273-276). -/
def decodeValue (enc : Encoding) : Val K → Except Err (Val K)
  | .bytes b =>
    match decode enc b with
    | .error e => .error e
    | .ok s => .ok (.str (rstrip padChar s))
  | v => .ok v

/-- Reading one value with a `struct` format (surfalize/file/common.py:271-276). -/
def readFmt (enc : Encoding) (f : Fmt) (h : Handle) : Except Err (Val K × Handle) :=
  match f.unpack K (h.read f.size).1 with
  | .error e => .error e
  | .ok v =>
    match decodeValue enc v with
    | .error e => .error e
    | .ok v' => .ok (v', (h.read f.size).2)

/-- `Entry.read` and `Reserved.read` (surfalize/file/common.py:234-235, 262-276). -/
def Entry.read (enc : Encoding) (d : Dict K) (h : Handle) :
    Entry K → Except Err (Dict K × Handle)
  | .reserved n => .ok (d, h.skip n)
  | .field name (.apply f rd _) =>
    match f.unpack K (h.read f.size).1 with
    | .error e => .error e
    | .ok v =>
      match rd v with
      | .error e => .error e
      | .ok v' => .ok (d.set name v', (h.read f.size).2)
  | .field name (.fixed f) =>
    match readFmt enc f h with
    | .error e => .error e
    | .ok (v, h') => .ok (d.set name v, h')
  | .field name (.fromPrevious p) =>
    match previousFormat d p with
    | .error e => .error e
    | .ok f =>
      match readFmt enc f h with
      | .error e => .error e
      | .ok (v, h') => .ok (d.set name v, h')

/-- The loop of `Layout.read` (surfalize/file/common.py:333-334). -/
def readGo (enc : Encoding) (d : Dict K) (h : Handle) :
    List (Entry K) → Except Err (Dict K × Handle)
  | [] => .ok (d, h)
  | e :: es =>
    match e.read enc d h with
    | .error x => .error x
    | .ok (d', h') => readGo enc d' h' es

/-- `Layout.read` (surfalize/file/common.py:301-335). -/
def read (enc : Encoding) (h : Handle) (es : List (Entry K)) : Except Err (Dict K × Handle) :=
  readGo enc (fun _ => none) h es

end
end LayoutM
end Surfalize
