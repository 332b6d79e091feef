import Verif.Model.FileArray
import Verif.Prelude.Text
/-!
# ISO 25178-71 files: surfalize/file/sdf.py

The file starts at position 0. Arithmetic is exact; heights, steps and the height scale are rounded
once, when they are stored. Simplification: the code also rounds to double precision after each
multiplication. Dates are texts handed to the writer (`datetime.now().strftime`, the metadata).
-/
namespace Surfalize
namespace Sdf
open LayoutM FileArr

/-- `MAGIC_ASCII`, `MAGIC_BINARY` (surfalize/file/sdf.py:9-10). -/
def magicAscii : List Char := "aISO-1.0".toList
def magicBinary : List Char := "bISO-1.0".toList

/-- `LAYOUT_HEADER` (surfalize/file/sdf.py:17-30). -/
def layout (K : Type) : List (Entry K) :=
  [.field "ManufacID" (.fixed (.str 10)), .field "CreateDate" (.fixed (.str 12)),
   .field "ModDate" (.fixed (.str 12)), .field "NumPoints" (.fixed (.int false false 2)),
   .field "NumProfiles" (.fixed (.int false false 2)),
   .field "Xscale" (.fixed (.flt true false 1)), .field "Yscale" (.fixed (.flt true false 1)),
   .field "Zscale" (.fixed (.flt true false 1)), .field "Zresolution" (.fixed (.flt true false 1)),
   .field "Compression" (.fixed (.int false false 1)), .field "DataType" (.fixed (.int false false 1)),
   .field "CheckType" (.fixed (.int false false 1))]

variable {K : Type} [Field K] [LinearOrder K]

/-- The values of `DTYPE_MAP` (surfalize/file/sdf.py:47-51). -/
inductive DType where
  | int16
  | int32
  | double

/-- `DTYPE_MAP[data_type]`. -/
def dtypeOf (i : Int) : Option DType :=
  if i = 5 then some .int16 else if i = 6 then some .int32 else if i = 7 then some .double else none

/-- `struct.calcsize(data_format)`. -/
def DType.size : DType → Nat
  | .int16 => 2
  | .int32 => 4
  | .double => 8

/-- One item of the data section; `none` for NaN and for items equal to the missing value of
`BINARY_INVALID_VALUE_MAP` (surfalize/file/sdf.py:55-59, 113-119; comparison with NaN is never
true, but a NaN item is NaN anyway). -/
def DType.item (K : Type) [Field K] (t : DType) (bs : Bytes) : Option K :=
  match t with
  | .int16 =>
    let i := bytesInt true false 2 bs
    if i = -2 ^ 15 then none else some (i : K)
  | .int32 =>
    let i := bytesInt true false 4 bs
    if i = -2 ^ 31 then none else some (i : K)
  | .double => decFloat K true bs

/-- `item * header["Zscale"] * CONVERSION_FACTOR` (surfalize/file/sdf.py:118). -/
def height (zs : Option K) (x : Option K) : Option K :=
  match x, zs with
  | some x, some z => some (x * z * 10 ^ 6)
  | _, _ => none

/-- `read_binary_sdf` (surfalize/file/sdf.py:94-124). Steps that are not numbers are a ValueError
here. -/
def readBinary (enc : Encoding) (h : Handle) : Except Err (Raw K) :=
  match read enc h (layout K) with
  | .error e => .error e
  | .ok (d, h1) =>
    match getInt d "NumPoints", getInt d "NumProfiles", getInt d "DataType", getNum d "Zscale",
      getNum d "Xscale", getNum d "Yscale" with
    | .ok nx, .ok ny, .ok ty, .ok zs, .ok sx, .ok sy =>
      match dtypeOf ty with
      | none => .error .corrupted
      | some t =>
        let n := t.size * nx.toNat * ny.toNat
        let r := h1.read n
        if r.1.length ≠ n then .error .corrupted
        else
          match fromBuffer t.size (t.item K) r.1 with
          | .error e => .error e
          | .ok l =>
            match reshape (l.map (height zs)) ny nx with
            | .error e => .error e
            | .ok g =>
              match sx, sy with
              | some sx, some sy => .ok ⟨g, sx * 10 ^ 6, sy * 10 ^ 6⟩
              | _, _ => .error .valueError
    | _, _, _, _, _, _ => .error .typeError

/-! ### The ASCII variant -/

/-- `s.split(c)`. -/
def splitOn (c : Char) : List Char → List (List Char)
  | [] => [[]]
  | x :: s =>
    if x = c then [] :: splitOn c s
    else match splitOn c s with
      | [] => [[x]]
      | l :: ls => (x :: l) :: ls

/-- Characters at which `str.splitlines` breaks (ASCII). -/
def isLineBreak (c : Char) : Bool :=
  c = '\n' || c = '\r' || c = '\x0b' || c = '\x0c' || c = '\x1c' || c = '\x1d' || c = '\x1e'

/-- `s.splitlines()`: no empty line after a final break; `\r\n` is one break. -/
def splitLines : List Char → List (List Char)
  | [] => []
  | x :: s =>
    if x = '\r' ∧ s.head? = some '\n' then splitLines s
    else if isLineBreak x then [] :: splitLines s
    else match splitLines s with
      | [] => [[x]]
      | l :: ls => (x :: l) :: ls

/-- The names of `ASCII_HEADER_TYPES` (surfalize/file/sdf.py:32-45). -/
def asciiNames : List String :=
  ["ManufacID", "CreateDate", "ModDate", "NumPoints", "NumProfiles", "Xscale", "Yscale", "Zscale",
   "Zresolution", "Compression", "DataType", "CheckType"]

/-- The loop over header lines (surfalize/file/sdf.py:67-73): `line.split('=')` must give two parts
and the name must be known. Values are kept as text. -/
def asciiHeader : List (List Char) → Except Err (List (List Char × List Char))
  | [] => .ok []
  | line :: lines =>
    match splitOn '=' line with
    | [name, value] =>
      if strip name ∈ asciiNames.map String.toList then
        match asciiHeader lines with
        | .error e => .error e
        | .ok d => .ok ((strip name, strip value) :: d)
      else .error .corrupted
    | _ => .error .valueError

/-- `read_ascii_sdf` (surfalize/file/sdf.py:61-92) after the magic. Everything after the header loop
(conversion of the values, dates, heights) is the parameter `finish`, a function of the header texts
and the data section. Bytes that are not ASCII are a UnicodeDecodeError. -/
def readAscii (finish : List (List Char × List Char) → List Char → Except Err (Raw K)) (h : Handle) :
    Except Err (Raw K) :=
  let bs := h.readAll.1
  if bs.all (fun b => b < 128) then
    let contents := (latin1 bs).dropWhile isSpace
    match splitOn '*' contents with
    | [headerSection, dataSection, _, rest] =>
      if strip rest ≠ [] then .error .valueError
      else
        match asciiHeader (splitLines (headerSection.dropWhile isSpace)) with
        | .error e => .error e
        | .ok d => finish d dataSection
    | _ => .error .valueError
  else .error .unicode

/-- `read_sdf` (surfalize/file/sdf.py:126-134). -/
def readSdf (finish : List (List Char × List Char) → List Char → Except Err (Raw K))
    (enc : Encoding) (h : Handle) : Except Err (Raw K) :=
  let r := h.read 8
  if r.1 = utf8 magicAscii then readAscii finish r.2
  else if r.1 = utf8 magicBinary then readBinary enc r.2
  else if (utf8? r.1).isSome then .error .corrupted else .error .unicode

/-- `np.nanmax(np.abs(data))` (surfalize/file/sdf.py:151-152): ValueError without points, NaN
without measured points. -/
def maxAbs (g : Grid (Option K)) : Except Err (Option K) :=
  if Container.flat g = [] then .error .valueError
  else .ok ((measured (Container.flat g)).map fun x => |x|).max?

/-- `scale_factor` (surfalize/file/sdf.py:153-157). `log` is `floor(log10(x))`; see
`SdfSpec.Log10`. -/
def scaleFactor (log : K → Int) : Option K → Option K
  | none => none
  | some m => if m = 0 then some 1 else some ((10 : K) ^ (-log m))

/-- The header dictionary (surfalize/file/sdf.py:160-177). -/
def header (created modified : List Char) (scale : Option K) (s : Raw K) : Dict K :=
  fun k => List.lookup k
    [("ManufacID", .str (ljust 10 "surfalize".toList)), ("CreateDate", .str created),
     ("ModDate", .str modified), ("NumPoints", .int s.data.nx), ("NumProfiles", .int s.data.ny),
     ("Xscale", .num (.fin (s.stepX * (10 ^ 6)⁻¹))), ("Yscale", .num (.fin (s.stepY * (10 ^ 6)⁻¹))),
     ("Zscale", .num (match scale with
        | some f => .fin ((10 ^ 6)⁻¹ / f)
        | none => .nan)),
     ("Zresolution", .int (-1)), ("Compression", .int 0), ("DataType", .int 7), ("CheckType", .int 0)]

/-- `data * scale_factor` for one height (surfalize/file/sdf.py:158). -/
def scaleHeight (scale : Option K) (z : Option K) : Option K :=
  match z, scale with
  | some x, some f => some (x * f)
  | _, _ => none

/-- `write_sdf(binary=True)` (surfalize/file/sdf.py:136-183): the bytes of the file. -/
def writeBinary (c : FloatCodec K) (log : K → Int) (created modified : List Char) (s : Raw K) :
    Except Err Bytes :=
  match maxAbs s.data with
  | .error e => .error e
  | .ok m =>
    let scale := scaleFactor log m
    match write c (header created modified scale s) (layout K) with
    | .error e => .error e
    | .ok hdr => .ok (utf8 magicBinary ++ (hdr ++
        writeArray (encFloat c true) ((Container.flat s.data).map (scaleHeight scale))))

/-- Texts of the numbers that the ASCII writer prints: `f'{x}'` and `f'{x:.10f}'`. -/
structure Printer (K : Type) where
  plain : FVal K → List Char
  fixed : K → List Char

/-- `f'{CRLF}'` of the *bytes* object `b'\n'` (surfalize/file/sdf.py:186-189). -/
def crlfText : List Char := "b'\\n'".toList

/-- The text of one height (surfalize/file/sdf.py:192-195). -/
def heightText (P : Printer K) : Option K → List Char
  | none => ljust 12 "BAD".toList
  | some x => P.fixed x

/-- The lines of heights (surfalize/file/sdf.py:191-199): a line ends after item `i` if `i` is a
multiple of ten or the last. -/
def dataLines (P : Printer K) (n : Nat) : Nat → List (List Char) → List (Option K) → List Char
  | _, _, [] => []
  | i, line, z :: zs =>
    if i % 10 = 0 ∨ i = n - 1 then
      List.intercalate [' '] (line ++ [heightText P z]) ++ ['\n'] ++ dataLines P n (i + 1) [] zs
    else dataLines P n (i + 1) (line ++ [heightText P z]) zs

/-- The header fields as the ASCII writer prints them (surfalize/file/sdf.py:188-189). -/
def asciiFields (P : Printer K) (created modified : List Char) (scale : Option K) (s : Raw K) :
    List (String × List Char) :=
  [("ManufacID", ljust 10 "surfalize".toList), ("CreateDate", created), ("ModDate", modified),
   ("NumPoints", natText s.data.nx), ("NumProfiles", natText s.data.ny),
   ("Xscale", P.plain (.fin (s.stepX * (10 ^ 6)⁻¹))), ("Yscale", P.plain (.fin (s.stepY * (10 ^ 6)⁻¹))),
   ("Zscale", P.plain (match scale with
      | some f => .fin ((10 ^ 6)⁻¹ / f)
      | none => .nan)),
   ("Zresolution", "-1".toList), ("Compression", "0".toList), ("DataType", "7".toList),
   ("CheckType", "0".toList)]

/-- `s.encode('ascii')`. -/
def asciiBytes (s : List Char) : Except Err Bytes :=
  if s.all (fun c => c.toNat < 128) then .ok (s.map fun c => UInt8.ofNat c.toNat) else .error .unicode

/-- `write_sdf(binary=False)` (surfalize/file/sdf.py:136-181, 184-204): the bytes of the file. -/
def writeAscii (P : Printer K) (log : K → Int) (created modified : List Char) (s : Raw K) :
    Except Err Bytes :=
  match maxAbs s.data with
  | .error e => .error e
  | .ok m =>
    let scale := scaleFactor log m
    asciiBytes (magicAscii ++ ['\n'] ++
      ((asciiFields P created modified scale s).flatMap fun kv =>
        kv.1.toList ++ " = ".toList ++ kv.2 ++ crlfText) ++
      ['*', '\n'] ++
      dataLines P (Container.flat s.data).length 0 [] ((Container.flat s.data).map (scaleHeight scale)) ++
      ['*', '\n'] ++ "<ExportedBy>Surfalize</ExportedBy>".toList ++ ['\n', '*', '\n'])

end Sdf
end Surfalize
