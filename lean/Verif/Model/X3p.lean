import Verif.Model.FileArray
import Verif.Prelude.Xml
/-!
# X3P files: surfalize/file/x3p.py

`zipfile`, `hashlib.md5`, the XML parser, `dateutil.parser.parse` and `float` are parameters. Arithmetic is exact;
infinities are not distinguished from NaN. There are no image layers.
-/
namespace Surfalize
namespace X3p
open LayoutM FileArr

/-- What the environment provides. -/
structure Env (K Time : Type) where
  archive : Bytes → Except Err Archive
  md5 : Bytes → List Char
  xml : Bytes → Except Err Xml
  date : List Char → Except Err Time
  float : FloatText K

/-- Names of the members. -/
def mainXml : List Char := "main.xml".toList
def checksumName : List Char := "md5checksum.hex".toList

/-- `text.split()[0]`: IndexError if there is nothing but white space. -/
def firstWord (s : List Char) : Except Err (List Char) :=
  match (s.dropWhile isSpace).takeWhile fun c => !isSpace c with
  | [] => .error .indexError
  | w => .ok w

/-- A value of the metadata: a text, or a date that was parsed. -/
inductive Value (Time : Type) where
  | text (s : List Char)
  | time (t : Time)

mutual
/-- `xml_to_flat_dict(element, parent_key)` (surfalize/file/x3p.py:21-30), adding to the entries `d`. -/
def flat (key : List Char) (d : List Char → Option (List Char)) : Xml → List Char → Option (List Char)
  | .element _ text cs =>
    flatAll key
      (match text with
        | some s => if strip s = [] then d else fun k => if k = key then some (strip s) else d k
        | none => d) cs
/-- The loop over the children. -/
def flatAll (key : List Char) (d : List Char → Option (List Char)) : List Xml → List Char → Option (List Char)
  | [] => d
  | .element t x cs :: es => flatAll key (flat (key ++ t) d (.element t x cs)) es
end

section
variable {K Time : Type} [Field K] [LinearOrder K]

/-- `metadata[key] = dateutil.parser.parse(metadata[key])` if there is such an entry (surfalize/file/x3p.py:96-99). -/
def parseEntry (E : Env K Time) (key : List Char) (m : List Char → Option (Value Time)) :
    Except Err (List Char → Option (Value Time)) :=
  match m key with
  | some (.text s) =>
    match E.date s with
    | .error e => .error e
    | .ok t => .ok fun k => if k = key then some (.time t) else m k
  | _ => .ok m

/-- The metadata (surfalize/file/x3p.py:93-99). -/
def metadata (E : Env K Time) : Option Xml → Except Err (List Char → Option (Value Time))
  | none => .ok fun _ => none
  | some r =>
    match parseEntry E "Date".toList fun k => (flat [] (fun _ => none) r k).map .text with
    | .error e => .error e
    | .ok m => parseEntry E "CalibrationDate".toList m

/-- The height in an item of each type of `DTYPE_MAP` (surfalize/file/x3p.py:14-19, 90): size and decoder. -/
def dtype (K : Type) [Field K] (t : Option (List Char)) : Except Err (Nat × (Bytes → Option K)) :=
  if t = some "I".toList then .ok (2, fun b => some ((bytesInt false false 2 b : Int) : K))
  else if t = some "L".toList then .ok (4, fun b => some ((bytesInt false false 4 b : Int) : K))
  else if t = some "F".toList then .ok (4, decFloat K false)
  else if t = some "D".toList then .ok (8, decFloat K true)
  else .error .keyError

/-- `CONVERSION_FACTOR`, metres in micrometres (surfalize/file/x3p.py:10-11). -/
def factor (K : Type) [Field K] : K := 10 ^ 6

/-- `main.xml` and its checksum (surfalize/file/x3p.py:36-54): the content of the document. -/
def document (E : Env K Time) (enc : Encoding) (a : Archive) : Except Err Xml :=
  if mainXml ∉ a.names then .error .corrupted
  else if checksumName ∉ a.names then .error .corrupted
  else
    match a.member checksumName with
    | .error e => .error e
    | .ok sum =>
      match decode enc sum with
      | .error e => .error e
      | .ok s =>
        match firstWord s with
        | .error e => .error e
        | .ok w =>
          match a.member mainXml with
          | .error e => .error e
          | .ok doc => if E.md5 doc ≠ w then .error .corrupted else E.xml doc

/-- An axis of the document (surfalize/file/x3p.py:68-71): AttributeError if it is used and missing. -/
def axis (record1 : Xml) (name : String) : Except Err Xml :=
  match Xml.find ["Axes".toList] record1 with
  | none => .error .attributeError
  | some axes =>
    match Xml.find [name.toList] axes with
    | none => .error .attributeError
    | some c => .ok c

/-- Type of the heights and steps in metres (surfalize/file/x3p.py:63-76). -/
def axes (E : Env K Time) (record1 : Xml) : Except Err ((Nat × (Bytes → Option K)) × K × K) :=
  match Xml.findText ["FeatureType".toList] record1 with
  | .error e => .error e
  | .ok f =>
    if f ≠ some "SUR".toList then .error .unsupported
    else
      match axis record1 "CZ" with
      | .error e => .error e
      | .ok cz =>
        match Xml.findText ["DataType".toList] cz with
        | .error e => .error e
        | .ok t =>
          match dtype K t with
          | .error e => .error e
          | .ok dt =>
            match axis record1 "CX" with
            | .error e => .error e
            | .ok cx =>
              match Xml.findFloat E.float ["Increment".toList] cx with
              | .error e => .error e
              | .ok sx =>
                match axis record1 "CY" with
                | .error e => .error e
                | .ok cy =>
                  match Xml.findFloat E.float ["Increment".toList] cy with
                  | .error e => .error e
                  | .ok sy => .ok (dt, sx, sy)

/-- The number of points along each direction and the name of the data (surfalize/file/x3p.py:78-88). -/
def matrix (record3 : Xml) : Except Err (Int × Int × List Char) :=
  match Xml.find ["MatrixDimension".toList] record3 with
  | none => .error .attributeError
  | some m =>
    match Xml.findInt ["SizeX".toList] m with
    | .error e => .error e
    | .ok nx =>
      match Xml.findInt ["SizeY".toList] m with
      | .error e => .error e
      | .ok ny =>
        match Xml.findInt ["SizeZ".toList] m with
        | .error e => .error e
        | .ok nz =>
          if nz ≠ 1 then .error .unsupported
          else
            match Xml.findText ["DataLink".toList, "PointDataLink".toList] record3 with
            | .error e => .error e
            | .ok none => .error .corrupted
            | .ok (some path) => .ok (nx, ny, path)

/-- `read_x3p` (surfalize/file/x3p.py:33-101). -/
def readX3p (E : Env K Time) (enc : Encoding) (h : Handle) :
    Except Err (Raw K × (List Char → Option (Value Time))) :=
  match E.archive h.buf with
  | .error e => .error e
  | .ok a =>
    match document E enc a with
    | .error e => .error e
    | .ok root =>
      match Xml.find ["Record1".toList] root, Xml.find ["Record3".toList] root with
      | none, _ => .error .corrupted
      | _, none => .error .corrupted
      | some record1, some record3 =>
        match axes E record1 with
        | .error e => .error e
        | .ok (dt, sx, sy) =>
          match matrix record3 with
          | .error e => .error e
          | .ok (nx, ny, path) =>
            match a.member path with
            | .error e => .error e
            | .ok bytes =>
              match fromBuffer dt.1 dt.2 bytes with
              | .error e => .error e
              | .ok l =>
                match reshape l ny nx with
                | .error e => .error e
                | .ok g =>
                  match metadata E (Xml.find ["Record2".toList] root) with
                  | .error e => .error e
                  | .ok m =>
                    .ok (⟨Container.map (fun z : Option K => z.map (· * factor K)) g, sx * factor K, sy * factor K⟩, m)

end
end X3p
end Surfalize
