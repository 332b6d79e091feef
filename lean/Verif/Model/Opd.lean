import Verif.Model.FileArray
import Verif.Model.FileHandler
import Verif.Prelude.GridFn
/-!
# Wyko OPD files: surfalize/file/opd.py

`dateutil.parser.parse` is a parameter. Arithmetic is exact; infinities are not distinguished from NaN. Metadata other
than those the result depends on are not returned.
-/
namespace Surfalize
namespace Opd
open LayoutM FileArr

/-- `MAGIC` (surfalize/file/opd.py:10). -/
def magic : Bytes := [1, 0] ++ utf8 "Directory".toList

/-- `BlockType` (surfalize/file/opd.py:20-28). -/
inductive Kind where
  | none | directory | array | text | short | float | double | long
  deriving DecidableEq

/-- `BlockType(type_)` (surfalize/file/opd.py:82): ValueError for other numbers. -/
def kindOf (i : Int) : Except Err Kind :=
  if i = 0 then .ok .none else if i = 1 then .ok .directory else if i = 3 then .ok .array
  else if i = 5 then .ok .text else if i = 6 then .ok .short else if i = 7 then .ok .float
  else if i = 8 then .ok .double else if i = 12 then .ok .long else .error .valueError

/-- `Block` (surfalize/file/opd.py:42-47), without the flags. -/
structure Block where
  kind : Kind
  size : Int
  offset : Int

/-- `s.rstrip('\x00')`. -/
def stripNul (s : List Char) : List Char := rstrip (fun c => c = '\x00') s

/-- `read_block_definition` (surfalize/file/opd.py:79-82): name, type and size. -/
def readDef (enc : Encoding) (h : Handle) : Except Err ((List Char × Kind × Int) × Handle) :=
  match decode enc (h.read 16).1 with
  | .error e => .error e
  | .ok s =>
    if ((h.read 16).2.read 8).1.length ≠ 8 then .error .structError
    else
      match kindOf (bytesInt true false 2 (((h.read 16).2.read 8).1.take 2)) with
      | .error e => .error e
      | .ok k =>
        .ok ((stripNul s, k, bytesInt true false 4 ((((h.read 16).2.read 8).1.drop 2).take 4)),
          ((h.read 16).2.read 8).2)

/-- The loop over the directory (surfalize/file/opd.py:97-100). -/
def readDefs (enc : Encoding) : Nat → List (List Char × Kind × Int) → Handle →
    Except Err (List (List Char × Kind × Int) × Handle)
  | 0, d, h => .ok (d, h)
  | n + 1, d, h =>
    match readDef enc h with
    | .error e => .error e
    | .ok (b, h') => readDefs enc n (Files.put b.1 b.2 d) h'

/-- The loop that sets the offsets (surfalize/file/opd.py:101-104). -/
def offsets : Int → List (List Char × Kind × Int) → List (List Char × Block)
  | _, [] => []
  | p, (name, k, size) :: bs => (name, ⟨k, size, p⟩) :: offsets (p + size) bs

/-- `filehandle.seek(self.offset, 0)` (surfalize/file/opd.py:68). -/
def Block.goto (b : Block) (h : Handle) : Except Err Handle :=
  if b.offset < 0 then .error .valueError else .ok (h.seek b.offset.toNat)

/-- `filehandle.read(self.size)`: everything if the size is negative. -/
def Block.bytes (b : Block) (h : Handle) : Bytes :=
  if b.size < 0 then h.readAll.1 else (h.read b.size.toNat).1

section
variable {K : Type} [Field K] [LinearOrder K]

/-- The data types of arrays (surfalize/file/opd.py:32). -/
def itemOf (K : Type) [Field K] (w : Nat) : Option (Bytes → Option K) :=
  if w = 1 then some fun b => some ((bytesInt false false 1 b : Int) : K)
  else if w = 2 then some fun b => some ((bytesInt true false 2 b : Int) : K)
  else if w = 4 then some (decFloat K false)
  else none

/-- An array: item size and items. -/
structure Arr (K : Type) where
  width : Nat
  data : Grid (Option K)

/-- `np.rot90(data.reshape(nx, ny))` (surfalize/file/opd.py:55): `m[j, ny - 1 - i]` at row `i` and column `j`. -/
def rotated {α : Type} (d : α) (l : List α) (nx ny : Nat) : Grid α :=
  Grid.ofFn ny nx fun i j => l.getD (j * ny + (ny - 1 - i)) d

/-- `Block._read_array` (surfalize/file/opd.py:49-56). -/
def Block.readArray (K : Type) [Field K] (b : Block) (h : Handle) : Except Err (Arr K) :=
  if (h.read 6).1.length ≠ 6 then .error .structError
  else
    let nx := bytesNat false ((h.read 6).1.take 2)
    let ny := bytesNat false (((h.read 6).1.drop 2).take 2)
    let w := bytesNat false ((h.read 6).1.drop 4)
    if ((nx * ny * w : Nat) : Int) ≠ b.size - 6 then .error .corrupted
    else
      match itemOf K w with
      | none => .error .keyError
      | some dec =>
        match FileArr.readArray w dec ((nx * ny : Nat) : Int) 0 (h.read 6).2 with
        | .error e => .error e
        | .ok (l, _) =>
          if l.length ≠ nx * ny then .error .valueError else .ok ⟨w, rotated none l nx ny⟩

/-- What the metadata hold. -/
inductive MVal (K : Type) where
  | str (s : List Char)
  | num (x : Option K)

/-- `Block._read_number` (surfalize/file/opd.py:61-64) for items of `w` bytes: the first item. -/
def Block.first {α : Type} (b : Block) (w : Nat) (dec : Bytes → α) (h : Handle) : Except Err α :=
  if (b.bytes h).length ≠ b.size.toNat / w * w then .error .structError
  else if b.size.toNat / w = 0 then .error .indexError
  else .ok (dec ((b.bytes h).take w))

/-- `Block.read_contents` of texts and numbers (surfalize/file/opd.py:58-76). -/
def Block.readMeta (K : Type) [Field K] (enc : Encoding) (b : Block) (h : Handle) : Except Err (MVal K) :=
  match b.kind with
  | .text =>
    match decode enc (b.bytes h) with
    | .error e => .error e
    | .ok s => .ok (.str (stripNul s))
  | .short => (b.first 2 (fun x => .num (some ((bytesInt true false 2 x : Int) : K))) h)
  | .long => (b.first 4 (fun x => .num (some ((bytesInt true false 4 x : Int) : K))) h)
  | .float => (b.first 4 (fun x => .num (decFloat K false x)) h)
  | .double => (b.first 8 (fun x => .num (decFloat K true x)) h)
  | _ => .error .keyError

/-- Whether a block is one of the metadata (surfalize/file/opd.py:113). -/
def Kind.isMeta : Kind → Bool
  | .text | .short | .float | .double | .long => true
  | _ => false

/-- The loop over the metadata (surfalize/file/opd.py:112-118); empty texts are left out. -/
def readAllMeta (K : Type) [Field K] (enc : Encoding) (h : Handle) :
    List (List Char × Block) → Except Err (List (List Char × MVal K))
  | [] => .ok []
  | (name, b) :: bs =>
    if b.kind.isMeta then
      match b.goto h with
      | .error e => .error e
      | .ok h' =>
        match b.readMeta K enc h' with
        | .error e => .error e
        | .ok v =>
          match readAllMeta K enc h bs with
          | .error e => .error e
          | .ok m =>
            match v with
            | .str [] => .ok m
            | v => .ok ((name, v) :: m)
    else readAllMeta K enc h bs

/-- The time stamp (surfalize/file/opd.py:119-124): nothing if an entry is missing; TypeError if one is no text. -/
def timestamp (parseDate : List Char → Except Err Unit) (m : List (List Char × MVal K)) : Except Err Unit :=
  match m.lookup "Date".toList with
  | none => .ok ()
  | some (.num _) => .error .typeError
  | some (.str d) =>
    match m.lookup "Time".toList with
    | none => .ok ()
    | some (.num _) => .error .typeError
    | some (.str t) => parseDate (d ++ [' '] ++ t)

/-- A parameter, 1.0 if it is missing (surfalize/file/opd.py:126-128); TypeError if it is a text. -/
def param (m : List (List Char × MVal K)) (name : String) : Except Err (Option K) :=
  match m.lookup name.toList with
  | none => .ok (some 1)
  | some (.num x) => .ok x
  | some (.str _) => .error .typeError

/-- `np.float32(1e38)`. -/
def invalidFloat : Nat := 99999996802856924650656260769173209088

/-- The height of a point (surfalize/file/opd.py:39, 130-140): NaN if the item is equal to the invalid value of its
type. -/
def height (w : Nat) (scale : Option K) (x : Option K) : Option K :=
  match x, scale with
  | some x, some s => if (w = 2 ∧ x = 32767) ∨ (w = 4 ∧ x = (invalidFloat : K)) then none else some (x * s)
  | _, _ => none

/-- `a / b` of Python floats: ZeroDivisionError. -/
def divide (a b : Option K) : Except Err (Option K) :=
  match a, b with
  | _, none => .ok none
  | a, some b => if b = 0 then .error .zeroDivision else .ok (a.map (· / b))

/-- The result (surfalize/file/opd.py:126-144). Steps that are not numbers are a ValueError here. -/
def surface (a : Arr K) (m : List (List Char × MVal K)) : Except Err (Raw K) :=
  match param m "Wavelength", param m "Mult", param m "Aspect", param m "Pixel_size" with
  | .ok wl, .ok mult, .ok aspect, .ok pixel =>
    match divide (wl.map (· * (10 ^ 3)⁻¹)) mult with
    | .error e => .error e
    | .ok scale =>
      match pixel, aspect with
      | some p, some asp =>
        .ok ⟨Container.map (height a.width scale) a.data, p * 10 ^ 3, p * 10 ^ 3 * asp⟩
      | _, _ => .error .valueError
  | _, _, _, _ => .error .typeError

/-- `block.read_contents` of an array. Simplification: other kinds of blocks are an AttributeError here (the
result has no `dtype`). -/
def Block.readData (K : Type) [Field K] (b : Block) (h : Handle) : Except Err (Arr K) :=
  match b.kind with
  | .array =>
    match b.goto h with
    | .error e => .error e
    | .ok h' => b.readArray K h'
  | _ => .error .attributeError

/-- The image layer (surfalize/file/opd.py:107-109). -/
def readImage (K : Type) [Field K] (images : Bool) (blocks : List (List Char × Block)) (h : Handle) :
    Except Err (Option (Grid (Option K))) :=
  if images then
    match blocks.lookup "Image".toList with
    | none => .ok none
    | some b =>
      match b.readData K h with
      | .error e => .error e
      | .ok a => .ok (some a.data)
  else .ok none

/-- `read_opd` after the directory (surfalize/file/opd.py:106-144). -/
def fromBlocks (parseDate : List Char → Except Err Unit) (enc : Encoding) (images : Bool)
    (blocks : List (List Char × Block)) (h : Handle) : Except Err (Raw K × Option (Grid (Option K))) :=
  match blocks.lookup "RAW_DATA".toList with
  | none => .error .keyError
  | some b =>
    match b.readData K h with
    | .error e => .error e
    | .ok a =>
      match readImage K images blocks h with
      | .error e => .error e
      | .ok im =>
        match readAllMeta K enc h blocks with
        | .error e => .error e
        | .ok m =>
          match timestamp parseDate m with
          | .error e => .error e
          | .ok () =>
            match surface a m with
            | .error e => .error e
            | .ok r => .ok (r, im)

/-- `read_opd` (surfalize/file/opd.py:85-144). -/
def readOpd (parseDate : List Char → Except Err Unit) (enc : Encoding) (images : Bool) (h : Handle) :
    Except Err (Raw K × Option (Grid (Option K))) :=
  if (h.read magic.length).1 ≠ magic then .error .corrupted
  else
    match readDef enc (h.seek 2) with
    | .error e => .error e
    | .ok ((name, _, size), h1) =>
      if name ≠ "Directory".toList then .error .corrupted
      else
        match readDefs enc (size.toNat / 24 - 1) [] h1 with
        | .error e => .error e
        | .ok (d, h2) => fromBlocks parseDate enc images (offsets h2.pos d) h2

end
end Opd
end Surfalize
