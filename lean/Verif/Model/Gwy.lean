import Verif.Model.FileArray
import Verif.Model.Units
import Verif.Prelude.Text
/-!
# Gwyddion files: surfalize/file/gwy.py

The loops of the reader are modelled with a number of steps: `Run.more` means that the steps given did
not suffice. Numbers are kept as the bit patterns stored in the file.
-/
namespace Surfalize
namespace Gwy
open LayoutM FileArr

mutual
/-- The value of a component (surfalize/file/gwy.py:153-190). -/
inductive GVal where
  | bool (b : Bool)
  | char (c : UInt8)
  | int (i : Int)
  | long (i : Int)
  | dbl (bits : Nat)
  | str (s : List Char)
  | obj (name : List Char) (fields : Fields)
  | chars (cs : Bytes)
  | ints (is : List Int)
  | longs (is : List Int)
  | dbls (bits : List Nat)
  | strs (ss : List (List Char))
  | objs (os : Objs)
/-- The dictionary of the components of a container. -/
inductive Fields where
  | nil
  | cons (name : List Char) (v : GVal) (rest : Fields)
/-- An array of containers. -/
inductive Objs where
  | nil
  | cons (name : List Char) (fields : Fields) (rest : Objs)
end

/-- The outcome of a computation with a number of steps. -/
inductive Run (α : Type) where
  | more
  | fail (e : Err)
  | done (a : α)

/-- Sequential composition. -/
def Run.bind {α β : Type} (x : Run α) (f : α → Run β) : Run β :=
  match x with
  | .more => .more
  | .fail e => .fail e
  | .done a => f a

/-- A computation without loops. -/
def Run.lift {α : Type} (x : Except Err α) : Run α :=
  match x with
  | .ok a => .done a
  | .error e => .fail e

namespace Fields
/-- `components[name] = v`. -/
def put (name : List Char) (v : GVal) : Fields → Fields
  | nil => cons name v nil
  | cons n w rest => if n = name then cons n v rest else cons n w (put name v rest)

/-- `components[name]`. -/
def get (name : List Char) : Fields → Option GVal
  | nil => none
  | cons n w rest => if n = name then some w else get name rest

/-- The names in order. -/
def keys : Fields → List (List Char)
  | nil => []
  | cons n _ rest => n :: keys rest
end Fields

/-- The bytes of a string up to a NUL, at most `max`, and how many were consumed: at the end of the file
the loop goes on reading nothing (surfalize/file/gwy.py:28-36). -/
def cstring : Nat → Bytes → Bytes × Nat
  | 0, _ => ([], 0)
  | _ + 1, [] => ([], 0)
  | n + 1, b :: bs =>
    if b = 0 then ([], 1)
    else
      let r := cstring n bs
      (b :: r.1, r.2 + 1)

/-- `read_null_terminated_string` (surfalize/file/gwy.py:13-37). -/
def readString (enc : Encoding) (h : Handle) : Except Err (List Char × Handle) :=
  let r := cstring 4096 (h.buf.drop h.pos)
  match decode enc r.1 with
  | .error e => .error e
  | .ok s => .ok (s, ⟨h.buf, h.pos + r.2⟩)

/-- `struct.unpack(fmt, filehandle.read(w))[0]` for a format of `w` bytes. -/
def readItem (w : Nat) (h : Handle) : Except Err (Bytes × Handle) :=
  let r := h.read w
  if r.1.length = w then .ok r else .error .structError

/-- `struct.unpack('I', filehandle.read(4))[0]` (surfalize/file/gwy.py:137, 174). -/
def readSize (h : Handle) : Except Err (Nat × Handle) :=
  match readItem 4 h with
  | .error e => .error e
  | .ok (b, h') => .ok (bytesNat false b, h')

/-- The strings of an array (surfalize/file/gwy.py:178). -/
def readStrings (enc : Encoding) : Nat → Handle → Except Err (List (List Char) × Handle)
  | 0, h => .ok ([], h)
  | n + 1, h =>
    match readString enc h with
    | .error e => .error e
    | .ok (s, h') =>
      match readStrings enc n h' with
      | .error e => .error e
      | .ok (ss, h'') => .ok (s :: ss, h'')

/-- The type letter of a component; none at the end of the file (surfalize/file/gwy.py:159). -/
def readLetter (h : Handle) : Except Err (Option Char × Handle) :=
  let r := h.read 1
  match r.1 with
  | [] => .ok (none, r.2)
  | b :: _ => if b < 128 then .ok (some (Char.ofNat b.toNat), r.2) else .error .unicode

mutual
/-- `Container(...).read_contents()` (surfalize/file/gwy.py:131-150). -/
def readObj (enc : Encoding) : Nat → Handle → Run ((List Char × Fields) × Handle)
  | 0, _ => .more
  | n + 1, h =>
    (Run.lift (readString enc h)).bind fun r =>
    (Run.lift (readSize r.2)).bind fun z =>
    (readLoop enc n (z.2.pos + z.1) .nil z.2).bind fun out =>
    .done ((r.1, out.1), out.2)
/-- The loop over the components (surfalize/file/gwy.py:145-150). -/
def readLoop (enc : Encoding) : Nat → Nat → Fields → Handle → Run (Fields × Handle)
  | 0, _, _, _ => .more
  | n + 1, stop, acc, h =>
    if h.pos < stop then
      (Run.lift (readString enc h)).bind fun r =>
      (Run.lift (readLetter r.2)).bind fun t =>
      (readValue enc n t.1 t.2).bind fun v =>
      readLoop enc n stop (acc.put r.1 v.1) v.2
    else .done (acc, h)
/-- `Component.read_contents` (surfalize/file/gwy.py:168-190). `struct.unpack('', b'')[0]` at the end of
the file is an IndexError. Simplification: a letter that is not a type of the format is an error. -/
def readValue (enc : Encoding) : Nat → Option Char → Handle → Run (GVal × Handle)
  | 0, _, _ => .more
  | n + 1, t, h =>
    match t with
    | none => .fail .indexError
    | some 'b' => (Run.lift (readItem 1 h)).bind fun r => .done (.bool (bytesInt true false 1 r.1 ≠ 0), r.2)
    | some 'c' => (Run.lift (readItem 1 h)).bind fun r => .done (.char (r.1.headD 0), r.2)
    | some 'i' => (Run.lift (readItem 4 h)).bind fun r => .done (.int (bytesInt true false 4 r.1), r.2)
    | some 'q' => (Run.lift (readItem 8 h)).bind fun r => .done (.long (bytesInt true false 8 r.1), r.2)
    | some 'd' => (Run.lift (readItem 8 h)).bind fun r => .done (.dbl (bytesNat false r.1), r.2)
    | some 's' => (Run.lift (readString enc h)).bind fun r => .done (.str r.1, r.2)
    | some 'o' => (readObj enc n h).bind fun r => .done (.obj r.1.1 r.1.2, r.2)
    | some 'C' =>
      (Run.lift (readSize h)).bind fun z =>
      (Run.lift (readArray 1 (fun b => b.headD 0) z.1 0 z.2)).bind fun r => .done (.chars r.1, r.2)
    | some 'I' =>
      (Run.lift (readSize h)).bind fun z =>
      (Run.lift (readArray 4 (bytesInt true false 4) z.1 0 z.2)).bind fun r => .done (.ints r.1, r.2)
    | some 'Q' =>
      (Run.lift (readSize h)).bind fun z =>
      (Run.lift (readArray 8 (bytesInt true false 8) z.1 0 z.2)).bind fun r => .done (.longs r.1, r.2)
    | some 'D' =>
      (Run.lift (readSize h)).bind fun z =>
      (Run.lift (readArray 8 (bytesNat false) z.1 0 z.2)).bind fun r => .done (.dbls r.1, r.2)
    | some 'S' =>
      (Run.lift (readSize h)).bind fun z =>
      (Run.lift (readStrings enc z.1 z.2)).bind fun r => .done (.strs r.1, r.2)
    | some 'O' =>
      (Run.lift (readSize h)).bind fun z =>
      (readObjs enc n z.1 z.2).bind fun r => .done (.objs r.1, r.2)
    | some _ => .fail .structError
/-- The containers of an array (surfalize/file/gwy.py:176). -/
def readObjs (enc : Encoding) : Nat → Nat → Handle → Run (Objs × Handle)
  | 0, _, _ => .more
  | _ + 1, 0, h => .done (.nil, h)
  | n + 1, k + 1, h =>
    (readObj enc n h).bind fun r =>
    (readObjs enc n k r.2).bind fun rs =>
    .done (.cons r.1.1 r.1.2 rs.1, rs.2)
end

/-- `parse_gwy_tree` (surfalize/file/gwy.py:193-195) with one step more than there are bytes left. -/
def parseTree (enc : Encoding) (h : Handle) : Run ((List Char × Fields) × Handle) :=
  readObj enc (h.buf.length - h.pos + 1) h

end Gwy
end Surfalize
