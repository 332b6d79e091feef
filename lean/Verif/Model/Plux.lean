import Verif.Model.FileArray
import Verif.Model.Plu
import Verif.Prelude.Xml
/-!
# Sensofar PLUX files: surfalize/file/plux.py

`zipfile`, the XML parser, `dateutil.parser.parse` and `float` are parameters. Infinities are not distinguished from NaN.
-/
namespace Surfalize
namespace Plux
open LayoutM FileArr

/-- Names of the members (surfalize/file/plux.py:8-10). -/
def topography : List Char := "LAYER_0.raw".toList
def imageName : List Char := "LAYER_0.stack.raw".toList
def indexName : List Char := "index.xml".toList

/-- The path `GENERAL/name`. -/
def general (name : String) : List (List Char) := ["GENERAL".toList, name.toList]

/-- The tags copied to the metadata (surfalize/file/plux.py:29). -/
def tags : List (List Char) :=
  ["Device".toList, "Objective".toList, "Technique".toList, "Measurement Type".toList, "Algorithm".toList,
   "Comment".toList]

/-- What the environment provides. -/
structure Env (K Time : Type) where
  archive : Bytes → Except Err Archive
  xml : List Char → Except Err Xml
  date : List Char → Except Err Time
  float : FloatText K

/-- `e.find(t).text.strip()`: AttributeError if there is no element or it has no text. -/
def stripped (t : String) (e : Xml) : Except Err (List Char) :=
  match Xml.findText [t.toList] e with
  | .error x => .error x
  | .ok none => .error .attributeError
  | .ok (some s) => .ok (strip s)

/-- The loop over the items of the info section (surfalize/file/plux.py:32-37). Later entries replace earlier ones;
`lower` is `str.lower`, of ASCII names. -/
def items (m : List Char → Option (List Char)) : List Xml → Except Err (List Char → Option (List Char))
  | [] => .ok m
  | e :: es =>
    if "ITEM_".toList.isPrefixOf e.tag then
      match stripped "NAME" e with
      | .error x => .error x
      | .ok name =>
        if name ∈ tags then
          match stripped "VALUE" e with
          | .error x => .error x
          | .ok v => items (fun k => if k = name.map Char.toLower then some v else m k) es
        else items m es
    else items m es

/-- `np.frombuffer(data, dtype, count)` (surfalize/file/plux.py:45): ValueError if the data are shorter. -/
def fromBufferN {α : Type} (w : Nat) (dec : Bytes → α) (count : Int) (bs : Bytes) : Except Err (List α) :=
  if count < 0 then fromBuffer w dec bs
  else if bs.length < count.toNat * w then .error .valueError
  else .ok ((FileArr.items w (bs.take (count.toNat * w))).map dec)

/-- The image layer (surfalize/file/plux.py:47-52): UnboundLocalError if there was no image. -/
def image (raw : Option Bytes) (ny nx : Int) : Except Err Plu.Layer :=
  match raw with
  | none => .error .unboundLocal
  | some bs =>
    let l := bs.map fun b => (b.toNat : Int)
    if 0 ≤ ny ∧ 0 ≤ nx ∧ (l.length : Int) = ny * nx * 3 then
      if ∀ i < ny.toNat, ∀ j < nx.toNat, l.getD ((i * nx.toNat + j) * 3) 0 = l.getD ((i * nx.toNat + j) * 3 + 1) 0 ∧
          l.getD ((i * nx.toNat + j) * 3) 0 = l.getD ((i * nx.toNat + j) * 3 + 2) 0 then
        .ok (.gray (Plu.channel l ny.toNat nx.toNat 0))
      else .ok (.rgb (Plu.channel l ny.toNat nx.toNat 0) (Plu.channel l ny.toNat nx.toNat 1)
        (Plu.channel l ny.toNat nx.toNat 2))
    else .error .valueError

/-- The metadata: the time and the items. -/
structure Info (Time : Type) where
  timestamp : Time
  items : List Char → Option (List Char)

section
variable {K Time : Type} [Field K] [LinearOrder K]

/-- The members of the archive (surfalize/file/plux.py:14-19). -/
def members (a : Archive) (images : Bool) : Except Err (Bytes × Option Bytes × Bytes) :=
  match a.member topography with
  | .error e => .error e
  | .ok data =>
    match (if images ∧ imageName ∈ a.names then (a.member imageName).map some else .ok none) with
    | .error e => .error e
    | .ok img =>
      match a.member indexName with
      | .error e => .error e
      | .ok xml => .ok (data, img, xml)

/-- The metadata (surfalize/file/plux.py:22-37). -/
def info (E : Env K Time) (root : Xml) : Except Err (Info Time) :=
  match Xml.findText (general "DATE") root with
  | .error e => .error e
  | .ok none => .error .typeError
  | .ok (some s) =>
    match E.date s with
    | .error e => .error e
    | .ok t =>
      match Xml.find ["INFO".toList] root with
      | none => .ok ⟨t, fun _ => none⟩
      | some sec =>
        match items (fun _ => none) sec.children with
        | .error e => .error e
        | .ok m => .ok ⟨t, m⟩

/-- The numbers of the index (surfalize/file/plux.py:39-43). -/
def geometry (E : Env K Time) (root : Xml) : Except Err (Int × Int × K × K) :=
  match Xml.findInt (general "IMAGE_SIZE_X") root with
  | .error e => .error e
  | .ok nx =>
    match Xml.findInt (general "IMAGE_SIZE_Y") root with
    | .error e => .error e
    | .ok ny =>
      match Xml.findFloat E.float (general "FOV_X") root with
      | .error e => .error e
      | .ok sx =>
        match Xml.findFloat E.float (general "FOV_Y") root with
        | .error e => .error e
        | .ok sy => .ok (nx, ny, sx, sy)

/-- `read_plux` (surfalize/file/plux.py:12-53). -/
def readPlux (E : Env K Time) (enc : Encoding) (images : Bool) (h : Handle) :
    Except Err (Raw K × Info Time × Option Plu.Layer) :=
  match E.archive h.buf with
  | .error e => .error e
  | .ok a =>
    match members a images with
    | .error e => .error e
    | .ok (data, img, index) =>
      match decode enc index with
      | .error e => .error e
      | .ok s =>
        match E.xml s with
        | .error e => .error e
        | .ok root =>
          match info E root with
          | .error e => .error e
          | .ok i =>
            match geometry E root with
            | .error e => .error e
            | .ok (nx, ny, sx, sy) =>
              match fromBufferN 4 (decFloat K false) (nx * ny) data with
              | .error e => .error e
              | .ok l =>
                match reshape l ny nx with
                | .error e => .error e
                | .ok g =>
                  match (if images then (image img ny nx).map some else .ok none) with
                  | .error e => .error e
                  | .ok im => .ok (⟨g, sx, sy⟩, i, im)

end
end Plux
end Surfalize
