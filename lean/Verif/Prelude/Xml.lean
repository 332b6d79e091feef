import Verif.Prelude.Text
/-!
# XML documents and zip archives as the readers see them

`xml.etree.ElementTree` and `zipfile` parse documents and archives; the parsers themselves are parameters of the
models. Attributes and tails of elements are not used by surfalize.
-/
namespace Surfalize

/-- An element of `xml.etree.ElementTree`: tag, text before the first child, children. -/
inductive Xml where
  | element (tag : List Char) (text : Option (List Char)) (children : List Xml)

namespace Xml
/-- `e.tag` -/
def tag : Xml → List Char
  | element t _ _ => t
/-- `e.text` -/
def text : Xml → Option (List Char)
  | element _ t _ => t
/-- `list(e)` -/
def children : Xml → List Xml
  | element _ _ c => c

/-- `e.findall('a/b/c')` for plain tags. -/
def findall : List (List Char) → Xml → List Xml
  | [], e => [e]
  | t :: ts, e => (e.children.filter fun c => c.tag = t).flatMap (findall ts)

/-- `e.find('a/b/c')`; none for `None`. -/
def find (path : List (List Char)) (e : Xml) : Option Xml := (findall path e).head?

/-- `e.find(path).text`: AttributeError if there is no such element. -/
def findText (path : List (List Char)) (e : Xml) : Except Err (Option (List Char)) :=
  match find path e with
  | none => .error .attributeError
  | some c => .ok c.text

/-- `int(e.find(path).text)`: TypeError for an empty element. -/
def findInt (path : List (List Char)) (e : Xml) : Except Err Int :=
  match findText path e with
  | .error x => .error x
  | .ok none => .error .typeError
  | .ok (some s) => intOf s

/-- `float(e.find(path).text)`; a number that is not finite is a ValueError here. -/
def findFloat {K : Type} (T : FloatText K) (path : List (List Char)) (e : Xml) : Except Err K :=
  match findText path e with
  | .error x => .error x
  | .ok none => .error .typeError
  | .ok (some s) =>
    match T.parse s with
    | .error x => .error x
    | .ok (.fin x) => .ok x
    | .ok _ => .error .valueError

end Xml

/-- An open `zipfile.ZipFile`: `namelist()`, and the content of a member (KeyError if there is none). -/
structure Archive where
  names : List (List Char)
  member : List Char → Except Err Bytes

end Surfalize
