import Verif.Prelude.Bytes
/-!
# Specification: the index of a CAG archive
-/
namespace Surfalize.CagSpec

/-- The line holds an element: `x` is the non-empty text between the first opening and the last closing tag. -/
def Tagged (o c line x : List Char) : Prop :=
  ∃ a b, line = a ++ o ++ x ++ c ++ b ∧ x ≠ [] ∧ ¬ o <:+: a ∧ ¬ c <:+: b

/-- The line holds no opening tag that is followed by a non-empty text and a closing tag. -/
def Untagged (o c line : List Char) : Prop := ∀ a x b, line = a ++ o ++ x ++ c ++ b → x = []

/-- What the line holds. -/
def Holds (o c line : List Char) : Option (List Char) → Prop
  | some x => Tagged o c line x
  | none => Untagged o c line

/-- A text of lines. -/
def join : List (List Char) → List Char
  | [] => []
  | [l] => l
  | l :: ls => l ++ '\n' :: join ls

/-- A line of an index file, with the identifier and the original file name it holds. -/
structure IndexLine where
  text : List Char
  id : Option (List Char)
  name : Option (List Char)

/-- The tags of the index (surfalize/file/cag.py:6-7). -/
structure IndexLine.Ok (l : IndexLine) : Prop where
  newline : '\n' ∉ l.text
  id : Holds "<Path>".toList "</Path>".toList l.text l.id
  name : Holds "<OriginalFileName>".toList "</OriginalFileName>".toList l.text l.name

/-- `n` is the file name of the path `s`: what follows the last slash. -/
def FileName (s n : List Char) : Prop :=
  '/' ∉ n ∧ n ≠ [] ∧ n ≠ ['.'] ∧ (s = n ∨ ∃ d, s = d ++ '/' :: n)

/-- The dictionary made of pairs gives `n` for `id`: the last pair with this identifier. -/
def Gives (table : List (List Char × List Char)) (id n : List Char) : Prop :=
  ∃ a b, table = a ++ (id, n) :: b ∧ ∀ e ∈ b, e.1 ≠ id

/-- The content of a measurement file starts with `VK3`, `VK4`, `VK6` or `VK7`. -/
def IsMeasurement (content : Bytes) : Prop :=
  ∃ k ∈ [51, 52, 54, 55], ∃ rest, content = 86 :: 75 :: k :: rest

end Surfalize.CagSpec
