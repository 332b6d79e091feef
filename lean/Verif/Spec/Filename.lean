import Verif.Model.Filename

/-!
# Specification of filename templates
-/
namespace Surfalize.FilenameSpec
open Surfalize.Filename

/-- A template: pieces of literal text each followed by the text of a token in angle brackets, then literal text. -/
def renderTemplate (segs : List (List Char × List Char)) (last : List Char) : List Char :=
  segs.flatMap (fun s => s.1 ++ '<' :: s.2 ++ ['>']) ++ last

/-- Text without angle brackets. -/
def NoBracket (s : List Char) : Prop := '<' ∉ s ∧ '>' ∉ s

/-- The text a field of a type may have. -/
def Valid : Ty → List Char → Prop
  | .int, v => v ≠ [] ∧ ∀ c ∈ v, c.isDigit = true
  | .str, v => v ≠ [] ∧ '\n' ∉ v
  | .float, v => (v ≠ [] ∧ ∀ c ∈ v, c.isDigit = true) ∨
      ∃ a c b, v = a ++ c :: b ∧ (c = '.' ∨ c = ',') ∧ a ≠ [] ∧ b ≠ [] ∧ (∀ x ∈ a, x.isDigit = true) ∧
        (∀ x ∈ b, x.isDigit = true)

/-- The file name part obtained from a template by writing the field values in place of the fields. -/
def fill : List Item → List (List Char) → List Char
  | [], _ => []
  | .lit c :: is, vs => c :: fill is vs
  | .field _ :: _, [] => []
  | .field _ :: is, v :: vs => v ++ fill is vs

/-- The values fit the fields. -/
def Fits (is : List Item) (vs : List (List Char)) : Prop := List.Forall₂ Valid (fieldTypes is) vs

/-- The text does not begin with a digit. -/
def NoDigitNext (s : List Char) : Prop := ∀ c r, s = c :: r → c.isDigit = false

/-- The text does not begin with a decimal separator followed by a digit. -/
def NoFractionNext (s : List Char) : Prop := ∀ c d r, s = c :: d :: r → (c = '.' ∨ c = ',') → d.isDigit = false

/-- When a file name written from a template can be read back: a number is not followed by more of a number, a text
field is followed by the delimiter `delim`, or ends the file name. `rest` is what follows the template. -/
def Readable (delim : Char) : List Item → List (List Char) → List Char → Prop
  | [], _, _ => True
  | .lit _ :: is, vs, rest => Readable delim is vs rest
  | .field _ :: _, [], _ => False
  | .field t :: is, v :: vs, rest =>
    Readable delim is vs rest ∧
    (match t with
      | .int => NoDigitNext (fill is vs ++ rest)
      | .float => NoDigitNext (fill is vs ++ rest) ∧ ((∀ c ∈ v, c.isDigit = true) → NoFractionNext (fill is vs ++ rest))
      | .str => (∃ is', is = .lit delim :: is') ∨ fill is vs ++ rest = [])

end Surfalize.FilenameSpec
