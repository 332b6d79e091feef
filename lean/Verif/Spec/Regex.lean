import Verif.Model.Regex

/-! Vocabulary for C109: literal text and group names in filename templates. -/
namespace Surfalize.RegexSpec
open Surfalize

/-- The characters that have a meaning in a regular expression. -/
def special : List Char := "\\.|()[{^$*+?".toList

/-- Text without such characters. -/
def Literal (s : List Char) : Prop := ∀ c ∈ s, c ∉ special

/-- A name as in Python: letters, digits and underscores, not beginning with a digit. -/
def IsName (n : List Char) : Prop :=
  n ≠ [] ∧ (∀ c ∈ n, c.isAlphanum = true ∨ c = '_') ∧ ∀ c r, n = c :: r → c.isDigit = false

/-- A template in pieces: literal text, then a field, and so on, then literal text; `Ok` if the literal texts (also prefix and
suffix of each field) contain no special character, the types are known and the names are distinct identifiers. -/
def Plain (segs : List (List Char × Filename.Token × Filename.Ty)) (last : List Char) : Prop :=
  (∀ s ∈ segs, Literal s.1 ∧ Literal s.2.1.prefix_ ∧ Literal s.2.1.suffix ∧ IsName s.2.1.name ∧
    Filename.tyOf s.2.1.dtype = some s.2.2) ∧ Literal last ∧ (segs.map fun s => s.2.1.name).Nodup

/-- What a file name looks like that follows the template: the literal texts, and for each field its prefix, a value and its
suffix. -/
def written : List (List Char × Filename.Token × Filename.Ty) → List (List Char) → List Char → List Char
  | s :: segs, v :: vs, last => s.1 ++ s.2.1.prefix_ ++ v ++ s.2.1.suffix ++ written segs vs last
  | _ :: _, [], _ => []
  | [], _, last => last

end Surfalize.RegexSpec
