import Verif.Prelude.Text
/-!
# The text variant of an SDF file (ISO 25178-71): what a reader is given
-/
namespace Surfalize.SdfText
open Surfalize

/-- A blank. -/
def Blank (c : Char) : Prop := c = ' ' ∨ c = '\t'

/-- A line of the header: a name and a value around an equality sign, with blanks around both, and the end of the line. -/
structure Line where
  a : List Char
  name : List Char
  b : List Char
  c : List Char
  value : List Char
  d : List Char
  ending : List Char

/-- The text of a line. -/
def Line.text (l : Line) : List Char := l.a ++ l.name ++ l.b ++ '=' :: (l.c ++ l.value ++ l.d) ++ l.ending

/-- The names of the header fields of ISO 25178-71. -/
def names : List String :=
  ["ManufacID", "CreateDate", "ModDate", "NumPoints", "NumProfiles", "Xscale", "Yscale", "Zscale", "Zresolution", "Compression", "DataType", "CheckType"]

/-- The line states a value: some name stands there, the value has no blanks around it, and neither holds an equality sign, an asterisk or a character at which
a line ends. Lines end with a line feed, or with a carriage return and a line feed. -/
structure Line.Plain (l : Line) : Prop where
  blanks : ∀ x ∈ l.a ++ l.b ++ l.c ++ l.d, Blank x
  named : l.name ≠ []
  chars : ∀ x ∈ l.name ++ l.value, x ≠ '=' ∧ x ≠ '*' ∧ x.toNat < 128 ∧ (x = '\t' ∨ 32 ≤ x.toNat)
  first : ∀ x ∈ l.name.head?.toList ++ l.value.head?.toList, ¬ Blank x
  last : ∀ x ∈ l.name.getLast?.toList ++ l.value.getLast?.toList, ¬ Blank x
  ends : l.ending = ['\n'] ∨ l.ending = ['\r', '\n']

/-- The text of a file: the magic number, the header, the data, the trailer, and what follows the last asterisk. -/
def fileText (space : List Char) (lines : List Line) (data trailer rest : List Char) : List Char :=
  "aISO-1.0".toList ++ space ++ lines.flatMap Line.text ++ '*' :: data ++ '*' :: trailer ++ '*' :: rest

end Surfalize.SdfText
