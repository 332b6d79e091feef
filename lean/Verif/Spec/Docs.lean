import Mathlib.Data.List.Basic

/-!
# Specification for C126: the entry of a parameter in a documentation
-/
namespace Surfalize.DocsSpec

/-- The word stands somewhere in the line. -/
def Mentions (l p : List Char) : Prop := ∃ x y, l = x ++ p ++ y

/-- A line that begins with four blanks or with a tabulator and has something behind them. -/
def Indented (l : List Char) : Prop := ∃ t, t ≠ [] ∧ (l = ' ' :: ' ' :: ' ' :: ' ' :: t ∨ l = '\t' :: t)

/-- Any other line, such as an empty one or a lone tabulator. -/
def Outer (l : List Char) : Prop := ¬ Indented l

end Surfalize.DocsSpec
