import Mathlib.Data.List.Basic
/-!
# The documentation of batch methods: surfalize/utils.py:5-21

A text is the list of its lines; all but the last are followed by a line break.
-/
namespace Surfalize.Docs

abbrev Line := List Char

/-- `    .+` or `\t.+`: four blanks or a tabulator, and at least one further character. -/
def indented (l : Line) : Bool := ("    ".toList.isPrefixOf l && decide (4 < l.length)) || (['\t'].isPrefixOf l && decide (1 < l.length))

/-- `parameter.+`: where the name first stands in a line with at least one character behind it. The name has no characters with a meaning in patterns. -/
def occurs (p l : Line) : Option Nat := (List.range l.length).find? fun i => p.isPrefixOf (l.drop i) && decide (i + p.length < l.length)

/-- The text before a match is put in front of what follows it. -/
def prepend (x : Line) : List Line → List Line
  | [] => [x]
  | l :: ls => (x ++ l) :: ls

/-- The number of complete indented lines that follow: `((    |\t).+\n)+` is greedy, and the last line of the text has no line break. -/
def following (rest : List Line) : Nat := (rest.dropLast.takeWhile indented).length

/-- surfalize/utils.py:5-21 `remove_parameter_from_docstring(parameter, docstring)`: `re.sub` of `parameter.+\n((    |\t).+\n)+` by nothing, from left to right. -/
def remove (p : Line) : List Line → List Line
  | [] => []
  | l :: rest =>
    match occurs p l with
    | some i => if following rest = 0 then l :: remove p rest else prepend (l.take i) (remove p (rest.drop (following rest)))
    | none => l :: remove p rest
termination_by ls => ls.length
decreasing_by all_goals simp only [List.length_cons, List.length_drop]; omega

end Surfalize.Docs
