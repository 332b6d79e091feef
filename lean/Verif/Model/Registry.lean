import Verif.Model.FileHandler
import Mathlib.Data.List.Lex
import Mathlib.Data.Char
import Mathlib.Data.List.Sort
/-!
# Registering readers and writers, and the warnings of loading: surfalize/file/common.py:395-450, 457-503

A function is known by its identity, a number.
-/
namespace Surfalize
namespace Files

/-- One call of `register_reader(suffix=...)` or `register_writer(suffix=...)`: the suffixes (one or several) and the function. -/
structure Registration where
  suffixes : List (List Char)
  fn : Nat

/-- `_readers_by_suffix`, `_writers` after these calls (surfalize/file/common.py:425-429, 443-447). -/
def table (h : List Registration) : List (List Char × Nat) :=
  h.foldl (fun d r => r.suffixes.foldl (fun d s => put s r.fn d) d) []

/-- `get_supported_formats_read`, `get_supported_formats_write` (surfalize/file/common.py:395-401): the keys, as a set. -/
def formats (h : List Registration) : List (List Char) := (table h).map Prod.fst

/-- `groups.setdefault(fn, []).append(s)` (surfalize/file/common.py:417). -/
def addTo (fn : Nat) (s : List Char) : List (Nat × List (List Char)) → List (Nat × List (List Char))
  | [] => [(fn, [s])]
  | (g, l) :: d => if g = fn then (g, l ++ [s]) :: d else (g, l) :: addTo fn s d

/-- `get_reader_suffix_groups` (surfalize/file/common.py:403-418). -/
def groups (h : List Registration) : List (List (List Char)) :=
  ((table h).foldl (fun d e => addTo e.2 e.1 d) []).map fun e => e.2.insertionSort (· ≤ ·)

/-- The calls of the package (the decorators cited at `Format.suffixes`), the function of a format being known by its place in the order of import. -/
def packageCalls : List Registration := Format.all.zipIdx.map fun e => ⟨e.1.suffixes, e.2⟩

/-- `_writers` after these calls, with the functions themselves (surfalize/file/common.py:440-450). -/
def writerTable {S : Type} (h : List (List (List Char) × WriteFn S)) : List (List Char × WriteFn S) :=
  h.foldl (fun d r => r.1.foldl (fun d s => put s r.2 d) d) []

section
variable {R : Type}

/-- `_readers_by_magic` with the readers and not only their functions (surfalize/file/common.py:430-436). -/
def byMagicR (rs : List (Reader R)) : List (Bytes × Reader R) :=
  rs.foldl (fun d r => r.magics.foldl (fun d m => put m r d) d) []

/-- The first reader one of whose magic numbers the content starts with (surfalize/file/common.py:466-471). -/
def magicHit (rs : List (Reader R)) (src : Source) : Option (Bytes × Reader R) :=
  (byMagicR rs).find? (fun e => ((Handle.mk src.content src.start).read e.1.length).1 = e.1)

/-- Whether a reader succeeds. -/
def succeeds (r : ReadFn R) (src : Source) : Bool :=
  match (attempt r src).1 with
  | .ok _ => true
  | .error _ => false

/-- The warnings of `FileHandler.read` (surfalize/file/common.py:478-503): the suffix of the file and the suffixes of the reader. A reader registered under several
suffixes has the tuple of them as `_suffix` (line 423), which is never equal to a suffix. For a buffer there is none: in the last loop the text of the warning needs
`self.file.suffix`. Simplification: a reader registered under a tuple of one suffix counts as registered under the suffix; `_suffix` of a function that is registered
twice would be the last one. Warnings of the readers themselves are not modelled. -/
def warnings (rs : List (Reader R)) (src : Source) (format : Option (List Char)) : List (List Char × List (List Char)) :=
  match byName rs src format with
  | (.ok _, _) => []
  | (.error _, src1) =>
    match magicHit rs src1 with
    | some (_, r) =>
      match src1, named src format with
      | .path suffix _, some s => if r.suffixes ≠ [s] then [(suffix, r.suffixes)] else []
      | _, _ => []
    | none =>
      match src1 with
      | .path suffix _ =>
        match (bySuffix rs).find? (fun e => succeeds e.2 src1) with
        | some (s, _) => [(suffix, [s])]
        | none => []
      | .buffer _ _ => []

end
end Files
end Surfalize
