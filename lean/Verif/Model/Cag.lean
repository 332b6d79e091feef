import Verif.Prelude.Err
import Verif.Prelude.Bytes
/-!
# Extraction of CAG archives (surfalize/file/cag.py)

An archive is the list of its members with their uncompressed content; member names are lists of components without
empty ones, and directory entries have no content. The text decoder of `zipfile.Path.open` is a parameter. The target
directory exists and holds no directories; paths are POSIX paths. Python's `zipfile.Path.parent` of a member at the root
of the archive is the root, and its parent the directory on disk that holds the archive, whose files are a parameter.
-/
namespace Surfalize.Cag
open Surfalize

/-- The first part of a text up to the last place where `c` follows a non-empty text without newline, and what is behind
`c`: the greedy `(.+)` followed by `c`. -/
def greedy (c : List Char) : List Char → Option (List Char × List Char)
  | [] => none
  | x :: s =>
    if x = '\n' then none
    else match greedy c s with
      | some (a, b) => some (x :: a, b)
      | none => if c.isPrefixOf s then some ([x], s.drop c.length) else none

/-- `re.findall(o + '(.+)' + c, s)` (surfalize/file/cag.py:6-7): matches from left to right, for every place one attempt;
behind a match the search goes on. The number is fuel; the length of the text is enough. -/
def findall (o c : List Char) : Nat → List Char → List (List Char)
  | 0, _ => []
  | _, [] => []
  | n + 1, x :: s =>
    if o.isPrefixOf (x :: s) then
      match greedy c ((x :: s).drop o.length) with
      | some (a, b) => a :: findall o c n b
      | none => findall o c n s
    else findall o c n s

/-- Split at every `/`. -/
def parts : List Char → List (List Char)
  | [] => [[]]
  | x :: s =>
    if x = '/' then [] :: parts s
    else match parts s with
      | p :: ps => (x :: p) :: ps
      | [] => [[x]]

/-- `Path(s).name` (surfalize/file/cag.py:8): the last component that is neither empty nor `.`. -/
def pathName (s : List Char) : List Char :=
  (((parts s).filter fun p => decide (p ≠ [] ∧ p ≠ ['.'])).getLast?).getD []

/-- `parse_idx_table` (surfalize/file/cag.py:5-10): pairs of identifier and name in the order of the text; as a
dictionary, later ones replace earlier ones. -/
def parseIdx (text : List Char) : List (List Char × List Char) :=
  let ids := findall "<Path>".toList "</Path>".toList text.length text
  let paths := findall "<OriginalFileName>".toList "</OriginalFileName>".toList text.length text
  ids.zip (paths.map pathName)

/-- `file_dict[id]` -/
def lookupIdx (table : List (List Char × List Char)) (id : List Char) : Option (List Char) :=
  table.reverse.lookup id

/-- A member of the archive. -/
structure Member where
  path : List (List Char)
  dir : Bool
  content : Bytes

/-- The beginnings of the files that are extracted, `VK3`, `VK4`, `VK6` and `VK7` (surfalize/file/cag.py:25-27). -/
def magics : List Bytes := [[86, 75, 51], [86, 75, 52], [86, 75, 54], [86, 75, 55]]

/-- What is outside of the archive: its file name, the files in its directory, the text decoder. -/
structure Env where
  archive : List Char
  disk : List Bytes
  decode : Bytes → Except Err (List Char)

/-- `zip_ref.open(name)` opens the last member with the name. -/
def contentOf (ms : List Member) (path : List (List Char)) : Bytes :=
  ((ms.filter fun m => decide (m.path = path) && !m.dir).getLast?.map Member.content).getD []

/-- `zipfile.Path(at=name).parent.name` (surfalize/file/cag.py:28). -/
def fileId (E : Env) (m : Member) : List Char := m.path.dropLast.getLast?.getD E.archive

/-- The contents of the files in `zipfile.Path(at=name).parent.parent.iterdir()` (surfalize/file/cag.py:31-33). -/
def siblings (E : Env) (ms : List Member) (m : Member) : List Bytes :=
  if m.path.dropLast = [] then E.disk
  else (ms.filter fun f => decide (f.path ≠ [] ∧ f.path.dropLast = m.path.dropLast.dropLast) && !f.dir).map
    fun f => contentOf ms f.path

/-- surfalize/file/cag.py:31-34: every file is parsed, the last one counts. -/
def readTables (E : Env) : List Bytes → Option (List (List Char × List Char)) →
    Except Err (Option (List (List Char × List Char)))
  | [], t => .ok t
  | b :: bs, _ => (E.decode b).bind fun text => readTables E bs (some (parseIdx text))

/-- `open(target / name, 'wb')` and writing (surfalize/file/cag.py:36-37): the target itself and its parent are
directories. -/
def put (name : List Char) (b : Bytes) (fs : List Char → Option Bytes) : Except Err Unit × (List Char → Option Bytes) :=
  if name = [] ∨ name = "..".toList then (.error .osError, fs)
  else (.ok (), fun n => if n = name then some b else fs n)

/-- The table (surfalize/file/cag.py:30-34): read when the first file is extracted. -/
def tableFor (E : Env) (ms : List Member) (m : Member) (table : Option (List (List Char × List Char))) :
    Except Err (Option (List (List Char × List Char))) :=
  match table with
  | some t => .ok (some t)
  | none => readTables E (siblings E ms m) none

/-- The loop over the members (surfalize/file/cag.py:22-37); `fs` gives the content of files by their path relative to
the target directory. -/
def extractGo (E : Env) (ms : List Member) : List Member → Option (List (List Char × List Char)) →
    (List Char → Option Bytes) → Except Err Unit × (List Char → Option Bytes)
  | [], _, fs => (.ok (), fs)
  | m :: rest, table, fs =>
    if m.content.take 3 ∉ magics then extractGo E ms rest table fs
    else
      match tableFor E ms m table with
      | .error e => (.error e, fs)
      | .ok none => (.error .typeError, fs)
      | .ok (some t) =>
        match lookupIdx t (fileId E m) with
        | none => (.error .keyError, fs)
        | some name =>
          match put name m.content fs with
          | (.error e, fs') => (.error e, fs')
          | (.ok _, fs') => extractGo E ms rest (some t) fs'

/-- `extract_cag` (surfalize/file/cag.py:12-37). -/
def extract (E : Env) (ms : List Member) (fs : List Char → Option Bytes) :
    Except Err Unit × (List Char → Option Bytes) :=
  extractGo E ms ms none fs

end Surfalize.Cag
