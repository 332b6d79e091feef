import Verif.Model.FileHandler
/-!
# Converting files and collecting the files of a directory

`surfalize convert` (surfalize/cli.py:62-65, 187-232), `surfalize report` (surfalize/cli.py:255-262, 329) and the files
of a batch (surfalize/batch.py:577-662). Surfaces, readers and writers are arbitrary. A file system maps a directory
and a name to the content of a file; links, permissions and other processes are not modelled. Names `.` and `..` do not
occur in listings.
-/
namespace Surfalize
namespace Convert
open Files

/-- `Path(name).suffix`: from the last dot on, unless it is the first or the last character (Python before 3.14). -/
def suffix (name : List Char) : List Char :=
  let tail := (name.reverse.takeWhile (· ≠ '.')).reverse
  if 0 < tail.length ∧ tail.length + 1 < name.length then '.' :: tail else []

/-- `Path(name).stem` -/
def stem (name : List Char) : List Char := name.take (name.length - (suffix name).length)

/-- The files of every directory. -/
abbrev FS (D : Type) := D → List Char → Option Bytes

/-- A file written. -/
def FS.put {D : Type} [DecidableEq D] (fs : FS D) (d : D) (n : List Char) (b : Bytes) : FS D :=
  fun d' n' => if d' = d ∧ n' = n then some b else fs d' n'

/-- `supported_formats_read` (surfalize/file/__init__.py:12), in some order. -/
def readable : List (List Char) := Format.all.flatMap Format.suffixes

/-- `supported_formats_write` (surfalize/file/__init__.py:13), in some order. -/
def writable : List (List Char) := Format.writable.flatMap Format.suffixes

section
variable {D S : Type} [DecidableEq D]

/-- A writer called with or without the keyword argument `compressed`, which only the writer of SUR files has
(surfalize/file/sur.py:359, al3d.py:24, sdf.py:139, sflz.py:96, tmd.py:38): TypeError for the others. -/
def withOptions (write : Format → Bool → WriteFn S) (kw : Option Bool) (f : Format) : WriteFn S :=
  match kw with
  | none => write f false
  | some c => if f = .sur then write f c else fun _ => ([], .error .typeError)

/-- `convert_file` (surfalize/cli.py:63-65): the file with this name and content is loaded and saved under another
name. A file is only created if there is a writer for its suffix. -/
def convertFile (read : Format → ReadFn S) (write : Format → Bool → WriteFn S) (kw : Option Bool) (name : List Char)
    (content : Bytes) (dout : D) (nout : List Char) (fs : FS D) : Except Err Unit × FS D :=
  match (Files.load (package read) (.path (suffix name) content) none).1 with
  | .error e => (.error e, fs)
  | .ok s =>
    match Files.save (packageWriters (withOptions write kw)) (.path (suffix nout) ((fs dout nout).getD [])) none s with
    | (r, src) =>
      (r, if ((packageWriters (withOptions write kw)).lookup (suffix nout)).isSome then fs.put dout nout src.content
        else fs)

/-- The format and the options (surfalize/cli.py:203-220): none if the format is not supported, which is only
reported; a usage error for `--compressed` with another format than SUR. -/
def prepare (format : List Char) (compressed : Bool) (dout : D) (nout : List Char) (fs : FS D) :
    Except Err (Option (List Char × Option Bool)) :=
  let format := if (fs dout nout).isSome then suffix nout else format
  if format ≠ ".sur".toList ∧ compressed = true then .error .usage
  else if format ∉ writable then .ok none
  else .ok (some (format, if format = ".sur".toList then some compressed else none))

/-- `surfalize convert` of a file (surfalize/cli.py:199-225). -/
def convertOne (read : Format → ReadFn S) (write : Format → Bool → WriteFn S) (format : List Char) (compressed : Bool)
    (name : List Char) (content : Bytes) (dout : D) (nout : List Char) (fs : FS D) : Except Err Unit × FS D :=
  match prepare format compressed dout nout fs with
  | .error e => (.error e, fs)
  | .ok none => (.ok (), fs)
  | .ok (some (_, kw)) => convertFile read write kw name content dout nout fs

/-- The loop over the files of a directory (surfalize/cli.py:228-232). -/
def convertAll (read : Format → ReadFn S) (write : Format → Bool → WriteFn S) (kw : Option Bool) (format : List Char)
    (din dout : D) : List (List Char) → FS D → Except Err Unit × FS D
  | [], fs => (.ok (), fs)
  | n :: ns, fs =>
    match fs din n with
    | none => convertAll read write kw format din dout ns fs
    | some b =>
      if suffix n ∈ readable then
        match convertFile read write kw n b dout (stem n ++ format) fs with
        | (.ok _, fs') => convertAll read write kw format din dout ns fs'
        | (.error e, fs') => (.error e, fs')
      else convertAll read write kw format din dout ns fs

/-- `surfalize convert` of a directory (surfalize/cli.py:199-232), whose listing is given, to a directory that is not a
file. -/
def convertDir (read : Format → ReadFn S) (write : Format → Bool → WriteFn S) (format : List Char) (compressed : Bool)
    (din dout : D) (names : List (List Char)) (fs : FS D) : Except Err Unit × FS D :=
  if format ≠ ".sur".toList ∧ compressed = true then (.error .usage, fs)
  else if format ∉ writable then (.ok (), fs)
  else convertAll read write (if format = ".sur".toList then some compressed else none) format din dout names fs

end

/-! ## The files of a batch -/

/-- `dir_path.glob(f'*{extension}')` of a directory with this listing, for an extension without wildcards
(surfalize/batch.py:612, 661). -/
def glob (names : List (List Char)) (extension : List Char) : List (List Char) :=
  names.filter fun n => extension.isSuffixOf n

/-- A file of a batch: a path, or an object with a name. -/
inductive Item (D O : Type) where
  | path (dir : D) (name : List Char)
  | object (o : O)

/-- A call that adds files to a batch. -/
inductive Add (D O : Type) where
  | files (l : List (Item D O))
  | dir (d : D) (extensions : Option (List (List Char)))

/-- The files found in a directory (surfalize/batch.py:604-613, 654-662). `formats` is the set of supported formats in
the order it is iterated in, and `listing` gives the names in a directory. -/
def found {D O : Type} (formats : List (List Char)) (listing : D → List (List Char)) (d : D)
    (extensions : Option (List (List Char))) : List (Item D O) :=
  (extensions.getD formats).flatMap fun e => (glob (listing d) e).map (Item.path d)

/-- `Batch(files)` or `Batch.from_dir` (surfalize/batch.py:504-510, 577-613), `add_files` (surfalize/batch.py:628-635)
and `add_dir` (surfalize/batch.py:654-662): the files of the batch afterwards. -/
def Add.run {D O : Type} (formats : List (List Char)) (listing : D → List (List Char)) (files : List (Item D O)) :
    Add D O → List (Item D O)
  | .files l => files ++ l
  | .dir d ext => files ++ found formats listing d ext

/-- All calls in order. -/
def batchFiles {D O : Type} (formats : List (List Char)) (listing : D → List (List Char)) (calls : List (Add D O)) :
    List (Item D O) :=
  calls.foldl (Add.run formats listing) []

/-- `file.with_suffix(file.suffix + '.pdf')` (surfalize/cli.py:329). -/
def reportName (name : List Char) : List Char := stem name ++ (suffix name ++ ".pdf".toList)

end Convert
end Surfalize
