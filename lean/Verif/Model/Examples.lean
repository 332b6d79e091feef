import Verif.Model.Convert
/-!
# Example files: surfalize/examples.py

The web is a function from addresses to contents. The status of a response is not looked at by the code, so it is not
modelled. `requests` missing (examples.py:5-9) is not modelled.
-/
namespace Surfalize
namespace Examples
open Files Surfalize.Convert

/-- `ExampleFile` (surfalize/examples.py:14-21). -/
structure Example where
  name : List Char
  url : List Char

/-- `requests.get(url).content`, and `response.json()` of the directory listing as the names and addresses of its
entries; both may fail. The `ConnectionError` of the package's own text is an `osError` like that of `requests`
(surfalize/examples.py:34-37, 60-63). -/
structure Web where
  get : List Char → Except Err Bytes
  entries : Bytes → Except Err (List (List Char × List Char))

/-- `EXAMPLE_FILES_URL` (surfalize/examples.py:11). -/
def listingUrl : List Char := "https://api.github.com/repos/fredericjs/surfalize/contents/tests/test_files".toList

/-- `list_examples(format)` (surfalize/examples.py:46-66). Names of entries contain no slash. -/
def listExamples (W : Web) (format : Option (List Char)) : Except Err (List Example) :=
  match W.get listingUrl with
  | .error e => .error e
  | .ok b =>
    match W.entries b with
    | .error e => .error e
    | .ok l =>
      let files := l.map fun f => (⟨f.1, f.2⟩ : Example)
      match format with
      | none => .ok files
      | some t => .ok (files.filter fun f => suffix f.name = t)

/-- `ExampleFile.load()` (surfalize/examples.py:25-44): the content is loaded from a buffer, with the suffix of the name as
the format if it has one. -/
def Example.load {R : Type} (W : Web) (rs : List (Reader R)) (e : Example) : Except Err R :=
  match W.get e.url with
  | .error x => .error x
  | .ok b => (Files.load rs (.buffer b 0) (if suffix e.name ≠ [] then some (suffix e.name) else none)).1

end Examples
end Surfalize
