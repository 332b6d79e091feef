import Verif.Prelude.Err
import Mathlib.Data.Rat.Defs
import Mathlib.Data.List.Basic

/-!
# Model of filename templates (surfalize/batch.py:18-200)

Strings are lists of characters. The regular expression that `construct_regex` builds is represented both as the
string the code builds and as the list of items that this string denotes when the literal text of the template contains
no regular-expression metacharacter; the matcher is Python's backtracking search for that fragment: literals, `\d+`,
`\d+(?:(?:\.|,)\d+)?` and `.+`, greedy alternatives in order of priority, leftmost start first.

That the item model is what Python's `re` does with the string, for such literal text and names, is C109
(`Model/Regex.lean` models `re.compile` and `re.search` themselves).

Simplifications: digits are the ASCII digits; group names are valid identifiers (`re.compile` checks them, see C109);
literal text with metacharacters is outside the item model (it is inside `Model/Regex.lean`).
-/
namespace Surfalize.Filename

/-- batch.py:33-56 — `_Token`. -/
structure Token where
  name : List Char
  dtype : List Char
  prefix_ : List Char
  suffix : List Char
  deriving DecidableEq, Repr

/-- `str.split('|')`. -/
def splitBar : List Char → List (List Char)
  | [] => [[]]
  | c :: cs =>
    match splitBar cs with
    | [] => [[c]]                       -- does not occur
    | w :: ws => if c = '|' then [] :: w :: ws else (c :: w) :: ws

/-- batch.py:51-56 — `_Token.extract`: fewer than two parts raise `ParsingError`, more than four cannot be unpacked
(`ValueError`). -/
def extractToken (t : List Char) : Except Err Token :=
  match splitBar t with
  | [a, b] => .ok ⟨a, b, [], []⟩
  | [a, b, c] => .ok ⟨a, b, c, []⟩
  | [a, b, c, d] => .ok ⟨a, b, c, d⟩
  | l => if l.length < 2 then .error .parsing else .error .valueError

/-- The variables of the loop in `parse_template` (batch.py:95-99). -/
structure St where
  tokens : List Token
  separators : List (List Char)
  started : Bool
  separator : List Char
  token : List Char

/-- One character of the template (batch.py:100-115). -/
def stepChar (s : St) (c : Char) : Except Err St :=
  if c = '<' then
    if s.started then .error .parsing
    else .ok { s with token := [], started := true, separators := s.separators ++ [s.separator], separator := [] }
  else if c = '>' then
    match extractToken s.token with
    | .error e => .error e
    | .ok t => .ok { s with started := false, tokens := s.tokens ++ [t] }
  else if s.started then .ok { s with token := s.token ++ [c] }
  else .ok { s with separator := s.separator ++ [c] }

/-- The loop over the characters. -/
def loop : St → List Char → Except Err St
  | s, [] => .ok s
  | s, c :: cs =>
    match stepChar s c with
    | .error e => .error e
    | .ok s' => loop s' cs

/-- batch.py:85-120 — `parse_template`. -/
def parseTemplate (template : List Char) : Except Err (List Token × List (List Char)) :=
  match loop ⟨[], [], false, [], []⟩ template with
  | .error e => .error e
  | .ok s => if s.started then .error .parsing else .ok (s.tokens, s.separators ++ [s.separator])

/-- The three field types (batch.py:75-79). -/
inductive Ty where
  | float
  | int
  | str
  deriving DecidableEq, Repr

/-- Look-up in `TYPES` (batch.py:75-79, 143-146). -/
def tyOf (dtype : List Char) : Option Ty :=
  if dtype = "float".toList then some .float
  else if dtype = "int".toList then some .int
  else if dtype = "str".toList then some .str
  else none

/-- batch.py:75-79 — the regular expressions of the types. -/
def Ty.regex : Ty → List Char
  | .float => "\\d+(?:(?:\\.|,)\\d+)?".toList
  | .int => "\\d+".toList
  | .str => ".+".toList

/-- batch.py:139-150 — the pattern of a token: `prefix (?P<name>TYPE) suffix`. -/
def tokenPattern (t : Token) : Except Err (List Char) :=
  match tyOf t.dtype with
  | none => .error .parsing
  | some ty => .ok (t.prefix_ ++ "(?P<".toList ++ t.name ++ ">".toList ++ ty.regex ++ ")".toList ++ t.suffix)

/-- batch.py:122-155 — `construct_regex`. -/
def constructRegex (tokens : List Token) (separators : List (List Char)) : Except Err (List Char) :=
  match tokens.mapM tokenPattern with
  | .error e => .error e
  | .ok patterns =>
    .ok ((patterns.zip separators).flatMap (fun ps => ps.2 ++ ps.1) ++ separators.getLastD [])

/-- An item of the regular expression: a literal character or a capturing group of a type. -/
inductive Item where
  | lit (c : Char)
  | field (t : Ty)
  deriving DecidableEq, Repr

/-- The items of a token (for literal text without metacharacters). -/
def tokenItems (t : Token) : Except Err (List Item) :=
  match tyOf t.dtype with
  | none => .error .parsing
  | some ty => .ok (t.prefix_.map .lit ++ [.field ty] ++ t.suffix.map .lit)

/-- The items of the constructed regular expression (batch.py:151-155). -/
def templateItems (tokens : List Token) (separators : List (List Char)) : Except Err (List Item) :=
  match tokens.mapM tokenItems with
  | .error e => .error e
  | .ok patterns =>
    .ok ((patterns.zip separators).flatMap (fun ps => ps.2.map Item.lit ++ ps.1) ++ (separators.getLastD []).map .lit)

/-- `[n, n-1, …, 1]`: the lengths a greedy `+` tries, longest first. -/
def down (n : Nat) : List Nat := (List.range n).reverse.map (· + 1)

/-- The length of the longest prefix of characters satisfying `p`. -/
def runLen (p : Char → Bool) (s : List Char) : Nat := (s.takeWhile p).length

/-- A decimal separator: `(?:\.|,)`. -/
def isSep (c : Char) : Bool := c == '.' || c == ','

/-- The lengths `\d{n}(?:\.|,)\d+` can have when `t` is the text after the `n` digits, longest first. -/
def fractionLens (n : Nat) (t : List Char) : List Nat :=
  match t with
  | [] => []
  | c :: r => if isSep c then (down (runLen Char.isDigit r)).map (fun m => n + 1 + m) else []

/-- The lengths a group of the given type can match at the start of `s`, in the order in which backtracking tries
them. -/
def candidates : Ty → List Char → List Nat
  | .int, s => down (runLen Char.isDigit s)
  | .str, s => down (runLen (fun c => c != '\n') s)
  | .float, s => (down (runLen Char.isDigit s)).flatMap fun n =>
      fractionLens n (s.drop n) ++ [n]

/-- Backtracking match at the start of `s`: the captured texts of the groups in order. -/
def matchItems : List Item → List Char → Option (List (List Char))
  | [], _ => some []
  | .lit _ :: _, [] => none
  | .lit c :: is, x :: s => if x = c then matchItems is s else none
  | .field t :: is, s => (candidates t s).findSome? fun n => (matchItems is (s.drop n)).map (s.take n :: ·)

/-- `re.search`: the leftmost start that matches (batch.py:174, `Series.str.extract`). -/
def search (is : List Item) : List Char → Option (List (List Char))
  | [] => matchItems is []
  | c :: s =>
    match matchItems is (c :: s) with
    | some r => some r
    | none => search is s

/-- A value of an extracted column. -/
inductive Val where
  | int (n : Nat)
  | flt (q : Rat)
  | str (s : List Char)
  | nan
  deriving DecidableEq

/-- The number a string of decimal digits denotes (most significant digit first). -/
def digitsVal (s : List Char) : Nat := s.foldl (fun n c => 10 * n + (c.toNat - 48)) 0

/-- The number a string of the form `digits` or `digits.digits` denotes, after commas became points
(batch.py:176-177, `astype('float')`, exactly). -/
def floatVal (s : List Char) : Rat :=
  match s.dropWhile Char.isDigit with
  | [] => digitsVal s
  | _ :: frac => digitsVal (s.takeWhile Char.isDigit) + digitsVal frac / 10 ^ frac.length

/-- batch.py:175-178 — conversion of one cell: a file name that does not match gives NaN, which `astype('int')` rejects
and `astype('str')` turns into the text "nan". -/
def convert (t : Ty) : Option (List Char) → Except Err Val
  | some s =>
    match t with
    | .int => .ok (.int (digitsVal s))
    | .float => .ok (.flt (floatVal s))
    | .str => .ok (.str s)
  | none =>
    match t with
    | .int => .error .valueError
    | .float => .ok .nan
    | .str => .ok (.str "nan".toList)

/-- The type of the fields of an item list, in order. -/
def fieldTypes (is : List Item) : List Ty := is.filterMap fun i => match i with
  | .field t => some t
  | .lit _ => none

/-- batch.py:157-179 — `extract_from` for one file name. -/
def extractOne (is : List Item) (file : List Char) : Except Err (List Val) :=
  match search is file with
  | some caps => ((fieldTypes is).zip caps).mapM fun tc => convert tc.1 (some tc.2)
  | none => (fieldTypes is).mapM fun t => convert t none

/-- batch.py:200-206 — the column order after `apply_on`: the new names go right behind `column`, in order, unless the
table already has them. -/
def insertColumns (cols : List String) (column : String) (new : List String) : List String :=
  let idx := cols.idxOf column + 1
  new.reverse.foldl (fun cs c => if c ∈ cs then cs else cs.take idx ++ c :: cs.drop idx) cols

end Surfalize.Filename
