import Verif.Model.Batch
import Verif.Model.Filename

/-!
# Model of the result table and of the extraction of parameters from file names (surfalize/batch.py:155-272, 725-744)

A pandas DataFrame is a list of column names and a list of rows (`Batch.Table`). DataFrames are objects: a heap maps
references to tables, and `BatchResult` holds one reference.

Simplifications: numbers of extracted columns are exact (`num` turns them into the number type of the table); the literal
text of a template has no regular-expression metacharacters (see `Model/Filename`); integers that do not fit into 64 bits
are not modelled; pandas data types of whole columns are not modelled beyond the distinction that the code makes.
-/
namespace Surfalize.ResultTable
open Surfalize.Batch Surfalize.Filename

variable {X : Type}

/-- A cell of an extracted column as a cell of the table. -/
def cellOfVal (num : Rat → X) : Val → Cell X
  | .int n => .num (num n)
  | .flt q => .num (num q)
  | .str s => .text (String.ofList s)
  | .nan => .nan

/-- The text of a cell for the accessor `Series.str`; other values count as missing (batch.py:174). -/
def textOf : Cell X → Option (List Char)
  | .text s => some s.toList
  | _ => none

/-- batch.py:172-177 — the values of the fields of one row. -/
def extractRow (is : List Item) : Option (List Char) → Except Err (List Val)
  | some s => extractOne is s
  | none => (fieldTypes is).mapM fun t => convert t none

/-- What `construct_regex` makes of a template: the names of the groups and the items. -/
structure Template where
  names : List String
  items : List Item

/-- batch.py:170-171 — `parse_template` and `construct_regex`. -/
def compile (template : List Char) : Except Err Template :=
  match parseTemplate template with
  | .error e => .error e
  | .ok (tokens, seps) =>
    match templateItems tokens seps with
    | .error e => .error e
    | .ok is => .ok ⟨tokens.map fun t => String.ofList t.name, is⟩

/-- The value of a row of the new table under a column name: `df.assign(**extracted)` replaces the columns that the
template names (batch.py:208). -/
def newCell (num : Rat → X) (t : Table X) (names : List String) (r : List (Cell X)) (vs : List Val) (c : String) : Cell X :=
  match (names.zip vs).lookup c with
  | some v => cellOfVal num v
  | none => t.cell r c

/-- batch.py:155-177, 179-208 — `apply_on(df, 'file')` with a compiled template. `df['file']` raises `KeyError` without
that column; `Series.str.extract` raises `ValueError` if the template has no field, `re.compile` rejects repeated names;
`Series.str` raises `AttributeError` for a non-empty column without texts (simplified: pandas accepts a column of nothing but
missing values if its data type is `object`). -/
def applyTemplate (num : Rat → X) (p : Template) (t : Table X) : Except Err (Table X) :=
  if "file" ∉ t.cols then .error .keyError
  else if t.rows ≠ [] ∧ (∀ r ∈ t.rows, textOf (t.cell r "file") = none) then .error .attributeError
  else if p.names = [] then .error .valueError
  else if ¬ p.names.Nodup then .error .regex
  else
    match t.rows.mapM fun r => extractRow p.items (textOf (t.cell r "file")) with
    | .error e => .error e
    | .ok vss =>
      let cols := insertColumns t.cols "file" p.names
      .ok { cols := cols, rows := List.zipWith (fun r vs => cols.map (newCell num t p.names r vs)) t.rows vss }

/-- batch.py:179-208 — `FilenameParser(template).apply_on(df, 'file')`. -/
def applyOn (num : Rat → X) (template : List Char) (t : Table X) : Except Err (Table X) :=
  match compile template with
  | .error e => .error e
  | .ok p => applyTemplate num p t

/-- batch.py:725-744 — `_construct_dataframe` with the pattern of the batch. -/
def constructDataframe [DecidableEq X] (num : Rat → X) (pattern : Option (List Char)) (additional : Option (Table X))
    (results : List (Row X)) : Except Err (Table X) :=
  match constructTable additional results with
  | .error e => .error e
  | .ok t =>
    match pattern with
    | none => .ok t
    | some p => applyOn num p t

/-- batch.py:803-812 — `execute` with the pattern of the batch: the table that `BatchResult` wraps. -/
def executeWith [DecidableEq X] {D A : Type} (num : Rat → X) (pattern : Option (List Char)) (steps : List (Step D X A))
    (additional : Option (Table X)) (results : Except Err (List (Row X))) : Except Err (Table X) :=
  if steps.isEmpty then .error .batch
  else match results with
    | .error e => .error e
    | .ok rs => constructDataframe num pattern additional rs

/-! ## The objects -/

/-- DataFrames in memory, and the results, each of which refers to one DataFrame (`self.__df`). -/
structure Mem (X : Type) where
  frames : List (Table X)
  results : List Nat

/-- `df[column] = values` (one value per row): replaces the column or appends it. -/
def setColumn (t : Table X) (c : String) (vs : List (Cell X)) : Table X :=
  let cols := if c ∈ t.cols then t.cols else t.cols ++ [c]
  { cols := cols, rows := List.zipWith (fun r v => cols.map fun d => if d = c then v else t.cell r d) t.rows vs }

/-- What a program may do with results. -/
inductive Op (X : Type) where
  /-- `BatchResult(df)` -/
  | wrap (frame : Nat)
  /-- `result[column] = values` -/
  | set (result : Nat) (c : String) (vs : List (Cell X))
  /-- `result.extract_from_filename(template)` -/
  | extract (result : Nat) (template : List Char)
  /-- `df[column] = values` on a DataFrame the program holds -/
  | write (frame : Nat) (c : String) (vs : List (Cell X))

/-- batch.py:223-224, 234-235, 270-272 — the effect of an operation on memory; `.error` is the exception, after which
memory is as it was. `df.copy()`, `apply_on` (which copies and assigns) make new DataFrames; `__setitem__` writes into the
DataFrame of the result. Writing values of another length raises `ValueError`. -/
def step (num : Rat → X) (m : Mem X) : Op X → Except Err (Mem X)
  | .wrap f =>
    match m.frames[f]? with
    | none => .error .attributeError
    | some t => .ok { frames := m.frames ++ [t], results := m.results ++ [m.frames.length] }
  | .set r c vs =>
    match m.results[r]? with
    | none => .error .attributeError
    | some f =>
      match m.frames[f]? with
      | none => .error .attributeError
      | some t => if vs.length = t.rows.length then .ok { m with frames := m.frames.set f (setColumn t c vs) }
                  else .error .valueError
  | .extract r template =>
    match m.results[r]? with
    | none => .error .attributeError
    | some f =>
      match m.frames[f]? with
      | none => .error .attributeError
      | some t =>
        match applyOn num template t with
        | .error e => .error e
        | .ok t' => .ok { frames := m.frames ++ [t'], results := m.results.set r m.frames.length }
  | .write f c vs =>
    match m.frames[f]? with
    | none => .error .attributeError
    | some t => if vs.length = t.rows.length then .ok { m with frames := m.frames.set f (setColumn t c vs) }
                else .error .valueError

/-- A history: operations that raise leave memory as it was. -/
def run (num : Rat → X) (m : Mem X) : List (Op X) → Mem X
  | [] => m
  | o :: os =>
    match step num m o with
    | .error _ => run num m os
    | .ok m' => run num m' os

/-- batch.py:237-239 — what `get_dataframe()` returns: the DataFrame itself. -/
def getDataframe (m : Mem X) (r : Nat) : Option Nat := m.results[r]?

/-- The table a result shows. -/
def tableAt (m : Mem X) (r : Nat) : Option (Table X) := (m.results[r]?).bind fun f => m.frames[f]?

/-! ## Attribute access -/

/-- An instance of `BatchResult`: the entries of its `__dict__`; `_BatchResult__df` is the DataFrame (the mangled name of
`self.__df`). `A` are attribute values. -/
structure Instance (A : Type) where
  dict : List (String × A)
  /-- the attributes of a DataFrame -/
  frame : A → String → Option A

/-- batch.py:211-272 — the attributes that the class itself has (beside those of `object`, `onObject`). -/
def classAttrs : List String :=
  ["__init__", "__getattr__", "__getitem__", "__setitem__", "get_dataframe", "extract_from_filename", "__module__",
   "__doc__", "__dict__", "__weakref__"]

/-- What an attribute access gives. -/
inductive Found (A : Type) where
  | own (name : String)      -- attribute of the class
  | value (a : A)

/-- `getattr(result, attr)` with at most `fuel` nested Python calls (`RecursionError` beyond): the class, then the instance,
then `__getattr__` (batch.py:226-229), which looks for `attr` in `self.__dict__` and then asks `self.__df` — itself an
attribute access, by the name `_BatchResult__df`. `onObject` are the attributes of `object`. -/
def getattr {A : Type} (onObject : List String) (o : Instance A) : Nat → String → Except Err (Found A)
  | 0, _ => .error .recursion
  | fuel + 1, attr =>
    if attr ∈ classAttrs ∨ attr ∈ onObject then .ok (.own attr)
    else match o.dict.lookup attr with
      | some a => .ok (.value a)
      | none =>
        match getattr onObject o fuel "_BatchResult__df" with
        | .error e => .error e
        | .ok (.own _) => .error .attributeError
        | .ok (.value df) =>
          match o.frame df attr with
          | some a => .ok (.value a)
          | none => .error .attributeError

end Surfalize.ResultTable
