import Verif.Model.Cache

/-!
# Model of batch processing (surfalize/batch.py)

A batch holds a list of files and a list of registered steps. Executing it loads each file into a fresh `Surface`,
runs the steps on it and collects one dictionary per file; the dictionaries become a table that may be joined with
additional data by file name.

Surfaces are the cached objects of `Verif.Model.Cache`: `D` is the height data, methods are looked up in a class and
may hit or fill the per-object cache. Simplifications: loading is a function of the file (a buffer that is listed
twice and read to its end the first time is not modelled); the progress bar and the Excel output are not modelled; a
custom parameter function may read the surface and call its methods but does not change its heights, which is what
its documentation asks of it (batch.py:881-904).
-/
namespace Surfalize.Batch
open Surfalize.CacheM

/-- A cell of the result table: a file name (or other text), a number of type `X`, or NaN. -/
inductive Cell (X : Type) where
  | text (s : String)
  | num (x : X)
  | nan
  deriving DecidableEq, Repr

/-- What a surface method returns: one value, or a list-like of values (utils.py:43-57 `is_list_like`). -/
inductive Ret (X : Type) where
  | one (c : Cell X)
  | many (cs : List (Cell X))
  deriving DecidableEq, Repr

/-- A Python dict with string keys, in insertion order. -/
abbrev Row (X : Type) := List (String × Cell X)

/-- `d[k] = v`: an existing key keeps its place and gets the new value, a new key goes to the end. -/
def setKey {X : Type} (d : Row X) (k : String) (v : Cell X) : Row X :=
  if k ∈ d.map Prod.fst then d.map fun e => if e.1 = k then (k, v) else e else d ++ [(k, v)]

/-- `d.update(e)`. -/
def update {X : Type} (d e : Row X) : Row X := e.foldl (fun d kv => setKey d kv.1 kv.2) d

/-- batch.py:311-341 — `_Parameter`: the method call and the name of its column. -/
structure Param (A : Type) where
  call : Call A
  name : String

/-- The registered steps: `_Operation` (batch.py:275-308), `_CustomOperation` (batch.py:396-402), `_Parameter`
(batch.py:311-378), `_CustomParameter` (batch.py:381-393; `id` is `id(func)`). -/
inductive Step (D X A : Type) where
  | operation (c : Call A)
  | customOperation (p : Prog D (Ret X) A D)
  | parameter (p : Param A)
  | customParameter (id : Nat) (p : Prog D (Ret X) A (Row X))

/-- The `Surface` class as the batch sees it: its methods, its operations with `inplace=True`, the `return_labels`
attached by `batch_method` (base.py:72-73), the recursion limit, and how a file is loaded. -/
structure Env (F D X A : Type) where
  cls : Cls D (Ret X) A
  ops : Call A → Prog D (Ret X) A D
  labels : String → Option (List String)
  fuel : Nat
  load : F → Except Err D
  name : F → String

variable {F D X A : Type}

/-- exceptions.py:22-32 — `CalculationError` and its subclass `FittingError`. -/
def isCalculation : Err → Bool
  | .calculation => true
  | .fitting => true
  | _ => false

/-- batch.py:377 — `{f'{self.name}_{label}': value for value, label in zip(result, labels)}`. -/
def labelled (name : String) (labels : List String) (values : List (Cell X)) : Row X :=
  update [] ((labels.zip values).map fun lv => (name ++ "_" ++ lv.1, lv.2))

/-- batch.py:360-378 — what `_Parameter.calculate_from` makes of the outcome of the method call. -/
def paramColumns (E : Env F D X A) (p : Param A) (ignore : Bool) : Except Err (Ret X) → Except Err (Row X)
  | .error e =>
    if isCalculation e && ignore then
      match E.labels p.call.name with
      | some ls => .ok (labelled p.name ls (ls.map fun _ => .nan))     -- 366-367, 370-377
      | none => .ok [(p.name, .nan)]                                   -- 368-369, 378
    else .error e                                                      -- 364-365, or not caught
  | .ok (.one c) => .ok [(p.name, c)]
  | .ok (.many cs) =>
    match E.labels p.call.name with
    | none => .error .batch                                            -- 373-374
    | some ls => if cs.length ≠ ls.length then .error .batch else .ok (labelled p.name ls cs)   -- 375-377

/-- batch.py:387-393 — `_CustomParameter.calculate_from`: an ignored `CalculationError` leaves `result` unbound. -/
def customColumns (ignore : Bool) : Except Err (Row X) → Except Err (Row X)
  | .error e => if isCalculation e && ignore then .error .unboundLocal else .error e
  | .ok r => .ok r

/-- One step of a task on the surface and the row collected so far (batch.py:435-448). -/
def execStep (E : Env F D X A) (ignore : Bool) (s : Step D X A) (o : Obj D (Ret X)) (row : Row X) :
    Except Err (Obj D (Ret X) × Row X) :=
  match s with
  | .operation c =>
    match runProg (invoke E.cls E.fuel) (E.ops c) o.data o.cache with
    | (.ok d, _) => .ok ({ data := d, cache := [] }, row)
    | (.error e, _) => .error e
  | .customOperation p =>
    match runProg (invoke E.cls E.fuel) p o.data o.cache with
    | (.ok d, _) => .ok ({ data := d, cache := [] }, row)
    | (.error e, _) => .error e
  | .parameter p =>
    match invoke E.cls E.fuel p.call o.data o.cache with
    | (r, c) =>
      match paramColumns E p ignore r with
      | .ok cols => .ok ({ o with cache := c }, update row cols)
      | .error e => .error e
  | .customParameter _ p =>
    match runProg (invoke E.cls E.fuel) p o.data o.cache with
    | (r, c) =>
      match customColumns ignore r with
      | .ok cols => .ok ({ o with cache := c }, update row cols)
      | .error e => .error e

/-- Steps one after the other. -/
def execSteps (E : Env F D X A) (ignore : Bool) : List (Step D X A) → Obj D (Ret X) → Row X → Except Err (Row X)
  | [], _, row => .ok row
  | s :: ss, o, row =>
    match execStep E ignore s o row with
    | .ok (o', row') => execSteps E ignore ss o' row'
    | .error e => .error e

/-- `isinstance(step, (_Operation, _CustomOperation))`. -/
def Step.isOp : Step D X A → Bool
  | .operation _ => true
  | .customOperation _ => true
  | _ => false

/-- The order in which a task executes the steps (batch.py:434-448). -/
def orderSteps (preserve : Bool) (steps : List (Step D X A)) : List (Step D X A) :=
  if preserve then steps else steps.filter (·.isOp) ++ steps.filter (!·.isOp)

/-- batch.py:405-449 — `_task`. -/
def task (E : Env F D X A) (steps : List (Step D X A)) (ignore preserve : Bool) (f : F) : Except Err (Row X) :=
  match E.load f with
  | .error e => .error e
  | .ok d => execSteps E ignore (orderSteps preserve steps) (fresh d) [("file", .text (E.name f))]

/-- batch.py:717-723 — sequential execution. -/
def dispatchSequential (E : Env F D X A) (steps : List (Step D X A)) (ignore preserve : Bool) (files : List F) :
    Except Err (List (Row X)) :=
  files.mapM (task E steps ignore preserve)

/-! ## The thread pool (batch.py:703-715)

Each file is one work item of `pool.imap_unordered`. A worker advances its item one step at a time; which worker
advances next is decided by an arbitrary schedule. When an item is finished its outcome is put on the result queue,
from which the main thread reads in arrival order, raising the first exception it meets. -/

/-- Where a work item is. -/
inductive Item (F D X A : Type) where
  | waiting (f : F)
  | running (o : Obj D (Ret X)) (row : Row X) (todo : List (Step D X A))
  | finished

/-- One scheduling quantum of a work item, and the outcome if that finishes it. -/
def Item.tick (E : Env F D X A) (steps : List (Step D X A)) (ignore preserve : Bool) :
    Item F D X A → Item F D X A × Option (Except Err (Row X))
  | .waiting f =>
    match E.load f with
    | .error e => (.finished, some (.error e))
    | .ok d => (.running (fresh d) [("file", .text (E.name f))] (orderSteps preserve steps), none)
  | .running _ row [] => (.finished, some (.ok row))
  | .running o row (s :: ss) =>
    match execStep E ignore s o row with
    | .error e => (.finished, some (.error e))
    | .ok (o', row') => (.running o' row' ss, none)
  | .finished => (.finished, none)

/-- The pool: the work items in file order and the result queue in arrival order. -/
structure Pool (F D X A : Type) where
  items : List (Item F D X A)
  queue : List (Except Err (Row X))

/-- The pool at the start. -/
def Pool.start (files : List F) : Pool F D X A := { items := files.map .waiting, queue := [] }

/-- The scheduler lets work item `i` advance. -/
def Pool.advance (E : Env F D X A) (steps : List (Step D X A)) (ignore preserve : Bool) (P : Pool F D X A) (i : Nat) :
    Pool F D X A :=
  match P.items[i]? with
  | none => P
  | some it =>
    match it.tick E steps ignore preserve with
    | (it', out) => { items := P.items.set i it', queue := P.queue ++ out.toList }

/-- A schedule: the work items in the order in which they are given a quantum. -/
def Pool.run (E : Env F D X A) (steps : List (Step D X A)) (ignore preserve : Bool) (P : Pool F D X A)
    (sched : List Nat) : Pool F D X A :=
  sched.foldl (Pool.advance E steps ignore preserve) P

/-- All items are finished. -/
def Pool.done (P : Pool F D X A) : Prop := ∀ it ∈ P.items, it = .finished

/-- batch.py:708-712 — the main thread reads the queue until it meets an exception. -/
def collect (queue : List (Except Err (Row X))) : Except Err (List (Row X)) := queue.mapM id

/-! ## Registration (batch.py:538-549, 746-764, 847-951) -/

/-- Names a parameter is registered under: a string, or `id(func)`. -/
inductive PName where
  | str (s : String)
  | id (n : Nat)
  deriving DecidableEq, Repr

/-- The name of a parameter step; operations have none. -/
def Step.pname : Step D X A → Option PName
  | .parameter p => some (.str p.name)
  | .customParameter i _ => some (.id i)
  | _ => none

/-- batch.py:746-764 — `_add_step`. The message of the error names `step.identifier`, which a `_CustomParameter`
does not have: for it the attempt raises `AttributeError`. -/
def addStep (steps : List (Step D X A)) (s : Step D X A) : Except Err (List (Step D X A)) :=
  match s.pname with
  | none => .ok (steps ++ [s])
  | some n =>
    if n ∈ steps.filterMap Step.pname then
      (match s with
      | .customParameter _ _ => .error .attributeError
      | _ => .error .batch)
    else .ok (steps ++ [s])

/-- `kwargs[k] = v`. -/
def setKw (kw : List (String × A)) (k : String) (v : A) : List (String × A) :=
  if k ∈ kw.map Prod.fst then kw.map fun e => if e.1 = k then (k, v) else e else kw ++ [(k, v)]

/-- What `batch_method` attaches to a `Surface` method (base.py:41-88). -/
structure MethodInfo (A : Type) where
  isOperation : Bool
  fixed : List (String × A)

/-- batch.py:538-549 — the step a call `batch.name(*args, custom_name=..., **kwargs)` registers. The keyword
`custom_name` is given separately here; for an operation it is an ordinary keyword (passed as `customKw`). -/
def methodStep (info : MethodInfo A) (name : String) (args : List A) (kwargs : List (String × A))
    (customName : Option String) (customKw : String → A) : Step D X A :=
  let kw := info.fixed.foldl (fun kw p => setKw kw p.1 p.2) kwargs
  if info.isOperation then
    .operation { name := name, args := args,
                 kwargs := match customName with
                   | none => kw
                   | some c => setKw kw "custom_name" (customKw c) }
  else .parameter { call := { name := name, args := args, kwargs := kw }, name := customName.getD name }

/-- A registration attempt; on an exception the steps stay as they are. -/
def attempt (steps : List (Step D X A)) (s : Step D X A) : List (Step D X A) :=
  match addStep steps s with
  | .ok l => l
  | .error _ => steps

/-- batch.py:906-951 — `roughness_parameters`: registers one parameter after the other and stops at the first
exception; the second component is the exception. -/
def addAll : List (Step D X A) → List (Step D X A) → List (Step D X A) × Option Err
  | steps, [] => (steps, none)
  | steps, s :: ss =>
    match addStep steps s with
    | .ok l => addAll l ss
    | .error e => (steps, some e)

/-! ## The table (batch.py:725-744) -/

/-- `pd.DataFrame(results)`: the columns are the keys in order of first appearance, missing cells are NaN. -/
def columns (rows : List (Row X)) : List String := (rows.flatMap fun r => r.map Prod.fst).eraseDups

/-- A cell of the table. -/
def cellOf (r : Row X) (c : String) : Cell X := (r.lookup c).getD .nan

/-- A table: column names and rows. -/
structure Table (X : Type) where
  cols : List String
  rows : List (List (Cell X))
  deriving DecidableEq

/-- `pd.DataFrame(results)`. -/
def tableOf (rows : List (Row X)) : Table X :=
  { cols := columns rows, rows := rows.map fun r => (columns rows).map (cellOf r) }

/-- The cell of a row under a column name. -/
def Table.cell (t : Table X) (r : List (Cell X)) (c : String) : Cell X := ((t.cols.zip r).lookup c).getD .nan

/-- Column names of `pd.merge(a, b, on='file')`: 'file' and the other columns of `a`, then those of `b`; names that
occur on both sides get the suffixes `_x` and `_y`. -/
def mergeCols (a b : List String) : List String :=
  (a.map fun c => if c ≠ "file" ∧ c ∈ b then c ++ "_x" else c) ++
  ((b.filter (· ≠ "file")).map fun c => if c ∈ a then c ++ "_y" else c)

/-- `pd.merge(a, b, on='file')` (inner join): `KeyError` if one side has no column 'file'. -/
def merge [DecidableEq X] (a b : Table X) : Except Err (Table X) :=
  if "file" ∉ a.cols ∨ "file" ∉ b.cols then .error .keyError
  else .ok
    { cols := mergeCols a.cols b.cols,
      rows := a.rows.flatMap fun ra =>
        (b.rows.filter fun rb => decide (a.cell ra "file" = b.cell rb "file")).map fun rb =>
          ra ++ ((b.cols.zip rb).filter fun e => decide (e.1 ≠ "file")).map Prod.snd }

/-- batch.py:738-740 — `_construct_dataframe` up to the filename extraction. -/
def constructTable [DecidableEq X] (additional : Option (Table X)) (results : List (Row X)) : Except Err (Table X) :=
  match additional with
  | none => .ok (tableOf results)
  | some a => merge a (tableOf results)

/-- batch.py:803-809 — `execute` (sequential or pooled dispatch is `results`), without the filename pattern. -/
def execute [DecidableEq X] (steps : List (Step D X A)) (additional : Option (Table X))
    (results : Except Err (List (Row X))) : Except Err (Table X) :=
  if steps.isEmpty then .error .batch
  else match results with
    | .error e => .error e
    | .ok rs => constructTable additional rs

end Surfalize.Batch
