import Verif.Prelude.Py
import Verif.Prelude.Num
import Verif.Prelude.GridFn
import Verif.Prelude.Err
/-!
# Selecting and assigning heights with arbitrary keys (surfalize/surface.py:260-271, surfalize/base.py:128-134)

numpy's indexing of a two-dimensional array (`ndarray.__getitem__`, `ndarray.__setitem__`; numpy reference, "Indexing on ndarrays")
with integers, slices, `...`, lists or one-dimensional arrays of integers, and masks. Simplifications: `None` (new axes), index arrays of
more than one dimension and Booleans as indices are left out; which of several errors of one key is raised first is not
modelled (the kinds are).
-/
namespace Surfalize.Indexing
open Surfalize

/-- One component of a key. -/
inductive Item where
  | int (i : Int)
  | slice (s : PySlice)
  | ellipsis
  | ints (l : List Int)
  | mask (l : List Bool)
  | mask2 (m : Grid Bool)

/-- What stands between the brackets of `s[…]`: one component or a tuple. -/
inductive Key where
  | one (i : Item)
  | tuple (l : List Item)

/-- The components numpy sees: `a[x]` is `a[(x,)]`. -/
def Key.items : Key → List Item
  | .one i => [i]
  | .tuple l => l

/-- What a component selects along one axis: one position (the axis is dropped), or some positions, by a slice or by an array. -/
inductive Axis where
  | fixed (i : Nat)
  | range (l : List Nat)
  | array (l : List Nat)

/-- What a key selects: a point, a one-dimensional array of points (`true`: by a mask alone) or rows and columns. -/
inductive Sel where
  | point (p : Nat × Nat)
  | line (mask : Bool) (ps : List (Nat × Nat))
  | block (rows cols : List Nat)
  deriving DecidableEq

/-- A slice without bounds. -/
def full : Item := .slice ⟨none, none, none⟩

/-- The number of axes a component takes. -/
def Item.width : Item → Nat
  | .ellipsis => 0
  | .mask2 _ => 2
  | _ => 1

/-- `x is ...`. -/
def Item.isEllipsis : Item → Bool
  | .ellipsis => true
  | _ => false

/-- numpy's `prepare_index`: too many components and more than one `...` are IndexErrors; what is missing is completed by whole axes, in
place of `...` or at the end. -/
def expand (l : List Item) : Except Err (List Item) :=
  if 2 < (l.map Item.width).sum then .error .indexError
  else if 1 < l.countP Item.isEllipsis then .error .indexError
  else if l.any Item.isEllipsis then
    .ok (l.flatMap fun i => if i.isEllipsis then List.replicate (2 - (l.map Item.width).sum) full else [i])
  else .ok (l ++ List.replicate (2 - (l.map Item.width).sum) full)

/-- An index into an axis of length `n`; negative ones count from the end. -/
def position (n : Nat) (i : Int) : Except Err Nat :=
  if 0 ≤ i then (if i < n then .ok i.toNat else .error .indexError)
  else if -n ≤ i then .ok (i + n).toNat else .error .indexError

/-- The positions of `true`. -/
def trues (l : List Bool) : List Nat := (List.range l.length).filter fun i => l[i]? = some true

/-- One component along an axis of length `n`. -/
def resolve (n : Nat) : Item → Except Err Axis
  | .int i => (position n i).map .fixed
  | .slice s => match s.apply (List.range n) with
    | some l => .ok (.range l)
    | none => .error .valueError
  | .ints l => (l.mapM (position n)).map .array
  | .mask l => if l.length = n then .ok (.array (trues l)) else .error .indexError
  | .ellipsis => .error .indexError
  | .mask2 _ => .error .indexError

/-- Two index arrays are taken together point by point; one of length 1 is repeated. -/
def together (r c : List Nat) : Except Err (List (Nat × Nat)) :=
  if r.length = c.length then .ok (r.zip c)
  else match r, c with
    | [i], c => .ok (c.map fun j => (i, j))
    | r, [j] => .ok (r.map fun i => (i, j))
    | _, _ => .error .indexError

/-- The points where a mask is `true`, row by row. -/
def maskPoints (m : Grid Bool) : List (Nat × Nat) :=
  (pixels m.ny m.nx).filter fun p => ((m.rows[p.1]?).bind fun r => r[p.2]?) = some true

/-- What a key selects from an array of shape `(ny, nx)`. -/
def select (ny nx : Nat) (l : List Item) : Except Err Sel :=
  match expand l with
  | .error e => .error e
  | .ok [.mask2 m] => if m.ny = ny ∧ m.nx = nx then .ok (.line (l.length = 1) (maskPoints m)) else .error .indexError
  | .ok [a, b] =>
    match resolve ny a, resolve nx b with
    | .error e, _ => .error e
    | _, .error e => .error e
    | .ok (.fixed i), .ok (.fixed j) => .ok (.point (i, j))
    | .ok (.fixed i), .ok (.range c) => .ok (.line false (c.map fun j => (i, j)))
    | .ok (.fixed i), .ok (.array c) => .ok (.line false (c.map fun j => (i, j)))
    | .ok (.range r), .ok (.fixed j) => .ok (.line false (r.map fun i => (i, j)))
    | .ok (.array r), .ok (.fixed j) => .ok (.line false (r.map fun i => (i, j)))
    | .ok (.array r), .ok (.array c) => (together r c).map (.line false)
    | .ok (.range r), .ok (.range c) => .ok (.block r c)
    | .ok (.range r), .ok (.array c) => .ok (.block r c)
    | .ok (.array r), .ok (.range c) => .ok (.block r c)
  | .ok _ => .error .indexError

section Select
variable {α K : Type} [Ring K]

/-- surface.py:263-270: only slices with a step change the step size. -/
def newStep (step : K) : Item → K
  | .slice ⟨_, _, some k⟩ => (k : K) * step
  | _ => step

/-- surface.py:261-270: `(step_y, step_x)`. `item[0]` and `item[1]` of a tuple with fewer components raise IndexError. -/
def steps (stepY stepX : K) : Key → Except Err (K × K)
  | .one i => .ok (newStep stepY i, stepX)
  | .tuple (a :: b :: _) => .ok (newStep stepY a, newStep stepX b)
  | .tuple _ => .error .indexError

/-- surface.py:260-271 `Surface.__getitem__`: data, `step_y`, `step_x` of the new surface. A selection of fewer than two dimensions has no
`shape[1]` (surface.py:143, IndexError). -/
def getitem (g : Grid α) (stepY stepX : K) (k : Key) : Except Err (Grid α × K × K) :=
  match steps stepY stepX k with
  | .error e => .error e
  | .ok (ty, tx) =>
    match select g.ny g.nx k.items with
    | .error e => .error e
    | .ok (.block r c) => .ok ({ rows := r.map fun i => c.filterMap fun j => (g.rows[i]?).bind fun x => x[j]?, nx := c.length }, ty, tx)
    | .ok _ => .error .indexError

end Select

section Assign
variable {α K V : Type}

/-- What is assigned: a number, a one-dimensional or a two-dimensional array. -/
inductive Value (α : Type) where
  | scalar (z : α)
  | vec (l : List α)
  | mat (m : Grid α)

/-- numpy broadcasting of a one-dimensional array to length `n`; ValueError if it does not fit. -/
def spread (n : Nat) (l : List α) : Except Err (List α) :=
  if l.length = n then .ok l
  else match l with
    | [z] => .ok (List.replicate n z)
    | _ => .error .valueError

/-- The assigned values of a one-dimensional selection of `n` points. A two-dimensional array must have one row, and is refused by a mask
alone (numpy: "boolean array indexing assignment requires a 0 or 1-dimensional input"). -/
def spreadLine (mask : Bool) (n : Nat) : Value α → Except Err (List α)
  | .scalar z => .ok (List.replicate n z)
  | .vec l => spread n l
  | .mat m => match mask, m.rows with
    | false, [r] => spread n r
    | _, _ => .error .valueError

/-- The assigned values of `p` rows and `q` columns, row by row. -/
def spreadBlock (p q : Nat) : Value α → Except Err (List α)
  | .scalar z => .ok (List.replicate (p * q) z)
  | .vec l => match spread q l with
    | .ok r => .ok (List.replicate p r).flatten
    | .error e => .error e
  | .mat m =>
    if m.nx = q ∨ m.nx = 1 then
      match spread p m.rows with
      | .ok rows => match rows.mapM (spread q) with
        | .ok rows => .ok rows.flatten
        | .error e => .error e
      | .error e => .error e
    else .error .valueError

/-- The points a selection addresses, in the order in which they are assigned to. -/
def Sel.points : Sel → List (Nat × Nat)
  | .point p => [p]
  | .line _ ps => ps
  | .block r c => r.flatMap fun i => c.map fun j => (i, j)

/-- The values for these points. A single point takes an array with one value. -/
def values : Sel → Value α → Except Err (List α)
  | .point _, .scalar z => .ok [z]
  | .point _, .vec l => match l with
    | [z] => .ok [z]
    | _ => .error .valueError
  | .point _, .mat m => match m.rows with
    | [[z]] => .ok [z]
    | _ => .error .valueError
  | .line mask ps, v => spreadLine mask ps.length v
  | .block r c, v => spreadBlock r.length c.length v

/-- `data[p] = z`. -/
def put (g : Grid α) (p : Nat × Nat) (z : α) : Grid α := { g with rows := g.rows.modify p.1 fun r => r.set p.2 z }

/-- A surface: heights, whether the array is writable, step sizes, and the cached parameters, if any. -/
structure Obj (α K V : Type) where
  data : Grid α
  writable : Bool
  stepY : K
  stepX : K
  cache : Option V

/-- base.py:128-134 `surface[key] = value`: numpy assigns (or raises and assigns nothing), then the cache is cleared. -/
def setitem (o : Obj α K V) (k : Key) (v : Value α) : Except Err Unit × Obj α K V :=
  if o.writable = false then (.error .readOnly, o)
  else match select o.data.ny o.data.nx k.items with
    | .error e => (.error e, o)
    | .ok s => match values s v with
      | .error e => (.error e, o)
      | .ok l => (.ok (), { o with data := (s.points.zip l).foldl (fun g w => put g w.1 w.2) o.data, cache := none })

/-- A cached parameter (surfalize/cache.py): computed from the heights and kept. -/
def read (P : Grid α → V) (o : Obj α K V) : V × Obj α K V :=
  match o.cache with
  | some v => (v, o)
  | none => (P o.data, { o with cache := some (P o.data) })

end Assign
end Surfalize.Indexing
