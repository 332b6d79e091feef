import Verif.Model.Geometry
import Verif.Model.BaseOps
import Mathlib.Data.Rat.Floor

/-!
# Model of memory shared between objects
(surfalize/surface.py:110-145, 170-200, 260-271, 509-522, 679-720; surfalize/base.py:128-134; surfalize/cache.py:23-37)

`Surface.__init__` keeps the array it is given (surface.py:141), numpy slicing returns a view of the same
memory, and the `data` property returns a read-only view (surface.py:130-138). A view is a buffer, the index
of the buffer cell behind each pixel, and the `writeable` flag.
-/
namespace Surfalize.Heap
open Surfalize Container Geometry

variable {K V : Type}

/-- A numpy array object: which buffer, which cell for each pixel, and `flags.writeable`. -/
structure View where
  buf : Nat
  idx : Grid Nat
  writable : Bool
  deriving DecidableEq

/-- A surface: its array and the cached value of one parameter. -/
structure HObj (V : Type) where
  view : View
  cache : Option V

/-- All buffers and all surfaces. -/
structure World (K V : Type) where
  bufs : List (List (Option K))
  objs : List (HObj V)

/-- The heights seen through a view. -/
def readView (bufs : List (List (Option K))) (v : View) : Grid (Option K) :=
  map (fun k => (((bufs[v.buf]?).getD [])[k]?).getD none) v.idx

/-- The heights of surface number `o`. -/
def World.heights (w : World K V) (o : Nat) : Option (Grid (Option K)) :=
  (w.objs[o]?).map fun x => readView w.bufs x.view

/-- The index grid of a freshly allocated array with the shape of `g`: cells in row-major order. -/
def freshIdx {α : Type} (g : Grid α) : Grid Nat := { rows := number 0 g.rows, nx := g.nx }
where
  /-- consecutive numbering of the cells -/
  number : Nat → List (List α) → List (List Nat)
    | _, [] => []
    | n, r :: rs => (List.range' n r.length) :: number (n + r.length) rs

/-- User-level steps. The result of every step that produces a surface is its number (`HOut.surf`). -/
inductive HOp (K : Type) where
  /-- `Surface(np.array(...), ...)` -/
  | construct (g : Grid (Option K))
  /-- `Surface(s.data, ...)`: a new surface on the read-only view (surface.py:130-138) -/
  | wrap (o : Nat)
  /-- `s.data = np.array(...)` (surface.py:140-145) -/
  | assign (o : Nat) (g : Grid (Option K))
  /-- `s.data = t.data` -/
  | assignFrom (o t : Nat)
  /-- `s[item]` (surface.py:260-271): a new surface on `self._data[item]` -/
  | getitem (o : Nat) (i : Index)
  /-- `s.crop(box, in_units=False, inplace=...)` (surface.py:711-720): a slice of the read-only `self.data` -/
  | crop (o : Nat) (x0 x1 y0 y1 : Int) (inplace : Bool)
  /-- `s.zoom(factor, inplace=...)` (surface.py:680-686): a slice of the read-only `self.data` -/
  | zoom (o : Nat) (factor : Rat) (inplace : Bool)
  /-- an operation computing a new array (`center`, `level`, `filter`, `rotate`, ...), in place or not -/
  | apply (o : Nat) (f : Grid (Option K) → Grid (Option K)) (inplace : Bool)
  /-- `s.fill_nonmeasured(inplace=...)` (surface.py:509-522): returns `self` if nothing is missing -/
  | fill (o : Nat) (f : Grid (Option K) → Grid (Option K)) (inplace : Bool)
  /-- `s[item] = z` with a number `z` (base.py:128-134) -/
  | setitem (o : Nat) (item : Index) (z : Option K)
  /-- `s.parameter()` -/
  | read (o : Nat)

/-- What the user sees. -/
inductive HOut (V : Type) where
  | value (v : V)
  /-- the surface with this number is returned -/
  | surf (o : Nat)
  | done
  | exn (e : Err)
  deriving DecidableEq

/-- Allocation of a new array holding `g`. -/
def alloc (w : World K V) (g : Grid (Option K)) : World K V × View :=
  ({ w with bufs := w.bufs ++ [flat g] }, { buf := w.bufs.length, idx := freshIdx g, writable := true })

/-- `return Surface(array, ...)` (surface.py:110-123, 199-200): a new surface on the given array. -/
def addNew (w : World K V) (v : View) : World K V × HOut V :=
  ({ w with objs := w.objs ++ [{ view := v, cache := none }] }, .surf w.objs.length)

/-- `if inplace: self._set_data(data=array); return self`, otherwise `return Surface(array, ...)`
(surface.py:140-145, 170-200, 717-720). Setting the data clears the cache. -/
def place (w : World K V) (o : Nat) (v : View) (inplace : Bool) : World K V × HOut V :=
  if inplace then ({ w with objs := w.objs.set o { view := v, cache := none } }, .surf o) else addNew w v

/-- The elements of a sequence that one component of an index expression selects (numpy basic indexing): an
integer counts from the end if negative and must be in range; a slice step must not be 0. -/
def pick {α : Type} (l : List α) : Item → Except Err (List α)
  | .idx i =>
    if 0 ≤ i then match l[i.toNat]? with
      | some a => .ok [a]
      | none => .error .indexError
    else if -i ≤ (l.length : Int) then match l[(i + l.length).toNat]? with
      | some a => .ok [a]
      | none => .error .indexError
    else .error .indexError
  | .sl s => match s.apply l with
    | some r => .ok r
    | none => .error .valueError

/-- The array cells addressed by `data[item]` in an assignment (numpy basic indexing). -/
def select (idx : Grid Nat) : Index → Except Err (List Nat)
  | .one iy => match pick idx.rows iy with
    | .ok rows => .ok rows.flatten
    | .error e => .error e
  | .two iy ix => match pick idx.rows iy with
    | .ok rows => match pick (List.range idx.nx) ix with
      | .ok cols => .ok (rows.flatMap fun r => cols.filterMap fun j => r[j]?)
      | .error e => .error e
    | .error e => .error e

/-- One step; `P` is the parameter evaluated by `read`. A step naming a surface that does not exist is reported as
IndexError and does nothing. -/
def step (P : Grid (Option K) → V) (w : World K V) : HOp K → World K V × HOut V
  | .construct g => addNew (alloc w g).1 (alloc w g).2
  | .wrap o =>
    match w.objs[o]? with
    | none => (w, .exn .indexError)
    | some x => addNew w { x.view with writable := false }
  | .assign o g =>
    match w.objs[o]? with
    | none => (w, .exn .indexError)
    | some _ => place (alloc w g).1 o (alloc w g).2 true
  | .assignFrom o t =>
    match w.objs[o]?, w.objs[t]? with
    | some _, some y => place w o { y.view with writable := false } true
    | _, _ => (w, .exn .indexError)
  | .getitem o i =>
    match w.objs[o]? with
    | none => (w, .exn .indexError)
    | some x =>
      match Geometry.getitem (K := Rat) x.view.idx 1 1 i with
      | .error e => (w, .exn e)
      | .ok r => addNew w { x.view with idx := r.1 }
  | .crop o x0 x1 y0 y1 inplace =>
    match w.objs[o]? with
    | none => (w, .exn .indexError)
    | some x =>
      match cropPx x.view.idx x0 x1 y0 y1 with
      | .error e => (w, .exn e)
      | .ok idx => place w o { x.view with idx := idx, writable := false } inplace
  | .zoom o factor inplace =>
    match w.objs[o]? with
    | none => (w, .exn .indexError)
    | some x =>
      match Geometry.zoom x.view.idx factor with
      | .error e => (w, .exn e)
      | .ok idx => place w o { x.view with idx := idx, writable := false } inplace
  | .apply o f inplace =>
    match w.objs[o]? with
    | none => (w, .exn .indexError)
    | some x =>
      place (alloc w (f (readView w.bufs x.view))).1 o (alloc w (f (readView w.bufs x.view))).2 inplace
  | .fill o f inplace =>
    match w.objs[o]? with
    | none => (w, .exn .indexError)
    | some x =>
      if (flat (readView w.bufs x.view)).any Option.isNone then
        place (alloc w (f (readView w.bufs x.view))).1 o (alloc w (f (readView w.bufs x.view))).2 inplace
      else (w, .surf o)
  | .setitem o item z =>
    match w.objs[o]? with
    | none => (w, .exn .indexError)
    | some x =>
      if x.view.writable then
        match select x.view.idx item with
        | .error e => (w, .exn e)
        | .ok cells =>
          ({ bufs := w.bufs.modify x.view.buf fun b => cells.foldl (fun b k => b.set k z) b
             objs := w.objs.set o { x with cache := none } }, .done)
      else (w, .exn .readOnly)
  | .read o =>
    match w.objs[o]? with
    | none => (w, .exn .indexError)
    | some x =>
      match x.cache with
      | some v => (w, .value v)
      | none =>
        let v := P (readView w.bufs x.view)
        ({ w with objs := w.objs.set o { x with cache := some v } }, .value v)

/-- A history. -/
def run (P : Grid (Option K) → V) : World K V → List (HOp K) → World K V
  | w, [] => w
  | w, op :: ops => run P (step P w op).1 ops

/-! ## Returned mutable results (dictionaries, surfaces) and step sizes -/

/-- One surface and the mutable objects its methods have returned. `height_parameters()` returns the very
dictionary stored in the cache (surface.py:868-892, cache.py:28-37); `Sa()` etc. (surface.py:894-971) look their
value up in it and are not cached themselves; other parameters such as `Sdq` (surface.py:1026-1040) are cached
numbers computed from heights and steps. `step` stands for `step_x`, a plain attribute (surface.py:118). -/
structure Cell (D K V : Type) where
  data : D
  step : K
  store : List (String → V)
  dictRef : Option Nat
  scalar : Option V

/-- User-level steps. -/
inductive COp (D K V : Type) where
  /-- `s.height_parameters()` -/
  | callDict
  /-- `s.Sa()`, `s.Sq()`, ... -/
  | callGetter (k : String)
  /-- `s.Sdq()` -/
  | callScalar
  /-- `d[k] = v` on the dictionary number `ref` returned earlier -/
  | mutate (ref : Nat) (k : String) (v : V)
  /-- `s.data = d` -/
  | assign (d : D)
  /-- `s.step_x = x` -/
  | setStep (x : K)

/-- Result: a reference to a dictionary or a number. -/
inductive COut (V : Type) where
  | ref (r : Nat)
  | value (v : V)
  | done
  deriving DecidableEq

/-- The parameters: the height parameter dictionary and a step-dependent number. -/
structure Params (D K V : Type) where
  dict : D → String → V
  num : D → K → V

variable {D : Type}

/-- Evaluates (or finds in the cache) the dictionary. -/
def getDict (P : Params D K V) (s : Cell D K V) : Cell D K V × Nat :=
  match s.dictRef with
  | some r => (s, r)
  | none => ({ s with store := s.store ++ [P.dict s.data], dictRef := some s.store.length }, s.store.length)

/-- One step. -/
def cstep (P : Params D K V) (s : Cell D K V) : COp D K V → Cell D K V × COut V
  | .callDict => ((getDict P s).1, .ref (getDict P s).2)
  | .callGetter k =>
    ((getDict P s).1, .value ((((getDict P s).1.store[(getDict P s).2]?).getD (P.dict s.data)) k))
  | .callScalar =>
    match s.scalar with
    | some v => (s, .value v)
    | none => ({ s with scalar := some (P.num s.data s.step) }, .value (P.num s.data s.step))
  | .mutate r k v => ({ s with store := s.store.modify r fun f x => if x = k then v else f x }, .done)
  | .assign d => ({ s with data := d, dictRef := none, scalar := none }, .done)
  | .setStep x => ({ s with step := x }, .done)

/-- A history. -/
def crun (P : Params D K V) : Cell D K V → List (COp D K V) → Cell D K V
  | s, [] => s
  | s, op :: ops => crun P (cstep P s op).1 ops

/-- A new surface. -/
def cfresh (d : D) (step : K) : Cell D K V := { data := d, step := step, store := [], dictRef := none, scalar := none }

end Surfalize.Heap
