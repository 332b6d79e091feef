import Verif.Model.Heap
import Verif.Spec.Geometry

/-!
# Specification vocabulary for editing heights item by item

A user's bookkeeping of a history: for every surface the family of surfaces whose arrays are slices of one
common array, whether its array may be written, whether a parameter value is remembered, and whether a relative
was edited since. It looks only at the operations performed and whether they raised; it knows nothing of buffers,
views or caches.
-/
namespace Surfalize.EditSpec
open Surfalize Geometry Heap Spec

variable {K V : Type}

/-- What the user notes down about one surface. -/
structure Mark where
  family : Nat
  editable : Bool
  /-- a parameter has been read since the surface was made, replaced or edited through itself -/
  held : Bool
  /-- and a relative has been edited since that reading -/
  stale : Bool
  deriving DecidableEq

/-- The bookkeeping; `fresh` is the next unused family. -/
structure Ledger where
  marks : List Mark
  fresh : Nat
  deriving DecidableEq

/-- the surface made or replaced -/
def Ledger.put (l : Ledger) (dest : Option Nat) (m : Mark) : Ledger :=
  match dest with
  | none => { l with marks := l.marks ++ [m] }
  | some o => { l with marks := l.marks.set o m }

/-- an array nobody else holds -/
def Ledger.own (l : Ledger) (dest : Option Nat) : Ledger :=
  { l.put dest ⟨l.fresh, true, false, false⟩ with fresh := l.fresh + 1 }

/-- a part of the array of `src` -/
def Ledger.share (l : Ledger) (src : Nat) (readOnly : Bool) (dest : Option Nat) : Ledger :=
  match l.marks[src]? with
  | none => l
  | some m => l.put dest ⟨m.family, m.editable && !readOnly, false, false⟩

/-- where the result goes -/
def destOf (o : Nat) (inplace : Bool) : Option Nat := if inplace then some o else none

/-- The bookkeeping after one operation that did not raise; `missing` tells whether the surface operated on had
missing points. -/
def Ledger.next (l : Ledger) (missing : Bool) : HOp K → Ledger
  | .construct _ => l.own none
  | .wrap o => l.share o true none
  | .assign o _ => l.own (some o)
  | .assignFrom o t => l.share t true (some o)
  | .getitem o _ => l.share o false none
  | .crop o _ _ _ _ inplace => l.share o true (destOf o inplace)
  | .zoom o _ inplace => l.share o true (destOf o inplace)
  | .apply o _ inplace => l.own (destOf o inplace)
  | .fill o _ inplace => if missing then l.own (destOf o inplace) else l
  | .setitem o _ _ =>
    match l.marks[o]? with
    | none => l
    | some m => { l with marks := l.marks.mapIdx fun k x =>
        if k = o then { x with held := false, stale := false }
        else if x.family = m.family ∧ x.held then { x with stale := true } else x }
  | .read o => { l with marks := l.marks.modify o fun x => { x with held := true } }

/-- the surface an operation is applied to has missing points -/
def hasMissing (w : World K V) : HOp K → Bool
  | .fill o _ _ => match w.heights o with
    | some g => (Container.flat g).any Option.isNone
    | none => false
  | _ => false

/-- the operation raised -/
def HOut.raised : HOut V → Bool
  | .exn _ => true
  | _ => false

/-- The bookkeeping of a history. -/
def record (P : Grid (Option K) → V) : World K V → Ledger → List (HOp K) → Ledger
  | _, l, [] => l
  | w, l, op :: ops =>
    record P (step P w op).1 (bif HOut.raised (step P w op).2 then l else l.next (hasMissing w op) op) ops

/-! ## Index expressions -/

/-- the index expression is acceptable for a sequence of length `n` -/
def ValidItem (n : Nat) : Item → Prop
  | .idx i => -(n : Int) ≤ i ∧ i < n
  | .sl s => s.step ≠ some 0

/-- position `a` of a sequence of length `n` is selected -/
def Selects (n : Nat) : Item → Nat → Prop
  | .idx i, a => (a : Int) = i ∨ (a : Int) = i + n
  | .sl s, a => ∃ t, sliceIdx n s t = some a

/-- `data[item]` is acceptable for an array of shape `(ny, nx)` -/
def Valid (ny nx : Nat) : Index → Prop
  | .one iy => ValidItem ny iy
  | .two iy ix => ValidItem ny iy ∧ ValidItem nx ix

/-- `data[item]` includes the point in row `a` and column `b` -/
def Addressed (ny nx : Nat) : Index → Nat → Nat → Prop
  | .one iy, a, _ => Selects ny iy a
  | .two iy ix, a, b => Selects ny iy a ∧ Selects nx ix b

/-- the surface an operation replaces or edits -/
def target : HOp K → Option Nat
  | .assign o _ | .assignFrom o _ | .setitem o _ _ => some o
  | .crop o _ _ _ _ inplace | .zoom o _ inplace | .apply o _ inplace | .fill o _ inplace => destOf o inplace
  | _ => none

/-- The heights of the surface an operation returns, given the heights of the surfaces before it; `none` for operations
that return no surface. -/
def produced (h : Nat → Option (Grid (Option K))) : HOp K → Option (Except Err (Grid (Option K)))
  | .construct g => some (.ok g)
  | .wrap o => some ((h o).elim (.error .indexError) .ok)
  | .assign o g => some ((h o).elim (.error .indexError) fun _ => .ok g)
  | .assignFrom o t => some ((h o).elim (.error .indexError) fun _ => (h t).elim (.error .indexError) .ok)
  | .getitem o i => some ((h o).elim (.error .indexError) fun g => (Geometry.getitem (K := Rat) g 1 1 i).map (·.1))
  | .crop o x0 x1 y0 y1 _ => some ((h o).elim (.error .indexError) fun g => cropPx g x0 x1 y0 y1)
  | .zoom o factor _ => some ((h o).elim (.error .indexError) fun g => Geometry.zoom g factor)
  | .apply o f _ => some ((h o).elim (.error .indexError) fun g => .ok (f g))
  | .fill o f _ => some ((h o).elim (.error .indexError) fun g =>
      .ok (if (Container.flat g).any Option.isNone then f g else g))
  | .setitem .. | .read _ => none

end Surfalize.EditSpec
