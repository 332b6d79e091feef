import Mathlib.Algebra.Order.Field.Basic
import Mathlib.Data.List.Sort
import Mathlib.Algebra.BigOperators.Group.List.Basic

/-!
# numpy primitives on lists of exact numbers

`none` stands for NaN (a non-measured point). Floating-point rounding is not modelled.
-/
namespace Surfalize

section Generic
variable {K : Type} [Field K] [LinearOrder K]

/-- `data[~np.isnan(data)]`: the measured heights in order. -/
def measured {α : Type} (l : List (Option α)) : List α := l.filterMap id

/-- `np.mean` of NaN-free data (sum divided by count). -/
def mean (l : List K) : K := l.sum / (l.length : K)

/-- NaN-propagating binary arithmetic. -/
def osub (a b : Option K) : Option K := a.bind fun x => b.map fun y => x - y
/-- NaN-propagating addition. -/
def oadd (a b : Option K) : Option K := a.bind fun x => b.map fun y => x + y

/-- `np.nanmean`; `none` when nothing is measured (numpy returns NaN with a warning). -/
def nanmean (l : List (Option K)) : Option K :=
  if measured l = [] then none else some (mean (measured l))

/-- `np.nanmin`; `none` when nothing is measured (the empty array, where numpy raises, is handled by
the callers). -/
def nanmin (l : List (Option K)) : Option K := (measured l).min?
/-- `np.nanmax`. -/
def nanmax (l : List (Option K)) : Option K := (measured l).max?

/-- `ndarray.min()`: NaN if any element is NaN. -/
def propmin (l : List (Option K)) : Option K := if none ∈ l then none else (measured l).min?
/-- `ndarray.max()`: NaN if any element is NaN. -/
def propmax (l : List (Option K)) : Option K := if none ∈ l then none else (measured l).max?

/-- `np.sort`. -/
def sortAsc (l : List K) : List K := l.insertionSort (· ≤ ·)
/-- `np.sort(...)[::-1]`. -/
def sortDesc (l : List K) : List K := (sortAsc l).reverse

/-- `np.median` of non-empty NaN-free data: the middle element of the sorted list, or the mean of the
two middle ones. (0 for the empty list, where numpy returns NaN; callers guard.) -/
def median (l : List K) : K :=
  let s := sortAsc l
  if l.length % 2 = 1 then s.getD (l.length / 2) 0
  else (s.getD (l.length / 2 - 1) 0 + s.getD (l.length / 2) 0) / 2

/-- Population variance, the square of `np.std`. -/
def variance (l : List K) : K := mean (l.map fun x => (x - mean l) ^ 2)

/-- `np.argmin`: first index of the minimum (callers guard the empty list, where numpy raises). -/
def argmin (l : List K) : Nat :=
  match l.min? with
  | none => 0
  | some m => l.idxOf m

/-- `np.argmax`: first index of the maximum. -/
def argmax (l : List K) : Nat :=
  match l.max? with
  | none => 0
  | some m => l.idxOf m

/-- mathutils.py:76-92 `argclosest`: `np.argmin(np.abs(xdata - x))`. -/
def argclosest (x : K) (xdata : List K) : Nat := argmin (xdata.map fun t => |t - x|)

end Generic

/-- Height-data containers: 1-d arrays (profiles) and 2-d arrays (surfaces). The methods of
`BaseTopography` (base.py:96-596) only use whole-array statistics and elementwise operations, which is
what this interface offers. -/
class Container (C : Type → Type) where
  /-- `ndarray.ravel()` -/
  flat : {α : Type} → C α → List α
  /-- elementwise operation -/
  map : {α β : Type} → (α → β) → C α → C β
  flat_map : ∀ {α β : Type} (f : α → β) (c : C α), flat (map f c) = (flat c).map f
  map_map : ∀ {α β γ : Type} (f : α → β) (g : β → γ) (c : C α), map g (map f c) = map (fun x => g (f x)) c
  map_congr : ∀ {α β : Type} (f g : α → β) (c : C α), (∀ x ∈ flat c, f x = g x) → map f c = map g c
  map_id : ∀ {α : Type} (c : C α), map (fun x => x) c = c

/-- 1-d arrays. -/
instance : Container List where
  flat := fun l => l
  map := fun f l => l.map f
  flat_map := fun _ _ => rfl
  map_map := fun f g c => by simp [Function.comp_def]
  map_congr := fun f g c h => List.map_congr_left h
  map_id := fun c => by simp

/-- 2-d arrays of shape `(rows.length, nx)`. Well-formedness is the separate predicate `Grid.WF`. -/
structure Grid (α : Type) where
  rows : List (List α)
  nx : Nat
  deriving DecidableEq, Repr

/-- every row has `nx` entries -/
def Grid.WF {α : Type} (g : Grid α) : Prop := ∀ r ∈ g.rows, r.length = g.nx
/-- `shape[0]` -/
def Grid.ny {α : Type} (g : Grid α) : Nat := g.rows.length

instance {α : Type} (g : Grid α) : Decidable g.WF := by unfold Grid.WF; infer_instance

instance : Container Grid where
  flat := fun g => g.rows.flatten
  map := fun f g => { rows := g.rows.map (List.map f), nx := g.nx }
  flat_map := fun f c => by simp [List.map_flatten]
  map_map := fun f g c => by simp [Function.comp_def]
  map_congr := fun f g c h => by
    simp only [Grid.mk.injEq, and_true]
    apply List.map_congr_left
    intro r hr
    apply List.map_congr_left
    intro x hx
    exact h x (List.mem_flatten.2 ⟨r, hr, hx⟩)
  map_id := fun c => by cases c; simp

end Surfalize
