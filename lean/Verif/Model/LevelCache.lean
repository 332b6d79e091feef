import Verif.Model.Stepheight
/-!
# `stepheight_level` and the cache in front of it
(surfalize/surface.py:751-812, surfalize/cache.py:23-38, 60-80)

`stepheight_level` is decorated with `@cache`, so the surface it returns – for `inplace=True` the surface itself – is
kept and returned again by a call that is spelled in the same way, until the heights of the surface are assigned. Surfaces
are numbered in the order of their creation. `H` are heights, `M` masks, `κ` spellings of the arguments (what the cache
compares: `()`, `(inplace=True)`, `(True)`, …).
-/
namespace Surfalize.LevelCache
open Surfalize Container

/-- What the heights determine: the mask (surfalize/surface.py:752-768), and levelling with a mask (783-803). -/
structure Env (H M κ : Type) where
  mask : H → M
  level : M → H → H
  inplace : κ → Bool

/-- The heights of a surface and the part of its cache that concerns levelling. -/
structure Obj (H M κ : Type) where
  data : H
  mask : Option M
  calls : List (κ × Nat)

/-- What a program does: make a surface; assign other heights to surface `i` (the `data` setter and `_set_data`,
surfalize/surface.py:140-145, 170-197); compute a step parameter of it (surfalize/surface.py:814-862), which keeps the
mask; level it. -/
inductive Act (H κ : Type) where
  | create (d : H)
  | edit (i : Nat) (f : H → H)
  | read (i : Nat)
  | level (i : Nat) (k : κ)

variable {H M κ : Type} [DecidableEq κ]

/-- `self._stepheight_get_mask()`, which is cached. -/
def Obj.getMask (E : Env H M κ) (o : Obj H M κ) : M := o.mask.getD (E.mask o.data)

/-- `surface.stepheight_level(…)` (surfalize/surface.py:770-812): the surfaces afterwards and the number of the returned
one. In place, the assignment empties the cache before the wrapper stores the result (surfalize/cache.py:35-36). The copy
gets the mask of the original (surfalize/surface.py:811). -/
def levelCall (E : Env H M κ) (os : List (Obj H M κ)) (i : Nat) (o : Obj H M κ) (k : κ) : List (Obj H M κ) × Nat :=
  match o.calls.lookup k with
  | some r => (os, r)
  | none =>
    let d := E.level (o.getMask E) o.data
    if E.inplace k then (os.set i ⟨d, none, [(k, i)]⟩, i)
    else (os.set i ⟨o.data, some (o.getMask E), (k, os.length) :: o.calls⟩ ++ [⟨d, some (o.getMask E), []⟩], os.length)

/-- One action; the number is the surface it returns. Actions on surfaces that do not exist do nothing. -/
def act (E : Env H M κ) (os : List (Obj H M κ)) : Act H κ → List (Obj H M κ) × Nat
  | .create d => (os ++ [⟨d, none, []⟩], os.length)
  | .edit i f =>
    match os[i]? with
    | none => (os, i)
    | some o => (os.set i ⟨f o.data, none, []⟩, i)
  | .read i =>
    match os[i]? with
    | none => (os, i)
    | some o => (os.set i { o with mask := some (o.getMask E) }, i)
  | .level i k =>
    match os[i]? with
    | none => (os, i)
    | some o => levelCall E os i o k

/-- A program. -/
def run (E : Env H M κ) (os : List (Obj H M κ)) (as : List (Act H κ)) : List (Obj H M κ) :=
  as.foldl (fun os a => (act E os a).1) os

/-- The heights of surface `i`. -/
def heights (os : List (Obj H M κ)) (i : Nat) : Option H := (os[i]?).map Obj.data

/-- The spellings of the argument. -/
inductive Spelling where
  | nothing | kwFalse | kwTrue | posFalse | posTrue
  deriving DecidableEq

def Spelling.inplace : Spelling → Bool
  | .kwTrue | .posTrue => true
  | _ => false

variable {K : Type} [Field K] [LinearOrder K] [FloorRing K]

/-- The mask as an array over the points. -/
def maskOf (g : Grid (Option K)) : Nat → Nat → Bool :=
  fun i j => Stepheight.maskFn Stepheight.defaultBins (flat g) (g.get i j)

/-- Levelling with a mask given as an array (surfalize/surface.py:784-803), the points as in
`Stepheight.levelPlane`. -/
def levelWith (lstsq : Detrend.Lstsq K) (mask : Nat → Nat → Bool) (g : Grid (Option K)) : Grid (Option K) :=
  let v := (Detrend.validPixels g).filter fun p => mask p.1.1 p.1.2
  let coeffs := lstsq 3 (v.map fun p => [(p.1.2 : K), (p.1.1 : K), 1]) (v.map fun p => p.2)
  let plane := fun (i j : Nat) => coeffs.getD 0 0 * (j : K) + coeffs.getD 1 0 * (i : K) + coeffs.getD 2 0
  let m := mean ((pixels g.ny g.nx).map fun p => plane p.1 p.2)
  Grid.ofFn g.ny g.nx fun i j => (g.get i j).map fun z => z - (plane i j - m)

/-- The package's functions. -/
def package (lstsq : Detrend.Lstsq K) : Env (Grid (Option K)) (Nat → Nat → Bool) Spelling :=
  ⟨maskOf, levelWith lstsq, Spelling.inplace⟩

end Surfalize.LevelCache
