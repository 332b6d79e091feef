import Verif.Model.BaseOps
import Verif.Model.Geometry
import Verif.Model.Filter

/-!
# Model of `Surface` and `Profile` objects: construction, data assignment, `inplace`, arithmetic, equality
(surfalize/surface.py:110-271, 491-811; surfalize/profile.py:62-128, 194-269; surfalize/base.py:193-404;
surfalize/filter.py:71-101)

Objects are values here: a method maps the receiver to the receiver after the call and the returned value.
Sharing of memory between objects is modelled in `Verif.Model.Heap`. `V` is the type of cached values.
Metadata and image layers are modelled in `Verif.Model.Attachments`.
-/
namespace Surfalize.Object
open Surfalize Container ZipContainer BaseOps Geometry

variable {K V : Type} [Field K] [LinearOrder K] [FloorRing K]

/-- The attributes of a `Surface` instance. -/
structure Surf (K V : Type) where
  data : Grid (Option K)
  stepX : K
  stepY : K
  widthUm : K
  heightUm : K
  cache : List (String × V)

/-- surface.py:140-145, the `data` setter. -/
def Surf.setData (s : Surf K V) (value : Grid (Option K)) : Surf K V :=
  { s with
    data := value
    widthUm := ((value.nx : K) - 1) * s.stepX
    heightUm := ((value.ny : K) - 1) * s.stepY
    cache := [] }

/-- surface.py:110-123 `Surface(height_data, step_x, step_y)`. -/
def Surf.init (d : Grid (Option K)) (sx sy : K) : Surf K V :=
  Surf.setData { data := d, stepX := sx, stepY := sy, widthUm := 0, heightUm := 0, cache := [] } d

/-- surface.py:170-197 `_set_data(data, step_x, step_y)`; `none` is an omitted argument. -/
def Surf.overwrite (s : Surf K V) (data : Option (Grid (Option K))) (sx sy : Option K) : Surf K V :=
  let s := match data with | some d => s.setData d | none => s
  let s := match sx with | some x => { s with stepX := x } | none => s
  let s := match sy with | some y => { s with stepY := y } | none => s
  { s with
    widthUm := ((s.data.nx : K) - 1) * s.stepX
    heightUm := ((s.data.ny : K) - 1) * s.stepY
    cache := [] }

/-- surface.py:199-200 `_with_data`. -/
def Surf.withData (s : Surf K V) (d : Grid (Option K)) : Surf K V := Surf.init d s.stepX s.stepY

/-- What a method returns: the receiver itself, a new surface, or a pair. -/
inductive Ret (K V : Type) where
  | self
  | new (s : Surf K V)
  | pair (s : Surf K V) (t : Surf K V)
  | selfPair (t : Surf K V)

/-- A method call: the receiver afterwards and the returned value. -/
abbrev Result (K V : Type) := Except Err (Surf K V × Ret K V)

/-- base.py:215-218 and the same four lines at 236-239, 257-260, 293-296, 334-337, filter.py:97-101:
`if inplace: self._set_data(data=data); return self` / `return self._with_data(data)`. -/
def finish (s : Surf K V) (d : Grid (Option K)) (inplace : Bool) : Surf K V × Ret K V :=
  if inplace then (s.overwrite (some d) none none, .self) else (s, .new (s.withData d))

/-- surface.py:519-522, 683-686, 717-720: the same, ending in `return Surface(data, self.step_x, self.step_y)`. -/
def finishSurface (s : Surf K V) (d : Grid (Option K)) (inplace : Bool) : Surf K V × Ret K V :=
  if inplace then (s.overwrite (some d) none none, .self) else (s, .new (Surf.init d s.stepX s.stepY))

/-- Numerical routines the methods call; any functions. -/
structure Ext (K V : Type) where
  /-- `np.nanstd` -/
  std : List K → K
  /-- `scipy.ndimage.gaussian_filter(data, (sigma_y, sigma_x))` -/
  gauss : K → K → Grid (Option K) → Grid (Option K)
  /-- `GaussianFilter.sigma` -/
  sigma : K → K
  /-- `scipy.interpolate.griddata` on the measured points, evaluated at every point -/
  griddata : String → Grid (Option K) → Except Err (Grid (Option K))
  /-- the fitted polynomial of surface.py:561-592, evaluated at every point -/
  trend : Nat → Grid (Option K) → Except Err (Grid (Option K))
  /-- surface.py:628-655: rotated and cropped heights with the new `step_x`, `step_y` -/
  rotated : K → Surf K V → Except Err (Grid (Option K) × K × K)
  /-- `orientation(method)` -/
  orientation : String → Surf K V → Except Err K
  /-- surface.py:787-802: the mean-free plane fitted to the upper level -/
  stepPlane : Surf K V → Except Err (Grid (Option K))
  /-- the mask returned by `_stepheight_get_mask` -/
  stepMask : Surf K V → V

/-- filter.py:87-94: smoothing of a surface's heights for a cutoff in µm. -/
def Ext.smooth (E : Ext K V) (s : Surf K V) (cutoff : K) (d : Grid (Option K)) : Grid (Option K) :=
  E.gauss (E.sigma (cutoff / s.stepY)) (E.sigma (cutoff / s.stepX)) d

/-- The methods with an `inplace` flag and their other arguments. -/
inductive SOp (K : Type) where
  | center
  | zero
  | invert
  | removeOutliersMean (n : K)
  | removeOutliersMedian (n : K)
  | removeOutliersOther
  | threshold (u l : K)
  | filter (mode : String) (cutoff : K) (cutoff2 : Option K)
  | fillNonmeasured (method : String)
  | detrend (degree : Nat) (returnTrend : Bool)
  | level (returnTrend : Bool)
  | rotate (angle : K)
  | zoom (factor : K)
  | cropPx (x0 x1 y0 y1 : Int)
  | cropUnits (x0 x1 y0 y1 : K)
  | align (axis method : String)
  | stepheightLevel

/-- surface.py:553-606 `detrend_polynomial`. -/
def detrend (E : Ext K V) (degree : Nat) (returnTrend : Bool) (s : Surf K V) (inplace : Bool) : Result K V :=
  match E.trend degree s.data with
  | .error e => .error e
  | .ok t =>
    let d := zipW osub s.data t
    let trend : Surf K V := Surf.init t s.stepX s.stepY
    if inplace then
      .ok (s.overwrite (some d) none none, if returnTrend then .selfPair trend else .self)
    else
      .ok (s, if returnTrend then .pair (Surf.init d s.stepX s.stepY) trend else .new (Surf.init d s.stepX s.stepY))

/-- surface.py:608-660 `rotate` with its guard. -/
def rotate (E : Ext K V) (angle : K) (s : Surf K V) (inplace : Bool) : Result K V :=
  if hasMissing s.data then .error .valueError
  else match E.rotated angle s with
  | .error e => .error e
  | .ok (d, sx, sy) =>
    if inplace then .ok (s.overwrite (some d) (some sx) (some sy), .self)
    else .ok (s, .new (Surf.init d sx sy))

/-- One method call `s.op(..., inplace=inplace)` on a cold cache. -/
def run (E : Ext K V) (op : SOp K) (s : Surf K V) (inplace : Bool) : Result K V :=
  match op with
  | .center => .ok (finish s (BaseOps.center s.data) inplace)                        -- base.py:214-218
  | .zero => (BaseOps.zero s.data).map fun d => finish s d inplace                   -- base.py:235-239
  | .invert => (BaseOps.invert s.data).map fun d => finish s d inplace               -- base.py:256-260
  | .removeOutliersMean n =>                                                         -- base.py:286-296
    let l := measured (flat s.data)
    .ok (finish s (map (fun z => z.bind fun z => if |z - mean l| > n * E.std l then none else some z) s.data) inplace)
  | .removeOutliersMedian n => .ok (finish s (BaseOps.removeOutliersMedian n s.data) inplace)
  | .removeOutliersOther => .error .valueError
  | .threshold u l => (BaseOps.threshold u l s.data).map fun d => finish s d inplace -- base.py:321-337
  | .filter mode c c2 =>                                                             -- base.py:377-404
    match Filter.filter (E.smooth s) mode c c2 inplace s.data with
    | .error e => .error e
    | .ok (.one d) => .ok (finish s d inplace)
    | .ok (.two h l) => .ok (s, .pair (s.withData h) (s.withData l))
  | .fillNonmeasured m =>                                                            -- surface.py:509-522
    if hasMissing s.data then (E.griddata m s.data).map fun d => finishSurface s d inplace
    else .ok (s, .self)
  | .detrend n rt => detrend E n rt s inplace
  | .level rt => detrend E 1 rt s inplace                                            -- surface.py:541
  | .rotate a => rotate E a s inplace
  | .zoom f => (Geometry.zoom s.data f).map fun d => finishSurface s d inplace       -- surface.py:679-686
  | .cropPx x0 x1 y0 y1 => (Geometry.cropPx s.data x0 x1 y0 y1).map fun d => finishSurface s d inplace
  | .cropUnits x0 x1 y0 y1 =>                                                        -- surface.py:704-720
    if s.stepX = 0 ∨ s.stepY = 0 then .error .zeroDivision
    else (Geometry.cropUnits s.data s.stepX s.stepY x0 x1 y0 y1).map fun d => finishSurface s d inplace
  | .align axis m =>                                                                 -- surface.py:743-749
    if axis ≠ "x" ∧ axis ≠ "y" then .error .valueError
    else match E.orientation m s with
    | .error e => .error e
    | .ok a =>
      rotate E (-(if axis = "x" then a + 90 else a)) s inplace
  | .stepheightLevel =>                                                              -- surface.py:787-811
    match E.stepPlane s with
    | .error e => .error e
    | .ok p =>
    let d := zipW osub s.data p
    if inplace then .ok (s.overwrite (some d) none none, .self)
    else .ok (s, .new { (Surf.init d s.stepX s.stepY : Surf K V) with cache := [("_stepheight_get_mask", E.stepMask s)] })

/-! ## Histories on one variable -/

/-- What a user does with a surface variable: an in-place call, rebinding the variable to the copy a call
returned, assigning new heights, editing items, slicing, or rebinding the step sizes (`steps`, not part of
the documented operations). -/
inductive Action (K : Type) where
  | inplace (op : SOp K)
  | copy (op : SOp K)
  | assign (d : Grid (Option K))
  | setitem (f : Grid (Option K) → Grid (Option K))
  | getitem (i : Index)
  | arith (f : Option K → Option K)
  | steps (sx sy : K)

/-- One action; an exception leaves the variable as it was. `setitem` replaces values, not the shape
(numpy item assignment). -/
def act (E : Ext K V) (s : Surf K V) : Action K → Surf K V
  | .inplace op => match run E op s true with | .ok (s', _) => s' | .error _ => s
  | .copy op =>
    match run E op s false with
    | .ok (_, .new c) => c
    | .ok (_, .pair c _) => c
    | .ok (s', _) => s'
    | .error _ => s
  | .assign d => s.setData d                                     -- surface.py:140-145
  | .setitem f => { s with data := { rows := (f s.data).rows, nx := s.data.nx }, cache := [] }   -- base.py:128-134
  | .getitem i =>                                                -- surface.py:260-271
    match Geometry.getitem s.data s.stepY s.stepX i with
    | .ok (d, sy, sx) => Surf.init d sx sy
    | .error _ => s
  | .arith f => Surf.init (map f s.data) s.stepX s.stepY         -- surface.py:221-222
  | .steps sx sy => { s with stepX := sx, stepY := sy }

/-- A history. -/
def history (E : Ext K V) (s : Surf K V) (as : List (Action K)) : Surf K V := as.foldl (act E) s

/-! ## Arithmetic and equality -/

/-- The right operand of a binary operator. `other` is an object of any other type. -/
inductive Operand (K V : Type) where
  | surf (s : Surf K V)
  | scalar (c : K)
  | other

/-- surface.py:202-222 `_arithmetic_operation`; `none` heights propagate. -/
def arithOp (f : Option K → Option K → Option K) (s : Surf K V) : Operand K V → Except Err (Surf K V)
  | .surf o =>
    if s.stepX ≠ o.stepX ∨ s.stepY ≠ o.stepY ∨ s.data.ny ≠ o.data.ny ∨ s.data.nx ≠ o.data.nx then .error .valueError
    else .ok (Surf.init (zipW f s.data o.data) s.stepX s.stepY)
  | .scalar c => .ok (Surf.init (map (fun z => f z (some c)) s.data) s.stepX s.stepY)
  | .other => .error .valueError

/-- NaN-propagating multiplication. -/
def omul (a b : Option K) : Option K := a.bind fun x => b.map fun y => x * y
/-- Division. IEEE gives NaN for 0/0, ±inf for x/0; neither is a number, both are `none` here. -/
def odiv (a b : Option K) : Option K := a.bind fun x => b.bind fun y => if y = 0 then none else some (x / y)

/-- surface.py:223 -/
def add (s : Surf K V) (o : Operand K V) := arithOp oadd s o
/-- surface.py:228 -/
def sub (s : Surf K V) (o : Operand K V) := arithOp osub s o
/-- surface.py:232-233 `__rsub__` -/
def rsub (s : Surf K V) (o : Operand K V) := arithOp (fun a b => osub b a) s o
/-- surface.py:234 -/
def mul (s : Surf K V) (o : Operand K V) := arithOp omul s o
/-- surface.py:239; a scalar zero divisor divides an array by 0: no exception. -/
def truediv (s : Surf K V) (o : Operand K V) := arithOp odiv s o

/-- surface.py:243-255 `__eq__` on two surfaces, with tolerance `tol` (1e-10). -/
def eqSurf (tol : K) (s o : Surf K V) : Bool :=
  if s.stepX ≠ o.stepX ∨ s.stepY ≠ o.stepY ∨ s.data.ny ≠ o.data.ny ∨ s.data.nx ≠ o.data.nx then false
  else if (flat s.data).map Option.isNone ≠ (flat o.data).map Option.isNone then false
  else ! (List.zipWith (fun a b => decide (|a - b| > tol)) (measured (flat s.data)) (measured (flat o.data))).any id

/-- surface.py:258: the mean that enters `hash((step_x, step_y, size.x, size.y, mean, std))`; NaN for data with
non-measured points or no points. -/
def hashMean (s : Surf K V) : Option K :=
  if none ∈ flat s.data ∨ flat s.data = [] then none else some (mean (measured (flat s.data)))

end Surfalize.Object
