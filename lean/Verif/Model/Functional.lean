import Verif.Model.Abbott
import Verif.Prelude.GridFn
/-!
# The functional parameters of `Surface` and `Profile` by name
(surfalize/surface.py:1118-1313, surfalize/profile.py:449-626, surfalize/base.py:410-525)

A call is a method with positional arguments. Results that are not numbers (0/0) are `none`. The curve is built for
the heights of the object with the default number of classes (surfalize/abbottfirestone.py:26); the cache in front of it
is the subject of C01. Another number of arguments is a TypeError.
-/
namespace Surfalize.Functional
open Surfalize Abbott Interp Geometry

variable {K : Type} [Field K] [LinearOrder K] [FloorRing K]

/-- The volume parameters, which surfaces and profiles share. -/
inductive Volume where
  | Vmp | Vmc | Vvv | Vvc | Vm | Vv

/-- The functional parameters: `k` is `Sk` of a surface and `Rk` of a profile, and so on. -/
inductive Method where
  | k | pk | vk | pkx | vkx | ak1 | ak2 | mr1 | mr2 | mrk1 | mrk2 | mr | mc | xp | dc
  | vol (v : Volume)

/-- `self.get_abbott_firestone_curve()` (surfalize/base.py:410-419; surfalize/abbottfirestone.py:26 `nbins=10000`). -/
def curve (lstsq : Detrend.Lstsq K) (data : List (Option K)) : Except Err (Curve K) := build lstsq 10000 data

/-- The volume parameters of the common base class (surfalize/base.py:423-525). -/
def volume (lstsq : Detrend.Lstsq K) (v : Volume) (args : List K) (data : List (Option K)) :
    Except Err (Option K) :=
  match v, args with
  | .Vmp, [] => (curve lstsq data).map fun c => some (c.vmp 10)
  | .Vmp, [p] => (curve lstsq data).map fun c => some (c.vmp p)
  | .Vmc, [] => (curve lstsq data).map fun c => some (c.vmc 10 80)
  | .Vmc, [p] => (curve lstsq data).map fun c => some (c.vmc p 80)
  | .Vmc, [p, q] => (curve lstsq data).map fun c => some (c.vmc p q)
  | .Vvv, [] => (curve lstsq data).map fun c => some (c.vvv 80)
  | .Vvv, [q] => (curve lstsq data).map fun c => some (c.vvv q)
  | .Vvc, [] => (curve lstsq data).map fun c => some (c.vvc 10 80)
  | .Vvc, [p] => (curve lstsq data).map fun c => some (c.vvc p 80)
  | .Vvc, [p, q] => (curve lstsq data).map fun c => some (c.vvc p q)
  | .Vm, [p] => (curve lstsq data).map fun c => some (c.Vm p)
  | .Vv, [p] => (curve lstsq data).map fun c => some (c.Vv p)
  | _, _ => .error .typeError

/-- `Surface.Smc` (surfalize/surface.py:1262-1275). -/
def smc (lstsq : Detrend.Lstsq K) (mr : K) (data : List (Option K)) : Except Err K :=
  (curve lstsq data).map fun c => c.mc mr

/-- `Surface.Sxp` (surfalize/surface.py:1278-1294). -/
def sxp (lstsq : Detrend.Lstsq K) (p q : K) (data : List (Option K)) : Except Err (Option K) :=
  (smc lstsq p data).bind fun a => (smc lstsq q data).map fun b => some (a - b)

/-- The functional parameters of a surface (surfalize/surface.py:1118-1313). -/
def surface (lstsq : Detrend.Lstsq K) (sort : PtSort K) (m : Method) (args : List K) (g : Grid (Option K)) :
    Except Err (Option K) :=
  let data := Container.flat g
  match m, args with
  | .k, [] => (curve lstsq data).map fun c => some c.k
  | .pk, [] => (curve lstsq data).map fun c => c.pk sort
  | .vk, [] => (curve lstsq data).map fun c => c.vk sort
  | .pkx, [] => (curve lstsq data).map fun c => some c.pkx
  | .vkx, [] => (curve lstsq data).map fun c => some c.vkx
  | .ak1, [] => (curve lstsq data).map fun c => c.ak1 sort
  | .ak2, [] => (curve lstsq data).map fun c => c.ak2 sort
  | .mr1, [] => (curve lstsq data).map fun c => some (c.mr1 sort)
  | .mr2, [] => (curve lstsq data).map fun c => some (c.mr2 sort)
  | .mrk1, [] => (curve lstsq data).map fun c => some (c.mr1 sort)
  | .mrk2, [] => (curve lstsq data).map fun c => some (c.mr2 sort)
  | .mr, [c] => (curve lstsq data).map fun a => some (a.mrAt sort c)
  | .mc, [mr] => (smc lstsq mr data).map some
  | .xp, [] => sxp lstsq (5 / 2) 50 data
  | .xp, [p] => sxp lstsq p 50 data
  | .xp, [p, q] => sxp lstsq p q data
  | .dc, [] => (curve lstsq data).map fun c => some (c.dc (5 / 2) 50)
  | .dc, [p] => (curve lstsq data).map fun c => some (c.dc p 50)
  | .dc, [p, q] => (curve lstsq data).map fun c => some (c.dc p q)
  | .vol v, args => volume lstsq v args data
  | _, _ => .error .typeError

/-- `Profile.Rmc` (surfalize/profile.py:578-591). -/
def rmc (lstsq : Detrend.Lstsq K) (mr : K) (data : List (Option K)) : Except Err K :=
  (curve lstsq data).map fun c => c.mc mr

/-- `Profile.Rxp` (surfalize/profile.py:593-608). -/
def rxp (lstsq : Detrend.Lstsq K) (p q : K) (data : List (Option K)) : Except Err (Option K) :=
  (rmc lstsq p data).bind fun a => (rmc lstsq q data).map fun b => some (a - b)

/-- The functional parameters of a profile (surfalize/profile.py:449-626). -/
def profile (lstsq : Detrend.Lstsq K) (sort : PtSort K) (m : Method) (args : List K) (data : List (Option K)) :
    Except Err (Option K) :=
  match m, args with
  | .k, [] => (curve lstsq data).map fun c => some c.k
  | .pk, [] => (curve lstsq data).map fun c => c.pk sort
  | .vk, [] => (curve lstsq data).map fun c => c.vk sort
  | .pkx, [] => (curve lstsq data).map fun c => some c.pkx
  | .vkx, [] => (curve lstsq data).map fun c => some c.vkx
  | .ak1, [] => (curve lstsq data).map fun c => c.ak1 sort
  | .ak2, [] => (curve lstsq data).map fun c => c.ak2 sort
  | .mr1, [] => (curve lstsq data).map fun c => some (c.mr1 sort)
  | .mr2, [] => (curve lstsq data).map fun c => some (c.mr2 sort)
  | .mrk1, [] => (curve lstsq data).map fun c => some (c.mr1 sort)
  | .mrk2, [] => (curve lstsq data).map fun c => some (c.mr2 sort)
  | .mr, [c] => (curve lstsq data).map fun a => some (a.mrAt sort c)
  | .mc, [mr] => (rmc lstsq mr data).map some
  | .xp, [] => rxp lstsq (5 / 2) 50 data
  | .xp, [p] => rxp lstsq p 50 data
  | .xp, [p, q] => rxp lstsq p q data
  | .dc, [] => (curve lstsq data).map fun c => some (c.dc (5 / 2) 50)
  | .dc, [p] => (curve lstsq data).map fun c => some (c.dc p 50)
  | .dc, [p, q] => (curve lstsq data).map fun c => some (c.dc p q)
  | .vol v, args => volume lstsq v args data
  | _, _ => .error .typeError

end Surfalize.Functional
