import Verif.Model.Cache

/-!
# Model of `roughness_parameters` (surfalize/base.py:527-554)
-/
namespace Surfalize.Roughness
open Surfalize.CacheM

/-- surface.py:103-105 `Surface.ISO_PARAMETERS`. -/
def surfaceIso : List String :=
  ["Sa", "Sq", "Sp", "Sv", "Sz", "Ssk", "Sku", "Sdr", "Sdq", "Sal", "Str", "Ssw", "Sk", "Spk", "Svk", "Spkx", "Svkx",
   "Sak1", "Sak2", "Smr1", "Smr2", "Sxp", "Sdc", "Vmp", "Vmc", "Vvv", "Vvc"]

/-- surface.py:107-108 `Surface.AVAILABLE_PARAMETERS`. -/
def surfaceAvailable : List String :=
  surfaceIso ++ ["period", "depth", "aspect_ratio", "homogeneity", "stepheight", "cavity_volume"]

/-- profile.py:54-55 `Profile.ISO_PARAMETERS`. -/
def profileIso : List String :=
  ["Ra", "Rq", "Rp", "Rv", "Rz", "Rsk", "Rku", "Rdq", "Rk", "Rpk", "Rvk", "Rpkx", "Rvkx", "Rak1", "Rak2", "Rmr1", "Rmr2",
   "Rxp", "Rdc", "Vmp", "Vmc", "Vvv", "Vvc"]

/-- profile.py:57-58 `Profile.AVAILABLE_PARAMETERS`. -/
def profileAvailable : List String := profileIso ++ ["Rt", "period"]

/-- A dict from names to values, in insertion order. -/
abbrev Dict (V : Type) := List (String × V)

/-- `results[k] = v`: an existing key keeps its place and gets the new value, a new key goes to the end. -/
def Dict.set {V : Type} (d : Dict V) (k : String) (v : V) : Dict V :=
  if k ∈ d.map Prod.fst then d.map fun e => if e.1 = k then (k, v) else e else d ++ [(k, v)]

/-- The call `getattr(self, parameter)()`. -/
def bare {A : Type} (name : String) : Call A := { name := name, args := [], kwargs := [] }

/-- base.py:549-554 — the loop, from the results collected so far and the cache of the object. -/
def loop {D V A : Type} (K : Cls D V A) (fuel : Nat) (available : List String) (d : D) :
    List String → Dict V → Cache V → Except Err (Dict V) × Cache V
  | [], results, c => (.ok results, c)
  | p :: ps, results, c =>
    if p ∈ available then
      match invoke K fuel (bare p) d c with
      | (.ok v, c') => loop K fuel available d ps (Dict.set results p v) c'
      | (.error e, c') => (.error e, c')
    else (.error .valueError, c)

/-- base.py:527-554 — `roughness_parameters(parameters)`; `none` is the default argument. The heights of the object
are not written. -/
def roughnessParameters {D V A : Type} (K : Cls D V A) (fuel : Nat) (iso available : List String)
    (parameters : Option (List String)) (o : Obj D V) : Except Err (Dict V) × Obj D V :=
  let names := parameters.getD iso
  let r := loop K fuel available o.data names [] o.cache
  (r.1, { o with cache := r.2 })

end Surfalize.Roughness
