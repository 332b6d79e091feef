import Verif.Model.BaseOps

/-!
# Model of the height parameters (surfalize/surface.py:870-892; surfalize/profile.py:284-433)

Square roots need real numbers, so the heights are real here. A division by `Sq = 0` (flat data) gives NaN,
modelled as `none`.
-/
namespace Surfalize.HeightParams
open Surfalize Container BaseOps

/-- `ndarray.min()` of non-empty NaN-free data (callers guard the empty case). -/
def minL {K : Type} [Field K] [LinearOrder K] (l : List K) : K := l.min?.getD 0
/-- `ndarray.max()` of non-empty NaN-free data. -/
def maxL {K : Type} [Field K] [LinearOrder K] (l : List K) : K := l.max?.getD 0

/-- numpy division of a number by a non-negative one; 0/0 is NaN. -/
noncomputable def divNaN (a b : ℝ) : Option ℝ := if b = 0 then none else some (a / b)

/-- The dictionary returned by `height_parameters` (surface.py:892). -/
structure Params where
  sa : ℝ
  sq : ℝ
  sv : ℝ
  sp : ℝ
  sz : ℝ
  ssk : Option ℝ
  sku : Option ℝ

/-- surface.py:880-892, the computation on the (NaN-free, non-empty) heights. -/
noncomputable def paramsOf (l : List ℝ) : Params :=
  let m := mean l
  let centered := l.map fun z => z - m
  let absC := centered.map fun z => |z|
  let sqC := absC.map fun z => z ^ 2
  let size := (l.length : ℝ)
  let sa := absC.sum / size
  let sq := Real.sqrt (sqC.sum / size)
  let sv := |minL centered|
  let sp := maxL centered
  let sz := sp + sv
  let ssk := divNaN ((List.zipWith (fun a b => a * b) sqC centered).sum / size) (sq ^ 3)
  let sku := divNaN ((sqC.map fun z => z ^ 2).sum / size) (sq ^ 4)
  { sa := sa, sq := sq, sv := sv, sp := sp, sz := sz, ssk := ssk, sku := sku }

/-- surface.py:867-892 `height_parameters` with its guard `no_nonmeasured_points` (base.py:17-37); the
cache is modelled in `Verif.Model.Cache`. `min()` of an empty array raises ValueError. -/
noncomputable def heightParameters (g : Grid (Option ℝ)) : Except Err Params :=
  noNonmeasured (fun g => if flat g = [] then .error .valueError else .ok (paramsOf (measured (flat g)))) g

/-! ## Profiles -/

/-- `np.array_split(l, n)` (n ≥ 1): the first `len % n` pieces have one element more. -/
def arraySplitAux {α : Type} (l : List α) (q : Nat) : Nat → Nat → List (List α)
  | 0, _ => []
  | k + 1, r =>
    let len := if r = 0 then q else q + 1
    l.take len :: arraySplitAux (l.drop len) q k (r - 1)

/-- `np.array_split`. -/
def arraySplit {α : Type} (l : List α) (n : Nat) : List (List α) :=
  arraySplitAux l (l.length / n) n (l.length % n)

section Sections
variable {K : Type} [Field K] [LinearOrder K]

/-- profile.py:301-305 `_sectioned_data`, on NaN-free data. -/
def sectionedData (l : List K) (n : Int) : Except Err (List (List K)) :=
  if n < 1 then .error .valueError
  else if n > (l.length : Int) then .error .valueError
  else .ok (arraySplit (l.map fun z => z - mean l) n.toNat)

/-- profile.py:308-319 `Ra`. -/
def raOf (l : List K) : K := ((l.map fun z => z - mean l).map fun z => |z|).sum / (l.length : K)

/-- profile.py:333-351 `Rp(n_sections)`. -/
def rpOf (l : List K) (n : Int) : Except Err K :=
  (sectionedData l n).map fun ss => mean (ss.map maxL)

/-- profile.py:353-371 `Rv(n_sections)`. -/
def rvOf (l : List K) (n : Int) : Except Err K :=
  (sectionedData l n).map fun ss => mean (ss.map fun s => |minL s|)

/-- profile.py:373-392 `Rz(n_sections)`. -/
def rzOf (l : List K) (n : Int) : Except Err K :=
  (sectionedData l n).map fun ss => mean (ss.map fun s => maxL s - minL s)

/-- profile.py:394-405 `Rt`. -/
def rtOf (l : List K) : K := maxL l - minL l

/-- The guard `no_nonmeasured_points` on a profile parameter; the empty profile is reported as ValueError
(numpy raises it for `max()` of an empty array; `Ra` of an empty profile would be NaN). -/
def guarded {β : Type} (f : List K → Except Err β) (p : List (Option K)) : Except Err β :=
  noNonmeasured (C := List) (fun p => if p = [] then .error .valueError else f (measured p)) p

def Ra (p : List (Option K)) : Except Err K := guarded (fun l => .ok (raOf l)) p
def Rp (p : List (Option K)) (n : Int) : Except Err K := guarded (fun l => rpOf l n) p
def Rv (p : List (Option K)) (n : Int) : Except Err K := guarded (fun l => rvOf l n) p
def Rz (p : List (Option K)) (n : Int) : Except Err K := guarded (fun l => rzOf l n) p
def Rt (p : List (Option K)) : Except Err K := guarded (fun l => .ok (rtOf l)) p

end Sections

/-- profile.py:321-331 `Rq`. -/
noncomputable def rqOf (l : List ℝ) : ℝ :=
  Real.sqrt (((l.map fun z => z - mean l).map fun z => z ^ 2).sum / (l.length : ℝ))

noncomputable def Rq (p : List (Option ℝ)) : Except Err ℝ := guarded (fun l => .ok (rqOf l)) p

/-- profile.py:407-418 `Rsk`. -/
noncomputable def Rsk (p : List (Option ℝ)) : Except Err (Option ℝ) :=
  guarded (fun l => .ok (divNaN (((l.map fun z => z - mean l).map fun z => z ^ 3).sum / (l.length : ℝ)) (rqOf l ^ 3))) p

/-- profile.py:420-431 `Rku`. -/
noncomputable def Rku (p : List (Option ℝ)) : Except Err (Option ℝ) :=
  guarded (fun l => .ok (divNaN (((l.map fun z => z - mean l).map fun z => z ^ 4).sum / (l.length : ℝ)) (rqOf l ^ 4))) p

end Surfalize.HeightParams
