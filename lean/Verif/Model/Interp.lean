import Verif.Prelude.Num
import Verif.Prelude.Err

/-!
# Model of the interpolation and search helpers (surfalize/mathutils.py:40-111, 148-181)
-/
namespace Surfalize.Interp
open Surfalize

variable {K : Type} [Field K] [LinearOrder K]

/-- `np.interp(x, xp, fp)` on the sample points `(xp, fp)` with non-decreasing, non-empty `xp`: the first value to
the left of the samples, the last to the right, otherwise linear interpolation on the last interval
`xp[j] ≤ x < xp[j+1]`. (0 without samples, where numpy raises; callers guard.) -/
def npInterp : List (K × K) → K → K
  | [], _ => 0
  | [p], _ => p.2
  | p :: q :: r, x =>
    if x < q.1 then
      if x ≤ p.1 then p.2 else (q.2 - p.2) / (q.1 - p.1) * (x - p.1) + p.2
    else npInterp (q :: r) x

/-- mathutils.py:63-66: sorting the samples by `np.argsort(xdata)`. The order of samples with equal `x` is not
specified by numpy (the default sort is not stable), so the sort is a parameter; see `Spec.IsSort`. -/
abbrev PtSort (K : Type) := List (K × K) → List (K × K)

/-- mathutils.py:40-73 `interp1d(xdata, ydata, assume_sorted)(x)` for arrays of equal length, given as the list of
sample points. -/
def interp1d (sort : PtSort K) (assumeSorted : Bool) (pts : List (K × K)) (x : K) : Except Err K :=
  if pts = [] then .error .valueError
  else .ok (npInterp (if assumeSorted then pts else sort pts) x)

/-- A stable sort by the abscissa. -/
def stableSort : PtSort K := fun l => l.insertionSort fun p q => p.1 ≤ q.1

/-- mathutils.py:94-110 `closest(x, data)`: the value at `argclosest`; `argmin` raises on an empty array. -/
def closest (x : K) (l : List K) : Except Err K :=
  if l = [] then .error .valueError else .ok (l.getD (argclosest x l) 0)

/-- `np.where(arr == v)[0]`; NaN compares unequal to everything. -/
def whereEq (l : List (Option K)) (v : Option K) : List Nat :=
  match v with
  | none => []
  | some v => (List.range l.length).filter fun i => decide (l[i]? = some (some v))

/-- mathutils.py:148-163 `argmax_all` of a 1-d array; `np.max` raises on an empty array and is NaN if an element
is. -/
def argmaxAll (l : List (Option K)) : Except Err (List Nat) :=
  if l = [] then .error .valueError else .ok (whereEq l (propmax l))

/-- mathutils.py:166-181 `argmin_all`. -/
def argminAll (l : List (Option K)) : Except Err (List Nat) :=
  if l = [] then .error .valueError else .ok (whereEq l (propmin l))

end Surfalize.Interp
