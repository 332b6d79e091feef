import Verif.Model.Interp
import Verif.Model.Geometry
import Verif.Model.Detrend
import Verif.Prelude.Py

/-!
# Model of the Abbott-Firestone curve and the functional parameters
(surfalize/abbottfirestone.py:1-362, surfalize/surface.py:1119-1318, surfalize/base.py:410-525)

The least squares solver inside `np.polyfit` and the order of ties in `np.argsort` are parameters.
-/
namespace Surfalize.Abbott
open Surfalize Interp Geometry

variable {K : Type} [Field K] [LinearOrder K] [FloorRing K]

/-- `np.quantile(data, q)` (linear method) of the sorted data `s`: linear interpolation at position `q (n - 1)`. -/
def quantile (s : List K) (q : K) : K :=
  let pos := q * ((s.length : K) - 1)
  let lo := ⌊pos⌋.toNat
  let a := s.getD lo 0
  let b := s.getD (min (lo + 1) (s.length - 1)) 0
  a + (pos - (lo : K)) * (b - a)

/-- abbottfirestone.py:54 `material_ratio`. -/
def ratios (nbins : Nat) : List K := linspace 0 100 nbins

/-- abbottfirestone.py:55 `height`. -/
def heights (nbins : Nat) (data : List K) : List K :=
  (ratios nbins).map fun m => quantile (sortAsc data) (1 - m / 100)

/-- abbottfirestone.py:79 `_smc_fit`: the curve interpolated at a material ratio. The ratios are increasing, so the
sorting in `interp1d` changes nothing. -/
def smcFit (mr h : List K) (p : K) : K := npInterp (List.zip mr h) p

/-- State of the search loop: best slope so far (`None` before the first pass) and `istart_final`. -/
abbrev SearchState (K : Type) := Option K × Nat

/-- abbottfirestone.py:84-103: the loop over `istart`, given the remaining curve points `(mr, height)`. Running off the
end of the array is an IndexError. -/
def search (smc : K → K) : List (K × K) → Nat → SearchState K → Except Err Nat
  | [], _, _ => .error .indexError
  | p :: rest, istart, st =>
    if p.1 > 100 - 40 then .ok st.2
    else
      let slope := (smc (p.1 + 40) - p.2) / 40
      match st.1 with
      | none => search smc rest (istart + 1) (some slope, st.2)
      | some best =>
        if slope > best then search smc rest (istart + 1) (some slope, istart)
        else search smc rest (istart + 1) (some best, st.2)

/-- abbottfirestone.py:108-112: the curve points of the central region starting at index `i`;
`searchsorted(..., side='right')` counts the ratios `≤ mr_start + 40`. -/
def region (mr h : List K) (i : Nat) : List (K × K) :=
  let iend := mr.countP fun m => decide (m ≤ mr.getD i 0 + 40)
  ((List.zip mr h).take iend).drop i

/-- The attributes of an `AbbottFirestoneCurve` after `__init__`. -/
structure Curve (K : Type) where
  data : List K
  mr : List K
  height : List K
  istart : Nat
  slope : K
  intercept : K

/-- abbottfirestone.py:27-121 `AbbottFirestoneCurve(obj, nbins)`. An empty array has no quantiles (modelled as
IndexError). `np.polyfit(x, y, 1)` is a least squares problem with the columns `x`, `1`. -/
def build (lstsq : Detrend.Lstsq K) (nbins : Nat) (data : List (Option K)) : Except Err (Curve K) :=
  if none ∈ data then .error .valueError
  else if data = [] then .error .indexError
  else
    let d := measured data
    let mr := ratios nbins
    let h := heights nbins d
    match search (smcFit mr h) (List.zip mr h) 0 (none, 0) with
    | .error e => .error e
    | .ok i =>
      let r := region mr h i
      let c := lstsq 2 (r.map fun p => [p.1, 1]) (r.map fun p => p.2)
      .ok { data := d, mr := mr, height := h, istart := i, slope := c.getD 0 0, intercept := c.getD 1 0 }

/-- abbottfirestone.py:115 `_yupper`. -/
def Curve.yupper (c : Curve K) : K := c.intercept
/-- abbottfirestone.py:117 `_ylower`. -/
def Curve.ylower (c : Curve K) : K := c.slope * 100 + c.intercept

/-- abbottfirestone.py:123-132 `k()` (Sk, Rk). -/
def Curve.k (c : Curve K) : K := c.yupper - c.ylower

/-- abbottfirestone.py:119, 134-147 `mr(c)` (Smr(c)): the ratios interpolated over the heights. -/
def Curve.mrAt (sort : PtSort K) (c : Curve K) (z : K) : K := npInterp (sort (List.zip c.height c.mr)) z

/-- abbottfirestone.py:149-162 `mc(mr)` (Smc). -/
def Curve.mc (c : Curve K) (p : K) : K := smcFit c.mr c.height p

/-- abbottfirestone.py:164-173 `mr1`. -/
def Curve.mr1 (sort : PtSort K) (c : Curve K) : K := c.mrAt sort c.yupper
/-- abbottfirestone.py:175-184 `mr2`. -/
def Curve.mr2 (sort : PtSort K) (c : Curve K) : K := c.mrAt sort c.ylower

/-- `trapezoid(y, x=x)` over the points `(y, x)`. -/
def trapezoid : List (K × K) → K
  | [] => 0
  | [_] => 0
  | p :: q :: r => (q.2 - p.2) * (p.1 + q.1) / 2 + trapezoid (q :: r)

/-- `|trapezoid(material_ratio[:idx], x=height[:idx])|` (abbottfirestone.py:201, 301). -/
def Curve.areaAbove (c : Curve K) (idx : Nat) : K := |trapezoid ((List.zip c.mr c.height).take idx)|
/-- `|trapezoid(100 - material_ratio[idx:], x=height[idx:])|` (abbottfirestone.py:216, 318). -/
def Curve.areaBelow (c : Curve K) (idx : Nat) : K :=
  |trapezoid ((List.zip (c.mr.map fun m => 100 - m) c.height).drop idx)|

/-- Division of numpy floats where 0/0 and x/0 are not numbers (`none` for NaN and infinities). -/
def divN (a b : K) : Option K := if b = 0 then none else some (a / b)

/-- abbottfirestone.py:186-203 `pk` (Spk). -/
def Curve.pk (sort : PtSort K) (c : Curve K) : Option K :=
  divN (2 * c.areaAbove (argclosest c.yupper c.height)) (c.mr1 sort)
/-- abbottfirestone.py:205-218 `vk` (Svk). -/
def Curve.vk (sort : PtSort K) (c : Curve K) : Option K :=
  divN (2 * c.areaBelow (argclosest c.ylower c.height)) (100 - c.mr2 sort)

/-- abbottfirestone.py:220-230 `pkx`; the data is not empty. -/
def Curve.pkx (c : Curve K) : K := (c.data.max?).getD 0 - c.yupper
/-- abbottfirestone.py:232-242 `vkx`. -/
def Curve.vkx (c : Curve K) : K := c.ylower - (c.data.min?).getD 0

/-- abbottfirestone.py:244-254 `ak1`. -/
def Curve.ak1 (sort : PtSort K) (c : Curve K) : Option K := (c.pk sort).map fun p => 1 / 2 * p * c.mr1 sort
/-- abbottfirestone.py:256-266 `ak2`. -/
def Curve.ak2 (sort : PtSort K) (c : Curve K) : Option K := (c.vk sort).map fun v => 1 / 2 * v * (100 - c.mr2 sort)

/-- abbottfirestone.py:268-284 `dc(p, q)` (Sdc). -/
def Curve.dc (c : Curve K) (p q : K) : K := c.mc p - c.mc q

/-- surface.py:1278-1294 `Sxp(p, q)`, through `Smc` (surface.py:1262-1275). -/
def Curve.sxp (c : Curve K) (p q : K) : K := c.mc p - c.mc q
/-- surface.py:1278 default arguments `Sxp(p=2.5, q=50)`. -/
def Curve.sxpDefault (c : Curve K) : K := c.sxp (5 / 2) 50
/-- surface.py:1297 default arguments `Sdc(p=2.5, q=50)`. -/
def Curve.sdcDefault (c : Curve K) : K := c.dc (5 / 2) 50

/-- abbottfirestone.py:286-301 `Vm(p)`. -/
def Curve.Vm (c : Curve K) (p : K) : K := c.areaAbove (argclosest (c.mc p) c.height) / 100
/-- abbottfirestone.py:303-318 `Vv(p)`. -/
def Curve.Vv (c : Curve K) (p : K) : K := c.areaBelow (argclosest (c.mc p) c.height) / 100

/-- abbottfirestone.py:320-329 `vmp`. -/
def Curve.vmp (c : Curve K) (p : K) : K := c.Vm p
/-- abbottfirestone.py:331-340 `vmc`. -/
def Curve.vmc (c : Curve K) (p q : K) : K := c.Vm q - c.Vm p
/-- abbottfirestone.py:342-351 `vvv`. -/
def Curve.vvv (c : Curve K) (q : K) : K := c.Vv q
/-- abbottfirestone.py:353-362 `vvc`. -/
def Curve.vvc (c : Curve K) (p q : K) : K := c.Vv p - c.Vv q

end Surfalize.Abbott
