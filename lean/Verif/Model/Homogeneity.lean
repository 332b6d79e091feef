import Verif.Model.Geometry

/-!
# Model of `Surface.homogeneity` (surfalize/surface.py:1495-1529)
-/
namespace Surfalize.Homogeneity
open Surfalize Geometry

variable {K : Type} [Field K] [LinearOrder K]

/-- `np.cumsum` with a starting value. -/
def cumsumFrom (acc : K) : List K → List K
  | [] => []
  | x :: l => (acc + x) :: cumsumFrom (acc + x) l

/-- `scipy.integrate.trapezoid(y, dx)`. -/
def trapezoidDx (dx : K) : List K → K
  | a :: b :: l => (a + b) / 2 * dx + trapezoidDx dx (b :: l)
  | _ => 0

/-- surface.py:1519-1528: `1 - gini` for one parameter's cell values `s`, sorted ascending. The sum of the values is
divided by; a sum of 0 gives NaN (`none`), except without any cell, where the trapezoid sum is empty and the index 0. -/
def giniIndex (s : List K) : Option K :=
  if s = [] then some 0
  else if s.sum = 0 then none
  else
    let lorenz := 0 :: (cumsumFrom 0 s).map fun x => x / s.sum
    let step := 1 / (s.length : K)
    let B := trapezoidDx step lorenz
    let A := 1 / 2 - B
    some (1 - A / (1 / 2))

section Floor
variable [FloorRing K]

/-- `ndarray.round(d)`. -/
def roundTo (d : Nat) (x : K) : K := (pyRound (x * 10 ^ d) : K) / 10 ^ d

/-- surface.py:1516-1528: the index of one parameter's cell values; a value that is NaN (`none`) stays NaN when rounded,
and the sum of the values and with it the whole Lorenz curve and the index are NaN. -/
def cellIndex (vals : List (Option K)) : Option K :=
  if none ∈ vals then none else giniIndex (sortAsc ((measured vals).map (roundTo 8)))

/-- surface.py:1495-1499 -/
def disallowed : List String := ["Ssk", "depth", "homogeneity", "orientation", "aspect_ratio", "period"]

/-- surface.py:1506-1512: the cells, row by row. -/
def cells {α : Type} (g : Grid α) (cy cx : Nat) : List (Grid α) :=
  (List.range (g.ny / cy)).flatMap fun i => (List.range (g.nx / cx)).map fun j =>
    sliceGrid g ((cy * i : Nat) : Int) (((cy * (i + 1) : Nat) : Int) - 1)
      ((cx * j : Nat) : Int) (((cx * (j + 1) : Nat) : Int) - 1)

/-- surface.py:1495-1529 `homogeneity(parameters, period)`. `param name cell` is `getattr(cell_surface, name)()`,
`none` where that is NaN. A cell length of 0 divides by zero; `period` is the given or computed period (positive). The mean of the indices is
NaN (`none`) when one of them is, or when no parameter is given. -/
def homogeneity {α : Type} (param : String → Grid α → Except Err (Option K)) (parameters : List String) (period : K)
    (stepX stepY : K) (g : Grid α) : Except Err (Option K) :=
  if parameters.any (fun p => disallowed.contains p) then .error .valueError
  else
    let cx := (pyInt (period / stepX)).toNat
    let cy := (pyInt (period / stepY)).toNat
    if cx = 0 ∨ cy = 0 then .error .zeroDivision
    else
      match parameters.mapM (fun p => (cells g cy cx).mapM (param p)) with
      | .error e => .error e
      | .ok results =>
        match results.mapM cellIndex with
        | none => .ok none
        | some [] => .ok none
        | some hs => .ok (some (roundTo 4 (mean hs)))

end Floor
end Surfalize.Homogeneity
