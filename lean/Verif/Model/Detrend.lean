import Verif.Prelude.Err
import Verif.Prelude.GridFn
import Verif.Model.Geometry
import Verif.Model.BaseOps

/-!
# Model of `detrend_polynomial` and `level` (surfalize/surface.py:525-606, surfalize/profile.py:159-211)

`np.linalg.lstsq` and the solver inside `np.polynomial.polynomial.polyfit` are a parameter `lstsq`; what is
assumed about it is the predicate `IsLstsq` in `Verif.Spec.Detrend` (it returns some minimiser of the sum of
squared residuals). Arithmetic is exact.
-/
namespace Surfalize.Detrend
open Surfalize Geometry

variable {K : Type} [Field K] [LinearOrder K]

/-- `np.dot` of two vectors. -/
def dot (a b : List K) : K := (List.zipWith (fun x y => x * y) a b).sum

/-- A least squares solver: number of columns, matrix (as list of rows) and right hand side to coefficients. -/
abbrev Lstsq (K : Type) := Nat → List (List K) → List K → List K

/-- surface.py:563-567: the pixel index normalised as `(x - x.mean()) / x.max()` for an axis with `n` points.
Mean and maximum of the index grid are those of `0..n-1`. -/
def normCoord (n k : Nat) : K := ((k : K) - mean ((List.range n).map fun i : Nat => (i : K))) / ((n : K) - 1)

/-- surface.py:580-583, 589-592: exponents of the columns after the column of ones, in order. -/
def exponents (degree : Nat) : List (Nat × Nat) :=
  (0, 0) :: (List.range degree).flatMap fun i => (List.range (i + 2)).map fun j => (i + 1 - j, j)

/-- One row of the design matrix. The column of ones is `x^0 * y^0`. -/
def designRow (degree : Nat) (x y : K) : List K := (exponents degree).map fun e => x ^ e.1 * y ^ e.2

/-- surface.py:573-577: the measured pixels with their heights, in row-major order. -/
def validPixels (g : Grid (Option K)) : List ((Nat × Nat) × K) :=
  (pixels g.ny g.nx).filterMap fun p => (g.get p.1 p.2).map fun z => (p, z)

/-- surface.py:560-606 `detrend_polynomial`: the detrended heights and the trend.
An axis with a single point makes `x.max()` zero; the coordinates are then NaN and `lstsq` raises LinAlgError
(unless `degree = 0`, where the coordinates are not used). An empty array raises ValueError in `x.max()`. -/
def detrend2 (lstsq : Lstsq K) (degree : Nat) (g : Grid (Option K)) :
    Except Err (Grid (Option K) × Grid (Option K)) :=
  if g.ny = 0 ∨ g.nx = 0 then .error .valueError
  else if (g.ny = 1 ∨ g.nx = 1) ∧ degree ≠ 0 then .error .linAlg
  else
    let row := fun (i j : Nat) => designRow degree (normCoord g.nx j : K) (normCoord g.ny i)
    let v := validPixels g
    let coeffs := lstsq (exponents degree).length (v.map fun p => row p.1.1 p.1.2) (v.map fun p => p.2)
    let trend := fun (i j : Nat) => dot (row i j) coeffs
    .ok (Grid.ofFn g.ny g.nx fun i j => (g.get i j).map fun z => z - trend i j,
         Grid.ofFn g.ny g.nx fun i j => some (trend i j))

/-- surface.py:541 `level`. -/
def level2 (lstsq : Lstsq K) (g : Grid (Option K)) := detrend2 lstsq 1 g

/-- One row of the Vandermonde matrix of `polyfit`. -/
def vanderRow (degree : Nat) (x : K) : List K := (List.range (degree + 1)).map fun a => x ^ a

/-- `data[k]` of a profile. -/
def at1 {α : Type} (p : List (Option α)) (k : Nat) : Option α := (p[k]?).getD none

/-- profile.py:195-196: the measured points with their heights. -/
def validPoints (p : List (Option K)) : List (Nat × K) :=
  (List.range p.length).filterMap fun k => (at1 p k).map fun z => (k, z)

/-- profile.py:193-211 `Profile.detrend_polynomial`. `polyfit` raises TypeError when nothing is measured.
`polyval` evaluates the polynomial with the fitted coefficients. -/
def detrend1 (lstsq : Lstsq K) (degree : Nat) (p : List (Option K)) :
    Except Err (List (Option K) × List (Option K)) :=
  if measured p = [] then .error .typeError
  else
    let x := fun k : Nat => (linspace (-1 : K) 1 p.length).getD k 0
    let v := validPoints p
    let coeffs := lstsq (degree + 1) (v.map fun q => vanderRow degree (x q.1)) (v.map fun q => q.2)
    let trend := fun k : Nat => dot (vanderRow degree (x k)) coeffs
    .ok ((List.range p.length).map fun k => (at1 p k).map fun z => z - trend k,
         (List.range p.length).map fun k => some (trend k))

/-- profile.py:174 `Profile.level`. -/
def level1 (lstsq : Lstsq K) (p : List (Option K)) := detrend1 lstsq 1 p

end Surfalize.Detrend
