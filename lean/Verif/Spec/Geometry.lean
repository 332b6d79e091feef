import Verif.Prelude.Py

/-! Specification vocabulary for cropping, zooming, slicing and profiles. -/
namespace Surfalize.Spec
open Surfalize
variable {α : Type}

/-- The point in row `i` (counted from the top) and column `j`; `none` outside the array. -/
def at? (g : Grid α) (i j : Nat) : Option α := (g.rows[i]?).bind fun r => r[j]?

/-- `h` is the rectangular block of `g` with upper left corner (row `y0`, column `x0`) and shape
`(ny, nx)`. -/
structure IsBlock (g h : Grid α) (y0 x0 ny nx : Nat) : Prop where
  wf : h.WF
  shape : h.ny = ny ∧ h.nx = nx
  inside : y0 + ny ≤ g.ny ∧ x0 + nx ≤ g.nx
  points : ∀ i < ny, ∀ j < nx, at? h i j = at? g (y0 + i) (x0 + j)

/-- Python reference, "slicings": the index of the `i`-th element selected by `s` from a sequence of
length `n`, if there is one: `start + i*step`, never reaching `stop`; absent bounds are the ends, negative
bounds count from the end, bounds outside are clipped to the ends. -/
def sliceIdx (n : Nat) (s : PySlice) (i : Nat) : Option Nat :=
  let k := s.step.getD 1
  let fromEnd : Int → Int := fun v => if v < 0 then v + n else v
  if 0 < k then
    let start : Int := match s.start with
      | none => 0
      | some v => max 0 (min n (fromEnd v))
    let stop : Int := match s.stop with
      | none => n
      | some v => max 0 (min n (fromEnd v))
    let x := start + i * k
    if x < stop then some x.toNat else none
  else
    let start : Int := match s.start with
      | none => n - 1
      | some v => max (-1) (min (n - 1) (fromEnd v))
    let stop : Int := match s.stop with
      | none => -1
      | some v => max (-1) (min (n - 1) (fromEnd v))
    let x := start + i * k
    if stop < x then some x.toNat else none

/-- one-dimensional block -/
structure IsBlock1 (l h : List α) (x0 n : Nat) : Prop where
  len : h.length = n
  inside : x0 + n ≤ l.length
  points : ∀ i < n, h[i]? = l[x0 + i]?

end Surfalize.Spec
