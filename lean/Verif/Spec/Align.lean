import Verif.Prelude.GridFn
import Mathlib.Analysis.SpecialFunctions.Trigonometric.Basic
/-! Vocabulary for C127. -/
namespace Surfalize.Spec

/-- The array `rot` shows the heights `F row column`, known on an array of shape `(ny, nx)`, turned about the centre by
`angle` degrees: it has room for the turned array, and every point of it whose place before turning lies on the array
has the height of that place. This is the documented behaviour of `scipy.ndimage.rotate`, with ideal interpolation. -/
structure Turned (F : ℝ → ℝ → ℝ) (ny nx : Nat) (angle : ℝ) (rot : Grid (Option ℝ)) : Prop where
  wf : rot.WF
  rows : rot.ny = ⌊(ny : ℝ) * |Real.cos (angle * Real.pi / 180)| + nx * |Real.sin (angle * Real.pi / 180)| + 1 / 2⌋₊
  cols : rot.nx = ⌊(ny : ℝ) * |Real.sin (angle * Real.pi / 180)| + nx * |Real.cos (angle * Real.pi / 180)| + 1 / 2⌋₊
  heights : ∀ i < rot.ny, ∀ j < rot.nx, ∀ y x r c : ℝ, y = i - ((rot.ny : ℝ) - 1) / 2 → x = j - ((rot.nx : ℝ) - 1) / 2 →
    r = ((ny : ℝ) - 1) / 2 + Real.cos (angle * Real.pi / 180) * y + Real.sin (angle * Real.pi / 180) * x →
    c = ((nx : ℝ) - 1) / 2 - Real.sin (angle * Real.pi / 180) * y + Real.cos (angle * Real.pi / 180) * x →
    0 ≤ r → r ≤ (ny : ℝ) - 1 → 0 ≤ c → c ≤ (nx : ℝ) - 1 → rot.get i j = some (F r c)

/-- Places off the array have height 0 after turning, the documented default (`mode='constant'`, `cval=0.0`). -/
def ZeroOutside (ny nx : Nat) (angle : ℝ) (rot : Grid (Option ℝ)) : Prop :=
  ∀ i < rot.ny, ∀ j < rot.nx, ∀ y x r c : ℝ, y = i - ((rot.ny : ℝ) - 1) / 2 → x = j - ((rot.nx : ℝ) - 1) / 2 →
    r = ((ny : ℝ) - 1) / 2 + Real.cos (angle * Real.pi / 180) * y + Real.sin (angle * Real.pi / 180) * x →
    c = ((nx : ℝ) - 1) / 2 - Real.sin (angle * Real.pi / 180) * y + Real.cos (angle * Real.pi / 180) * x →
    r < 0 ∨ (ny : ℝ) - 1 < r ∨ c < 0 ∨ (nx : ℝ) - 1 < c → rot.get i j = some 0

/-- The heights of the grating with `ky` periods over `ny` rows and `kx` periods over `nx` columns, also between the
points. -/
noncomputable def wave (c a φ : ℝ) (ky kx : Int) (ny nx : Nat) (row col : ℝ) : ℝ :=
  c + a * Real.cos (2 * Real.pi * ((ky : ℝ) * row / ny + (kx : ℝ) * col / nx) + φ)

/-- The heights do not change along the named axis: 'y' runs down the columns, 'x' along the rows. -/
def Straight (axis : String) (d : Grid (Option ℝ)) : Prop :=
  (axis = "y" → ∀ i < d.ny, ∀ i' < d.ny, ∀ j < d.nx, d.get i j = d.get i' j) ∧
  (axis = "x" → ∀ i < d.ny, ∀ j < d.nx, ∀ j' < d.nx, d.get i j = d.get i j')

end Surfalize.Spec
