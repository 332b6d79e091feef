import Verif.Spec.Fourier

/-! Vocabulary for C97 and C98. -/
namespace Surfalize.Spec
open Surfalize

/-- A fully measured surface whose strongest wave has `ky` periods over its rows and `kx` periods over its columns:
every other wave is strictly weaker. (A wave and its opposite are the same wave.) -/
structure Dominated (g : Grid (Option ℝ)) (ky kx : Int) : Prop where
  wf : g.WF
  full : ∀ i < g.ny, ∀ j < g.nx, ∃ z, g.get i j = some z
  /-- it is not constant -/
  nonzero : ky ≠ 0 ∨ kx ≠ 0
  /-- it is sampled with more than two points per period -/
  nyquist_y : 2 * |ky| < g.ny
  nyquist_x : 2 * |kx| < g.nx
  strongest : ∀ k, Representable g.ny g.nx k → k ≠ (ky, kx) → k ≠ (-ky, -kx) →
    ‖component g.ny g.nx g.val k‖ < ‖component g.ny g.nx g.val (ky, kx)‖

/-- A fully measured surface showing a cosine grating of amplitude `a` and a deviation `e` from it, of any form, whose
root mean square is less than a quarter of the amplitude. -/
structure NoisyGrating (g : Grid (Option ℝ)) (c a φ : ℝ) (ky kx : Int) (e : Nat → Nat → ℝ) : Prop where
  wf : g.WF
  heights : ∀ i < g.ny, ∀ j < g.nx, g.get i j = some (c + a * Real.cos
    (2 * Real.pi * ((ky : ℝ) * i / g.ny + (kx : ℝ) * j / g.nx) + φ) + e i j)
  nonzero : ky ≠ 0 ∨ kx ≠ 0
  nyquist_y : 2 * |ky| < g.ny
  nyquist_x : 2 * |kx| < g.nx
  small : (∑ i ∈ Finset.range g.ny, ∑ j ∈ Finset.range g.nx, e i j ^ 2) / (g.ny * g.nx) < (a / 4) ^ 2

/-- `g'` is `g` with every height `z` replaced by `a·z + b`. -/
def IsAffine (g g' : Grid (Option ℝ)) (a b : ℝ) : Prop :=
  g'.WF ∧ g'.ny = g.ny ∧ g'.nx = g.nx ∧ ∀ i < g.ny, ∀ j < g.nx, g'.get i j = (g.get i j).map fun z => a * z + b

/-- `g'` is `g` mirrored left and right. -/
def IsMirror (g g' : Grid (Option ℝ)) : Prop :=
  g'.WF ∧ g'.ny = g.ny ∧ g'.nx = g.nx ∧ ∀ i < g.ny, ∀ j < g.nx, g'.get i j = g.get i (g.nx - 1 - j)

/-- `g'` is `g` with rows and columns exchanged. -/
def IsTranspose (g g' : Grid (Option ℝ)) : Prop :=
  g'.WF ∧ g'.ny = g.nx ∧ g'.nx = g.ny ∧ ∀ i < g.nx, ∀ j < g.ny, g'.get i j = g.get j i

/-- The order `np.argsort` gives depends on the comparisons of the values only, so it does not change when all values
are multiplied by the same positive number. -/
def ScaleFree (argsort : List ℝ → List Nat) : Prop :=
  ∀ (c : ℝ), 0 < c → ∀ l : List ℝ, argsort (l.map fun z => c * z) = argsort l

end Surfalize.Spec
