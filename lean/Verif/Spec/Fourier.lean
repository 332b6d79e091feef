import Verif.Prelude.GridFn
import Mathlib.Analysis.SpecialFunctions.Trigonometric.Basic
import Mathlib.Analysis.SpecialFunctions.Complex.Log
import Mathlib.Data.Int.Interval

/-! Vocabulary for C43–C45. -/
namespace Surfalize.Spec

/-- What `np.argsort` guarantees: the indices, ordered by ascending value. -/
def IsArgsort (argsort : List ℝ → List Nat) : Prop :=
  ∀ l, (argsort l).Perm (List.range l.length) ∧ (argsort l).Pairwise fun i j => l.getD i 0 ≤ l.getD j 0

/-- The spectral component with `ky` periods over the `N` rows and `kx` periods over the `M` columns of the heights,
taken relative to their mean. -/
noncomputable def component (N M : Nat) (h : Nat → Nat → ℝ) (k : Int × Int) : ℂ :=
  ∑ i ∈ Finset.range N, ∑ j ∈ Finset.range M,
    ((h i j - (∑ a ∈ Finset.range N, ∑ b ∈ Finset.range M, h a b) / (N * M) : ℝ) : ℂ)
      * Complex.exp (-(2 * Real.pi * Complex.I) * ((k.1 : ℂ) * i / N + (k.2 : ℂ) * j / M))

/-- The frequencies an `N × M` array can represent. -/
def Representable (N M : Nat) (k : Int × Int) : Prop :=
  -(N / 2 : Nat) ≤ k.1 ∧ k.1 < N - (N / 2 : Nat) ∧ -(M / 2 : Nat) ≤ k.2 ∧ k.2 < M - (M / 2 : Nat)

/-- A fully measured surface showing a cosine grating with `ky` periods over the `N` rows and `kx` periods over the
`M` columns: the height at row `i` and column `j` is `c + a·cos(2π(ky·i/N + kx·j/M) + φ)`. -/
structure Grating (g : Grid (Option ℝ)) (c a φ : ℝ) (ky kx : Int) : Prop where
  wf : g.WF
  heights : ∀ i < g.ny, ∀ j < g.nx, g.get i j = some (c + a * Real.cos
    (2 * Real.pi * ((ky : ℝ) * i / g.ny + (kx : ℝ) * j / g.nx) + φ))
  /-- the grating has contrast -/
  contrast : a ≠ 0
  /-- it is not constant -/
  nonzero : ky ≠ 0 ∨ kx ≠ 0
  /-- it is sampled with more than two points per period -/
  nyquist_y : 2 * |ky| < g.ny
  nyquist_x : 2 * |kx| < g.nx

/-- The signed frequency of index `u` of an unshifted transform of length `n`. -/
def signedFreq (n u : Nat) : Int := if 2 * u < n then u else (u : Int) - n

/-- The set of representable frequencies. -/
noncomputable def freqs (N M : Nat) : Finset (Int × Int) :=
  Finset.Ico (-((N / 2 : Nat) : Int)) (N - (N / 2 : Nat)) ×ˢ Finset.Ico (-((M / 2 : Nat) : Int)) (M - (M / 2 : Nat))

/-- `θ` degrees is the direction, without sign, of the wave vector `(kx/W, ky/H)`: it lies in `[0, 180)` and
`(cos θ, sin θ)` is parallel to the wave vector. A vanishing wave vector counts as direction 0. -/
def IsDirection (W H : ℝ) (k : Int × Int) (θ : ℝ) : Prop :=
  0 ≤ θ ∧ θ < 180 ∧ (k.2 / W) * Real.sin (θ * Real.pi / 180) = (k.1 / H) * Real.cos (θ * Real.pi / 180) ∧
    (k = (0, 0) → θ = 0)

open Classical in
/-- The sum of the amplitudes to the power `e` of the spectral components whose direction lies in `[lo, hi)`. -/
noncomputable def sector (N M : Nat) (h : Nat → Nat → ℝ) (W H : ℝ) (e : Nat) (lo hi : ℝ) : ℝ :=
  ∑ k ∈ (freqs N M).filter (fun k => ∃ θ, IsDirection W H k θ ∧ lo ≤ θ ∧ θ < hi), ‖component N M h k‖ ^ e

end Surfalize.Spec
