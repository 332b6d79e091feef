import Verif.Model.BaseOps
import Verif.Prelude.GridFn
import Verif.Prelude.Py
import Mathlib.Analysis.SpecialFunctions.Complex.Log
import Mathlib.Analysis.SpecialFunctions.Trigonometric.Arctan

/-!
# Model of `FourierTransform` (surfalize/fourier.py:8-210)

`np.fft.fft2` is modelled as the exact discrete Fourier transform it computes, over the complex numbers.
`width`, `height` stand for `surface.width_um`, `surface.height_um`. The methods of the surface with these names
(surfalize/surface.py:1056-1067, 1317-1374) call these.
-/
namespace Surfalize.Fourier
open Surfalize BaseOps Finset Container

/-- `np.fft.fft2(d)[u, v]` of an array of shape `(N, M)`. -/
noncomputable def fft2 (N M : Nat) (d : Nat → Nat → ℝ) (u v : Nat) : ℂ :=
  ∑ i ∈ range N, ∑ j ∈ range M,
    (d i j : ℂ) * Complex.exp (-(2 * Real.pi * Complex.I) * ((u * i : ℂ) / N + (v * j : ℂ) / M))

/-- fourier.py:41, 123, 156 `surface.data - surface.data.mean()`. -/
noncomputable def centred (g : Grid (Option ℝ)) (i j : Nat) : ℝ := g.val i j - mean (measured (flat g))

/-- fourier.py:42 `np.abs(np.fft.fft2(data))[u, v]`. -/
noncomputable def amplitude (g : Grid (Option ℝ)) (u v : Nat) : ℝ := ‖fft2 g.ny g.nx (centred g) u v‖

/-- `np.fft.fftfreq(n, d)[k]` with `d = len / n`: numpy multiplies the integers `0, …, (n-1)//2, -(n//2), …, -1` by
`1 / (n * d)`. -/
noncomputable def fftfreq (n : Nat) (d : ℝ) (k : Nat) : ℝ :=
  (if k < (n - 1) / 2 + 1 then (k : ℝ) else (k : ℝ) - n) * (1 / (n * d))

/-- `np.fft.fftshift(x)[k] = x[(k - n//2) mod n]`. -/
def shiftIdx (n k : Nat) : Nat := (k + (n - n / 2)) % n

/-- `np.argsort` with numpy's default, unstable sort; see `Spec.IsArgsort`. -/
abbrev Argsort := List ℝ → List Nat

/-- fourier.py:42, 48: the flattened shifted amplitudes. -/
noncomputable def shiftedFlat (g : Grid (Option ℝ)) : List ℝ :=
  (pixels g.ny g.nx).map fun p => amplitude g (shiftIdx g.ny p.1) (shiftIdx g.nx p.2)

/-- fourier.py:45-46, 51-53: the frequency of the point with flat index `idx` of the shifted array, as `(x, y)`. -/
noncomputable def freqOf (g : Grid (Option ℝ)) (width height : ℝ) (idx : Nat) : ℝ × ℝ :=
  (fftfreq g.nx (width / g.nx) (shiftIdx g.nx (idx % g.nx)), fftfreq g.ny (height / g.ny) (shiftIdx g.ny (idx / g.nx)))

/-- fourier.py:26-65 `_get_peak_dx_dy` of a surface without missing points (the constructor, fourier.py:19-22, raises
ValueError otherwise). `fftfreq` divides by the extent, a single point has no second peak. -/
noncomputable def peakDxDy (argsort : Argsort) (g : Grid (Option ℝ)) (width height : ℝ) : Except Err (ℝ × ℝ) :=
  if hasMissing g then .error .valueError
  else if width = 0 ∨ height = 0 then .error .zeroDivision
  else
    match (argsort (shiftedFlat g)).reverse with
    | i0 :: i1 :: _ =>
      let a := freqOf g width height i0
      let b := freqOf g width height i1
      let peak0 := if a.1 > b.1 then b else a
      let peak1 := if a.1 > b.1 then a else b
      .ok (peak1.1 - peak0.1, peak0.2 - peak1.2)
    | _ => .error .indexError

/-- fourier.py:67-77 `period`: `2 / np.hypot(dx, dy)`, infinite (`none`) for two equal peaks. -/
noncomputable def period (argsort : Argsort) (g : Grid (Option ℝ)) (width height : ℝ) : Except Err (Option ℝ) :=
  (peakDxDy argsort g width height).map fun d =>
    let h := Real.sqrt (d.1 ^ 2 + d.2 ^ 2)
    if h = 0 then none else some (2 / h)

/-- fourier.py:79-91 `period_x_y`; `none` stands for infinity. -/
noncomputable def periodXY (argsort : Argsort) (g : Grid (Option ℝ)) (width height : ℝ) :
    Except Err (Option ℝ × Option ℝ) :=
  (peakDxDy argsort g width height).map fun d =>
    (if d.1 = 0 then none else some |2 / d.1|, if d.2 = 0 then none else some |2 / d.2|)

/-- fourier.py:93-112 `orientation` in degrees (`dx`, `dy` are finite). -/
noncomputable def orientation (argsort : Argsort) (g : Grid (Option ℝ)) (width height : ℝ) : Except Err ℝ :=
  (peakDxDy argsort g width height).map fun d =>
    if d.1 = 0 then 90 else if d.2 = 0 then 0 else Real.arctan (d.2 / d.1) * 180 / Real.pi

/-- fourier.py:114-131 `dominant_wavelength`; `none` stands for infinity. `np.argmax` of an empty array raises. -/
noncomputable def dominantWavelength (g : Grid (Option ℝ)) (width height : ℝ) : Except Err (Option ℝ) :=
  if hasMissing g then .error .valueError
  else if width = 0 ∨ height = 0 then .error .zeroDivision
  else if shiftedFlat g = [] then .error .valueError
  else
    let f := freqOf g width height (argmax (shiftedFlat g))
    let r := Real.sqrt (f.1 ^ 2 + f.2 ^ 2)
    .ok (if r = 0 then none else some (1 / r))

/-- `np.mod(a, m)` for positive `m`. -/
noncomputable def npMod (a m : ℝ) : ℝ := a - ⌊a / m⌋ * m

/-- fourier.py:159-163: the direction of the spectral component `(u, v)` of the unshifted transform, folded into
`[0, 180)`; `np.arctan2(y, x)` is the argument of `x + iy`. -/
noncomputable def theta (g : Grid (Option ℝ)) (width height : ℝ) (u v : Nat) : ℝ :=
  let fy := fftfreq g.ny (height / g.ny) u
  let fx := fftfreq g.nx (width / g.nx) v
  npMod (Complex.arg (fx + fy * Complex.I) * 180 / Real.pi) 180

/-- `np.arange(0, 180, step)` for positive `step`. -/
noncomputable def angles (step : ℝ) : List ℝ := (List.range ⌈180 / step⌉₊).map fun k : Nat => (k : ℝ) * step

/-- fourier.py:165 `np.minimum((theta / angle_step).astype(int), angles.size - 1)`. -/
noncomputable def binIdx (step t : ℝ) : Nat := min (pyInt (t / step)).toNat ((angles step).length - 1)

/-- fourier.py:133-167 `_angular_spectrum(angle_step, squared)`. `np.arange` divides by the step; for a negative step
there are no bins, all bin indices are negative and `np.bincount` raises ValueError. `np.bincount` adds up the weights
of the components of every bin. -/
noncomputable def angularSpectrum (g : Grid (Option ℝ)) (width height step : ℝ) (squared : Bool) :
    Except Err (List ℝ × List ℝ) :=
  if hasMissing g then .error .valueError
  else if width = 0 ∨ height = 0 then .error .zeroDivision
  else if step = 0 then .error .zeroDivision
  else if step < 0 then .error .valueError
  else
    let weight := fun p : Nat × Nat => if squared then amplitude g p.1 p.2 ^ 2 else amplitude g p.1 p.2
    let n := (angles step).length
    .ok (angles step, (List.range n).map fun k =>
      (((pixels g.ny g.nx).filter fun p => binIdx step (theta g width height p.1 p.2) = k).map weight).sum)

/-- fourier.py:188-210 `Std(angle_step)`. -/
noncomputable def std (g : Grid (Option ℝ)) (width height step : ℝ) : Except Err ℝ :=
  (angularSpectrum g width height step true).map fun s => s.1.getD (argmax s.2) 0

end Surfalize.Fourier
