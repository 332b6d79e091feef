import Verif.Model.Cli

/-! # Specification of the command line processing: the documented sequence of operations -/
namespace Surfalize.CliSpec
open Surfalize Object Cli

variable {K V : Type} [Field K] [LinearOrder K] [FloorRing K]

/-- The option an argument belongs to. -/
def kind : Arg K → String
  | .fillNonmeasured => "--fill-nonmeasured"
  | .level => "--level"
  | .center => "--center"
  | .zero => "--zero"
  | .highpass _ => "--highpass"
  | .lowpass _ => "--lowpass"
  | .bandpass _ _ => "--bandpass"
  | .threshold _ _ => "--threshold"
  | .removeOutliers _ => "--remove-outliers"

/-- The operations an argument asks for. -/
def ops : Arg K → List (SOp K)
  | .fillNonmeasured => [.fillNonmeasured "nearest"]
  | .level => [.level false]
  | .center => [.center]
  | .zero => [.zero]
  | .highpass c => [.filter "highpass" c none]
  | .lowpass c => [.filter "lowpass" c none]
  | .bandpass a b => [.filter "bandpass" a (some b)]
  | .threshold u l => [.threshold u l, .fillNonmeasured "nearest"]
  | .removeOutliers n => [.removeOutliersMean (n : K), .fillNonmeasured "nearest"]

/-- The documented order. -/
def order : List String :=
  ["--fill-nonmeasured", "--level", "--center", "--zero", "--threshold", "--remove-outliers", "--highpass", "--lowpass",
   "--bandpass"]

/-- The operations applied for a command line: for each option in the documented order, those of the arguments given
for it. -/
def plan (args : List (Arg K)) : List (SOp K) :=
  order.flatMap fun k => (args.filter fun a => decide (kind a = k)).flatMap ops

/-- Applying operations in place one after the other, stopping at the first exception. -/
def applyAll (E : Ext K V) : List (SOp K) → Surf K V → Except Err (Surf K V)
  | [], s => .ok s
  | op :: rest, s =>
    match run E op s true with
    | .ok (s', _) => applyAll E rest s'
    | .error e => .error e

/-- An argument that asks for a filter. -/
def isFilter : Arg K → Bool
  | .highpass _ => true
  | .lowpass _ => true
  | .bandpass _ _ => true
  | _ => false

/-- What is assumed of the numerical routines: a fitted trend has a value at every point of the surface it was fitted
to, the interpolation gives every point the height of some measured point, and `np.nanstd` is the root of the
variance. -/
structure Sound (E : Ext K V) : Prop where
  trend : ∀ g t, E.trend 1 g = .ok t → t.WF ∧ t.ny = g.ny ∧ t.nx = g.nx ∧ ∀ i < g.ny, ∀ j < g.nx, t.get i j ≠ none
  griddata : ∀ g, g.WF → measured (Container.flat g) ≠ [] → ∃ r, E.griddata "nearest" g = .ok r ∧ r.WF ∧ r.ny = g.ny ∧
    r.nx = g.nx ∧ ∀ i < g.ny, ∀ j < g.nx, r.get i j ≠ none
  std : ∀ l, 0 ≤ E.std l ∧ E.std l * E.std l = variance l

end Surfalize.CliSpec
