import Verif.Model.Object

/-!
# Model of the processing options of the command line (surfalize/cli.py:68-138)

The options shared by `show` and `report`: what the option parser makes of the arguments, which combinations are
rejected, and which operations are applied to the loaded surface. Plotting, the PDF layout and the text output are not
modelled.
-/
namespace Surfalize.Cli
open Surfalize Object

variable {K V : Type} [Field K] [LinearOrder K] [FloorRing K]

/-- cli.py:108-120 — one option on the command line with its values. -/
inductive Arg (K : Type) where
  | fillNonmeasured
  | level
  | center
  | zero
  | highpass (c : K)
  | lowpass (c : K)
  | bandpass (c1 c2 : K)
  | threshold (u l : K)
  | removeOutliers (n : Int)

/-- The keyword arguments click passes to the command: flags are booleans, an option that is not given is `None`. -/
structure Opts (K : Type) where
  fill : Bool := false
  level : Bool := false
  center : Bool := false
  zero : Bool := false
  highpass : Option K := none
  lowpass : Option K := none
  bandpass : Option (K × K) := none
  threshold : Option (K × K) := none
  outliers : Option Int := none

/-- One argument sets its own keyword; a repeated option keeps the last value (click). -/
def Opts.add (o : Opts K) : Arg K → Opts K
  | .fillNonmeasured => { o with fill := true }
  | .level => { o with level := true }
  | .center => { o with center := true }
  | .zero => { o with zero := true }
  | .highpass c => { o with highpass := some c }
  | .lowpass c => { o with lowpass := some c }
  | .bandpass a b => { o with bandpass := some (a, b) }
  | .threshold u l => { o with threshold := some (u, l) }
  | .removeOutliers n => { o with outliers := some n }

/-- The arguments of a command line, in the order they are written. -/
def parse (args : List (Arg K)) : Opts K := args.foldl Opts.add {}

/-- cli.py:122-134 — the checks of the option wrapper. -/
def check (o : Opts K) : Except Err Unit :=
  if ([o.highpass.isSome, o.lowpass.isSome, o.bandpass.isSome].filter id).length > 1 then .error .usage
  else if o.zero && o.center then .error .usage
  else .ok ()

/-- A method called with `inplace=True`, the surface afterwards. -/
def call (E : Ext K V) (op : SOp K) (s : Surf K V) : Except Err (Surf K V) := (run E op s true).map Prod.fst

/-- cli.py:68-101 `perform_surface_operations`. `fill_nonmeasured` is called with its default method `'nearest'`,
`remove_outliers` with its default method `'mean'`. -/
def perform (E : Ext K V) (o : Opts K) (s : Surf K V) : Except Err (Surf K V) :=
  (if o.fill then call E (.fillNonmeasured "nearest") s else .ok s).bind fun s =>
  (if o.level then call E (.level false) s else .ok s).bind fun s =>
  (if o.center then call E .center s else .ok s).bind fun s =>
  (if o.zero then call E .zero s else .ok s).bind fun s =>
  (match o.threshold with
    | some (u, l) => (call E (.threshold u l) s).bind (call E (.fillNonmeasured "nearest"))
    | none => .ok s).bind fun s =>
  (match o.outliers with
    | some n => (call E (.removeOutliersMean (n : K)) s).bind (call E (.fillNonmeasured "nearest"))
    | none => .ok s).bind fun s =>
  (match o.highpass with
    | some c => call E (.filter "highpass" c none) s
    | none => .ok s).bind fun s =>
  (match o.lowpass with
    | some c => call E (.filter "lowpass" c none) s
    | none => .ok s).bind fun s =>
  match o.bandpass with
    | some (a, b) => call E (.filter "bandpass" a (some b)) s
    | none => .ok s

/-- cli.py:155-156, 263-264 behind the wrapper of cli.py:122-136 — what a command does with the loaded surface before
it shows or reports it. -/
def process (E : Ext K V) (args : List (Arg K)) (s : Surf K V) : Except Err (Surf K V) :=
  (check (parse args)).bind fun _ => perform E (parse args) s

end Surfalize.Cli
