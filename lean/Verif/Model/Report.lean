import Verif.Model.Cli
import Verif.Model.Convert
import Verif.Model.Roughness
import Verif.Prelude.Text

/-!
# Model of `surfalize report` (surfalize/cli.py:18-44, 241-334)

The files that are reported, the processing, the evaluation of the parameters and the table that is written. The two
plots (surfalize/cli.py:272-284) either succeed or raise; the layout of the PDF file and `--open-after` are not
modelled: the bytes of the file are some function of the title and the rows of the table. Methods of the surface are
evaluated on its present heights (C01 is about the cache).
-/
namespace Surfalize.Report
open Surfalize Object

/-- A number a parameter may evaluate to. -/
inductive Num (K : Type) where
  | fin (x : K)
  | nan
  | inf (neg : Bool)

section
variable {K : Type} [Field K] [LinearOrder K] [FloorRing K]

/-- The nearest integer, the even one of two (what the formatting of Python floats rounds to). -/
def roundEven (y : K) : Int :=
  if y - ⌊y⌋ < 1 / 2 then ⌊y⌋
  else if 1 / 2 < y - ⌊y⌋ then ⌊y⌋ + 1
  else if ⌊y⌋ % 2 = 0 then ⌊y⌋ else ⌊y⌋ + 1

/-- A digit. -/
def digit (d : Nat) : Char := Char.ofNat (d % 10 + 48)

/-- `f'{x:.3f}'` of a finite number (surfalize/cli.py:314, 326). -/
def fixed3 (x : K) : List Char :=
  let n := (roundEven (|x| * 1000)).toNat
  (if x < 0 then ['-'] else []) ++ natText (n / 1000) ++ '.' :: [digit (n / 100), digit (n / 10), digit n]

/-- `f'{v:.3f}'` (surfalize/cli.py:314, 326). -/
def Num.text : Num K → List Char
  | .fin x => fixed3 x
  | .nan => "nan".toList
  | .inf neg => if neg then "-inf".toList else "inf".toList

end

/-- surfalize/cli.py:18-44 `PARAMETER_UNITS`. -/
def units : List (String × String) :=
  [("Sa", "µm"), ("Sq", "µm"), ("Sv", "µm"), ("Sp", "µm"), ("Sz", "µm"), ("Ssk", ""), ("Sku", ""), ("Sdr", "%"),
   ("Sdq", ""), ("Sk", "µm"), ("Spk", "µm"), ("Svk", "µm"), ("Sxp", "µm"), ("Sal", "µm"), ("Str", ""), ("Smr1", "%"),
   ("Smr2", "%"), ("Vmp", "µm³/µm²"), ("Vmc", "µm³/µm²"), ("Vvc", "µm³/µm²"), ("Vvv", "µm³/µm²"), ("Period", "µm"),
   ("Depth", "µm"), ("Aspect ratio", ""), ("Homogeneity", "")]

/-- A row of the table: one cell over all columns, or name, value and unit. -/
inductive Row where
  | wide (title : String)
  | entry (name : String) (value : List Char) (unit : String)
  deriving DecidableEq

/-- `dict[key]` -/
def get {V : Type} (d : List (String × V)) (k : String) : Except Err V :=
  match d.lookup k with
  | some v => .ok v
  | none => .error .keyError

/-- What the report uses of the surface: the methods called without arguments, `depth()[0]`, and the plots. -/
structure Methods (S K : Type) where
  param : String → S → Except Err (Num K)
  depth : S → Except Err (Num K)
  plots : S → Except Err Unit

section
variable {K : Type} [Field K] [LinearOrder K] [FloorRing K] {S : Type}

/-- The row of one parameter (surfalize/cli.py:312-315, 324-327). -/
def entry (data : List (String × Num K)) (p : String) : Except Err Row :=
  (get data p).bind fun v => (get units p).map fun u => .entry p v.text u

/-- surfalize/cli.py:308-315 `group`. -/
def group (data : List (String × Num K)) (title : String) (params : List String) : Except Err (List Row) :=
  (params.mapM (entry data)).map fun l => .wide title :: l

/-- surfalize/cli.py:287 `surface.roughness_parameters()`: all ISO parameters, in order. -/
def isoData (M : Methods S K) (s : S) : Except Err (List (String × Num K)) :=
  Roughness.surfaceIso.mapM fun p => (M.param p s).map fun v => (p, v)

/-- surfalize/cli.py:289-295 `periodic_data`. -/
def periodicData (M : Methods S K) (s : S) : Except Err (List (String × Num K)) :=
  (M.param "period" s).bind fun p => (M.depth s).bind fun d => (M.param "aspect_ratio" s).bind fun a =>
    (M.param "homogeneity" s).map fun h => [("Period", p), ("Depth", d), ("Aspect ratio", a), ("Homogeneity", h)]

/-- surfalize/cli.py:272-327: the rows of the table. -/
def rows (M : Methods S K) (periodic : Bool) (s : S) : Except Err (List Row) :=
  (M.plots s).bind fun _ => (isoData M s).bind fun data =>
  (if periodic then periodicData M s else .ok []).bind fun pdata =>
  (group data "Spatial" ["Sa", "Sq", "Sv", "Sp", "Sz"]).bind fun g1 =>
  (group data "Functional" ["Sk", "Spk", "Svk"]).bind fun g2 =>
  (if periodic then group pdata "Periodic" (pdata.map Prod.fst) else .ok []).map fun g3 =>
    .wide "ISO 25178" :: (g1 ++ g2 ++ g3)

end

section
variable {D K V : Type} [DecidableEq D] [Field K] [LinearOrder K] [FloorRing K]
open Surfalize.Convert Files

/-- The report of one file (surfalize/cli.py:264-331) of a directory. A name in the directory that is not a file (but a
directory) cannot be opened. -/
def reportFile (E : Ext K V) (read : Format → ReadFn (Surf K V)) (o : Cli.Opts K) (M : Methods (Surf K V) K)
    (periodic : Bool) (render : List Char → List Row → Bytes) (d : D) (n : List Char) (fs : FS D) : Except Err Unit × FS D :=
  match fs d n with
  | none => (.error .osError, fs)
  | some b =>
    match (Files.load (package read) (.path (suffix n) b) none).1 with
    | .error e => (.error e, fs)
    | .ok s =>
      match (Cli.perform E o s).bind (rows M periodic) with
      | .error e => (.error e, fs)
      | .ok t => (.ok (), fs.put d (reportName n) (render n t))

/-- The loop over the files (surfalize/cli.py:263). -/
def reportAll (E : Ext K V) (read : Format → ReadFn (Surf K V)) (o : Cli.Opts K) (M : Methods (Surf K V) K)
    (periodic : Bool) (render : List Char → List Row → Bytes) (d : D) : List (List Char) → FS D → Except Err Unit × FS D
  | [], fs => (.ok (), fs)
  | n :: ns, fs =>
    match reportFile E read o M periodic render d n fs with
    | (.error e, fs') => (.error e, fs')
    | (.ok _, fs') => reportAll E read o M periodic render d ns fs'

/-- `surfalize report` of the file `name` (`some`) or of all files (`none`) of a directory with this listing
(surfalize/cli.py:108-138, 241-334). `formats` is the set of supported formats in the order it is iterated in. -/
def report (E : Ext K V) (read : Format → ReadFn (Surf K V)) (args : List (Cli.Arg K)) (M : Methods (Surf K V) K)
    (periodic : Bool) (render : List Char → List Row → Bytes) (formats listing : List (List Char)) (d : D)
    (name : Option (List Char)) (fs : FS D) : Except Err Unit × FS D :=
  match Cli.check (Cli.parse args) with
  | .error e => (.error e, fs)
  | .ok _ =>
    reportAll E read (Cli.parse args) M periodic render d
      (match name with
        | some n => [n]
        | none => formats.flatMap fun e => glob listing e) fs

end
end Surfalize.Report
