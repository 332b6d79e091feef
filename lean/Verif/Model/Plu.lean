import Verif.Model.FileArray
import Verif.Prelude.GridFn
/-!
# Sensofar PLu files: surfalize/file/plu.py

`dateutil.parser.parse` is a parameter. Infinities are not distinguished from NaN.
-/
namespace Surfalize
namespace Plu
open LayoutM FileArr

/-- `LAYOUT_CALIBRATION` (surfalize/file/plu.py:10-21). -/
def calibration (K : Type) : List (Entry K) :=
  [.field "yres" (.fixed (.int false false 4)), .field "xres" (.fixed (.int false false 4)),
   .field "N_tall" (.fixed (.int false false 4)), .field "dy_multip" (.fixed (.flt false false 1)),
   .field "mppx" (.fixed (.flt false false 1)), .field "mppy" (.fixed (.flt false false 1)),
   .field "x_0" (.fixed (.flt false false 1)), .field "y_0" (.fixed (.flt false false 1)),
   .field "mpp_tall" (.fixed (.flt false false 1)), .field "z0" (.fixed (.flt false false 1))]

/-- `LAYOUT_MEASURE_CONFIG` (surfalize/file/plu.py:23-45). -/
def measureConfig (K : Type) : List (Entry K) :=
  [.field "type" (.fixed (.int false false 4)), .field "algorithm" (.fixed (.int false false 4)),
   .field "method" (.fixed (.int false false 4)), .field "objective" (.fixed (.int false false 4)),
   .field "area" (.fixed (.int false false 4)), .field "xres_area" (.fixed (.int false false 4)),
   .field "yres_area" (.fixed (.int false false 4)), .field "xres" (.fixed (.int false false 4)),
   .field "yres" (.fixed (.int false false 4)), .field "na" (.fixed (.int false false 4)),
   .field "incr_z" (.fixed (.flt true false 1)), .field "range" (.fixed (.flt false false 1)),
   .field "n_planes" (.fixed (.int false false 4)), .field "tpc_umbral_F" (.fixed (.int false false 4)),
   .field "restore" (.fixed (.int true false 1)), .field "num_layers" (.fixed (.int true false 1)),
   .field "version" (.fixed (.int true false 1)), .field "config_hardware" (.fixed (.int true false 1)),
   .field "stack_in_num" (.fixed (.int true false 1)), .reserved 3,
   .field "factorio_delmacio" (.fixed (.int false false 4))]

section
variable {K : Type} [Field K] [LinearOrder K]

/-- `NON_MEASURED_VALUE` (surfalize/file/plu.py:5). -/
def nonMeasured : Nat := 1000001

/-- The height stored in an item (surfalize/file/plu.py:66). -/
def height (bs : Bytes) : Option K :=
  match decFloat K false bs with
  | some x => if x = (nonMeasured : K) then none else some x
  | none => none

/-- An image layer (surfalize/file/plu.py:61-64). -/
inductive Layer where
  | gray (g : Grid Int)
  | rgb (r g b : Grid Int)

/-- A channel of the image: every third value. -/
def channel (l : List Int) (ny nx c : Nat) : Grid Int :=
  Grid.ofFn ny nx fun i j => l.getD ((i * nx + j) * 3 + c) 0

/-- The image behind the heights (surfalize/file/plu.py:57-64). -/
def image (ny nx : Nat) (h : Handle) : Except Err Layer :=
  match readArray 1 (bytesInt false false 1) ((nx * ny * 3 : Nat) : Int) 16 h with
  | .error e => .error e
  | .ok (l, _) =>
    if l.length ≠ ny * nx * 3 then .error .valueError
    else if ∀ i < ny, ∀ j < nx, l.getD ((i * nx + j) * 3) 0 = l.getD ((i * nx + j) * 3 + 1) 0 ∧
        l.getD ((i * nx + j) * 3) 0 = l.getD ((i * nx + j) * 3 + 2) 0 then .ok (.gray (channel l ny nx 0))
    else .ok (.rgb (channel l ny nx 0) (channel l ny nx 1) (channel l ny nx 2))

/-- The data behind the headers (surfalize/file/plu.py:54-73). Steps that are not numbers, which numpy would pass on,
are a ValueError here. -/
def surface (images : Bool) (d : Dict K) (h : Handle) : Except Err (Raw K × Option Layer) :=
  match getInt d "xres", getInt d "yres", getNum d "mppx", getNum d "mppy" with
  | .ok nx, .ok ny, .ok sx, .ok sy =>
    match readArray 4 (height (K := K)) (nx * ny) 0 h with
    | .error e => .error e
    | .ok (l, h') =>
      match (if images then (image ny.toNat nx.toNat h').map some else .ok none) with
      | .error e => .error e
      | .ok im =>
        match reshape l ny nx, sx, sy with
        | .ok g, some sx, some sy => .ok (⟨g, sx, sy⟩, im)
        | .error e, _, _ => .error e
        | _, _, _ => .error .valueError
  | _, _, _, _ => .error .typeError

/-- `read_plu` (surfalize/file/plu.py:47-73). -/
def readPlu (parseDate : List Char → Except Err Unit) (enc : Encoding) (images : Bool) (h : Handle) :
    Except Err (Raw K × Option Layer) :=
  match decode enc (h.read 128).1 with
  | .error e => .error e
  | .ok s =>
    match parseDate (rstrip (fun c => c = '\x00') s) with
    | .error e => .error e
    | .ok () =>
      match LayoutM.read enc ((h.read 128).2.skip 260) (calibration K) with
      | .error e => .error e
      | .ok (d, h1) =>
        match LayoutM.read enc h1 (measureConfig K) with
        | .error e => .error e
        | .ok (_, h2) => surface images d h2

end
end Plu
end Surfalize
