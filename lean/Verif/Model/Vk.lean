import Verif.Model.FileArray
import Verif.Prelude.GridFn
/-!
# Keyence VK4, VK6 and VK7 files: surfalize/file/vk.py

Arithmetic is exact. `zipfile` is a parameter. Image layers are lists of integer grids.
-/
namespace Surfalize
namespace Vk
open LayoutM FileArr

/-- `Entry(name, 'I')`. -/
def u32 {K : Type} (name : String) : Entry K := .field name (.fixed (.int false false 4))

/-- `LAYOUT_OFFSET_TABLE` (surfalize/file/vk.py:14-30). -/
def offsetTable (K : Type) : List (Entry K) :=
  [u32 "meas_conds", u32 "color_peak", u32 "color_light", u32 "light", .reserved 8, u32 "height", .reserved 8,
   u32 "clr_peak_thumb", u32 "clr_thumb", u32 "light_thumb", u32 "height_thumb", u32 "assembly_info",
   u32 "line_measure", u32 "line_thickness", u32 "string_data"]

/-- `LAYOUT_MEASUREMENT_CONDITIONS` (surfalize/file/vk.py:32-103). -/
def measurementConditions (K : Type) : List (Entry K) :=
  [u32 "size", u32 "year", u32 "month", u32 "day", u32 "hour", u32 "minute", u32 "second",
   .field "diff_from_UTC" (.fixed (.int true false 4)), u32 "img_attributes", u32 "user_interface_mode",
   u32 "color_composite_mode", u32 "img_layer_number", u32 "run_mode", u32 "peak_mode", u32 "sharpening_level",
   u32 "speed", u32 "distance", u32 "pitch", u32 "optical_zoom", u32 "number_of_lines", u32 "line0_position",
   .reserved 12, u32 "lens_magnification", u32 "PMT_gain_mode", u32 "PMT_gain", u32 "PMT_offset", u32 "ND_filter",
   .reserved 4, u32 "persist_count", u32 "shutter_speed_mode", u32 "shutter_speed", u32 "white_balance_mode",
   u32 "white_balance_red", u32 "white_balance_blue", u32 "camera_gain", u32 "plane_compensation",
   u32 "xy_length_unit", u32 "z_length_unit", u32 "xy_decimal_place", u32 "z_decimal_place",
   u32 "x_length_per_pixel", u32 "y_length_per_pixel", u32 "z_length_per_digit", .reserved 20,
   u32 "light_filter_type", .reserved 4, u32 "gamma_reverse", u32 "gamma", u32 "gamma_correction_offset",
   u32 "CCD_BW_offset", u32 "num_aperture", u32 "head_type", u32 "PMT_gain_2", u32 "omit_color_img", u32 "lens_ID",
   u32 "light_lut_mode", u32 "light_lut_in0", u32 "light_lut_out0", u32 "light_lut_in1", u32 "light_lut_out1",
   u32 "light_lut_in2", u32 "light_lut_out2", u32 "light_lut_in3", u32 "light_lut_out3", u32 "light_lut_in4",
   u32 "light_lut_out4", u32 "upper_position", u32 "lower_position", u32 "light_effective_bit_depth",
   u32 "height_effective_bit_depth"]

/-- `LAYOUT_HEIGHT_DATA` (surfalize/file/vk.py:105-114). -/
def heightData (K : Type) : List (Entry K) :=
  [u32 "width", u32 "height", u32 "bit_depth", u32 "compression", u32 "data_byte_size", u32 "palette_range_min",
   u32 "palette_range_max", .reserved 768]

/-- `LAYOUT_IMAGE_DATA` (surfalize/file/vk.py:116-122). -/
def imageData (K : Type) : List (Entry K) :=
  [u32 "width", u32 "height", u32 "bit_depth", u32 "compression", u32 "data_byte_size"]

/-- An RGB image. -/
structure Rgb where
  red : Grid Int
  green : Grid Int
  blue : Grid Int

/-- What `datetime(...)` is given. -/
structure Stamp where
  year : Int
  month : Int
  day : Int
  hour : Int
  minute : Int
  second : Int
  deriving DecidableEq

/-- Days of a month in the proleptic Gregorian calendar of `datetime`. -/
def daysInMonth (year month : Int) : Int :=
  if month = 2 then (if year % 4 = 0 ∧ (year % 100 ≠ 0 ∨ year % 400 = 0) then 29 else 28)
  else if month = 4 ∨ month = 6 ∨ month = 9 ∨ month = 11 then 30
  else 31

/-- `datetime(year, month, day, hour, minute, second)` of non-negative numbers: OverflowError beyond a C `int`,
ValueError if there is no such time. -/
def datetime (s : Stamp) : Except Err Stamp :=
  if 2 ^ 31 ≤ s.year ∨ 2 ^ 31 ≤ s.month ∨ 2 ^ 31 ≤ s.day ∨ 2 ^ 31 ≤ s.hour ∨ 2 ^ 31 ≤ s.minute ∨ 2 ^ 31 ≤ s.second then
    .error .overflow
  else if 1 ≤ s.year ∧ s.year ≤ 9999 ∧ 1 ≤ s.month ∧ s.month ≤ 12 ∧ 1 ≤ s.day ∧ s.day ≤ daysInMonth s.year s.month ∧
      0 ≤ s.hour ∧ s.hour ≤ 23 ∧ 0 ≤ s.minute ∧ s.minute ≤ 59 ∧ 0 ≤ s.second ∧ s.second ≤ 59 then .ok s
  else .error .valueError

/-- `text[::2]`. -/
def everyOther {α : Type} : List α → List α
  | [] => []
  | [a] => [a]
  | a :: _ :: l => a :: everyOther l

/-- A text of `read_string_data` (surfalize/file/vk.py:149-155): a number of characters and twice as many bytes,
fewer at the end of the file. -/
def readText (enc : Encoding) (h : Handle) : Except Err (List Char × Handle) :=
  if (h.read 4).1.length ≠ 4 then .error .structError
  else
    let r := (h.read 4).2.read (leNat (h.read 4).1 * 2)
    match decode enc r.1 with
    | .error e => .error e
    | .ok s => .ok (everyOther s, r.2)

/-- `read_string_data` (surfalize/file/vk.py:146-156): title and name of the lens. -/
def readStrings (enc : Encoding) (off : Nat) (h : Handle) : Except Err (List Char × List Char) :=
  match readText enc (h.seek off) with
  | .error e => .error e
  | .ok (title, h1) =>
    match readText enc h1 with
    | .error e => .error e
    | .ok (lens, _) => .ok (title, lens)

/-- The metadata the reader keeps (surfalize/file/vk.py:176, 184-188). -/
structure Info (K : Type) where
  title : List Char
  lensName : List Char
  timestamp : Stamp
  opticalZoom : K
  magnification : K

/-- The image layers (surfalize/file/vk.py:166-174). -/
structure Layers where
  rgb : Rgb
  laserRgb : Rgb
  laser : Grid Int

/-- Values of one channel: every third one. -/
def channel (l : List Int) (ny nx c : Nat) : Grid Int := Grid.ofFn ny nx fun i j => l.getD ((i * nx + j) * 3 + c) 0

section
variable {K : Type} [Field K] [LinearOrder K]

/-- `read_rgb_layer` (surfalize/file/vk.py:124-133). The comparison of the sizes is exact: they are equal only if the
quotient is below 2³². The last axis is reversed: what is stored last is red. -/
def readRgb (K : Type) [Field K] [LinearOrder K] (off : Nat) (h : Handle) : Except Err Rgb :=
  match LayoutM.read (K := K) .utf8 (h.seek off) (imageData K) with
  | .error e => .error e
  | .ok (d, h1) =>
    match getInt d "width", getInt d "height", getInt d "bit_depth", getInt d "data_byte_size" with
    | .ok w, .ok ht, .ok bits, .ok size =>
      if size * (8 * 3) ≠ w * ht * 3 * bits then .error .corrupted
      else
        match readArray 1 (bytesInt false false 1) (w * ht * 3) 0 h1 with
        | .error e => .error e
        | .ok (l, _) =>
          if (l.length : Int) ≠ ht * w * 3 then .error .valueError
          else .ok ⟨channel l ht.toNat w.toNat 2, channel l ht.toNat w.toNat 1, channel l ht.toNat w.toNat 0⟩
    | _, _, _, _ => .error .keyError

/-- `DTYPE_MAP` (surfalize/file/vk.py:12): the number of bytes. -/
def itemSize (bits : Int) : Except Err Nat :=
  if bits = 16 then .ok 2 else if bits = 32 then .ok 4 else .error .keyError

/-- `read_height_layer` (surfalize/file/vk.py:135-144). -/
def readHeightLayer (K : Type) [Field K] [LinearOrder K] (off : Nat) (h : Handle) : Except Err (Grid Int) :=
  match LayoutM.read (K := K) .utf8 (h.seek off) (heightData K) with
  | .error e => .error e
  | .ok (d, h1) =>
    match getInt d "width", getInt d "height", getInt d "bit_depth", getInt d "data_byte_size" with
    | .ok w, .ok ht, .ok bits, .ok size =>
      if size * 8 ≠ w * ht * bits then .error .corrupted
      else
        match itemSize bits with
        | .error e => .error e
        | .ok b =>
          match readArray b (bytesInt false false b) (w * ht) 0 h1 with
          | .error e => .error e
          | .ok (l, _) => reshape l ht w
    | _, _, _, _ => .error .keyError

/-- The three image layers in the order of reading (surfalize/file/vk.py:166-174). -/
def readLayers (K : Type) [Field K] [LinearOrder K] (peak light laser : Nat) (h : Handle) : Except Err Layers :=
  match readRgb K peak h with
  | .error e => .error e
  | .ok a =>
    match readRgb K light h with
    | .error e => .error e
    | .ok b =>
      match readHeightLayer K laser h with
      | .error e => .error e
      | .ok c => .ok ⟨a, b, c⟩

/-- A picometre in micrometres (surfalize/file/vk.py:10, 178). -/
def scale (K : Type) [Field K] : K := 1 / 10 ^ 6

/-- The surface and its metadata from the blocks read (surfalize/file/vk.py:178-190). -/
def finish (c : Dict K) (g : Grid Int) (strings : List Char × List Char) : Except Err (Raw K × Info K) :=
  match getInt c "x_length_per_pixel", getInt c "y_length_per_pixel", getInt c "z_length_per_digit",
    getInt c "optical_zoom", getInt c "lens_magnification" with
  | .ok x, .ok y, .ok z, .ok zoom, .ok mag =>
    match getInt c "year", getInt c "month", getInt c "day", getInt c "hour", getInt c "minute", getInt c "second" with
    | .ok yr, .ok mo, .ok dy, .ok hr, .ok mi, .ok se =>
      match datetime ⟨yr, mo, dy, hr, mi, se⟩ with
      | .error e => .error e
      | .ok t =>
        .ok (⟨Container.map (fun v : Int => some ((v : K) * (scale K * (z : K)))) g, (x : K) * scale K, (y : K) * scale K⟩,
          ⟨strings.1, strings.2, t, (zoom : K) / 10, (mag : K) / 10⟩)
    | _, _, _, _, _, _ => .error .keyError
  | _, _, _, _, _ => .error .keyError

/-- `read_vk4` (surfalize/file/vk.py:158-190). -/
def readVk4 (enc : Encoding) (images : Bool) (h : Handle) : Except Err (Raw K × Info K × Option Layers) :=
  match LayoutM.read (K := K) .utf8 (h.read 12).2 (offsetTable K) with
  | .error e => .error e
  | .ok (d, h1) =>
    match getInt d "meas_conds", getInt d "color_peak", getInt d "color_light", getInt d "light", getInt d "height",
      getInt d "string_data" with
    | .ok meas, .ok peak, .ok light, .ok laser, .ok height, .ok strings =>
      match LayoutM.read (K := K) .utf8 (h1.seek meas.toNat) (measurementConditions K) with
      | .error e => .error e
      | .ok (c, h2) =>
        match (if images then (readLayers K peak.toNat light.toNat laser.toNat h2).map some else .ok none) with
        | .error e => .error e
        | .ok layers =>
          match readHeightLayer K height.toNat h2 with
          | .error e => .error e
          | .ok g =>
            match readStrings enc strings.toNat h2 with
            | .error e => .error e
            | .ok s =>
              match finish c g s with
              | .error e => .error e
              | .ok (r, i) => .ok (r, i, layers)
    | _, _, _, _, _, _ => .error .keyError

/-- `read_vk6_vk7` (surfalize/file/vk.py:192-196): `archive` opens the zip archive and returns its members. -/
def readVk67 (archive : Bytes → Except Err (List Char → Except Err Bytes)) (enc : Encoding) (images : Bool)
    (h : Handle) : Except Err (Raw K × Info K × Option Layers) :=
  match archive h.buf with
  | .error e => .error e
  | .ok member =>
    match member "Vk4File".toList with
    | .error e => .error e
    | .ok b => readVk4 enc images ⟨b, 0⟩

end
end Vk
end Surfalize
