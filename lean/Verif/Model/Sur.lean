import Verif.Model.FileArray
import Verif.Model.Units
import Verif.Prelude.Py
/-!
# Digital Surf files: surfalize/file/sur.py

Image layers (`read_image_layers=True`) are in `Model/SurImages`. Not modelled: metadata.  zlib and the clock are
parameters, and so is the integer numpy makes of a NaN (undefined behaviour in C).
-/
namespace Surfalize
namespace Sur
open LayoutM FileArr

/-- Signed 16-bit, `'h'`. -/
def h16 (K : Type) (n : String) : Entry K := .field n (.fixed (.int true false 2))
/-- Signed 32-bit, `'i'`. -/
def i32 (K : Type) (n : String) : Entry K := .field n (.fixed (.int true false 4))
/-- Unsigned 32-bit, `'I'`. -/
def u32 (K : Type) (n : String) : Entry K := .field n (.fixed (.int false false 4))
/-- Single precision, `'f'`. -/
def flt (K : Type) (n : String) : Entry K := .field n (.fixed (.flt false false 1))
/-- Text of `k` bytes, `'ks'`. -/
def txt (K : Type) (n : String) (k : Nat) : Entry K := .field n (.fixed (.str k))

/-- `LAYOUT_HEADER` (surfalize/file/sur.py:73-133). -/
def layout (K : Type) : List (Entry K) :=
  [txt K "code" 12, h16 K "format", h16 K "n_objects", h16 K "version_number",
   h16 K "studiable_type", txt K "name_object" 30, txt K "name_operator" 30, h16 K "p_size",
   h16 K "acquisition_type", h16 K "range_type", h16 K "non_measured_points",
   h16 K "absolute_z_axis", flt K "gauge_resolution", .reserved 4, h16 K "bits_per_point",
   i32 K "min_point", i32 K "max_point", i32 K "n_points_per_line", i32 K "n_lines",
   i32 K "n_total_points", flt K "spacing_x", flt K "spacing_y", flt K "spacing_z",
   txt K "name_x" 16, txt K "name_y" 16, txt K "name_z" 16, txt K "unit_step_x" 16,
   txt K "unit_step_y" 16, txt K "unit_step_z" 16, txt K "unit_x" 16, txt K "unit_y" 16,
   txt K "unit_z" 16, flt K "unit_ratio_x", flt K "unit_ratio_y", flt K "unit_ratio_z",
   h16 K "replica", h16 K "inverted", h16 K "leveled", .reserved 12, h16 K "seconds",
   h16 K "minutes", h16 K "hours", h16 K "day", h16 K "month", h16 K "year", h16 K "week_day",
   flt K "measurement_duration", u32 K "compressed_data_size", .reserved 6,
   h16 K "length_comment", h16 K "length_private", txt K "client_zone" 128, flt K "offset_x",
   flt K "offset_y", flt K "offset_z", flt K "spacing_t", flt K "offset_t", txt K "name_t" 13,
   txt K "unit_step_t" 13]

/-- `MAGIC_CLASSIC` (surfalize/file/sur.py:14). -/
def magicClassic : List Char := "DIGITAL SURF".toList
/-- `MAGIC_COMPRESSED` (surfalize/file/sur.py:15). -/
def magicCompressed : List Char := "DSCOMPRESSED".toList

/-- `HEADER_SIZE` (surfalize/file/sur.py:16). -/
def headerSize : Nat := 512

section
variable {K : Type} [Field K] [LinearOrder K]

/-- `filehandle.read(n)` with a possibly negative `n`, which reads everything. -/
def readN (h : Handle) (n : Int) : Bytes × Handle :=
  if n < 0 then h.readAll else h.read n.toNat

/-- `read_sur_header` (surfalize/file/sur.py:138-154): header and position of the data. -/
def readHeader (enc : Encoding) (h : Handle) : Except Err (Dict K × Handle) :=
  match read enc h (layout K) with
  | .error e => .error e
  | .ok (d, h1) =>
    match getStr d "code", getInt d "version_number", getInt d "studiable_type",
      getInt d "acquisition_type", getInt d "length_comment", getInt d "length_private" with
    | .ok code, .ok version, .ok studiable, .ok acquisition, .ok lc, .ok lp =>
      if (code ≠ magicClassic ∧ code ≠ magicCompressed) ∨ version ≠ 1 then .error .corrupted
      else if ¬ (1 ≤ studiable ∧ studiable ≤ 19) then .error .valueError
      else if ¬ (0 ≤ acquisition ∧ acquisition ≤ 10) then .error .valueError
      else if h1.pos - h.pos ≠ headerSize then .error .corrupted
      else .ok (d, (readN (readN h1 lc).2 lp).2)
    | _, _, _, _, _, _ => .error .typeError

/-- `struct.unpack('I', filehandle.read(4))[0]` and `read_directory`
(surfalize/file/sur.py:178, 224). -/
def readU32 (h : Handle) : Except Err (Nat × Handle) :=
  if (h.read 4).1.length ≠ 4 then .error .structError
  else .ok (leNat (h.read 4).1, (h.read 4).2)

/-- The loop over the directories (surfalize/file/sur.py:227-232). -/
def readDirs : Nat → Handle → Except Err (List (Nat × Nat) × Handle)
  | 0, h => .ok ([], h)
  | n + 1, h =>
    match readU32 h with
    | .error e => .error e
    | .ok (raw, h1) =>
      match readU32 h1 with
      | .error e => .error e
      | .ok (zipped, h2) =>
        match readDirs n h2 with
        | .error e => .error e
        | .ok (ds, h3) => .ok ((raw, zipped) :: ds, h3)

/-- The loop over the streams (surfalize/file/sur.py:240-249). -/
def readStreams (inflate : Bytes → Except Err Bytes) :
    List (Nat × Nat) → Handle → Except Err Bytes
  | [], _ => .ok []
  | (raw, zipped) :: ds, h =>
    match inflate (h.read zipped).1 with
    | .error e => .error e
    | .ok s =>
      if s.length ≠ raw then .error .corrupted
      else
        match readStreams inflate ds (h.read zipped).2 with
        | .error e => .error e
        | .ok rest => .ok (s ++ rest)

/-- `read_compressed_data` (surfalize/file/sur.py:185-251): the decompressed bytes. -/
def readCompressed (inflate : Bytes → Except Err Bytes) (h : Handle) (expected : Int) :
    Except Err Bytes :=
  match readU32 h with
  | .error e => .error e
  | .ok (n, h1) =>
    match readDirs n h1 with
    | .error e => .error e
    | .ok (ds, h2) =>
      if ((4 + (ds.map fun p => 8 + p.2).sum : Nat) : Int) ≠ expected then .error .corrupted
      else readStreams inflate ds h2

/-- `DTYPE_MAP` (surfalize/file/sur.py:135): bytes per point. -/
def itemSize (bits : Int) : Except Err Nat :=
  if bits = 16 then .ok 2 else if bits = 32 then .ok 4 else .error .keyError

/-- `read_sur_object` (surfalize/file/sur.py:273-302). -/
def readObject (enc : Encoding) (inflate : Bytes → Except Err Bytes) (h : Handle) :
    Except Err (Dict K × Grid Int) :=
  match readHeader enc h with
  | .error e => .error e
  | .ok (d, h1) =>
    match getInt d "bits_per_point", getInt d "n_lines", getInt d "n_points_per_line",
      getStr d "code", getInt d "n_total_points", getInt d "compressed_data_size" with
    | .ok bits, .ok ny, .ok nx, .ok code, .ok total, .ok csize =>
      match itemSize bits with
      | .error e => .error e
      | .ok w =>
        let arr : Except Err (List Int) :=
          if code = magicClassic then
            match readArray w (bytesInt true false w) total 0 h1 with
            | .error e => .error e
            | .ok (l, _) => .ok l
          else
            match readCompressed inflate h1 csize with
            | .error e => .error e
            | .ok bs => fromBuffer w (bytesInt true false w) bs
        match arr with
        | .error e => .error e
        | .ok l =>
          match reshape l ny nx with
          | .error e => .error e
          | .ok g => .ok (d, g)
    | _, _, _, _, _, _ => .error .typeError

/-- Product and sum of floats, NaN absorbing. -/
def omul (a b : Option K) : Option K := a.bind fun x => b.map fun y => x * y

/-- `get_surface` (surfalize/file/sur.py:305-324): scaling, unit, mask, offset. -/
def getSurface (T : Units.Text) (d : Dict K) (g : Grid Int) : Except Err (Raw K) :=
  match getInt d "non_measured_points", getInt d "min_point", getNum d "spacing_z",
    getStr d "unit_step_z", getStr d "unit_step_x", getStr d "unit_step_y",
    getNum d "spacing_x", getNum d "spacing_y", getNum d "offset_z" with
  | .ok nm, .ok minPoint, .ok sz, .ok uz, .ok ux, .ok uy, .ok sx, .ok sy, .ok oz =>
    match Units.getUnitConversion (K := K) T uz "um".toList,
      Units.getUnitConversion (K := K) T ux "um".toList,
      Units.getUnitConversion (K := K) T uy "um".toList, sx, sy with
    | .ok cz, .ok cx, .ok cy, some sx, some sy =>
      .ok
        { data := Container.map (fun i : Int =>
            if nm = 1 ∧ i = minPoint - 2 then none
            else oadd (omul (omul (some (i : K)) sz) (some cz)) oz) g
          stepX := cx * sx
          stepY := cy * sy }
    | .ok _, .ok _, .ok _, _, _ => .error .valueError
    | _, _, _, _, _ => .error .valueError
  | _, _, _, _, _, _, _, _, _ => .error .typeError

/-- `is_gwyddion_export` (surfalize/file/sur.py:254-270). -/
def isGwyddion (d : Dict K) : Bool :=
  match getInt d "studiable_type", getStr d "name_object", getStr d "name_operator" with
  | .ok 1, .ok a, .ok b => decide (a = "SCRATCH".toList ∧ b = "csm".toList)
  | _, _, _ => false

/-- `read_sur` (surfalize/file/sur.py:326-356) with `read_image_layers=False`. A non-finite
lateral spacing, which numpy would pass on, is a ValueError here. -/
def readSur (T : Units.Text) (enc : Encoding) (inflate : Bytes → Except Err Bytes) (h : Handle) :
    Except Err (Raw K) :=
  match readObject enc inflate h with
  | .error e => .error e
  | .ok (d, g) =>
    match getInt d "n_objects", getInt d "studiable_type" with
    | .ok n, .ok st =>
      if n > 1 then .error .unsupported
      else if st = 2 ∨ isGwyddion d ∨ st = 16 then getSurface T d g
      else .error .unsupported
    | _, _ => .error .typeError
end

section
variable {K : Type} [Field K] [LinearOrder K] [FloorRing K]

/-- `datetime.now()`, the parts used (surfalize/file/sur.py:375). -/
structure Clock where
  second : Int
  minute : Int
  hour : Int
  day : Int
  month : Int
  year : Int
  weekday : Int

/-- `INT_DATA_MIN` (surfalize/file/sur.py:365). -/
def dataMin : Int := -(2 ^ 31) + 2
/-- `INT_DATA_MAX` (surfalize/file/sur.py:366). -/
def dataMax : Int := 2 ^ 31 - 1 - 1

/-- `data_max - data_min`, NaN if there is no measured point (surfalize/file/sur.py:367-368). -/
def range (g : Grid (Option K)) : Option K :=
  osub (nanmax (Container.flat g)) (nanmin (Container.flat g))

/-- The float a height is scaled to (surfalize/file/sur.py:369); `0/0` is NaN. -/
def scaled (g : Grid (Option K)) (z : Option K) : Option K :=
  match osub z (nanmin (Container.flat g)), range g with
  | some a, some r =>
    if r = 0 then none else some (a / r * ((dataMax - dataMin : Int) : K) + (dataMin : K))
  | _, _ => none

/-- The integer stored for a height (surfalize/file/sur.py:370-372): NaNs are replaced only if
the surface has missing points; otherwise numpy converts them to `nanInt`. -/
def quantise (nanInt : Int) (g : Grid (Option K)) (z : Option K) : Int :=
  match scaled g z with
  | some x => pyInt x
  | none => if none ∈ Container.flat g then dataMin - 2 else nanInt

/-- `spacing_z` (surfalize/file/sur.py:373). -/
def spacingZ (g : Grid (Option K)) : Option K :=
  (range g).map fun r => r / ((dataMax - dataMin : Int) : K)

/-- `offset_z` (surfalize/file/sur.py:374). -/
def offsetZ (g : Grid (Option K)) : Option K :=
  oadd (nanmin (Container.flat g)) ((range g).map fun r => r / 2)

/-- A float as a header value. -/
def numVal (x : Option K) : Val K :=
  match x with
  | some x => .num (.fin x)
  | none => .num .nan

/-- The header dictionary (surfalize/file/sur.py:379-436). -/
def header (s : Raw K) (clock : Clock) (compressed : Bool) (commentLength : Nat) : Dict K :=
  fun k => List.lookup k
    [("code", .str (if compressed then magicCompressed else magicClassic)),
     ("format", .int 0), ("n_objects", .int 1), ("version_number", .int 1),
     ("studiable_type", .int 2), ("name_object", .str []), ("name_operator", .str []),
     ("p_size", .int 0), ("acquisition_type", .int 0), ("range_type", .int 0),
     ("non_measured_points", .int (if none ∈ Container.flat s.data then 1 else 0)),
     ("absolute_z_axis", .int 0), ("gauge_resolution", .int 0), ("bits_per_point", .int 32),
     ("min_point", .int dataMin), ("max_point", .int dataMax),
     ("n_points_per_line", .int s.data.nx), ("n_lines", .int s.data.ny),
     ("n_total_points", .int (s.data.nx * s.data.ny)), ("spacing_x", .num (.fin s.stepX)),
     ("spacing_y", .num (.fin s.stepY)), ("spacing_z", numVal (spacingZ s.data)),
     ("name_x", .str ['X']), ("name_y", .str ['Y']), ("name_z", .str ['Z']),
     ("unit_step_x", .str ['µ', 'm']), ("unit_step_y", .str ['µ', 'm']),
     ("unit_step_z", .str ['µ', 'm']), ("unit_x", .str ['µ', 'm']), ("unit_y", .str ['µ', 'm']),
     ("unit_z", .str ['µ', 'm']), ("unit_ratio_x", .num (.fin 1)), ("unit_ratio_y", .num (.fin 1)),
     ("unit_ratio_z", .num (.fin 1)), ("replica", .int 1), ("inverted", .int 0),
     ("leveled", .int 0), ("seconds", .int clock.second), ("minutes", .int clock.minute),
     ("hours", .int clock.hour), ("day", .int clock.day), ("month", .int clock.month),
     ("year", .int clock.year), ("week_day", .int clock.weekday),
     ("measurement_duration", .int 0), ("compressed_data_size", .int 0),
     ("length_comment", .int commentLength), ("length_private", .int 0),
     ("client_zone", .str "Exported by surfalize".toList), ("offset_x", .int 0),
     ("offset_y", .int 0), ("offset_z", numVal (offsetZ s.data)), ("spacing_t", .int 0),
     ("offset_t", .int 0), ("name_t", .str []), ("unit_step_t", .str [])]

/-- `write_sur` (surfalize/file/sur.py:358-455): the bytes of the file. `np.nanmax` of an
array without elements raises ValueError. -/
def writeSur (c : FloatCodec K) (nanInt : Int) (deflate : Bytes → Bytes) (clock : Clock)
    (compressed : Bool) (comment : List Char) (s : Raw K) : Except Err Bytes :=
  if Container.flat s.data = [] then .error .valueError
  else
    match write c (header s clock compressed (utf8 comment).length) (layout K) with
    | .error e => .error e
    | .ok hdr =>
      let ints := (Container.flat s.data).map (quantise nanInt s.data)
      let raw := writeArray (intBytes false 4) ints
      if compressed then
        if 2 ^ 32 ≤ raw.length ∨ 2 ^ 32 ≤ (deflate raw).length then .error .structError
        else .ok (hdr ++ utf8 comment ++ (leBytes 4 1 ++ leBytes 4 raw.length ++
          leBytes 4 (deflate raw).length) ++ deflate raw)
      else .ok (hdr ++ utf8 comment ++ raw)
end
end Sur
end Surfalize
