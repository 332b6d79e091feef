import Verif.Model.FileArray
import Verif.Prelude.Text
/-!
# Alicona files: surfalize/file/al3d.py

The file starts at position 0. Arithmetic is exact; heights and steps are rounded once, when they are
stored. Simplification: the code also rounds heights to single precision before the multiplication by
1e-6 and after the multiplication by 1e6, and steps to double precision after each multiplication.
-/
namespace Surfalize
namespace Al3d
open LayoutM FileArr

/-- `MAGIC` (surfalize/file/al3d.py:6). -/
def magic : List Char := "AliconaImaging".toList ++ ['\x00', '\r', '\n']

/-- `struct.pack('20s30s2s', key, value, '\r\n')` (surfalize/file/al3d.py:16-21): each part is cut
or padded with NULs. -/
def writeTag (key value : List Char) : Bytes :=
  ((utf8 key).take 20 ++ List.replicate (20 - (utf8 key).length) 0) ++
  ((utf8 value).take 30 ++ List.replicate (30 - (utf8 value).length) 0) ++ [13, 10]

/-- `s.rstrip('\x00')`. -/
def stripNul (s : List Char) : List Char := rstrip (fun c => c = '\x00') s

/-- `read_tag` (surfalize/file/al3d.py:10-14). -/
def readTag (enc : Encoding) (h : Handle) : Except Err ((List Char × List Char) × Handle) :=
  let r := h.read 52
  if r.1.length ≠ 52 then .error .structError
  else
    match decode enc (r.1.take 20), decode enc ((r.1.drop 20).take 30), decode enc (r.1.drop 50) with
    | .ok k, .ok v, .ok lf =>
      if stripNul lf ≠ ['\r', '\n'] then .error .corrupted
      else .ok ((stripNul k, stripNul v), r.2)
    | .error e, _, _ => .error e
    | _, .error e, _ => .error e
    | _, _, .error e => .error e

/-- The loop over the tags (surfalize/file/al3d.py:61-63): later tags are in front. -/
def readTags (enc : Encoding) : Nat → List (List Char × List Char) → Handle →
    Except Err (List (List Char × List Char) × Handle)
  | 0, d, h => .ok (d, h)
  | n + 1, d, h =>
    match readTag enc h with
    | .error e => .error e
    | .ok (kv, h') => readTags enc n (kv :: d) h'

/-- `header[key]`. -/
def look (d : List (List Char × List Char)) (k : String) : Except Err (List Char) :=
  match d.lookup k.toList with
  | some v => .ok v
  | none => .error .keyError

/-- `int(header[key])`. -/
def lookInt (d : List (List Char × List Char)) (k : String) : Except Err Int :=
  match look d k with
  | .ok v => intOf v
  | .error e => .error e

variable {K : Type} [Field K] [LinearOrder K]

/-- `float(header[key])`. -/
def lookNum (T : FloatText K) (d : List (List Char × List Char)) (k : String) :
    Except Err (FVal K) :=
  match look d k with
  | .ok v => T.parse v
  | .error e => .error e

/-- The right-hand side of `data == invalidValue` (surfalize/file/al3d.py:73-74): numpy rounds it to
single precision, the type of `data`. Infinities are not distinguished from NaN. -/
def invalidSingle (c : FloatCodec K) (invalid : FVal K) : Option K :=
  match invalid with
  | .fin x => decFloat K false (encFloat c false (some x))
  | _ => none

/-- `data[data == invalidValue] = np.nan; data *= 1e6` for one height
(surfalize/file/al3d.py:73-76). -/
def height (invalid : Option K) (z : Option K) : Option K :=
  match z with
  | none => none
  | some x => if invalid = some x then none else some (x * 10 ^ 6)

/-- `read_al3d` (surfalize/file/al3d.py:46-78). Steps that are not numbers are a ValueError here. -/
def readAl3d (c : FloatCodec K) (T : FloatText K) (enc : Encoding) (h : Handle) : Except Err (Raw K) :=
  let r := h.read 17
  if r.1 ≠ utf8 magic then .error .corrupted
  else
    match readTag enc r.2 with
    | .error e => .error e
    | .ok ((k1, v1), h1) =>
      if k1 ≠ "Version".toList then .error .corrupted
      else
        match readTag enc h1 with
        | .error e => .error e
        | .ok ((k2, v2), h2) =>
          if k2 ≠ "TagCount".toList then .error .corrupted
          else
            match intOf v2 with
            | .error e => .error e
            | .ok count =>
              match readTags enc count.toNat [(k2, v2), (k1, v1)] h2 with
              | .error e => .error e
              | .ok (d, h3) =>
                match lookInt d "Cols", lookInt d "Rows", lookNum T d "PixelSizeXMeter",
                  lookNum T d "PixelSizeYMeter", lookInt d "DepthImageOffset",
                  lookNum T d "InvalidPixelValue" with
                | .ok nx, .ok ny, .ok (.fin sx), .ok (.fin sy), .ok offset, .ok invalid =>
                  if offset < 0 then .error .valueError
                  else
                    match readArray 4 (decFloat K false) (nx * ny) 0 (h3.seek offset.toNat) with
                    | .error e => .error e
                    | .ok (l, _) =>
                      match reshape l ny nx with
                      | .error e => .error e
                      | .ok g =>
                        .ok ⟨Container.map (height (invalidSingle c invalid)) g, sx * 10 ^ 6, sy * 10 ^ 6⟩
                | .error e, _, _, _, _, _ => .error e
                | _, .error e, _, _, _, _ => .error e
                | _, _, .error e, _, _, _ => .error e
                | _, _, _, .error e, _, _ => .error e
                | _, _, _, _, .error e, _ => .error e
                | _, _, _, _, _, .error e => .error e
                | _, _, _, _, _, _ => .error .valueError

/-- The tags written (surfalize/file/al3d.py:25-36). -/
def tags (T : FloatText K) (s : Raw K) : List (List Char × List Char) :=
  [("Version".toList, natText 1), ("TagCount".toList, natText 9),
   ("Cols".toList, natText s.data.nx), ("IconOffset".toList, natText 0),
   ("DepthImageOffset".toList, natText 845), ("InvalidPixelValue".toList, "nan".toList),
   ("PixelSizeYMeter".toList, T.repr (s.stepY * (10 ^ 6)⁻¹)),
   ("PixelSizeXMeter".toList, T.repr (s.stepX * (10 ^ 6)⁻¹)),
   ("NumberOfPlanes".toList, natText 0), ("Rows".toList, natText s.data.ny),
   ("TextureImageOffset".toList, natText 0)]

/-- `write_al3d` (surfalize/file/al3d.py:23-44): the bytes of the file. -/
def writeAl3d (c : FloatCodec K) (T : FloatText K) (s : Raw K) : Bytes :=
  let head := utf8 magic ++ (tags T s).flatMap fun kv => writeTag kv.1 kv.2
  head ++ (List.replicate (845 - head.length - 2) 0 ++ [13, 10]) ++
    writeArray (encFloat c false) ((Container.flat s.data).map fun z => z.map fun x => x * (10 ^ 6)⁻¹)

end Al3d
end Surfalize
