import Verif.Model.Sur
/-!
# Image layers of Digital Surf files: surfalize/file/sur.py:326-356 (`read_image_layers=True`)

A file of type "RGB and intensity surface" has five objects: the heights, the three colours and the intensity.
-/
namespace Surfalize
namespace Sur
open LayoutM FileArr

section
variable {K : Type} [Field K] [LinearOrder K]

/-- The loop over the streams (surfalize/file/sur.py:240-249), with the position in the file behind them. -/
def readStreamsH (inflate : Bytes → Except Err Bytes) : List (Nat × Nat) → Handle → Except Err (Bytes × Handle)
  | [], h => .ok ([], h)
  | (raw, zipped) :: ds, h =>
    match inflate (h.read zipped).1 with
    | .error e => .error e
    | .ok s =>
      if s.length ≠ raw then .error .corrupted
      else
        match readStreamsH inflate ds (h.read zipped).2 with
        | .error e => .error e
        | .ok (rest, h') => .ok (s ++ rest, h')

/-- `read_compressed_data` (surfalize/file/sur.py:185-251), with the position in the file. -/
def readCompressedH (inflate : Bytes → Except Err Bytes) (h : Handle) (expected : Int) : Except Err (Bytes × Handle) :=
  match readU32 h with
  | .error e => .error e
  | .ok (n, h1) =>
    match readDirs n h1 with
    | .error e => .error e
    | .ok (ds, h2) =>
      if ((4 + (ds.map fun p => 8 + p.2).sum : Nat) : Int) ≠ expected then .error .corrupted
      else readStreamsH inflate ds h2

/-- The points of an object as a list (surfalize/file/sur.py:294-300). -/
def pointsH (inflate : Bytes → Except Err Bytes) (w : Nat) (code : List Char) (total csize : Int) (h : Handle) :
    Except Err (List Int × Handle) :=
  if code = magicClassic then readArray w (bytesInt true false w) total 0 h
  else
    match readCompressedH inflate h csize with
    | .error e => .error e
    | .ok (bs, h') => (fromBuffer w (bytesInt true false w) bs).map fun l => (l, h')

/-- `read_sur_object` (surfalize/file/sur.py:273-302), with the position in the file behind the object. -/
def readObjectH (enc : Encoding) (inflate : Bytes → Except Err Bytes) (h : Handle) :
    Except Err ((Dict K × Grid Int) × Handle) :=
  match readHeader enc h with
  | .error e => .error e
  | .ok (d, h1) =>
    match getInt d "bits_per_point", getInt d "n_lines", getInt d "n_points_per_line",
      getStr d "code", getInt d "n_total_points", getInt d "compressed_data_size" with
    | .ok bits, .ok ny, .ok nx, .ok code, .ok total, .ok csize =>
      match itemSize bits with
      | .error e => .error e
      | .ok w =>
        match pointsH inflate w code total csize h1 with
        | .error e => .error e
        | .ok (l, h2) =>
          match reshape l ny nx with
          | .error e => .error e
          | .ok g => .ok ((d, g), h2)
    | _, _, _, _, _, _ => .error .typeError

/-- The image layers (surfalize/file/sur.py:331-351). -/
inductive Colours where
  | grey (g : Grid Int)
  | rgb (r g b : Grid Int)

/-- surfalize/file/sur.py:343-348: grey if the three channels agree, otherwise `np.stack` of three arrays of one shape.
Simplification: channels of different shapes raise ValueError (numpy compares shapes that it can broadcast). -/
def colours (r g b : Grid Int) : Except Err Colours :=
  if r = g ∧ r = b then .ok (.grey r)
  else if (r.ny = g.ny ∧ r.nx = g.nx) ∧ (r.ny = b.ny ∧ r.nx = b.nx) then .ok (.rgb r g b)
  else .error .valueError

/-- surfalize/file/sur.py:340-351 — the four objects behind the heights; their headers are not used. -/
def readImages (K : Type) [Field K] [LinearOrder K] (enc : Encoding) (inflate : Bytes → Except Err Bytes) (h : Handle) :
    Except Err (Colours × Grid Int) :=
  match readObjectH (K := K) enc inflate h with
  | .error e => .error e
  | .ok (r, h1) =>
    match readObjectH (K := K) enc inflate h1 with
    | .error e => .error e
    | .ok (g, h2) =>
      match readObjectH (K := K) enc inflate h2 with
      | .error e => .error e
      | .ok (b, h3) =>
        match colours r.2 g.2 b.2 with
        | .error e => .error e
        | .ok c =>
          match readObjectH (K := K) enc inflate h3 with
          | .error e => .error e
          | .ok (i, _) => .ok (c, i.2)

/-- `read_sur` (surfalize/file/sur.py:326-356). -/
def readSurWith (T : Units.Text) (enc : Encoding) (inflate : Bytes → Except Err Bytes) (images : Bool) (h : Handle) :
    Except Err (Raw K × Option (Colours × Grid Int)) :=
  match readObjectH enc inflate h with
  | .error e => .error e
  | .ok ((d, g), h1) =>
    match getInt d "n_objects", getInt d "studiable_type" with
    | .ok n, .ok st =>
      if n > 1 then .error .unsupported
      else if st = 2 ∨ isGwyddion d then (getSurface T d g).map fun r => (r, none)
      else if st = 16 then
        match getSurface T d g with
        | .error e => .error e
        | .ok r =>
          if images then (readImages K enc inflate h1).map fun i => (r, some i)
          else .ok (r, none)
      else .error .unsupported
    | _, _ => .error .typeError

end
end Sur
end Surfalize
