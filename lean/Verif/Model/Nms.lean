import Verif.Model.FileArray
/-!
# NMS files: surfalize/file/nms.py

`dateutil.parser.parse` is a parameter. Arithmetic is exact; infinities in the header are not distinguished from NaN.
-/
namespace Surfalize
namespace Nms
open LayoutM FileArr

/-- `filehandle.seek(off, 0)` and `struct.unpack(format, filehandle.read(n))`: struct.error unless there are `n` bytes
(surfalize/file/nms.py:20-28). -/
def bytesAt (h : Handle) (off n : Nat) : Except Err Bytes :=
  if ((h.seek off).read n).1.length = n then .ok ((h.seek off).read n).1 else .error .structError

section
variable {K : Type} [Field K] [LinearOrder K]

/-- One of the doubles of `'<2d'`. -/
def double (K : Type) [Field K] (bs : Bytes) (k : Nat) : Option K :=
  toOpt (f64.val K (bytesNat false ((bs.drop (8 * k)).take 8)))

/-- One of the integers of `'<2I'`. -/
def uint (bs : Bytes) (k : Nat) : Nat := bytesNat false ((bs.drop (4 * k)).take 4)

/-- The height of a point (surfalize/file/nms.py:31). -/
def height (zmin zmax : Option K) (x : Int) : Option K :=
  match zmin, zmax with
  | some a, some b => some ((x : K) / (2 ^ 16 - 2) * (b - a) + b)
  | _, _ => none

/-- The grayscale image behind the heights (surfalize/file/nms.py:38-39), arranged in `ny` rows and `ny` columns. -/
def image (nx ny : Nat) (h : Handle) : Except Err (Grid Int) :=
  match readArray 1 (bytesInt false false 1) ((nx * ny : Nat) : Int) 0 h with
  | .error e => .error e
  | .ok (l, _) => reshape l ny ny

/-- `read_nms` (surfalize/file/nms.py:17-43). Steps that are not numbers, which numpy would pass on, are a ValueError
here. -/
def readNms (parseDate : List Char → Except Err Unit) (enc : Encoding) (images : Bool) (h : Handle) :
    Except Err (Raw K × Option (Grid Int)) :=
  match bytesAt h 16 16 with
  | .error e => .error e
  | .ok z =>
    match decode enc ((h.seek 1076).read 16).1 with
    | .error e => .error e
    | .ok date =>
      match parseDate date with
      | .error e => .error e
      | .ok () =>
        match bytesAt h 1368 8, bytesAt h 1376 16 with
        | .ok pts, .ok sp =>
          match readArray 2 (bytesInt false false 2) ((uint pts 0 * uint pts 1 : Nat) : Int) 0 (h.seek 3468) with
          | .error e => .error e
          | .ok (l, h') =>
            match reshape l (uint pts 1 : Nat) (uint pts 0 : Nat) with
            | .error e => .error e
            | .ok g =>
              match double K sp 0, double K sp 1 with
              | some dx, some dy =>
                let r : Raw K := ⟨Container.map (height (double K z 0) (double K z 1)) g, dx / 10 ^ 3, dy / 10 ^ 3⟩
                if images then
                  match image (uint pts 0) (uint pts 1) h' with
                  | .error e => .error e
                  | .ok im => .ok (r, some im)
                else .ok (r, none)
              | _, _ => .error .valueError
        | .error e, _ => .error e
        | _, .error e => .error e

end
end Nms
end Surfalize
