import Verif.Model.FileArray
/-!
# OmniSurf3D files: surfalize/file/os3d.py

`dateutil.parser.parse` and `PIL.Image.open` are parameters. Infinities are not distinguished from NaN.
-/
namespace Surfalize
namespace Os3d
open LayoutM FileArr

/-- `MAGIC` (surfalize/file/os3d.py:11). -/
def magic : Bytes := utf8 "OmniSurf3D".toList

/-- `LAYOUT_HEADER` (surfalize/file/os3d.py:15-28). -/
def layout (K : Type) : List (Entry K) :=
  [.field "nMajorVersion" (.fixed (.int true false 4)), .field "nMinorVersion" (.fixed (.int true false 4)),
   .field "nIdentificationStringLength" (.fixed (.int true false 4)),
   .field "chArrayIdentification" (.fromPrevious "nIdentificationStringLength"),
   .field "nMeasureDateTimeStringLength" (.fixed (.int true false 4)),
   .field "chArrayMeasureDateTime" (.fromPrevious "nMeasureDateTimeStringLength"),
   .field "nPointsAlongX" (.fixed (.int true false 4)), .field "nPointsAlongY" (.fixed (.int true false 4)),
   .field "dSpacingAlongXUM" (.fixed (.flt true false 1)), .field "dSpacingAlongYUM" (.fixed (.flt true false 1)),
   .field "dXOriginUM" (.fixed (.flt true false 1)), .field "dYOriginUM" (.fixed (.flt true false 1))]

section
variable {K : Type} [Field K] [LinearOrder K]

/-- `THRESHOLD` (surfalize/file/os3d.py:13) as the float32 it is compared as: -3e38 rounded. -/
def threshold (K : Type) [Field K] : K := -((14791142 : K) * 2 ^ 104)

/-- The height stored in an item (surfalize/file/os3d.py:36-38). -/
def height (bs : Bytes) : Option K :=
  match decFloat K false bs with
  | some x => if x < threshold K then none else some x
  | none => none

/-- The texts and the origin kept as metadata (surfalize/file/os3d.py:42-43). -/
structure Info (Time : Type) where
  identification : List Char
  timestamp : Time

/-- `read_os3d` (surfalize/file/os3d.py:30-50). `has_image` is a tuple and always true. Steps that are not numbers,
which numpy would pass on, are a ValueError here. -/
def readOs3d {Time Image : Type} (parseDate : List Char → Except Err Time) (openImage : Bytes → Except Err Image)
    (enc : Encoding) (images : Bool) (h : Handle) : Except Err (Raw K × Info Time × Option Image) :=
  if (h.read magic.length).1 ≠ magic then .error .corrupted
  else
    match LayoutM.read enc (h.read magic.length).2 (layout K) with
    | .error e => .error e
    | .ok (d, h1) =>
      match getInt d "nPointsAlongX", getInt d "nPointsAlongY", getNum d "dSpacingAlongXUM",
        getNum d "dSpacingAlongYUM", getStr d "chArrayIdentification", getStr d "chArrayMeasureDateTime" with
      | .ok nx, .ok ny, .ok sx, .ok sy, .ok name, .ok date =>
        match readArray 4 (height (K := K)) (nx * ny) 0 h1 with
        | .error e => .error e
        | .ok (l, h2) =>
          match reshape l ny nx with
          | .error e => .error e
          | .ok g =>
            match parseDate date with
            | .error e => .error e
            | .ok t =>
              if (h2.read 1).1.length ≠ 1 then .error .structError
              else
                match (if images then (openImage ((h2.read 1).2.readAll).1).map some else .ok none), sx, sy with
                | .ok im, some sx, some sy => .ok (⟨g, sx, sy⟩, ⟨name, t⟩, im)
                | .error e, _, _ => .error e
                | _, _, _ => .error .valueError
      | _, _, _, _, _, _ => .error .keyError

end
end Os3d
end Surfalize
