import Verif.Model.FileArray
import Mathlib.Data.List.Dedup
/-!
# Point lists: surfalize/file/xyz.py

`np.loadtxt` is a parameter: it gives the table of numbers in the file or an exception. Arithmetic is exact.
-/
namespace Surfalize
namespace Xyz
open FileArr

variable {K : Type} [Field K] [LinearOrder K]

/-- `raw_data[:, c]` (surfalize/file/xyz.py:15, 16, 23): IndexError if there is no such column. -/
def column (t : List (List (Option K))) (c : Nat) : Except Err (List (Option K)) :=
  t.mapM fun row => match row[c]? with
    | some x => .ok x
    | none => .error .indexError

/-- Coordinates. Simplification: NaN coordinates are a ValueError here. -/
def coordinates (t : List (List (Option K))) (c : Nat) : Except Err (List K) :=
  match column t c with
  | .error e => .error e
  | .ok l => if none ∈ l then .error .valueError else .ok (measured l)

/-- The rest of `read_xyz` (surfalize/file/xyz.py:15-25). A table with at most one row or column is squeezed to one
dimension, indexing it with two indices is an IndexError. -/
def fromTable (t : List (List (Option K))) : Except Err (Raw K) :=
  if t.length ≤ 1 ∨ ∀ row ∈ t, row.length ≤ 1 then .error .indexError
  else
    match coordinates t 0, coordinates t 1 with
    | .ok xs, .ok ys =>
      let nx := xs.dedup.length
      let ny := ys.dedup.length
      if nx * ny ≠ t.length then .error .corrupted
      else
        match xs.max?, xs.min?, ys.max?, ys.min? with
        | some xmax, some xmin, some ymax, some ymin =>
          match column t 2 with
          | .error e => .error e
          | .ok zs =>
            match reshape zs ny nx with
            | .error e => .error e
            | .ok g =>
              .ok
                { data := Container.map (Option.map fun z => z * 10 ^ 6) g
                  stepX := (xmax - xmin) / (nx : K) * 10 ^ 6
                  stepY := (ymax - ymin) / (ny : K) * 10 ^ 6 }
        | _, _, _, _ => .error .valueError
    | .error e, _ => .error e
    | _, .error e => .error e

/-- `read_xyz` (surfalize/file/xyz.py:7-25): UnicodeDecodeError and ValueError of `np.loadtxt` become
UnsupportedFileFormatError. -/
def readXyz (loadtxt : Bytes → Except Err (List (List (Option K)))) (bytes : Bytes) : Except Err (Raw K) :=
  match loadtxt bytes with
  | .error .unicode => .error .unsupported
  | .error .valueError => .error .unsupported
  | .error e => .error e
  | .ok t => fromTable t

end Xyz
end Surfalize
