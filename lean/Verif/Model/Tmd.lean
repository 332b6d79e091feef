import Verif.Model.FileArray
/-!
# TrueMap files: surfalize/file/tmd.py

Heights are float32 arrays; the arithmetic around them is exact, values are rounded when they are
stored.
-/
namespace Surfalize
namespace Tmd
open LayoutM FileArr

/-- `MAGIC` (surfalize/file/tmd.py:4). -/
def magic : List Char := "Binary TrueMap Data File v2.0".toList
/-- `LINE_TERMINATION` (surfalize/file/tmd.py:5). -/
def lineTermination : List Char := ['\r', '\n', '\x00']
/-- `COMMENT_LEN` (surfalize/file/tmd.py:8). -/
def commentLen : Nat := 24 - lineTermination.length

/-- `HEADER_LAYOUT` (surfalize/file/tmd.py:10-19). -/
def layout (K : Type) : List (Entry K) :=
  [.field "header" (.fixed (.str 32)), .field "comment" (.fixed (.str 24)),
   .field "width" (.fixed (.int false false 4)), .field "height" (.fixed (.int false false 4)),
   .field "length_x" (.fixed (.flt false false 1)), .field "length_y" (.fixed (.flt false false 1)),
   .field "offset_x" (.fixed (.flt false false 1)), .field "offset_y" (.fixed (.flt false false 1))]

variable {K : Type} [Field K] [LinearOrder K]

/-- `length / n` of a header length (surfalize/file/tmd.py:31-32); a length that is not a number is a
ValueError here. -/
def stepOf (len : Option K) (n : Int) : Except Err K :=
  if n = 0 then .error .zeroDivision
  else match len with
    | some l => .ok (l / (n : K))
    | none => .error .valueError

/-- `read_tmd` (surfalize/file/tmd.py:21-34). -/
def readTmd (h : Handle) : Except Err (Raw K) :=
  if (h.read magic.length).1 ≠ utf8 magic then .error .corrupted
  else
    match read .utf8 (h.seek 0) (layout K) with
    | .error e => .error e
    | .ok (d, h1) =>
      match readArray 4 (decFloat K false) (-1) 0 h1 with
      | .error e => .error e
      | .ok (l, _) =>
        match getInt d "height", getInt d "width", getNum d "length_x", getNum d "length_y" with
        | .ok ny, .ok nx, .ok lx, .ok ly =>
          if (l.length : Int) ≠ ny * nx then .error .corrupted
          else
            match reshape l ny nx with
            | .error e => .error e
            | .ok g =>
              match stepOf lx nx with
              | .error e => .error e
              | .ok sx =>
                match stepOf ly ny with
                | .error e => .error e
                | .ok sy => .ok ⟨g, sx, sy⟩
        | _, _, _, _ => .error .typeError

/-- The header dictionary (surfalize/file/tmd.py:40-49). -/
def header (comment : List Char) (s : Raw K) : Dict K :=
  fun k => List.lookup k
    [("header", .str (magic ++ lineTermination)),
     ("comment", .str (comment ++ List.replicate (commentLen - comment.length) ' ' ++ lineTermination)),
     ("width", .int s.data.nx), ("height", .int s.data.ny),
     ("length_x", .num (.fin ((s.data.nx : K) * s.stepX))),
     ("length_y", .num (.fin ((s.data.ny : K) * s.stepY))),
     ("offset_x", .int 0), ("offset_y", .int 0)]

/-- `write_tmd` (surfalize/file/tmd.py:36-51): the bytes of the file. -/
def writeTmd (c : FloatCodec K) (comment : List Char) (s : Raw K) : Except Err Bytes :=
  if commentLen < comment.length then .error .valueError
  else
    match write c (header comment s) (layout K) with
    | .error e => .error e
    | .ok hdr => .ok (hdr ++ writeArray (encFloat c false) (Container.flat s.data))

end Tmd
end Surfalize
