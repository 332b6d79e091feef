import Verif.Model.FileArray
/-!
# Zeta files: surfalize/file/zmg.py

Arithmetic is exact; infinities in the header are not distinguished from NaN. There are no image layers and no metadata.
-/
namespace Surfalize
namespace Zmg
open LayoutM FileArr

/-- `MAGIC` (surfalize/file/zmg.py:5). -/
def magic : Bytes := utf8 "Zeta-Instruments".toList

/-- `LAYOUT_HEADER` (surfalize/file/zmg.py:7-18). -/
def layout (K : Type) : List (Entry K) :=
  [.reserved 85, .field "res_x" (.fixed (.int false false 4)), .field "res_y" (.fixed (.int false false 4)),
   .reserved 4, .field "step_x" (.fixed (.flt false false 1)), .field "step_y" (.fixed (.flt false false 1)),
   .field "step_z" (.fixed (.flt false false 1)), .reserved 8, .field "comment_size" (.fixed (.int false false 4)),
   .reserved 84]

section
variable {K : Type} [Field K] [LinearOrder K]

/-- An item of the data times the step of the heights (surfalize/file/zmg.py:29). -/
def height (sz : Option K) (bs : Bytes) : Option K := sz.map fun z => ((bytesInt true false 2 bs : Int) : K) * z

/-- `read_zmg` (surfalize/file/zmg.py:20-35). Steps that are not numbers, which numpy would pass on, are a ValueError
here. -/
def readZmg (enc : Encoding) (h : Handle) : Except Err (Raw K) :=
  if (h.read magic.length).1 ≠ magic then .error .corrupted
  else
    match LayoutM.read enc (h.seek 0) (layout K) with
    | .error e => .error e
    | .ok (d, h1) =>
      match getInt d "res_x", getInt d "res_y", getInt d "comment_size", getNum d "step_x", getNum d "step_y",
        getNum d "step_z" with
      | .ok nx, .ok ny, .ok n, .ok sx, .ok sy, .ok sz =>
        match readArray 2 (height sz) (nx * ny) 0 (h1.skip n.toNat) with
        | .error e => .error e
        | .ok (l, _) =>
          match reshape l ny nx, sx, sy with
          | .ok g, some sx, some sy => .ok ⟨g, sx, sy⟩
          | .error e, _, _ => .error e
          | _, _, _ => .error .valueError
      | _, _, _, _, _, _ => .error .keyError

end
end Zmg
end Surfalize
