import Verif.Model.GwyRead
/-!
# Image layers of a Gwyddion file: surfalize/file/gwy.py:114-119, 252-267 (`read_image_layers=True`)

The values of an image are kept as the bit patterns of the doubles stored in the file.
-/
namespace Surfalize
namespace Gwy
open LayoutM FileArr

/-- Whether a channel is an image: `'si_unit_z' not in …` (surfalize/file/gwy.py:117). -/
def isImage (top : Fields) (k : List Char) : Except Err Bool :=
  match dataField top k "/data".toList with
  | .error e => .error e
  | .ok f => .ok (f.get "si_unit_z".toList).isNone

/-- `guess_image_channels` (surfalize/file/gwy.py:114-119). -/
def guessImages (top : Fields) (cands : List (List Char)) : Except Err (List (List Char)) :=
  collect (isImage top) cands

/-- `img_nx != nx` (surfalize/file/gwy.py:264). Simplification: what is not an integer is different. -/
def sameRes (v : GVal) (n : Int) : Bool :=
  match v with
  | .int i => i == n
  | .long i => i == n
  | _ => false

/-- `img_unit_xy != unit_xy` (surfalize/file/gwy.py:264). -/
def sameUnit (v : GVal) (s : List Char) : Bool :=
  match v with
  | .str t => t == s
  | _ => false

/-- One round of the loop over the image channels (surfalize/file/gwy.py:256-267): the title and the image, or
nothing when the channel is skipped. Simplifications: a title that is not text and data that are not doubles are
errors. -/
def imageOf (top : Fields) (unit : List Char) (nx ny : Int) (k : List Char) : Except Err (Option (List Char × Grid Nat)) :=
  match dataField top k "/data".toList with
  | .error e => .error e
  | .ok f =>
    match top.at (channelKey k "/data/title".toList) with
    | .error e => .error e
    | .ok t =>
      match f.at "data".toList with
      | .error e => .error e
      | .ok d =>
        match unitStr f "si_unit_xy".toList with
        | .error e => .error e
        | .ok u =>
          match f.at "xres".toList with
          | .error e => .error e
          | .ok inx =>
            match f.at "yres".toList with
            | .error e => .error e
            | .ok iny =>
              if sameRes inx nx && sameRes iny ny && sameUnit u unit then
                match strOf t with
                | .error e => .error e
                | .ok title =>
                  match dblsOf d with
                  | .error e => .error e
                  | .ok bits =>
                    match reshape bits ny nx with
                    | .error e => .error e
                    | .ok g => .ok (some (title, g))
              else .ok none

/-- `image_layers[title] = image`: a dictionary. -/
def putImage (t : List Char) (g : Grid Nat) : List (List Char × Grid Nat) → List (List Char × Grid Nat)
  | [] => [(t, g)]
  | p :: rest => if p.1 = t then (t, g) :: rest else p :: putImage t g rest

/-- The loop over the image channels (surfalize/file/gwy.py:255-267). -/
def collectImages (top : Fields) (unit : List Char) (nx ny : Int) :
    List (List Char) → List (List Char × Grid Nat) → Except Err (List (List Char × Grid Nat))
  | [], acc => .ok acc
  | k :: ks, acc =>
    match imageOf top unit nx ny k with
    | .error e => .error e
    | .ok none => collectImages top unit nx ny ks acc
    | .ok (some p) => collectImages top unit nx ny ks (putImage p.1 p.2 acc)

/-- The image layers of a file whose height channel is `k` (surfalize/file/gwy.py:252-267). -/
def imagesOf (top : Fields) (keys : List (List Char)) (k : List Char) : Except Err (List (List Char × Grid Nat)) :=
  match dataField top k "/data".toList with
  | .error e => .error e
  | .ok f =>
    match unitStr f "si_unit_xy".toList, f.use "xres".toList resOf, f.use "yres".toList resOf with
    | .ok (.str unit), .ok nx, .ok ny =>
      match guessImages top keys with
      | .error e => .error e
      | .ok ks => collectImages top unit nx ny ks []
    | _, _, _ => .error .keyError

section
variable {K : Type} [Field K] [LinearOrder K]

/-- `read_gwy(…, read_image_layers=images)` after the tree has been parsed (surfalize/file/gwy.py:220-269). -/
def fromTreeWith (T : Units.Text) (order : List (List Char) → List (List Char)) (images : Bool)
    (tree : List Char × Fields) : Except Err (Raw K × List (List Char × Grid Nat)) :=
  match fromTree T order tree with
  | .error e => .error e
  | .ok raw =>
    if images then
      match guessHeight T tree.2 (order (layerKeys tree.2)) with
      | .error e => .error e
      | .ok k =>
        match imagesOf tree.2 (order (layerKeys tree.2)) k with
        | .error e => .error e
        | .ok d => .ok (raw, d)
    else .ok (raw, [])

/-- `read_gwy` (surfalize/file/gwy.py:215-269) with its option. -/
def readGwyWith (T : Units.Text) (enc : Encoding) (order : List (List Char) → List (List Char)) (images : Bool)
    (h : Handle) : Run (Raw K × List (List Char × Grid Nat)) :=
  if (h.read 4).1 ≠ utf8 "GWYP".toList then .fail .fileFormat
  else (parseTree enc (h.read 4).2).bind fun r => Run.lift (fromTreeWith T order images r.1)

end
end Gwy
end Surfalize
