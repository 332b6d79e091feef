import Verif.Model.Fits
/-!
# Image layers of FITS files: surfalize/file/fits.py:82-123 (`read_image_layers=True`)

`cap` is `str.capitalize`. The values of an image are those of C66: exact numbers, infinities as NaN.
-/
namespace Surfalize
namespace Fits
open LayoutM FileArr Gwy

section
variable {K : Type} [Field K] [LinearOrder K]

/-- `d[name] = data` for a dictionary in its order: an existing key keeps its place. -/
def putAt (d : List (List Char × Grid (Option K))) (k : List Char) (g : Grid (Option K)) : List (List Char × Grid (Option K)) :=
  match d with
  | [] => [(k, g)]
  | p :: d => if p.1 = k then (k, g) :: d else p :: putAt d k g

/-- The loop over the blocks after the header (surfalize/file/fits.py:83-99), with `layers` in its order. -/
def readLayersL (T : FloatText K) (enc : Encoding) :
    Nat → List (List Char × Grid (Option K)) → Handle → Run (List (List Char × Grid (Option K)) × Handle)
  | 0, _, _ => .more
  | n + 1, ls, h =>
    if (utf8 "XTENSION".toList).isPrefixOf (h.read blockSize).1 then
      match readLayer T enc (h.read blockSize).1 (h.read blockSize).2 with
      | .error e => .fail e
      | .ok ((name, g), h') =>
        if h'.buf.length ≤ h'.pos then .done (putAt ls name g, h')
        else readLayersL T enc n (putAt ls name g) h'
    else if (h.read blockSize).2.buf.length ≤ (h.read blockSize).2.pos then .done (ls, (h.read blockSize).2)
    else readLayersL T enc n ls (h.read blockSize).2

/-- The image layers (surfalize/file/fits.py:118-121): all but heights and mask, with capitalised names. -/
def imagesOf (cap : List Char → List Char) (acc : List (List Char × Grid (Option K))) :
    List (List Char × Grid (Option K)) → List (List Char × Grid (Option K))
  | [] => acc
  | (k, g) :: ls =>
    if k = "HEIGHTS".toList ∨ k = "MASK".toList then imagesOf cap acc ls else imagesOf cap (putAt acc (cap k) g) ls

/-- `read_fits` (surfalize/file/fits.py:72-123) with `n` steps for each of its loops. -/
def readFitsWith (cap : List Char → List Char) (T : FloatText K) (U : Units.Text) (enc : Encoding) (images : Bool) (n : Nat)
    (h : Handle) : Run (Raw K × List (List Char × Grid (Option K))) :=
  if (h.read 6).1 ≠ utf8 "SIMPLE".toList then .fail .fileFormat
  else
    (readHeader T enc n (fun _ => none) (h.seek 0)).bind fun r =>
    (readLayersL T enc n [] r.2).bind fun s =>
    (Run.lift (fromLayers U r.1 fun x => s.1.lookup x)).bind fun raw =>
    .done (raw, if images then imagesOf cap [] s.1 else [])

end
end Fits
end Surfalize
