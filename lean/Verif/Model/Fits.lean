import Verif.Model.Gwy
/-!
# FITS files: surfalize/file/fits.py

`Run` and `Run.more` are as for Gwyddion files: loops get a number of steps. White space is ASCII white
space. Image layers (`read_image_layers=True`) are in `Model/FitsImages`.
-/
namespace Surfalize
namespace Fits
open LayoutM FileArr Gwy

/-- `BLOCKSIZE` (surfalize/file/fits.py:6). -/
def blockSize : Nat := 2880

section
variable {K : Type} [Field K] [LinearOrder K]

/-- A value of a header (surfalize/file/fits.py:23-32). -/
inductive HVal (K : Type) where
  | int (i : Int)
  | num (x : FVal K)
  | str (s : List Char)

/-- A header dictionary. -/
abbrev Header (K : Type) := List Char → Option (HVal K)

/-- `header[left] = v`. -/
def Header.put (hd : Header K) (k : List Char) (v : HVal K) : Header K :=
  fun x => if x = k then some v else hd x

/-- `header.update(other)`. -/
def Header.update (hd other : Header K) : Header K := fun x => (other x).or (hd x)

/-- `string.strip("' ")`. -/
def stripQuotes (s : List Char) : List Char :=
  rstrip (fun c => c = '\'' || c = ' ') (s.dropWhile fun c => c = '\'' || c = ' ')

/-- `convert_dtype` (surfalize/file/fits.py:23-32). -/
def convert (T : FloatText K) (s : List Char) : HVal K :=
  match intOf s with
  | .ok i => .int i
  | .error _ =>
    match T.parse s with
    | .ok x => .num x
    | .error _ => .str (stripQuotes s)

/-- `s.replace(p, '')`, in at most `n` steps. -/
def removeAll (p : List Char) : Nat → List Char → List Char
  | 0, s => s
  | _ + 1, [] => []
  | n + 1, c :: s =>
    if p.isPrefixOf (c :: s) then removeAll p n ((c :: s).drop p.length) else c :: removeAll p n s

/-- `left, right = line.split('=')` (surfalize/file/fits.py:47): exactly one `=`. -/
def splitEq (line : List Char) : Except Err (List Char × List Char) :=
  match line.dropWhile (· ≠ '=') with
  | [] => .error .valueError
  | _ :: right =>
    if '=' ∈ right then .error .valueError else .ok (line.takeWhile (· ≠ '='), right)

/-- The key of a line (surfalize/file/fits.py:48-51). -/
def keyOf (left : List Char) : List Char :=
  if "HIERARCH".toList.isPrefixOf (strip left) then
    removeAll "HIERARCH ".toList (strip left).length (strip left)
  else strip left

/-- The lines of a block in turn (surfalize/file/fits.py:39-52). -/
def parseLines (T : FloatText K) (hd : Header K) : List (List Char) → Except Err (Header K × Bool)
  | [] => .ok (hd, false)
  | line :: ls =>
    if line = [] ∨ "COMMENT".toList.isPrefixOf line then parseLines T hd ls
    else if line = "END".toList then .ok (hd, true)
    else
      match splitEq (line.takeWhile (· ≠ '/')) with
      | .error e => .error e
      | .ok (left, right) => parseLines T (hd.put (keyOf left) (convert T (strip right))) ls

/-- The lines of a block (surfalize/file/fits.py:36). -/
def linesOf (block : List Char) : List (List Char) :=
  (List.range 36).map fun i => rstrip isSpace ((block.drop (i * 80)).take 80)

/-- `parse_header_block` (surfalize/file/fits.py:35-53). -/
def parseBlock (T : FloatText K) (block : List Char) : Except Err (Header K × Bool) :=
  parseLines T (fun _ => none) (linesOf block)

/-- `parse_header_block(decode(block, encoding))` (surfalize/file/fits.py:61, 87). -/
def parseBytes (T : FloatText K) (enc : Encoding) (block : Bytes) : Except Err (Header K × Bool) :=
  match decode enc block with
  | .error e => .error e
  | .ok s => parseBlock T s

/-- `read_header` (surfalize/file/fits.py:56-63). -/
def readHeader (T : FloatText K) (enc : Encoding) : Nat → Header K → Handle → Run (Header K × Handle)
  | 0, _, _ => .more
  | n + 1, hd, h =>
    match parseBytes T enc (h.read blockSize).1 with
    | .error e => .fail e
    | .ok (p, true) => .done (hd.update p, (h.read blockSize).2)
    | .ok (p, false) => readHeader T enc n (hd.update p) (h.read blockSize).2

/-- The data types (surfalize/file/fits.py:14-21): size and value of an item. -/
def itemOf (K : Type) [Field K] (bitpix : Int) : Option (Nat × (Bytes → Option K)) :=
  if bitpix = 8 then some (1, fun b => some ((bytesInt false true 1 b : Int) : K))
  else if bitpix = 16 then some (2, fun b => some ((bytesInt true true 2 b : Int) : K))
  else if bitpix = 32 then some (4, fun b => some ((bytesInt true true 4 b : Int) : K))
  else if bitpix = 64 then some (8, fun b => some ((bytesInt true true 8 b : Int) : K))
  else if bitpix = -32 then some (4, fun b => toOpt (f32.val K (bytesNat true b)))
  else if bitpix = -64 then some (8, fun b => toOpt (f64.val K (bytesNat true b)))
  else none

/-- A header value used as an integer. Simplification: floats are a TypeError here. -/
def intAt (hd : Header K) (k : String) : Except Err Int :=
  match hd k.toList with
  | some (.int i) => .ok i
  | some _ => .error .typeError
  | none => .error .keyError

/-- A header value used as a number. -/
def numAt (hd : Header K) (k : String) : Except Err (Option K) :=
  match hd k.toList with
  | some (.int i) => .ok (some (i : K))
  | some (.num x) => .ok (toOpt x)
  | some _ => .error .typeError
  | none => .error .keyError

/-- A header value used as a text. -/
def strAt (hd : Header K) (k : String) : Except Err (List Char) :=
  match hd k.toList with
  | some (.str s) => .ok s
  | some _ => .error .attributeError
  | none => .error .keyError

/-- The layers, the last one of a name counts. -/
abbrev Layers (K : Type) := List Char → Option (Grid (Option K))

/-- `layers[name] = data`. -/
def Layers.put (ls : Layers K) (k : List Char) (g : Grid (Option K)) : Layers K :=
  fun x => if x = k then some g else ls x

/-- The data of an extension and the position behind it (surfalize/file/fits.py:88-95). Simplifications:
a layer whose name is not a text is a TypeError here. -/
def readLayer (T : FloatText K) (enc : Encoding) (block : Bytes) (h : Handle) :
    Except Err ((List Char × Grid (Option K)) × Handle) :=
  match parseBytes T enc block with
  | .error e => .error e
  | .ok (hd, _) =>
    match intAt hd "NAXIS", intAt hd "NAXIS1", intAt hd "NAXIS2", intAt hd "BITPIX", strAt hd "EXTNAME" with
    | .ok naxis, .ok nx, .ok ny, .ok bp, .ok name =>
      if naxis ≠ 2 then .error .unsupported
      else
        match itemOf K bp with
        | none => .error .keyError
        | some (w, dec) =>
          match readArray w dec (nx * ny) 0 h with
          | .error e => .error e
          | .ok (l, h') =>
            match reshape l ny nx with
            | .error e => .error e
            | .ok g => .ok ((name, g), h'.skip (blockSize - ((nx * ny * w) % blockSize).toNat))
    | _, _, _, _, _ => .error .keyError

/-- The loop over the blocks after the header (surfalize/file/fits.py:83-99). -/
def readLayers (T : FloatText K) (enc : Encoding) : Nat → Layers K → Handle → Run (Layers K × Handle)
  | 0, _, _ => .more
  | n + 1, ls, h =>
    if (utf8 "XTENSION".toList).isPrefixOf (h.read blockSize).1 then
      match readLayer T enc (h.read blockSize).1 (h.read blockSize).2 with
      | .error e => .fail e
      | .ok ((name, g), h') =>
        if h'.buf.length ≤ h'.pos then .done (ls.put name g, h')
        else readLayers T enc n (ls.put name g) h'
    else if (h.read blockSize).2.buf.length ≤ (h.read blockSize).2.pos then .done (ls, (h.read blockSize).2)
    else readLayers T enc n ls (h.read blockSize).2

/-- `data[~mask] = np.nan` of one row. -/
def maskRow (zs ms : List (Option K)) : List (Option K) :=
  List.zipWith (fun z m => if m = some 0 then none else z) zs ms

/-- `data[~mask] = np.nan` (surfalize/file/fits.py:108-110); a mask of another shape is an
IndexError. -/
def applyMask (g : Grid (Option K)) : Option (Grid (Option K)) → Except Err (Grid (Option K))
  | none => .ok g
  | some m =>
    if g.ny = m.ny ∧ g.nx = m.nx then .ok ⟨List.zipWith maskRow g.rows m.rows, g.nx⟩
    else .error .indexError

/-- `multiplicator * get_unit_conversion(unit, 'um')` (surfalize/file/fits.py:111-113); a multiplicator that
is not a number is a ValueError here. -/
def factorOf (U : Units.Text) (hd : Header K) (mult unit : String) : Except Err K :=
  match numAt hd mult, strAt hd unit with
  | .ok (some m), .ok u =>
    match Units.getUnitConversion U u "um".toList with
    | .error e => .error e
    | .ok f => .ok (m * f)
  | .ok none, _ => .error .valueError
  | _, _ => .error .keyError

/-- `header['DELTA…'] * factor` (surfalize/file/fits.py:114-115); a step that is not a number is a
ValueError here. -/
def stepAt (hd : Header K) (k : String) (f : K) : Except Err K :=
  match numAt hd k with
  | .ok (some d) => .ok (d * f)
  | .ok none => .error .valueError
  | .error e => .error e

/-- The surface from the header and the layers (surfalize/file/fits.py:101-123). The factor of the
y-direction uses the unit of the x-direction, as the code does. Simplification: which of several errors is
raised. -/
def fromLayers (U : Units.Text) (hd : Header K) (ls : Layers K) : Except Err (Raw K) :=
  match ls "HEIGHTS".toList with
  | none => .error .fileFormat
  | some g =>
    match applyMask g (ls "MASK".toList) with
    | .error e => .error e
    | .ok g =>
      match factorOf U hd "UnitMultiplicatorDeltas" "UNITX", factorOf U hd "UnitMultiplicatorDeltas" "UNITX",
        factorOf U hd "UnitMultiplicatorHeights" "UNITZ" with
      | .ok fx, .ok fy, .ok fz =>
        match stepAt hd "DELTAX" fx, stepAt hd "DELTAY" fy with
        | .ok sx, .ok sy => .ok ⟨Container.map (Option.map (· * fz)) g, sx, sy⟩
        | _, _ => .error .keyError
      | _, _, _ => .error .keyError

/-- `read_fits` (surfalize/file/fits.py:72-123) with `n` steps for each of its loops. -/
def readFits (T : FloatText K) (U : Units.Text) (enc : Encoding) (n : Nat) (h : Handle) : Run (Raw K) :=
  if (h.read 6).1 ≠ utf8 "SIMPLE".toList then .fail .fileFormat
  else
    (readHeader T enc n (fun _ => none) (h.seek 0)).bind fun r =>
    (readLayers T enc n (fun _ => none) r.2).bind fun s =>
    Run.lift (fromLayers U r.1 s.1)

end
end Fits
end Surfalize
