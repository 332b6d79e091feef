import Verif.Model.FileArray
import Verif.Prelude.Py
/-!
# Surfalize files: surfalize/file/sflz.py

Arithmetic is exact; values are rounded when they are stored. The compression libraries are
parameters, and so is the integer numpy makes of a NaN (undefined behaviour in C).
-/
namespace Surfalize
namespace Sflz
open LayoutM FileArr

/-- `dtype.kind`. -/
inductive Kind where
  | unsigned
  | signed
  | float
  deriving DecidableEq

/-- `np.dtype`: kind, item size and byte order. -/
structure DType where
  kind : Kind
  size : Nat
  big : Bool
  deriving DecidableEq

/-- The letter of a kind. -/
def Kind.letter : Kind → Char
  | .unsigned => 'u'
  | .signed => 'i'
  | .float => 'f'

/-- `dtype.str` (surfalize/file/sflz.py:136): byte order, kind, size. -/
def DType.str (t : DType) : List Char :=
  [if t.size = 1 then '|' else if t.big then '>' else '<', t.kind.letter, Char.ofNat (t.size + 48)]

/-- The dtypes the model knows. -/
def dtypes : List DType :=
  [⟨.unsigned, 1, false⟩, ⟨.unsigned, 2, false⟩, ⟨.unsigned, 4, false⟩, ⟨.unsigned, 8, false⟩,
   ⟨.unsigned, 2, true⟩, ⟨.unsigned, 4, true⟩, ⟨.unsigned, 8, true⟩,
   ⟨.signed, 1, false⟩, ⟨.signed, 2, false⟩, ⟨.signed, 4, false⟩, ⟨.signed, 8, false⟩,
   ⟨.signed, 2, true⟩, ⟨.signed, 4, true⟩, ⟨.signed, 8, true⟩,
   ⟨.float, 4, false⟩, ⟨.float, 8, false⟩, ⟨.float, 4, true⟩, ⟨.float, 8, true⟩]

/-- `np.dtype(s)`: TypeError for anything unknown. Simplification: only the integer and float dtypes
of `dtypes` (no booleans, half floats or records). -/
def dtypeOf (s : List Char) : Except Err DType :=
  match dtypes.find? (fun t => t.str = s) with
  | some t => .ok t
  | none => .error .typeError

/-- The codec of a compression name (surfalize/file/sflz.py:47-61). -/
structure Codec where
  compress : Bytes → Bytes
  decompress : Bytes → Except Err Bytes

/-- The libraries behind 'zlib' and 'lzma'. -/
structure Codecs where
  zlib : Codec
  lzma : Codec

/-- `compress`/`decompress` for a compression name (surfalize/file/sflz.py:47-61). -/
def Codecs.of (L : Codecs) (name : List Char) : Codec :=
  if name = "zlib".toList then L.zlib else if name = "lzma".toList then L.lzma else ⟨id, .ok⟩

/-- `ConvertCompression.read`: `COMPRESSION_TYPE_FROM_INT[code]` (surfalize/file/sflz.py:8-22). -/
def compressionRead {K : Type} : Val K → Except Err (Val K)
  | .int i =>
    if i = 0 then .ok (.str "none".toList) else if i = 1 then .ok (.str "zlib".toList)
    else if i = 2 then .ok (.str "lzma".toList) else .error .keyError
  | _ => .error .keyError

/-- `ConvertCompression.write`: `INT_FROM_COMPRESSION_TYPE[name]` (surfalize/file/sflz.py:8-22). -/
def compressionWrite {K : Type} : Val K → Except Err (Val K)
  | .str name =>
    if name = "none".toList then .ok (.int 0) else if name = "zlib".toList then .ok (.int 1)
    else if name = "lzma".toList then .ok (.int 2) else .error .keyError
  | _ => .error .keyError

/-- `LAYOUT_HEADER` (surfalize/file/sflz.py:25-35). -/
def layout (K : Type) : List (Entry K) :=
  [.field "version" (.fixed (.str 10)), .field "step_x" (.fixed (.flt true false 1)),
   .field "step_y" (.fixed (.flt true false 1)), .field "scaled" (.fixed .bool),
   .field "min_value" (.fixed (.flt true false 1)), .field "max_value" (.fixed (.flt true false 1)),
   .field "num_layers" (.fixed (.int false false 2)),
   .field "num_metadata" (.fixed (.int false false 2)),
   .field "compression_algorithm" (.apply (.int false false 1) compressionRead compressionWrite)]

/-- `LAYOUT_LAYER_HEADER` (surfalize/file/sflz.py:37-45). -/
def layerLayout (K : Type) : List (Entry K) :=
  [.field "name_length" (.fixed (.int false false 2)), .field "name" (.fromPrevious "name_length"),
   .field "width" (.fixed (.int false false 4)), .field "height" (.fixed (.int false false 4)),
   .field "channels" (.fixed (.int false false 1)), .field "datatype" (.fixed (.str 3)),
   .field "size" (.fixed (.int false false 4))]

/-- An image layer: name, dtype, shape `(height, width)` or `(height, width, third)` and the items as
bytes in C order (`data.tobytes()`). -/
structure Layer where
  name : List Char
  dtype : DType
  height : Nat
  width : Nat
  third : Option Nat
  bytes : Bytes
  deriving DecidableEq

/-- A surface handed to the writer or returned by the reader. -/
structure Surf (K : Type) where
  raw : Raw K
  layers : List Layer

section
variable {K : Type} [Field K] [LinearOrder K]

/-- Smallest and largest value of an integer dtype (`np.iinfo`). -/
def DType.lo (t : DType) : Int := intMin (t.kind = .signed) t.size
def DType.hi (t : DType) : Int := intMax (t.kind = .signed) t.size

/-- One item of `np.frombuffer(data, dtype)` as a number; infinities are not distinguished from
NaN. -/
def DType.item (K : Type) [Field K] (t : DType) (bs : Bytes) : Option K :=
  match t.kind with
  | .float => toOpt ((Fmt.ff (t.size = 8)).val K (bytesNat t.big bs))
  | _ => some ((bytesInt (t.kind = .signed) t.big t.size bs : Int) : K)

/-- `d[name] = v` of a dictionary of layers. -/
def putLayer (v : Layer) : List Layer → List Layer
  | [] => [v]
  | l :: ls => if l.name = v.name then v :: ls else l :: putLayer v ls

/-- The scaled heights (surfalize/file/sflz.py:84-90). -/
def unscale (t : DType) (lo hi : Option K) (x : Option K) : Option K :=
  match x, lo, hi with
  | some x, some lo, some hi =>
    some ((x + (t.lo : K)) / ((t.hi - t.lo : Int) : K) * (hi - lo) + lo)
  | _, _, _ => none

/-- One round of the loop over the layers (surfalize/file/sflz.py:73-92): the layer as stored. -/
def readLayer (cd : Codec) (h : Handle) : Except Err (Layer × Handle) :=
  match read .utf8 h (layerLayout K) with
  | .error e => .error e
  | .ok (d, h1) =>
    match getStr d "name", getInt d "width", getInt d "height", getInt d "channels",
      getStr d "datatype", getInt d "size" with
    | .ok name, .ok width, .ok height, .ok channels, .ok ty, .ok size =>
      let r := h1.read size.toNat
      match cd.decompress r.1 with
      | .error e => .error e
      | .ok bytes =>
        match dtypeOf ty with
        | .error e => .error e
        | .ok t =>
          if bytes.length % t.size ≠ 0 then .error .valueError
          else if channels > 1 then
            if (bytes.length / t.size : Nat) = height * width * channels then
              .ok (⟨name, t, height.toNat, width.toNat, some channels.toNat, bytes⟩, r.2)
            else .error .valueError
          else if (bytes.length / t.size : Nat) = height * width then
            .ok (⟨name, t, height.toNat, width.toNat, none, bytes⟩, r.2)
          else .error .valueError
    | _, _, _, _, _, _ => .error .typeError

/-- The remaining layers are image layers (surfalize/file/sflz.py:91-92). -/
def readLayers (K : Type) [Field K] [LinearOrder K] (cd : Codec) :
    Nat → List Layer → Handle → Except Err (List Layer)
  | 0, ls, _ => .ok ls
  | n + 1, ls, h =>
    match readLayer (K := K) cd h with
    | .error e => .error e
    | .ok (l, h') => readLayers K cd n (putLayer l ls) h'

/-- `read_sflz` (surfalize/file/sflz.py:63-93). A first layer that is not a two-dimensional
'topography' has no heights; using the result is an AttributeError, raised here at once. Steps that
are not numbers are a ValueError here. -/
def readSflz (L : Codecs) (images : Bool) (h : Handle) : Except Err (Surf K) :=
  let r := h.read 4
  if r.1 ≠ utf8 "SFLZ".toList then .error .valueError
  else
    match read .utf8 r.2 (layout K) with
    | .error e => .error e
    | .ok (d, h1) =>
      match getStr d "compression_algorithm", getInt d "num_layers", getInt d "scaled",
        getNum d "min_value", getNum d "max_value", getNum d "step_x", getNum d "step_y" with
      | .ok code, .ok n, .ok scaled, .ok lo, .ok hi, .ok sx, .ok sy =>
        let cd := L.of code
        let n : Nat := if images then n.toNat else 1
        if n = 0 then .error .attributeError
        else
          match readLayer (K := K) cd h1 with
          | .error e => .error e
          | .ok (l, h2) =>
            if l.name ≠ "topography".toList ∨ l.third ≠ none then .error .attributeError
            else if scaled ≠ 0 ∧ l.dtype.kind = .float then .error .valueError
            else
              match fromBuffer l.dtype.size (l.dtype.item K) l.bytes with
              | .error e => .error e
              | .ok items =>
                let heights := if scaled ≠ 0 then items.map (unscale l.dtype lo hi) else items
                match reshape heights l.height l.width with
                | .error e => .error e
                | .ok g =>
                  match readLayers K cd (n - 1) [] h2 with
                  | .error e => .error e
                  | .ok layers =>
                    match sx, sy with
                    | some sx, some sy => .ok ⟨⟨g, sx, sy⟩, layers⟩
                    | _, _ => .error .valueError
      | _, _, _, _, _, _, _ => .error .typeError

/-- The bytes of one height: `data.astype(dtype).tobytes()` (surfalize/file/sflz.py:128). Integers
are cut towards zero; `nan` is what numpy makes of a NaN. -/
def encodeItem [FloorRing K] (c : FloatCodec K) (nan : Int) (t : DType) (x : Option K) : Bytes :=
  match t.kind with
  | .float => natBytes t.big t.size (c.enc (Fmt.ff (t.size = 8)) x)
  | _ => intBytes t.big t.size (match x with
    | some x => pyInt x
    | none => nan)

/-- `data_norm * (dtype_max - dtype_min) + dtype_min` for one height (surfalize/file/sflz.py:120-121);
NaN when the range is empty or unknown. -/
def scaled (t : DType) (lo hi : Option K) (z : Option K) : Option K :=
  match z, lo, hi with
  | some z, some lo, some hi =>
    if hi = lo then none
    else some ((z - lo) / (hi - lo) * ((t.hi - t.lo : Int) : K) + (t.lo : K))
  | _, _, _ => none

/-- The header of a layer (surfalize/file/sflz.py:130-138, 146-154). -/
def layerDict (name : List Char) (width height channels : Nat) (t : DType) (size : Nat) : Dict K :=
  fun k => List.lookup k
    [("name_length", .int name.length), ("name", .str name), ("width", .int width),
     ("height", .int height), ("channels", .int channels), ("datatype", .str t.str),
     ("size", .int size)]

/-- A layer as it is written (surfalize/file/sflz.py:140-157). -/
def writeLayer (c : FloatCodec K) (cd : Codec) (l : Layer) : Except Err Bytes :=
  let data := cd.compress l.bytes
  match write c (layerDict (K := K) l.name l.width l.height (l.third.getD 1) l.dtype data.length)
      (layerLayout K) with
  | .error e => .error e
  | .ok hdr => .ok (hdr ++ data)

/-- The loop over the image layers. -/
def writeLayers (c : FloatCodec K) (cd : Codec) : List Layer → Except Err Bytes
  | [] => .ok []
  | l :: ls =>
    match writeLayer c cd l with
    | .error e => .error e
    | .ok b =>
      match writeLayers c cd ls with
      | .error e => .error e
      | .ok bs => .ok (b ++ bs)

/-- The header dictionary (surfalize/file/sflz.py:100-127). -/
def header (compression : List Char) (scaled : Bool) (lo hi : Option K) (numLayers numMeta : Nat)
    (s : Surf K) : Dict K :=
  fun k => List.lookup k
    [("version", .str (ljust 10 "1.0".toList)), ("step_x", .num (.fin s.raw.stepX)),
     ("step_y", .num (.fin s.raw.stepY)), ("num_layers", .int numLayers),
     ("num_metadata", .int numMeta), ("compression_algorithm", .str compression),
     ("scaled", .int (if scaled then 1 else 0)),
     ("min_value", if scaled then .num (match lo with
        | some x => .fin x
        | none => .nan) else .int 0),
     ("max_value", if scaled then .num (match hi with
        | some x => .fin x
        | none => .nan) else .int 0)]

/-- `write_sflz` (surfalize/file/sflz.py:95-157): the bytes of the file. `images` is
`save_image_layers`, `numMeta` the number of metadata entries announced. `data.min()` of an empty array
is a ValueError. -/
def writeSflz [FloorRing K] (c : FloatCodec K) (L : Codecs) (nan : Int) (compression : List Char)
    (images : Bool) (numMeta : Nat) (t : DType) (s : Surf K) : Except Err Bytes :=
  let zs := Container.flat s.raw.data
  let isInt : Bool := t.kind ≠ .float
  if isInt ∧ zs = [] then .error .valueError
  else
    let lo := propmin zs
    let hi := propmax zs
    let layers := if images then s.layers else []
    match write c (header compression isInt lo hi (1 + layers.length) numMeta s) (layout K) with
    | .error e => .error e
    | .ok hdr =>
      let cd := L.of compression
      let items := if isInt then zs.map (scaled t lo hi) else zs
      match writeLayer c cd ⟨"topography".toList, t, s.raw.data.ny, s.raw.data.nx, none,
          writeArray (encodeItem c nan t) items⟩ with
      | .error e => .error e
      | .ok top =>
        match writeLayers c cd layers with
        | .error e => .error e
        | .ok rest => .ok (utf8 "SFLZ".toList ++ (hdr ++ (top ++ rest)))
end
end Sflz
end Surfalize
