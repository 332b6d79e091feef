import Verif.Model.FileHandler
import Verif.Model.Sur
import Verif.Model.Tmd
import Verif.Model.Al3d
import Verif.Model.Sdf
import Verif.Model.Sflz
/-!
# `Surface.save` and `Surface.load` (surfalize/surface.py:273-349)

The registered readers and writers of the formats that can be written are the modelled ones with their default
arguments; every other reader is arbitrary. Metadata is not modelled, and image layers are not loaded (the default of
`Surface.load`).
-/
namespace Surfalize
namespace SaveLoad
open Files LayoutM FileArr

/-- What the surroundings supply: float encoders, unit texts, `repr` and `float`, zlib and lzma, `floor(log10(x))`, the
clock and the dates made of it, numpy's conversion of NaN to an integer, the end of the reader of ASCII SDF files, the
readers of the other formats, where readers leave the file position, what a writer has written when it raises. -/
structure Env (K : Type) where
  codec : FloatCodec K
  units : Units.Text
  text : FloatText K
  packers : Sflz.Codecs
  inflate : Bytes → Except Err Bytes
  deflate : Bytes → Bytes
  log : K → Int
  clock : Sur.Clock
  created : List Char
  modified : List Char
  nanInt : Int
  nanU32 : Int
  finish : List (List Char × List Char) → List Char → Except Err (Raw K)
  other : Format → ReadFn (Raw K)
  leaves : Format → Handle → Nat
  written : Format → Sflz.Surf K → Bytes

section
variable {K : Type} [Field K] [LinearOrder K] [FloorRing K]

/-- The readers, called with `encoding` and `read_image_layers=False` (surfalize/surface.py:298-300; al3d.py:47,
sdf.py:128, sflz.py:63, sur.py:326, tmd.py:21). -/
def read (E : Env K) (enc : Encoding) (f : Format) : ReadFn (Raw K) := fun h =>
  match f with
  | .al3d => (Al3d.readAl3d E.codec E.text enc h, E.leaves f h)
  | .sdf => (Sdf.readSdf E.finish enc h, E.leaves f h)
  | .sflz => ((Sflz.readSflz E.packers false h).map Sflz.Surf.raw, E.leaves f h)
  | .sur => (Sur.readSur E.units enc E.inflate h, E.leaves f h)
  | .tmd => (Tmd.readTmd h, E.leaves f h)
  | f => E.other f h

/-- The writers with their default arguments (surfalize/surface.py:349; al3d.py:24, sdf.py:139 `binary=True`,
sflz.py:96-97 `compression='zlib', save_image_layers=True, dtype='<u4'`, sur.py:359 `compressed=False, comment=''`,
tmd.py:38 `comment='Exported by surfalize'`). `numMeta` is the number of metadata entries. -/
def writeBytes (E : Env K) (numMeta : Nat) (f : Format) (s : Sflz.Surf K) : Except Err Bytes :=
  match f with
  | .al3d => .ok (Al3d.writeAl3d E.codec E.text s.raw)
  | .sdf => Sdf.writeBinary E.codec E.log E.created E.modified s.raw
  | .sflz => Sflz.writeSflz E.codec E.packers E.nanU32 "zlib".toList true numMeta ⟨.unsigned, 4, false⟩ s
  | .sur => Sur.writeSur E.codec E.nanInt E.deflate E.clock false [] s.raw
  | .tmd => Tmd.writeTmd E.codec "Exported by surfalize".toList s.raw
  | _ => .error .unsupported

/-- The writers as functions that may have written something when they raise. -/
def write (E : Env K) (numMeta : Nat) (f : Format) : WriteFn (Sflz.Surf K) := fun s =>
  match writeBytes E numMeta f s with
  | .ok b => (b, .ok ())
  | .error e => (E.written f s, .error e)

/-- `Surface.save` (surfalize/surface.py:319-349). -/
def save (E : Env K) (numMeta : Nat) (dst : Source) (format : Option (List Char)) (s : Sflz.Surf K) :
    Except Err Unit × Source :=
  Files.save (packageWriters (write E numMeta)) dst format s

/-- `Surface.load` (surfalize/surface.py:273-317). -/
def load (E : Env K) (enc : Encoding) (src : Source) (format : Option (List Char)) : Except Err (Raw K) × Source :=
  Files.load (package (read E enc)) src format

end
end SaveLoad
end Surfalize
