import Verif.Model.SaveLoad
import Verif.Spec.Units
import Verif.Lemmas.Bytes
import Verif.Prelude.GridFn
/-!
# Specification: saving and loading

What is assumed of the surroundings, which surfaces can be stored, and when a loaded surface counts as the saved one.
-/
namespace Surfalize
namespace SaveLoadSpec
open Files FileArr
variable {K : Type} [Field K] [LinearOrder K] [IsStrictOrderedRing K]

/-- A clock whose readings fit 16 bits, like every date. -/
def ClockOk (t : Sur.Clock) : Prop :=
  ∀ x ∈ [t.second, t.minute, t.hour, t.day, t.month, t.year, t.weekday], -(2 ^ 15) ≤ x ∧ x ≤ 2 ^ 15 - 1

/-- The surroundings work: numbers are rounded to the nearest float, texts of numbers are read back, zlib and lzma are
lossless and do not inflate beyond reason, dates have twelve characters. -/
structure Sound (E : SaveLoad.Env K) : Prop where
  codec : E.codec.Nearest
  units : UnitsSpec.Faithful E.units
  text : E.text.Faithful
  zlib : ∀ b, E.packers.zlib.decompress (E.packers.zlib.compress b) = .ok b
  lzma : ∀ b, E.packers.lzma.decompress (E.packers.lzma.compress b) = .ok b
  size : ∀ b, (E.packers.zlib.compress b).length ≤ 2 * b.length + 1000
  log : ∀ m : K, 0 < m → (10 : K) ^ (E.log m - 1) ≤ m ∧ m < (10 : K) ^ (E.log m + 2)
  clock : ClockOk E.clock
  created : (utf8 E.created).length ≤ 12
  modified : (utf8 E.modified).length ≤ 12
  nanInt : -(2 ^ 31) ≤ E.nanInt ∧ E.nanInt ≤ 2 ^ 31 - 1

/-- A surface within generous limits: up to `65535` rows and columns and `2^28` points, steps up to `2^80` and heights
up to `2^100` micrometres that are doubles, two different heights, one of them not below `10^-290` micrometres. -/
structure Fits (s : Raw K) : Prop where
  wf : s.data.WF
  nx : 0 < s.data.nx ∧ s.data.nx ≤ 65535
  ny : 0 < s.data.ny ∧ s.data.ny ≤ 65535
  points : s.data.ny * s.data.nx ≤ 2 ^ 28
  stepX : |s.stepX| ≤ 2 ^ 80
  stepY : |s.stepY| ≤ 2 ^ 80
  heights : ∀ z, some z ∈ Container.flat s.data → f64.Repr z ∧ |z| ≤ 2 ^ 100
  differ : ∃ z w, some z ∈ Container.flat s.data ∧ some w ∈ Container.flat s.data ∧ z < w
  large : ∃ z, some z ∈ Container.flat s.data ∧ 1 / 10 ^ 290 ≤ |z|

/-- An image layer with an ASCII name that does not end in a blank or a NUL, of shape `(height, width)` or
`(height, width, k)` with `1 < k < 256`, of at most `2^30` bytes. -/
structure PlainLayer (l : Sflz.Layer) : Prop where
  dtype : l.dtype ∈ Sflz.dtypes
  ascii : ∀ c ∈ l.name, c.toNat < 128
  trim : ∀ c ∈ l.name.getLast?, c ≠ ' ' ∧ c ≠ '\x00'
  short : l.name.length ≤ 65535
  sizes : l.width < 2 ^ 32 ∧ l.height < 2 ^ 32
  third : ∀ k, l.third = some k → 1 < k ∧ k < 256
  length : l.bytes.length = l.height * l.width * l.third.getD 1 * l.dtype.size
  small : l.bytes.length ≤ 2 ^ 30

/-- The image layers and the metadata of a surface fit an SFLZ file. -/
structure LayersFit (numMeta : Nat) (s : Sflz.Surf K) : Prop where
  plain : ∀ l ∈ s.layers, PlainLayer l
  names : (s.layers.map Sflz.Layer.name).Nodup
  count : s.layers.length ≤ 65534
  metadata : numMeta ≤ 65535

/-- The format can hold the surface: SFLZ with its default data type holds no missing points. -/
def Holds (f : Format) (numMeta : Nat) (s : Sflz.Surf K) : Prop :=
  Fits s.raw ∧ (f = .sflz → LayersFit numMeta s ∧ none ∉ Container.flat s.raw.data)

/-- The same surface up to the precision of the file formats: same size, same missing points, steps within `2^-24` of
themselves and heights within `2^-22` of the largest absolute height. -/
structure Close (s r : Raw K) : Prop where
  wf : r.data.WF
  ny : r.data.ny = s.data.ny
  nx : r.data.nx = s.data.nx
  stepX : |r.stepX - s.stepX| ≤ |s.stepX| / 2 ^ 24 + 1 / 2 ^ 100
  stepY : |r.stepY - s.stepY| ≤ |s.stepY| / 2 ^ 24 + 1 / 2 ^ 100
  missing : ∀ i j, i < s.data.ny → j < s.data.nx → (r.data.get i j = none ↔ s.data.get i j = none)
  heights : ∀ A, (∀ z, some z ∈ Container.flat s.data → |z| ≤ A) → ∀ i j z z', s.data.get i j = some z →
    r.data.get i j = some z' → |z' - z| ≤ A / 2 ^ 22 + 1 / 2 ^ 100

/-- The suffix of no supported format, in whatever case. -/
def UnknownSuffix (s : List Char) : Prop := ∀ g : Format, s.map Char.toLower ∉ g.suffixes

end SaveLoadSpec
end Surfalize
