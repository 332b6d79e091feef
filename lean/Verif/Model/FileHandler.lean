import Verif.Prelude.Bytes
import Verif.Prelude.Err
/-!
# Choosing readers and writers: surfalize/file/common.py:172-185, 383-521

Readers and writers are arbitrary functions. Warnings, metadata, image layers, the encoding and files
that do not exist are not modelled; exceptions are modelled as `Err` (every class derives from
`Exception`).
-/
namespace Surfalize
namespace Files

/-- A reader called with an open file: its result and where it leaves the file position. -/
abbrev ReadFn (R : Type) := Handle → Except Err R × Nat

/-- A writer called with a surface: the bytes it has written when it returns or raises. -/
abbrev WriteFn (S : Type) := S → Bytes × Except Err Unit

/-- A reader as it is registered, with its suffixes and magic numbers
(surfalize/file/common.py:420-438). -/
structure Reader (R : Type) where
  suffixes : List (List Char)
  magics : List Bytes
  run : ReadFn R

/-- `d[k] = v` of a dictionary in insertion order. -/
def put {α β : Type} [DecidableEq α] (k : α) (v : β) : List (α × β) → List (α × β)
  | [] => [(k, v)]
  | (k', v') :: d => if k' = k then (k, v) :: d else (k', v') :: put k v d

/-- `_readers_by_suffix` after registering `rs` (surfalize/file/common.py:425-429). -/
def bySuffix {R : Type} (rs : List (Reader R)) : List (List Char × ReadFn R) :=
  rs.foldl (fun d r => r.suffixes.foldl (fun d s => put s r.run d) d) []

/-- `_readers_by_magic` after registering `rs` (surfalize/file/common.py:430-436). -/
def byMagic {R : Type} (rs : List (Reader R)) : List (Bytes × ReadFn R) :=
  rs.foldl (fun d r => r.magics.foldl (fun d m => put m r.run d) d) []

/-- What `Surface.load` and `Surface.save` are given: a path, with its suffix (as `Path.suffix` gives
it) and the content of the file, or a buffer with its position. -/
inductive Source where
  | path (suffix : List Char) (content : Bytes)
  | buffer (content : Bytes) (pos : Nat)

namespace Source

/-- The bytes. -/
def content : Source → Bytes
  | path _ b => b
  | buffer b _ => b

/-- Where reading starts: a path is opened anew each time. -/
def start : Source → Nat
  | path _ _ => 0
  | buffer _ p => p

/-- The source with the position moved: nothing changes for a path. -/
def at_ : Source → Nat → Source
  | path s b, _ => path s b
  | buffer b _, p => buffer b p

/-- `is_path_like` (surfalize/file/common.py:452-455). -/
def isPath : Source → Bool
  | path _ _ => true
  | buffer _ _ => false

end Source

/-- `str.lower`; ASCII only. -/
def lower (s : List Char) : List Char := s.map Char.toLower

section
variable {R : Type}

/-- `with open_file_like(file) as f: return reader(f)` (surfalize/file/common.py:172-185, 471-472): the
position of a buffer is restored unless the reader raises. -/
def attempt (r : ReadFn R) (src : Source) : Except Err R × Source :=
  match r ⟨src.content, src.start⟩ with
  | (.ok x, _) => (.ok x, src)
  | (.error e, p) => (.error e, src.at_ p)

/-- The name a format is looked up under (surfalize/file/common.py:461-465), if there is one. -/
def named (src : Source) (format : Option (List Char)) : Option (List Char) :=
  match format, src with
  | some f, _ => some (lower f)
  | none, .path s _ => some (lower s)
  | none, .buffer _ _ => none

/-- The first stage of `read` (surfalize/file/common.py:461-474): a result, or the exception kept for
later, and the source. -/
def byName (rs : List (Reader R)) (src : Source) (format : Option (List Char)) :
    Except (Option Err) R × Source :=
  match named src format with
  | none => (.error none, src)
  | some s =>
    match (bySuffix rs).lookup s with
    | none => (.error (some .unsupported), src)
    | some r =>
      match attempt r src with
      | (.ok x, src') => (.ok x, src')
      | (.error e, src') => (.error (some e), src')

/-- The loop over the magic numbers (surfalize/file/common.py:478-487): none if nothing matches. The
magic number is compared at the current position, and the reader starts at the beginning. -/
def byMagicLoop (src : Source) : List (Bytes × ReadFn R) → Option (Except Err R × Source)
  | [] => none
  | (m, r) :: rest =>
    if ((Handle.mk src.content src.start).read m.length).1 = m then
      match r ⟨src.content, 0⟩ with
      | (.ok x, _) => some (.ok x, src)
      | (.error e, p) => some (.error e, src.at_ p)
    else byMagicLoop src rest

/-- The loop over all readers (surfalize/file/common.py:491-502). The warning after a success needs
`self.file.suffix`, an AttributeError for a buffer, which is swallowed together with the result. -/
def probe (src : Source) : List (List Char × ReadFn R) → Option R × Source
  | [] => (none, src)
  | (_, r) :: rest =>
    match attempt r src with
    | (.ok x, src') => if src.isPath then (some x, src') else probe src' rest
    | (.error _, src') => probe src' rest

/-- `FileHandler.read` (surfalize/file/common.py:457-507). -/
def load (rs : List (Reader R)) (src : Source) (format : Option (List Char)) :
    Except Err R × Source :=
  match byName rs src format with
  | (.ok x, src') => (.ok x, src')
  | (.error e, src1) =>
    match byMagicLoop src1 (byMagic rs) with
    | some out => out
    | none =>
      match probe src1 (bySuffix rs) with
      | (some x, src2) => (.ok x, src2)
      | (none, src2) => (.error (e.getD .unsupported), src2)
end

/-- Bytes written at a position of a buffer: a gap is filled with zeros. -/
def overwrite (b : Bytes) (p : Nat) (w : Bytes) : Bytes :=
  b.take p ++ List.replicate (p - b.length) 0 ++ w ++ b.drop (p + w.length)

/-- The suffix a writer is looked up under (surfalize/file/common.py:510-513); `[]` is no suffix. -/
def target (src : Source) (format : Option (List Char)) : List Char :=
  match src with
  | .path f _ => f
  | .buffer _ _ => format.getD []

/-- `FileHandler.write` (surfalize/file/common.py:509-521): a file is emptied when it is opened; the
position of a buffer is restored unless the writer raises. -/
def save {S : Type} (ws : List (List Char × WriteFn S)) (src : Source) (format : Option (List Char))
    (s : S) : Except Err Unit × Source :=
  let suffix := target src format
  if suffix = [] then (.error .valueError, src)
  else
    match ws.lookup suffix with
    | none => (.error .unsupported, src)
    | some w =>
      match src, w s with
      | .path f _, (out, r) => (r, .path f out)
      | .buffer b p, (out, .ok u) => (.ok u, .buffer (overwrite b p out) p)
      | .buffer b p, (out, .error e) => (.error e, .buffer (overwrite b p out) (p + out.length))

/-- The formats the package reads. -/
inductive Format where
  | al3d | dat | fits | gwy | nms | opd | os3d | plu | plux | sdf | sflz | sur | tmd | vk4 | vk67 | x3p
  | xyz | zmg
  deriving DecidableEq

/-- Text as bytes. -/
def asc (s : String) : Bytes := s.toList.map fun c => UInt8.ofNat c.toNat

namespace Format
/-- All formats in the order their modules are imported (surfalize/file/__init__.py:6-8:
`pkgutil.iter_modules` sorts by name). -/
def all : List Format :=
  [al3d, dat, fits, gwy, nms, opd, os3d, plu, plux, sdf, sflz, sur, tmd, vk4, vk67, x3p, xyz, zmg]

/-- The registered suffixes (the `register_reader` decorators: al3d.py:47, dat.py:255, fits.py:72,
gwy.py:215, nms.py:17, opd.py:85, os3d.py:30, plu.py:47, plux.py:12, sdf.py:128, sflz.py:63, sur.py:326,
tmd.py:21, vk.py:158, vk.py:192, x3p.py:32, xyz.py:7, zmg.py:20). -/
def suffixes : Format → List (List Char)
  | al3d => [".al3d".toList]
  | dat => [".dat".toList]
  | fits => [".fits".toList, ".fit".toList, ".fts".toList]
  | gwy => [".gwy".toList]
  | nms => [".nms".toList]
  | opd => [".opd".toList]
  | os3d => [".os3d".toList]
  | plu => [".plu".toList]
  | plux => [".plux".toList]
  | sdf => [".sdf".toList]
  | sflz => [".sflz".toList]
  | sur => [".sur".toList]
  | tmd => [".tmd".toList]
  | vk4 => [".vk4".toList]
  | vk67 => [".vk6".toList, ".vk7".toList]
  | x3p => [".x3p".toList]
  | xyz => [".xyz".toList]
  | zmg => [".zmg".toList]

/-- The registered magic numbers (al3d.py:6, dat.py:8-10, fits.py:5, gwy.py:8, opd.py:10, os3d.py:11,
sdf.py:9-10, sflz.py:6, sur.py:14-15, tmd.py:4, vk.py:158, 192, x3p.py:12, zmg.py:5). -/
def magics : Format → List Bytes
  | al3d => [asc "AliconaImaging\x00\r\n"]
  | dat => [[0x88, 0x1b, 0x03, 0x6f], [0x88, 0x1b, 0x03, 0x70], [0x88, 0x1b, 0x03, 0x71]]
  | fits => [asc "SIMPLE"]
  | gwy => [asc "GWYP"]
  | nms => []
  | opd => [asc "\x01\x00Directory"]
  | os3d => [asc "OmniSurf3D"]
  | plu => []
  | plux => []
  | sdf => [asc "aISO-1.0", asc "bISO-1.0"]
  | sflz => [asc "SFLZ"]
  | sur => [asc "DIGITAL SURF", asc "DSCOMPRESSED"]
  | tmd => [asc "Binary TrueMap Data File v2.0"]
  | vk4 => [asc "VK4_"]
  | vk67 => [asc "VK6", asc "VK7"]
  | x3p => [asc "PK\x03\x04\x14"]
  | xyz => []
  | zmg => [asc "Zeta-Instruments"]

/-- The suffixes that can be written (al3d.py:23, sdf.py:138, sflz.py:95, sur.py:358, tmd.py:37). -/
def writable : List Format := [al3d, sdf, sflz, sur, tmd]
end Format

/-- The registered readers, given the function of each format. -/
def package {R : Type} (run : Format → ReadFn R) : List (Reader R) :=
  Format.all.map fun f => ⟨f.suffixes, f.magics, run f⟩

/-- The registered writers, given the function of each format. -/
def packageWriters {S : Type} (run : Format → WriteFn S) : List (List Char × WriteFn S) :=
  Format.writable.flatMap fun f => f.suffixes.map fun s => (s, run f)

end Files
end Surfalize
