import Verif.Model.Layout
/-!
# Specification: Alicona files

Behind 17 bytes follow tags of 52 bytes: 20 bytes key, 30 bytes value, both padded with NULs, and a line end. The first
two are the version and the number of the tags that follow. A later tag replaces an earlier one of the same key.
-/
namespace Surfalize
namespace Al3dFile

/-- A field of `w` bytes at `off` is the text `s`, padded with NULs. -/
def Text (enc : LayoutM.Encoding) (buf : Bytes) (off w : Nat) (s : List Char) : Prop :=
  ∃ t, LayoutM.decode enc ((buf.drop off).take w) = .ok t ∧ s = rstrip (fun c => c = '\x00') t

/-- Tag number `t` (from 0) has this key and value. -/
def Tag (enc : LayoutM.Encoding) (buf : Bytes) (t : Nat) (key value : List Char) : Prop :=
  Text enc buf (17 + 52 * t) 20 key ∧ Text enc buf (17 + 52 * t + 20) 30 value

/-- Among the first `n` tags the last one with this key has this value. -/
def Last (enc : LayoutM.Encoding) (buf : Bytes) (n : Nat) (key : String) (value : List Char) : Prop :=
  ∃ t, t < n ∧ Tag enc buf t key.toList value ∧ ∀ t' v', t < t' → t' < n → ¬ Tag enc buf t' key.toList v'

/-- The single-precision number stored for a point, the heights starting at `off`. -/
def stored (K : Type) [Field K] (buf : Bytes) (off nx i j : Nat) : FVal K :=
  f32.val K (leNat ((buf.drop (off + (i * nx + j) * 4)).take 4))

/-- `x` is one of the single-precision numbers nearest to `v`. -/
def NearestSingle {K : Type} [Field K] [LinearOrder K] (v x : K) : Prop :=
  ∀ n y, f32.val K n = .fin y → |x - v| ≤ |y - v|

end Al3dFile
end Surfalize
