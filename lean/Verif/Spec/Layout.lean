import Verif.Model.Layout
/-!
# What a header field should hold after a round trip (C57)
Only the data types of `Model/Layout.lean` (formats, values, entries) are used here, none
of its functions.
-/
namespace Surfalize
namespace LayoutSpec
open LayoutM

variable {K : Type} [Field K] [LinearOrder K]

/-- Number of bytes a `struct` format occupies. -/
def bytesOf : Fmt → Nat
  | .int _ _ w => w
  | .bool => 1
  | .flt true _ n => n * 8
  | .flt false _ n => n * 4
  | .str n => n

/-- `x` is in the range of the float format and `y` is a number nearest to `x` among those
the format can hold. -/
def Nearest (double : Bool) (x y : K) : Prop :=
  |x| < FFormat.threshold K (if double then f64 else f32) ∧
  (∃ n, FFormat.val K (if double then f64 else f32) n = .fin y) ∧
  ∀ n y', FFormat.val K (if double then f64 else f32) n = .fin y' → |y - x| ≤ |y' - x|

/-- `t` is `s` without its trailing spaces and NULs. -/
def Stripped (s t : List Char) : Prop :=
  (∃ pad : List Char, (∀ c ∈ pad, c = ' ' ∨ c = '\x00') ∧ s = t ++ pad) ∧
  ∀ c, t.getLast? = some c → c ≠ ' ' ∧ c ≠ '\x00'

/-- The first `n` bytes of the text are the whole characters `u`: cutting the text to
the field does not cut a character. -/
def CutTo (n : Nat) (s u : List Char) : Prop := u <+: s ∧ utf8 u = (utf8 s).take n

/-- The value `v'` read from a field of the given format after writing `v`. -/
def ReadsAs (f : Fmt) (v v' : Val K) : Prop :=
  match f, v with
  | .int _ _ _, .int i => v' = .int i
  | .bool, .int i => v' = .int (if i = 0 then 0 else 1)
  | .flt d _ 1, .int i => ∃ y, v' = .num (.fin y) ∧ Nearest d (i : K) y
  | .flt d _ 1, .num (.fin x) => ∃ y, v' = .num (.fin y) ∧ Nearest d x y
  | .flt _ _ 1, .num .nan => v' = .num .nan
  | .flt _ _ 1, .num (.inf s) => v' = .num (.inf s)
  | .str n, .str s => ∃ u t, CutTo n s u ∧ Stripped u t ∧ v' = .str t
  | _, _ => False

/-- The value `v'` read for an entry, given the written dictionary. -/
def ReadsBack (d : Dict K) (format : Format K) (v v' : Val K) : Prop :=
  match format with
  | .fixed f => ReadsAs f v v'
  | .fromPrevious p => ∃ n : Nat, d p = some (.int n) ∧ ReadsAs (.str n) v v'
  | .apply _ _ _ => v' = v

/-- Width of an entry in a header written from `d`. -/
def width (d : Dict K) : Entry K → Nat
  | .reserved n => n
  | .field _ (.fixed f) => bytesOf f
  | .field _ (.apply f _ _) => bytesOf f
  | .field _ (.fromPrevious p) => match d p with | some (.int n) => n.toNat | _ => 0

/-- Names of the fields of a layout. -/
def names : List (Entry K) → List String
  | [] => []
  | .reserved _ :: es => names es
  | .field n _ :: es => n :: names es

/-- An `Apply` format whose two directions are inverse and which is stored as an
in-memory integer. -/
def Inverse (rd wr : Val K → Except Err (Val K)) : Prop :=
  ∀ v v', wr v = .ok v' → (∃ i, v' = .int i) ∧ rd v' = .ok v

/-- A layout is well formed: integer formats have at least one byte, `Apply` formats are
integer formats with inverse directions, lengths taken from a previous entry come from an
integer entry before it. -/
def WellFormed (ints : List String) : List (Entry K) → Prop
  | [] => True
  | .reserved _ :: es => WellFormed ints es
  | .field n (.fixed (.int _ _ w)) :: es => 0 < w ∧ WellFormed (n :: ints) es
  | .field _ (.fixed _) :: es => WellFormed ints es
  | .field _ (.fromPrevious p) :: es => p ∈ ints ∧ WellFormed ints es
  | .field _ (.apply f rd wr) :: es =>
    (∃ s big w, f = .int s big w ∧ 0 < w) ∧ Inverse rd wr ∧ WellFormed ints es

/-- Every text is cut between two characters (in particular if it fits), and text is not
stored in the other formats as raw bytes. -/
def TextFits (d : Dict K) : List (Entry K) → Prop
  | [] => True
  | .field n (.fixed (.str k)) :: es =>
    (∃ s u, d n = some (.str s) ∧ CutTo k s u) ∧ TextFits d es
  | .field n (.fromPrevious p) :: es =>
    (∃ s u k, d p = some (.int k) ∧ d n = some (.str s) ∧ CutTo k.toNat s u) ∧ TextFits d es
  | .field n (.fixed .bool) :: es => (∃ i, d n = some (.int i)) ∧ TextFits d es
  | _ :: es => TextFits d es

end LayoutSpec
end Surfalize
