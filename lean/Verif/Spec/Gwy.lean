import Verif.Model.GwyRead
/-!
# Specification: the GWY serialisation

The encoding of the Gwyddion native format as its documentation describes it: strings end with a NUL,
numbers are little-endian, a container is its name, the size of its components and the components, and
a component is its name, a letter for its type and its value.
-/
namespace Surfalize
namespace GwySpec
open Gwy

/-- A NUL-terminated string. -/
def encStr (s : List Char) : Bytes := utf8 s ++ [0]

/-- The letter of a type. -/
def letter : GVal → Char
  | .bool _ => 'b' | .char _ => 'c' | .int _ => 'i' | .long _ => 'q' | .dbl _ => 'd' | .str _ => 's'
  | .obj _ _ => 'o' | .chars _ => 'C' | .ints _ => 'I' | .longs _ => 'Q' | .dbls _ => 'D'
  | .strs _ => 'S' | .objs _ => 'O'

/-- The number of containers. -/
def count : Objs → Nat
  | .nil => 0
  | .cons _ _ rest => count rest + 1

/-- A four-byte size. -/
def encSize (n : Nat) : Bytes := natBytes false 4 n

mutual
/-- The bytes of a value. -/
def encVal : GVal → Bytes
  | .bool b => [if b then 1 else 0]
  | .char c => [c]
  | .int i => intBytes false 4 i
  | .long i => intBytes false 8 i
  | .dbl bits => natBytes false 8 bits
  | .str s => encStr s
  | .obj name fs => encStr name ++ encSize (encFields fs).length ++ encFields fs
  | .chars cs => encSize cs.length ++ cs
  | .ints is => encSize is.length ++ is.flatMap (intBytes false 4)
  | .longs is => encSize is.length ++ is.flatMap (intBytes false 8)
  | .dbls bs => encSize bs.length ++ bs.flatMap (natBytes false 8)
  | .strs ss => encSize ss.length ++ ss.flatMap encStr
  | .objs os => encSize (count os) ++ encObjs os
/-- The bytes of the components. -/
def encFields : Fields → Bytes
  | .nil => []
  | .cons name v rest =>
    encStr name ++ [UInt8.ofNat (letter v).toNat] ++ encVal v ++ encFields rest
/-- The bytes of an array of containers. -/
def encObjs : Objs → Bytes
  | .nil => []
  | .cons name fs rest =>
    encStr name ++ encSize (encFields fs).length ++ encFields fs ++ encObjs rest
end

/-- The bytes of a container. -/
def encObj (name : List Char) (fs : Fields) : Bytes :=
  encStr name ++ encSize (encFields fs).length ++ encFields fs

/-- Text the format can hold and surfalize expects: no NUL and less than 4096 bytes. -/
def Text (s : List Char) : Prop := '\x00' ∉ s ∧ (utf8 s).length < 4096

/-- A count that fits into four bytes. -/
def Size (n : Nat) : Prop := n < 2 ^ 32

/-- A 32 or 64 bit integer. -/
def Int' (w : Nat) (i : Int) : Prop := intMin true w ≤ i ∧ i ≤ intMax true w

mutual
/-- A value the format can hold. -/
def Valid : GVal → Prop
  | .bool _ => True
  | .char _ => True
  | .int i => Int' 4 i
  | .long i => Int' 8 i
  | .dbl bits => bits < 2 ^ 64
  | .str s => Text s
  | .obj name fs => Text name ∧ Size (encFields fs).length ∧ ValidFields fs
  | .chars cs => Size cs.length
  | .ints is => Size is.length ∧ ∀ i ∈ is, Int' 4 i
  | .longs is => Size is.length ∧ ∀ i ∈ is, Int' 8 i
  | .dbls bs => Size bs.length ∧ ∀ b ∈ bs, b < 2 ^ 64
  | .strs ss => Size ss.length ∧ ∀ s ∈ ss, Text s
  | .objs os => Size (count os) ∧ ValidObjs os
/-- Components the format can hold: the names differ. -/
def ValidFields : Fields → Prop
  | .nil => True
  | .cons name v rest => Text name ∧ name ∉ rest.keys ∧ Valid v ∧ ValidFields rest
/-- Containers the format can hold. -/
def ValidObjs : Objs → Prop
  | .nil => True
  | .cons name fs rest => Text name ∧ Size (encFields fs).length ∧ ValidFields fs ∧ ValidObjs rest
end

/-- Components whose names may repeat. -/
def Loose : Fields → Prop
  | .nil => True
  | .cons name v rest => Text name ∧ Valid v ∧ Loose rest

/-- The last component of a name. -/
def lastOf (n : List Char) : Fields → Option GVal
  | .nil => none
  | .cons name v rest =>
    match lastOf n rest with
    | some w => some w
    | none => if name = n then some v else none

/-! ## Channels -/

/-- A number between two slashes, behind `pre`. -/
def NumberAt (key pre k : List Char) : Prop :=
  (∃ post, key = pre ++ '/' :: (k ++ '/' :: post)) ∧ k ≠ [] ∧ ∀ c ∈ k, c.isDigit = true

/-- The first number between two slashes. -/
def HasNumber (key k : List Char) : Prop :=
  ∃ pre, NumberAt key pre k ∧ ∀ pre' k', NumberAt key pre' k' → pre.length ≤ pre'.length

/-- The container has the channel number `k`: one of its keys contains `/k/`. -/
def Channel (top : Fields) (k : List Char) : Prop := ∃ key v, top.get key = some v ∧ HasNumber key k

/-- The data of channel `k` are the data field `f`. -/
def DataOf (top : Fields) (k : List Char) (f : Fields) : Prop :=
  top.get ("/".toList ++ k ++ "/data".toList) = some (.obj "GwyDataField".toList f)

/-- The unit `name` of a data field is the text `s`. -/
def UnitOf (f : Fields) (name : String) (s : List Char) : Prop :=
  ∃ u, f.get name.toList = some (.obj "GwySIUnit".toList u) ∧ u.get "unitstr".toList = some (.str s)

/-- The value `v` is the number `x`: a floating-point number, an integer of 32 or 64 bits, or true or false for 1 or 0. -/
def IsNumber {K : Type} [Field K] [LinearOrder K] (v : GVal) (x : K) : Prop :=
  (∃ b, v = .dbl b ∧ f64.val K b = .fin x) ∨ (∃ i : Int, (v = .int i ∨ v = .long i) ∧ x = i) ∨ (v = .bool true ∧ x = 1) ∨
    (v = .bool false ∧ x = 0)

/-- The heights of the channel have a known unit of length. -/
def IsLength (top : Fields) (k : List Char) : Prop :=
  ∃ f s e, DataOf top k f ∧ UnitOf f "si_unit_z" s ∧ (s, e) ∈ Units.unitExponent

/-- The title of the channel speaks of heights. -/
def Named (T : Units.Text) (top : Fields) (k : List Char) : Prop :=
  ∃ t, top.get ("/".toList ++ k ++ "/data/title".toList) = some (.str t) ∧
    ("height".toList <:+: T.lower t ∨ "topo".toList <:+: T.lower t)

/-- The layer numbers are written without leading zeros. -/
def Canonical (top : Fields) : Prop := ∀ k, Channel top k → ∃ n, k = natText n

/-- The order in which Python lists a set: each element once. -/
def ListsSet (order : List (List Char) → List (List Char)) : Prop :=
  ∀ l, (order l).Nodup ∧ ∀ x, x ∈ order l ↔ x ∈ l

end GwySpec
end Surfalize
