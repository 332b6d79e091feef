import Verif.Model.Opd
/-!
# Specification: the OPD format

A directory of blocks – name, type, size – followed by the contents of the blocks in the same order. Only the field
types of the model are used.
-/
namespace Surfalize
namespace OpdSpec

/-- The content of a block. -/
inductive Content where
  /-- an array of `nx` columns of `ny` items with `w` bytes each; columns from left to right, in each from bottom to top -/
  | array (nx ny w : Nat) (items : Bytes)
  | text (s : List Char)
  | short (i : Int)
  | long (i : Int)
  | float (bits : Nat)
  | double (bits : Nat)

/-- The type number. -/
def code : Content → Nat
  | .array .. => 3 | .text _ => 5 | .short _ => 6 | .float _ => 7 | .double _ => 8 | .long _ => 12

/-- The bytes of a content. -/
def content : Content → Bytes
  | .array nx ny w items => natBytes false 2 nx ++ natBytes false 2 ny ++ natBytes false 2 w ++ items
  | .text s => utf8 s
  | .short i => intBytes false 2 i
  | .long i => intBytes false 4 i
  | .float b => natBytes false 4 b
  | .double b => natBytes false 8 b

/-- A directory entry. -/
def entry (name : List Char) (type size flags : Nat) : Bytes :=
  utf8 name ++ List.replicate (16 - (utf8 name).length) 0 ++ natBytes false 2 type ++ natBytes false 4 size ++
    natBytes false 2 flags

/-- A named block with its flags. -/
structure Block where
  name : List Char
  flags : Nat
  content : Content

/-- The bytes of a file. -/
def file (blocks : List Block) : Bytes :=
  [1, 0] ++ entry "Directory".toList 1 (24 * (blocks.length + 1)) 0 ++
    blocks.flatMap (fun b => entry b.name (code b.content) (content b.content).length b.flags) ++
    blocks.flatMap fun b => content b.content

/-- A text does not end in NUL. -/
def Plain (s : List Char) : Prop := ∀ c ∈ s.getLast?, c ≠ '\x00'

/-- Values fit their fields. -/
def Fits : Content → Prop
  | .array nx ny w items => nx < 2 ^ 16 ∧ ny < 2 ^ 16 ∧ (w = 1 ∨ w = 2 ∨ w = 4) ∧ items.length = nx * ny * w
  | .text s => Plain s
  | .short i => -2 ^ 15 ≤ i ∧ i < 2 ^ 15
  | .long i => -2 ^ 31 ≤ i ∧ i < 2 ^ 31
  | .float b => b < 2 ^ 32
  | .double b => b < 2 ^ 64

/-- A well-formed list of blocks. -/
structure Valid (blocks : List Block) : Prop where
  names : (blocks.map (·.name)).Nodup
  short : ∀ b ∈ blocks, (utf8 b.name).length ≤ 16 ∧ Plain b.name
  sizes : ∀ b ∈ blocks, (content b.content).length < 2 ^ 31
  fits : ∀ b ∈ blocks, Fits b.content
  total : 24 * (blocks.length + 1) < 2 ^ 31

/-- The content of a block given by name. -/
def find (blocks : List Block) (name : String) : Option Content :=
  (blocks.find? fun b => b.name = name.toList).map (·.content)

variable (K : Type) [Field K] [LinearOrder K]

/-- The number a content stands for, if it is one. -/
def number : Content → Option K
  | .short i => some (i : K)
  | .long i => some (i : K)
  | .float b => match f32.val K b with
    | .fin x => some x
    | _ => none
  | .double b => match f64.val K b with
    | .fin x => some x
    | _ => none
  | _ => none

/-- The value of a parameter: 1 if it is not given (an empty text counts as not given). -/
def Param (blocks : List Block) (name : String) (x : K) : Prop :=
  match find blocks name with
  | none => x = 1
  | some (.text []) => x = 1
  | some c => number K c = some x

/-- Date and time, if there are any, are texts that can be parsed together. -/
def Dated (parse : List Char → Except Err Unit) (blocks : List Block) : Prop :=
  match find blocks "Date", find blocks "Time" with
  | none, _ => True
  | some (.text []), _ => True
  | some (.text _), none => True
  | some (.text _), some (.text []) => True
  | some (.text d), some (.text t) => parse (d ++ [' '] ++ t) = .ok ()
  | _, _ => False

/-- The number in the item at a position of an array, none if it is not a number. -/
def item (w : Nat) (bs : Bytes) : Option K :=
  if w = 1 then some ((bytesNat false bs : Nat) : K)
  else if w = 2 then some ((bytesInt true false 2 bs : Int) : K)
  else match f32.val K (bytesNat false bs) with
    | .fin x => some x
    | _ => none

/-- The marks of invalid points: 32767 for integers, for floats the single-precision number next to 10^38, which is
stored as `7E967699`. -/
def Invalid (w : Nat) (x : K) : Prop :=
  (w = 2 ∧ x = 32767) ∨ (w = 4 ∧ x = 99999996802856924650656260769173209088)

example : f32.val ℚ 0x7E967699 = .fin 99999996802856924650656260769173209088 := by decide +kernel
example : 2 * |(10 ^ 38 : ℚ) - 99999996802856924650656260769173209088| < 2 ^ 103 ∧
    f32.val ℚ 0x7E967698 = .fin (99999996802856924650656260769173209088 - 2 ^ 103) ∧
    f32.val ℚ 0x7E96769A = .fin (99999996802856924650656260769173209088 + 2 ^ 103) := by decide +kernel

end OpdSpec
end Surfalize
