import Verif.Model.Units

/-!
# Specification of unit names
Which strings name a unit of length, and how many metres the unit is (as a power of ten).
-/
namespace Surfalize.UnitsSpec
open Surfalize.Units

/-- The known units: symbol or English name, and the exponent of its length in metres. -/
inductive Known : String → Int → Prop where
  | m : Known "m" 0
  | meter : Known "meter" 0
  | dm : Known "dm" (-1)
  | decimeter : Known "decimeter" (-1)
  | cm : Known "cm" (-2)
  | centimeter : Known "centimeter" (-2)
  | mm : Known "mm" (-3)
  | millimeter : Known "millimeter" (-3)
  | um : Known "um" (-6)
  | micrometer : Known "micrometer" (-6)
  | nm : Known "nm" (-9)
  | nanometer : Known "nanometer" (-9)
  | pm : Known "pm" (-12)
  | picometer : Known "picometer" (-12)

/-- `w` is a known unit in any capitalisation (ASCII letters), of exponent `e`. -/
def Plain (w : List Char) (e : Int) : Prop :=
  ∃ name, Known name e ∧ (∀ c ∈ w, c.toNat < 128) ∧ w.map Char.toLower = name.toList

/-- `w` is a micrometre written with the given micro sign. -/
def WithSign (c : Char) (w : List Char) : Prop := w = [c, 'm'] ∨ w = [c, 'M']

/-- What is assumed of the text routines: the micro sign is among its own decodings (latin-1 to latin-1) and is its
own lower case; the lower case of a character outside ASCII contains a character that is `k` (the Kelvin sign) or is
itself outside ASCII. -/
structure Faithful (T : Text) : Prop where
  micro_decodes : T.decodings [micro] = true
  micro_lower : T.lowerC micro = [micro]
  lower_outside : ∀ c : Char, ¬ c.toNat < 128 → ∃ x ∈ T.lowerC c, x = 'k' ∨ ¬ x.toNat < 128

end Surfalize.UnitsSpec
