import Verif.Prelude.Err
import Mathlib.Algebra.Field.Defs
import Mathlib.Data.Rat.Defs

/-!
# Model of unit conversion (surfalize/file/common.py:26-142)

Strings are lists of characters. Two things are left open as parameters: how `str.lower` treats characters outside
ASCII (`lowerC`), and the set of misdecodings of the micro sign that the codec tables produce (`decodings`, the result
of `get_possible_mu_decodings`, common.py:28-50).
-/
namespace Surfalize.Units

/-- The text routines of the Python runtime. -/
structure Text where
  /-- lower case of a character that is not ASCII -/
  lowerC : Char → List Char
  /-- membership in `get_possible_mu_decodings()` -/
  decodings : List Char → Bool

/-- `chr(181)`, the micro sign. -/
def micro : Char := Char.ofNat 181
/-- `chr(956)`, the Greek letter mu. -/
def mu : Char := Char.ofNat 956
/-- `chr(13211)`, the square micrometre sign. -/
def squareUm : Char := Char.ofNat 13211

/-- common.py:79-94 `UNIT_EXPONENT`. -/
def unitExponent : List (List Char × Int) :=
  [("m".toList, 0), ("meter".toList, 0), ("dm".toList, -1), ("decimeter".toList, -1), ("cm".toList, -2),
   ("centimeter".toList, -2), ("mm".toList, -3), ("millimeter".toList, -3), ("um".toList, -6),
   ("micrometer".toList, -6), ("nm".toList, -9), ("nanometer".toList, -9), ("pm".toList, -12), ("picometer".toList, -12)]

/-- `str.lower`, character by character. -/
def Text.lower (T : Text) (w : List Char) : List Char :=
  w.flatMap fun c => if c.toNat < 128 then [c.toLower] else T.lowerC c

/-- common.py:73-77, 96-111 — `_sanitize_mu`: each alias replaced in turn; the replacements contain no alias. -/
def sanitizeMu (w : List Char) : List Char :=
  w.flatMap fun c => if c = micro then ['u'] else if c = mu then ['u'] else if c = squareUm then ['u', 'm'] else [c]

/-- common.py:66-71 — `fix_decoding_issues`. -/
def fixDecodingIssues (T : Text) (unit : List Char) : List Char :=
  if unit.getLast? = some 'm' then (if T.decodings unit.dropLast then "um".toList else unit) else unit

/-- common.py:114-142 — `get_unit_conversion(from_unit, to_unit)`, with exact powers of ten. -/
def getUnitConversion {K : Type} [Field K] (T : Text) (fromUnit toUnit : List Char) : Except Err K :=
  let f := T.lower (sanitizeMu fromUnit)
  let t := T.lower toUnit
  let f := if (unitExponent.lookup f).isNone then fixDecodingIssues T f else f
  let t := if (unitExponent.lookup t).isNone then fixDecodingIssues T t else t
  match unitExponent.lookup f with
  | none => .error .valueError
  | some ef =>
    match unitExponent.lookup t with
    | none => .error .valueError
    | some et => .ok ((10 : K) ^ (ef - et))

end Surfalize.Units
