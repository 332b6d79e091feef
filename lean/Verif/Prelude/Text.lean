import Verif.Prelude.Bytes
/-!
# Numbers as text: `str(n)`, `int(s)`, `repr(x)`, `float(s)`
-/
namespace Surfalize

/-- `str(n)` of a non-negative integer: decimal notation. -/
def natText (n : Nat) : List Char :=
  if n < 10 then [Char.ofNat (n + 48)] else natText (n / 10) ++ [Char.ofNat (n % 10 + 48)]
termination_by n
decreasing_by omega

/-- The number decimal digits stand for, most significant first. -/
def digitsNat (s : List Char) : Nat := s.foldl (fun n c => 10 * n + (c.toNat - 48)) 0

/-- White space that `int()`, `float()` and `str.strip()` remove. -/
def isSpace (c : Char) : Bool :=
  c = ' ' || c = '\t' || c = '\n' || c = '\r' || c = '\x0b' || c = '\x0c'

/-- `str.strip()`, ASCII white space. -/
def strip (s : List Char) : List Char := rstrip isSpace (s.dropWhile isSpace)

/-- `int(s)`: white space around, an optional sign, ASCII digits; anything else is a ValueError.
Simplification: digit separators (`1_000`) and non-ASCII digits are a ValueError here. -/
def intOf (s : List Char) : Except Err Int :=
  match strip s with
  | '-' :: ds => if ds ≠ [] ∧ ds.all Char.isDigit then .ok (-(digitsNat ds : Int)) else .error .valueError
  | '+' :: ds => if ds ≠ [] ∧ ds.all Char.isDigit then .ok (digitsNat ds) else .error .valueError
  | ds => if ds ≠ [] ∧ ds.all Char.isDigit then .ok (digitsNat ds) else .error .valueError

/-- `repr(x)` and `float(s)` of Python floats. -/
structure FloatText (K : Type) where
  repr : K → List Char
  parse : List Char → Except Err (FVal K)

/-- What Python guarantees of them: a float is written with at most 24 printable ASCII characters
and read back as itself; a number `x` stands for the float nearest to it. -/
structure FloatText.Faithful {K : Type} [Field K] [LinearOrder K] (T : FloatText K) : Prop where
  back : ∀ x : K, |x| < f64.threshold K → ∃ y, T.parse (T.repr x) = .ok (.fin y) ∧
    (∃ n, f64.val K n = .fin y) ∧ ∀ n y', f64.val K n = .fin y' → |y - x| ≤ |y' - x|
  short : ∀ x, (T.repr x).length ≤ 24
  ascii : ∀ x, ∀ c ∈ T.repr x, 32 < c.toNat ∧ c.toNat < 127
  nan : T.parse "nan".toList = .ok .nan

end Surfalize
