import Mathlib.Algebra.Order.Field.Basic
/-!
# Constructing a surface: surfalize/surface.py:110-127, surfalize/utils.py:23-42
-/
namespace Surfalize
namespace Construct
variable {K : Type} [Field K] [LinearOrder K]

/-- `approximately_equal(a, b, epsilon=1e-6)` (surfalize/utils.py:23-42). -/
def approximatelyEqual (a b : K) (epsilon : K := 1 / 10 ^ 6) : Bool := if |a - b| < epsilon then true else false

/-- Whether `Surface(height_data, step_x, step_y)` warns (surfalize/surface.py:112-115). -/
def warns (stepX stepY : K) : Bool := !approximatelyEqual stepX stepY

end Construct
end Surfalize
