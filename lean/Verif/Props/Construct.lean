import Verif.Model.Construct
import Mathlib.Tactic.Linarith
import Mathlib.Tactic.FieldSimp
import Mathlib.Tactic.NormNum
import Mathlib.Tactic.Positivity
/-!
# C122: the warning about unequal steps
-/
set_option linter.unusedSectionVars false
namespace Surfalize
namespace Props
open Construct
variable {K : Type} [Field K] [LinearOrder K] [IsStrictOrderedRing K]

/-- **C122**. Constructing a surface warns exactly if the steps in x and y differ by at least a picometre (one millionth of a micrometre); the order
of the steps does not matter, and equal steps never give a warning. -/
theorem C122_warns (sx sy : K) :
    (warns sx sy = true ↔ sx + 1 / 1000000 ≤ sy ∨ sy + 1 / 1000000 ≤ sx) ∧ warns sx sy = warns sy sx ∧ warns sx sx = false := by
  have e : (1 / 10 ^ 6 : K) = 1 / 1000000 := by norm_num
  have key (a b : K) : warns a b = true ↔ a + 1 / 1000000 ≤ b ∨ b + 1 / 1000000 ≤ a := by
    unfold warns approximatelyEqual
    rw [e]
    by_cases h : |a - b| < 1 / 1000000
    · rw [if_pos h]
      obtain ⟨h1, h2⟩ := abs_lt.1 h
      constructor
      · intro h'; cases h'
      · rintro (h' | h') <;> exfalso <;> linarith
    · rw [if_neg h]
      rw [not_lt, le_abs] at h
      refine ⟨fun _ => ?_, fun _ => rfl⟩
      rcases h with h | h
      · exact Or.inr (by linarith)
      · exact Or.inl (by linarith)
  refine ⟨key sx sy, ?_, ?_⟩
  · rw [Bool.eq_iff_iff, key, key, or_comm]
  · rw [Bool.eq_false_iff, ne_eq, key]
    have : (0 : K) < 1 / 1000000 := by positivity
    rintro (h | h) <;> linarith

/-- **C122** (violated as a statement about shapes of pixels). Whatever the ratio of the steps, there is a surface with that ratio that is taken for one
with square pixels; and however close to 1 the ratio is, there is a surface with that ratio that is warned of. -/
theorem C122_scale_violated (r : K) (hr : 0 < r) :
    (∃ s : K, 0 < s ∧ warns s (r * s) = false) ∧ (r ≠ 1 → ∃ s : K, 0 < s ∧ warns s (r * s) = true) := by
  have hp : (0 : K) < 1 / 1000000 := by positivity
  have hu : 0 < 1 + r := by linarith
  constructor
  · refine ⟨1 / 1000000 / (1 + r), div_pos hp hu, ?_⟩
    have h1 : 0 < 1 / 1000000 / (1 + r) := div_pos hp hu
    have h2 : 1 / 1000000 / (1 + r) + r * (1 / 1000000 / (1 + r)) = 1 / 1000000 := by field_simp
    have h3 := mul_pos hr h1
    rw [Bool.eq_false_iff, ne_eq, (C122_warns _ _).1]
    rintro (h | h) <;> linarith
  · intro h1
    have hd : 0 < |r - 1| := abs_pos.2 (sub_ne_zero.2 h1)
    refine ⟨1 / 1000000 / |r - 1|, div_pos hp hd, ?_⟩
    rw [(C122_warns _ _).1]
    rcases lt_or_gt_of_ne h1 with h | h
    · right
      rw [abs_of_neg (by linarith)] at hd ⊢
      have e : 1 / 1000000 / -(r - 1) - r * (1 / 1000000 / -(r - 1)) = 1 / 1000000 := by
        have : -(r - 1) ≠ 0 := hd.ne'
        have e2 : 1 / 1000000 / -(r - 1) * -(r - 1) = 1 / 1000000 := div_mul_cancel₀ _ this
        linarith
      linarith
    · left
      rw [abs_of_pos (by linarith)] at hd ⊢
      have e2 : 1 / 1000000 / (r - 1) * (r - 1) = 1 / 1000000 := div_mul_cancel₀ _ hd.ne'
      linarith

/-- Both cases. -/
example : warns (1 : ℚ) 2 = true ∧ warns (1 / 10000000 : ℚ) (8 / 10000000) = false := by decide +kernel

end Props
end Surfalize
