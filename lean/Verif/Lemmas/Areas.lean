import Verif.Model.Areas
import Verif.Spec.Areas
import Verif.Lemmas.GridFn
import Verif.Lemmas.HeightParams
import Mathlib.Tactic.FieldSimp
import Mathlib.Tactic.Positivity

set_option linter.unusedSectionVars false
namespace Surfalize.Areas
open Surfalize BaseOps HeightParams Finset Spec Container

theorem HasHeights.no_none {g : Grid (Option ℝ)} {f} (h : HasHeights g f) : none ∉ flat g := by
  intro hn
  obtain ⟨i, hi, j, hj, hh⟩ := mem_flat_get h.1 hn
  rw [h.2 i hi j hj] at hh
  cases hh

theorem HasHeights.val {g : Grid (Option ℝ)} {f} (h : HasHeights g f) {i j : Nat} (hi : i < g.ny) (hj : j < g.nx) :
    g.val i j = f i j := by simp [Grid.val, h.2 i hi j hj]

theorem HasHeights.guard {β : Type} {g : Grid (Option ℝ)} {f} (h : HasHeights g f) (F : Grid (Option ℝ) → Except Err β) :
    noNonmeasured F g = F g := by
  unfold noNonmeasured
  rw [if_neg]
  intro hm
  exact HasHeights.no_none h ((mem_none_iff_hasMissing g).1 hm)

/-- the area in terms of the heights -/
theorem surfaceArea_eq {g : Grid (Option ℝ)} {f} (h : HasHeights g f) (sx sy : ℝ) :
    surfaceArea g sx sy = .ok (∑ i ∈ range (g.ny - 1), ∑ j ∈ range (g.nx - 1),
      Real.sqrt ((sy * (f (i + 1) j - f i j)) ^ 2 + (sx * (f i (j + 1) - f i j)) ^ 2 + (sx * sy) ^ 2)) := by
  unfold surfaceArea
  rw [HasHeights.guard h]
  congr 1
  unfold surfaceAreaOf
  rw [mul_sum]
  apply sum_congr rfl
  intro i hi
  rw [mul_sum]
  apply sum_congr rfl
  intro j hj
  rw [mem_range] at hi hj
  unfold dzX dzY
  rw [HasHeights.val h (by omega) (by omega), HasHeights.val h (by omega) (by omega),
    HasHeights.val h (by omega) (by omega)]
  ring

theorem le_sqrt_term (sx sy a b : ℝ) :
    sx * sy ≤ Real.sqrt (a ^ 2 + b ^ 2 + (sx * sy) ^ 2) := by
  apply Real.le_sqrt_of_sq_le
  nlinarith [sq_nonneg a, sq_nonneg b]

theorem sqrt_term_eq {sx sy : ℝ} (hx : 0 < sx) (hy : 0 < sy) {a b : ℝ}
    (h : Real.sqrt ((sy * a) ^ 2 + (sx * b) ^ 2 + (sx * sy) ^ 2) = sx * sy) : a = 0 ∧ b = 0 := by
  have h2 : (sy * a) ^ 2 + (sx * b) ^ 2 + (sx * sy) ^ 2 = (sx * sy) ^ 2 := by
    have := Real.sq_sqrt (show 0 ≤ (sy * a) ^ 2 + (sx * b) ^ 2 + (sx * sy) ^ 2 by positivity)
    rw [h] at this
    exact this.symm
  have ha : (sy * a) ^ 2 = 0 := by nlinarith [sq_nonneg (sy * a), sq_nonneg (sx * b)]
  have hb : (sx * b) ^ 2 = 0 := by nlinarith [sq_nonneg (sy * a), sq_nonneg (sx * b)]
  rw [sq_eq_zero_iff] at ha hb
  constructor
  · rcases mul_eq_zero.1 ha with h | h
    · exact absurd h (ne_of_gt hy)
    · exact h
  · rcases mul_eq_zero.1 hb with h | h
    · exact absurd h (ne_of_gt hx)
    · exact h

theorem sum_const2 (m n : Nat) (c : ℝ) : ∑ _i ∈ range m, ∑ _j ∈ range n, c = m * n * c := by
  simp [mul_assoc]

theorem eq_first_col {f : Nat → Nat → ℝ} {m : Nat} (h : ∀ i < m, f (i + 1) 0 = f i 0) : ∀ i ≤ m, f i 0 = f 0 0 := by
  intro i
  induction i with
  | zero => intro _; rfl
  | succ k ih => intro hk; rw [h k (by omega), ih (by omega)]

theorem eq_row {f : Nat → Nat → ℝ} {i n : Nat} (h : ∀ j < n, f i (j + 1) = f i j) : ∀ j ≤ n, f i j = f i 0 := by
  intro i
  induction i with
  | zero => intro _; rfl
  | succ k ih => intro hk; rw [h k (by omega), ih (by omega)]

theorem eq_col {f : Nat → Nat → ℝ} {j m : Nat} (h : ∀ i < m, f (i + 1) j = f i j) : ∀ i ≤ m, f i j = f 0 j := by
  intro i
  induction i with
  | zero => intro _; rfl
  | succ k ih => intro hk; rw [h k (by omega), ih (by omega)]

/-- `Sdq` in terms of the heights. -/
theorem sdq_eq {g : Grid (Option ℝ)} {f} (h : HasHeights g f) (hny : 0 < g.ny) (hnx : 0 < g.nx) (sx sy : ℝ) :
    sdq g sx sy = .ok (some (Real.sqrt ((∑ i ∈ range g.ny, ∑ j ∈ range (g.nx - 1), ((f i (j + 1) - f i j) / sx) ^ 2
      + ∑ i ∈ range (g.ny - 1), ∑ j ∈ range g.nx, ((f (i + 1) j - f i j) / sy) ^ 2) / (g.ny * g.nx)))) := by
  unfold sdq
  rw [HasHeights.guard h]
  have hA : ((g.ny : ℝ) * (g.nx : ℝ)) ≠ 0 := by positivity
  simp only [if_neg hA]
  congr 5
  · apply sum_congr rfl
    intro i hi
    apply sum_congr rfl
    intro j hj
    rw [mem_range] at hi hj
    unfold dzX
    rw [HasHeights.val h (by omega) (by omega), HasHeights.val h (by omega) (by omega)]
  · apply sum_congr rfl
    intro i hi
    apply sum_congr rfl
    intro j hj
    rw [mem_range] at hi hj
    unfold dzY
    rw [HasHeights.val h (by omega) (by omega), HasHeights.val h (by omega) (by omega)]

end Surfalize.Areas
