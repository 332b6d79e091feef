import Verif.Lemmas.Gauss
import Verif.Lemmas.Lying
import Mathlib.Algebra.Ring.Periodic
/-!
# Smoothings with different widths commute if the ends are continued symmetrically or periodically
-/
set_option linter.unusedSectionVars false
namespace Surfalize.Gauss
open Surfalize Finset Container

/-- The smoothing of the continued axis at any position. -/
noncomputable def smear (mode : End) (σ : ℝ) (n : Nat) (z : Nat → ℝ) (k : Int) : ℝ :=
  ∑ m ∈ Icc (-(radius σ : Int)) (radius σ), weight σ m * pick mode n z (k + m)

private theorem mod_of_periodic {f : Int → ℝ} {p : Int} (h : ∀ k, f (k + p) = f k) (k : Int) : f (k % p) = f k := by
  have hp : Function.Periodic f p := h
  have := (hp.int_mul (k / p)) (k % p)
  rw [Int.cast_id, show k % p + k / p * p = k by rw [Int.mul_comm]; exact Int.emod_add_mul_ediv k p] at this
  exact this.symm

private theorem smear_period {mode : End} {n : Nat} {z : Nat → ℝ} {p : Int} (h : ∀ k, pick mode n z (k + p) = pick mode n z k) (σ : ℝ) (k : Int) :
    smear mode σ n z (k + p) = smear mode σ n z k := by
  unfold smear
  refine sum_congr rfl fun m _ => ?_
  rw [show k + p + m = k + m + p by ring, h]

private theorem smear_turn {mode : End} {n : Nat} {z : Nat → ℝ} {s : Int} (h : ∀ k, pick mode n z (s - k) = pick mode n z k) (σ : ℝ) (k : Int) :
    smear mode σ n z (s - k) = smear mode σ n z k := by
  unfold smear
  rw [← sum_symm]
  refine sum_congr rfl fun m _ => ?_
  rw [weight_neg, show s - k + -m = s - (k + m) by ring, h]

private theorem mirror_period {n : Nat} (z : Nat → ℝ) (k : Int) : pick .mirror n z (k + (2 * n - 2)) = pick .mirror n z k := by
  unfold pick ext
  rw [Int.add_emod_right]

private theorem mirror_turn {n : Nat} (z : Nat → ℝ) (k : Int) : pick .mirror n z (0 - k) = pick .mirror n z k := by
  unfold pick
  simp only [ext]
  by_cases hn : n ≤ 1
  · rw [if_pos hn, if_pos hn]
  · rw [if_neg hn, if_neg hn]
    have a := Int.emod_nonneg k (show (2 * n - 2 : Int) ≠ 0 by omega)
    have b := Int.emod_lt_of_pos k (show (0 : Int) < 2 * n - 2 by omega)
    have e := Int.emod_add_mul_ediv k (2 * n - 2)
    set r := k % (2 * n - 2) with hr
    clear_value r
    by_cases r0 : r = 0
    · have : (0 - k) % (2 * n - 2) = 0 := emod_of (q := -(k / (2 * n - 2))) (by rw [r0] at e; linarith) (by omega) (by omega)
      rw [this, r0]
    · have : (0 - k) % (2 * n - 2) = 2 * n - 2 - r := emod_of (q := -(k / (2 * n - 2)) - 1) (by
        linarith) (by omega) (by omega)
      rw [this]
      split <;> split <;> congr 2 <;> omega

/-- With ends continued symmetrically or periodically, continuing the smoothed axis is smoothing the continued one. -/
theorem pick_smear {mode : End} (hm : mode = .reflect ∨ mode = .mirror ∨ mode = .wrap) {n : Nat} (hn : 0 < n) (σ : ℝ) (z : Nat → ℝ) (k : Int) :
    pick mode n (fun i => smear mode σ n z i) k = smear mode σ n z k := by
  rcases hm with rfl | rfl | rfl
  · have P := smear_period (pick_reflect_period n z) σ
    have T := smear_turn (pick_reflect_reflect hn z) σ
    have a := Int.emod_nonneg k (show (2 * n : Int) ≠ 0 by omega)
    have b := Int.emod_lt_of_pos k (show (0 : Int) < 2 * n by omega)
    have M := mod_of_periodic P k
    rw [show ((2 * n : Nat) : Int) = 2 * (n : Int) by push_cast; ring] at M
    unfold pick
    simp only [ext]
    split
    · rename_i h
      rw [Int.toNat_of_nonneg a]; exact M
    · rename_i h
      rw [Int.toNat_of_nonneg (by omega), ← M, ← T, ← P]
      congr 1; push_cast; ring
  · by_cases h1 : n ≤ 1
    · have c : ∀ k : Int, pick .mirror n z k = z 0 := fun k => by unfold pick; simp only [ext, if_pos h1]
      have c' : ∀ k : Int, smear .mirror σ n z k = z 0 := fun k => by
        unfold smear; simp only [c, ← sum_mul, weight_sum, one_mul]
      unfold pick
      simp only [ext, if_pos h1, c']
    · have P := smear_period (mirror_period (n := n) z) σ
      have T := smear_turn (mirror_turn (n := n) z) σ
      have a := Int.emod_nonneg k (show (2 * n - 2 : Int) ≠ 0 by omega)
      have b := Int.emod_lt_of_pos k (show (0 : Int) < 2 * n - 2 by omega)
      have M := mod_of_periodic P k
      unfold pick
      simp only [ext, if_neg h1]
      split
      · rw [Int.toNat_of_nonneg a]; exact M
      · rw [Int.toNat_of_nonneg (by omega), ← M, ← T, ← P]
        congr 1; ring
  · have P := smear_period (pick_wrap_period n z) σ
    have a := Int.emod_nonneg k (show (n : Int) ≠ 0 by omega)
    unfold pick
    simp only [ext]
    rw [Int.toNat_of_nonneg a]
    exact mod_of_periodic P k

/-- Smoothings of different widths commute. -/
theorem axis_axis {mode : End} (hm : mode = .reflect ∨ mode = .mirror ∨ mode = .wrap) {n : Nat} (hn : 0 < n) (a b : ℝ) (z : Nat → ℝ) (i : Nat) :
    axis mode a n (fun k => axis mode b n z k) i = axis mode b n (fun k => axis mode a n z k) i := by
  have e : ∀ σ, 1 / 10 ^ 15 < σ → (fun k : Nat => axis mode σ n z k) = fun k : Nat => smear mode σ n z k := by
    intro σ h; funext k; unfold axis smear; rw [if_pos h]
  by_cases ha : 1 / 10 ^ 15 < a
  · by_cases hb : 1 / 10 ^ 15 < b
    · rw [e a ha, e b hb]
      unfold axis
      rw [if_pos ha, if_pos hb]
      simp only [pick_smear hm hn]
      unfold smear
      simp only [mul_sum]
      rw [sum_comm]
      refine sum_congr rfl fun m _ => sum_congr rfl fun l _ => ?_
      rw [show (i : Int) + l + m = i + m + l by ring]; ring
    · have e' : ∀ (w : Nat → ℝ) k, axis mode b n w k = w k := fun w k => by unfold axis; rw [if_neg hb]
      simp only [e']
  · have e' : ∀ (w : Nat → ℝ) k, axis mode a n w k = w k := fun w k => by unfold axis; rw [if_neg ha]
    simp only [e']

end Surfalize.Gauss
