import Verif.Model.Gauss
import Mathlib.Algebra.BigOperators.Group.Finset.Basic
import Mathlib.Algebra.Order.BigOperators.Group.Finset
import Mathlib.Algebra.Order.BigOperators.Ring.Finset
import Mathlib.Algebra.BigOperators.Field
import Mathlib.Tactic.Linarith
import Mathlib.Tactic.Ring
import Mathlib.Tactic.Positivity
import Mathlib.Tactic.FieldSimp
/-!
# Lemmas for the Gaussian smoothing
-/
set_option linter.unusedSectionVars false
namespace Surfalize.Gauss
open Surfalize Finset

/-- Remainders by the inverse of the division. -/
theorem emod_of {k p q j : Int} (h : k = p * q + j) (h0 : 0 ≤ j) (h1 : j < p) : k % p = j := by
  rw [h, add_comm, Int.add_mul_emod_self_left, Int.emod_eq_of_lt h0 h1]

theorem ext_lt {mode : End} {n : Nat} (hn : 0 < n) {k : Int} {j : Nat} (h : ext mode n k = some j) : j < n := by
  cases mode
  · simp only [ext, Option.some.injEq] at h
    have a := Int.emod_nonneg k (show (2 * n : Int) ≠ 0 by omega)
    have b := Int.emod_lt_of_pos k (show (0 : Int) < 2 * n by omega)
    generalize k % (2 * (n : Int)) = r at *
    split at h <;> omega
  · simp only [ext] at h
    split at h
    · have := Option.some.inj h; omega
    · cases h
  · simp only [ext, Option.some.injEq] at h
    split at h
    · omega
    · split at h <;> omega
  · simp only [ext, Option.some.injEq] at h
    split at h
    · omega
    · rename_i hc
      have a := Int.emod_nonneg k (show (2 * n - 2 : Int) ≠ 0 by omega)
      have b := Int.emod_lt_of_pos k (show (0 : Int) < 2 * n - 2 by omega)
      generalize k % (2 * (n : Int) - 2) = r at *
      split at h <;> omega
  · simp only [ext, Option.some.injEq] at h
    have a := Int.emod_nonneg k (show (n : Int) ≠ 0 by omega)
    have b := Int.emod_lt_of_pos k (show (0 : Int) < n by omega)
    omega

theorem ext_some {mode : End} (hm : mode ≠ .constant) (n : Nat) (k : Int) : ∃ j, ext mode n k = some j := by
  cases mode <;> first | exact ⟨_, rfl⟩ | exact absurd rfl hm

/-- Inside the array the continuation is the array. -/
theorem ext_inside (mode : End) {n i : Nat} (hi : i < n) : ext mode n i = some i := by
  cases mode
  · simp only [ext]
    rw [Int.emod_eq_of_lt (by omega) (by omega)]
    simp [hi]
  · simp [ext, hi]
  · simp [ext, hi]
  · simp only [ext]
    by_cases h1 : n ≤ 1
    · rw [if_pos h1]; congr 1; omega
    · rw [if_neg h1]
      by_cases h2 : (i : Int) < 2 * n - 2
      · rw [Int.emod_eq_of_lt (by omega) h2]
        simp [hi]
      · omega
  · simp only [ext]
    rw [Int.emod_eq_of_lt (by omega) (by omega)]
    simp

/-- The continuation of the reversed array is the reversed continuation. -/
theorem pick_reverse (mode : End) {n : Nat} (hn : 0 < n) (z : Nat → ℝ) (k : Int) :
    pick mode n (fun j => z (n - 1 - j)) k = pick mode n z (n - 1 - k) := by
  unfold pick
  cases mode
  · simp only [ext]
    have a := Int.emod_nonneg k (show (2 * n : Int) ≠ 0 by omega)
    have b := Int.emod_lt_of_pos k (show (0 : Int) < 2 * n by omega)
    have d := Int.mul_ediv_add_emod k (2 * n)
    by_cases c : k % (2 * n) < n
    · have e : ((n : Int) - 1 - k) % (2 * n) = n - 1 - k % (2 * n) :=
        emod_of (q := -(k / (2 * n))) (by rw [mul_neg]; omega) (by omega) (by omega)
      rw [e, if_pos c, if_pos (by omega)]
      congr 1; omega
    · have e : ((n : Int) - 1 - k) % (2 * n) = 3 * n - 1 - k % (2 * n) :=
        emod_of (q := -(k / (2 * n)) - 1) (by rw [mul_sub, mul_neg]; omega) (by omega) (by omega)
      rw [e, if_neg c, if_neg (by omega)]
      congr 1; omega
  · simp only [ext]
    by_cases c : 0 ≤ k ∧ k < n
    · rw [if_pos c, if_pos (by omega)]
      dsimp only
      congr 1; omega
    · rw [if_neg c, if_neg (by omega)]
  · simp only [ext]
    by_cases c : k < 0
    · rw [if_pos c, if_neg (by omega), if_neg (by omega)]
      congr 1
    · by_cases c' : k < n
      · rw [if_neg c, if_pos c', if_neg (by omega), if_pos (by omega)]
        congr 1; omega
      · rw [if_neg c, if_neg c', if_pos (by omega)]
        congr 1; omega
  · simp only [ext]
    by_cases h1 : n ≤ 1
    · rw [if_pos h1, if_pos h1]
      congr 1; omega
    · rw [if_neg h1, if_neg h1]
      have a := Int.emod_nonneg k (show (2 * n - 2 : Int) ≠ 0 by omega)
      have b := Int.emod_lt_of_pos k (show (0 : Int) < 2 * n - 2 by omega)
      have d := Int.mul_ediv_add_emod k (2 * n - 2)
      by_cases c : k % (2 * n - 2) < n
      · have e : ((n : Int) - 1 - k) % (2 * n - 2) = n - 1 - k % (2 * n - 2) :=
          emod_of (q := -(k / (2 * n - 2))) (by rw [mul_neg]; omega) (by omega) (by omega)
        rw [e, if_pos c, if_pos (by omega)]
        congr 1; omega
      · have e : ((n : Int) - 1 - k) % (2 * n - 2) = 3 * n - 3 - k % (2 * n - 2) :=
          emod_of (q := -(k / (2 * n - 2)) - 1) (by rw [mul_sub, mul_neg]; omega) (by omega) (by omega)
        rw [e, if_neg c]
        by_cases c2 : (3 * n - 3 - k % (2 * n - 2) : Int) < n
        · omega
        · rw [if_neg c2]; congr 1; omega
  · simp only [ext]
    have a := Int.emod_nonneg k (show (n : Int) ≠ 0 by omega)
    have b := Int.emod_lt_of_pos k (show (0 : Int) < n by omega)
    have d := Int.mul_ediv_add_emod k n
    have e : ((n : Int) - 1 - k) % n = n - 1 - k % n :=
      emod_of (q := -(k / n)) (by rw [mul_neg]; omega) (by omega) (by omega)
    rw [e]
    congr 1; omega

/-- The sum over one period does not depend on where it starts. -/
theorem periodic_sum {p : Nat} {e : Int → ℝ} (h : ∀ k, e (k + p) = e k) (m : Int) :
    ∑ i ∈ range p, e (i + m) = ∑ i ∈ range p, e i := by
  have step : ∀ m : Int, ∑ i ∈ range p, e (i + (m + 1)) = ∑ i ∈ range p, e (i + m) := by
    intro m
    have h1 := sum_range_succ (fun i : Nat => e (i + m)) p
    have h2 := sum_range_succ' (fun i : Nat => e (i + m)) p
    have h3 : e (p + m) = e (0 + m) := by rw [add_comm, h, zero_add]
    have h4 : ∑ i ∈ range p, e (((i + 1 : Nat) : Int) + m) = ∑ i ∈ range p, e (i + (m + 1)) := by
      apply sum_congr rfl; intro i _
      congr 1; push_cast; ring
    rw [h4] at h2
    rw [h1] at h2
    simp only [Nat.cast_zero] at h2
    linarith
  induction m using Int.induction_on with
  | zero => simp
  | succ i ih => rw [step, ih]
  | pred i ih =>
    have := step (-i - 1)
    rw [show (-(i : Int) - 1 + 1) = -i by ring] at this
    rw [← this, ih]

theorem pick_reflect_period (n : Nat) (z : Nat → ℝ) (k : Int) : pick .reflect n z (k + (2 * n : Nat)) = pick .reflect n z k := by
  unfold pick ext
  have : (k + (2 * n : Nat)) % (2 * n) = k % (2 * n) := by
    rw [show ((2 * n : Nat) : Int) = 2 * (n : Int) by push_cast; ring, Int.add_emod_right]
  rw [this]

theorem pick_wrap_period (n : Nat) (z : Nat → ℝ) (k : Int) : pick .wrap n z (k + n) = pick .wrap n z k := by
  unfold pick ext
  rw [Int.add_emod_right]

theorem pick_inside (mode : End) {n i : Nat} (z : Nat → ℝ) (hi : i < n) : pick mode n z i = z i := by
  unfold pick
  rw [ext_inside mode hi]

theorem pick_reflect_reflect {n : Nat} (hn : 0 < n) (z : Nat → ℝ) (k : Int) : pick .reflect n z (-1 - k) = pick .reflect n z k := by
  unfold pick
  simp only [ext]
  have a := Int.emod_nonneg k (show (2 * n : Int) ≠ 0 by omega)
  have b := Int.emod_lt_of_pos k (show (0 : Int) < 2 * n by omega)
  have d := Int.mul_ediv_add_emod k (2 * n)
  have e : ((-1 : Int) - k) % (2 * n) = 2 * n - 1 - k % (2 * n) :=
    emod_of (q := -(k / (2 * n)) - 1) (by rw [mul_sub, mul_neg]; omega) (by omega) (by omega)
  rw [e]
  by_cases c : k % (2 * n) < n
  · rw [if_neg (by omega), if_pos c]
    congr 1; omega
  · rw [if_pos (by omega), if_neg c]

theorem sum_wrap {n : Nat} (z : Nat → ℝ) (m : Int) : ∑ i ∈ range n, pick .wrap n z (i + m) = ∑ i ∈ range n, z i := by
  rw [periodic_sum (pick_wrap_period n z)]
  exact sum_congr rfl fun i hi => pick_inside _ z (mem_range.1 hi)

theorem sum_reflect {n : Nat} (hn : 0 < n) (z : Nat → ℝ) (m : Int) :
    ∑ i ∈ range n, pick .reflect n z (i + m) + ∑ i ∈ range n, pick .reflect n z (i - m) = 2 * ∑ i ∈ range n, z i := by
  have split : ∀ m : Int, ∑ i ∈ range (2 * n), pick .reflect n z (i + m)
      = ∑ i ∈ range n, pick .reflect n z (i + m) + ∑ i ∈ range n, pick .reflect n z (i - m) := by
    intro m
    rw [two_mul, sum_range_add]
    congr 1
    rw [← sum_range_reflect]
    apply sum_congr rfl; intro i hi
    have hi := mem_range.1 hi
    have h := pick_reflect_reflect hn z (i - m)
    rw [← h, ← pick_reflect_period n z (-1 - (i - m))]
    congr 1
    push_cast [show i + 1 ≤ n by omega, show i ≤ n - 1 by omega, show 1 ≤ n by omega]
    ring
  have h0 := periodic_sum (pick_reflect_period n z) m
  have h1 := split 0
  simp only [add_zero, sub_zero] at h1
  rw [split m, h1] at h0
  rw [h0, two_mul]
  congr 1 <;> exact sum_congr rfl fun i hi => pick_inside _ z (mem_range.1 hi)

theorem phi_pos (σ : ℝ) (m : Int) : 0 < phi σ m := Real.exp_pos _

theorem phi_neg (σ : ℝ) (m : Int) : phi σ (-m) = phi σ m := by unfold phi; simp

theorem norm_pos (σ : ℝ) : 0 < ∑ l ∈ Icc (-(radius σ : Int)) (radius σ), phi σ l :=
  sum_pos (fun l _ => phi_pos σ l) ⟨0, mem_Icc.2 ⟨by omega, by omega⟩⟩

theorem weight_pos (σ : ℝ) (m : Int) : 0 < weight σ m := div_pos (phi_pos σ m) (norm_pos σ)

theorem weight_neg (σ : ℝ) (m : Int) : weight σ (-m) = weight σ m := by unfold weight; rw [phi_neg]

theorem weight_sum (σ : ℝ) : ∑ m ∈ Icc (-(radius σ : Int)) (radius σ), weight σ m = 1 := by
  unfold weight
  rw [← sum_div]
  exact div_self (norm_pos σ).ne'

theorem sum_symm (r : Nat) (f : Int → ℝ) : ∑ m ∈ Icc (-(r : Int)) r, f (-m) = ∑ m ∈ Icc (-(r : Int)) r, f m := by
  refine sum_nbij' (fun m => -m) (fun m => -m) ?_ ?_ ?_ ?_ ?_
  · intro m hm; rw [mem_Icc] at *; omega
  · intro m hm; rw [mem_Icc] at *; omega
  · intro m _; simp
  · intro m _; simp
  · intro m _; rfl

theorem axis_congr {mode : End} {σ : ℝ} {n : Nat} {z z' : Nat → ℝ} (h : ∀ j < n, z j = z' j) {i : Nat} (hi : i < n) :
    axis mode σ n z i = axis mode σ n z' i := by
  unfold axis
  split
  · apply sum_congr rfl; intro m _
    congr 1
    unfold pick
    cases he : ext mode n (i + m) with
    | none => rfl
    | some j => exact h j (ext_lt (by omega) he)
  · exact h i hi

/-- An average lies between the values. -/
theorem axis_between {mode : End} (hm : mode ≠ .constant) (σ : ℝ) {n : Nat} {z : Nat → ℝ} {lo hi : ℝ}
    (h : ∀ j < n, lo ≤ z j ∧ z j ≤ hi) {i : Nat} (hin : i < n) : lo ≤ axis mode σ n z i ∧ axis mode σ n z i ≤ hi := by
  unfold axis
  split
  · have hp : ∀ m : Int, lo ≤ pick mode n z (i + m) ∧ pick mode n z (i + m) ≤ hi := by
      intro m
      obtain ⟨j, hj⟩ := ext_some hm n (i + m)
      unfold pick
      rw [hj]
      exact h j (ext_lt (by omega) hj)
    constructor
    · calc lo = ∑ m ∈ Icc (-(radius σ : Int)) (radius σ), weight σ m * lo := by rw [← sum_mul, weight_sum, one_mul]
        _ ≤ _ := sum_le_sum fun m _ => mul_le_mul_of_nonneg_left (hp m).1 (weight_pos σ m).le
    · calc _ ≤ ∑ m ∈ Icc (-(radius σ : Int)) (radius σ), weight σ m * hi :=
          sum_le_sum fun m _ => mul_le_mul_of_nonneg_left (hp m).2 (weight_pos σ m).le
        _ = hi := by rw [← sum_mul, weight_sum, one_mul]
  · exact h i hin

/-- With zeros beyond the ends the values only come closer to zero. -/
theorem axis_abs (mode : End) (σ : ℝ) {n : Nat} {z : Nat → ℝ} {b : ℝ} (h : ∀ j < n, |z j| ≤ b) {i : Nat} (hin : i < n) :
    |axis mode σ n z i| ≤ b := by
  have hb : 0 ≤ b := (abs_nonneg _).trans (h i hin)
  unfold axis
  split
  · have hp : ∀ m : Int, |pick mode n z (i + m)| ≤ b := by
      intro m
      unfold pick
      cases he : ext mode n (i + m) with
      | none => simpa using hb
      | some j => exact h j (ext_lt (by omega) he)
    calc _ ≤ ∑ m ∈ Icc (-(radius σ : Int)) (radius σ), |weight σ m * pick mode n z (i + m)| := abs_sum_le_sum_abs _ _
      _ ≤ ∑ m ∈ Icc (-(radius σ : Int)) (radius σ), weight σ m * b := by
        refine sum_le_sum fun m _ => ?_
        rw [abs_mul, abs_of_pos (weight_pos σ m)]
        exact mul_le_mul_of_nonneg_left (hp m) (weight_pos σ m).le
      _ = b := by rw [← sum_mul, weight_sum, one_mul]
  · exact h i hin

theorem axis_affine {mode : End} (a b : ℝ) (hm : mode ≠ .constant ∨ b = 0) (σ : ℝ) (n : Nat) (z : Nat → ℝ) (i : Nat) :
    axis mode σ n (fun j => a * z j + b) i = a * axis mode σ n z i + b := by
  unfold axis
  split
  · have hp : ∀ m : Int, pick mode n (fun j => a * z j + b) (i + m) = a * pick mode n z (i + m) + b := by
      intro m
      unfold pick
      cases he : ext mode n (i + m) with
      | some j => rfl
      | none =>
        rcases hm with hm | hm
        · obtain ⟨j, hj⟩ := ext_some hm n (i + m)
          rw [hj] at he; cases he
        · simp [hm]
    calc _ = ∑ m ∈ Icc (-(radius σ : Int)) (radius σ), (a * (weight σ m * pick mode n z (i + m)) + weight σ m * b) :=
          sum_congr rfl fun m _ => by rw [hp]; ring
      _ = _ := by rw [sum_add_distrib, ← mul_sum, ← sum_mul, weight_sum, one_mul]
  · rfl

theorem axis_add (mode : End) (σ : ℝ) (n : Nat) (z z' : Nat → ℝ) (i : Nat) :
    axis mode σ n (fun j => z j + z' j) i = axis mode σ n z i + axis mode σ n z' i := by
  unfold axis
  split
  · rw [← sum_add_distrib]
    apply sum_congr rfl; intro m _
    rw [← mul_add]
    congr 1
    unfold pick
    cases ext mode n (i + m) with
    | none => simp
    | some j => rfl
  · rfl

/-- The sum of the values is kept. -/
theorem axis_sum {mode : End} (hm : mode = .reflect ∨ mode = .wrap) (σ : ℝ) (n : Nat) (z : Nat → ℝ) :
    ∑ i ∈ range n, axis mode σ n z i = ∑ i ∈ range n, z i := by
  by_cases hn : n = 0
  · subst hn; simp
  by_cases hs : 1 / 10 ^ 15 < σ
  · unfold axis
    simp only [if_pos hs]
    rw [sum_comm]
    simp only [← mul_sum]
    rcases hm with rfl | rfl
    · have h1 := sum_symm (radius σ) (fun m => weight σ m * ∑ i ∈ range n, pick .reflect n z (i + m))
      have h2 : ∑ m ∈ Icc (-(radius σ : Int)) (radius σ), weight σ (-m) * ∑ i ∈ range n, pick .reflect n z (i + -m)
          + ∑ m ∈ Icc (-(radius σ : Int)) (radius σ), weight σ m * ∑ i ∈ range n, pick .reflect n z (i + m)
          = 2 * ∑ i ∈ range n, z i := by
        rw [← sum_add_distrib]
        calc _ = ∑ m ∈ Icc (-(radius σ : Int)) (radius σ), weight σ m * (2 * ∑ i ∈ range n, z i) := by
              apply sum_congr rfl; intro m _
              rw [weight_neg, ← mul_add, ← sum_reflect (by omega) z m, add_comm]
              simp only [sub_eq_add_neg]
          _ = _ := by rw [← sum_mul, weight_sum, one_mul]
      rw [h1] at h2
      linarith
    · simp only [sum_wrap]
      rw [← sum_mul, weight_sum, one_mul]
  · unfold axis
    simp only [if_neg hs]

theorem axis_reverse (mode : End) (σ : ℝ) {n : Nat} (z : Nat → ℝ) {i : Nat} (hi : i < n) :
    axis mode σ n (fun j => z (n - 1 - j)) i = axis mode σ n z (n - 1 - i) := by
  unfold axis
  split
  · rw [← sum_symm]
    apply sum_congr rfl; intro m _
    rw [weight_neg, pick_reverse mode (by omega)]
    congr 2
    push_cast [show i ≤ n - 1 by omega, show 1 ≤ n by omega]
    ring
  · rfl

theorem axis_radius_zero {mode : End} {σ : ℝ} (h : radius σ = 0) {n : Nat} (z : Nat → ℝ) {i : Nat} (hi : i < n) :
    axis mode σ n z i = z i := by
  unfold axis
  split
  · have h1 := weight_sum σ
    rw [h] at h1 ⊢
    simp only [Nat.cast_zero, neg_zero, Icc_self, sum_singleton, add_zero] at h1 ⊢
    rw [h1, one_mul, pick_inside mode z hi]
  · rfl

end Surfalize.Gauss
