import Verif.Lemmas.Fourier
import Mathlib.Analysis.Complex.Norm
import Mathlib.Algebra.Order.Chebyshev

/-! Lemmas about the spectral components of a height map. -/
set_option linter.unusedSectionVars false
namespace Surfalize.Fourier
open Surfalize BaseOps Finset Container Spec

/-- the exponential of the definition of `component` -/
theorem exp_E (N M : Nat) (k : Int × Int) (i j : Nat) :
    Complex.exp (-(2 * Real.pi * Complex.I) * ((k.1 : ℂ) * i / N + (k.2 : ℂ) * j / M)) = E N (-k.1) i * E M (-k.2) j := by
  unfold E
  rw [← Complex.exp_add]
  congr 1
  push_cast
  ring

/-- the mean of the heights -/
noncomputable def hmean (N M : Nat) (h : Nat → Nat → ℝ) : ℝ := (∑ a ∈ range N, ∑ b ∈ range M, h a b) / (N * M)

theorem component_E (N M : Nat) (h : Nat → Nat → ℝ) (k : Int × Int) :
    component N M h k = ∑ i ∈ range N, ∑ j ∈ range M, ((h i j - hmean N M h : ℝ) : ℂ) * (E N (-k.1) i * E M (-k.2) j) := by
  unfold component
  apply sum_congr rfl; intro i _
  apply sum_congr rfl; intro j _
  rw [exp_E]
  rfl

/-- the component without subtraction of the mean -/
noncomputable def raw (N M : Nat) (h : Nat → Nat → ℝ) (k : Int × Int) : ℂ :=
  ∑ i ∈ range N, ∑ j ∈ range M, (h i j : ℂ) * (E N (-k.1) i * E M (-k.2) j)

theorem component_raw (N M : Nat) (hN : 0 < N) (hM : 0 < M) (h : Nat → Nat → ℝ) (k : Int × Int) :
    component N M h k = raw N M h k - (hmean N M h : ℂ) * (if (N : Int) ∣ -k.1 ∧ (M : Int) ∣ -k.2 then (N : ℂ) * M else 0) := by
  rw [component_E, ← sum_EE N M hN hM, raw]
  simp only [mul_sum, ← sum_sub_distrib]
  apply sum_congr rfl; intro i _
  apply sum_congr rfl; intro j _
  push_cast
  ring

theorem rep_dvd {n : Nat} {k : Int} (h1 : -(n / 2 : Nat) ≤ k) (h2 : k < n - (n / 2 : Nat)) (hd : (n : Int) ∣ -k) : k = 0 := by
  obtain ⟨m, hm⟩ := hd
  rcases lt_trichotomy m 0 with hlt | rfl | hgt
  · have : (n : Int) * m ≤ n * (-1) := mul_le_mul_of_nonneg_left (by omega) (by omega)
    omega
  · simp at hm; exact hm
  · have : (n : Int) * 1 ≤ n * m := mul_le_mul_of_nonneg_left (by omega) (by omega)
    omega

/-- away from frequency zero the mean does not matter -/
theorem component_eq_raw {N M : Nat} (hN : 0 < N) (hM : 0 < M) (h : Nat → Nat → ℝ) {k : Int × Int}
    (hr : Representable N M k) (hk : k ≠ (0, 0)) : component N M h k = raw N M h k := by
  rw [component_raw N M hN hM, if_neg, mul_zero, sub_zero]
  rintro ⟨d1, d2⟩
  exact hk (Prod.ext (rep_dvd hr.1 hr.2.1 d1) (rep_dvd hr.2.2.1 hr.2.2.2 d2))

theorem component_zero {N M : Nat} (hN : 0 < N) (hM : 0 < M) (h : Nat → Nat → ℝ) : component N M h (0, 0) = 0 := by
  rw [component_raw N M hN hM, if_pos (by simp)]
  have e : raw N M h (0, 0) = ((∑ i ∈ range N, ∑ j ∈ range M, h i j : ℝ) : ℂ) := by
    unfold raw
    push_cast
    apply sum_congr rfl; intro i _
    apply sum_congr rfl; intro j _
    simp [E]
  rw [e, hmean]
  have h1 : (N : ℂ) ≠ 0 := by exact_mod_cast hN.ne'
  have h2 : (M : ℂ) ≠ 0 := by exact_mod_cast hM.ne'
  push_cast
  field_simp
  ring

/-- opposite frequencies have equal amplitudes -/
theorem component_neg (N M : Nat) (h : Nat → Nat → ℝ) (k : Int × Int) :
    ‖component N M h (-k.1, -k.2)‖ = ‖component N M h k‖ := by
  have : component N M h (-k.1, -k.2) = (starRingEnd ℂ) (component N M h k) := by
    rw [component_E, component_E, map_sum]
    apply sum_congr rfl; intro i _
    rw [map_sum]
    apply sum_congr rfl; intro j _
    rw [map_mul, map_mul, E_conj, E_conj, Complex.conj_ofReal]
  rw [this, Complex.norm_conj]

theorem hmean_congr {N M : Nat} {h h' : Nat → Nat → ℝ} (he : ∀ i < N, ∀ j < M, h i j = h' i j) : hmean N M h = hmean N M h' := by
  unfold hmean
  congr 1
  exact sum_congr rfl fun i hi => sum_congr rfl fun j hj => he i (mem_range.1 hi) j (mem_range.1 hj)

theorem component_congr {N M : Nat} {h h' : Nat → Nat → ℝ} (he : ∀ i < N, ∀ j < M, h i j = h' i j) (k : Int × Int) :
    component N M h k = component N M h' k := by
  rw [component_E, component_E, hmean_congr he]
  exact sum_congr rfl fun i hi => sum_congr rfl fun j hj => by rw [he i (mem_range.1 hi) j (mem_range.1 hj)]

theorem hmean_affine {N M : Nat} (hN : 0 < N) (hM : 0 < M) (h : Nat → Nat → ℝ) (a b : ℝ) :
    hmean N M (fun i j => a * h i j + b) = a * hmean N M h + b := by
  unfold hmean
  simp only [sum_add_distrib, ← mul_sum, sum_const, card_range, nsmul_eq_mul]
  have h1 : (N : ℝ) ≠ 0 := by exact_mod_cast hN.ne'
  have h2 : (M : ℝ) ≠ 0 := by exact_mod_cast hM.ne'
  field_simp

theorem component_affine (N M : Nat) (h : Nat → Nat → ℝ) (a b : ℝ) (k : Int × Int) :
    component N M (fun i j => a * h i j + b) k = a * component N M h k := by
  rcases Nat.eq_zero_or_pos N with rfl | hN
  · simp [component]
  rcases Nat.eq_zero_or_pos M with rfl | hM
  · simp [component]
  rw [component_E, component_E, mul_sum, hmean_affine hN hM]
  apply sum_congr rfl; intro i _
  rw [mul_sum]
  apply sum_congr rfl; intro j _
  push_cast
  ring

theorem norm_E (n : Nat) (k j : Int) : ‖E n k j‖ = 1 := by
  unfold E
  have : 2 * (Real.pi : ℂ) * Complex.I * ((k : ℂ) * j / n) = ((2 * Real.pi * ((k : ℝ) * j / n) : ℝ) : ℂ) * Complex.I := by
    push_cast; ring
  rw [this, Complex.norm_exp_ofReal_mul_I]

/-- reflection of one axis -/
theorem E_reflect {n : Nat} (k : Int) {j : Nat} (hj : j < n) :
    E n k ((n - 1 - j : Nat) : Int) = E n k ((n : Int) - 1) * E n (-k) j := by
  rw [E_comm n k, E_comm n k, E_comm n (-k), show ((n - 1 - j : Nat) : Int) = ((n : Int) - 1) + -(j : Int) by omega, E_add]
  congr 1
  unfold E
  congr 1
  push_cast
  ring

/-- mirroring left and right reverses the horizontal frequency -/
theorem component_mirror (N M : Nat) (h : Nat → Nat → ℝ) (k : Int × Int) :
    ‖component N M (fun i j => h i (M - 1 - j)) k‖ = ‖component N M h (k.1, -k.2)‖ := by
  have hm : hmean N M (fun i j => h i (M - 1 - j)) = hmean N M h := by
    unfold hmean
    congr 1
    exact sum_congr rfl fun i _ => sum_range_reflect (fun j => h i j) M
  have e : component N M (fun i j => h i (M - 1 - j)) k = E M (-k.2) ((M : Int) - 1) * component N M h (k.1, -k.2) := by
    rw [component_E, component_E, hm, mul_sum]
    apply sum_congr rfl; intro i _
    rw [← sum_range_reflect, mul_sum]
    apply sum_congr rfl; intro j hj
    have hj := mem_range.1 hj
    rw [E_reflect _ hj, show M - 1 - (M - 1 - j) = j by omega]
    dsimp only
    ring
  rw [e, norm_mul, norm_E, one_mul]

/-- exchanging rows and columns exchanges the frequencies -/
theorem component_transpose (N M : Nat) (h : Nat → Nat → ℝ) (k : Int × Int) :
    component M N (fun i j => h j i) (k.2, k.1) = component N M h k := by
  have hm : hmean M N (fun i j => h j i) = hmean N M h := by
    unfold hmean
    rw [sum_comm, mul_comm (N : ℝ)]
  rw [component_E, component_E, hm, sum_comm]
  apply sum_congr rfl; intro i _
  apply sum_congr rfl; intro j _
  rw [mul_comm (E M _ _)]

/-- an amplitude is at most the number of points times the root mean square -/
theorem raw_le (N M : Nat) (h : Nat → Nat → ℝ) (k : Int × Int) {r : ℝ} (hr : 0 ≤ r)
    (he : ∑ i ∈ range N, ∑ j ∈ range M, h i j ^ 2 ≤ (N * M : ℝ) * r ^ 2) : ‖raw N M h k‖ ≤ N * M * r := by
  have h1 : ‖raw N M h k‖ ≤ ∑ i ∈ range N, ∑ j ∈ range M, |h i j| := by
    unfold raw
    refine (norm_sum_le _ _).trans (sum_le_sum fun i _ => (norm_sum_le _ _).trans (sum_le_sum fun j _ => ?_))
    rw [norm_mul, norm_mul, norm_E, norm_E, Complex.norm_real, Real.norm_eq_abs]
    simp
  have h2 : (∑ i ∈ range N, ∑ j ∈ range M, |h i j|) ^ 2 ≤ (N * M : ℝ) * ∑ i ∈ range N, ∑ j ∈ range M, h i j ^ 2 := by
    rw [← sum_product' (range N) (range M) (fun i j => |h i j|), ← sum_product' (range N) (range M) (fun i j => h i j ^ 2)]
    have := sq_sum_le_card_mul_sum_sq (s := range N ×ˢ range M) (f := fun p => |h p.1 p.2|)
    simpa [card_product, sq_abs] using this
  have h3 : (∑ i ∈ range N, ∑ j ∈ range M, |h i j|) ^ 2 ≤ (N * M * r) ^ 2 := by
    refine h2.trans ?_
    have : (0 : ℝ) ≤ N * M := by positivity
    calc _ ≤ (N * M : ℝ) * ((N * M : ℝ) * r ^ 2) := mul_le_mul_of_nonneg_left he this
      _ = _ := by ring
  exact h1.trans (abs_le_of_sq_le_sq' h3 (by positivity)).2

end Surfalize.Fourier
