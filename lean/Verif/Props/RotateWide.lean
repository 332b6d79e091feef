import Verif.Props.FillRotate
import Verif.Spec.Align
import Mathlib.Tactic.Linarith
/-!
# C71: how far off a wide array the crop may reach
-/
namespace Surfalize.Props
open Spec FillRotate Geometry

/-- Whatever the length kept on an axis of `n` points, the kept indices lie in the middle. -/
private theorem kept_middle (n : Nat) (l : ℝ) (h0 : 0 ≤ l) (i : Int) (h1 : (cropIndices n l).1 ≤ i) (h2 : i ≤ (cropIndices n l).2) :
    |(i : ℝ) - ((n : ℝ) - 1) / 2| ≤ (l - 1) / 2 := by
  unfold cropIndices at h1 h2
  simp only at h1 h2
  have hn : (0 : ℝ) ≤ n := Nat.cast_nonneg n
  have hA : ((n : ℝ) - l) / 2 ≤ ((pyInt (((n : ℝ) - l) / 2) : Int) : ℝ) + 1 := by
    unfold pyInt
    split_ifs
    · exact (Int.lt_floor_add_one _).le
    · have := Int.le_ceil (((n : ℝ) - l) / 2); linarith
  have hB : ((pyInt ((n : ℝ) - ((n : ℝ) - l) / 2) : Int) : ℝ) ≤ (n : ℝ) - ((n : ℝ) - l) / 2 := by
    rw [pyInt_nonneg (by linarith)]
    exact Int.floor_le _
  have e1 : ((pyInt (((n : ℝ) - l) / 2) : Int) : ℝ) + 1 ≤ i := by exact_mod_cast h1
  have e2 : (i : ℝ) ≤ ((pyInt ((n : ℝ) - ((n : ℝ) - l) / 2) : Int) : ℝ) - 1 := by exact_mod_cast h2
  rw [abs_le]
  constructor <;> linarith

set_option maxHeartbeats 1000000 in
/-- **C71** (wide arrays, partial). On an array that is wider than high the points kept by the crop may lie off the original
(`C71_wide_violated`), but always by less than one pixel, whatever the shape and the angle. -/
theorem C71_wide_partial (N M : Nat) (hN : 0 < N) (hNM : N < M) (angle : ℝ) {R Q : Nat}
    (hR : R = ⌊(N : ℝ) * |Real.cos (angle * Real.pi / 180)| + M * |Real.sin (angle * Real.pi / 180)| + 1 / 2⌋₊)
    (hQ : Q = ⌊(N : ℝ) * |Real.sin (angle * Real.pi / 180)| + M * |Real.cos (angle * Real.pi / 180)| + 1 / 2⌋₊) {w e : ℝ}
    (hwe : cropSize (N : ℝ) M R Q |Real.sin (angle * Real.pi / 180)| |Real.cos (angle * Real.pi / 180)| = (w, e)) {i j : Int}
    (hi1 : (cropIndices R e).1 ≤ i) (hi2 : i ≤ (cropIndices R e).2) (hj1 : (cropIndices Q w).1 ≤ j) (hj2 : j ≤ (cropIndices Q w).2)
    {y x r c : ℝ} (hy : y = i - ((R : ℝ) - 1) / 2) (hx : x = j - ((Q : ℝ) - 1) / 2)
    (hr : r = ((N : ℝ) - 1) / 2 + Real.cos (angle * Real.pi / 180) * y + Real.sin (angle * Real.pi / 180) * x)
    (hc : c = ((M : ℝ) - 1) / 2 - Real.sin (angle * Real.pi / 180) * y + Real.cos (angle * Real.pi / 180) * x) :
    -1 < r ∧ r < N ∧ -1 < c ∧ c < M := by
  set S := Real.sin (angle * Real.pi / 180)
  set C := Real.cos (angle * Real.pi / 180)
  have hSC : |S| ^ 2 + |C| ^ 2 = 1 := by rw [sq_abs, sq_abs]; exact Real.sin_sq_add_cos_sq _
  have s0 := abs_nonneg S
  have c0 := abs_nonneg C
  have h1 : 1 ≤ |S| + |C| := by nlinarith [mul_nonneg s0 c0]
  have c1 : |C| ≤ 1 := by nlinarith
  have n1 : (1 : ℝ) ≤ N := by exact_mod_cast hN
  have nm : (N : ℝ) + 1 ≤ M := by exact_mod_cast hNM
  set s := |S|
  set k := |C|
  set R' : ℝ := N * k + M * s with hR'
  set Q' : ℝ := N * s + M * k with hQ'
  have rN : (N : ℝ) ≤ R' := by nlinarith
  have qN : (N : ℝ) ≤ Q' := by nlinarith
  have fR : R' - 1 / 2 < R := by
    have := Nat.lt_floor_add_one (R' + 1 / 2)
    rw [← hR] at this; linarith
  have fQ : (Q : ℝ) ≤ Q' + 1 / 2 := by
    rw [hQ]; exact Nat.floor_le (by linarith)
  have RN : (N : ℝ) ≤ R := by
    have : N ≤ R := by rw [hR]; exact Nat.le_floor (by linarith)
    exact_mod_cast this
  have R0 : (0 : ℝ) < R := by linarith
  have N0 : (0 : ℝ) < N := by linarith
  have M0 : (0 : ℝ) < M := by linarith
  have Q0 : (0 : ℝ) ≤ Q := Nat.cast_nonneg Q
  have Q'0 : 0 < Q' := by linarith
  have R'0 : 0 < R' := by linarith
  have hw : w = N * M * Q / (R * Q') ∧ e = N * N * Q / (R * Q') := by
    unfold cropSize at hwe
    have hasp : (N : ℝ) / M < 1 := by rw [div_lt_one M0]; linarith
    simp only [if_pos hasp, Prod.mk.injEq] at hwe
    have e1 : (N : ℝ) / M * s + k = Q' / M := by rw [hQ']; field_simp
    rw [e1] at hwe
    have e2 : w = N * M * Q / (R * Q') := by
      rw [← hwe.1, div_div_eq_mul_div, div_div_eq_mul_div, div_mul_eq_mul_div, div_div]
      congr 1; ring
    refine ⟨e2, ?_⟩
    rw [← hwe.2, hwe.1, e2]
    field_simp
  obtain ⟨hw, he⟩ := hw
  have D0 : 0 < (R : ℝ) * Q' := mul_pos R0 Q'0
  have w0 : 0 ≤ w := by rw [hw]; positivity
  have e0 : 0 ≤ e := by rw [he]; positivity
  have fitY : w * s + e * k < N + 2 := by
    rw [hw, he, div_mul_eq_mul_div, div_mul_eq_mul_div, ← add_div, div_lt_iff₀ D0]
    have a1 : (N : ℝ) * M * Q * s + N * N * Q * k = N * R' * Q := by rw [hR']; ring
    rw [a1]
    have a2 : (N : ℝ) * R' * Q ≤ N * R' * (Q' + 1 / 2) := mul_le_mul_of_nonneg_left fQ (by positivity)
    have a3 : ((N : ℝ) + 2) * Q' * (R' - 1 / 2) < (N + 2) * Q' * R := mul_lt_mul_of_pos_left fR (by positivity)
    have a4 : (N : ℝ) * R' ≤ Q' * R' := mul_le_mul_of_nonneg_right qN R'0.le
    have a5 : (N : ℝ) * Q' ≤ R' * Q' := mul_le_mul_of_nonneg_right rN Q'0.le
    have a6 : 1 * Q' ≤ R' * Q' := mul_le_mul_of_nonneg_right (by linarith) Q'0.le
    have a7 : (N : ℝ) * R' * (Q' + 1 / 2) = N * R' * Q' + N * R' / 2 := by ring
    have a8 : ((N : ℝ) + 2) * Q' * (R' - 1 / 2) = N * R' * Q' + 2 * (R' * Q') - N * Q' / 2 - 1 * Q' := by ring
    have a9 : Q' * R' = R' * Q' := mul_comm _ _
    have a10 : ((N : ℝ) + 2) * (R * Q') = (N + 2) * Q' * R := by ring
    linarith
  have fitX : w * k + e * s < M + 2 := by
    rw [hw, he, div_mul_eq_mul_div, div_mul_eq_mul_div, ← add_div]
    have a1 : (N : ℝ) * M * Q * k + N * N * Q * s = N * Q * Q' := by rw [hQ']; ring
    rw [a1, mul_div_mul_right _ _ Q'0.ne', div_lt_iff₀ R0]
    have a2 : (N : ℝ) * Q ≤ N * (Q' + 1 / 2) := mul_le_mul_of_nonneg_left fQ N0.le
    by_cases hs : (N : ℝ) * s < 3 / 2
    · have b1 : Q' + 1 / 2 < M + 2 := by rw [hQ']; nlinarith
      have b2 : (N : ℝ) * (Q' + 1 / 2) < N * (M + 2) := mul_lt_mul_of_pos_left b1 N0
      have b3 : (N : ℝ) * (M + 2) ≤ R * (M + 2) := mul_le_mul_of_nonneg_right RN (by linarith)
      linarith
    · have hs' : 3 / 2 ≤ (N : ℝ) * s := not_lt.1 hs
      have b1 : ((M : ℝ) + 2) * (R' - 1 / 2) < (M + 2) * R := mul_lt_mul_of_pos_left fR (by linarith)
      have b2 : (M : ℝ) * R' - N * Q' = s * (M - N) * (M + N) := by rw [hR', hQ']; ring
      have b3 : s * (M - N) * (2 * N) ≤ s * (M - N) * (M + N) :=
        mul_le_mul_of_nonneg_left (by linarith) (mul_nonneg s0 (by linarith))
      have b4 : 3 / 2 * ((M : ℝ) - N) ≤ N * s * (M - N) := mul_le_mul_of_nonneg_right hs' (by linarith)
      have b5 : s * (M - N) * (2 * N) = 2 * (N * s * (M - N)) := by ring
      have b6 : ((M : ℝ) + 2) * (R' - 1 / 2) = M * R' + 2 * R' - M / 2 - 1 := by ring
      have b7 : (N : ℝ) * (Q' + 1 / 2) = N * Q' + N / 2 := by ring
      linarith
  have my := kept_middle R e e0 i hi1 hi2
  have mx := kept_middle Q w w0 j hj1 hj2
  rw [← hy] at my
  rw [← hx] at mx
  have bound : ∀ u v L : ℝ, |u| * e + |v| * w < L + 2 → 1 ≤ |u| + |v| → |u * y + v * x| < (L + 1) / 2 := by
    intro u v L hL h1
    have t1 := abs_add_le (u * y) (v * x)
    rw [abs_mul, abs_mul] at t1
    have t2 := mul_le_mul_of_nonneg_left my (abs_nonneg u)
    have t3 := mul_le_mul_of_nonneg_left mx (abs_nonneg v)
    nlinarith
  have b1 := abs_lt.1 (bound C S N (by linarith) (by linarith))
  have b2 := abs_lt.1 (bound (-S) C M (by rw [abs_neg]; linarith) (by rw [abs_neg]; linarith))
  rw [hr, hc]
  refine ⟨by linarith [b1.1], by linarith [b1.2], by linarith [b2.1], by linarith [b2.2]⟩

/-- The premises of `C71_wide_partial` hold: the last point kept of 2 × 4 points turned by 180 degrees. -/
example : ∃ y x r c : ℝ, r = ((2 : Nat) - 1 : ℝ) / 2 + Real.cos (180 * Real.pi / 180) * y + Real.sin (180 * Real.pi / 180) * x ∧
    c = ((4 : Nat) - 1 : ℝ) / 2 - Real.sin (180 * Real.pi / 180) * y + Real.cos (180 * Real.pi / 180) * x ∧
    -1 < r ∧ r < (2 : Nat) ∧ -1 < c ∧ c < (4 : Nat) ∧ y = 1 / 2 ∧ x = 3 / 2 := by
  have ha : (180 : ℝ) * Real.pi / 180 = Real.pi := by ring
  have i1 : cropIndices 2 (2 : ℝ) = (1, 1) := by
    unfold cropIndices
    rw [pyInt_nonneg (by norm_num), pyInt_nonneg (by norm_num)]
    norm_num
  have i2 : cropIndices 4 (4 : ℝ) = (1, 3) := by
    unfold cropIndices
    rw [pyInt_nonneg (by norm_num), pyInt_nonneg (by norm_num)]
    norm_num
  have h := C71_wide_partial 2 4 (by decide) (by decide) 180 (R := 2) (Q := 4) (w := 4) (e := 2) (i := 1) (j := 3)
    (y := 1 / 2) (x := 3 / 2)
    (by rw [ha, Real.sin_pi, Real.cos_pi]; symm; rw [Nat.floor_eq_iff (by norm_num)]; norm_num)
    (by rw [ha, Real.sin_pi, Real.cos_pi]; symm; rw [Nat.floor_eq_iff (by norm_num)]; norm_num)
    (by rw [ha, Real.sin_pi, Real.cos_pi]; unfold cropSize; norm_num)
    (by rw [i1]) (by rw [i1]) (by rw [i2]; decide) (by rw [i2]) (by norm_num) (by norm_num) rfl rfl
  exact ⟨1 / 2, 3 / 2, _, _, rfl, rfl, h.1, h.2.1, h.2.2.1, h.2.2.2, rfl, rfl⟩

end Surfalize.Props
