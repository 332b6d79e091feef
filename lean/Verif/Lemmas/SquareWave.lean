import Verif.Lemmas.Spectrum
import Verif.Spec.Square
import Mathlib.Analysis.SpecialFunctions.Trigonometric.Basic

/-! The transform of a square wave: the fundamental is the strongest component. -/
set_option linter.unusedSectionVars false
namespace Surfalize.Fourier
open Surfalize BaseOps Finset Container Spec

theorem E_add' (n : Nat) (k i j : Int) : E n k (i + j) = E n k i * E n k j := by
  rw [E_comm, E_add, E_comm n i, E_comm n j]

theorem E_zero (n : Nat) (k : Int) : E n k 0 = 1 := by simp [E]

theorem sum_shift_one {n : Nat} {f : Int → ℂ} (hf : ∀ x, f (x + n) = f x) :
    ∑ j ∈ range n, f ((j : Int) + 1) = ∑ j ∈ range n, f j := by
  have h1 := Finset.sum_range_succ (fun j : Nat => f j) n
  have h2 := Finset.sum_range_succ' (fun j : Nat => f j) n
  rw [h1] at h2
  have h3 : f (n : Int) = f 0 := by have := hf 0; rwa [zero_add] at this
  simp only [Nat.cast_zero, h3] at h2
  have h4 := add_right_cancel h2
  rw [h4]
  apply sum_congr rfl
  intro j _
  push_cast
  rfl

theorem sum_shift {n : Nat} {f : Int → ℂ} (hf : ∀ x, f (x + n) = f x) (t : Nat) :
    ∑ j ∈ range n, f ((j : Int) + t) = ∑ j ∈ range n, f j := by
  induction t with
  | zero => simp
  | succ t ih =>
    rw [← ih]
    have := sum_shift_one (n := n) (f := fun x => f (x + t)) (fun x => by rw [show x + (n : Int) + t = x + t + n by ring, hf])
    rw [← this]
    apply sum_congr rfl
    intro j _
    push_cast
    congr 1
    ring

/-- the transform of a profile -/
noncomputable def T (n : Nat) (v : Int → ℝ) (l : Int) : ℂ := ∑ j ∈ range n, (v j : ℂ) * E n (-l) j

theorem E_n (n : Nat) (hn : 0 < n) (l x : Int) : E n l (x + n) = E n l x := by
  have := E_period n hn x 1 l
  rw [mul_one] at this
  rw [E_comm, this, E_comm]

theorem T_shift {n : Nat} (hn : 0 < n) {v : Int → ℝ} (hv : ∀ x, v (x + n) = v x) (l : Int) (t : Nat) :
    T n v l * 1 = E n (-l) t * T n (fun x => v (x + t)) l := by
  unfold T
  rw [mul_one, ← sum_shift (f := fun x => (v x : ℂ) * E n (-l) x) (fun x => by rw [hv, E_n n hn]) t, mul_sum]
  apply sum_congr rfl
  intro j _
  rw [E_add']
  ring

/-- a component whose frequency does not fit the period vanishes -/
theorem T_zero {n : Nat} (hn : 0 < n) {v : Int → ℝ} (hv : ∀ x, v (x + n) = v x) {t : Nat} (ht : ∀ x, v (x + t) = v x)
    {l : Int} (hl : E n (-l) t ≠ 1) : T n v l = 0 := by
  have h := T_shift hn hv l t
  simp only [ht, mul_one] at h
  have h2 : (1 - E n (-l) t) * T n v l = 0 := by rw [sub_mul, one_mul, ← h, sub_self]
  rcases mul_eq_zero.1 h2 with h3 | h3
  · exact absurd (sub_eq_zero.1 h3).symm hl
  · exact h3

/-- the transform of the jumps -/
theorem T_jump {n : Nat} (hn : 0 < n) {v : Int → ℝ} (hv : ∀ x, v (x + n) = v x) (l : Int) :
    (1 - E n (-l) 1) * T n v l = ∑ j ∈ range n, ((v j - v (j - 1) : ℝ) : ℂ) * E n (-l) j := by
  have h := T_shift hn (v := fun x => v (x - 1)) (fun x => by rw [← hv (x - 1)]; congr 1; ring) l 1
  simp only [Nat.cast_one, add_sub_cancel_right, mul_one] at h
  rw [sub_mul, one_mul, ← h]
  unfold T
  rw [← sum_sub_distrib]
  apply sum_congr rfl
  intro j _
  push_cast
  ring

theorem T_le {n : Nat} (hn : 0 < n) {v : Int → ℝ} (hv : ∀ x, v (x + n) = v x) (l : Int) :
    ‖1 - E n (-l) 1‖ * ‖T n v l‖ ≤ ∑ j ∈ range n, |v j - v ((j : Int) - 1)| := by
  rw [← norm_mul, T_jump hn hv]
  refine (norm_sum_le _ _).trans_eq ?_
  apply sum_congr rfl
  intro j _
  rw [norm_mul, norm_E, mul_one, Complex.norm_real, Real.norm_eq_abs]

/-- if every jump is in phase the bound is attained -/
theorem T_eq {n : Nat} (hn : 0 < n) {v : Int → ℝ} (hv : ∀ x, v (x + n) = v x) (l : Int) {c : ℂ} (hc : ‖c‖ = 1)
    (h : ∀ j : Int, ((v j - v (j - 1) : ℝ) : ℂ) * E n (-l) j = (|v j - v (j - 1)| : ℝ) * c) :
    ‖1 - E n (-l) 1‖ * ‖T n v l‖ = ∑ j ∈ range n, |v j - v ((j : Int) - 1)| := by
  rw [← norm_mul, T_jump hn hv]
  simp only [h]
  rw [← sum_mul, norm_mul, hc, mul_one, ← Complex.ofReal_sum, Complex.norm_real, Real.norm_eq_abs,
    abs_of_nonneg (sum_nonneg fun _ _ => abs_nonneg _)]

theorem norm_one_sub_E (n : Nat) (l : Int) : ‖1 - E n (-l) 1‖ ^ 2 = 2 - 2 * Real.cos (2 * Real.pi * |(l : ℝ)| / n) := by
  have e : E n (-l) 1 = Complex.exp ((-(2 * Real.pi * l / n) : ℝ) * Complex.I) := by
    unfold E
    congr 1
    push_cast
    ring
  have hcos : Real.cos (2 * Real.pi * |(l : ℝ)| / n) = Real.cos (2 * Real.pi * l / n) := by
    rcases abs_choice (l : ℝ) with h | h
    · rw [h]
    · rw [h, show 2 * Real.pi * -(l : ℝ) / n = -(2 * Real.pi * l / n) by ring, Real.cos_neg]
  rw [hcos, e, Complex.exp_mul_I, ← Complex.ofReal_cos, ← Complex.ofReal_sin, Complex.sq_norm, Complex.normSq_apply]
  simp only [Complex.sub_re, Complex.one_re, Complex.add_re, Complex.ofReal_re, Complex.mul_re, Complex.ofReal_im, Complex.I_re,
    Complex.I_im, Complex.sub_im, Complex.one_im, Complex.add_im, Complex.mul_im, Real.cos_neg, Real.sin_neg]
  have := Real.sin_sq_add_cos_sq (2 * Real.pi * l / n)
  ring_nf
  ring_nf at this
  linarith

theorem norm_one_sub_E_lt {n : Nat} (hn : 0 < n) {k l : Int} (hk : |k| < |l|) (hl : 2 * |l| ≤ n) :
    ‖1 - E n (-k) 1‖ < ‖1 - E n (-l) 1‖ := by
  have hn' : (0 : ℝ) < n := by exact_mod_cast hn
  have h1 : |(k : ℝ)| < |(l : ℝ)| := by exact_mod_cast hk
  have h2 : 2 * |(l : ℝ)| ≤ n := by exact_mod_cast hl
  have h : Real.cos (2 * Real.pi * |(l : ℝ)| / n) < Real.cos (2 * Real.pi * |(k : ℝ)| / n) := by
    apply Real.cos_lt_cos_of_nonneg_of_le_pi
    · have := Real.pi_pos; positivity
    · rw [div_le_iff₀ hn']
      nlinarith [Real.pi_pos]
    · rw [div_lt_div_iff_of_pos_right hn']
      nlinarith [Real.pi_pos]
  have := norm_one_sub_E n k
  have := norm_one_sub_E n l
  apply lt_of_pow_lt_pow_left₀ 2 (norm_nonneg _)
  linarith

theorem square_period (lo hi : ℝ) (m : Nat) (s x t : Int) : square lo hi m s (x + 2 * m * t) = square lo hi m s x := by
  unfold square
  rw [show x + 2 * m * t - s = x - s + 2 * m * t by ring, Int.add_mul_emod_self_left]

/-- where a square profile jumps -/
theorem square_jump {lo hi : ℝ} {m : Nat} (hm : 1 ≤ m) (s j : Int) :
    ((∃ t, j = s + 2 * m * t) ∧ square lo hi m s j - square lo hi m s (j - 1) = hi - lo) ∨
    ((∃ t, j = s + m + 2 * m * t) ∧ square lo hi m s j - square lo hi m s (j - 1) = -(hi - lo)) ∨
    square lo hi m s j - square lo hi m s (j - 1) = 0 := by
  have hP : (0 : Int) < 2 * m := by omega
  have h1 := Int.emod_add_mul_ediv (j - s) (2 * m)
  have h2 := Int.emod_nonneg (j - s) hP.ne'
  have h3 := Int.emod_lt_of_pos (j - s) hP
  set r := (j - s) % (2 * m) with hr
  set q := (j - s) / (2 * (m : Int)) with hq
  by_cases h0 : r = 0
  · left
    refine ⟨⟨q, by linarith⟩, ?_⟩
    have e : (j - 1 - s) % (2 * m) = 2 * m - 1 := by
      rw [show j - 1 - s = (2 * m - 1) + 2 * m * (q - 1) by linarith, Int.add_mul_emod_self_left]
      exact Int.emod_eq_of_lt (by omega) (by omega)
    unfold square
    rw [e, ← hr, h0, if_pos (by omega), if_neg (by omega)]
  · have e : (j - 1 - s) % (2 * m) = r - 1 := by
      rw [show j - 1 - s = (r - 1) + 2 * m * q by linarith, Int.add_mul_emod_self_left]
      exact Int.emod_eq_of_lt (by omega) (by omega)
    by_cases hrm : r = m
    · right; left
      refine ⟨⟨q, by linarith⟩, ?_⟩
      unfold square
      rw [e, ← hr, hrm, if_neg (by omega), if_pos (by omega)]
      ring
    · right; right
      unfold square
      rw [e, ← hr]
      by_cases hlt : r < m
      · rw [if_pos hlt, if_pos (by omega), sub_self]
      · rw [if_neg hlt, if_neg (by omega), sub_self]

theorem E_full {m k : Nat} (hm : 1 ≤ m) (hk : 1 ≤ k) (t : Int) : E (2 * m * k) (-(k : Int)) (2 * m * t) = 1 := by
  unfold E
  rw [Complex.exp_eq_one_iff]
  refine ⟨-t, ?_⟩
  have : (m : ℂ) ≠ 0 := by exact_mod_cast (by omega : m ≠ 0)
  have : (k : ℂ) ≠ 0 := by exact_mod_cast (by omega : k ≠ 0)
  push_cast
  field_simp

theorem E_half {m k : Nat} (hm : 1 ≤ m) (hk : 1 ≤ k) : E (2 * m * k) (-(k : Int)) m = -1 := by
  unfold E
  have : (m : ℂ) ≠ 0 := by exact_mod_cast (by omega : m ≠ 0)
  have : (k : ℂ) ≠ 0 := by exact_mod_cast (by omega : k ≠ 0)
  have e : 2 * (Real.pi : ℂ) * Complex.I * (((-(k : Int) : Int) : ℂ) * ((m : Int) : ℂ) / ((2 * m * k : Nat) : ℂ)) = -(Real.pi * Complex.I) := by
    push_cast
    field_simp
  rw [e, Complex.exp_neg, Complex.exp_pi_mul_I]
  norm_num

/-- the fundamental of a square wave is stronger than every other wave -/
theorem T_square {lo hi : ℝ} (hlh : lo ≠ hi) {m k : Nat} (hm : 1 ≤ m) (hk : 1 ≤ k) (s : Int) :
    0 < ‖T (2 * m * k) (square lo hi m s) k‖ ∧
    ∀ l : Int, l ≠ 0 → l ≠ k → l ≠ -k → 2 * |l| ≤ (2 * m * k : Nat) →
      ‖T (2 * m * k) (square lo hi m s) l‖ < ‖T (2 * m * k) (square lo hi m s) k‖ := by
  set n := 2 * m * k with hn
  have hn0 : 0 < n := by positivity
  set v := square lo hi m s with hv
  have hvp : ∀ x, v (x + n) = v x := fun x => by
    rw [show ((n : Nat) : Int) = 2 * m * k by rw [hn]; push_cast; ring]
    exact square_period lo hi m s x k
  have hd : (0 : ℝ) < |hi - lo| := abs_pos.2 (sub_ne_zero.2 (Ne.symm hlh))
  set B := ∑ j ∈ range n, |v j - v ((j : Int) - 1)| with hB
  obtain ⟨c, hc, hcE⟩ : ∃ c : ℂ, ‖c‖ = 1 ∧ ((hi - lo : ℝ) : ℂ) * E n (-(k : Int)) s = (|hi - lo| : ℝ) * c := by
    rcases abs_choice (hi - lo) with h | h
    · exact ⟨E n (-(k : Int)) s, norm_E _ _ _, by rw [h]⟩
    · exact ⟨-E n (-(k : Int)) s, by rw [norm_neg, norm_E], by rw [h]; push_cast; ring⟩
  have hT := T_eq hn0 hvp k hc (by
    intro j
    rcases square_jump (lo := lo) (hi := hi) hm s j with ⟨⟨t, rfl⟩, e⟩ | ⟨⟨t, rfl⟩, e⟩ | e
    · rw [hv, e, E_add', E_full hm hk, mul_one, hcE]
    · rw [hv, e, E_add', E_add', E_full hm hk, E_half hm hk, abs_neg, ← hcE]
      push_cast
      ring
    · rw [hv, e]; simp)
  have hBpos : 0 < B := by
    have hs0 : ∃ j ∈ range n, 0 < |v j - v ((j : Int) - 1)| := by
      have hs1 := Int.emod_nonneg s (show (2 * m : Int) ≠ 0 by omega)
      have hs2 := Int.emod_lt_of_pos s (show (0 : Int) < 2 * m by omega)
      have hs3 := Int.emod_add_mul_ediv s (2 * m)
      obtain ⟨j, hj⟩ := Int.eq_ofNat_of_zero_le hs1
      have hjn : j < n := by
        have : j < 2 * m := by omega
        have : 2 * m * 1 ≤ 2 * m * k := Nat.mul_le_mul_left _ hk
        omega
      refine ⟨j, mem_range.2 hjn, ?_⟩
      have e1 : v j = hi := by
        rw [hv]; unfold square
        rw [show (j : Int) - s = 0 + 2 * m * (-(s / (2 * m))) by rw [← hj]; linarith, Int.add_mul_emod_self_left, Int.zero_emod,
          if_pos (by omega)]
      have e2 : v ((j : Int) - 1) = lo := by
        rw [hv]; unfold square
        rw [show (j : Int) - 1 - s = (2 * m - 1) + 2 * m * (-(s / (2 * m)) - 1) by rw [← hj]; linarith,
          Int.add_mul_emod_self_left, Int.emod_eq_of_lt (by omega) (by omega), if_neg (by omega)]
      rw [e1, e2]; exact hd
    obtain ⟨j, hj, hp⟩ := hs0
    exact lt_of_lt_of_le hp (single_le_sum (f := fun j : Nat => |v j - v ((j : Int) - 1)|) (fun _ _ => abs_nonneg _) hj)
  rw [← hB] at hT
  have hTk : 0 < ‖T n v k‖ := by
    rcases (norm_nonneg (T n v k)).lt_or_eq with h | h
    · exact h
    · rw [← h, mul_zero] at hT; linarith
  refine ⟨hTk, ?_⟩
  intro l h0 h1 h2 hl
  rcases lt_trichotomy |l| (k : Int) with h | h | h
  · rw [T_zero hn0 hvp (t := 2 * m) (fun x => by
      have := square_period lo hi m s x 1
      rw [mul_one] at this
      rw [hv]; push_cast; exact this) (l := l)]
    · simpa using hTk
    · unfold E
      rw [ne_eq, Complex.exp_eq_one_iff]
      rintro ⟨z, hz⟩
      have hpi : (2 * Real.pi * Complex.I : ℂ) ≠ 0 := by simp [Real.pi_ne_zero]
      rw [mul_comm (z : ℂ)] at hz
      have hz' := mul_left_cancel₀ hpi hz
      have hm' : (m : ℂ) ≠ 0 := by exact_mod_cast (by omega : m ≠ 0)
      have hk' : (k : ℂ) ≠ 0 := by exact_mod_cast (by omega : k ≠ 0)
      rw [hn] at hz'
      push_cast at hz'
      field_simp at hz'
      have hz2 : -l = z * k := by
        have h4 : (-(l : ℂ)) = z * k := by linear_combination hz'
        exact_mod_cast h4
      have hz3 : (k : Int) ∣ l := ⟨-z, by linarith⟩
      exact h0 (Int.eq_zero_of_abs_lt_dvd hz3 h)
  · rcases abs_choice l with h3 | h3 <;> omega
  · have hlt := norm_one_sub_E_lt hn0 (k := k) (l := l) (by rw [Nat.abs_cast]; exact h) hl
    have hle := T_le hn0 hvp l
    rw [← hB, ← hT] at hle
    by_contra hc
    push Not at hc
    have h1 : 0 ≤ ‖1 - E n (-(k : Int)) 1‖ := norm_nonneg _
    have := mul_lt_mul_of_pos_right hlt hTk
    have := mul_le_mul_of_nonneg_left hc (norm_nonneg (1 - E n (-l) 1))
    linarith

end Surfalize.Fourier
