import Verif.Model.Sinusoid
import Mathlib.Tactic.FieldSimp
import Mathlib.Tactic.Linarith
import Mathlib.Tactic.Ring
import Mathlib.Tactic.LinearCombination
import Mathlib.Analysis.SpecialFunctions.Trigonometric.Complex

/-! # Sinusoids (C45) -/
namespace Surfalize.Props
open Surfalize Sinusoid

/-- a highest point of a function -/
def IsPeak (f : ℝ → ℝ) (x : ℝ) : Prop := ∀ y, f y ≤ f x

/-- a lowest point of a function -/
def IsValley (f : ℝ → ℝ) (x : ℝ) : Prop := ∀ y, f x ≤ f y

/-- **C45**, normalisation: whatever the optimiser returns, the amplitude of the fitted sinusoid is not negative and
the sinusoid is the fitted function. -/
theorem C45_normalised (a p x0 y0 : ℝ) (hp : p ≠ 0) :
    (ofPopt (a, p, x0, y0)).amplitude = |a| ∧ (ofPopt (a, p, x0, y0)).period = p ∧
    ∀ x, (ofPopt (a, p, x0, y0)).eval x = a * Real.sin (2 * Real.pi * (x - x0) / p) + y0 := by
  unfold ofPopt Sinus.eval sinusoid
  dsimp only
  split
  · rename_i h
    refine ⟨rfl, rfl, fun x => ?_⟩
    dsimp only
    have e : (x - (x0 - p / 2)) / p * 2 * Real.pi = 2 * Real.pi * (x - x0) / p + Real.pi := by field_simp; ring
    rw [e, Real.sin_add_pi, abs_of_neg h]
    ring
  · rename_i h
    refine ⟨(abs_of_nonneg (not_lt.1 h)).symm, rfl, fun x => ?_⟩
    dsimp only
    have e : (x - x0) / p * 2 * Real.pi = 2 * Real.pi * (x - x0) / p := by ring
    rw [e]

theorem eval_eq (s : Sinus) (hp : s.period ≠ 0) (t : ℝ) :
    s.eval (s.x0 + s.period / 4 + t * s.period / 2) = s.amplitude * Real.cos (t * Real.pi) + s.y0 := by
  unfold Sinus.eval sinusoid
  have e : (s.x0 + s.period / 4 + t * s.period / 2 - s.x0) / s.period * 2 * Real.pi = t * Real.pi + Real.pi / 2 := by
    field_simp; ring
  rw [e, Real.sin_add_pi_div_two]

theorem exists_param (s : Sinus) (hp : s.period ≠ 0) (x : ℝ) : ∃ t : ℝ, x = s.x0 + s.period / 4 + t * s.period / 2 :=
  ⟨(x - s.x0 - s.period / 4) * 2 / s.period, by field_simp; ring⟩

theorem peak_iff (s : Sinus) (hp : s.period ≠ 0) (ha : 0 < s.amplitude) (x : ℝ) :
    IsPeak s.eval x ↔ ∃ n : Int, x = s.x0 + s.period / 4 + n * s.period := by
  constructor
  · intro h
    obtain ⟨t, rfl⟩ := exists_param s hp x
    have h0 := h (s.x0 + s.period / 4 + 0 * s.period / 2)
    rw [eval_eq s hp, eval_eq s hp] at h0
    simp only [zero_mul, Real.cos_zero, mul_one] at h0
    have : 1 ≤ Real.cos (t * Real.pi) := by
      by_contra hc
      push Not at hc
      have := mul_lt_mul_of_pos_left hc ha
      linarith
    have h1 := le_antisymm (Real.cos_le_one _) this
    rw [Real.cos_eq_one_iff] at h1
    obtain ⟨n, hn⟩ := h1
    refine ⟨n, ?_⟩
    have : t = n * 2 := by
      have := Real.pi_ne_zero
      apply mul_right_cancel₀ this
      linarith
    rw [this]; ring
  · rintro ⟨n, rfl⟩ y
    obtain ⟨t, rfl⟩ := exists_param s hp y
    have e : s.x0 + s.period / 4 + n * s.period = s.x0 + s.period / 4 + ((2 * n : ℝ)) * s.period / 2 := by ring
    rw [e, eval_eq s hp, eval_eq s hp]
    have : Real.cos (2 * (n : ℝ) * Real.pi) = 1 := by
      rw [Real.cos_eq_one_iff]; exact ⟨n, by ring⟩
    rw [this]
    have := mul_le_mul_of_nonneg_left (Real.cos_le_one (t * Real.pi)) ha.le
    linarith

theorem valley_iff (s : Sinus) (hp : s.period ≠ 0) (ha : 0 < s.amplitude) (x : ℝ) :
    IsValley s.eval x ↔ ∃ n : Int, x = s.x0 + s.period / 4 + (2 * n + 1) * s.period / 2 := by
  constructor
  · intro h
    obtain ⟨t, rfl⟩ := exists_param s hp x
    have h0 := h (s.x0 + s.period / 4 + 1 * s.period / 2)
    rw [eval_eq s hp, eval_eq s hp] at h0
    simp only [one_mul, Real.cos_pi] at h0
    have : Real.cos (t * Real.pi) ≤ -1 := by
      by_contra hc
      push Not at hc
      have := mul_lt_mul_of_pos_left hc ha
      linarith
    have h1 := le_antisymm this (Real.neg_one_le_cos _)
    rw [Real.cos_eq_neg_one_iff] at h1
    obtain ⟨n, hn⟩ := h1
    refine ⟨n, ?_⟩
    have : t = 2 * n + 1 := by
      have := Real.pi_ne_zero
      apply mul_right_cancel₀ this
      linarith
    rw [this]
  · rintro ⟨n, rfl⟩ y
    obtain ⟨t, rfl⟩ := exists_param s hp y
    rw [eval_eq s hp, eval_eq s hp]
    have : Real.cos ((2 * (n : ℝ) + 1) * Real.pi) = -1 := by
      rw [Real.cos_eq_neg_one_iff]; exact ⟨n, by ring⟩
    rw [this]
    have := mul_le_mul_of_nonneg_left (Real.neg_one_le_cos (t * Real.pi)) ha.le
    linarith

theorem floor_bounds {x q : ℝ} (hq : 0 < q) : 0 ≤ x - ⌊x / q⌋ * q ∧ x - ⌊x / q⌋ * q < q := by
  have h1 := Int.floor_le (x / q)
  have h2 := Int.lt_floor_add_one (x / q)
  rw [le_div_iff₀ hq] at h1
  rw [div_lt_iff₀ hq] at h2
  constructor
  · linarith
  · linarith [add_mul (⌊x / q⌋ : ℝ) 1 q]

theorem floor_bounds_neg {x q : ℝ} (hq : q < 0) : q < x - ⌊x / q⌋ * q ∧ x - ⌊x / q⌋ * q ≤ 0 := by
  have h1 := Int.floor_le (x / q)
  have h2 := Int.lt_floor_add_one (x / q)
  rw [le_div_iff_of_neg hq] at h1
  rw [div_lt_iff_of_neg hq] at h2
  constructor
  · linarith [add_mul (⌊x / q⌋ : ℝ) 1 q]
  · linarith

/-- **C45**, extrema (proved for positive periods). The first extremum lies in `[0, period/2)`, is a peak or a valley and
no smaller `x ≥ 0` is; the first peak lies in `[0, period)`, is a peak, and no smaller `x ≥ 0` is. The full property does
not restrict the period, which the unbounded fit may return negative; see `C45_negative_period`. -/
theorem C45_extrema_partial (s : Sinus) (hp : 0 < s.period) (ha : 0 < s.amplitude) :
    (0 ≤ s.firstExtremum ∧ s.firstExtremum < s.period / 2 ∧
      (IsPeak s.eval s.firstExtremum ∨ IsValley s.eval s.firstExtremum) ∧
      ∀ x, 0 ≤ x → x < s.firstExtremum → ¬ IsPeak s.eval x ∧ ¬ IsValley s.eval x) ∧
    (0 ≤ s.firstPeak ∧ s.firstPeak < s.period ∧ IsPeak s.eval s.firstPeak ∧
      ∀ x, 0 ≤ x → x < s.firstPeak → ¬ IsPeak s.eval x) := by
  have hp' := hp.ne'
  have hq : 0 < s.period / 2 := by positivity
  have fe : s.firstExtremum = s.x0 + s.period / 4 - ⌊(s.x0 + s.period / 4) / (s.period / 2)⌋ * (s.period / 2) := by
    unfold Sinus.firstExtremum; ring
  have fp : s.firstPeak = s.x0 + s.period / 4 - ⌊(s.x0 + s.period / 4) / s.period⌋ * s.period := rfl
  obtain ⟨e1, e2⟩ := floor_bounds (x := s.x0 + s.period / 4) hq
  obtain ⟨f1, f2⟩ := floor_bounds (x := s.x0 + s.period / 4) hp
  rw [← fe] at e1 e2
  rw [← fp] at f1 f2
  -- two points of a lattice of width `q` closer than `q` coincide
  have lat : ∀ (q : ℝ) (_ : 0 < q) (m n : Int) (x y : ℝ), y = s.x0 + s.period / 4 + m * q → x = s.x0 + s.period / 4 + n * q →
      0 ≤ x → x < y → y < q → False := by
    intro q hq m n x y hy hx h0 hlt hb
    have h1 : ((n : ℝ) - m) * q < 0 := by rw [hy, hx] at hlt; linarith [sub_mul (n : ℝ) m q]
    have h2 : -q < ((n : ℝ) - m) * q := by rw [hy] at hb; rw [hx] at h0; linarith [sub_mul (n : ℝ) m q]
    have h3 : ((n - m : Int) : ℝ) < 0 := by push_cast; by_contra hc; push Not at hc; have := mul_nonneg hc hq.le; linarith
    have h4 : (-1 : ℝ) < ((n - m : Int) : ℝ) := by
      push_cast; by_contra hc; push Not at hc; have := mul_le_mul_of_nonneg_right hc hq.le; linarith
    have h5 : n - m < 0 := by exact_mod_cast h3
    have h6 : (-1 : Int) < n - m := by exact_mod_cast h4
    omega
  refine ⟨⟨e1, e2, ?_, ?_⟩, f1, f2, ?_, ?_⟩
  · rw [peak_iff s hp' ha, valley_iff s hp' ha, fe]
    rcases Int.even_or_odd' (-⌊(s.x0 + s.period / 4) / (s.period / 2)⌋) with ⟨n, hn | hn⟩
    · left
      refine ⟨n, ?_⟩
      have : (⌊(s.x0 + s.period / 4) / (s.period / 2)⌋ : ℝ) = -(2 * n) := by
        have h : (⌊(s.x0 + s.period / 4) / (s.period / 2)⌋ : Int) = -(2 * n) := by omega
        rw [h]; push_cast; ring
      rw [this]; ring
    · right
      refine ⟨n, ?_⟩
      have : (⌊(s.x0 + s.period / 4) / (s.period / 2)⌋ : ℝ) = -(2 * n + 1) := by
        have h : (⌊(s.x0 + s.period / 4) / (s.period / 2)⌋ : Int) = -(2 * n + 1) := by omega
        rw [h]; push_cast; ring
      rw [this]; ring
  · intro x h0 hlt
    constructor
    · intro hx
      obtain ⟨n, hn⟩ := (peak_iff s hp' ha x).1 hx
      exact lat _ hq (-⌊(s.x0 + s.period / 4) / (s.period / 2)⌋) (2 * n) x _ (by rw [fe]; push_cast; ring)
        (by rw [hn]; push_cast; ring) h0 hlt e2
    · intro hx
      obtain ⟨n, hn⟩ := (valley_iff s hp' ha x).1 hx
      exact lat _ hq (-⌊(s.x0 + s.period / 4) / (s.period / 2)⌋) (2 * n + 1) x _ (by rw [fe]; push_cast; ring)
        (by rw [hn]; push_cast; ring) h0 hlt e2
  · rw [peak_iff s hp' ha, fp]
    exact ⟨-⌊(s.x0 + s.period / 4) / s.period⌋, by push_cast; ring⟩
  · intro x h0 hlt hx
    obtain ⟨n, hn⟩ := (peak_iff s hp' ha x).1 hx
    exact lat _ hp (-⌊(s.x0 + s.period / 4) / s.period⌋) n x _ (by rw [fp]; push_cast; ring) hn h0 hlt f2

/-- Why C45 is only partial: with a negative fitted period (the fit is unbounded and nothing normalises it) the
reported positions are never positive, hence never a first extremum or peak for `x ≥ 0` unless one lies exactly at 0. -/
theorem C45_negative_period (s : Sinus) (hp : s.period < 0) :
    s.period / 2 < s.firstExtremum ∧ s.firstExtremum ≤ 0 ∧ s.period < s.firstPeak ∧ s.firstPeak ≤ 0 := by
  have fe : s.firstExtremum = s.x0 + s.period / 4 - ⌊(s.x0 + s.period / 4) / (s.period / 2)⌋ * (s.period / 2) := by
    unfold Sinus.firstExtremum; ring
  obtain ⟨e1, e2⟩ := floor_bounds_neg (x := s.x0 + s.period / 4) (q := s.period / 2) (by linarith)
  obtain ⟨f1, f2⟩ := floor_bounds_neg (x := s.x0 + s.period / 4) hp
  rw [fe]
  exact ⟨e1, e2, f1, f2⟩

/-- Both signs of the period occur for the same function, and only one is answered correctly. -/
example : ∃ s t : Sinus, 0 < s.period ∧ 0 < s.amplitude ∧ t.period < 0 ∧ s.eval = t.eval ∧
    0 ≤ s.firstExtremum ∧ t.firstExtremum < 0 := by
  have e : (⟨1, 4, 0, 0⟩ : Sinus).eval = (⟨1, -4, 2, 0⟩ : Sinus).eval := by
    funext x
    unfold Sinus.eval sinusoid
    dsimp only
    have : (x - 2) / -4 * 2 * Real.pi = Real.pi - (x - 0) / 4 * 2 * Real.pi := by ring
    rw [this, Real.sin_pi_sub]
  have h1 := C45_extrema_partial ⟨1, 4, 0, 0⟩ (by norm_num) (by norm_num)
  have h2 := C45_negative_period ⟨1, -4, 2, 0⟩ (by norm_num)
  refine ⟨⟨1, 4, 0, 0⟩, ⟨1, -4, 2, 0⟩, by norm_num, by norm_num, by norm_num, e, h1.1.1, ?_⟩
  unfold Sinus.firstExtremum
  norm_num

end Surfalize.Props
