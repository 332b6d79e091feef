import Verif.Lemmas.Fourier
import Verif.Lemmas.Stepheight
import Mathlib.Algebra.BigOperators.Ring.Finset

/-! Lemmas about the angular spectrum. -/
set_option linter.unusedSectionVars false
namespace Surfalize.Fourier
open Surfalize BaseOps Finset Container Spec

theorem fftfreq_signed {n u : Nat} (hn : 0 < n) {L : ℝ} : fftfreq n (L / n) u = (signedFreq n u : ℝ) / L := by
  have hn' : (n : ℝ) ≠ 0 := by exact_mod_cast hn.ne'
  have h2 : (1 : ℝ) / (n * (L / n)) = 1 / L := by congr 1; field_simp
  unfold fftfreq signedFreq
  rw [h2]
  by_cases h : 2 * u < n
  · rw [if_pos h, if_pos (by omega)]; push_cast; ring
  · rw [if_neg h, if_neg (by omega)]; push_cast; ring

theorem E_signed {n u : Nat} (hn : 0 < n) (i : Int) : E n (-(u : Int)) i = E n (-(signedFreq n u)) i := by
  unfold signedFreq
  split
  · rfl
  · have : -((u : Int) - n) = -(u : Int) + n * 1 := by ring
    rw [this, E_period n hn]

theorem amplitude_signed {g : Grid (Option ℝ)} (hg : g.WF) (hf : none ∉ flat g) (hN : 0 < g.ny) (hM : 0 < g.nx) (u v : Nat) :
    amplitude g u v = ‖component g.ny g.nx g.val (signedFreq g.ny u, signedFreq g.nx v)‖ := by
  unfold amplitude component
  rw [fft2_E]
  congr 1
  apply sum_congr rfl; intro i _
  apply sum_congr rfl; intro j _
  rw [centred_eq hg hf, E_signed hN, E_signed hM]
  congr 1
  unfold E
  rw [← Complex.exp_add]
  congr 1
  push_cast
  ring

theorem sum_signed (n : Nat) (F : Int → ℝ) :
    ∑ u ∈ range n, F (signedFreq n u) = ∑ k ∈ Finset.Ico (-((n / 2 : Nat) : Int)) (n - (n / 2 : Nat)), F k := by
  apply Finset.sum_nbij' (fun u => signedFreq n u) (fun k : Int => (if 0 ≤ k then k else k + n).toNat)
  · intro u hu
    rw [mem_range] at hu
    rw [mem_Ico]
    unfold signedFreq
    split <;> constructor <;> omega
  · intro k hk
    rw [mem_Ico] at hk
    rw [mem_range]
    split <;> omega
  · intro u hu
    rw [mem_range] at hu
    unfold signedFreq
    split
    · rw [if_pos (by omega)]; omega
    · rw [if_neg (by omega)]; omega
  · intro k hk
    rw [mem_Ico] at hk
    unfold signedFreq
    by_cases h : 0 ≤ k
    · rw [if_pos h, if_pos (by omega)]; omega
    · rw [if_neg h, if_neg (by omega)]; omega
  · intro _ _; rfl

theorem sum_freqs (N M : Nat) (F : Int × Int → ℝ) :
    ((pixels N M).map fun p => F (signedFreq N p.1, signedFreq M p.2)).sum = ∑ k ∈ freqs N M, F k := by
  rw [Detrend.sum_pixels, freqs, sum_product]
  rw [← sum_signed N fun a => ∑ y ∈ Finset.Ico (-((M / 2 : Nat) : Int)) (M - (M / 2 : Nat)), F (a, y)]
  apply sum_congr rfl; intro u _
  exact sum_signed M fun b => F (signedFreq N u, b)

theorem sum_filter_map {α : Type} (l : List α) (p : α → Prop) [DecidablePred p] (w : α → ℝ) :
    ((l.filter fun a => p a).map w).sum = (l.map fun a => if p a then w a else 0).sum := by
  induction l with
  | nil => rfl
  | cons a l ih =>
    by_cases h : p a
    · simp [h, ih]
    · simp [h, ih]

/-! ### directions and bins -/

theorem npMod_bounds (a : ℝ) : 0 ≤ npMod a 180 ∧ npMod a 180 < 180 := by
  unfold npMod
  have h1 := Int.floor_le (a / 180)
  have h2 := Int.lt_floor_add_one (a / 180)
  have e : a / 180 * 180 = a := by ring
  constructor <;> nlinarith

/-- the direction of a wave vector -/
noncomputable def dirOf (W H : ℝ) (k : Int × Int) : ℝ :=
  npMod (Complex.arg (((k.2 : ℝ) / W : ℝ) + ((k.1 : ℝ) / H : ℝ) * Complex.I) * 180 / Real.pi) 180

theorem theta_eq {g : Grid (Option ℝ)} (hN : 0 < g.ny) (hM : 0 < g.nx) (W H : ℝ) (u v : Nat) :
    theta g W H u v = dirOf W H (signedFreq g.ny u, signedFreq g.nx v) := by
  unfold theta dirOf
  rw [fftfreq_signed hN, fftfreq_signed hM]

theorem dirOf_spec (W H : ℝ) (k : Int × Int) : IsDirection W H k (dirOf W H k) := by
  refine ⟨(npMod_bounds _).1, (npMod_bounds _).2, ?_, ?_⟩
  · unfold dirOf npMod
    set z : ℂ := ((k.2 : ℝ) / W : ℝ) + ((k.1 : ℝ) / H : ℝ) * Complex.I with hz
    set m : Int := ⌊Complex.arg z * 180 / Real.pi / 180⌋
    have e : (Complex.arg z * 180 / Real.pi - m * 180) * Real.pi / 180 = Complex.arg z - m * Real.pi := by
      have := Real.pi_ne_zero
      field_simp
    rw [e, Real.sin_sub_int_mul_pi, Real.cos_sub_int_mul_pi]
    have hre : (k.2 : ℝ) / W = z.re := by rw [hz]; simp
    have him : (k.1 : ℝ) / H = z.im := by rw [hz]; simp
    rw [hre, him]
    have h1 : z.re = ‖z‖ * Real.cos (Complex.arg z) := (Complex.norm_mul_cos_arg z).symm
    have h2 : z.im = ‖z‖ * Real.sin (Complex.arg z) := (Complex.norm_mul_sin_arg z).symm
    rw [h1, h2]
    ring
  · rintro rfl
    unfold dirOf npMod
    simp

/-- the direction of a nonzero wave vector is unique -/
theorem direction_unique {W H : ℝ} (hW : W ≠ 0) (hH : H ≠ 0) {k : Int × Int} {θ θ' : ℝ} (h : IsDirection W H k θ)
    (h' : IsDirection W H k θ') : θ = θ' := by
  by_cases hk : k = (0, 0)
  · rw [h.2.2.2 hk, h'.2.2.2 hk]
  obtain ⟨a0, a1, a2, -⟩ := h
  obtain ⟨b0, b1, b2, -⟩ := h'
  have hs : Real.sin ((θ - θ') * Real.pi / 180) = 0 := by
    have e : (θ - θ') * Real.pi / 180 = θ * Real.pi / 180 - θ' * Real.pi / 180 := by ring
    rw [e, Real.sin_sub]
    set s := Real.sin (θ * Real.pi / 180)
    set c := Real.cos (θ * Real.pi / 180)
    set s' := Real.sin (θ' * Real.pi / 180)
    set c' := Real.cos (θ' * Real.pi / 180)
    have hne : (k.2 : ℝ) / W ≠ 0 ∨ (k.1 : ℝ) / H ≠ 0 := by
      by_contra hc
      push Not at hc
      apply hk
      have z1 : (k.2 : ℝ) = 0 := by rcases div_eq_zero_iff.1 hc.1 with h | h; exacts [h, absurd h hW]
      have z2 : (k.1 : ℝ) = 0 := by rcases div_eq_zero_iff.1 hc.2 with h | h; exacts [h, absurd h hH]
      ext
      · exact_mod_cast z2
      · exact_mod_cast z1
    rcases hne with hx | hy
    · apply mul_left_cancel₀ hx
      linear_combination c' * a2 - c * b2
    · apply mul_left_cancel₀ hy
      linear_combination s' * a2 - s * b2
  have hlt : |(θ - θ') * Real.pi / 180| < Real.pi := by
    rw [abs_lt]
    have := Real.pi_pos
    constructor <;> nlinarith
  rw [abs_lt] at hlt
  have hz := (Real.sin_eq_zero_iff_of_lt_of_lt hlt.1 hlt.2).1 hs
  have := Real.pi_pos
  have : (θ - θ') * Real.pi = 0 := by linarith
  rcases mul_eq_zero.1 this with h | h
  · linarith
  · exact absurd h Real.pi_ne_zero

theorem angles_length (step : ℝ) : (angles step).length = ⌈180 / step⌉₊ := by simp [angles]

theorem binIdx_iff {step t : ℝ} (hs : 0 < step) (h0 : 0 ≤ t) (h1 : t < 180) (k : Nat) :
    binIdx step t = k ↔ k * step ≤ t ∧ t < (k + 1) * step := by
  have hq : 0 ≤ t / step := by positivity
  have hlt : t / step < 180 / step := div_lt_div_of_pos_right h1 hs
  have hfl : ⌊t / step⌋₊ < ⌈180 / step⌉₊ := by
    rw [Nat.floor_lt hq]
    exact lt_of_lt_of_le hlt (Nat.le_ceil _)
  have hi : (pyInt (t / step)).toNat = ⌊t / step⌋₊ := by
    rw [pyInt_nonneg hq]; rfl
  unfold binIdx
  rw [hi, angles_length, Nat.min_eq_left (by omega), Nat.floor_eq_iff hq, le_div_iff₀ hs, div_lt_iff₀ hs]

theorem bin_lt {step t : ℝ} (hs : 0 < step) (h1 : t < 180) {k : Nat} (hk : k * step ≤ t) :
    k < ⌈180 / step⌉₊ := by
  rw [Nat.lt_ceil, lt_div_iff₀ hs]
  linarith

end Surfalize.Fourier
