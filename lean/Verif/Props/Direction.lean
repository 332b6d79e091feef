import Verif.Props.Spectrum
import Verif.Props.Angular

/-!
# C116 — Std and orientation describe the same texture
-/
set_option linter.unusedSectionVars false
namespace Surfalize.Props
open Surfalize BaseOps Finset Container Spec Fourier

theorem grating_noisy {g : Grid (Option ℝ)} {c a φ : ℝ} {ky kx : Int} (h : Grating g c a φ ky kx) :
    NoisyGrating g c a φ ky kx fun _ _ => 0 := by
  refine ⟨h.wf, fun i hi j hj => by rw [add_zero]; exact h.heights i hi j hj, h.nonzero, h.nyquist_y, h.nyquist_x, ?_⟩
  have := h.contrast
  simp only [ne_eq, OfNat.ofNat_ne_zero, not_false_eq_true, zero_pow, sum_const_zero, zero_div]
  positivity

/-- the direction of a wave vector from the orientation the code reports for it -/
theorem direction_of_orientation {W H : ℝ} (hW : 0 < W) (hH : 0 < H) {ky kx : Int} (hk : ky ≠ 0 ∨ kx ≠ 0) {o : ℝ}
    (ho : o = if kx = 0 then 90 else if ky = 0 then 0 else -(Real.arctan ((ky / H) / (kx / W)) * 180 / Real.pi)) :
    IsDirection W H (ky, kx) (if 0 < o then 180 - o else -o) := by
  have hpi := Real.pi_pos
  have hne : ((ky, kx) : Int × Int) = (0, 0) → (if 0 < o then 180 - o else -o) = 0 := by
    intro h
    simp only [Prod.mk.injEq] at h
    rcases hk with hk | hk
    · exact absurd h.1 hk
    · exact absurd h.2 hk
  by_cases hx : kx = 0
  · rw [if_pos hx] at ho
    subst ho
    rw [if_pos (by norm_num)] at hne ⊢
    refine ⟨by norm_num, by norm_num, ?_, hne⟩
    rw [hx, show (180 - 90 : ℝ) * Real.pi / 180 = Real.pi / 2 by ring, Real.cos_pi_div_two]
    simp
  rw [if_neg hx] at ho
  have ho' : o = -(Real.arctan (((ky : ℝ) / H) / (kx / W)) * 180 / Real.pi) := by
    rw [ho]
    split
    · rename_i hy; rw [hy]; simp
    · rfl
  have hx' : (kx : ℝ) ≠ 0 := by exact_mod_cast hx
  set t : ℝ := ((ky : ℝ) / H) / (kx / W) with ht
  have hkt : (ky : ℝ) / H = (kx / W) * t := by rw [ht]; field_simp
  have b1 := Real.neg_pi_div_two_lt_arctan t
  have b2 := Real.arctan_lt_pi_div_two t
  have hx1 : Real.sin (Real.arctan t) = t * Real.cos (Real.arctan t) := by
    have := Real.tan_arctan t
    rw [Real.tan_eq_sin_div_cos, div_eq_iff (Real.cos_arctan_pos t).ne'] at this
    exact this
  have hb : Real.arctan t * 180 / Real.pi < 90 ∧ -90 < Real.arctan t * 180 / Real.pi := by
    constructor
    · rw [div_lt_iff₀ hpi]; nlinarith
    · rw [lt_div_iff₀ hpi]; nlinarith
  refine ⟨?_, ?_, ?_, hne⟩
  · split <;> linarith
  · split <;> linarith
  · simp only
    split
    · have e : (180 - o) * Real.pi / 180 = Real.arctan t + Real.pi := by rw [ho']; field_simp; ring
      rw [e, Real.sin_add_pi, Real.cos_add_pi, hx1, hkt]; ring
    · have e : -o * Real.pi / 180 = Real.arctan t := by rw [ho']; field_simp
      rw [e, hx1, hkt]; ring

/-- **C116** (what holds). On a grating, `Std` and the orientation determine the same line, but seen from opposite sides:
`Std` is, up to the resolution `angle_step`, the orientation with the opposite sign (modulo 180°). Missing: the sign
(`C116_violated`). -/
theorem C116_consistent_partial {argsort : List ℝ → List Nat} (hs : IsArgsort argsort) {g : Grid (Option ℝ)} {c a φ : ℝ} {ky kx : Int}
    (h : Grating g c a φ ky kx) {W H step : ℝ} (hW : 0 < W) (hH : 0 < H) (hstep : 0 < step) :
    ∃ s o, Fourier.std g W H step = .ok s ∧ Fourier.orientation argsort g W H = .ok o ∧ -90 < o ∧ o ≤ 90 ∧
      s ≤ (if 0 < o then 180 - o else -o) ∧ (if 0 < o then 180 - o else -o) < s + step := by
  obtain ⟨s, θ, e1, hd, h1, h2⟩ := C44_grating h hW.ne' hH.ne' hstep
  obtain ⟨-, -, -, e2⟩ := C97_noise hs (grating_noisy h) hW hH
  have hdir := direction_of_orientation hW hH h.nonzero rfl
  have hθ := direction_unique hW.ne' hH.ne' hd hdir
  refine ⟨s, _, e1, e2, ?_, ?_, by rw [← hθ]; exact h1, by rw [← hθ]; exact h2⟩
  · split
    · norm_num
    · split
      · norm_num
      · have := Real.arctan_lt_pi_div_two (((ky : ℝ) / H) / (kx / W))
        have : Real.arctan (((ky : ℝ) / H) / (kx / W)) * 180 / Real.pi < 90 := by
          rw [div_lt_iff₀ Real.pi_pos]; linarith
        linarith
  · split
    · exact le_rfl
    · split
      · norm_num
      · have := Real.neg_pi_div_two_lt_arctan (((ky : ℝ) / H) / (kx / W))
        have : -90 < Real.arctan (((ky : ℝ) / H) / (kx / W)) * 180 / Real.pi := by
          rw [lt_div_iff₀ Real.pi_pos]; linarith
        linarith

/-- **C116** holds for textures along the axes: both are 0° for vertical and 90° for horizontal grooves (`Std` up to its
resolution). -/
theorem C116_axes {argsort : List ℝ → List Nat} (hs : IsArgsort argsort) {g : Grid (Option ℝ)} {c a φ : ℝ} {ky kx : Int}
    (h : Grating g c a φ ky kx) {W H step : ℝ} (hW : 0 < W) (hH : 0 < H) (hstep : 0 < step) (hk : ky = 0 ∨ kx = 0) :
    ∃ s o, Fourier.std g W H step = .ok s ∧ Fourier.orientation argsort g W H = .ok o ∧ o = (if ky = 0 then 0 else 90) ∧
      s ≤ o ∧ o < s + step := by
  obtain ⟨s, o, e1, e2, -, -, h1, h2⟩ := C116_consistent_partial hs h hW hH hstep
  obtain ⟨-, -, -, e3⟩ := C97_noise hs (grating_noisy h) hW hH
  rw [e2, Except.ok.injEq] at e3
  have ho : o = if ky = 0 then 0 else 90 := by
    rw [e3]
    rcases hk with hk | hk
    · have : kx ≠ 0 := by rcases h.nonzero with hn | hn
                          · exact absurd hk hn
                          · exact hn
      rw [if_neg this, if_pos hk, if_pos hk]
    · have : ky ≠ 0 := by rcases h.nonzero with hn | hn
                          · exact hn
                          · exact absurd hk hn
      rw [if_pos hk, if_neg this]
  refine ⟨s, o, e1, e2, ho, ?_, ?_⟩
  · rw [ho] at h1 ⊢
    split at h1 <;> norm_num at h1 ⊢ <;> split <;> simp_all
  · rw [ho] at h2 ⊢
    split at h2 <;> norm_num at h2 ⊢ <;> split <;> simp_all

/-- **C116 is false of the code**: on every square surface with a diagonal grating the orientation is -45° (that is 135°
modulo 180°) while `Std` is 45° (up to the resolution). -/
theorem C116_violated {argsort : List ℝ → List Nat} (hs : IsArgsort argsort) {g : Grid (Option ℝ)} {c a φ : ℝ} {k : Int}
    (h : Grating g c a φ k k) {W step : ℝ} (hW : 0 < W) (hstep : 0 < step) (hstep' : step ≤ 45) :
    ∃ s o, Fourier.std g W W step = .ok s ∧ Fourier.orientation argsort g W W = .ok o ∧ o = -45 ∧ s ≤ 45 ∧ 45 < s + step ∧
      ¬ (s ≤ o + 180 ∧ o + 180 < s + step) := by
  obtain ⟨s, o, e1, e2, -, -, h1, h2⟩ := C116_consistent_partial hs h hW hW hstep
  obtain ⟨-, -, -, e3⟩ := C97_noise hs (grating_noisy h) hW hW
  rw [e2, Except.ok.injEq] at e3
  have hk : k ≠ 0 := by rcases h.nonzero with hn | hn <;> exact hn
  have hk' : (k : ℝ) ≠ 0 := by exact_mod_cast hk
  have ho : o = -45 := by
    rw [e3, if_neg hk, if_neg hk, div_self (by positivity), Real.arctan_one]
    have := Real.pi_pos
    field_simp
    norm_num
  rw [ho, if_neg (by norm_num)] at h1 h2
  refine ⟨s, o, e1, e2, ho, by linarith, by linarith, ?_⟩
  rintro ⟨-, h4⟩
  rw [ho] at h4
  linarith

example : ∃ g : Grid (Option ℝ), Grating g 1 2 0 1 1 := by
  have hg : Grating (Grid.ofFn 4 4 fun i j => some (1 + 2 * Real.cos
    (2 * Real.pi * (((1 : Int) : ℝ) * i / 4 + ((1 : Int) : ℝ) * j / 4) + 0))) 1 2 0 1 1 := by
    refine ⟨ofFn_wf _ _ _, ?_, two_ne_zero, Or.inr one_ne_zero, ?_, ?_⟩
    · intro i hi j hj
      rw [ofFn_ny] at hi ⊢
      rw [ofFn_nx] at hj ⊢
      rw [get_ofFn _ hi hj]
      norm_num
    · rw [ofFn_ny]; norm_num
    · rw [ofFn_nx]; norm_num
  exact ⟨_, hg⟩

end Surfalize.Props
