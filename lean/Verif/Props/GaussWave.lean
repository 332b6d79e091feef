import Verif.Lemmas.GaussWave
import Verif.Props.Gauss
/-!
# C96 — what the filter lets pass of a wave
-/
set_option linter.unusedSectionVars false
namespace Surfalize.Props
open Surfalize Gauss GaussSpec Finset

theorem crest_eq {step lam : ℝ} (hs : 0 < step) {n q : Nat} (hn : 0 < n) (hq : 0 < q) (h : (q : ℝ) * lam = 2 * (n * step)) (j : Nat) :
    crest step lam j = wave ((q : ℝ) / (2 * n)) j := by
  have hn' : (n : ℝ) ≠ 0 := by positivity
  have hq' : (0 : ℝ) < q := by positivity
  have hl : lam = 2 * (n * step) / q := by field_simp; linarith
  unfold crest wave
  rw [hl]
  congr 1
  push_cast
  field_simp

theorem sigma_beta (c : ℝ) : 2 * Real.pi ^ 2 * Filter.sigma c ^ 2 = Real.log 2 * c ^ 2 := by
  have hl := Real.log_pos one_lt_two
  unfold Filter.sigma
  rw [mul_pow, Real.sq_sqrt (by linarith)]
  have := Real.pi_pos
  field_simp

theorem half_pow (x : ℝ) : Real.exp (-(Real.log 2 * x)) = (1 / 2 : ℝ) ^ x := by
  rw [Real.rpow_def_of_pos (by norm_num), one_div, Real.log_inv]
  congr 1; ring

theorem sigma_big {c : ℝ} (hc : 1 ≤ c) : 1 / 10 ^ 15 < Filter.sigma c := by
  have h1 : (1 : ℝ) / 10 ≤ Real.sqrt (Real.log 2 / 2) := by
    refine Real.le_sqrt_of_sq_le ?_
    have := Real.log_two_gt_d9
    norm_num; linarith
  have h2 : (1 : ℝ) / 4 ≤ c / Real.pi := by
    rw [le_div_iff₀ Real.pi_pos]
    have := Real.pi_le_four
    linarith
  unfold Filter.sigma
  have : (1 : ℝ) / 4 * (1 / 10) ≤ c / Real.pi * Real.sqrt (Real.log 2 / 2) :=
    mul_le_mul h2 h1 (by norm_num) (by linarith)
  norm_num at this ⊢
  linarith

/-- The gain of a wave of at least two points is near the ideal one. -/
theorem gain_nearIdeal {cutoff step lam : ℝ} (hs : 0 < step) (hc : step ≤ cutoff) (hl : 2 * step ≤ lam) {n q : Nat} (hn : 0 < n)
    (hq : 0 < q) (h : (q : ℝ) * lam = 2 * (n * step)) :
    NearIdeal cutoff step lam (gain (Filter.sigma (cutoff / step)) ((q : ℝ) / (2 * n))) := by
  have hn' : (n : ℝ) ≠ 0 := by positivity
  have hq' : (0 : ℝ) < q := by positivity
  have hl0 : 0 < lam := by linarith
  have hθ : (q : ℝ) / (2 * n) = step / lam := by field_simp; linarith
  have hc1 : 1 ≤ cutoff / step := (one_le_div hs).2 hc
  have hlog := Real.log_pos one_lt_two
  have key := gain_near (σ := Filter.sigma (cutoff / step)) (θ := step / lam)
    (lt_trans (by norm_num) (sigma_big hc1)) (by rw [sigma_beta]; exact le_mul_of_one_le_right hlog.le (one_le_pow₀ hc1)) (by positivity)
    (by rw [div_le_iff₀ hl0]; linarith)
  rw [sigma_beta, mul_assoc, mul_assoc, half_pow, half_pow, ← mul_pow, ← mul_pow] at key
  unfold NearIdeal
  rw [hθ]
  have e1 : cutoff / step * (step / lam) = cutoff / lam := by field_simp
  have e2 : cutoff / step * (1 - step / lam) = cutoff / step - cutoff / lam := by field_simp
  rw [e1, e2] at key
  exact key

/-- **C96** (profiles). A wave with whole half waves on the profile (default end treatment) keeps its shape: the lowpass filter
multiplies its amplitude by a factor and keeps the offset, the highpass filter keeps the rest; the factor is that of the ideal
Gaussian filter up to the stated deviation. -/
theorem C96_profile {cutoff step lam : ℝ} (hs : 0 < step) (hc : step ≤ cutoff) (hl : 2 * step ≤ lam) {n q : Nat} (hn : 0 < n)
    (hq : 0 < q) (h : (q : ℝ) * lam = 2 * (n * step)) :
    ∃ T, NearIdeal cutoff step lam T ∧ T ≤ 1 ∧ ∀ (a b : ℝ) (c2 : Option ℝ) (ip : Bool),
      filterProfile .reflect step "lowpass" cutoff c2 ip (profileOf n fun j => a * crest step lam j + b)
        = .ok (.one (profileOf n fun j => T * (a * crest step lam j) + b)) ∧
      filterProfile .reflect step "highpass" cutoff c2 ip (profileOf n fun j => a * crest step lam j + b)
        = .ok (.one (profileOf n fun j => (1 - T) * (a * crest step lam j))) := by
  refine ⟨_, gain_nearIdeal hs hc hl hn hq h, gain_le_one _ _, fun a b c2 ip => ?_⟩
  have hc1 : 1 ≤ cutoff / step := (one_le_div hs).2 hc
  have e : ∀ j, axis .reflect (Filter.sigma (cutoff / step)) n (fun j => a * crest step lam j + b) j
      = gain (Filter.sigma (cutoff / step)) ((q : ℝ) / (2 * n)) * (a * crest step lam j) + b := by
    intro j
    simp only [crest_eq hs hn hq h]
    rw [axis_affine a b (.inl (by decide)), axis_wave (sigma_big hc1) hn]
    ring
  constructor
  · rw [low1_eq]
    congr 2
    exact profileOf_congr fun j _ => e j
  · rw [high1_eq]
    congr 2
    exact profileOf_congr fun j _ => by rw [e j]; ring

/-- **C96** (surfaces). Waves along `x`, waves along `y` and products of both keep their shape, with the cutoff measured in the
unit of the steps on both axes. -/
theorem C96_surface {cutoff sx sy lx ly : ℝ} (hx : 0 < sx) (hy : 0 < sy) (hcx : sx ≤ cutoff) (hcy : sy ≤ cutoff)
    (hlx : 2 * sx ≤ lx) (hly : 2 * sy ≤ ly) {nx ny p q : Nat} (hnx : 0 < nx) (hny : 0 < ny) (hq : 0 < q) (hp : 0 < p)
    (h : (q : ℝ) * lx = 2 * (nx * sx)) (h' : (p : ℝ) * ly = 2 * (ny * sy)) :
    ∃ Tx Ty, NearIdeal cutoff sx lx Tx ∧ NearIdeal cutoff sy ly Ty ∧ Tx ≤ 1 ∧ Ty ≤ 1 ∧
      ∀ (a b : ℝ) (c2 : Option ℝ) (ip : Bool),
      filterSurface .reflect sx sy "lowpass" cutoff c2 ip (surfaceOf ny nx fun _ j => a * crest sx lx j + b)
        = .ok (.one (surfaceOf ny nx fun _ j => Tx * (a * crest sx lx j) + b)) ∧
      filterSurface .reflect sx sy "lowpass" cutoff c2 ip (surfaceOf ny nx fun i _ => a * crest sy ly i + b)
        = .ok (.one (surfaceOf ny nx fun i _ => Ty * (a * crest sy ly i) + b)) ∧
      filterSurface .reflect sx sy "lowpass" cutoff c2 ip (surfaceOf ny nx fun i j => a * (crest sy ly i * crest sx lx j) + b)
        = .ok (.one (surfaceOf ny nx fun i j => Tx * Ty * (a * (crest sy ly i * crest sx lx j)) + b)) := by
  refine ⟨_, _, gain_nearIdeal hx hcx hlx hnx hq h, gain_nearIdeal hy hcy hly hny hp h', gain_le_one _ _, gain_le_one _ _,
    fun a b c2 ip => ?_⟩
  have hcx1 : 1 ≤ cutoff / sx := (one_le_div hx).2 hcx
  have hcy1 : 1 ≤ cutoff / sy := (one_le_div hy).2 hcy
  have ex : ∀ a b : ℝ, ∀ j, axis .reflect (Filter.sigma (cutoff / sx)) nx (fun j => a * crest sx lx j + b) j
      = gain (Filter.sigma (cutoff / sx)) ((q : ℝ) / (2 * nx)) * (a * crest sx lx j) + b := by
    intro a b j
    simp only [crest_eq hx hnx hq h]
    rw [axis_affine a b (.inl (by decide)), axis_wave (sigma_big hcx1) hnx]
    ring
  have ey : ∀ a b : ℝ, ∀ j, axis .reflect (Filter.sigma (cutoff / sy)) ny (fun j => a * crest sy ly j + b) j
      = gain (Filter.sigma (cutoff / sy)) ((p : ℝ) / (2 * ny)) * (a * crest sy ly j) + b := by
    intro a b j
    simp only [crest_eq hy hny hp h']
    rw [axis_affine a b (.inl (by decide)), axis_wave (sigma_big hcy1) hny]
    ring
  have const : ∀ (σ : ℝ) (n : Nat) (v : ℝ) (i : Nat), axis .reflect σ n (fun _ => v) i = v := by
    intro σ n v i
    have := axis_affine (mode := .reflect) 0 v (.inl (by decide)) σ n (fun _ => 0) i
    simpa using this
  refine ⟨?_, ?_, ?_⟩
  · rw [low_eq]
    congr 2
    refine surfaceOf_congr fun i _ j _ => ?_
    unfold twice
    simp only [const]
    exact ex a b j
  · rw [low_eq]
    congr 2
    refine surfaceOf_congr fun i _ j _ => ?_
    unfold twice
    simp only [const]
    exact ey a b i
  · rw [low_eq]
    congr 2
    refine surfaceOf_congr fun i _ j _ => ?_
    unfold twice
    have e1 : ∀ k, axis .reflect (Filter.sigma (cutoff / sy)) ny (fun k' => a * (crest sy ly k' * crest sx lx k) + b) i
        = gain (Filter.sigma (cutoff / sy)) ((p : ℝ) / (2 * ny)) * a * crest sy ly i * crest sx lx k + b := by
      intro k
      have := ey (a * crest sx lx k) b i
      rw [show (fun k' => a * (crest sy ly k' * crest sx lx k) + b) = fun k' => a * crest sx lx k * crest sy ly k' + b by
        funext k'; ring]
      rw [this]; ring
    simp only [e1]
    rw [ex]; ring

theorem half_le {x y : ℝ} (h : x ≤ y) : (1 / 2 : ℝ) ^ y ≤ (1 / 2 : ℝ) ^ x :=
  Real.rpow_le_rpow_of_exponent_ge (by norm_num) (by norm_num) h

/-- **C96** (what this means). At the cutoff wavelength half of the amplitude passes (within one percent, for cutoffs of at
least four points); of waves of at least twice the cutoff more than 83 percent pass; of waves of at most half the cutoff
less than 6.3 percent (for cutoffs of at least eight points). -/
theorem C96_bands {cutoff step lam T : ℝ} (hs : 0 < step) (hl : 2 * step ≤ lam) (hT : NearIdeal cutoff step lam T) :
    (lam = cutoff → 4 * step ≤ cutoff → |T - 1 / 2| ≤ 1 / 100) ∧
    (2 * cutoff ≤ lam → 4 * step ≤ cutoff → 83 / 100 ≤ T) ∧
    (2 * lam ≤ cutoff → 8 * step ≤ cutoff → |T| ≤ 63 / 1000) := by
  have hl0 : 0 < lam := by linarith
  unfold NearIdeal at hT
  obtain ⟨t1, t2⟩ := abs_le.1 hT
  refine ⟨fun e hc => ?_, fun e hc => ?_, fun e hc => ?_⟩
  · subst e
    rw [div_self hl0.ne'] at t1 t2
    have h4 : 4 ≤ lam / step := (le_div_iff₀ hs).2 hc
    have h9 : (1 / 2 : ℝ) ^ ((lam / step - 1) ^ 2) ≤ (1 / 2 : ℝ) ^ (9 : ℝ) := half_le (by nlinarith)
    norm_num at h9 t1 t2
    rw [abs_le]; constructor <;> linarith
  · have h4 : 4 ≤ cutoff / step := (le_div_iff₀ hs).2 hc
    have hq : cutoff / lam ≤ 1 / 2 := by rw [div_le_iff₀ hl0]; linarith
    have hq0 : 0 ≤ cutoff / lam := div_nonneg (by linarith) hl0.le
    have h9 : (1 / 2 : ℝ) ^ ((cutoff / step - cutoff / lam) ^ 2) ≤ (1 / 2 : ℝ) ^ (12 : ℝ) := half_le (by nlinarith)
    have h1 : (1 / 2 : ℝ) ^ (1 / 4 : ℝ) ≤ (1 / 2 : ℝ) ^ ((cutoff / lam) ^ 2) := half_le (by nlinarith)
    have h2 : (84 / 100 : ℝ) ≤ (1 / 2 : ℝ) ^ (1 / 4 : ℝ) := by
      have : (84 / 100 : ℝ) = ((84 / 100 : ℝ) ^ (4 : ℝ)) ^ (1 / 4 : ℝ) := by
        rw [← Real.rpow_mul (by norm_num)]; norm_num
      rw [this]
      exact Real.rpow_le_rpow (by positivity) (by norm_num) (by norm_num)
    norm_num at h9
    linarith
  · have h8 : 8 ≤ cutoff / step := (le_div_iff₀ hs).2 hc
    have hq : 2 ≤ cutoff / lam := (le_div_iff₀ hl0).2 (by linarith)
    have hq2 : cutoff / lam ≤ cutoff / step / 2 := by
      rw [div_div, div_le_div_iff_of_pos_left (by nlinarith) hl0 (by linarith)]; linarith
    have h9 : (1 / 2 : ℝ) ^ ((cutoff / step - cutoff / lam) ^ 2) ≤ (1 / 2 : ℝ) ^ (16 : ℝ) := half_le (by nlinarith)
    have h1 : (1 / 2 : ℝ) ^ ((cutoff / lam) ^ 2) ≤ (1 / 2 : ℝ) ^ (4 : ℝ) := half_le (by nlinarith)
    have h0 : 0 ≤ (1 / 2 : ℝ) ^ ((cutoff / lam) ^ 2) := by positivity
    norm_num at h9 h1
    rw [abs_le]; constructor <;> linarith

/-- A profile of 100 points, 0.5 µm apart, with five waves of 10 µm, filtered with a cutoff of 10 µm. -/
example : ∃ T, |T - 1 / 2| ≤ 1 / 100 ∧ filterProfile .reflect (1 / 2) "lowpass" 10 none false (profileOf 100 fun j => 3 * crest (1 / 2) 10 j + 7)
    = .ok (.one (profileOf 100 fun j => T * (3 * crest (1 / 2) 10 j) + 7)) := by
  obtain ⟨T, h1, -, h2⟩ := C96_profile (cutoff := 10) (step := 1 / 2) (lam := 10) (by norm_num) (by norm_num) (by norm_num)
    (n := 100) (q := 10) (by norm_num) (by norm_num) (by norm_num)
  exact ⟨T, (C96_bands (by norm_num) (by norm_num) h1).1 rfl (by norm_num), (h2 3 7 none false).1⟩

end Surfalize.Props
