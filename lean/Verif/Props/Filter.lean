import Verif.Lemmas.Filter
import Verif.Spec.Filter
import Mathlib.Tactic.FieldSimp

/-!
# C12, C13 — filter modes and the Gaussian's transmission
-/
set_option linter.unusedSectionVars false
namespace Surfalize.Props
open Surfalize Container ZipContainer BaseOps HeightParams Spec

section C12
open Surfalize.Filter
variable {C : Type → Type} [ZipContainer C] {K : Type} [Field K] [LinearOrder K] [IsStrictOrderedRing K]

/-- **C12** (validation). For every smoothing kernel: `filter` raises (always ValueError) exactly for data with
non-measured points, an unknown mode, `'both'` in place, and `'bandpass'` without `cutoff2` or with
`cutoff2 ≤ cutoff`. -/
theorem C12_validation (smooth : K → C (Option K) → C (Option K)) (mode : String) (c : K) (c2 : Option K)
    (inplace : Bool) (d : C (Option K)) :
    (filter smooth mode c c2 inplace d = .error .valueError ↔
      (none ∈ flat d ∨ mode ∉ ["highpass", "lowpass", "both", "bandpass"] ∨ (mode = "both" ∧ inplace = true) ∨
        (mode = "bandpass" ∧ (c2 = none ∨ ∃ x, c2 = some x ∧ x ≤ c)))) ∧
    (∀ e, filter smooth mode c c2 inplace d = .error e → e = .valueError) := by
  unfold filter noNonmeasured
  have hm := mem_none_iff_hasMissing d
  by_cases hmiss : hasMissing d = true
  · rw [if_pos hmiss]
    exact ⟨⟨fun _ => Or.inl (hm.1 hmiss), fun _ => rfl⟩, fun e he => (Except.error.inj he).symm⟩
  · rw [if_neg hmiss]
    have hno : none ∉ flat d := fun h => hmiss (hm.2 h)
    simp only [hno, false_or]
    by_cases h0 : mode ≠ "highpass" ∧ mode ≠ "lowpass" ∧ mode ≠ "both" ∧ mode ≠ "bandpass"
    · rw [if_pos h0]
      refine ⟨⟨fun _ => Or.inl ?_, fun _ => rfl⟩, fun e he => (Except.error.inj he).symm⟩
      simp only [List.mem_cons, List.not_mem_nil, or_false, not_or]
      exact h0
    · rw [if_neg h0]
      have hmem : mode ∈ ["highpass", "lowpass", "both", "bandpass"] := by
        simp only [List.mem_cons, List.not_mem_nil, or_false]
        by_contra hc
        simp only [not_or] at hc
        exact h0 hc
      simp only [hmem, not_true_eq_false, false_or]
      by_cases h1 : mode = "both" ∧ inplace = true
      · rw [if_pos h1]
        exact ⟨⟨fun _ => Or.inl h1, fun _ => rfl⟩, fun e he => (Except.error.inj he).symm⟩
      · rw [if_neg h1]
        simp only [h1, false_or]
        by_cases h2 : mode = "bandpass"
        · rw [if_pos h2]
          cases c2 with
          | none => simp [h2]
          | some x =>
            by_cases hx : x ≤ c
            · simp [h2, hx]
            · simp [h2, hx]
        · rw [if_neg h2]
          by_cases h3 : mode = "lowpass"
          · simp [h3]
          · by_cases h4 : mode = "highpass"
            · simp [h4]
            · simp [h2, h3, h4]

/-- **C12** (complementarity). For every smoothing kernel that keeps the shape and yields numbers on fully
measured data: the lowpass and highpass results at one cutoff add up to the original heights. -/
theorem C12_complement (smooth : K → C (Option K) → C (Option K))
    (c : K) (ip ip' : Bool) (c2 c2' : Option K) (d h l : C (Option K))
    (hshape : SameShape d (smooth c d)) (hnum : none ∉ flat d → none ∉ flat (smooth c d))
    (hh : filter smooth "highpass" c c2 ip d = .ok (.one h))
    (hl : filter smooth "lowpass" c c2' ip' d = .ok (.one l)) :
    zipW oadd h l = d := by
  unfold filter noNonmeasured at hh hl
  by_cases hmiss : hasMissing d = true
  · rw [if_pos hmiss] at hh; cases hh
  · rw [if_neg hmiss] at hh hl
    have hno : none ∉ flat d := fun h => hmiss ((mem_none_iff_hasMissing d).2 h)
    simp [lowpass] at hl
    simp [highpass] at hh
    subst hl hh
    rw [zipW_left]
    apply zipW_fst _ _ _ hshape
    intro x hx y hy
    cases x with
    | none => exact absurd hx hno
    | some x =>
      cases y with
      | none => exact absurd hy (hnum hno)
      | some y => simp [oadd, osub]

/-- **C12** (`'both'`). Mode `'both'` returns exactly the pair of the highpass and the lowpass result. -/
theorem C12_both (smooth : K → C (Option K) → C (Option K)) (c : K) (c2 : Option K) (d : C (Option K)) (hd : none ∉ flat d) :
    ∃ h l, filter smooth "highpass" c c2 false d = .ok (.one h) ∧ filter smooth "lowpass" c c2 false d = .ok (.one l) ∧
      filter smooth "both" c c2 false d = .ok (.two h l) := by
  have hmiss : ¬ hasMissing d = true := fun h => hd ((mem_none_iff_hasMissing d).1 h)
  unfold filter noNonmeasured
  simp only [if_neg hmiss]
  refine ⟨highpass smooth c d, lowpass smooth c d, ?_, ?_, ?_⟩ <;> simp

/-- **C12** (`'bandpass'`). `'bandpass'` is the lowpass at `cutoff` followed by the highpass at `cutoff2`, for
every kernel that yields numbers on fully measured data. -/
theorem C12_bandpass (smooth : K → C (Option K) → C (Option K))
    (c c2 : K) (hc : c < c2) (ip : Bool) (d : C (Option K)) (hd : none ∉ flat d) (hnum : none ∉ flat (smooth c d)) :
    ∃ l b, filter smooth "lowpass" c none false d = .ok (.one l) ∧ filter smooth "highpass" c2 none false l = .ok (.one b) ∧
      filter smooth "bandpass" c (some c2) ip d = .ok (.one b) := by
  have hmiss : ¬ hasMissing d = true := fun h => hd ((mem_none_iff_hasMissing d).1 h)
  have hmiss2 : ¬ hasMissing (lowpass smooth c d) = true := fun h => hnum ((mem_none_iff_hasMissing _).1 h)
  unfold filter noNonmeasured
  refine ⟨lowpass smooth c d, highpass smooth c2 (lowpass smooth c d), ?_, ?_, ?_⟩
  · simp [hmiss]
  · simp [hmiss2]
  · simp [hmiss, not_le.2 hc]

/-- a kernel (3-point moving average with reflected ends is one; here: halving) and data meeting the hypotheses -/
example : (∀ (c : ℚ) (d : List (Option ℚ)), SameShape d ((fun (_ : ℚ) (d : List (Option ℚ)) => d.map (Option.map (· / 2))) c d)) ∧
    (∀ (c : ℚ) (d : List (Option ℚ)), none ∉ flat d → none ∉ flat ((fun (_ : ℚ) (d : List (Option ℚ)) => d.map (Option.map (· / 2))) c d)) ∧
    none ∉ flat ([some 1, some 3] : List (Option ℚ)) := by
  refine ⟨?_, ?_, ?_⟩
  · intro c d; show d.length = (d.map _).length; simp
  · intro c d h
    show none ∉ d.map _
    simp only [List.mem_map, not_exists, not_and]
    intro x hx hxn
    cases x with
    | none => exact h hx
    | some x => cases hxn
  · decide
end C12

section C13
open Surfalize.Filter

/-- the general transmission law: the code's Gaussian transmits `2^-(cutoff/λ)²` -/
theorem C13_transmission (cutoff step lam : ℝ) (hs : 0 < step) (hl : 0 < lam) :
    Transmits (sigma (cutoff / step)) step lam ((1 / 2 : ℝ) ^ ((cutoff / lam) ^ 2)) := by
  intro ph px
  unfold gaussAverage waveAt
  have e : ∀ u : ℝ, 2 * Real.pi * ((px - u) * step) / lam + ph
      = (2 * Real.pi * (px * step) / lam + ph) - (2 * Real.pi * step / lam) * u := by intro u; ring
  simp_rw [e]
  rw [gaussian_cos]
  congr 1
  rw [Real.rpow_def_of_pos (by norm_num), show Real.log (1 / 2) = - Real.log 2 by rw [one_div, Real.log_inv]]
  congr 1
  have hln : 0 ≤ Real.log 2 / 2 := by have := Real.log_pos (show (1:ℝ) < 2 by norm_num); linarith
  have hsq := Real.sq_sqrt hln
  unfold sigma
  rw [show cutoff / step / Real.pi * Real.sqrt (Real.log 2 / 2) * (2 * Real.pi * step / lam)
    = 2 * (cutoff / lam) * Real.sqrt (Real.log 2 / 2) by field_simp [Real.pi_ne_zero]]
  rw [mul_pow, hsq]
  ring

/-- **C13.** For every positive cutoff and step sizes, on both axes of a surface and along a profile: the
Gaussian used transmits exactly half the amplitude of a wave whose wavelength is the cutoff in micrometres,
more than half for longer and less than half for shorter wavelengths. The kernel is the exact Gaussian;
scipy's truncation at 4σ and discretisation of the kernel are not modelled. -/
theorem C13_cutoff (cutoff stepX stepY : ℝ) (hc : 0 < cutoff) (hx : 0 < stepX) (hy : 0 < stepY) :
    (∀ lam, 0 < lam → ∃ T, Transmits (sigmas2 cutoff stepX stepY).1 stepY lam T ∧
      Transmits (sigmas2 cutoff stepX stepY).2 stepX lam T ∧ Transmits (sigma1 cutoff stepX) stepX lam T ∧
      (T = 1 / 2 ↔ lam = cutoff) ∧ (1 / 2 < T ↔ cutoff < lam) ∧ (T < 1 / 2 ↔ lam < cutoff)) := by
  intro lam hl
  refine ⟨(1 / 2 : ℝ) ^ ((cutoff / lam) ^ 2), C13_transmission _ _ _ hy hl, C13_transmission _ _ _ hx hl,
    C13_transmission _ _ _ hx hl, ?_⟩
  have anti : ∀ a b : ℝ, (1 / 2 : ℝ) ^ a < (1 / 2 : ℝ) ^ b ↔ b < a := fun a b =>
    Real.rpow_lt_rpow_left_iff_of_base_lt_one (by norm_num) (by norm_num)
  have h1 : (1 / 2 : ℝ) ^ (1 : ℝ) = 1 / 2 := Real.rpow_one _
  have hq : 0 < cutoff / lam := div_pos hc hl
  have hgt : (1 / 2 : ℝ) < (1 / 2 : ℝ) ^ ((cutoff / lam) ^ 2) ↔ cutoff < lam := by
    rw [← div_lt_one hl]
    have := anti 1 ((cutoff / lam) ^ 2)
    rw [h1] at this
    rw [this]
    constructor
    · intro h; nlinarith
    · intro h; nlinarith
  have hlt : (1 / 2 : ℝ) ^ ((cutoff / lam) ^ 2) < 1 / 2 ↔ lam < cutoff := by
    rw [← one_lt_div hl]
    have := anti ((cutoff / lam) ^ 2) 1
    rw [h1] at this
    rw [this]
    constructor
    · intro h; nlinarith
    · intro h; nlinarith
  refine ⟨?_, hgt, hlt⟩
  constructor
  · intro h
    rcases lt_trichotomy lam cutoff with h' | h' | h'
    · exact absurd h (ne_of_lt (hlt.2 h'))
    · exact h'
    · exact absurd h (ne_of_gt (hgt.2 h'))
  · intro h
    subst h
    rw [div_self (ne_of_gt hl)]
    norm_num

example : (0 : ℝ) < 2.5 ∧ (0 : ℝ) < 0.1 ∧ (0 : ℝ) < 0.2 := by norm_num
end C13

end Surfalize.Props
