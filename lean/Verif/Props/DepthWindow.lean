import Verif.Props.Depth
/-! # C78: which samples the depth is made of, and the aspect ratio -/
set_option linter.unusedSectionVars false
namespace Surfalize
namespace DepthSpec
open Surfalize

/-- Truncation toward zero, as far as needed here: the integer part of a number. -/
def IsTrunc (x : ℝ) (k : Int) : Prop :=
  (0 ≤ x → (k : ℝ) ≤ x ∧ x < k + 1) ∧ (x < 0 → (k : ℝ) - 1 < x ∧ x ≤ k)

/-- The samples of a profile within `w` of position `c`, provided all of them exist. -/
def windowAt (line : List ℝ) (c w : Int) : Option (List ℝ) :=
  if 0 ≤ c - w ∧ c + w < line.length then
    some ((List.range (2 * w + 1).toNat).map fun t => line.getD ((c - w).toNat + t) 0)
  else none
end DepthSpec

namespace Props
open Surfalize BaseOps Container Fourier Depth DepthSpec

theorem pyInt_isTrunc (x : ℝ) : IsTrunc x (pyInt x) := by
  unfold pyInt IsTrunc
  refine ⟨fun h => ?_, fun h => ?_⟩
  · rw [if_pos h]; exact ⟨Int.floor_le x, Int.lt_floor_add_one x⟩
  · rw [if_neg (not_le.2 h)]
    have := Int.ceil_lt_add_one x
    exact ⟨by linarith, Int.le_ceil x⟩

theorem isTrunc_unique {x : ℝ} {a b : Int} (ha : IsTrunc x a) (hb : IsTrunc x b) : a = b := by
  rcases le_or_gt 0 x with h | h
  · obtain ⟨a1, a2⟩ := ha.1 h
    obtain ⟨b1, b2⟩ := hb.1 h
    have h1 : (a : ℝ) < b + 1 := by linarith
    have h2 : (b : ℝ) < a + 1 := by linarith
    have h1' : a < b + 1 := by exact_mod_cast h1
    have h2' : b < a + 1 := by exact_mod_cast h2
    omega
  · obtain ⟨a1, a2⟩ := ha.2 h
    obtain ⟨b1, b2⟩ := hb.2 h
    have h1 : (a : ℝ) - 1 < b := by linarith
    have h2 : (b : ℝ) - 1 < a := by linarith
    have h1' : a - 1 < b := by exact_mod_cast h1
    have h2' : b - 1 < a := by exact_mod_cast h2
    omega

/-- The height of the extremum number `j` of a profile is the median of the samples around
`first extremum + j · period / 2`, `int(period · sampling_width / 2)` to each side, and it is NaN
exactly when one of these samples lies outside of the profile: samples from the other end of the
profile are never used. -/
theorem C78_window (s : Sinusoid.Sinus) (sw : ℝ) (line : List ℝ) (j : Nat) (c w : Int)
    (hc : IsTrunc (s.firstExtremum + (j : ℝ) * (s.period / 2)) c)
    (hw : IsTrunc (s.period * sw / 2) w) (hpos : 0 ≤ s.period * sw) :
    extremumHeight s sw line j = (windowAt line c w).map median := by
  have hc' : pyInt (1 / 2 * (j : ℝ) * s.period + s.firstExtremum) = c := by
    apply isTrunc_unique (pyInt_isTrunc _)
    convert hc using 1
    ring
  have hw' : pyInt (s.period * sw / 2) = w := isTrunc_unique (pyInt_isTrunc _) hw
  have hw0 : 0 ≤ w := by
    obtain ⟨h1, h2⟩ := hw.1 (by linarith)
    have h3 : (0 : ℝ) < w + 1 := by linarith
    have : (0 : Int) < w + 1 := by exact_mod_cast h3
    omega
  unfold extremumHeight
  simp only [hc', hw']
  by_cases h : 0 ≤ c - w ∧ c + w < line.length
  · rw [if_neg (by push Not; omega)]
    obtain ⟨a, ha⟩ : ∃ a : Nat, c - w = (a : Int) := ⟨(c - w).toNat, by omega⟩
    obtain ⟨b, hb⟩ : ∃ b : Nat, c + w + 1 = (b : Int) := ⟨(c + w + 1).toNat, by omega⟩
    have hwin : pySlice line (c - w) (c + w + 1) =
        (List.range (2 * w + 1).toNat).map fun t => line.getD ((c - w).toNat + t) 0 := by
      rw [ha, hb]
      apply List.ext_getElem?
      intro i
      have hba : (2 * w + 1).toNat = b - a := by omega
      rw [pySlice_getElem?_inside line (by omega) (by omega), List.getElem?_map, hba]
      by_cases hi : i < b - a
      · rw [if_pos hi, List.getElem?_range hi]
        simp only [Option.map_some, Int.toNat_natCast]
        have hlt : a + i < line.length := by omega
        simp [List.getElem?_eq_getElem hlt]
      · rw [if_neg hi, List.getElem?_eq_none (by simpa using hi)]; rfl
    rw [hwin, if_neg]
    · rw [windowAt, if_pos h]; rfl
    · intro hnil
      have := congrArg List.length hnil
      simp at this
      omega
  · rw [if_pos (by push Not at h; by_contra hcon; push Not at hcon; have := h (by omega); omega)]
    rw [windowAt, if_neg h]; rfl

/-- One depth value per period of a profile: the distance between a peak and the valley (or a
valley and the peak) of the fitted sinusoid half a period behind it, NaN if either is unavailable. -/
theorem C78_interval {fit : Fit} {pp sw : ℝ} {n : Nat} {line : List ℝ} {v : List (Option ℝ)}
    (h : depthLine fit pp sw n line = .ok v) :
    v.length = n ∧ ∃ popt, fit line (p0 line pp) = .ok popt ∧ ∃ s : Sinusoid.Sinus, s = Sinusoid.ofPopt popt ∧ ∀ k < n, ∀ d,
      v[k]? = some (some d) ↔ ∃ a b, extremumHeight s sw line (2 * k) = some a ∧
        extremumHeight s sw line (2 * k + 1) = some b ∧ d = |a - b| := by
  unfold depthLine at h
  generalize fit _ _ = fr at h ⊢
  cases fr with
  | error e => simp [Except.bind] at h
  | ok popt =>
    dsimp only [Except.bind] at h
    split at h
    · simp at h
    simp only [Except.ok.injEq] at h
    subst h
    refine ⟨by simp, popt, rfl, Sinusoid.ofPopt popt, rfl, ?_⟩
    intro k hk d
    rw [List.getElem?_map, List.getElem?_range hk]
    simp only [Option.map_some, Option.some.injEq]
    cases extremumHeight (Sinusoid.ofPopt popt) sw line (2 * k) with
    | none => simp [osub]
    | some a =>
      cases extremumHeight (Sinusoid.ofPopt popt) sw line (2 * k + 1) with
      | none => simp [osub]
      | some b => simp [osub, eq_comm]

/-- The aspect ratio is the mean depth (30 profiles, a fifth of the period) divided by the period;
it exists exactly when both do. -/
theorem C78_aspect_ratio (argsort : Argsort) (fit : Fit) (g : Grid (Option ℝ)) (stepX stepY : ℝ)
    (d : Option ℝ) (s : Option ℝ) (p : ℝ)
    (hd : depth argsort fit g stepX stepY 30 (1 / 5) = .ok (d, s))
    (hp : period argsort g (((g.nx : ℝ) - 1) * stepX) (((g.ny : ℝ) - 1) * stepY) = .ok (some p)) :
    aspectRatio argsort fit g stepX stepY = .ok (d.map fun d => d / p) := by
  unfold aspectRatio
  rw [hd, hp]
  cases d <;> rfl

/-- If depth or period fail, so does the aspect ratio, with the same exception. -/
theorem C78_aspect_ratio_error (argsort : Argsort) (fit : Fit) (g : Grid (Option ℝ))
    (stepX stepY : ℝ) (e : Err) :
    (depth argsort fit g stepX stepY 30 (1 / 5) = .error e →
      aspectRatio argsort fit g stepX stepY = .error e) ∧
    (∀ r, depth argsort fit g stepX stepY 30 (1 / 5) = .ok r →
      period argsort g (((g.nx : ℝ) - 1) * stepX) (((g.ny : ℝ) - 1) * stepY) = .error e →
      aspectRatio argsort fit g stepX stepY = .error e) := by
  unfold aspectRatio
  constructor
  · intro h; rw [h]; rfl
  · intro r h1 h2; rw [h1, h2]; rfl

/-- A window at the left edge is not filled from the right end, one inside is used. -/
example : windowAt [1, 2, 3, 4, 5] 0 1 = none ∧
    windowAt [1, 2, 3, 4, 5] 2 1 = some [2, 3, 4] ∧ windowAt [1, 2, 3, 4, 5] 4 1 = none := by
  refine ⟨?_, ?_, ?_⟩
  · simp [windowAt]
  · rw [windowAt, if_pos (by decide)]
    rw [show (2 * (1 : Int) + 1).toNat = 3 from rfl, show ((2 : Int) - 1).toNat = 1 from rfl]
    simp [List.range_succ]
  · simp [windowAt]

end Props
end Surfalize
