import Verif.Lemmas.Areas
import Verif.Spec.Placement
import Mathlib.Algebra.BigOperators.Intervals
import Mathlib.Tactic.IntervalCases

/-!
# C99 — hybrid parameters do not depend on how the sample lies, on the datum or on the unit
-/
set_option linter.unusedSectionVars false
namespace Surfalize.Props
open Surfalize BaseOps HeightParams Areas Finset Spec Container

namespace Placement

/-- Two surfaces that are both measured completely or both not, with related heights, have the same parameter. -/
theorem guard_eq {β : Type} {g g' : Grid (Option ℝ)} (hg : g.WF) (hg' : g'.WF) (F F' : Grid (Option ℝ) → Except Err β)
    (hm : none ∈ flat g ↔ none ∈ flat g')
    (h : HasHeights g g.val → HasHeights g' g'.val → F' g' = F g) : noNonmeasured F' g' = noNonmeasured F g := by
  unfold noNonmeasured
  rw [← mem_none_iff_hasMissing, ← mem_none_iff_hasMissing] at hm
  by_cases hh : hasMissing g = true
  · rw [if_pos hh, if_pos (hm.1 hh)]
  · rw [if_neg hh, if_neg (fun h => hh (hm.2 h))]
    have h1 : none ∉ flat g := fun h => hh ((mem_none_iff_hasMissing g).2 h)
    have h2 : none ∉ flat g' := fun h => hh (hm.2 ((mem_none_iff_hasMissing g').2 h))
    exact h ⟨hg, fun i hi j hj => get_eq_some_val hg h1 hi hj⟩ ⟨hg', fun i hi j hj => get_eq_some_val hg' h2 hi hj⟩

theorem none_iff {g g' : Grid (Option ℝ)} (hg : g.WF) (hg' : g'.WF)
    (h1 : ∀ i < g.ny, ∀ j < g.nx, ∃ i' < g'.ny, ∃ j' < g'.nx, g.get i j = none → g'.get i' j' = none)
    (h2 : ∀ i < g'.ny, ∀ j < g'.nx, ∃ i' < g.ny, ∃ j' < g.nx, g'.get i j = none → g.get i' j' = none) :
    none ∈ flat g ↔ none ∈ flat g' := by
  constructor
  · intro h
    obtain ⟨i, hi, j, hj, e⟩ := mem_flat_get hg h
    obtain ⟨i', hi', j', hj', h⟩ := h1 i hi j hj
    exact h e ▸ get_mem hg' hi' hj'
  · intro h
    obtain ⟨i, hi, j, hj, e⟩ := mem_flat_get hg' h
    obtain ⟨i', hi', j', hj', h⟩ := h2 i hi j hj
    exact h e ▸ get_mem hg hi' hj'

theorem mirror_none {g g' : Grid (Option ℝ)} (hg : g.WF) (h : IsMirror g g') : none ∈ flat g ↔ none ∈ flat g' := by
  obtain ⟨hw, hy, hx, he⟩ := h
  refine none_iff hg hw (fun i hi j hj => ⟨i, by omega, g.nx - 1 - j, by omega, fun e => ?_⟩)
    (fun i hi j hj => ⟨i, by omega, g.nx - 1 - j, by omega, fun e => ?_⟩)
  · rw [he i hi _ (by omega), show g.nx - 1 - (g.nx - 1 - j) = j by omega, e]
  · rw [← he i (by omega) j (by omega), e]

theorem flip_none {g g' : Grid (Option ℝ)} (hg : g.WF) (h : IsFlip g g') : none ∈ flat g ↔ none ∈ flat g' := by
  obtain ⟨hw, hy, hx, he⟩ := h
  refine none_iff hg hw (fun i hi j hj => ⟨g.ny - 1 - i, by omega, j, by omega, fun e => ?_⟩)
    (fun i hi j hj => ⟨g.ny - 1 - i, by omega, j, by omega, fun e => ?_⟩)
  · rw [he _ (by omega) j hj, show g.ny - 1 - (g.ny - 1 - i) = i by omega, e]
  · rw [← he i (by omega) j (by omega), e]

theorem transpose_none {g g' : Grid (Option ℝ)} (hg : g.WF) (h : IsTranspose g g') : none ∈ flat g ↔ none ∈ flat g' := by
  obtain ⟨hw, hy, hx, he⟩ := h
  refine none_iff hg hw (fun i hi j hj => ⟨j, by omega, i, by omega, fun e => ?_⟩)
    (fun i hi j hj => ⟨j, by omega, i, by omega, fun e => ?_⟩)
  · rw [he j hj i hi, e]
  · rw [← he i (by omega) j (by omega), e]

theorem affine_none {g g' : Grid (Option ℝ)} {a b : ℝ} (hg : g.WF) (h : IsAffine g g' a b) :
    none ∈ flat g ↔ none ∈ flat g' := by
  obtain ⟨hw, hy, hx, he⟩ := h
  refine none_iff hg hw (fun i hi j hj => ⟨i, by omega, j, by omega, fun e => ?_⟩)
    (fun i hi j hj => ⟨i, by omega, j, by omega, fun e => ?_⟩)
  · rw [he i hi j hj, e]; rfl
  · rw [he i (by omega) j (by omega)] at e
    cases h : g.get i j with
    | none => rfl
    | some z => rw [h] at e; cases e

/-- The sum of the squared steps of a sequence does not change when it is reversed. -/
theorem sum_reverse (n : Nat) (v w : Nat → ℝ) (s : ℝ) (h : ∀ j < n, w j = v (n - 1 - j)) :
    ∑ j ∈ range (n - 1), ((w (j + 1) - w j) / s) ^ 2 = ∑ j ∈ range (n - 1), ((v (j + 1) - v j) / s) ^ 2 := by
  rw [← sum_range_reflect (fun j => ((v (j + 1) - v j) / s) ^ 2) (n - 1)]
  apply sum_congr rfl
  intro j hj
  rw [mem_range] at hj
  rw [h j (by omega), h (j + 1) (by omega), show n - 1 - 1 - j + 1 = n - 1 - j by omega,
    show n - 1 - (j + 1) = n - 1 - 1 - j by omega, div_pow, div_pow]
  congr 1
  ring

end Placement
open Placement

/-- **C99** (mirror), for `Sdq` (the developed area is not mirror invariant, see below): `Sdq` of the mirrored surface is
that of the surface; both fail for missing points. -/
theorem C99_mirror_partial (g g' : Grid (Option ℝ)) (hg : g.WF) (sx sy : ℝ) (h : IsMirror g g' ∨ IsFlip g g') :
    sdq g' sx sy = sdq g sx sy := by
  rcases h with h | h
  · refine guard_eq hg h.1 _ _ (mirror_none hg h) ?_
    obtain ⟨hw, hy, hx, he⟩ := h
    intro _ _
    have hv : ∀ i < g.ny, ∀ j < g.nx, g'.val i j = g.val i (g.nx - 1 - j) := fun i hi j hj => by
      unfold Grid.val; rw [he i hi j hj]
    simp only [hy, hx]
    congr 6
    · apply sum_congr rfl
      intro i hi
      exact sum_reverse g.nx (fun j => g.val i j) (fun j => g'.val i j) sx fun j hj => hv i (mem_range.1 hi) j hj
    · apply sum_congr rfl
      intro i hi
      rw [← sum_range_reflect]
      apply sum_congr rfl
      intro j hj
      rw [mem_range] at hi hj
      unfold dzY
      rw [hv _ (by omega) _ (by omega), hv _ (by omega) _ (by omega), show g.nx - 1 - (g.nx - 1 - j) = j by omega]
  · refine guard_eq hg h.1 _ _ (flip_none hg h) ?_
    obtain ⟨hw, hy, hx, he⟩ := h
    intro _ _
    have hv : ∀ i < g.ny, ∀ j < g.nx, g'.val i j = g.val (g.ny - 1 - i) j := fun i hi j hj => by
      unfold Grid.val; rw [he i hi j hj]
    simp only [hy, hx]
    congr 6
    · rw [← sum_range_reflect]
      apply sum_congr rfl
      intro i hi
      apply sum_congr rfl
      intro j hj
      rw [mem_range] at hi hj
      unfold dzX
      rw [hv _ (by omega) _ (by omega), hv _ (by omega) _ (by omega), show g.ny - 1 - (g.ny - 1 - i) = i by omega]
    · rw [sum_comm, sum_comm (s := range (g.ny - 1))]
      apply sum_congr rfl
      intro j hj
      exact sum_reverse g.ny (fun i => g.val i j) (fun i => g'.val i j) sy fun i hi => hv i hi j (mem_range.1 hj)

/-- **C99** (transposition). Turning the sample so that rows become columns, with the step sizes exchanged, changes
neither `Sdq` nor the developed area nor `Sdr`. -/
theorem C99_transpose (g g' : Grid (Option ℝ)) (hg : g.WF) (sx sy : ℝ) (h : IsTranspose g g') :
    sdq g' sy sx = sdq g sx sy ∧ surfaceArea g' sy sx = surfaceArea g sx sy ∧ sdr g' sy sx = sdr g sx sy := by
  have hn := transpose_none hg h
  obtain ⟨hw, hy, hx, he⟩ := h
  have hv : ∀ i < g.nx, ∀ j < g.ny, g'.val i j = g.val j i := fun i hi j hj => by
    unfold Grid.val; rw [he i hi j hj]
  have ha : surfaceArea g' sy sx = surfaceArea g sx sy := by
    refine guard_eq hg hw _ _ hn fun _ _ => ?_
    unfold surfaceAreaOf
    rw [hy, hx, sum_comm]
    congr 2
    apply sum_congr rfl
    intro i hi
    apply sum_congr rfl
    intro j hj
    rw [mem_range] at hi hj
    unfold dzX dzY
    rw [hv _ (by omega) _ (by omega), hv _ (by omega) _ (by omega), hv _ (by omega) _ (by omega)]
    congr 2
    ring
  refine ⟨?_, ha, ?_⟩
  · refine guard_eq hg hw _ _ hn fun _ _ => ?_
    simp only [hy, hx]
    rw [mul_comm (g.nx : ℝ) g.ny, add_comm]
    congr 6
    · rw [sum_comm]
      apply sum_congr rfl
      intro i hi
      apply sum_congr rfl
      intro j hj
      rw [mem_range] at hi hj
      unfold dzX dzY
      rw [hv _ (by omega) _ (by omega), hv _ (by omega) _ (by omega)]
    · rw [sum_comm]
      apply sum_congr rfl
      intro i hi
      apply sum_congr rfl
      intro j hj
      rw [mem_range] at hi hj
      unfold dzX dzY
      rw [hv _ (by omega) _ (by omega), hv _ (by omega) _ (by omega)]
  · unfold sdr
    rw [ha, hy, hx]
    unfold projectedArea
    rw [mul_comm (((g.ny : ℝ) - 1) * sy - sy)]

/-- **C99** (datum and inversion). Adding a constant to all heights, or inverting the surface, changes neither `Sdq` nor
the developed area nor `Sdr`. -/
theorem C99_datum (g g' : Grid (Option ℝ)) (hg : g.WF) (sx sy a b : ℝ) (ha1 : a = 1 ∨ a = -1) (h : IsAffine g g' a b) :
    sdq g' sx sy = sdq g sx sy ∧ surfaceArea g' sx sy = surfaceArea g sx sy ∧ sdr g' sx sy = sdr g sx sy := by
  have hn := affine_none hg h
  obtain ⟨hw, hy, hx, he⟩ := h
  have a2 : a ^ 2 = 1 := by rcases ha1 with rfl | rfl <;> norm_num
  have hv : HasHeights g g.val → ∀ i < g.ny, ∀ j < g.nx, g'.val i j = a * g.val i j + b := fun hh i hi j hj => by
    rw [Grid.val, he i hi j hj, hh.2 i hi j hj]; rfl
  have sq : ∀ u v s : ℝ, ((a * u + b - (a * v + b)) / s) ^ 2 = ((u - v) / s) ^ 2 := fun u v s => by
    rw [show (a * u + b - (a * v + b)) / s = a * ((u - v) / s) by ring, mul_pow, a2, one_mul]
  have sq' : ∀ u v s : ℝ, (s * (a * u + b - (a * v + b))) ^ 2 = (s * (u - v)) ^ 2 := fun u v s => by
    rw [show s * (a * u + b - (a * v + b)) = a * (s * (u - v)) by ring, mul_pow, a2, one_mul]
  have ha : surfaceArea g' sx sy = surfaceArea g sx sy := by
    refine guard_eq hg hw _ _ hn fun hh _ => ?_
    unfold surfaceAreaOf
    rw [hy, hx]
    congr 2
    apply sum_congr rfl
    intro i hi
    apply sum_congr rfl
    intro j hj
    rw [mem_range] at hi hj
    unfold dzX dzY
    rw [hv hh _ (by omega) _ (by omega), hv hh _ (by omega) _ (by omega), hv hh _ (by omega) _ (by omega), sq', sq']
  refine ⟨?_, ha, ?_⟩
  · refine guard_eq hg hw _ _ hn fun hh _ => ?_
    simp only [hy, hx]
    congr 6 <;>
    · apply sum_congr rfl
      intro i hi
      apply sum_congr rfl
      intro j hj
      rw [mem_range] at hi hj
      simp only [dzX, dzY]
      rw [hv hh _ (by omega) _ (by omega), hv hh _ (by omega) _ (by omega), sq]
  · unfold sdr
    rw [ha, hy, hx]

/-- **C99** (unit). With heights and steps in another unit (`c` of it are the old one), `Sdq` and `Sdr` keep their
values and the developed area is multiplied by `c²`. -/
theorem C99_unit (g g' : Grid (Option ℝ)) (hg : g.WF) (sx sy c : ℝ) (hc : 0 < c) (h : IsAffine g g' c 0) :
    sdq g' (c * sx) (c * sy) = sdq g sx sy ∧ surfaceArea g' (c * sx) (c * sy) = (surfaceArea g sx sy).map (fun A => c ^ 2 * A) ∧
    sdr g' (c * sx) (c * sy) = sdr g sx sy := by
  have hn := affine_none hg h
  obtain ⟨hw, hy, hx, he⟩ := h
  have hv : HasHeights g g.val → ∀ i < g.ny, ∀ j < g.nx, g'.val i j = c * g.val i j := fun hh i hi j hj => by
    rw [Grid.val, he i hi j hj, hh.2 i hi j hj]; simp
  have sq : ∀ u v s : ℝ, (c * u - c * v) / (c * s) = (u - v) / s := fun u v s => by
    rw [← mul_sub, mul_div_mul_left _ _ hc.ne']
  have rt : ∀ x y z : ℝ, Real.sqrt ((c * sy * (c * x - c * y)) ^ 2 + (c * sx * (c * z - c * y)) ^ 2 + (c * sx * (c * sy)) ^ 2)
      = c ^ 2 * Real.sqrt ((sy * (x - y)) ^ 2 + (sx * (z - y)) ^ 2 + (sx * sy) ^ 2) := fun x y z => by
    rw [show (c * sy * (c * x - c * y)) ^ 2 + (c * sx * (c * z - c * y)) ^ 2 + (c * sx * (c * sy)) ^ 2
      = (c ^ 2) ^ 2 * ((sy * (x - y)) ^ 2 + (sx * (z - y)) ^ 2 + (sx * sy) ^ 2) by ring,
      Real.sqrt_mul (by positivity), Real.sqrt_sq (by positivity)]
  have ha : surfaceArea g' (c * sx) (c * sy) = (surfaceArea g sx sy).map (fun A => c ^ 2 * A) := by
    have e : (surfaceArea g sx sy).map (fun A => c ^ 2 * A)
        = noNonmeasured (fun g => .ok (c ^ 2 * surfaceAreaOf g sx sy)) g := by
      unfold surfaceArea noNonmeasured
      split <;> rfl
    rw [e]
    refine guard_eq hg hw _ _ hn fun hh _ => ?_
    unfold surfaceAreaOf
    rw [hy, hx, mul_left_comm (c ^ 2), mul_sum _ _ (c ^ 2)]
    congr 2
    apply sum_congr rfl
    intro i hi
    rw [mul_sum]
    apply sum_congr rfl
    intro j hj
    rw [mem_range] at hi hj
    unfold dzX dzY
    rw [hv hh _ (by omega) _ (by omega), hv hh _ (by omega) _ (by omega), hv hh _ (by omega) _ (by omega), rt]
    ring
  refine ⟨?_, ha, ?_⟩
  · refine guard_eq hg hw _ _ hn fun hh _ => ?_
    simp only [hy, hx]
    congr 6 <;>
    · apply sum_congr rfl
      intro i hi
      apply sum_congr rfl
      intro j hj
      rw [mem_range] at hi hj
      simp only [dzX, dzY]
      rw [hv hh _ (by omega) _ (by omega), hv hh _ (by omega) _ (by omega), sq]
  · unfold sdr
    rw [ha, hy, hx]
    have hp : projectedArea (((g.nx : ℝ) - 1) * (c * sx)) (((g.ny : ℝ) - 1) * (c * sy)) (c * sx) (c * sy)
        = c ^ 2 * projectedArea (((g.nx : ℝ) - 1) * sx) (((g.ny : ℝ) - 1) * sy) sx sy := by
      unfold projectedArea; ring
    rw [hp]
    cases surfaceArea g sx sy with
    | error e => rfl
    | ok A =>
      show Except.ok _ = Except.ok _
      dsimp only
      have c2 : c ^ 2 ≠ 0 := by positivity
      by_cases h0 : projectedArea (((g.nx : ℝ) - 1) * sx) (((g.ny : ℝ) - 1) * sy) sx sy = 0
      · rw [if_pos h0, if_pos (by rw [h0, mul_zero])]
      · rw [if_neg h0, if_neg (mul_ne_zero c2 h0), mul_div_mul_left _ _ c2]

/-- Every surface can be mirrored, turned, inverted and converted; here a surface of two rows and three columns. -/
example : ∃ g₁ g₂ g₃ g₄ : Grid (Option ℝ), IsMirror ⟨[[some 1, some 2, some 4], [some 0, some 5, some 3]], 3⟩ g₁ ∧
    IsFlip ⟨[[some 1, some 2, some 4], [some 0, some 5, some 3]], 3⟩ g₂ ∧
    IsTranspose ⟨[[some 1, some 2, some 4], [some 0, some 5, some 3]], 3⟩ g₃ ∧
    IsAffine ⟨[[some 1, some 2, some 4], [some 0, some 5, some 3]], 3⟩ g₄ (-1) 5 := by
  refine ⟨Grid.ofFn 2 3 _, Grid.ofFn 2 3 _, Grid.ofFn 3 2 _, Grid.ofFn 2 3 _,
    ⟨ofFn_wf _ _ _, ofFn_ny _ _ _, rfl, fun i hi j hj => get_ofFn (fun i j => Grid.get _ i (3 - 1 - j)) hi hj⟩,
    ⟨ofFn_wf _ _ _, ofFn_ny _ _ _, rfl, fun i hi j hj => get_ofFn (fun i j => Grid.get _ (2 - 1 - i) j) hi hj⟩,
    ⟨ofFn_wf _ _ _, ofFn_ny _ _ _, rfl, fun i hi j hj => get_ofFn (fun i j => Grid.get _ j i) hi hj⟩,
    ⟨ofFn_wf _ _ _, ofFn_ny _ _ _, rfl, fun i hi j hj => get_ofFn (fun i j => (Grid.get _ i j).map _) hi hj⟩⟩

/-- **C99** fails for the developed area: of the four corners of a cell one is not looked at, so a peak in the corner of
the surface is missed or counted depending on how the sample lies. -/
theorem C99_area_not_mirror_invariant :
    ∃ g g' : Grid (Option ℝ), g.WF ∧ IsMirror g g' ∧ surfaceArea g 1 1 = .ok 1 ∧ surfaceArea g' 1 1 = .ok (Real.sqrt 2) ∧
      surfaceArea g 1 1 ≠ surfaceArea g' 1 1 := by
  have h1 : surfaceArea { rows := [[some 0, some 0], [some 0, some 1]], nx := 2 } 1 1 = .ok 1 := by
    simp [surfaceArea, noNonmeasured, hasMissing, surfaceAreaOf, dzX, dzY, Grid.val, Grid.get, Container.flat, Grid.ny]
  have h2 : surfaceArea { rows := [[some 0, some 0], [some 1, some 0]], nx := 2 } 1 1 = .ok (Real.sqrt 2) := by
    simp [surfaceArea, noNonmeasured, hasMissing, surfaceAreaOf, dzX, dzY, Grid.val, Grid.get, Container.flat, Grid.ny]
    norm_num
  refine ⟨{ rows := [[some 0, some 0], [some 0, some 1]], nx := 2 },
    { rows := [[some 0, some 0], [some 1, some 0]], nx := 2 }, ?_, ⟨?_, rfl, rfl, ?_⟩, h1, h2, ?_⟩
  · intro r hr; simp at hr; rcases hr with rfl | rfl <;> rfl
  · intro r hr; simp at hr; rcases hr with rfl | rfl <;> rfl
  · intro i hi j hj
    have hi : i < 2 := hi
    have hj : j < 2 := hj
    interval_cases i <;> interval_cases j <;> rfl
  · rw [h1, h2]
    intro h
    have h := Except.ok.inj h
    have h3 := congrArg (fun x : ℝ => x ^ 2) h
    simp at h3

end Surfalize.Props
