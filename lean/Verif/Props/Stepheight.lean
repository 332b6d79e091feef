import Verif.Lemmas.Stepheight
import Verif.Lemmas.Detrend
import Verif.Lemmas.BaseOps
import Mathlib.Tactic.NormNum

/-!
# C34, C35, C68, C72, C73 — Otsu's threshold, step height, cavity volume, step levelling
-/
set_option linter.unusedSectionVars false
namespace Surfalize.Stepheight
open Surfalize Container Spec

variable {K : Type} [Field K] [LinearOrder K] [IsStrictOrderedRing K] [FloorRing K]

theorem measured_upper (t : K) (hs : List (Option K)) :
    measured (hs.filter fun z => above t z) = higher t (measured hs) := by
  unfold measured higher
  rw [List.filter_filterMap, List.filterMap_filter]
  congr 1
  funext z
  cases z with
  | none => simp [above]
  | some z => by_cases h : t < z <;> simp [above, h, Option.filter]

theorem measured_lower (t : K) (hs : List (Option K)) :
    measured (hs.filter fun z => ! above t z) = lower t (measured hs) := by
  unfold measured lower
  rw [List.filter_filterMap, List.filterMap_filter]
  congr 1
  funext z
  cases z with
  | none => simp [above]
  | some z =>
    by_cases h : t < z
    · simp [above, h, Option.filter, not_le.2 h]
    · simp [above, h, Option.filter, not_lt.1 h]

theorem splittable_list {g : Grid (Option K)} (h : Splittable g) :
    ∃ x ∈ measured (flat g), ∃ y ∈ measured (flat g), x ≠ y := by
  obtain ⟨_, x, y, hx, hy, hxy⟩ := h
  exact ⟨x, mem_measured.2 hx, y, mem_measured.2 hy, hxy⟩

theorem splittable_iff (g : Grid (Option K)) :
    Splittable g ↔ none ∉ flat g ∧ ∃ x ∈ measured (flat g), ∃ y ∈ measured (flat g), x ≠ y := by
  constructor
  · exact fun h => ⟨h.1, splittable_list h⟩
  · rintro ⟨h, x, hx, y, hy, hxy⟩
    exact ⟨h, x, y, mem_measured.1 hx, mem_measured.1 hy, hxy⟩

theorem statO_some {f : List K → K} {l : List (Option K)} (h : none ∉ l) (h2 : l ≠ []) :
    statO f l = some (f (measured l)) := by
  unfold statO; rw [if_neg]; push Not; exact ⟨h, h2⟩

theorem medians_eq {g : Grid (Option K)} (h : Splittable g) :
    upperLowerMedian (ownMask (flat g))
      = (some (median (higher (otsu defaultBins (measured (flat g))) (measured (flat g)))),
         some (median (lower (otsu defaultBins (measured (flat g))) (measured (flat g))))) := by
  obtain ⟨mn, mx, h1, h2, hlt, m1, m2, hb⟩ := nonconst_min_max (splittable_list h)
  obtain ⟨t1, t2⟩ := otsu_between (n := defaultBins) (by decide) h1 h2 hlt
  unfold upperLowerMedian
  rw [ownMask_upper, ownMask_lower, statO_some, statO_some, measured_upper, measured_lower]
  · intro hc; exact h.1 (List.mem_filter.1 hc).1
  · intro hc
    have : some mn ∈ (flat g).filter fun z => ! above (otsu defaultBins (measured (flat g))) z :=
      List.mem_filter.2 ⟨mem_measured.1 m1, by simp [above, t1.le]⟩
    rw [hc] at this; cases this
  · intro hc; exact h.1 (List.mem_filter.1 hc).1
  · intro hc
    have : some mx ∈ (flat g).filter fun z => above (otsu defaultBins (measured (flat g))) z :=
      List.mem_filter.2 ⟨mem_measured.1 m2, by simp [above, t2]⟩
    rw [hc] at this; cases this

theorem stepheight_eq {g : Grid (Option K)} (h : Splittable g) :
    stepheight g = some (median (higher (otsu defaultBins (measured (flat g))) (measured (flat g)))
      - median (lower (otsu defaultBins (measured (flat g))) (measured (flat g)))) := by
  unfold stepheight stepheightWith
  rw [medians_eq h]
  rfl

theorem stepheight_none {g : Grid (Option K)} (h : ¬ Splittable g) : stepheight g = none := by
  cases hs : stepheight g with
  | none => rfl
  | some s =>
    obtain ⟨_, _, _, _, _, _, _, hn, hx⟩ := stepheight_some hs
    exact absurd ((splittable_iff g).2 ⟨hn, hx⟩) h

theorem sortAsc_affine (l : List K) {a : K} (ha : 0 < a) (b : K) :
    sortAsc (l.map fun x => a * x + b) = (sortAsc l).map fun x => a * x + b := by
  have hp : (sortAsc (l.map fun x => a * x + b)).Perm ((sortAsc l).map fun x => a * x + b) :=
    (sortAsc_perm _).trans ((sortAsc_perm l).symm.map _)
  refine hp.eq_of_pairwise' (sortAsc_sorted _) ?_
  rw [List.pairwise_map]
  exact (sortAsc_sorted l).imp fun h => by nlinarith

theorem median_affine {l : List K} (hne : l ≠ []) {a : K} (ha : 0 < a) (b : K) :
    median (l.map fun x => a * x + b) = a * median l + b := by
  have hpos := List.length_pos_of_ne_nil hne
  have hlen := sortAsc_length l
  unfold median
  simp only
  rw [sortAsc_affine l ha b, List.length_map]
  have hg : ∀ i, i < l.length → ((sortAsc l).map fun x => a * x + b).getD i 0 = a * (sortAsc l).getD i 0 + b := by
    intro i hi
    rw [getD_of_lt _ (by simpa [hlen] using hi), getD_of_lt _ (by simpa [hlen] using hi), List.getElem_map]
  split
  · rw [hg _ (by omega)]
  · rw [hg _ (by omega), hg _ (by omega)]; ring

theorem median_perm {l l' : List K} (h : l.Perm l') : median l = median l' := by
  unfold median
  simp only
  rw [sortAsc_eq_of_perm h, h.length_eq]

theorem higher_affine (t : K) (l : List K) {a : K} (ha : 0 < a) (b : K) :
    higher (a * t + b) (l.map fun x => a * x + b) = (higher t l).map fun x => a * x + b := by
  unfold higher
  rw [List.filter_map]
  congr 1
  apply List.filter_congr
  intro x _
  simp only [Function.comp_apply, add_lt_add_iff_right, mul_lt_mul_iff_right₀ ha]

theorem lower_affine (t : K) (l : List K) {a : K} (ha : 0 < a) (b : K) :
    lower (a * t + b) (l.map fun x => a * x + b) = (lower t l).map fun x => a * x + b := by
  unfold lower
  rw [List.filter_map]
  congr 1
  apply List.filter_congr
  intro x _
  simp only [Function.comp_apply, add_le_add_iff_right, mul_le_mul_iff_right₀ ha]

theorem classes_ne_nil {g : Grid (Option K)} (h : Splittable g) :
    higher (otsu defaultBins (measured (flat g))) (measured (flat g)) ≠ [] ∧
    lower (otsu defaultBins (measured (flat g))) (measured (flat g)) ≠ [] := by
  obtain ⟨mn, mx, h1, h2, hlt, m1, m2, hb⟩ := nonconst_min_max (splittable_list h)
  obtain ⟨t1, t2⟩ := otsu_between (n := defaultBins) (by decide) h1 h2 hlt
  constructor
  · exact List.ne_nil_of_mem (List.mem_filter.2 ⟨m2, by simpa using t2⟩)
  · exact List.ne_nil_of_mem (List.mem_filter.2 ⟨m1, by simpa using t1.le⟩)

/-- bins up to `k` hold the points below the edge `k + 1` -/
theorem binOf_le_iff {n k : Nat} (hk : k + 1 < n) {mn mx v : K} (h : mn < mx) (hv : mn ≤ v) :
    binOf n mn mx v ≤ k ↔ v < mn + ((k : K) + 1) * ((mx - mn) / n) := by
  have hn : (0 : K) < n := by exact_mod_cast (by omega : 0 < n)
  have hd : 0 < mx - mn := by linarith
  have h0 : 0 ≤ (v - mn) * n / (mx - mn) := div_nonneg (mul_nonneg (by linarith) hn.le) hd.le
  have hf : 0 ≤ ⌊(v - mn) * n / (mx - mn)⌋ := Int.floor_nonneg.2 h0
  unfold binOf
  have e1 : min (⌊(v - mn) * n / (mx - mn)⌋).toNat (n - 1) ≤ k ↔ ⌊(v - mn) * n / (mx - mn)⌋ < (k : ℤ) + 1 := by
    omega
  rw [e1, Int.floor_lt]
  push_cast
  rw [div_lt_iff₀ hd]
  constructor
  · intro hh
    have : (v - mn) < ((k : K) + 1) * (mx - mn) / n := by rw [lt_div_iff₀ hn]; exact hh
    have e : ((k : K) + 1) * (mx - mn) / n = ((k : K) + 1) * ((mx - mn) / n) := by ring
    linarith
  · intro hh
    have e : ((k : K) + 1) * ((mx - mn) / n) = ((k : K) + 1) * (mx - mn) / n := by ring
    have : (v - mn) < ((k : K) + 1) * (mx - mn) / n := by linarith
    rwa [lt_div_iff₀ hn] at this

end Surfalize.Stepheight

namespace Surfalize.Props
open Surfalize Container Spec Stepheight

variable {K : Type} [Field K] [LinearOrder K] [IsStrictOrderedRing K] [FloorRing K]

/-- **C34** (threshold). For values that are not all equal, the Otsu threshold lies strictly between the smallest
and the largest value. -/
theorem C34_threshold {nbins : Nat} (hn : 2 ≤ nbins) (l : List K) (h : ∃ x ∈ l, ∃ y ∈ l, x ≠ y) :
    (∃ x ∈ l, x < otsu nbins l) ∧ (∃ y ∈ l, otsu nbins l < y) := by
  obtain ⟨mn, mx, h1, h2, hlt, m1, m2, _⟩ := nonconst_min_max h
  obtain ⟨t1, t2⟩ := otsu_between hn h1 h2 hlt
  exact ⟨⟨mn, m1, t1⟩, ⟨mx, m2, t2⟩⟩

/-- **C34** (classes). On a fully measured surface that is not flat, the mask puts every point into one of two
classes, both non-empty, and every point of the upper class is higher than every point of the lower one. -/
theorem C34_classes (g : Grid (Option K)) (h : Splittable g) :
    (ownMask (flat g)).map Prod.fst = flat g ∧
    (∃ z, (some z, true) ∈ ownMask (flat g)) ∧ (∃ z, (some z, false) ∈ ownMask (flat g)) ∧
    ∀ u l, (some u, true) ∈ ownMask (flat g) → (some l, false) ∈ ownMask (flat g) → l < u := by
  obtain ⟨⟨x, hx, hx'⟩, y, hy, hy'⟩ := C34_threshold (nbins := defaultBins) (by decide) _ (splittable_list h)
  have hm : ∀ z b, (some z, b) ∈ ownMask (flat g) ↔
      some z ∈ flat g ∧ b = decide (otsu defaultBins (measured (flat g)) < z) := by
    intro z b
    unfold ownMask
    rw [maskFn_eq, List.mem_map]
    constructor
    · rintro ⟨w, hw, e⟩
      simp only [Prod.mk.injEq] at e
      obtain ⟨rfl, rfl⟩ := e
      exact ⟨hw, by simp [above]⟩
    · rintro ⟨hw, rfl⟩
      exact ⟨some z, hw, by simp [above]⟩
  refine ⟨ownMask_fst _, ⟨y, (hm _ _).2 ⟨mem_measured.1 hy, by simp [hy']⟩⟩,
    ⟨x, (hm _ _).2 ⟨mem_measured.1 hx, by simp [hx'.le]⟩⟩, ?_⟩
  intro u l hu hl
  have a1 := ((hm _ _).1 hu).2
  have a2 := ((hm _ _).1 hl).2
  simp only [Bool.true_eq, Bool.false_eq, decide_eq_true_eq, decide_eq_false_iff_not, not_lt] at a1 a2
  linarith

/-- **C34** (step height). `stepheight()` of a fully measured, non-flat surface is the median of the heights above
some level minus the median of the others, the level lying strictly between lowest and highest point; it is positive.
-/
theorem C34_stepheight (g : Grid (Option K)) (h : Splittable g) :
    ∃ t s, stepheight g = some s ∧ 0 < s ∧
      s = median (higher t (measured (flat g))) - median (lower t (measured (flat g))) ∧
      (∃ z, some z ∈ flat g ∧ z < t) ∧ ∃ z, some z ∈ flat g ∧ t < z := by
  obtain ⟨⟨x, hx, hx'⟩, y, hy, hy'⟩ := C34_threshold (nbins := defaultBins) (by decide) _ (splittable_list h)
  obtain ⟨n1, n2⟩ := classes_ne_nil h
  refine ⟨otsu defaultBins (measured (flat g)), _, stepheight_eq h, ?_, rfl, ⟨x, mem_measured.1 hx, hx'⟩,
    y, mem_measured.1 hy, hy'⟩
  have a1 := median_gt n1 (t := otsu defaultBins (measured (flat g))) (by
    intro z hz; simpa using (List.mem_filter.1 hz).2)
  have a2 := median_le n2 (t := otsu defaultBins (measured (flat g))) (by
    intro z hz; simpa using (List.mem_filter.1 hz).2)
  linarith

/-- On flat surfaces and on surfaces with missing points `stepheight()` is NaN. -/
theorem C34_undefined (g : Grid (Option K)) (h : ¬ Splittable g) : stepheight g = none := stepheight_none h

/-- Scaling the heights by `a > 0` and shifting them by `b` multiplies the step height by `a`. -/
theorem C34_affine (g : Grid (Option K)) {a : K} (ha : 0 < a) (b : K) :
    stepheight (Container.map (Option.map fun z => a * z + b) g) = (stepheight g).map fun s => a * s := by
  have hf : flat (Container.map (Option.map fun z => a * z + b) g) = (flat g).map (Option.map fun z => a * z + b) :=
    Container.flat_map _ _
  have hs : Splittable (Container.map (Option.map fun z => a * z + b) g) ↔ Splittable g := by
    rw [splittable_iff, splittable_iff, hf, measured_map_map]
    constructor
    · rintro ⟨h1, x, hx, y, hy, hxy⟩
      obtain ⟨x', hx', rfl⟩ := List.mem_map.1 hx
      obtain ⟨y', hy', rfl⟩ := List.mem_map.1 hy
      refine ⟨fun hc => h1 (List.mem_map.2 ⟨none, hc, rfl⟩), x', hx', y', hy', ?_⟩
      rintro rfl; exact hxy rfl
    · rintro ⟨h1, x, hx, y, hy, hxy⟩
      refine ⟨?_, _, List.mem_map.2 ⟨x, hx, rfl⟩, _, List.mem_map.2 ⟨y, hy, rfl⟩, ?_⟩
      · intro hc
        obtain ⟨z, hz, e⟩ := List.mem_map.1 hc
        cases z with
        | none => exact h1 hz
        | some z => cases e
      · intro e; exact hxy (mul_left_cancel₀ ha.ne' (add_right_cancel e))
  by_cases h : Splittable g
  · obtain ⟨n1, n2⟩ := classes_ne_nil h
    rw [stepheight_eq h, stepheight_eq (hs.2 h), hf, measured_map_map,
      otsu_affine (by decide) (splittable_list h) ha b, higher_affine _ _ ha, lower_affine _ _ ha,
      median_affine n1 ha, median_affine n2 ha, Option.map_some]
    congr 1; ring
  · rw [stepheight_none h, stepheight_none (fun hc => h (hs.1 hc))]; rfl

/-- The step height depends only on the heights and how often each occurs, not on where they are. -/
theorem C34_arrangement (g g' : Grid (Option K)) (h : (flat g).Perm (flat g')) : stepheight g = stepheight g' := by
  have hp : (measured (flat g)).Perm (measured (flat g')) := h.filterMap id
  have hs : Splittable g ↔ Splittable g' := by
    unfold Splittable; simp only [h.mem_iff]
  by_cases hg : Splittable g
  · rw [stepheight_eq hg, stepheight_eq (hs.1 hg), otsu_perm hp]
    congr 2
    · exact median_perm (hp.filter _)
    · exact median_perm (hp.filter _)
  · rw [stepheight_none hg, stepheight_none (fun hc => hg (hs.2 hc))]

/-- Non-vacuity: a crater surface is splittable. -/
example : Splittable ({ rows := [[some 5, some 5, some 5], [some 5, some 1, some 5]], nx := 3 } : Grid (Option ℚ)) :=
  ⟨by decide, 5, 1, by decide, by decide, by norm_num⟩

/-! ### C72: Otsu's criterion -/

/-- **C72** (optimality). For `nbins` equal bins on the range `[m, M]` of the values, each value represented by the
centre of its bin: the returned threshold is the centre of a bin `i`, and no other cut at an inner bin edge gives a
larger between-class variance than the cut at the upper edge of bin `i`. -/
theorem C72_optimal {nbins : Nat} (hn : 2 ≤ nbins) (l : List K) {m M : K} (hm : m ∈ l) (hM : M ∈ l)
    (hb : ∀ x ∈ l, m ≤ x ∧ x ≤ M) (hlt : m < M) :
    let w := (M - m) / nbins
    let rep := fun v => m + (((min ⌊(v - m) / w⌋ (nbins - 1) : ℤ) : K) + 1 / 2) * w
    ∃ i : Nat, i + 1 < nbins ∧ otsu nbins l = m + ((i : K) + 1 / 2) * w ∧
      ∀ k : Nat, k + 1 < nbins →
        betweenVariance l rep (fun v => decide (v < m + ((k : K) + 1) * w))
          ≤ betweenVariance l rep (fun v => decide (v < m + ((i : K) + 1) * w)) := by
  intro w rep
  have h1 : l.min? = some m := min?_spec.2 ⟨hm, fun x hx => (hb x hx).1⟩
  have h2 : l.max? = some M := max?_spec.2 ⟨hM, fun x hx => (hb x hx).2⟩
  have hi := otsuIdx_lt hn m M l
  have hnp : (0 : K) < nbins := by exact_mod_cast (by omega : 0 < nbins)
  have hrep : ∀ v ∈ l, (centers nbins m M).getD (binOf nbins m M v) 0 = rep v := by
    intro v hv
    rw [centers_getD (binOf_lt (by omega) _ _ _)]
    have e0 : (v - m) / w = (v - m) * nbins / (M - m) := by
      have : M - m ≠ 0 := by linarith
      simp only [w]; field_simp
    have h0 : 0 ≤ (v - m) * nbins / (M - m) :=
      div_nonneg (mul_nonneg (by linarith [(hb v hv).1]) hnp.le) (by linarith)
    have hf : 0 ≤ ⌊(v - m) * nbins / (M - m)⌋ := Int.floor_nonneg.2 h0
    have e1 : ((binOf nbins m M v : Nat) : ℤ) = min ⌊(v - m) / w⌋ (nbins - 1) := by
      rw [e0]; unfold binOf; omega
    have e2 : ((binOf nbins m M v : Nat) : K) = ((min ⌊(v - m) / w⌋ (nbins - 1) : ℤ) : K) := by
      rw [← e1]; simp
    show m + (((binOf nbins m M v : Nat) : K) + 1 / 2) * w = _
    rw [e2]
  have hv : ∀ k, k + 1 < nbins → variance12 (counts nbins m M l) (centers nbins m M) k
      = betweenVariance l rep (fun v => decide (v < m + ((k : K) + 1) * w)) := by
    intro k hk
    rw [variance12_eq (K := K) (n := nbins) (by omega) _ _ _ (by omega)]
    have c1 : (l.filter fun v => decide (binOf nbins m M v ≤ k)) = l.filter fun v => decide (v < m + ((k : K) + 1) * w) := by
      apply List.filter_congr
      intro v hv
      rw [decide_eq_decide]
      exact binOf_le_iff hk hlt (hb v hv).1
    have c2 : (l.filter fun v => ! decide (binOf nbins m M v ≤ k)) = l.filter fun v => ! decide (v < m + ((k : K) + 1) * w) := by
      apply List.filter_congr
      intro v hv
      congr 1
      rw [decide_eq_decide]
      exact binOf_le_iff hk hlt (hb v hv).1
    unfold betweenVariance
    simp only [c1, c2]
    congr 3
    · congr 1
      apply congrArg List.sum
      apply List.map_congr_left
      intro v hv
      exact hrep v (List.mem_filter.1 hv).1
    · congr 1
      apply congrArg List.sum
      apply List.map_congr_left
      intro v hv
      exact hrep v (List.mem_filter.1 hv).1
  refine ⟨otsuIdx nbins m M l, by omega, ?_, ?_⟩
  · rw [otsu_eq h1 h2 hlt, centers_getD (by omega)]
  · intro k hk
    rw [← hv k hk, ← hv _ (by omega)]
    have := argmax_ge (l := (List.range (nbins - 1)).map (variance12 (counts nbins m M l) (centers nbins m M)))
      (by simp; omega) (j := k) (by simp; omega)
    simpa [otsuIdx] using this

/-- **C72** (equivariance). Scaling and shifting the values does the same to the threshold. -/
theorem C72_affine {nbins : Nat} (hn : 2 ≤ nbins) (l : List K) (h : ∃ x ∈ l, ∃ y ∈ l, x ≠ y) {a : K} (ha : 0 < a)
    (b : K) : otsu nbins (l.map fun x => a * x + b) = a * otsu nbins l + b := otsu_affine hn h ha b

/-- **C72** (order). The order of the values is irrelevant. -/
theorem C72_order (nbins : Nat) {l l' : List K} (h : l.Perm l') : otsu nbins l = otsu nbins l' := otsu_perm h

/-- The threshold is the *centre* of the bin below the optimal cut, not the cut: values in the upper half of that bin
are classified differently from the optimal classes. With two bins on `[0, 2]` the only cut is at 1, the value `4/5`
belongs to the lower class, yet the threshold is `1/2`. -/
theorem C72_threshold_not_cut :
    otsu 2 [(0 : ℚ), 4 / 5, 2] = 1 / 2 ∧ ∃ v ∈ [(0 : ℚ), 4 / 5, 2], v < 1 ∧ otsu 2 [(0 : ℚ), 4 / 5, 2] < v := by
  have h : otsu 2 [(0 : ℚ), 4 / 5, 2] = 1 / 2 := by decide +kernel
  exact ⟨h, 4 / 5, by simp, by norm_num, by rw [h]; norm_num⟩

/-- Non-vacuity. -/
example : (0 : ℚ) ∈ [(0 : ℚ), 4 / 5, 2] ∧ (2 : ℚ) ∈ [(0 : ℚ), 4 / 5, 2] ∧ ∀ x ∈ [(0 : ℚ), 4 / 5, 2], 0 ≤ x ∧ x ≤ 2 := by
  refine ⟨by simp, by simp, ?_⟩
  intro x hx
  simp only [List.mem_cons, List.not_mem_nil, or_false] at hx
  rcases hx with rfl | rfl | rfl <;> norm_num

/-! ### C35: cavity volume -/

/-- What the cavity volume is on a fully measured, non-flat surface: with `u` the upper median and `s` the step
height, the sum of the depths `u - z` of the points lower than `u - threshold * s`, times the pixel area. -/
theorem C35_value (g : Grid (Option K)) (h : Splittable g) :
    ∃ u s : K, (upperLowerMedian (ownMask (flat g))).1 = some u ∧ stepheight g = some s ∧ 0 < s ∧
      ∀ threshold dx dy, cavityVolume g threshold dx dy
        = (((measured (flat g)).filter fun z => decide (z < u - threshold * s)).map fun z => u - z).sum * dx * dy := by
  obtain ⟨_, s, hs, hpos, _⟩ := C34_stepheight g h
  obtain ⟨u, l, hu, _, _, _⟩ := stepheight_some hs
  refine ⟨u, s, hu, hs, hpos, ?_⟩
  intro t dx dy
  unfold cavityVolume cavityVolumeWith
  have hs' : stepheightWith (ownMask (flat g)) = some s := hs
  rw [hu, hs']
  simp only [ownMask_fst]

/-- On other surfaces (flat, or with missing points) the code reports the volume 0. -/
theorem C35_undefined (g : Grid (Option K)) (h : ¬ Splittable g) (threshold dx dy : K) :
    cavityVolume g threshold dx dy = 0 := by
  have := stepheight_none h
  unfold cavityVolume cavityVolumeWith
  have hs' : stepheightWith (ownMask (flat g)) = none := this
  rw [hs']
  split
  · rename_i h; cases h
  · rfl

theorem depthSum_nonneg (l : List K) {u c : K} (h : c ≤ u) :
    0 ≤ ((l.filter fun z => decide (z < c)).map fun z => u - z).sum := by
  apply HeightParams.sum_nonneg_map
  intro z hz
  have : z < c := by simpa using (List.mem_filter.1 hz).2
  linarith

theorem depthSum_mono (l : List K) {u c c' : K} (h : c ≤ c') (h' : c' ≤ u) :
    ((l.filter fun z => decide (z < c)).map fun z => u - z).sum ≤ ((l.filter fun z => decide (z < c')).map fun z => u - z).sum := by
  induction l with
  | nil => simp
  | cons z l ih =>
    by_cases h1 : z < c
    · have h2 : z < c' := lt_of_lt_of_le h1 h
      simp only [h1, h2, decide_true, List.filter_cons_of_pos, List.map_cons, List.sum_cons]
      linarith
    · by_cases h2 : z < c'
      · simp only [h1, h2, decide_true, decide_false, List.filter_cons_of_pos, List.map_cons, List.sum_cons,
          Bool.false_eq_true, not_false_eq_true, List.filter_cons_of_neg]
        linarith
      · simpa only [h1, h2, decide_false, Bool.false_eq_true, not_false_eq_true, List.filter_cons_of_neg] using ih

/-- **C35** (non-negative). -/
theorem C35_nonneg (g : Grid (Option K)) {threshold dx dy : K} (ht : 0 ≤ threshold) (hx : 0 ≤ dx) (hy : 0 ≤ dy) :
    0 ≤ cavityVolume g threshold dx dy := by
  by_cases h : Splittable g
  · obtain ⟨u, s, _, _, hpos, hv⟩ := C35_value g h
    rw [hv]
    have := depthSum_nonneg (measured (flat g)) (u := u) (c := u - threshold * s) (by nlinarith)
    positivity
  · rw [C35_undefined g h]

/-- **C35** (monotone). A larger threshold never gives a larger volume. -/
theorem C35_antitone (g : Grid (Option K)) {t t' dx dy : K} (ht : 0 ≤ t) (htt : t ≤ t') (hx : 0 ≤ dx) (hy : 0 ≤ dy) :
    cavityVolume g t' dx dy ≤ cavityVolume g t dx dy := by
  by_cases h : Splittable g
  · obtain ⟨u, s, _, _, hpos, hv⟩ := C35_value g h
    rw [hv, hv]
    have := depthSum_mono (measured (flat g)) (u := u) (c := u - t' * s) (c' := u - t * s) (by nlinarith) (by nlinarith)
    exact mul_le_mul_of_nonneg_right (mul_le_mul_of_nonneg_right this hx) hy
  · rw [C35_undefined g h, C35_undefined g h]

/-- **C35** (scaling). The volume is proportional to both steps. -/
theorem C35_steps (g : Grid (Option K)) (threshold dx dy a b : K) :
    cavityVolume g threshold (a * dx) (b * dy) = a * b * cavityVolume g threshold dx dy := by
  by_cases h : Splittable g
  · obtain ⟨u, s, _, _, _, hv⟩ := C35_value g h
    rw [hv, hv]; ring
  · rw [C35_undefined g h, C35_undefined g h, mul_zero]

/-- The sum of depths follows the heights. -/
theorem depthSum_affine (l : List K) {a : K} (ha : 0 < a) (b u c : K) :
    (((l.map fun x => a * x + b).filter fun z => decide (z < a * c + b)).map fun z => a * u + b - z).sum
      = a * ((l.filter fun z => decide (z < c)).map fun z => u - z).sum := by
  rw [List.filter_map, List.map_map, ← sum_map_mul_const, List.map_map]
  have e : (l.filter ((fun z => decide (z < a * c + b)) ∘ fun x => a * x + b)) = l.filter fun z => decide (z < c) := by
    apply List.filter_congr
    intro x _
    simp only [Function.comp_apply, add_lt_add_iff_right, mul_lt_mul_iff_right₀ ha]
  rw [e]
  congr 1
  apply List.map_congr_left
  intro z _
  simp only [Function.comp_apply]
  ring

theorem splittable_affine (g : Grid (Option K)) {a : K} (ha : 0 < a) (b : K) :
    Splittable (Container.map (Option.map fun z => a * z + b) g) ↔ Splittable g := by
  rw [splittable_iff, splittable_iff, Container.flat_map, measured_map_map]
  constructor
  · rintro ⟨h1, x, hx, y, hy, hxy⟩
    obtain ⟨x', hx', rfl⟩ := List.mem_map.1 hx
    obtain ⟨y', hy', rfl⟩ := List.mem_map.1 hy
    refine ⟨fun hc => h1 (List.mem_map.2 ⟨none, hc, rfl⟩), x', hx', y', hy', ?_⟩
    rintro rfl; exact hxy rfl
  · rintro ⟨h1, x, hx, y, hy, hxy⟩
    refine ⟨?_, _, List.mem_map.2 ⟨x, hx, rfl⟩, _, List.mem_map.2 ⟨y, hy, rfl⟩, ?_⟩
    · intro hc
      obtain ⟨z, hz, e⟩ := List.mem_map.1 hc
      cases z with
      | none => exact h1 hz
      | some z => cases e
    · intro e; exact hxy (mul_left_cancel₀ ha.ne' (add_right_cancel e))

/-- **C35** (datum and unit of the heights). Multiplying the heights by `a > 0` and shifting them by `b` multiplies the
cavity volume by `a`. -/
theorem C35_affine (g : Grid (Option K)) {a : K} (ha : 0 < a) (b threshold dx dy : K) :
    cavityVolume (Container.map (Option.map fun z => a * z + b) g) threshold dx dy = a * cavityVolume g threshold dx dy := by
  by_cases h : Splittable g
  · have h' := (splittable_affine g ha b).2 h
    obtain ⟨u, s, hu, hs, _, hv⟩ := C35_value g h
    obtain ⟨u', s', hu', hs', _, hv'⟩ := C35_value _ h'
    obtain ⟨n1, n2⟩ := classes_ne_nil h
    have es : s' = a * s := by
      rw [C34_affine g ha b, hs] at hs'
      exact (Option.some.inj hs').symm
    have eu : u' = a * u + b := by
      rw [medians_eq h'] at hu'
      rw [medians_eq h] at hu
      simp only [Option.some.injEq] at hu hu'
      rw [← hu', ← hu, Container.flat_map, measured_map_map, otsu_affine (by decide) (splittable_list h) ha b,
        higher_affine _ _ ha, median_affine n1 ha]
    rw [hv, hv', Container.flat_map, measured_map_map, es, eu,
      show a * u + b - threshold * (a * s) = a * (u - threshold * s) + b by ring, depthSum_affine _ ha]
    ring
  · rw [C35_undefined g h, C35_undefined _ (fun hc => h ((splittable_affine g ha b).1 hc)), mul_zero]

/-- **C35** (arrangement). The cavity volume depends only on the heights and how often each occurs. -/
theorem C35_arrangement (g g' : Grid (Option K)) (h : (flat g).Perm (flat g')) (threshold dx dy : K) :
    cavityVolume g threshold dx dy = cavityVolume g' threshold dx dy := by
  have hp : (measured (flat g)).Perm (measured (flat g')) := h.filterMap id
  have hss : Splittable g ↔ Splittable g' := by
    unfold Splittable; simp only [h.mem_iff]
  by_cases hg : Splittable g
  · obtain ⟨u, s, hu, hs, _, hv⟩ := C35_value g hg
    obtain ⟨u', s', hu', hs', _, hv'⟩ := C35_value g' (hss.1 hg)
    have es : s = s' := by rw [C34_arrangement g g' h, hs'] at hs; exact (Option.some.inj hs).symm
    have eu : u = u' := by
      rw [medians_eq hg] at hu
      rw [medians_eq (hss.1 hg)] at hu'
      simp only [Option.some.injEq] at hu hu'
      rw [← hu, ← hu', otsu_perm hp]
      exact median_perm (hp.filter _)
    rw [hv, hv', ← es, ← eu]
    rw [((hp.filter _).map fun z => u - z).sum_eq]
  · rw [C35_undefined g hg, C35_undefined g' (fun hc => hg (hss.2 hc))]

/-- With heights and steps in another unit (`c` of it are the old one), the cavity volume is multiplied by `c³`. -/
theorem C35_unit (g : Grid (Option K)) {c : K} (hc : 0 < c) (threshold dx dy : K) :
    cavityVolume (Container.map (Option.map fun z => c * z + 0) g) threshold (c * dx) (c * dy)
      = c ^ 3 * cavityVolume g threshold dx dy := by
  rw [C35_affine g hc, C35_steps]; ring

/-! ### C73: step levelling -/

theorem mask_valid (g : Grid (Option K)) (mask : Option K → Bool) :
    (Detrend.validPixels g).filter (fun p => mask (some p.2))
      = (pixels g.ny g.nx).filterMap fun p =>
          match g.get p.1 p.2 with | none => none | some z => if mask (some z) then some (p, z) else none := by
  unfold Detrend.validPixels
  induction pixels g.ny g.nx with
  | nil => rfl
  | cons p l ih =>
    cases hz : g.get p.1 p.2 with
    | none => simpa [List.filterMap_cons, hz] using ih
    | some z =>
      by_cases hm : mask (some z) = true
      · simp [hz, hm, ih]
      · simp [hz, hm, ih]

/-- **C73**. `stepheight_level()` on a surface of at least one point subtracts a plane: there are coefficients
`a, b, c` such that every height loses `a x + b y + c` (in pixel coordinates); the plane averages to zero over the
whole grid; and up to the constant it is a least squares plane of the upper points: no other plane plus the constant
`m` fits them better. Non-measured points stay so. -/
theorem C73_level {lstsq : Detrend.Lstsq K} (hl : IsLstsq lstsq) (g : Grid (Option K)) (hny : 0 < g.ny) (hnx : 0 < g.nx) :
    let upper := fun z => decide (otsu defaultBins (measured (flat g)) < z)
    let sq := fun f : Nat → Nat → K => ∑ i ∈ Finset.range g.ny, ∑ j ∈ Finset.range g.nx,
      match g.get i j with | none => 0 | some z => if upper z then (z - f i j) ^ 2 else 0
    ∃ a b c m : K,
      (∀ i < g.ny, ∀ j < g.nx, (levelData lstsq g).get i j = (g.get i j).map fun z => z - (a * j + b * i + c)) ∧
      (∑ i ∈ Finset.range g.ny, ∑ j ∈ Finset.range g.nx, (a * j + b * i + c)) = 0 ∧
      ∀ a' b' c' : K, sq (fun i j => a * j + b * i + c + m) ≤ sq (fun i j => a' * j + b' * i + c') := by
  intro upper sq
  set v := (Detrend.validPixels g).filter fun p => maskFn defaultBins (flat g) (some p.2) with hvdef
  set cs := lstsq 3 (v.map fun p => [(p.1.2 : K), (p.1.1 : K), 1]) (v.map fun p => p.2) with hcs
  set plane := fun (i j : Nat) => cs.getD 0 0 * (j : K) + cs.getD 1 0 * (i : K) + cs.getD 2 0 with hpl
  set m := mean ((pixels g.ny g.nx).map fun p => plane p.1 p.2) with hm
  have hlp : levelPlane lstsq g (maskFn defaultBins (flat g)) = fun i j => plane i j - m := rfl
  have hsq : ∀ f : Nat → Nat → K, sq f = (v.map fun q => (q.2 - f q.1.1 q.1.2) ^ 2).sum := by
    intro f
    rw [hvdef, mask_valid, Detrend.sum_filterMap, Detrend.sum_pixels]
    apply Finset.sum_congr rfl
    intro i _
    apply Finset.sum_congr rfl
    intro j _
    cases hz : g.get i j with
    | none => rfl
    | some z =>
      simp only [maskFn_eq, above, upper, gt_iff_lt]
      by_cases hh : otsu defaultBins (measured (flat g)) < z <;> simp [hh]
  refine ⟨cs.getD 0 0, cs.getD 1 0, cs.getD 2 0 - m, m, ?_, ?_, ?_⟩
  · intro i hi j hj
    unfold levelData
    simp only
    rw [get_ofFn _ hi hj, hlp]
    congr 1
    funext z
    simp only [hpl]
    ring
  · have hne : (pixels g.ny g.nx) ≠ [] := List.ne_nil_of_mem (mem_pixels.2 (show (0, 0).1 < g.ny ∧ (0, 0).2 < g.nx from ⟨hny, hnx⟩))
    have := mean_mul_length (l := (pixels g.ny g.nx).map fun p => plane p.1 p.2) (by simpa using hne)
    rw [← hm, List.length_map] at this
    rw [← Detrend.sum_pixels g.ny g.nx fun p => cs.getD 0 0 * p.2 + cs.getD 1 0 * p.1 + (cs.getD 2 0 - m)]
    have e : (fun p : Nat × Nat => cs.getD 0 0 * p.2 + cs.getD 1 0 * p.1 + (cs.getD 2 0 - m)) = fun p => plane p.1 p.2 - m := by
      funext p; simp only [hpl]; ring
    rw [e]
    have := sum_map_sub_const ((pixels g.ny g.nx).map fun p => plane p.1 p.2) m
    rw [List.map_map, List.length_map] at this
    simp only [Function.comp_def] at this
    rw [this]
    linarith
  · intro a' b' c'
    rw [hsq, hsq]
    have hA : (v.map fun p => [(p.1.2 : K), (p.1.1 : K), 1]).length = (v.map fun p => p.2).length := by simp
    have hw : ∀ r ∈ (v.map fun p => [(p.1.2 : K), (p.1.1 : K), 1]), r.length = 3 := by
      intro r hr; obtain ⟨p, _, rfl⟩ := List.mem_map.1 hr; rfl
    obtain ⟨hlen, hmin⟩ := hl 3 _ _ hA hw
    rw [← hcs] at hlen hmin
    have hc := hmin [a', b', c'] rfl
    have e : ∀ c : List K, c.length = 3 → (List.zipWith (fun r y => (y - (List.zipWith (fun a b => a * b) r c).sum) ^ 2)
        (v.map fun p => [(p.1.2 : K), (p.1.1 : K), 1]) (v.map fun p => p.2)).sum
        = (v.map fun q => (q.2 - (c.getD 0 0 * (q.1.2 : K) + c.getD 1 0 * (q.1.1 : K) + c.getD 2 0)) ^ 2).sum := by
      intro c hc
      obtain ⟨x, y, w, rfl⟩ := List.length_eq_three.1 hc
      rw [List.zipWith_map, List.zipWith_self]
      congr 1
      apply List.map_congr_left
      intro q _
      simp
      ring
    rw [e _ hlen, e _ rfl] at hc
    refine le_trans (le_of_eq ?_) (le_trans hc (le_of_eq ?_))
    · congr 1; apply List.map_congr_left; intro q _; ring
    · congr 1

/-- **C73** (mean). Levelling a fully measured surface keeps its mean height. -/
theorem C73_mean {lstsq : Detrend.Lstsq K} (hl : IsLstsq lstsq) (g : Grid (Option K)) (hg : g.WF)
    (hf : none ∉ flat g) (hny : 0 < g.ny) (hnx : 0 < g.nx) :
    none ∉ flat (levelData lstsq g) ∧
    mean (measured (flat (levelData lstsq g))) = mean (measured (flat g)) := by
  obtain ⟨a, b, c, _, h1, h2, _⟩ := C73_level hl g hny hnx
  have e0 : flat (levelData lstsq g) = (pixels g.ny g.nx).map fun p => some (g.val p.1 p.2 - (a * p.2 + b * p.1 + c)) := by
    have hwf : (levelData lstsq g).WF := ofFn_wf _ _ _
    rw [flat_eq_pixels hwf]
    have n1 : (levelData lstsq g).ny = g.ny := ofFn_ny _ _ _
    have n2 : (levelData lstsq g).nx = g.nx := rfl
    rw [n1, n2]
    apply List.map_congr_left
    intro p hp
    rw [mem_pixels] at hp
    rw [h1 _ hp.1 _ hp.2, get_eq_some_val hg hf hp.1 hp.2]
    rfl
  have e1 : flat g = (pixels g.ny g.nx).map fun p => some (g.val p.1 p.2) := by
    rw [flat_eq_pixels hg]
    apply List.map_congr_left
    intro p hp
    rw [mem_pixels] at hp
    exact get_eq_some_val hg hf hp.1 hp.2
  have m0 : measured (flat (levelData lstsq g)) = (pixels g.ny g.nx).map fun p => g.val p.1 p.2 - (a * p.2 + b * p.1 + c) := by
    rw [e0]
    exact (congrArg measured (List.map_map (f := fun p : Nat × Nat => g.val p.1 p.2 - (a * p.2 + b * p.1 + c)) (g := some)).symm).trans
      (measured_some _)
  have m1 : measured (flat g) = (pixels g.ny g.nx).map fun p => g.val p.1 p.2 := by
    rw [e1]
    exact (congrArg measured (List.map_map (f := fun p : Nat × Nat => g.val p.1 p.2) (g := some)).symm).trans
      (measured_some _)
  refine ⟨by rw [e0]; simp, ?_⟩
  rw [m0, m1]
  unfold mean
  rw [List.length_map, List.length_map, Detrend.sum_pixels, Detrend.sum_pixels]
  congr 1
  simp only [Finset.sum_sub_distrib]
  rw [h2, sub_zero]

/-! ### C68: the step parameters of a levelled surface -/

/-- **C68**, what holds: if the levelled heights are split in the same way as the original ones, then the step height
and the cavity volume reported by the surface `stepheight_level()` returns are those of its own heights. Missing:
surfaces where levelling changes which points belong to the upper level (`C68_foreign_mask`). -/
theorem C68_own_parameters_partial (lstsq : Detrend.Lstsq K) (g : Grid (Option K))
    (h : levelledPts lstsq g = ownMask (flat (levelData lstsq g))) (threshold dx dy : K) :
    stepheightWith (levelledPts lstsq g) = stepheight (levelData lstsq g) ∧
    cavityVolumeWith (levelledPts lstsq g) threshold dx dy = cavityVolume (levelData lstsq g) threshold dx dy := by
  rw [h]; exact ⟨rfl, rfl⟩

/-- The witness of the violation: one row of four points. -/
def foreignMaskWitness : Grid (Option ℚ) := { rows := [[some 0, some 0, some 10, some 14]], nx := 4 }

theorem otsu_fast {n : Nat} (hn : 2 ≤ n) {l : List ℚ} {mn mx : ℚ} (h1 : l.min? = some mn) (h2 : l.max? = some mx)
    (hlt : mn < mx) :
    otsu n l = mn + ((argmax ((List.range (n - 1)).map fun i => betweenVariance l
      (fun v => mn + ((binOf n mn mx v : ℚ) + 1 / 2) * ((mx - mn) / n)) (fun v => decide (binOf n mn mx v ≤ i))) : Nat)
        + 1 / 2) * ((mx - mn) / n) := by
  have hi := otsuIdx_lt hn mn mx l
  have e : otsuIdx n mn mx l = argmax ((List.range (n - 1)).map fun i => betweenVariance l
      (fun v => mn + ((binOf n mn mx v : ℚ) + 1 / 2) * ((mx - mn) / n)) (fun v => decide (binOf n mn mx v ≤ i))) := by
    unfold otsuIdx
    congr 1
    apply List.map_congr_left
    intro i hi
    rw [List.mem_range] at hi
    rw [variance12_eq (K := ℚ) (n := n) (by omega) _ _ _ (by omega)]
    congr 1
    funext v
    exact centers_getD (binOf_lt (by omega) _ _ _) _ _
  rw [otsu_eq h1 h2 hlt, centers_getD (by omega), e]

theorem otsu_witness_orig : otsu defaultBins [(0 : ℚ), 0, 10, 14] = 7 / 256 := by
  rw [otsu_fast (mn := 0) (mx := 14) (by decide) (by decide +kernel) (by decide +kernel) (by norm_num)]
  decide +kernel

theorem otsu_witness_levelled : otsu defaultBins [(6 : ℚ), 2, 8, 8] = 2 + 3 / 256 := by
  rw [otsu_fast (mn := 2) (mx := 8) (by decide) (by decide +kernel) (by decide +kernel) (by norm_num)]
  decide +kernel

/-- **C68 is violated.** Whatever least squares solver is used, levelling the heights `0 0 10 14` returns the heights
`6 2 8 8`; the returned surface reports the step height 4 (computed with the upper/lower classes of the *original*
heights, `surface.py:811`), while a surface with these heights has the step height 6. -/
theorem C68_foreign_mask {lstsq : Detrend.Lstsq ℚ} (hl : IsLstsq lstsq) :
    flat (levelData lstsq foreignMaskWitness) = [some 6, some 2, some 8, some 8] ∧
    stepheightWith (levelledPts lstsq foreignMaskWitness) = some 4 ∧
    stepheight (levelData lstsq foreignMaskWitness) = some 6 := by
  have hfl : flat foreignMaskWitness = [some 0, some 0, some 10, some 14] := rfl
  have o1 : otsu defaultBins [(0 : ℚ), 0, 10, 14] < 10 := by rw [otsu_witness_orig]; norm_num
  have o2 : 0 ≤ otsu defaultBins [(0 : ℚ), 0, 10, 14] := by rw [otsu_witness_orig]; norm_num
  have hm0 : measured (flat foreignMaskWitness) = [0, 0, 10, 14] := rfl
  have hmask : ∀ z : ℚ, maskFn defaultBins (flat foreignMaskWitness) (some z)
      = decide (otsu defaultBins [(0 : ℚ), 0, 10, 14] < z) := by
    intro z; rw [maskFn_eq, hm0, above]
  have hmask' : ∃ mk : Option ℚ → Bool, maskFn defaultBins (flat foreignMaskWitness) = mk ∧ mk (some 0) = false ∧
      mk (some 10) = true ∧ mk (some 14) = true := by
    refine ⟨_, rfl, ?_, ?_, ?_⟩
    · rw [hmask]; simpa using o2
    · rw [hmask]; simpa using o1
    · rw [hmask, decide_eq_true_eq]; linarith
  clear hmask hm0 o1 o2
  obtain ⟨mk, hmk, c1, c2, c3⟩ := hmask'
  have hv : (Detrend.validPixels foreignMaskWitness).filter (fun p => mk (some p.2))
      = [((0, 2), 10), ((0, 3), 14)] := by
    have e : Detrend.validPixels foreignMaskWitness = [((0, 0), 0), ((0, 1), 0), ((0, 2), 10), ((0, 3), 14)] := by
      decide +kernel
    rw [e]
    simp only [List.filter, c1, c2, c3]
  have hlev : levelData lstsq foreignMaskWitness = { rows := [[some 6, some 2, some 8, some 8]], nx := 4 } := by
    obtain ⟨hlen, hmin⟩ := hl 3 [[2, 0, 1], [3, 0, 1]] [10, 14] rfl (by simp)
    set cs := lstsq 3 [[2, 0, 1], [3, 0, 1]] [10, 14] with hcs
    obtain ⟨a, b, c, habc⟩ := List.length_eq_three.1 hlen
    have h0 := hmin [4, 0, 2] rfl
    rw [habc] at h0
    norm_num at h0
    have e1 : 10 - (2 * a + c) = 0 := by nlinarith [sq_nonneg (10 - (2 * a + c)), sq_nonneg (14 - (3 * a + c))]
    have e2 : 14 - (3 * a + c) = 0 := by nlinarith [sq_nonneg (10 - (2 * a + c)), sq_nonneg (14 - (3 * a + c))]
    have ea : a = 4 := by linarith
    have ec : c = 2 := by linarith
    have hp : levelPlane lstsq foreignMaskWitness mk = fun i j : Nat => (4 * (j : ℚ) + b * (i : ℚ) + 2) - 8 := by
      unfold levelPlane
      simp only [hv, List.map_cons, List.map_nil, Nat.cast_ofNat, Nat.cast_zero]
      rw [← hcs, habc, ea, ec]
      simp only [List.getD_cons_zero, List.getD_cons_succ]
      have e : pixels foreignMaskWitness.ny foreignMaskWitness.nx = [(0, 0), (0, 1), (0, 2), (0, 3)] := by decide
      rw [e]
      funext i j
      norm_num [mean]
    unfold levelData
    simp only [hmk, hp]
    have n1 : List.range foreignMaskWitness.ny = [0] := rfl
    have n2 : List.range 4 = [0, 1, 2, 3] := rfl
    have n3 : foreignMaskWitness.nx = 4 := rfl
    have g0 : foreignMaskWitness.get 0 0 = some 0 := rfl
    have g1 : foreignMaskWitness.get 0 1 = some 0 := rfl
    have g2 : foreignMaskWitness.get 0 2 = some 10 := rfl
    have g3 : foreignMaskWitness.get 0 3 = some 14 := rfl
    simp only [Grid.ofFn, n1, n3, n2, List.map_cons, List.map_nil, g0, g1, g2, g3, Option.map_some]
    norm_num
  refine ⟨by rw [hlev]; rfl, ?_, ?_⟩
  · have e : levelledPts lstsq foreignMaskWitness = [(some 6, false), (some 2, false), (some 8, true), (some 8, true)] := by
      unfold levelledPts
      rw [hlev, hmk, hfl]
      have ef : flat ({ rows := [[some 6, some 2, some 8, some 8]], nx := 4 } : Grid (Option ℚ)) = [some 6, some 2, some 8, some 8] := rfl
      rw [ef]
      simp only [List.zipWith, c1, c2, c3]
    rw [e]
    decide +kernel
  · have q1 : otsu defaultBins [(6 : ℚ), 2, 8, 8] < 6 := by rw [otsu_witness_levelled]; norm_num
    have q2 : 2 ≤ otsu defaultBins [(6 : ℚ), 2, 8, 8] := by rw [otsu_witness_levelled]; norm_num
    rw [hlev]
    have hs : Splittable ({ rows := [[some 6, some 2, some 8, some 8]], nx := 4 } : Grid (Option ℚ)) :=
      ⟨by decide, 6, 2, by decide, by decide, by norm_num⟩
    rw [stepheight_eq hs]
    have ef : measured (flat ({ rows := [[some 6, some 2, some 8, some 8]], nx := 4 } : Grid (Option ℚ))) = [6, 2, 8, 8] := rfl
    rw [ef]
    set t := otsu defaultBins [(6 : ℚ), 2, 8, 8]
    have u : higher t [6, 2, 8, 8] = [6, 8, 8] := by
      have a1 : decide (t < 6) = true := by simpa using q1
      have a2 : decide (t < 2) = false := by simpa using q2
      have a3 : decide (t < 8) = true := by rw [decide_eq_true_eq]; linarith
      simp only [higher, List.filter, a1, a2, a3]
    have l : lower t [6, 2, 8, 8] = [2] := by
      have a1 : decide (6 ≤ t) = false := by simpa using q1
      have a2 : decide (2 ≤ t) = true := by simpa using q2
      have a3 : decide (8 ≤ t) = false := by rw [decide_eq_false_iff_not]; linarith
      simp only [lower, List.filter, a1, a2, a3]
    rw [u, l]
    decide +kernel

/-- Non-vacuity of `C68_own_parameters_partial` and `C68_foreign_mask`: solvers exist. -/
example : ∃ lstsq : Detrend.Lstsq ℚ, IsLstsq lstsq := Detrend.exists_lstsq

end Surfalize.Props
