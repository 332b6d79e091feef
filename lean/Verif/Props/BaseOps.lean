import Verif.Lemmas.BaseOps
import Mathlib.Data.Rat.Defs
import Mathlib.Tactic.NormNum

/-!
# C07–C11 — center, zero, invert, remove_outliers, threshold

All statements are for any container (1-d profile data or 2-d surface data) and any pattern of
non-measured points.
-/
set_option linter.unusedSectionVars false
namespace Surfalize.Props
open Surfalize Container BaseOps

section Generic
variable {C : Type → Type} [Container C] {K : Type} [Field K] [LinearOrder K] [IsStrictOrderedRing K]

/-- **C07.** `center` subtracts the arithmetic mean `μ` of the measured points from every measured point
and leaves non-measured points non-measured (so differences of heights and the mask are unchanged); the
result has mean 0, and centering again changes nothing. -/
theorem C07_center (c : C (Option K)) (h : measured (flat c) ≠ []) :
    let μ := (measured (flat c)).sum / ((measured (flat c)).length : K)
    flat (center c) = (flat c).map (Option.map fun z => z - μ) ∧
    (measured (flat (center c))).sum = 0 ∧
    nanmean (flat (center c)) = some 0 ∧
    center (center c) = center c := by
  intro μ
  have hμ : nanmean (flat c) = some μ := by simp [nanmean, h, mean, μ]
  have hfun : (fun z : Option K => osub z (nanmean (flat c))) = Option.map fun z => z - μ := by
    funext z; rw [hμ]; cases z <;> simp [osub]
  have h1 : flat (center c) = (flat c).map (Option.map fun z => z - μ) := by
    simp only [center, flat_map]; rw [hfun]
  have hm : measured (flat (center c)) = (measured (flat c)).map fun z => z - μ := by
    rw [h1, measured_map_map]
  have hμ' : mean (measured (flat c)) = μ := rfl
  have hmean : mean (measured (flat (center c))) = 0 := by
    rw [hm, ← hμ']; exact mean_centered h
  have hne : measured (flat (center c)) ≠ [] := by rw [hm]; simpa using h
  have hn : nanmean (flat (center c)) = some 0 := by simp [nanmean, hne, hmean]
  refine ⟨h1, ?_, hn, ?_⟩
  · rw [← mean_mul_length hne, hmean, zero_mul]
  · have : (fun z : Option K => osub z (some 0)) = fun z => z := by
      funext z; cases z <;> simp [osub]
    show map (fun z => osub z (nanmean (flat (center c)))) (center c) = center c
    rw [hn, this, map_id]

/-- **C07**, nothing measured: `center` keeps every point non-measured. -/
theorem C07_center_all_missing (c : C (Option K)) (h : measured (flat c) = []) :
    flat (center c) = (flat c).map fun _ => none := by
  simp only [center, flat_map, nanmean, h, if_true]
  apply List.map_congr_left
  intro z _; cases z <;> simp [osub]

/-- **C08.** `zero` subtracts the minimum `m` of the measured heights from every measured point, keeps the
mask; afterwards the minimum is 0 and all heights are non-negative; doing it again changes nothing. -/
theorem C08_zero (c : C (Option K)) (h : measured (flat c) ≠ []) :
    ∃ m c', m ∈ measured (flat c) ∧ (∀ z ∈ measured (flat c), m ≤ z) ∧ zero c = .ok c' ∧
      flat c' = (flat c).map (Option.map fun z => z - m) ∧
      nanmin (flat c') = some 0 ∧ (∀ z ∈ measured (flat c'), 0 ≤ z) ∧ zero c' = .ok c' := by
  obtain ⟨m, hm⟩ := exists_min? h
  have hms := min?_spec.1 hm
  have hne : flat c ≠ [] := by intro h0; rw [h0] at h; simp [measured] at h
  have hfun : (fun z : Option K => osub z (nanmin (flat c))) = Option.map fun z => z - m := by
    funext z; rw [nanmin, hm]; cases z <;> simp [osub]
  have h1 : flat (map (fun z : Option K => osub z (nanmin (flat c))) c)
      = (flat c).map (Option.map fun z => z - m) := by rw [flat_map, hfun]
  have hmin : nanmin (flat (map (fun z : Option K => osub z (nanmin (flat c))) c)) = some 0 := by
    rw [h1, nanmin, measured_map_map]
    have := min?_map_add hm (-m)
    simpa [sub_eq_add_neg] using this
  refine ⟨m, _, hms.1, hms.2, by simp [zero, hne], h1, hmin, ?_, ?_⟩
  · exact (min?_spec.1 hmin).2
  · have hne' : flat (map (fun z : Option K => osub z (nanmin (flat c))) c) ≠ [] := by
      rw [flat_map]; simpa using hne
    conv_lhs => unfold zero
    rw [if_neg hne', hmin]
    have : (fun z : Option K => osub z (some 0)) = fun z => z := by
      funext z; cases z <;> simp [osub]
    rw [this, map_id]

/-- **C09.** On fully measured data `invert` replaces each height `z` by `min + max - z`: it keeps the
minimum and the maximum, and applying it twice gives the original data back. -/
theorem C09_invert_measured_partial (c : C (Option K)) (hne : flat c ≠ []) (hfull : none ∉ flat c) :
    ∃ mn mx c', mn ∈ measured (flat c) ∧ mx ∈ measured (flat c) ∧
      (∀ z ∈ measured (flat c), mn ≤ z ∧ z ≤ mx) ∧ invert c = .ok c' ∧
      flat c' = (flat c).map (Option.map fun z => mn + mx - z) ∧
      nanmin (flat c') = some mn ∧ nanmax (flat c') = some mx ∧ invert c' = .ok c := by
  have hm : measured (flat c) ≠ [] := by
    intro h0
    have := eq_map_some_of_no_none _ hfull
    rw [h0] at this; exact hne this
  obtain ⟨mn, hmn⟩ := exists_min? hm
  obtain ⟨mx, hmx⟩ := exists_max? hm
  have hmns := min?_spec.1 hmn
  have hmxs := max?_spec.1 hmx
  have hfun : (fun z : Option K => osub (oadd (propmin (flat c)) (propmax (flat c))) z)
      = Option.map fun z => mn + mx - z := by
    funext z; rw [propmin, propmax, if_neg hfull, if_neg hfull, hmn, hmx]; cases z <;> simp [osub, oadd]
  have h1 : flat (map (fun z : Option K => osub (oadd (propmin (flat c)) (propmax (flat c))) z) c)
      = (flat c).map (Option.map fun z => mn + mx - z) := by rw [flat_map, hfun]
  have hmeas : measured ((flat c).map (Option.map fun z => mn + mx - z))
      = (measured (flat c)).map fun z => mn + mx - z := measured_map_map _ _
  have hmin' : ((measured (flat c)).map fun z => mn + mx - z).min? = some mn := by
    rw [min?_spec]
    refine ⟨List.mem_map.2 ⟨mx, hmxs.1, by ring⟩, ?_⟩
    intro x hx; obtain ⟨y, hy, rfl⟩ := List.mem_map.1 hx
    have := hmxs.2 y hy; linarith
  have hmax' : ((measured (flat c)).map fun z => mn + mx - z).max? = some mx := by
    rw [max?_spec]
    refine ⟨List.mem_map.2 ⟨mn, hmns.1, by ring⟩, ?_⟩
    intro x hx; obtain ⟨y, hy, rfl⟩ := List.mem_map.1 hx
    have := hmns.2 y hy; linarith
  have hfull' : none ∉ (flat c).map (Option.map fun z => mn + mx - z) := by
    simpa using hfull
  refine ⟨mn, mx, _, hmns.1, hmxs.1, fun z hz => ⟨hmns.2 z hz, hmxs.2 z hz⟩, by simp [invert, hne], h1,
    by rw [h1, nanmin, hmeas, hmin'], by rw [h1, nanmax, hmeas, hmax'], ?_⟩
  have hne' : (flat c).map (Option.map fun z => mn + mx - z) ≠ [] := by simpa using hne
  unfold invert
  rw [h1, if_neg hne', propmin, propmax, if_neg hfull', if_neg hfull', hmeas, hmin', hmax', map_map]
  congr 1
  conv_rhs => rw [← map_id c]
  apply Container.map_congr
  intro z hz
  rw [congrFun hfun z]
  cases z with
  | none => exact absurd hz hfull
  | some z => simp [osub, oadd]

/-- **C09, violated part.** One non-measured point is enough for `invert` to turn *every* point into a
non-measured one: the data is lost. -/
theorem C09_invert_missing_destroys (c : C (Option K)) (h : none ∈ flat c) :
    ∃ c', invert c = .ok c' ∧ flat c' = (flat c).map fun _ => none := by
  have hne : flat c ≠ [] := by intro h0; rw [h0] at h; simp at h
  refine ⟨_, by rw [invert, if_neg hne], ?_⟩
  rw [flat_map]
  apply List.map_congr_left
  intro z _
  simp [propmin, h, oadd, osub]

/-- **C09, negation.** It is not the case that `invert` keeps measured points measured. -/
theorem C09_invert_not_mask_preserving :
    ¬ ∀ c c' : List (Option ℚ), invert c = .ok c' → ∀ i, c'.getD i none = none → c.getD i none = none := by
  intro H
  have := H [some 1, none] [none, none] (by decide) 0 (by decide)
  exact absurd this (by decide)

/-- **C10 (median).** `remove_outliers(n, 'median')`: with `m` the median of the measured points and `md`
the median of the distances to it, a measured point survives unchanged iff its distance to `m` is at most
`n * md`; every other point is non-measured afterwards. For `n ≥ 1` at least half of the points survive. -/
theorem C10_median (n : K) (c : C (Option K)) :
    let l := measured (flat c)
    let m := median l
    let md := median (l.map fun z => |z - m|)
    flat (removeOutliersMedian n c)
      = (flat c).map (fun z => match z with
          | none => none
          | some z => if |z - m| ≤ n * md then some z else none) ∧
    (1 ≤ n → l.length ≤ 2 * (measured (flat (removeOutliersMedian n c))).length) := by
  intro l m md
  have hflat : flat (removeOutliersMedian n c)
      = (flat c).map (fun z => z.bind fun z => if |z - m| ≤ n * md then some z else none) := by
    simp only [removeOutliersMedian, flat_map]
    apply List.map_congr_left
    intro z _
    cases z with
    | none => rfl
    | some z =>
      simp only [Option.bind_some]
      by_cases hz : |z - m| ≤ n * md
      · rw [if_pos hz, if_neg (not_lt.2 hz)]
      · rw [if_neg hz, if_pos (not_le.1 hz)]
  refine ⟨?_, ?_⟩
  · rw [hflat]
    apply List.map_congr_left
    intro z _; cases z <;> rfl
  · intro hn
    rw [hflat, measured_map_bind]
    have hmd : 0 ≤ md := by
      apply median_nonneg
      intro x hx; obtain ⟨y, _, rfl⟩ := List.mem_map.1 hx; exact abs_nonneg _
    have hcount : l.countP (fun z => decide (|z - m| ≤ md))
        ≤ (l.filterMap fun z => if |z - m| ≤ n * md then some z else none).length := by
      rw [List.length_filterMap_eq_countP]
      apply List.countP_mono_left
      intro x _ hx
      have hx' : |x - m| ≤ md := by simpa using hx
      have : |x - m| ≤ n * md := le_trans hx' (by nlinarith)
      simp [this]
    have hhalf := median_half (l.map fun z => |z - m|)
    rw [List.length_map, List.countP_map] at hhalf
    have heq : l.countP ((fun x => decide (x ≤ median (l.map fun z => |z - m|))) ∘ fun z => |z - m|)
        = l.countP (fun z => decide (|z - m| ≤ md)) := rfl
    rw [heq] at hhalf
    show l.length ≤ 2 * (l.filterMap fun z => if |z - m| ≤ n * md then some z else none).length
    omega

/-- **C11.** `threshold((u, l))` raises ValueError when `u + l ≥ 100`. -/
theorem C11_threshold_error (u l : K) (c : C (Option K)) (h : 100 ≤ u + l) :
    threshold u l c = .error .valueError := by
  simp only [threshold]; rw [if_pos (by linarith)]

/-- **C11.** `threshold((u, l))` fails in these cases only, and always with ValueError: `u + l ≥ 100`, or no point is measured. -/
theorem C11_threshold_fails (u l : K) (c : C (Option K)) (e : Err) :
    threshold u l c = .error e ↔ e = .valueError ∧ (100 ≤ u + l ∨ ∀ x, some x ∉ flat c) := by
  have hm : sortDesc (measured (flat c)) = [] ↔ ∀ x, some x ∉ flat c := by
    rw [← List.length_eq_zero_iff, sortDesc_length, List.length_eq_zero_iff]
    constructor
    · intro h x hx
      have := mem_measured.2 hx
      rw [h] at this
      cases this
    · intro h
      rw [List.eq_nil_iff_forall_not_mem]
      exact fun x hx => h x (mem_measured.1 hx)
  simp only [threshold]
  by_cases h1 : l + u ≥ 100
  · rw [if_pos h1]
    exact ⟨fun h => (by cases h; exact ⟨rfl, Or.inl (by linarith)⟩), fun h => by rw [h.1]⟩
  · rw [if_neg h1]
    by_cases h2 : sortDesc (measured (flat c)) = []
    · rw [if_pos h2]
      exact ⟨fun h => (by cases h; exact ⟨rfl, Or.inr (hm.1 h2)⟩), fun h => by rw [h.1]⟩
    · rw [if_neg h2]
      refine ⟨fun h => (by cases h), fun h => ?_⟩
      rcases h.2 with h | h
      · exact absurd (by linarith) h1
      · exact absurd (hm.2 h) h2

/-- **C11.** For `u + l < 100` and at least one measured point, `threshold` succeeds: the survivors are
exactly the measured points with height in a closed interval `[lo, hi]` of occurring heights (`lo ≤ hi`, so
at least one point survives), with unchanged values; at most the fraction `u`% of the `n` measured points
lies above `hi`, and at most `l`% plus half a sample lies below `lo`. -/
theorem C11_threshold (u l : K) (c : C (Option K)) (hu : 0 ≤ u) (hl : 0 ≤ l) (hul : u + l < 100)
    (hm : measured (flat c) ≠ []) :
    ∃ lo hi c', threshold u l c = .ok c' ∧ lo ≤ hi ∧ lo ∈ measured (flat c) ∧ hi ∈ measured (flat c) ∧
      flat c' = (flat c).map (fun z => z.bind fun z => if lo ≤ z ∧ z ≤ hi then some z else none) ∧
      (((measured (flat c)).countP fun z => decide (hi < z)) : K)
        ≤ u / 100 * (measured (flat c)).length ∧
      (((measured (flat c)).countP fun z => decide (z < lo)) : K)
        ≤ l / 100 * (measured (flat c)).length + 1 / 2 := by
  set y := sortDesc (measured (flat c)) with hy
  have hlen : y.length = (measured (flat c)).length := sortDesc_length _
  have hyperm : y.Perm (measured (flat c)) := sortDesc_perm _
  have hpos : 0 < y.length := by
    rw [hlen]; exact List.length_pos_iff.2 hm
  have hyne : y ≠ [] := List.length_pos_iff.1 hpos
  set x : List K := (List.range y.length).map fun i : Nat => ((i : K) + 1) / (y.length : K) with hx
  have hxne : x ≠ [] := grid_ne_nil y.length hpos
  have hxs : x.Pairwise (· < ·) := grid_pairwise y.length hpos
  have hu1 : u / 100 ≤ 1 := by rw [div_le_one (by norm_num)]; linarith
  have hl1 : 1 - l / 100 ≤ 1 := by
    have : 0 ≤ l / 100 := by positivity
    linarith
  obtain ⟨hi0, hi0a, -⟩ := argclosest_grid y.length hpos (u / 100) hu1
  obtain ⟨hi1, -, hi1b⟩ := argclosest_grid y.length hpos (1 - l / 100) hl1
  set i0 := argclosest (u / 100) x with hi0def
  set i1 := argclosest (1 - l / 100) x with hi1def
  have hle : i0 ≤ i1 := argclosest_mono hxs hxne (by
    have : u / 100 + l / 100 < 1 := by rw [← add_div, div_lt_one (by norm_num)]; exact hul
    linarith)
  have hsorted := sortDesc_sorted (measured (flat c))
  rw [← hy] at hsorted
  have hmem : ∀ i (hi : i < y.length), y[i] ∈ measured (flat c) := fun i hi =>
    (sortDesc_perm _).mem_iff.1 (by rw [← hy]; exact List.getElem_mem hi)
  have hyle : y[i1] ≤ y[i0] := by
    rcases Nat.eq_or_lt_of_le hle with h | h
    · simp only [h]; exact le_refl _
    · exact List.pairwise_iff_getElem.1 hsorted i0 i1 hi0 hi1 h
  refine ⟨y[i1], y[i0], map (fun z => z.bind fun z =>
      if z > y.getD i0 0 ∨ z < y.getD i1 0 then none else some z) c, ?_, hyle, hmem _ hi1, hmem _ hi0, ?_, ?_, ?_⟩
  · simp only [threshold]
    rw [← hy, ← hx, if_neg (by rw [ge_iff_le, not_le]; linarith), if_neg hyne]
  · rw [flat_map]
    apply List.map_congr_left
    intro z _
    cases z with
    | none => rfl
    | some z =>
      simp only [Option.bind_some]
      rw [getD_of_lt _ hi0, getD_of_lt _ hi1]
      by_cases hz : y[i1] ≤ z ∧ z ≤ y[i0]
      · rw [if_pos hz, if_neg]
        rintro (h | h)
        · exact absurd h (not_lt.2 hz.2)
        · exact absurd h (not_lt.2 hz.1)
      · rw [if_neg hz, if_pos]
        by_contra hcon
        push Not at hcon
        exact hz ⟨hcon.2, hcon.1⟩
  · have hc := countP_gt_sorted hsorted hi0
    rw [hyperm.countP_eq] at hc
    have hc' : (((measured (flat c)).countP fun z => decide (y[i0] < z)) : K) ≤ (i0 : K) := by
      exact_mod_cast hc
    refine le_trans hc' ?_
    rw [← hlen]
    rcases hi0a with h | h
    · have h' : (i0 : K) = 0 := by exact_mod_cast h
      rw [h']; positivity
    · linarith
  · have hc := countP_lt_sorted hsorted hi1
    rw [hyperm.countP_eq] at hc
    have hc' : (((measured (flat c)).countP fun z => decide (z < y[i1])) : K)
        ≤ (y.length : K) - 1 - (i1 : K) := by
      have : ((measured (flat c)).countP fun z => decide (z < y[i1])) + 1 + i1 ≤ y.length := by omega
      have := (Nat.cast_le (α := K)).2 this
      push_cast at this; linarith
    refine le_trans hc' ?_
    rw [← hlen]
    linarith

/-- **C11**, tightness: for pairwise distinct heights the removed counts are the stated percentages up to
rounding of the ratio to whole samples: between `u%·n - 3/2` and `u%·n` on top, within half a sample of
`l%·n` at the bottom. -/
theorem C11_threshold_distinct (u l : K) (c : C (Option K)) (hu : 0 ≤ u) (hl : 0 ≤ l) (hul : u + l < 100)
    (hm : measured (flat c) ≠ []) (hd : (measured (flat c)).Nodup) :
    ∃ lo hi c', threshold u l c = .ok c' ∧
      flat c' = (flat c).map (fun z => z.bind fun z => if lo ≤ z ∧ z ≤ hi then some z else none) ∧
      u / 100 * (measured (flat c)).length - 3 / 2
        ≤ (((measured (flat c)).countP fun z => decide (hi < z)) : K) ∧
      (((measured (flat c)).countP fun z => decide (hi < z)) : K)
        ≤ u / 100 * (measured (flat c)).length ∧
      (l / 100 * (measured (flat c)).length - 1 / 2
        ≤ (((measured (flat c)).countP fun z => decide (z < lo)) : K) ∨
        (((measured (flat c)).countP fun z => decide (z < lo)) = (measured (flat c)).length - 1)) ∧
      (((measured (flat c)).countP fun z => decide (z < lo)) : K)
        ≤ l / 100 * (measured (flat c)).length + 1 / 2 := by
  set y := sortDesc (measured (flat c)) with hy
  have hlen : y.length = (measured (flat c)).length := sortDesc_length _
  have hyperm : y.Perm (measured (flat c)) := sortDesc_perm _
  have hpos : 0 < y.length := by
    rw [hlen]; exact List.length_pos_iff.2 hm
  have hyne : y ≠ [] := List.length_pos_iff.1 hpos
  set x : List K := (List.range y.length).map fun i : Nat => ((i : K) + 1) / (y.length : K) with hx
  have hu1 : u / 100 ≤ 1 := by rw [div_le_one (by norm_num)]; linarith
  have hl1 : 1 - l / 100 ≤ 1 := by
    have : 0 ≤ l / 100 := by positivity
    linarith
  obtain ⟨hi0, hi0a, hi0b⟩ := argclosest_grid y.length hpos (u / 100) hu1
  obtain ⟨hi1, hi1a, hi1b⟩ := argclosest_grid y.length hpos (1 - l / 100) hl1
  set i0 := argclosest (u / 100) x with hi0def
  set i1 := argclosest (1 - l / 100) x with hi1def
  have hsorted := sortDesc_sorted (measured (flat c))
  rw [← hy] at hsorted
  have hnodup : y.Nodup := (sortDesc_perm (measured (flat c))).nodup_iff.2 hd
  have hstrict : y.Pairwise (· > ·) := by
    refine List.Pairwise.imp₂ (R := (· ≥ ·)) (S := (· ≠ ·)) ?_ hsorted hnodup
    intro a b h1 h2; exact lt_of_le_of_ne h1 (Ne.symm h2)
  have htop : ((measured (flat c)).countP fun z => decide (y[i0] < z)) = i0 := by
    have hc := countP_gt_sorted_strict hstrict hi0
    rw [hyperm.countP_eq] at hc
    exact hc
  have hbot : ((measured (flat c)).countP fun z => decide (z < y[i1])) = y.length - 1 - i1 := by
    have hc := countP_lt_sorted_strict hstrict hi1
    rw [hyperm.countP_eq] at hc
    exact hc
  have hcast : ((y.length - 1 - i1 : Nat) : K) = (y.length : K) - 1 - (i1 : K) := by
    rw [Nat.cast_sub (by omega), Nat.cast_sub (by omega)]; simp
  refine ⟨y[i1], y[i0], map (fun z => z.bind fun z =>
      if z > y.getD i0 0 ∨ z < y.getD i1 0 then none else some z) c, ?_, ?_, ?_, ?_, ?_, ?_⟩
  · simp only [threshold]
    rw [← hy, ← hx, if_neg (by rw [ge_iff_le, not_le]; linarith), if_neg hyne]
  · rw [flat_map]
    apply List.map_congr_left
    intro z _
    cases z with
    | none => rfl
    | some z =>
      simp only [Option.bind_some]
      rw [getD_of_lt _ hi0, getD_of_lt _ hi1]
      by_cases hz : y[i1] ≤ z ∧ z ≤ y[i0]
      · rw [if_pos hz, if_neg]
        rintro (h | h)
        · exact absurd h (not_lt.2 hz.2)
        · exact absurd h (not_lt.2 hz.1)
      · rw [if_neg hz, if_pos]
        by_contra hcon
        push Not at hcon
        exact hz ⟨hcon.2, hcon.1⟩
  · rw [htop, ← hlen]; linarith
  · rw [htop, ← hlen]
    rcases hi0a with h | h
    · have h' : (i0 : K) = 0 := by exact_mod_cast h
      rw [h']; positivity
    · linarith
  · rw [hbot, hcast, ← hlen]
    rcases hi1a with h | h
    · right; omega
    · left; linarith
  · rw [hbot, hcast, ← hlen]; linarith

/-- **C11.** A scalar threshold `t` acts as the pair `(t, t)`; ValueError iff `2 t ≥ 100` (when a point is
measured). -/
theorem C11_scalar (t : K) (c : C (Option K)) (hm : measured (flat c) ≠ []) (ht : 0 ≤ t) :
    thresholdScalar t c = threshold t t c ∧
    (thresholdScalar t c = .error .valueError ↔ 50 ≤ t) := by
  refine ⟨rfl, ?_⟩
  constructor
  · intro h
    by_contra hlt
    push Not at hlt
    obtain ⟨_, _, c', hc', _⟩ := C11_threshold t t c ht ht (by linarith) hm
    rw [thresholdScalar, hc'] at h
    cases h
  · intro h; exact C11_threshold_error t t c (by linarith)

end Generic

section Real
variable {C : Type → Type} [Container C]

/-- **C10 (mean).** `remove_outliers(n, 'mean')`: with `μ` the mean and `σ² ` the mean squared deviation of
the measured points, a measured point survives unchanged iff `|z - μ| ≤ n·σ`; every other point is
non-measured afterwards. For `n > 0` at most the fraction `1/n²` of the measured points is removed. -/
theorem C10_mean (n : ℝ) (c : C (Option ℝ)) :
    let l := measured (flat c)
    let μ := l.sum / (l.length : ℝ)
    let σ := Real.sqrt ((l.map fun z => (z - μ) ^ 2).sum / (l.length : ℝ))
    flat (removeOutliersMean n c)
      = (flat c).map (fun z => match z with
          | none => none
          | some z => if |z - μ| ≤ n * σ then some z else none) ∧
    (0 < n → ((l.length - (measured (flat (removeOutliersMean n c))).length : ℕ) : ℝ) * n ^ 2 ≤ l.length) := by
  intro l μ σ
  have hσ : std l = σ := by
    simp only [std, variance, mean, List.length_map, σ, μ]
  have hμ : mean l = μ := rfl
  have hflat : flat (removeOutliersMean n c)
      = (flat c).map (fun z => z.bind fun z => if |z - μ| ≤ n * σ then some z else none) := by
    simp only [removeOutliersMean, flat_map]
    apply List.map_congr_left
    intro z _
    cases z with
    | none => rfl
    | some z =>
      simp only [Option.bind_some]
      show (if |z - mean l| > n * std l then none else some z) = _
      rw [hσ, hμ]
      by_cases hz : |z - μ| ≤ n * σ
      · rw [if_pos hz, if_neg (not_lt.2 hz)]
      · rw [if_neg hz, if_pos (not_le.1 hz)]
  refine ⟨?_, ?_⟩
  · rw [hflat]
    apply List.map_congr_left
    intro z _; cases z <;> rfl
  · intro hn
    rw [hflat, measured_map_bind, List.length_filterMap_eq_countP]
    have hcompl : l.length - l.countP (fun a => (if |a - μ| ≤ n * σ then some a else none).isSome)
        = l.countP (fun a => decide (n * σ < |a - μ|)) := by
      have h := List.length_eq_countP_add_countP
        (fun a => (if |a - μ| ≤ n * σ then some a else none).isSome) (l := l)
      have h2 : l.countP (fun a => !(if |a - μ| ≤ n * σ then some a else none).isSome)
          = l.countP (fun a => decide (n * σ < |a - μ|)) := by
        apply List.countP_congr
        intro a _
        by_cases ha : |a - μ| ≤ n * σ
        · simp [ha]
        · simp [ha, not_le.1 ha]
      have h3 : l.countP (fun a => decide ¬((if |a - μ| ≤ n * σ then some a else none).isSome = true))
          = l.countP (fun a => !(if |a - μ| ≤ n * σ then some a else none).isSome) := by
        apply List.countP_congr; intro a _; simp
      omega
    have hgoal : ((measured (flat c)).length
        - (measured (flat c)).countP (fun a => (if |a - μ| ≤ n * σ then some a else none).isSome) : ℕ)
        = l.countP (fun a => decide (n * σ < |a - μ|)) := hcompl
    show ((((measured (flat c)).length
        - (measured (flat c)).countP (fun a => (if |a - μ| ≤ n * σ then some a else none).isSome) : ℕ) : ℝ))
        * n ^ 2 ≤ (l.length : ℝ)
    rw [hgoal]
    have hσ0 : 0 ≤ σ := Real.sqrt_nonneg _
    rcases hσ0.eq_or_lt with h0 | h0
    · -- all points coincide with the mean
      have hzero : l.countP (fun a => decide (n * σ < |a - μ|)) = 0 := by
        rw [List.countP_eq_zero]
        intro a ha
        simp only [decide_eq_true_eq, not_lt, ← h0, mul_zero]
        have hne : l ≠ [] := by rintro h; rw [h] at ha; simp at ha
        have hlpos := length_pos_cast hne
        have hsum : (l.map fun z => (z - μ) ^ 2).sum = 0 := by
          have hnn : 0 ≤ (l.map fun z => (z - μ) ^ 2).sum := by
            apply List.sum_nonneg; intro x hx; obtain ⟨y, _, rfl⟩ := List.mem_map.1 hx; positivity
          have : (l.map fun z => (z - μ) ^ 2).sum / (l.length : ℝ) ≤ 0 :=
            Real.sqrt_eq_zero'.1 h0.symm
          have h2 := (div_le_iff₀ hlpos).1 this
          linarith
        have hle : (a - μ) ^ 2 ≤ (l.map fun z => (z - μ) ^ 2).sum := by
          apply List.single_le_sum
          · intro x hx; obtain ⟨y, _, rfl⟩ := List.mem_map.1 hx; positivity
          · exact List.mem_map.2 ⟨a, ha, rfl⟩
        have : (a - μ) ^ 2 = 0 := le_antisymm (by rw [← hsum]; exact hle) (sq_nonneg _)
        have : a - μ = 0 := by simpa using this
        rw [this]; simp
      rw [hzero]; simp
    · have hmk := markov (l := l) (fun z => (z - μ) ^ 2) (fun z => sq_nonneg _) ((n * σ) ^ 2)
      have hcongr : l.countP (fun x => decide ((n * σ) ^ 2 < (x - μ) ^ 2))
          = l.countP (fun a => decide (n * σ < |a - μ|)) := by
        apply List.countP_congr
        intro a _
        simp only [decide_eq_true_eq]
        rw [← sq_abs (a - μ)]
        exact (sq_lt_sq₀ (by positivity) (abs_nonneg _))
      rw [hcongr] at hmk
      have hne : l ≠ [] := by
        rintro h
        have : σ = 0 := by simp [σ, h]
        rw [this] at h0; exact lt_irrefl _ h0
      have hlpos := length_pos_cast hne
      have hσsq : σ ^ 2 * (l.length : ℝ) = (l.map fun z => (z - μ) ^ 2).sum := by
        have hnn : 0 ≤ (l.map fun z => (z - μ) ^ 2).sum / (l.length : ℝ) := by
          apply div_nonneg
          · apply List.sum_nonneg; intro x hx; obtain ⟨y, _, rfl⟩ := List.mem_map.1 hx; positivity
          · exact hlpos.le
        show (Real.sqrt _) ^ 2 * _ = _
        rw [Real.sq_sqrt hnn]; field_simp
      rw [← hσsq] at hmk
      have h2 : 0 < σ ^ 2 := by positivity
      have : σ ^ 2 * ((l.countP (fun a => decide (n * σ < |a - μ|)) : ℝ) * n ^ 2) ≤ σ ^ 2 * (l.length : ℝ) := by
        calc _ = (n * σ) ^ 2 * (l.countP (fun a => decide (n * σ < |a - μ|)) : ℝ) := by ring
          _ ≤ _ := hmk
      exact le_of_mul_le_mul_left this h2

/-- **C10.** `remove_outliers` dispatches on exactly the two method names and raises ValueError otherwise. -/
theorem C10_dispatch (n : ℝ) (method : String) (c : C (Option ℝ)) :
    (method = "mean" → removeOutliers n method c = .ok (removeOutliersMean n c)) ∧
    (method = "median" → removeOutliers n method c = .ok (removeOutliersMedian n c)) ∧
    (method ≠ "mean" → method ≠ "median" → removeOutliers n method c = .error .valueError) := by
  refine ⟨?_, ?_, ?_⟩
  · rintro rfl; simp [removeOutliers]
  · rintro rfl; simp [removeOutliers]
  · intro h1 h2; simp [removeOutliers, h1, h2]

end Real

/-! ## Non-vacuity and concrete cases -/

/-- A 2×3 surface with a non-measured point. -/
def demoGrid : Grid (Option ℚ) := ⟨[[some 1, some 5, none], [some 2, some 8, some 4]], 3⟩

example : measured (flat demoGrid) ≠ [] := by decide
example : center demoGrid = ⟨[[some (-3), some 1, none], [some (-2), some 4, some 0]], 3⟩ := by decide +kernel
example : zero demoGrid = .ok ⟨[[some 0, some 4, none], [some 1, some 7, some 3]], 3⟩ := by decide +kernel
example : invert [some (1 : ℚ), some 5, some 2] = .ok [some 5, some 1, some 4] := by decide +kernel
example : removeOutliersMedian 2 ([some 1, some 2, none, some 3, some 100] : List (Option ℚ))
    = [some 1, some 2, none, some 3, none] := by decide +kernel
example : threshold 20 20 ([some 1, some 2, none, some 3, some 4, some 5] : List (Option ℚ))
    = .ok [none, some 2, none, some 3, some 4, some 5] := by decide +kernel
example : threshold (60 : ℚ) 40 [some 1] = .error .valueError := by decide +kernel

end Surfalize.Props
