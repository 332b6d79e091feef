import Verif.Model.Stats
import Verif.Props.HeightParams
import Verif.Props.Stepheight
import Verif.Props.Depth
import Mathlib.Algebra.BigOperators.Intervals
import Mathlib.Algebra.Order.Chebyshev

/-!
# C101 — summary statistics ignore non-measured points, are ordered and agree with the height parameters
-/
set_option linter.unusedSectionVars false
namespace Surfalize.Props
open Surfalize Container BaseOps HeightParams Spec Stats

namespace Stats

theorem sum_getD (l : List ℝ) (f : ℝ → ℝ) : ∑ i ∈ Finset.range l.length, f (l.getD i 0) = (l.map f).sum := by
  induction l with
  | nil => simp
  | cons a l ih =>
    rw [List.length_cons, Finset.sum_range_succ', List.map_cons, List.sum_cons, add_comm]
    simp only [List.getD_cons_succ, List.getD_cons_zero, ih]

theorem sorted_getD {l : List ℝ} (hs : l.Pairwise (· ≤ ·)) {i j : Nat} (hij : i ≤ j) (hj : j < l.length) :
    l.getD i 0 ≤ l.getD j 0 := by
  rw [getD_of_lt _ (by omega), getD_of_lt _ hj]
  rcases Nat.lt_or_eq_of_le hij with h | h
  · exact List.pairwise_iff_getElem.1 hs i j (by omega) hj h
  · subst h; exact le_refl _

/-- the median lies between the `i`-th smallest and the `i`-th largest value -/
theorem median_between (l : List ℝ) {i : Nat} (hi : 2 * i + 1 ≤ l.length) :
    (sortAsc l).getD i 0 ≤ median l ∧ median l ≤ (sortAsc l).getD (l.length - 1 - i) 0 := by
  have hs := sortAsc_sorted l
  have hlen := sortAsc_length l
  unfold median
  simp only
  split
  · rename_i h
    exact ⟨sorted_getD hs (by omega) (by omega), sorted_getD hs (by omega) (by omega)⟩
  · rename_i h
    have a1 := sorted_getD hs (i := i) (j := l.length / 2 - 1) (by omega) (by omega)
    have a2 := sorted_getD hs (i := i) (j := l.length / 2) (by omega) (by omega)
    have a3 := sorted_getD hs (i := l.length / 2 - 1) (j := l.length - 1 - i) (by omega) (by omega)
    have a4 := sorted_getD hs (i := l.length / 2) (j := l.length - 1 - i) (by omega) (by omega)
    constructor <;> linarith

/-- the median minimises the sum of the absolute distances -/
theorem median_l1 (l : List ℝ) (c : ℝ) : (l.map fun z => |z - median l|).sum ≤ (l.map fun z => |z - c|).sum := by
  have hlen := sortAsc_length l
  have hperm : ∀ t : ℝ, (l.map fun z => |z - t|).sum = ((sortAsc l).map fun z => |z - t|).sum := fun t =>
    ((sortAsc_perm l).symm.map _).sum_eq
  rw [hperm, hperm, ← sum_getD, ← sum_getD, hlen]
  set x := fun i => (sortAsc l).getD i 0 with hx
  have refl2 : ∀ t : ℝ, 2 * ∑ i ∈ Finset.range l.length, |x i - t|
      = ∑ i ∈ Finset.range l.length, (|x i - t| + |x (l.length - 1 - i) - t|) := fun t => by
    rw [Finset.sum_add_distrib, Finset.sum_range_reflect (fun i => |x i - t|), two_mul]
  have key : ∑ i ∈ Finset.range l.length, (|x i - median l| + |x (l.length - 1 - i) - median l|)
      ≤ ∑ i ∈ Finset.range l.length, (|x i - c| + |x (l.length - 1 - i) - c|) := by
    apply Finset.sum_le_sum
    intro i hi
    rw [Finset.mem_range] at hi
    by_cases h : 2 * i + 1 ≤ l.length
    · obtain ⟨b1, b2⟩ := median_between l h
      have b1 : x i ≤ median l := b1
      have b2 : median l ≤ x (l.length - 1 - i) := b2
      rw [abs_of_nonpos (by linarith), abs_of_nonneg (a := x (l.length - 1 - i) - median l) (by linarith)]
      have := neg_abs_le (x i - c)
      have := le_abs_self (x (l.length - 1 - i) - c)
      linarith
    · obtain ⟨b1, b2⟩ := median_between l (i := l.length - 1 - i) (by omega)
      rw [show l.length - 1 - (l.length - 1 - i) = i by omega] at b2
      have b1 : x (l.length - 1 - i) ≤ median l := b1
      have b2 : median l ≤ x i := b2
      rw [abs_of_nonneg (a := x i - median l) (by linarith), abs_of_nonpos (by linarith)]
      have := neg_abs_le (x (l.length - 1 - i) - c)
      have := le_abs_self (x i - c)
      linarith
  rw [← refl2, ← refl2] at key
  linarith

theorem abs_sum_le (l : List ℝ) (f : ℝ → ℝ) : |(l.map f).sum| ≤ (l.map fun z => |f z|).sum := by
  induction l with
  | nil => simp
  | cons a l ih =>
    rw [List.map_cons, List.sum_cons, List.map_cons, List.sum_cons]
    exact le_trans (abs_add_le _ _) (by linarith)

theorem mean_median (l : List ℝ) (h : l ≠ []) : |mean l - median l| ≤ (l.map fun z => |z - mean l|).sum / l.length := by
  have hn := length_pos_cast (K := ℝ) h
  have e : mean l - median l = (l.map fun z => z - median l).sum / l.length := by
    rw [sum_map_sub_const]; unfold mean; field_simp
  rw [e, abs_div, abs_of_pos hn]
  apply div_le_div_of_nonneg_right _ hn.le
  exact le_trans (abs_sum_le l _) (median_l1 l _)

theorem std_eq (l : List ℝ) : BaseOps.std l = Real.sqrt (moment 2 l) := by
  unfold BaseOps.std variance moment mean
  rw [List.length_map]
  rfl

end Stats
open Stats

section
variable {C : Type → Type} [Container C]

/-- **C101** (definedness). `mean()`, `median()` and `std()` are numbers exactly when something is measured, and so are
`min()` and `max()`, which raise ValueError exactly for data without points. -/
theorem C101_defined (c : C (Option ℝ)) :
    (smean c = none ↔ ∀ z ∈ flat c, z = none) ∧ (smedian c = none ↔ ∀ z ∈ flat c, z = none) ∧
    (sstd c = none ↔ ∀ z ∈ flat c, z = none) ∧
    (smin c = .error .valueError ↔ flat c = []) ∧ (smax c = .error .valueError ↔ flat c = []) ∧
    (smin c = .ok none ↔ flat c ≠ [] ∧ ∀ z ∈ flat c, z = none) ∧ (smax c = .ok none ↔ flat c ≠ [] ∧ ∀ z ∈ flat c, z = none) := by
  have hm : measured (flat c) = [] ↔ ∀ z ∈ flat c, z = none := by
    rw [List.eq_nil_iff_forall_not_mem]
    constructor
    · intro h z hz
      cases z with
      | none => rfl
      | some z => exact absurd (mem_measured.2 hz) (h z)
    · intro h z hz
      cases h _ (mem_measured.1 hz)
  have hmin : (measured (flat c)).min? = none ↔ ∀ z ∈ flat c, z = none := by rw [← hm, List.min?_eq_none_iff]
  have hmax : (measured (flat c)).max? = none ↔ ∀ z ∈ flat c, z = none := by rw [← hm, List.max?_eq_none_iff]
  refine ⟨?_, ?_, ?_, ?_, ?_, ?_, ?_⟩
  · rw [← hm]; unfold smean nanmean; split <;> simp_all
  · rw [← hm]; unfold smedian; split <;> simp_all
  · rw [← hm]; unfold sstd; split <;> simp_all
  · unfold smin; split <;> simp_all
  · unfold smax; split <;> simp_all
  · rw [← hmin]; unfold smin nanmin; split <;> simp_all
  · rw [← hmax]; unfold smax nanmax; split <;> simp_all

/-- **C101** (missing points). Every statistic is that of the measured heights alone, as a profile. -/
theorem C101_ignore_missing (c : C (Option ℝ)) (h : measured (flat c) ≠ []) :
    let m : List (Option ℝ) := (measured (flat c)).map some
    smin c = smin (C := List) m ∧ smax c = smax (C := List) m ∧ smean c = smean (C := List) m ∧
    smedian c = smedian (C := List) m ∧ sstd c = sstd (C := List) m := by
  intro m
  have hm : measured (flat (C := List) m) = measured (flat c) := measured_some _
  have h1 : flat c ≠ [] := fun h0 => h (by rw [h0]; rfl)
  have h2 : flat (C := List) m ≠ [] := fun h0 => h (by rw [← hm, h0]; rfl)
  unfold smin smax smean smedian sstd nanmin nanmax nanmean
  rw [hm, if_neg h1, if_neg h2, if_neg h1, if_neg h2]
  exact ⟨rfl, rfl, rfl, rfl, rfl⟩

/-- **C101** (order). `min ≤ median ≤ max`, `min ≤ mean ≤ max`, the extremes are measured heights, and mean and median
differ by at most the mean absolute deviation, hence by at most the standard deviation, which is at most half the range. -/
theorem C101_order (c : C (Option ℝ)) (h : measured (flat c) ≠ []) :
    ∃ mn mx μ md σ, smin c = .ok (some mn) ∧ smax c = .ok (some mx) ∧ smean c = some μ ∧ smedian c = some md ∧
      sstd c = some σ ∧ some mn ∈ flat c ∧ some mx ∈ flat c ∧ mn ≤ md ∧ md ≤ mx ∧ mn ≤ μ ∧ μ ≤ mx ∧
      |μ - md| ≤ ((measured (flat c)).map fun z => |z - μ|).sum / (measured (flat c)).length ∧
      ((measured (flat c)).map fun z => |z - μ|).sum / (measured (flat c)).length ≤ σ ∧ σ ≤ (mx - mn) / 2 := by
  obtain ⟨mn, hmn⟩ := exists_min? h
  obtain ⟨mx, hmx⟩ := exists_max? h
  have s1 := min?_spec.1 hmn
  have s2 := max?_spec.1 hmx
  have hne : flat c ≠ [] := fun h0 => h (by rw [h0]; rfl)
  -- the surface of the measured heights in one row
  set l := measured (flat c) with hl
  have hf : flat (⟨[l.map some], l.length⟩ : Grid (Option ℝ)) = l.map some := by simp [flat]
  have hp : heightParameters ⟨[l.map some], l.length⟩ = .ok (paramsOf l) := by
    rw [heightParameters_ok_iff, hf, measured_some]
    exact ⟨by simp, by simpa using h, rfl⟩
  have ho := C14_ordering _ _ hp
  have e1 : (paramsOf l).sz = mx - mn := ho.2.2.2.2.2.2.2.1 mx mn (by rw [hf, measured_some]; exact s2) (by rw [hf, measured_some]; exact s1)
  refine ⟨mn, mx, mean l, median l, BaseOps.std l, ?_, ?_, ?_, ?_, ?_, mem_measured.1 s1.1, mem_measured.1 s2.1,
    Surfalize.Props.median_ge h s1.2, Stepheight.median_le h s2.2, le_mean h s1.2, mean_le h s2.2, mean_median l h, ?_, ?_⟩
  · unfold smin nanmin; rw [if_neg hne, ← hl, hmn]
  · unfold smax nanmax; rw [if_neg hne, ← hl, hmx]
  · unfold smean nanmean; rw [← hl, if_neg h]
  · unfold smedian; rw [← hl, if_neg h]
  · unfold sstd; rw [← hl, if_neg h]
  · have := ho.2.1
    rw [paramsOf_sa, paramsOf_sq, ← std_eq, ← mu_eq] at this
    exact this
  · have := ho.2.2.2.1
    rw [paramsOf_sq, ← std_eq, e1] at this
    exact this

/-- **C101** (units and datum). The statistics follow the heights: for `a > 0`, heights `a·z + b` have the statistics
`a·x + b`, and the standard deviation `a·σ`. -/
theorem C101_affine (c : C (Option ℝ)) (a b : ℝ) (ha : 0 < a) :
    let c' := Container.map (Option.map fun z => a * z + b) c
    smin c' = (smin c).map (Option.map fun x => a * x + b) ∧ smax c' = (smax c).map (Option.map fun x => a * x + b) ∧
    smean c' = (smean c).map (fun x => a * x + b) ∧ smedian c' = (smedian c).map (fun x => a * x + b) ∧
    sstd c' = (sstd c).map fun x => a * x := by
  intro c'
  have hf : flat c' = (flat c).map (Option.map fun z => a * z + b) := flat_map _ _
  have hm : measured (flat c') = (measured (flat c)).map fun z => a * z + b := by rw [hf, measured_map_map]
  have h0 : flat c' = [] ↔ flat c = [] := by rw [hf, List.map_eq_nil_iff]
  have hmono : ∀ x y : ℝ, a * x + b ≤ a * y + b ↔ x ≤ y := fun x y => by
    rw [add_le_add_iff_right, mul_le_mul_iff_right₀ ha]
  have hmin : nanmin (flat c') = (nanmin (flat c)).map fun x => a * x + b := by
    unfold nanmin
    rw [hm]
    cases h : (measured (flat c)).min? with
    | none => rw [List.min?_eq_none_iff] at h; rw [h]; rfl
    | some m =>
      rw [min?_spec] at h
      show _ = some _
      rw [min?_spec]
      refine ⟨List.mem_map.2 ⟨m, h.1, rfl⟩, fun x hx => ?_⟩
      obtain ⟨y, hy, rfl⟩ := List.mem_map.1 hx
      exact (hmono _ _).2 (h.2 y hy)
  have hmax : nanmax (flat c') = (nanmax (flat c)).map fun x => a * x + b := by
    unfold nanmax
    rw [hm]
    cases h : (measured (flat c)).max? with
    | none => rw [List.max?_eq_none_iff] at h; rw [h]; rfl
    | some m =>
      rw [max?_spec] at h
      show _ = some _
      rw [max?_spec]
      refine ⟨List.mem_map.2 ⟨m, h.1, rfl⟩, fun x hx => ?_⟩
      obtain ⟨y, hy, rfl⟩ := List.mem_map.1 hx
      exact (hmono _ _).2 (h.2 y hy)
  refine ⟨?_, ?_, ?_, ?_, ?_⟩
  · unfold smin
    rw [hmin]
    by_cases h : flat c = []
    · rw [if_pos h, if_pos (h0.2 h)]; rfl
    · rw [if_neg h, if_neg (fun hc => h (h0.1 hc))]; rfl
  · unfold smax
    rw [hmax]
    by_cases h : flat c = []
    · rw [if_pos h, if_pos (h0.2 h)]; rfl
    · rw [if_neg h, if_neg (fun hc => h (h0.1 hc))]; rfl
  all_goals by_cases h : measured (flat c) = []
  · unfold smean nanmean; rw [hm, h]; rfl
  · unfold smean nanmean
    rw [hm, if_neg h, if_neg (by simpa using h)]
    have := mean_map_add_const (l := (measured (flat c)).map fun z => a * z) (by simpa using h) b
    rw [List.map_map, mean_map_const_mul] at this
    exact congrArg some this
  · unfold smedian; rw [hm, h]; rfl
  · unfold smedian
    rw [hm, if_neg h, if_neg (by simpa using h), Stepheight.median_affine h ha]
    rfl
  · unfold sstd; rw [hm, h]; rfl
  · unfold sstd
    rw [hm, if_neg h, if_neg (by simpa using h), std_eq, std_eq]
    have e : ((measured (flat c)).map fun z => a * z + b) = ((measured (flat c)).map fun z => a * z).map fun z => z + b := by
      rw [List.map_map]; rfl
    rw [e, moment_shift (by simpa using h), moment_scale, Real.sqrt_mul (sq_nonneg a), Real.sqrt_sq ha.le]
    rfl

/-- **C101** (operations). After `center()` the mean is 0, after `zero()` the minimum is 0; neither changes the standard
deviation or the range. -/
theorem C101_operations (c c' : C (Option ℝ)) (h : measured (flat c) ≠ []) (hz : zero c = .ok c') :
    smean (center c) = some 0 ∧ sstd (center c) = sstd c ∧ smin c' = .ok (some 0) ∧ sstd c' = sstd c ∧
    ∀ mn mx, smin c = .ok (some mn) → smax c = .ok (some mx) → smax c' = .ok (some (mx - mn)) := by
  have hshift : ∀ (d : C (Option ℝ)) (t : ℝ), flat d = (flat c).map (Option.map fun z => z - t) → sstd d = sstd c := by
    intro d t hd
    unfold sstd
    rw [hd, measured_map_map, if_neg h, if_neg (by simpa using h), std_eq, std_eq]
    have := moment_shift h (-t) 2
    simp only [← sub_eq_add_neg] at this
    rw [this]
  obtain ⟨c1, _, c3, _⟩ := C07_center c h
  obtain ⟨m, c'', m1, m2, z1, z2, z3, _, _⟩ := C08_zero c h
  obtain rfl : c'' = c' := by rw [z1] at hz; exact Except.ok.inj hz
  have hne : flat c'' ≠ [] := fun h0 => h (by
    rw [h0] at z2
    have := List.map_eq_nil_iff.1 z2.symm
    rw [this]; rfl)
  have hne0 : flat c ≠ [] := fun h0 => h (by rw [h0]; rfl)
  refine ⟨c3, hshift _ _ c1, ?_, hshift _ m z2, ?_⟩
  · unfold smin; rw [if_neg hne, z3]
  · intro mn mx hmn hmx
    unfold smin at hmn
    unfold smax at hmx ⊢
    rw [if_neg hne0] at hmn hmx
    rw [if_neg hne]
    have hmn := min?_spec.1 (Except.ok.inj hmn)
    have hmx := max?_spec.1 (Except.ok.inj hmx)
    obtain rfl : m = mn := le_antisymm (m2 mn hmn.1) (hmn.2 m m1)
    congr 1
    show (measured (flat c'')).max? = _
    rw [z2, measured_map_map, max?_spec]
    refine ⟨List.mem_map.2 ⟨mx, hmx.1, rfl⟩, fun x hx => ?_⟩
    obtain ⟨y, hy, rfl⟩ := List.mem_map.1 hx
    have := hmx.2 y hy
    linarith

end

/-- **C101** (agreement). On a fully measured surface `std() = Sq`, `max() - min() = Sz`, `max() - mean() = Sp` and
`mean() - min() = Sv`; mean and median differ by at most `Sa`. -/
theorem C101_height_parameters (g : Grid (Option ℝ)) (p : Params) (hp : heightParameters g = .ok p) :
    ∃ mn mx μ md, smin g = .ok (some mn) ∧ smax g = .ok (some mx) ∧ smean g = some μ ∧ smedian g = some md ∧
      sstd g = some p.sq ∧ mx - mn = p.sz ∧ mx - μ = p.sp ∧ μ - mn = p.sv ∧ |μ - md| ≤ p.sa := by
  obtain ⟨h1, h2, rfl⟩ := (heightParameters_ok_iff g p).1 hp
  have h := measured_ne_nil h1 h2
  obtain ⟨mn, hmn⟩ := exists_min? h
  obtain ⟨mx, hmx⟩ := exists_max? h
  have s1 := min?_spec.1 hmn
  have s2 := max?_spec.1 hmx
  have e1 : maxL (measured (flat g)) = mx := maxL_eq s2.1 s2.2
  have e2 : minL (measured (flat g)) = mn := minL_eq s1.1 s1.2
  refine ⟨mn, mx, mean (measured (flat g)), median (measured (flat g)), ?_, ?_, ?_, ?_, ?_, ?_, ?_, ?_, ?_⟩
  · unfold smin nanmin; rw [if_neg h2, hmn]
  · unfold smax nanmax; rw [if_neg h2, hmx]
  · unfold smean nanmean; rw [if_neg h]
  · unfold smedian; rw [if_neg h]
  · unfold sstd; rw [if_neg h, std_eq, paramsOf_sq]
  · rw [paramsOf_sz, paramsOf_sp h, paramsOf_sv h, e1, e2]; ring
  · rw [paramsOf_sp h, e1, mu_eq]
  · rw [paramsOf_sv h, e2, mu_eq]
  · have := mean_median _ h
    rw [paramsOf_sa, ← mu_eq]
    exact this

/-- Non-vacuity: a surface with a missing point. -/
example : smin (⟨[[some 3, none], [some 1, some 8]], 2⟩ : Grid (Option ℚ)) = .ok (some 1) ∧
    smax (⟨[[some 3, none], [some 1, some 8]], 2⟩ : Grid (Option ℚ)) = .ok (some 8) ∧
    smean (⟨[[some 3, none], [some 1, some 8]], 2⟩ : Grid (Option ℚ)) = some 4 ∧
    smedian (⟨[[some 3, none], [some 1, some 8]], 2⟩ : Grid (Option ℚ)) = some 3 := by decide +kernel

end Surfalize.Props
