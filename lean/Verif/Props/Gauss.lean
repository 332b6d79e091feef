import Verif.Lemmas.Gauss
import Verif.Lemmas.GridFn
import Verif.Lemmas.HeightParams
import Verif.Spec.Gauss
import Verif.Props.Filter
import Mathlib.Tactic.NormNum
/-!
# C95 — Gaussian filtering averages heights
-/
set_option linter.unusedSectionVars false
namespace Surfalize.Props
open Surfalize Gauss GaussSpec Finset Container

theorem surfaceOf_congr {ny nx : Nat} {h h' : Nat → Nat → ℝ} (e : ∀ i < ny, ∀ j < nx, h i j = h' i j) :
    surfaceOf ny nx h = surfaceOf ny nx h' := by
  unfold surfaceOf Grid.ofFn
  congr 1
  refine List.map_congr_left fun i hi => List.map_congr_left fun j hj => ?_
  exact congrArg some (e i (List.mem_range.1 hi) j (List.mem_range.1 hj))

theorem surfaceOf_get {ny nx : Nat} (h : Nat → Nat → ℝ) {i j : Nat} (hi : i < ny) (hj : j < nx) :
    (surfaceOf ny nx h).get i j = some (h i j) := get_ofFn _ hi hj

theorem surfaceOf_inj {ny nx : Nat} {h h' : Nat → Nat → ℝ} (e : surfaceOf ny nx h = surfaceOf ny nx h') {i j : Nat}
    (hi : i < ny) (hj : j < nx) : h i j = h' i j := by
  have h1 := surfaceOf_get h hi hj
  rw [e, surfaceOf_get h' hi hj] at h1
  exact (Option.some.inj h1).symm

theorem surfaceOf_measured (ny nx : Nat) (h : Nat → Nat → ℝ) : none ∉ flat (surfaceOf ny nx h) := by
  unfold surfaceOf
  rw [flat_ofFn]
  simp

theorem surfaceOf_zip (ny nx : Nat) (h l : Nat → Nat → ℝ) :
    ZipContainer.zipW osub (surfaceOf ny nx h) (surfaceOf ny nx l) = surfaceOf ny nx fun i j => h i j - l i j := by
  show ({ rows := List.zipWith (List.zipWith osub) (surfaceOf ny nx h).rows (surfaceOf ny nx l).rows, nx := _ } : Grid (Option ℝ)) = _
  unfold surfaceOf Grid.ofFn
  congr 1
  simp only [List.zipWith_map, List.zipWith_self]
  rfl

/-- Every fully measured surface is of this form. -/
theorem surfaceOf_val {g : Grid (Option ℝ)} (hg : g.WF) (hf : none ∉ flat g) : g = surfaceOf g.ny g.nx g.val := by
  conv_lhs => rw [← ofFn_get hg]
  unfold surfaceOf Grid.ofFn
  congr 1
  refine List.map_congr_left fun i hi => List.map_congr_left fun j hj => ?_
  exact get_eq_some_val hg hf (List.mem_range.1 hi) (List.mem_range.1 hj)

/-- The two smoothings one after the other. -/
noncomputable def twice (mode : End) (σy σx : ℝ) (ny nx : Nat) (h : Nat → Nat → ℝ) (i j : Nat) : ℝ :=
  axis mode σx nx (fun k => axis mode σy ny (fun k' => h k' k) i) j

theorem smooth2_eq (mode : End) (sx sy c : ℝ) (ny nx : Nat) (h : Nat → Nat → ℝ) :
    smooth2 mode sx sy c (surfaceOf ny nx h)
      = surfaceOf ny nx (twice mode (Filter.sigma (c / sy)) (Filter.sigma (c / sx)) ny nx h) := by
  have hny : (surfaceOf ny nx h).ny = ny := ofFn_ny _ _ _
  have hnx : (surfaceOf ny nx h).nx = nx := ofFn_nx _ _ _
  unfold smooth2
  dsimp only
  rw [hny, hnx]
  show Grid.ofFn ny nx (fun i j => some _) = surfaceOf ny nx _
  refine surfaceOf_congr fun i hi j hj => ?_
  refine axis_congr (fun k hk => axis_congr (fun k' hk' => ?_) hi) hj
  show ((surfaceOf ny nx h).get k' k).getD 0 = _
  rw [surfaceOf_get h hk' hk]; rfl

theorem low_eq (mode : End) (sx sy c : ℝ) (c2 : Option ℝ) (ip : Bool) (ny nx : Nat) (h : Nat → Nat → ℝ) :
    filterSurface mode sx sy "lowpass" c c2 ip (surfaceOf ny nx h)
      = .ok (.one (surfaceOf ny nx (twice mode (Filter.sigma (c / sy)) (Filter.sigma (c / sx)) ny nx h))) := by
  have hmiss : ¬ BaseOps.hasMissing (surfaceOf ny nx h) = true := fun q =>
    surfaceOf_measured ny nx h ((HeightParams.mem_none_iff_hasMissing _).1 q)
  unfold filterSurface Filter.filter BaseOps.noNonmeasured
  rw [if_neg hmiss]
  simp [Filter.lowpass, smooth2_eq]

theorem high_eq (mode : End) (sx sy c : ℝ) (c2 : Option ℝ) (ip : Bool) (ny nx : Nat) (h : Nat → Nat → ℝ) :
    filterSurface mode sx sy "highpass" c c2 ip (surfaceOf ny nx h)
      = .ok (.one (surfaceOf ny nx fun i j => h i j - twice mode (Filter.sigma (c / sy)) (Filter.sigma (c / sx)) ny nx h i j)) := by
  have hmiss : ¬ BaseOps.hasMissing (surfaceOf ny nx h) = true := fun q =>
    surfaceOf_measured ny nx h ((HeightParams.mem_none_iff_hasMissing _).1 q)
  unfold filterSurface Filter.filter BaseOps.noNonmeasured
  rw [if_neg hmiss]
  simp [Filter.highpass, smooth2_eq, surfaceOf_zip]

theorem band_eq (mode : End) (sx sy c c2 : ℝ) (hc : c < c2) (ip : Bool) (ny nx : Nat) (h : Nat → Nat → ℝ) :
    filterSurface mode sx sy "bandpass" c (some c2) ip (surfaceOf ny nx h)
      = filterSurface mode sx sy "highpass" c2 none ip
          (surfaceOf ny nx (twice mode (Filter.sigma (c / sy)) (Filter.sigma (c / sx)) ny nx h)) := by
  rw [high_eq]
  have hmiss : ¬ BaseOps.hasMissing (surfaceOf ny nx h) = true := fun q =>
    surfaceOf_measured ny nx h ((HeightParams.mem_none_iff_hasMissing _).1 q)
  unfold filterSurface Filter.filter BaseOps.noNonmeasured
  rw [if_neg hmiss]
  simp [Filter.highpass, Filter.lowpass, smooth2_eq, surfaceOf_zip, not_le.2 hc]

theorem twice_sum {mode : End} (hm : mode = .reflect ∨ mode = .wrap) (σy σx : ℝ) (ny nx : Nat) (h : Nat → Nat → ℝ) :
    ∑ i ∈ range ny, ∑ j ∈ range nx, twice mode σy σx ny nx h i j = ∑ i ∈ range ny, ∑ j ∈ range nx, h i j := by
  unfold twice
  simp only [axis_sum hm]
  rw [sum_comm]
  simp only [axis_sum hm]
  rw [sum_comm]

/-- **C95** (surfaces). Filtering a fully measured surface always succeeds. The heights of the lowpass result lie in every
interval that contains the heights of the surface (unless zeros are assumed beyond the ends), the highpass result is the
difference, and with the default end treatment (and with `wrap`) the lowpass result has the same sum of heights, hence the
same mean, and the highpass result has mean zero. -/
theorem C95_surface (mode : End) (sx sy c : ℝ) (c2 : Option ℝ) (ip : Bool) (ny nx : Nat) (h : Nat → Nat → ℝ) :
    ∃ l : Nat → Nat → ℝ,
      filterSurface mode sx sy "lowpass" c c2 ip (surfaceOf ny nx h) = .ok (.one (surfaceOf ny nx l)) ∧
      filterSurface mode sx sy "highpass" c c2 ip (surfaceOf ny nx h) = .ok (.one (surfaceOf ny nx fun i j => h i j - l i j)) ∧
      (mode ≠ .constant → ∀ lo hi, (∀ i < ny, ∀ j < nx, lo ≤ h i j ∧ h i j ≤ hi) → ∀ i < ny, ∀ j < nx, lo ≤ l i j ∧ l i j ≤ hi) ∧
      (∀ b, (∀ i < ny, ∀ j < nx, |h i j| ≤ b) → ∀ i < ny, ∀ j < nx, |l i j| ≤ b) ∧
      (mode = .reflect ∨ mode = .wrap →
        ∑ i ∈ range ny, ∑ j ∈ range nx, l i j = ∑ i ∈ range ny, ∑ j ∈ range nx, h i j ∧
        ∑ i ∈ range ny, ∑ j ∈ range nx, (h i j - l i j) = 0) := by
  refine ⟨_, low_eq _ _ _ _ _ _ _ _ _, high_eq _ _ _ _ _ _ _ _ _, ?_, ?_, ?_⟩
  · intro hm lo hi hb i hi' j hj
    exact axis_between hm _ (fun k hk => axis_between hm _ (fun k' hk' => hb k' hk' k hk) hi') hj
  · intro b hb i hi j hj
    exact axis_abs mode _ (fun k hk => axis_abs mode _ (fun k' hk' => hb k' hk' k hk) hi) hj
  · intro hm
    have e := twice_sum hm (Filter.sigma (c / sy)) (Filter.sigma (c / sx)) ny nx h
    refine ⟨e, ?_⟩
    simp only [sum_sub_distrib]
    rw [e, sub_self]

/-- **C95** (bandpass). The bandpass result exists for `cutoff < cutoff2` and has mean zero with the default end treatment. -/
theorem C95_bandpass (mode : End) (sx sy c c2 : ℝ) (hc : c < c2) (ip : Bool) (ny nx : Nat) (h : Nat → Nat → ℝ) :
    ∃ r : Nat → Nat → ℝ, filterSurface mode sx sy "bandpass" c (some c2) ip (surfaceOf ny nx h) = .ok (.one (surfaceOf ny nx r)) ∧
      (mode = .reflect ∨ mode = .wrap → ∑ i ∈ range ny, ∑ j ∈ range nx, r i j = 0) := by
  rw [band_eq _ _ _ _ _ hc, high_eq]
  refine ⟨_, rfl, fun hm => ?_⟩
  simp only [sum_sub_distrib]
  rw [twice_sum hm _ _ ny nx (twice _ _ _ _ _ _), sub_self]

/-- **C95** (linearity). The lowpass filter commutes with scaling and shifting the heights, the highpass filter with scaling,
and a shift does not change its result; both of a sum are the sums of both. -/
theorem C95_linear {mode : End} {sx sy c : ℝ} {c2 : Option ℝ} {ip : Bool} {ny nx : Nat} {h h' l l' : Nat → Nat → ℝ}
    (e : filterSurface mode sx sy "lowpass" c c2 ip (surfaceOf ny nx h) = .ok (.one (surfaceOf ny nx l)))
    (e' : filterSurface mode sx sy "lowpass" c c2 ip (surfaceOf ny nx h') = .ok (.one (surfaceOf ny nx l'))) :
    (∀ a b : ℝ, mode ≠ .constant ∨ b = 0 →
      filterSurface mode sx sy "lowpass" c c2 ip (surfaceOf ny nx fun i j => a * h i j + b)
        = .ok (.one (surfaceOf ny nx fun i j => a * l i j + b)) ∧
      filterSurface mode sx sy "highpass" c c2 ip (surfaceOf ny nx fun i j => a * h i j + b)
        = .ok (.one (surfaceOf ny nx fun i j => a * (h i j - l i j)))) ∧
    filterSurface mode sx sy "lowpass" c c2 ip (surfaceOf ny nx fun i j => h i j + h' i j)
      = .ok (.one (surfaceOf ny nx fun i j => l i j + l' i j)) := by
  rw [low_eq] at e e'
  have q : ∀ i < ny, ∀ j < nx, twice mode (Filter.sigma (c / sy)) (Filter.sigma (c / sx)) ny nx h i j = l i j :=
    fun i hi j hj => surfaceOf_inj (by injection e with e; injection e) hi hj
  have q' : ∀ i < ny, ∀ j < nx, twice mode (Filter.sigma (c / sy)) (Filter.sigma (c / sx)) ny nx h' i j = l' i j :=
    fun i hi j hj => surfaceOf_inj (by injection e' with e'; injection e') hi hj
  have aff : ∀ a b : ℝ, mode ≠ .constant ∨ b = 0 → ∀ i j,
      twice mode (Filter.sigma (c / sy)) (Filter.sigma (c / sx)) ny nx (fun i j => a * h i j + b) i j
        = a * twice mode (Filter.sigma (c / sy)) (Filter.sigma (c / sx)) ny nx h i j + b := by
    intro a b hm i j
    unfold twice
    simp only [axis_affine a b hm]
  refine ⟨fun a b hm => ⟨?_, ?_⟩, ?_⟩
  · rw [low_eq]
    congr 2
    exact surfaceOf_congr fun i hi j hj => by rw [aff a b hm, q i hi j hj]
  · rw [high_eq]
    congr 2
    exact surfaceOf_congr fun i hi j hj => by rw [aff a b hm, q i hi j hj]; ring
  · rw [low_eq]
    congr 2
    refine surfaceOf_congr fun i hi j hj => ?_
    rw [← q i hi j hj, ← q' i hi j hj]
    unfold twice
    simp only [axis_add]

/-- **C95** (mirror images). Filtering the surface mirrored left-right or top-bottom gives the mirrored results. -/
theorem C95_mirror {mode : End} {sx sy c : ℝ} {c2 : Option ℝ} {ip : Bool} {ny nx : Nat} {h l : Nat → Nat → ℝ}
    (e : filterSurface mode sx sy "lowpass" c c2 ip (surfaceOf ny nx h) = .ok (.one (surfaceOf ny nx l))) :
    filterSurface mode sx sy "lowpass" c c2 ip (surfaceOf ny nx fun i j => h i (nx - 1 - j))
      = .ok (.one (surfaceOf ny nx fun i j => l i (nx - 1 - j))) ∧
    filterSurface mode sx sy "lowpass" c c2 ip (surfaceOf ny nx fun i j => h (ny - 1 - i) j)
      = .ok (.one (surfaceOf ny nx fun i j => l (ny - 1 - i) j)) := by
  rw [low_eq] at e
  have q : ∀ i < ny, ∀ j < nx, twice mode (Filter.sigma (c / sy)) (Filter.sigma (c / sx)) ny nx h i j = l i j :=
    fun i hi j hj => surfaceOf_inj (by injection e with e; injection e) hi hj
  constructor
  · rw [low_eq]
    congr 2
    refine surfaceOf_congr fun i hi j hj => ?_
    rw [← q i hi (nx - 1 - j) (by omega)]
    exact axis_reverse mode _ (fun k => axis mode _ ny (fun k' => h k' k) i) hj
  · rw [low_eq]
    congr 2
    refine surfaceOf_congr fun i hi j hj => ?_
    rw [← q (ny - 1 - i) (by omega) j hj]
    exact axis_congr (fun k hk => axis_reverse mode _ (fun k' => h k' k) hi) hj

/-- The constant in the standard deviation is positive. -/
theorem sigma_const_pos : 0 < Real.sqrt (Real.log 2 / 2) := Real.sqrt_pos.2 (by have := Real.log_pos one_lt_two; linarith)

/-- **C95** (cutoffs below the resolution, negative cutoffs). If four standard deviations are less than half a point on both
axes, i.e. the cutoff is below about two thirds of both steps (or not positive), filtering does nothing: the lowpass
result is the surface, the highpass result is zero. -/
theorem C95_small_cutoff (mode : End) (sx sy c : ℝ) (hx : 0 < sx) (hy : 0 < sy)
    (h1 : c * (8 * Real.sqrt (Real.log 2 / 2) / Real.pi) < sx) (h2 : c * (8 * Real.sqrt (Real.log 2 / 2) / Real.pi) < sy)
    (c2 : Option ℝ) (ip : Bool) (ny nx : Nat) (h : Nat → Nat → ℝ) :
    filterSurface mode sx sy "lowpass" c c2 ip (surfaceOf ny nx h) = .ok (.one (surfaceOf ny nx h)) ∧
    filterSurface mode sx sy "highpass" c c2 ip (surfaceOf ny nx h) = .ok (.one (surfaceOf ny nx fun _ _ => 0)) := by
  have r0 : ∀ s : ℝ, 0 < s → c * (8 * Real.sqrt (Real.log 2 / 2) / Real.pi) < s → radius (Filter.sigma (c / s)) = 0 := by
    intro s hs hc
    unfold radius
    rw [Nat.floor_eq_zero]
    have : 4 * Filter.sigma (c / s) = (c * (8 * Real.sqrt (Real.log 2 / 2) / Real.pi)) / s / 2 := by
      unfold Filter.sigma; field_simp; ring
    rw [this]
    have := (div_lt_one hs).2 hc
    linarith
  have e : ∀ i < ny, ∀ j < nx, twice mode (Filter.sigma (c / sy)) (Filter.sigma (c / sx)) ny nx h i j = h i j := by
    intro i hi j hj
    unfold twice
    rw [axis_radius_zero (r0 sx hx h1) _ hj, axis_radius_zero (r0 sy hy h2) _ hi]
  constructor
  · rw [low_eq, surfaceOf_congr e]
  · rw [high_eq]
    congr 2
    exact surfaceOf_congr fun i hi j hj => by rw [e i hi j hj, sub_self]

/-! ## Profiles -/

theorem profileOf_congr {n : Nat} {h h' : Nat → ℝ} (e : ∀ i < n, h i = h' i) : profileOf n h = profileOf n h' := by
  unfold profileOf
  exact List.map_congr_left fun i hi => by rw [e i (List.mem_range.1 hi)]

theorem profileOf_length (n : Nat) (h : Nat → ℝ) : (profileOf n h).length = n := by simp [profileOf]

theorem profileOf_getD {n : Nat} (h : Nat → ℝ) {i : Nat} (hi : i < n) : (profileOf n h).getD i none = some (h i) := by
  unfold profileOf
  rw [List.getD_eq_getElem?_getD, List.getElem?_map, List.getElem?_range hi]; rfl

theorem profileOf_inj {n : Nat} {h h' : Nat → ℝ} (e : profileOf n h = profileOf n h') {i : Nat} (hi : i < n) : h i = h' i := by
  have h1 := profileOf_getD h hi
  rw [e, profileOf_getD h' hi] at h1
  exact (Option.some.inj h1).symm

theorem smooth1_eq (mode : End) (step c : ℝ) (n : Nat) (h : Nat → ℝ) :
    smooth1 mode step c (profileOf n h) = profileOf n (axis mode (Filter.sigma (c / step)) n h) := by
  unfold smooth1
  rw [profileOf_length]
  show profileOf n _ = _
  refine profileOf_congr fun i hi => axis_congr (fun k hk => ?_) hi
  rw [profileOf_getD h hk]; rfl

theorem profile_hasMissing (n : Nat) (h : Nat → ℝ) : ¬ BaseOps.hasMissing (profileOf n h) = true := fun q => by
  have := (HeightParams.mem_none_iff_hasMissing (profileOf n h)).1 q
  change none ∈ profileOf n h at this
  simp [profileOf] at this

theorem low1_eq (mode : End) (step c : ℝ) (c2 : Option ℝ) (ip : Bool) (n : Nat) (h : Nat → ℝ) :
    filterProfile mode step "lowpass" c c2 ip (profileOf n h) = .ok (.one (profileOf n (axis mode (Filter.sigma (c / step)) n h))) := by
  unfold filterProfile Filter.filter BaseOps.noNonmeasured
  rw [if_neg (profile_hasMissing n h)]
  simp [Filter.lowpass, smooth1_eq]

theorem high1_eq (mode : End) (step c : ℝ) (c2 : Option ℝ) (ip : Bool) (n : Nat) (h : Nat → ℝ) :
    filterProfile mode step "highpass" c c2 ip (profileOf n h)
      = .ok (.one (profileOf n fun i => h i - axis mode (Filter.sigma (c / step)) n h i)) := by
  unfold filterProfile Filter.filter BaseOps.noNonmeasured
  rw [if_neg (profile_hasMissing n h)]
  simp only [Filter.highpass, smooth1_eq]
  have : ZipContainer.zipW osub (profileOf n h) (profileOf n (axis mode (Filter.sigma (c / step)) n h))
      = profileOf n fun i => h i - axis mode (Filter.sigma (c / step)) n h i := by
    show List.zipWith osub _ _ = _
    unfold profileOf
    simp only [List.zipWith_map, List.zipWith_self]
    rfl
  simp [this]

/-- **C95** (profiles). The same for profiles: range, mean, scaling and shifting, reversal. -/
theorem C95_profile (mode : End) (step c : ℝ) (c2 : Option ℝ) (ip : Bool) (n : Nat) (h : Nat → ℝ) :
    ∃ l : Nat → ℝ,
      filterProfile mode step "lowpass" c c2 ip (profileOf n h) = .ok (.one (profileOf n l)) ∧
      filterProfile mode step "highpass" c c2 ip (profileOf n h) = .ok (.one (profileOf n fun i => h i - l i)) ∧
      (mode ≠ .constant → ∀ lo hi, (∀ i < n, lo ≤ h i ∧ h i ≤ hi) → ∀ i < n, lo ≤ l i ∧ l i ≤ hi) ∧
      (mode = .reflect ∨ mode = .wrap → ∑ i ∈ range n, l i = ∑ i ∈ range n, h i) ∧
      (∀ a b : ℝ, mode ≠ .constant ∨ b = 0 → filterProfile mode step "lowpass" c c2 ip (profileOf n fun i => a * h i + b)
        = .ok (.one (profileOf n fun i => a * l i + b))) ∧
      filterProfile mode step "lowpass" c c2 ip (profileOf n fun i => h (n - 1 - i)) = .ok (.one (profileOf n fun i => l (n - 1 - i))) := by
  refine ⟨_, low1_eq _ _ _ _ _ _ _, high1_eq _ _ _ _ _ _ _, ?_, ?_, ?_, ?_⟩
  · intro hm lo hi hb i hi'
    exact axis_between hm _ hb hi'
  · exact fun hm => axis_sum hm _ _ _
  · intro a b hm
    rw [low1_eq]
    congr 2
    exact profileOf_congr fun i _ => axis_affine a b hm _ _ _ _
  · rw [low1_eq]
    congr 2
    exact profileOf_congr fun i hi => axis_reverse mode _ h hi

/-- **C95** (zeros beyond the ends). With `endeffect_mode='constant'` a flat surface does not stay flat: its heights are pulled
to zero at the ends as soon as the kernel is wider than a point. Here the surface has a single point. -/
theorem C95_constant_pads (sx sy c : ℝ) (h1 : 1 ≤ Filter.sigma (c / sx)) (h2 : 1 ≤ Filter.sigma (c / sy)) :
    ∃ v, 0 < v ∧ v < 1 ∧ filterSurface .constant sx sy "lowpass" c none false (surfaceOf 1 1 fun _ _ => 1)
      = .ok (.one (surfaceOf 1 1 fun _ _ => v)) := by
  have key : ∀ σ : ℝ, 1 ≤ σ → ∀ z : ℝ, axis .constant σ 1 (fun _ => z) 0 = weight σ 0 * z := by
    intro σ hσ z
    unfold axis
    rw [if_pos (lt_of_lt_of_le (by norm_num) hσ)]
    rw [sum_eq_single 0]
    · simp [pick, Gauss.ext]
    · intro m _ hm
      have : Gauss.ext .constant 1 ((0 : Nat) + m) = none := by
        simp only [Gauss.ext]; rw [if_neg]; push_cast; omega
      simp only [pick, this, mul_zero]
    · intro hc
      exact absurd (mem_Icc.2 ⟨by omega, by omega⟩) hc
  have wl : ∀ σ : ℝ, 1 ≤ σ → weight σ 0 < 1 := by
    intro σ hσ
    have hr : 1 ≤ radius σ := Nat.le_floor (by push_cast; linarith)
    have hs := weight_sum σ
    have : weight σ 0 + weight σ 1 ≤ ∑ m ∈ Icc (-(radius σ : Int)) (radius σ), weight σ m := by
      rw [← sum_pair (show (0 : Int) ≠ 1 by omega)]
      refine sum_le_sum_of_subset_of_nonneg ?_ (fun m _ _ => (weight_pos σ m).le)
      intro m hm
      rw [mem_insert, mem_singleton] at hm
      rw [mem_Icc]; omega
    have := weight_pos σ 1
    linarith
  refine ⟨weight (Filter.sigma (c / sx)) 0 * weight (Filter.sigma (c / sy)) 0, ?_, ?_, ?_⟩
  · exact mul_pos (weight_pos _ _) (weight_pos _ _)
  · have a := wl _ h1
    have b := wl _ h2
    have pa := weight_pos (Filter.sigma (c / sx)) 0
    have pb := weight_pos (Filter.sigma (c / sy)) 0
    nlinarith
  · rw [low_eq]
    congr 2
    refine surfaceOf_congr fun i hi j hj => ?_
    obtain rfl : i = 0 := by omega
    obtain rfl : j = 0 := by omega
    show axis .constant _ 1 (fun _ => axis .constant _ 1 (fun _ => (1 : ℝ)) 0) 0 = _
    rw [key _ h2, key _ h1]
    ring

/-- A surface of unequal heights, filtered with the default end treatment: the theorem applies to every surface. -/
example : ∃ l : Nat → Nat → ℝ,
    filterSurface .reflect 1 1 "lowpass" 8 none false (surfaceOf 2 3 fun i j => i + 2 * j) = .ok (.one (surfaceOf 2 3 l)) ∧
    (∀ i < 2, ∀ j < 3, 0 ≤ l i j ∧ l i j ≤ 5) ∧ ∑ i ∈ range 2, ∑ j ∈ range 3, l i j = 15 := by
  obtain ⟨l, h1, -, h2, -, h3⟩ := C95_surface .reflect 1 1 8 none false 2 3 fun i j => i + 2 * j
  refine ⟨l, h1, h2 (by decide) 0 5 ?_, ?_⟩
  · intro i hi j hj
    have a : (i : ℝ) ≤ 1 := by exact_mod_cast (by omega : i ≤ 1)
    have b : (j : ℝ) ≤ 2 := by exact_mod_cast (by omega : j ≤ 2)
    exact ⟨by positivity, by linarith⟩
  · rw [(h3 (.inl rfl)).1]
    norm_num [sum_range_succ]

end Surfalize.Props
