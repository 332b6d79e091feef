import Verif.Props.Lying
import Verif.Props.Stepheight
import Verif.Props.Gauss

/-!
# C118 — the unit and the datum of the heights, the unit of the lateral lengths
-/
set_option linter.unusedSectionVars false
namespace Surfalize.Props
open Surfalize LyingSpec Lying Container BaseOps

section Lemmas
variable {K : Type} [Field K] [LinearOrder K] [IsStrictOrderedRing K] {c d : K} {g g' : Grid (Option K)}

private theorem get_res (h : Rescaled c d g g') : g' = Container.map (Option.map fun z => c * z + d) g :=
  grid_ext_get h.wf' (map_wf _ h.wf) (by rw [map_ny]; exact h.ny) h.nx fun i hi j hj => by
    rw [h.ny] at hi
    rw [h.nx] at hj
    rw [get_mapf _ h.wf hi hj, h.points i hi j hj]

private theorem flat_res (h : Rescaled c d g g') : flat g' = (flat g).map (Option.map fun z => c * z + d) := by
  rw [get_res h]; exact Container.flat_map _ _

theorem meas_res (h : Rescaled c d g g') : measured (flat g') = (measured (flat g)).map fun z => c * z + d := by
  rw [flat_res h, measured_map_map]

private theorem nil_res (h : Rescaled c d g g') : (flat g' = []) = (flat g = []) := by
  rw [flat_res h]; exact propext List.map_eq_nil_iff

private theorem none_res (h : Rescaled c d g g') : (none ∈ flat g') = (none ∈ flat g) := by
  rw [flat_res h]; apply propext; simp

theorem map_res {e : K} (h : Rescaled c d g g') {F F' : Option K → Option K}
    (hF : ∀ z, z ∈ flat g → F' (z.map fun z => c * z + d) = (F z).map fun z => c * z + e) :
    Rescaled c e (Container.map F g) (Container.map F' g') := by
  refine ⟨map_wf _ h.wf, map_wf _ h.wf', by rw [map_ny, map_ny]; exact h.ny, h.nx, fun i hi j hj => ?_⟩
  rw [map_ny] at hi
  rw [map_nx] at hj
  rw [get_mapf F' h.wf' (by rw [h.ny]; exact hi) (by rw [h.nx]; exact hj), get_mapf F h.wf hi hj, h.points i hi j hj]
  refine hF _ ?_
  exact get_mem h.wf hi hj

theorem ofFn_res {e : K} {ny nx : Nat} {f f' : Nat → Nat → Option K}
    (hf : ∀ i < ny, ∀ j < nx, f' i j = (f i j).map fun z => c * z + e) :
    Rescaled c e (Grid.ofFn ny nx f) (Grid.ofFn ny nx f') := by
  refine ⟨ofFn_wf _ _ _, ofFn_wf _ _ _, by rw [ofFn_ny, ofFn_ny], by rw [ofFn_nx, ofFn_nx], fun i hi j hj => ?_⟩
  rw [ofFn_ny] at hi
  rw [ofFn_nx] at hj
  rw [get_ofFn _ hi hj, get_ofFn _ hi hj, hf i hi j hj]

theorem mean_res {l : List K} (hl : l ≠ []) : mean (l.map fun z => c * z + d) = c * mean l + d := by
  have e : (l.map fun z => c * z + d) = (l.map fun z => c * z).map fun z => z + d := by rw [List.map_map]; rfl
  rw [e, mean_map_add_const (by simpa using hl), mean_map_const_mul]

private theorem abs_res (hc : 0 < c) (z m : K) : |c * z + d - (c * m + d)| = c * |z - m| := by
  rw [show c * z + d - (c * m + d) = c * (z - m) by ring, abs_mul, abs_of_pos hc]

end Lemmas

section Ops
variable {K : Type} [Field K] [LinearOrder K] [IsStrictOrderedRing K] [FloorRing K] {c d : K} {g g' : Grid (Option K)}

/-- **C118** (`center`, unit and datum): the result is the same in the new unit, without the datum. -/
theorem C118_center_units (h : Rescaled c d g g') : Rescaled c 0 (center g) (center g') := by
  unfold center
  refine map_res h fun z hz => ?_
  cases z with
  | none => rfl
  | some z =>
    have hne : measured (flat g) ≠ [] := List.ne_nil_of_mem (mem_measured.2 hz)
    have hne' : measured (flat g') ≠ [] := by rw [meas_res h]; simpa using hne
    simp only [nanmean, if_neg hne, if_neg hne', osub, Option.map_some, Option.bind_some, Option.some.injEq]
    rw [meas_res h, mean_res hne]; ring

/-- **C118** (`zero`, unit and datum). -/
theorem C118_zero_units (hc : 0 < c) (h : Rescaled c d g g') : Both (Rescaled c 0) (zero g) (zero g') := by
  unfold zero
  simp only [nil_res h]
  split
  · rfl
  · refine map_res h fun z hz => ?_
    cases z with
    | none => rfl
    | some z =>
      simp only [nanmin, meas_res h]
      cases hm : (measured (flat g)).min? with
      | none =>
        have := List.min?_eq_none_iff.1 hm
        rw [this]; rfl
      | some m =>
        rw [Stepheight.min?_affine hm hc d]
        simp only [osub, Option.map_some, Option.bind_some, Option.some.injEq]; ring

/-- **C118** (`invert`, unit and datum). -/
theorem C118_invert_units (hc : 0 < c) (h : Rescaled c d g g') : Both (Rescaled c d) (invert g) (invert g') := by
  unfold invert
  simp only [nil_res h]
  split
  · rfl
  · refine map_res h fun z hz => ?_
    simp only [propmin, propmax, meas_res h, none_res h]
    split
    · rfl
    · cases hm : (measured (flat g)).min? with
      | none =>
        have e := List.min?_eq_none_iff.1 hm
        rw [e]; rfl
      | some m =>
        cases hM : (measured (flat g)).max? with
        | none =>
          have e := List.max?_eq_none_iff.1 hM
          rw [e] at hm; cases hm
        | some M =>
          rw [Stepheight.min?_affine hm hc d, Stepheight.max?_affine hM hc d]
          cases z with
          | none => rfl
          | some z =>
            simp only [osub, oadd, Option.map_some, Option.bind_some, Option.some.injEq]; ring

/-- **C118** (`threshold`, unit and datum): the same points are kept. -/
theorem C118_threshold_units (hc : 0 < c) (h : Rescaled c d g g') (u l : K) :
    Both (Rescaled c d) (threshold u l g) (threshold u l g') := by
  unfold threshold
  have e : sortDesc (measured (flat g')) = (sortDesc (measured (flat g))).map fun z => c * z + d := by
    unfold sortDesc
    rw [meas_res h, Stepheight.sortAsc_affine _ hc, List.map_reverse]
  dsimp only
  rw [e, List.length_map]
  generalize sortDesc (measured (flat g)) = y
  simp only [List.map_eq_nil_iff]
  split
  · rfl
  split
  · rfl
  · rename_i hy
    refine map_res h fun z _ => ?_
    have hx : ((List.range y.length).map fun i : Nat => ((i : K) + 1) / (y.length : K)) ≠ [] := by
      simpa using hy
    have lt : ∀ t : K, argclosest t ((List.range y.length).map fun i : Nat => ((i : K) + 1) / (y.length : K)) < y.length := fun t => by
      have := argclosest_lt (x := t) hx
      simpa using this
    have gd : ∀ k < y.length, (y.map fun z => c * z + d).getD k 0 = c * y.getD k 0 + d := fun k hk => by
      simp [List.getD, hk]
    rw [gd _ (lt _), gd _ (lt _)]
    cases z with
    | none => rfl
    | some z =>
      have e1 : ∀ t : K, (c * z + d > c * t + d) ↔ z > t := fun t =>
        ⟨fun h => by by_contra h'; push Not at h'; nlinarith, fun h => by nlinarith⟩
      have e2 : ∀ t : K, (c * z + d < c * t + d) ↔ z < t := fun t =>
        ⟨fun h => by by_contra h'; push Not at h'; nlinarith, fun h => by nlinarith⟩
      simp only [Option.map_some, Option.bind_some, e1, e2]
      split <;> rfl

theorem valid_res (h : Rescaled c d g g') :
    Detrend.validPixels g' = (Detrend.validPixels g).map fun q => (q.1, c * q.2 + d) := by
  unfold Detrend.validPixels
  rw [h.ny, h.nx, List.map_filterMap]
  refine List.filterMap_congr fun p hp => ?_
  rw [mem_pixels] at hp
  rw [h.points p.1 hp.1 p.2 hp.2]
  cases g.get p.1 p.2 <;> rfl

theorem sse_res (h : Rescaled c d g g') (f : Nat × Nat → K) :
    Detrend.sse (Detrend.validPixels g') (fun p => c * f p + d) = c ^ 2 * Detrend.sse (Detrend.validPixels g) f := by
  rw [valid_res h]
  unfold Detrend.sse
  rw [List.map_map, ← sum_map_mul_const]
  refine congrArg _ ?_
  rw [List.map_map]
  refine List.map_congr_left fun q _ => ?_
  simp only [Function.comp]; ring

theorem poly_res {n : Nat} {f : Nat × Nat → K} (hf : f ∈ Detrend.pixPoly n) (a b : K) :
    (fun p => a * f p + b) ∈ Detrend.pixPoly (K := K) n := by
  have h1 := Submodule.smul_mem _ a hf
  have h2 := Submodule.smul_mem (Detrend.pixPoly (K := K) n) b (Detrend.one_mem_poly _ _ n)
  have := Submodule.add_mem _ h1 h2
  convert this using 1
  funext p; simp

/-- **C118** (`detrend_polynomial` and, with degree 1, `level`; unit and datum): what remains is the same in the new unit. -/
theorem C118_detrend_units {lstsq : Detrend.Lstsq K} (hl : Spec.IsLstsq lstsq) (n : Nat) (hc : 0 < c) (h : Rescaled c d g g') :
    Both (fun a b => Rescaled c 0 a.1 b.1) (Detrend.detrend2 lstsq n g) (Detrend.detrend2 lstsq n g') := by
  have same : ∀ e, Detrend.detrend2 lstsq n g = .error e ↔ Detrend.detrend2 lstsq n g' = .error e := by
    intro e
    unfold Detrend.detrend2
    rw [h.ny, h.nx]
    split
    · rfl
    split
    · rfl
    · constructor <;> intro h0 <;> cases h0
  cases h1 : Detrend.detrend2 lstsq n g with
  | error e => rw [(same e).1 h1]; rfl
  | ok r =>
    cases h2 : Detrend.detrend2 lstsq n g' with
    | error e => rw [(same e).2 h2] at h1; cases h1
    | ok r' =>
      obtain ⟨r, t⟩ := r
      obtain ⟨r', t'⟩ := r'
      obtain ⟨f, hf, mf, rfl, -⟩ := Detrend.detrend2_core hl h1
      obtain ⟨f', hf', mf', rfl, -⟩ := Detrend.detrend2_core hl h2
      show Rescaled c 0 _ _
      rw [h.ny, h.nx]
      refine ofFn_res fun i hi j hj => ?_
      rw [h.points i hi j hj]
      cases hz : g.get i j with
      | none => rfl
      | some z =>
        have key := Detrend.minimiser_unique (Detrend.pixPoly n) (Detrend.validPixels g') hf' (poly_res hf c d) mf' (fun ψ hψ => by
          have e : ψ = fun p => c * ((1 / c) * ψ p + -d / c) + d := by
            funext p; field_simp; ring
          rw [e, sse_res h, sse_res h]
          exact mul_le_mul_of_nonneg_left (mf _ (poly_res hψ _ _)) (by positivity)) ((i, j), c * z + d) (by
            rw [valid_res h]
            exact List.mem_map.2 ⟨((i, j), z), List.mem_filterMap.2 ⟨(i, j), mem_pixels.2 ⟨hi, hj⟩, by rw [hz]; rfl⟩, rfl⟩)
        simp only at key
        simp only [Option.map_some, Option.some.injEq, key]; ring

open FillRotate in
/-- **C118** (`fill_nonmeasured`, unit and datum), when the choice among equally near points depends on their positions only. -/
theorem C118_fill_units {pick : Pick (Nat × Nat) K} (hp : Spec.IsNearest Spec.dist2 pick)
    (hpos : ∀ (v v' : List ((Nat × Nat) × K)) q, v.map Prod.fst = v'.map Prod.fst → (pick v q).1 = (pick v' q).1)
    (h : Rescaled c d g g') : Rescaled c d (griddataNearest pick g) (griddataNearest pick g') := by
  have e : points2 g' = (points2 g).map fun q => (q.1, c * q.2 + d) := valid_res h
  unfold griddataNearest
  rw [h.ny, h.nx]
  refine ofFn_res fun i hi j hj => ?_
  have hemp : (points2 g').isEmpty = (points2 g).isEmpty := by rw [e]; cases points2 g <;> rfl
  rw [hemp]
  split
  · rfl
  · rename_i hne
    have hne1 : points2 g ≠ [] := fun e => hne (by rw [e]; rfl)
    have hne2 : points2 g' ≠ [] := fun e => hne (by rw [← hemp, e]; rfl)
    have a := (hp (points2 g') (i, j) hne2).1
    have b := (hp (points2 g) (i, j) hne1).1
    have s := hpos (points2 g') (points2 g) (i, j) (by rw [e, List.map_map]; rfl)
    rcases hA : pick (points2 g') (i, j) with ⟨p, y⟩
    rcases hB : pick (points2 g) (i, j) with ⟨q, z⟩
    rw [hA] at a s
    rw [hB] at b s
    simp only at s
    subst s
    have a1 := mem_points2.1 a
    have b1 := mem_points2.1 b
    have := h.points p.1 b1.1 p.2 b1.2.1
    rw [a1.2.2, b1.2.2] at this
    simpa using this

end Ops

section Outliers
variable {c d : ℝ} {g g' : Grid (Option ℝ)}

private theorem std_res (hc : 0 < c) {l : List ℝ} (hl : l ≠ []) : BaseOps.std (l.map fun z => c * z + d) = c * BaseOps.std l := by
  unfold BaseOps.std variance
  have e : mean ((l.map fun z => c * z + d).map fun z => (z - mean (l.map fun z => c * z + d)) ^ 2) = c ^ 2 * mean (l.map fun z => (z - mean l) ^ 2) := by
    rw [← mean_map_const_mul, List.map_map, List.map_map, mean_res hl]
    refine congrArg _ (List.map_congr_left fun z _ => ?_)
    simp only [Function.comp]; ring
  rw [e, Real.sqrt_mul (by positivity), Real.sqrt_sq hc.le]

/-- **C118** (`remove_outliers`, unit and datum): the same points are removed. -/
theorem C118_outliers_units (hc : 0 < c) (h : Rescaled c d g g') (n : ℝ) (method : String) :
    Both (Rescaled c d) (removeOutliers n method g) (removeOutliers n method g') := by
  have scale : ∀ a b : ℝ, c * a > n * (c * b) ↔ a > n * b := fun a b => by
    rw [show n * (c * b) = c * (n * b) by ring]; exact mul_lt_mul_iff_right₀ hc
  unfold removeOutliers
  split
  · show Rescaled c d _ _
    unfold removeOutliersMean
    refine map_res h fun z hz => ?_
    cases z with
    | none => rfl
    | some z =>
      have hne : measured (flat g) ≠ [] := List.ne_nil_of_mem (mem_measured.2 hz)
      simp only [Option.map_some, Option.bind_some]
      rw [meas_res h, mean_res hne, std_res hc hne, abs_res hc]
      simp only [scale]
      split <;> rfl
  split
  · show Rescaled c d _ _
    unfold removeOutliersMedian
    refine map_res h fun z hz => ?_
    cases z with
    | none => rfl
    | some z =>
      have hne : measured (flat g) ≠ [] := List.ne_nil_of_mem (mem_measured.2 hz)
      simp only [Option.map_some, Option.bind_some]
      rw [meas_res h, Stepheight.median_affine hne hc, abs_res hc, List.map_map]
      have e : ((measured (flat g)).map ((fun z => |z - (c * median (measured (flat g)) + d)|) ∘ fun z => c * z + d)) =
          ((measured (flat g)).map fun z => |z - median (measured (flat g))|).map fun x => c * x + 0 := by
        rw [List.map_map]
        refine List.map_congr_left fun x _ => ?_
        simp only [Function.comp, abs_res hc, add_zero]
      rw [e, Stepheight.median_affine (by simpa using hne) hc, add_zero]
      simp only [scale]
      split <;> rfl
  · rfl

end Outliers

section Filtering
open Gauss GaussSpec
variable {c d : ℝ} {g g' : Grid (Option ℝ)}

private theorem val_res (h : Rescaled c d g g') (hn : hasMissing g = false) {i j : Nat} (hi : i < g.ny) (hj : j < g.nx) :
    g'.val i j = c * g.val i j + d := by
  unfold Grid.val
  rw [h.points i hi j hj]
  cases hz : g.get i j with
  | none =>
    exfalso
    have hm := get_mem h.wf hi hj
    rw [hz] at hm
    rw [Bool.eq_false_iff] at hn
    exact hn (List.any_eq_true.2 ⟨none, hm, rfl⟩)
  | some z => rfl

private theorem missing_res (h : Rescaled c d g g') : hasMissing g' = hasMissing g := by
  rw [Bool.eq_iff_iff]
  simp only [hasMissing, List.any_eq_true, flat_res h, List.mem_map]
  constructor
  · rintro ⟨z, ⟨y, hy, rfl⟩, h1⟩
    exact ⟨y, hy, by cases y <;> simp_all⟩
  · rintro ⟨z, hz, h1⟩
    exact ⟨_, ⟨z, hz, rfl⟩, by cases z <;> simp_all⟩

private theorem smooth_res (h : Rescaled c d g g') (hn : hasMissing g = false) {mode : End} (hm : mode ≠ .constant ∨ d = 0) (sx sy k : ℝ) :
    Rescaled c d (smooth2 mode sx sy k g) (smooth2 mode sx sy k g') := by
  unfold smooth2
  dsimp only
  rw [h.ny, h.nx]
  refine ofFn_res fun i hi j hj => ?_
  rw [Option.map_some, Option.some.injEq, ← axis_affine c d hm]
  refine axis_congr (fun l hl => ?_) hj
  rw [← axis_affine c d hm]
  exact axis_congr (fun q hq => val_res h hn hq hl) hi

private theorem zip_res {a b a' b' : Grid (Option ℝ)} (ha : Rescaled c d a a') (hb : Rescaled c d b b') (hny : a.ny = b.ny) (hnx : a.nx = b.nx) :
    Rescaled c 0 (ZipContainer.zipW osub a b) (ZipContainer.zipW osub a' b') := by
  have hny' : a'.ny = b'.ny := by rw [ha.ny, hb.ny, hny]
  have hnx' : a'.nx = b'.nx := by rw [ha.nx, hb.nx, hnx]
  have e : ∀ {x y : Grid (Option ℝ)}, (ZipContainer.zipW osub x y : Grid (Option ℝ)) = { rows := List.zipWith (List.zipWith osub) x.rows y.rows, nx := x.nx } := rfl
  rw [e, e]
  refine ⟨zip_wf ha.wf hb.wf hnx, zip_wf ha.wf' hb.wf' hnx', ?_, ha.nx, fun i hi j hj => ?_⟩
  · rw [zip_ny hny, zip_ny hny']; exact ha.ny
  · rw [zip_ny hny] at hi
    change j < a.nx at hj
    rw [get_zip ha.wf' hb.wf' hny' hnx' (ha.ny ▸ hi) (ha.nx ▸ hj), get_zip ha.wf hb.wf hny hnx hi hj, ha.points i hi j hj,
      hb.points i (hny ▸ hi) j (hnx ▸ hj)]
    cases a.get i j <;> cases b.get i j <;> simp [osub]
    ring

private theorem high_res (h : Rescaled c d g g') (hn : hasMissing g = false) {mode : End} (hm : mode ≠ .constant ∨ d = 0) (sx sy k : ℝ) :
    Rescaled c 0 (Filter.highpass (smooth2 mode sx sy) k g) (Filter.highpass (smooth2 mode sx sy) k g') :=
  zip_res h (smooth_res h hn hm sx sy k) (ofFn_ny _ _ _).symm rfl

private theorem smooth_full {mode : End} {sx sy k : ℝ} : hasMissing (smooth2 mode sx sy k g) = false := by
  rw [Bool.eq_false_iff]
  intro h
  obtain ⟨z, hz, h1⟩ := List.any_eq_true.1 h
  unfold smooth2 at hz
  rw [show flat (Grid.ofFn g.ny g.nx _) = _ from flat_ofFn _ _ _] at hz
  obtain ⟨p, -, rfl⟩ := List.mem_map.1 hz
  cases h1

/-- **C118** (`filter`, unit and datum): with ends that continue the surface, low-pass results move with the datum, high-pass and band-pass results
lose it. With ends set to zero (`constant`) this holds for a change of the unit only. -/
theorem C118_filter_units_partial (h : Rescaled c d g g') {mode : End} (hm : mode ≠ .constant ∨ d = 0) (sx sy : ℝ) (kind : String) (k : ℝ) (k2 : Option ℝ)
    (ip : Bool) :
    Both (BothRes (Rescaled c 0) (Rescaled c (if kind = "lowpass" ∨ kind = "both" then d else 0)))
      (filterSurface mode sx sy kind k k2 ip g) (filterSurface mode sx sy kind k k2 ip g') := by
  unfold filterSurface Filter.filter noNonmeasured
  rw [missing_res h]
  cases hn : hasMissing g
  · have low := smooth_res h hn hm sx sy
    simp only [Bool.false_eq_true, if_false]
    by_cases k1 : kind ≠ "highpass" ∧ kind ≠ "lowpass" ∧ kind ≠ "both" ∧ kind ≠ "bandpass"
    · simp only [if_pos k1]; rfl
    by_cases k2' : kind = "both" ∧ ip = true
    · simp only [if_neg k1, if_pos k2']; rfl
    by_cases k3 : kind = "bandpass"
    · simp only [if_neg k1, if_neg k2', if_pos k3]
      cases k2 with
      | none => rfl
      | some k2 =>
        dsimp only
        by_cases k4 : k2 ≤ k
        · simp only [if_pos k4]; rfl
        · simp only [if_neg k4]
          have k5 : ¬ (kind = "lowpass" ∨ kind = "both") := by rw [k3]; decide
          simp only [if_neg k5]
          exact high_res (low k) smooth_full hm sx sy k2
    by_cases k4 : kind = "lowpass"
    · have k5 : kind = "lowpass" ∨ kind = "both" := Or.inl k4
      simp only [if_neg k1, if_neg k2', if_neg k3, if_pos k4, if_pos k5]
      exact low k
    by_cases k5 : kind = "highpass"
    · have k6 : ¬ (kind = "lowpass" ∨ kind = "both") := by rw [k5]; decide
      simp only [if_neg k1, if_neg k2', if_neg k3, if_neg k4, if_pos k5, if_neg k6]
      exact high_res h hn hm sx sy k
    · have k6 : kind = "both" := by
        by_contra k6
        exact k1 ⟨k5, k4, k6, k3⟩
      have k7 : kind = "lowpass" ∨ kind = "both" := Or.inr k6
      simp only [if_neg k1, if_neg k2', if_neg k3, if_neg k4, if_neg k5, if_pos k7]
      exact ⟨high_res h hn hm sx sy k, low k⟩
  · rfl

/-- **C118** (`filter`, lateral unit): the steps and the cutoffs in another unit of length give the same surface. -/
theorem C118_filter_lateral (mode : End) (sx sy : ℝ) (kind : String) (k : ℝ) (k2 : Option ℝ) (ip : Bool) (g : Grid (Option ℝ)) {u : ℝ} (hu : 0 < u) :
    filterSurface mode (u * sx) (u * sy) kind (u * k) (k2.map fun k => u * k) ip g = filterSurface mode sx sy kind k k2 ip g := by
  have e : ∀ k, smooth2 mode (u * sx) (u * sy) (u * k) = smooth2 mode sx sy k := by
    intro k
    funext g
    have : Filter.sigmas2 (u * k) (u * sx) (u * sy) = Filter.sigmas2 k sx sy := by
      unfold Filter.sigmas2
      rw [mul_div_mul_left _ _ hu.ne', mul_div_mul_left _ _ hu.ne']
    unfold smooth2
    rw [this]
  unfold filterSurface Filter.filter Filter.highpass Filter.lowpass noNonmeasured
  cases k2 with
  | none => simp only [e, Option.map_none]
  | some k2 =>
    have e2 : (u * k2 ≤ u * k) = (k2 ≤ k) := propext (mul_le_mul_iff_right₀ hu)
    simp only [e, Option.map_some, e2]

/-- **C118** (`filter`, datum) is violated by `endeffect_mode='constant'`: a surface of one point at height 0 stays as it is, at height 1 it is pulled
towards 0, so the result depends on the datum. -/
theorem C118_filter_datum_violated (sx sy k : ℝ) (h1 : 1 ≤ Filter.sigma (k / sx)) (h2 : 1 ≤ Filter.sigma (k / sy)) :
    ∃ g g' : Grid (Option ℝ), Rescaled 1 1 g g' ∧
      ¬ Both (BothRes (Rescaled 1 0) (Rescaled 1 1)) (filterSurface .constant sx sy "lowpass" k none false g)
        (filterSurface .constant sx sy "lowpass" k none false g') := by
  obtain ⟨v, v0, v1, hv⟩ := C95_constant_pads sx sy k h1 h2
  have r0 : Rescaled (0 : ℝ) 0 (surfaceOf 1 1 fun _ _ => 1) (surfaceOf 1 1 fun _ _ => 0) := ofFn_res fun i _ j _ => by simp
  have r1 : Rescaled (1 : ℝ) 1 (surfaceOf 1 1 fun _ _ => 0) (surfaceOf 1 1 fun _ _ => 1) := ofFn_res fun i _ j _ => by simp
  refine ⟨_, _, r1, fun hb => ?_⟩
  have ha := C118_filter_units_partial r0 (mode := .constant) (Or.inr rfl) sx sy "lowpass" k none false
  rw [hv] at ha hb
  cases hz : filterSurface .constant sx sy "lowpass" k none false (surfaceOf 1 1 fun _ _ => 0) with
  | error e => rw [hz] at hb; exact hb
  | ok r =>
    rw [hz] at ha hb
    cases r with
    | two a b => exact hb
    | one a =>
      have ha' : Rescaled (0 : ℝ) (if "lowpass" = "lowpass" ∨ "lowpass" = "both" then 0 else 0) (surfaceOf 1 1 fun _ _ => v) a := ha
      have hb' : Rescaled (1 : ℝ) 1 a (surfaceOf 1 1 fun _ _ => v) := hb
      have hg : (surfaceOf 1 1 fun _ _ => v).get 0 0 = some v := get_ofFn _ (by decide) (by decide)
      have n1 : a.ny = 1 := by rw [← hb'.ny]; exact ofFn_ny _ _ _
      have n2 : a.nx = 1 := by rw [← hb'.nx]; rfl
      have e1 := hb'.points 0 (by omega) 0 (by omega)
      have e2 := ha'.points 0 (by rw [← ha'.ny, n1]; decide) 0 (by rw [← ha'.nx, n2]; decide)
      rw [hg] at e1 e2
      rw [e2] at e1
      simp at e1
      linarith

end Filtering

/-- A surface with a missing point, in µm and in nm from a datum 5 nm lower, and the same surface turned over the other way. -/
example : Rescaled (1000 : ℚ) 5 ⟨[[some 1, none], [some (1/2), some 0]], 2⟩ ⟨[[some 1005, none], [some 505, some 5]], 2⟩ := by
  refine ⟨by decide, by decide, by decide, by decide, ?_⟩
  decide +kernel

example : Laid .transpose (⟨[[some 1, none, some 3]], 3⟩ : Grid (Option ℚ)) ⟨[[some 1], [none], [some 3]], 1⟩ := by
  refine ⟨by decide, by decide, by decide, ?_⟩
  decide +kernel

end Surfalize.Props
