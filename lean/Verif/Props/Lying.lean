import Verif.Lemmas.Lying
import Verif.Props.StableOps
import Verif.Props.Geometry

/-!
# C118 — operations do not depend on how the sample lies, on the unit or on the datum
-/
set_option linter.unusedSectionVars false
namespace Surfalize.Props
open Surfalize LyingSpec Lying Container BaseOps

section Moves
variable {K : Type} [Field K] [LinearOrder K] [IsStrictOrderedRing K] {m : Move} {g g' : Grid (Option K)}

private theorem nanmean_perm {l l' : List (Option K)} (h : l.Perm l') : nanmean l = nanmean l' := by
  have hp := measured_perm h
  unfold nanmean
  rw [HeightParams.mean_perm hp]
  by_cases e : measured l = []
  · rw [if_pos e, if_pos (List.Perm.nil_eq (e ▸ hp)).symm]
  · rw [if_neg e, if_neg fun e' : measured l' = [] => e (List.Perm.eq_nil (e' ▸ hp))]

private theorem mem_none_perm {l l' : List (Option K)} (h : l.Perm l') : (none ∈ l) = (none ∈ l') := propext h.mem_iff

private theorem propmin_perm {l l' : List (Option K)} (h : l.Perm l') : propmin l = propmin l' := by
  unfold propmin
  simp only [mem_none_perm h, min?_perm (measured_perm h)]

private theorem propmax_perm {l l' : List (Option K)} (h : l.Perm l') : propmax l = propmax l' := by
  unfold propmax
  simp only [mem_none_perm h, max?_perm (measured_perm h)]

private theorem median_perm' {l l' : List K} (h : l.Perm l') : median l = median l' := by
  unfold median
  rw [sortAsc_eq_of_perm h, h.length_eq]

private theorem flat_nil (h : Laid m g g') : (flat g' = []) = (flat g = []) :=
  propext ⟨fun e => (List.Perm.nil_eq (e ▸ flat_perm h)).symm, fun e => List.Perm.eq_nil (e ▸ flat_perm h)⟩

/-- **C118** (`center`). -/
theorem C118_center (h : Laid m g g') : Laid m (center g) (center g') := by
  unfold center
  rw [nanmean_perm (flat_perm h)]
  exact laid_map _ h

/-- **C118** (`zero`). -/
theorem C118_zero (h : Laid m g g') : Both (Laid m) (zero g) (zero g') := by
  unfold zero
  simp only [flat_nil h]
  split
  · rfl
  · rw [show nanmin (flat g') = nanmin (flat g) from min?_perm (measured_perm (flat_perm h))]
    exact laid_map _ h

/-- **C118** (`invert`). -/
theorem C118_invert (h : Laid m g g') : Both (Laid m) (invert g) (invert g') := by
  unfold invert
  simp only [flat_nil h]
  split
  · rfl
  · rw [propmin_perm (flat_perm h), propmax_perm (flat_perm h)]
    exact laid_map _ h

/-- **C118** (`threshold`). -/
theorem C118_threshold (h : Laid m g g') (u l : K) : Both (Laid m) (threshold u l g) (threshold u l g') := by
  unfold threshold
  have e : sortDesc (measured (flat g')) = sortDesc (measured (flat g)) := by
    unfold sortDesc
    rw [sortAsc_eq_of_perm (measured_perm (flat_perm h))]
  dsimp only
  rw [e]
  split
  · rfl
  split
  · rfl
  · exact laid_map _ h

/-- **C118** (`detrend_polynomial` and, with degree 1, `level`). -/
theorem C118_detrend {lstsq : Detrend.Lstsq K} (hl : Spec.IsLstsq lstsq) (d : Nat) (h : Laid m g g') :
    Both (fun a b => Laid m a.1 b.1) (Detrend.detrend2 lstsq d g) (Detrend.detrend2 lstsq d g') := by
  have hs := h.size
  have e0 : (g'.ny = 0 ∨ g'.nx = 0) = (g.ny = 0 ∨ g.nx = 0) := by
    cases m <;> simp only [Move.size, Prod.mk.injEq, if_true, reduceCtorEq, if_false] at hs <;> rw [hs.1, hs.2]
    exact propext or_comm
  have e1 : ((g'.ny = 1 ∨ g'.nx = 1) ∧ d ≠ 0) = ((g.ny = 1 ∨ g.nx = 1) ∧ d ≠ 0) := by
    cases m <;> simp only [Move.size, Prod.mk.injEq, if_true, reduceCtorEq, if_false] at hs <;> rw [hs.1, hs.2]
    exact propext (and_congr_left fun _ => or_comm)
  cases h1 : Detrend.detrend2 lstsq d g with
  | error e =>
    cases h2 : Detrend.detrend2 lstsq d g' with
    | error e' =>
      show e = e'
      unfold Detrend.detrend2 at h1 h2
      simp only [e0, e1] at h2
      split at h1
      · rename_i c; rw [if_pos c] at h2; cases h1; cases h2; rfl
      · rename_i c; rw [if_neg c] at h2
        split at h1
        · rename_i c'; rw [if_pos c'] at h2; cases h1; cases h2; rfl
        · cases h1
    | ok r =>
      exfalso
      unfold Detrend.detrend2 at h1 h2
      simp only [e0, e1] at h2
      split at h1
      · rename_i c; rw [if_pos c] at h2; cases h2
      · rename_i c; rw [if_neg c] at h2
        split at h1
        · rename_i c'; rw [if_pos c'] at h2; cases h2
        · cases h1
  | ok r =>
    cases h2 : Detrend.detrend2 lstsq d g' with
    | error e' =>
      exfalso
      unfold Detrend.detrend2 at h1 h2
      simp only [e0, e1] at h2
      split at h1
      · cases h1
      · rename_i c; rw [if_neg c] at h2
        split at h1
        · cases h1
        · rename_i c'; rw [if_neg c'] at h2; cases h2
    | ok r' =>
      obtain ⟨r, t⟩ := r
      obtain ⟨r', t'⟩ := r'
      obtain ⟨f, hf, mf, rfl, -⟩ := Detrend.detrend2_core hl h1
      obtain ⟨f', hf', mf', rfl, -⟩ := Detrend.detrend2_core hl h2
      show Laid m _ _
      refine laid_ofFn h fun i hi j hj => ?_
      rw [← h.points i hi j hj]
      cases hz : g'.get i j with
      | none => rfl
      | some z =>
        simp only [Option.map_some]
        have := trend_move h hf hf' mf mf' ((i, j), z) (List.mem_filterMap.2 ⟨(i, j), mem_pixels.2 ⟨hi, hj⟩, by rw [hz]; rfl⟩)
        rw [this]

end Moves

section Outliers
variable {m : Move} {g g' : Grid (Option ℝ)}

/-- **C118** (`remove_outliers`). -/
theorem C118_outliers (h : Laid m g g') (n : ℝ) (method : String) : Both (Laid m) (removeOutliers n method g) (removeOutliers n method g') := by
  have hp := measured_perm (flat_perm h)
  unfold removeOutliers
  split
  · show Laid m _ _
    unfold removeOutliersMean BaseOps.std variance
    simp only [HeightParams.mean_perm hp]
    rw [HeightParams.mean_perm (hp.map _)]
    exact laid_map _ h
  split
  · show Laid m _ _
    unfold removeOutliersMedian
    simp only [median_perm' hp]
    rw [median_perm' (hp.map _)]
    exact laid_map _ h
  · rfl

end Outliers

section Filtering
open Gauss
variable {m : Move} {g g' : Grid (Option ℝ)}

private theorem val_move (h : Laid m g g') {i j : Nat} (hi : i < g'.ny) (hj : j < g'.nx) :
    g'.val i j = g.val (m.source g.ny g.nx i j).1 (m.source g.ny g.nx i j).2 := by
  unfold Grid.val
  rw [h.points i hi j hj]

private theorem smooth_move (h : Laid m g g') (mode : End) (sx sy c : ℝ) :
    Laid m (smooth2 mode sx sy c g) (smooth2 mode (m.steps sx sy).1 (m.steps sx sy).2 c g') := by
  unfold smooth2
  refine laid_ofFn h fun i hi j hj => congrArg some ?_
  have hs := h.size
  have hv := fun i hi j hj => val_move h (i := i) (j := j) hi hj
  cases m with
  | mirror =>
    simp only [Move.size, Move.steps, Move.source, Prod.mk.injEq, reduceCtorEq, if_false] at hs hv ⊢
    obtain ⟨s1, s2⟩ := hs
    rw [s1] at hi
    rw [s2] at hj
    simp only [s1, s2] at hv ⊢
    refine axis_rev mode _ (fun k hk => ?_) hj
    exact axis_cong mode _ (fun l hl => hv l hl k hk) hi
  | flip =>
    simp only [Move.size, Move.steps, Move.source, Prod.mk.injEq, reduceCtorEq, if_false] at hs hv ⊢
    obtain ⟨s1, s2⟩ := hs
    rw [s1] at hi
    rw [s2] at hj
    simp only [s1, s2] at hv ⊢
    refine axis_cong mode _ (fun k hk => ?_) hj
    exact axis_rev mode _ (fun l hl => hv l hl k hk) hi
  | transpose =>
    simp only [Move.size, Move.steps, Move.source, Prod.mk.injEq, if_true] at hs hv ⊢
    obtain ⟨s1, s2⟩ := hs
    rw [s1] at hi
    rw [s2] at hj
    simp only [s1, s2] at hv ⊢
    rw [axis_comm mode (Filter.sigmas2 c sx sy).2 (Filter.sigmas2 c sx sy).1 g.nx g.ny (fun k l => g.val l k) i j]
    refine axis_cong mode _ (fun k hk => ?_) hj
    exact axis_cong mode _ (fun l hl => hv l hl k hk) hi

private theorem zip_move {m : Move} {a b a' b' : Grid (Option ℝ)} (ha : Laid m a a') (hb : Laid m b b') (hny : a.ny = b.ny) (hnx : a.nx = b.nx)
    (f : Option ℝ → Option ℝ → Option ℝ) : Laid m (ZipContainer.zipW f a b) (ZipContainer.zipW f a' b') := by
  have s1 := ha.size
  have s2 := hb.size
  rw [← hny, ← hnx, ← s1, Prod.mk.injEq] at s2
  have hny' : a'.ny = b'.ny := s2.1.symm
  have hnx' : a'.nx = b'.nx := s2.2.symm
  have e : ∀ {x y : Grid (Option ℝ)}, (ZipContainer.zipW f x y : Grid (Option ℝ)) = { rows := List.zipWith (List.zipWith f) x.rows y.rows, nx := x.nx } := rfl
  rw [e, e]
  refine ⟨zip_wf ha.wf hb.wf hnx, zip_wf ha.wf' hb.wf' hnx', ?_, fun i hi j hj => ?_⟩
  · rw [zip_ny hny, zip_ny hny']; exact s1
  · rw [zip_ny hny'] at hi
    change j < a'.nx at hj
    rw [zip_ny hny]
    show _ = Grid.get _ (m.source a.ny a.nx i j).1 (m.source a.ny a.nx i j).2
    obtain ⟨h1, h2⟩ := source_lt ha hi hj
    rw [get_zip ha.wf' hb.wf' hny' hnx' hi hj, get_zip ha.wf hb.wf hny hnx h1 h2, ha.points i hi j hj, hb.points i (hny' ▸ hi) j (hnx' ▸ hj), hny, hnx]

private theorem high_move (h : Laid m g g') (mode : End) (sx sy c : ℝ) :
    Laid m (Filter.highpass (smooth2 mode sx sy) c g) (Filter.highpass (smooth2 mode (m.steps sx sy).1 (m.steps sx sy).2) c g') :=
  zip_move h (smooth_move h mode sx sy c) (ofFn_ny _ _ _).symm rfl _

/-- **C118** (`filter`, every type and treatment of the ends). -/
theorem C118_filter (h : Laid m g g') (mode : End) (sx sy : ℝ) (kind : String) (c : ℝ) (c2 : Option ℝ) (ip : Bool) :
    Both (BothRes (Laid m) (Laid m)) (filterSurface mode sx sy kind c c2 ip g)
      (filterSurface mode (m.steps sx sy).1 (m.steps sx sy).2 kind c c2 ip g') := by
  have low := smooth_move h mode sx sy
  unfold filterSurface Filter.filter noNonmeasured
  rw [hasMissing_eq h]
  cases hasMissing g
  · simp only [Bool.false_eq_true, if_false]
    by_cases k1 : kind ≠ "highpass" ∧ kind ≠ "lowpass" ∧ kind ≠ "both" ∧ kind ≠ "bandpass"
    · simp only [if_pos k1]; rfl
    by_cases k2 : kind = "both" ∧ ip = true
    · simp only [if_neg k1, if_pos k2]; rfl
    by_cases k3 : kind = "bandpass"
    · simp only [if_neg k1, if_neg k2, if_pos k3]
      cases c2 with
      | none => rfl
      | some c2 =>
        dsimp only
        by_cases k4 : c2 ≤ c
        · simp only [if_pos k4]; rfl
        · simp only [if_neg k4]
          exact high_move (low c) mode sx sy c2
    by_cases k4 : kind = "lowpass"
    · simp only [if_neg k1, if_neg k2, if_neg k3, if_pos k4]
      exact low c
    by_cases k5 : kind = "highpass"
    · simp only [if_neg k1, if_neg k2, if_neg k3, if_neg k4, if_pos k5]
      exact high_move h mode sx sy c
    · simp only [if_neg k1, if_neg k2, if_neg k3, if_neg k4, if_neg k5]
      exact ⟨high_move h mode sx sy c, low c⟩
  · rfl

end Filtering

section Cutting
open Geometry Spec
variable {K : Type} {m : Move} {g g' : Grid (Option K)}

/-- **C118** (`crop` with a pixel box). The box moves with the sample. -/
theorem C118_crop (h : Laid m g g') (x0 x1 y0 y1 : Nat) (hx : x0 ≤ x1) (hx1 : x1 < g.nx) (hy : y0 ≤ y1) (hy1 : y1 < g.ny) :
    let b := m.box g.ny g.nx x0 x1 y0 y1
    ∃ r r', cropPx g x0 x1 y0 y1 = .ok r ∧ cropPx g' b.1.1 b.1.2 b.2.1 b.2.2 = .ok r' ∧ Laid m r r' := by
  intro b
  have hs := h.size
  obtain ⟨r, hr, br⟩ := C22_crop_px g h.wf x0 x1 y0 y1 hx (by omega) (by omega) hy (by omega) (by omega)
  have hb : b.1.1 ≤ b.1.2 ∧ b.1.2 < g'.nx ∧ b.2.1 ≤ b.2.2 ∧ b.2.2 < g'.ny := by
    simp only [b]
    cases m <;> simp only [Move.size, Move.box, Prod.mk.injEq, if_true, reduceCtorEq, if_false] at hs ⊢ <;> omega
  obtain ⟨r', hr', br'⟩ := C22_crop_px g' h.wf' b.1.1 b.1.2 b.2.1 b.2.2 hb.1 (by omega) (by omega) hb.2.2.1 (by omega) (by omega)
  refine ⟨r, r', hr, hr', laid_block h br br' ?_ ?_⟩
  · simp only [b]
    cases m <;> simp only [Move.size, Move.box, Prod.mk.injEq, if_true, reduceCtorEq, if_false, true_and, and_true] <;> omega
  · simp only [b]
    cases m <;> simp only [Move.box, true_and, and_true] <;> omega

end Cutting

section Zooming
open Geometry Spec
variable {K : Type} [Field K] [LinearOrder K] [IsStrictOrderedRing K] [FloorRing K] {α : Type}

private theorem zoomWindow_val (n : Nat) (f : K) (hf : 1 ≤ f) :
    normIdx n (zoomWindow n f).1 = (n - ⌊(n : K) / f⌋₊) / 2 ∧
      normIdx n (zoomWindow n f).2 = min n (⌊(n : K) / f⌋₊ + (n - ⌊(n : K) / f⌋₊) / 2 + 1) ∧ ⌊(n : K) / f⌋₊ ≤ n := by
  have hf0 : (0 : K) < f := by linarith
  have hq0 : (0 : K) ≤ (n : K) / f := by positivity
  have hqn : (n : K) / f ≤ n := by
    rw [div_le_iff₀ hf0]; nlinarith [(Nat.cast_nonneg n : (0 : K) ≤ n)]
  have hnn := pyInt_nonneg hq0
  set q := ⌊(n : K) / f⌋₊ with hq
  have hm : ⌊(n : K) / f⌋ = (q : Int) := by rw [hq]; exact (Int.natCast_floor_eq_floor hq0).symm
  have hmn : q ≤ n := by rw [hq]; exact Nat.floor_le_of_le hqn
  have hs : pyInt ((((n : Int) - (q : Int) : Int) : K) / 2) = (((n - q) / 2 : Nat) : Int) := by
    have : ((n : Int) - (q : Int)) = ((n - q : Nat) : Int) := by omega
    rw [this]; exact pyInt_half (n - q)
  have h1 : (zoomWindow n f).1 = (((n - q) / 2 : Nat) : Int) := by
    simp only [zoomWindow, hnn, hm]; exact hs
  have h2 : (zoomWindow n f).2 = ((q + (n - q) / 2 + 1 : Nat) : Int) := by
    simp only [zoomWindow, hnn, hm]; rw [hs]; push_cast; ring
  refine ⟨?_, ?_, hmn⟩
  · rw [h1, normIdx_nonneg (by omega)]; omega
  · rw [h2, normIdx_nonneg (by omega)]; omega

private theorem zoom_block (g : Grid (Option α)) (hg : g.WF) (f : K) (hf : 1 ≤ f) :
    let w := fun n : Nat => (n - ⌊(n : K) / f⌋₊) / 2
    let l := fun n : Nat => min n (⌊(n : K) / f⌋₊ + w n + 1) - w n
    ∃ r, zoom g f = .ok r ∧ IsBlock g r (w g.ny) (w g.nx) (l g.ny) (l g.nx) := by
  intro w l
  obtain ⟨a1, a2, a3⟩ := zoomWindow_val g.ny f hf
  obtain ⟨b1, b2, b3⟩ := zoomWindow_val g.nx f hf
  have hf0 : f ≠ 0 := by intro h; rw [h] at hf; linarith
  have hb := pySlice2_isBlock g hg _ _ _ _ a1 a2 b1 b2 (by omega) (by omega)
  exact ⟨_, by simp only [zoom, if_neg hf0], hb⟩

/-- **C118** (`zoom`). Exchanging rows and columns does not matter. Mirroring does not matter if the number of points left out by rounding down,
`n - ⌊n / factor⌋`, is odd or zero. Missing: even numbers (`C118_zoom_violated`). -/
theorem C118_zoom_partial {m : Move} {g g' : Grid (Option α)} (h : Laid m g g') (f : K) (hf : 1 ≤ f)
    (hx : m = .mirror → (g.nx - ⌊(g.nx : K) / f⌋₊) % 2 = 1 ∨ ⌊(g.nx : K) / f⌋₊ = g.nx)
    (hy : m = .flip → (g.ny - ⌊(g.ny : K) / f⌋₊) % 2 = 1 ∨ ⌊(g.ny : K) / f⌋₊ = g.ny) :
    ∃ r r', zoom g f = .ok r ∧ zoom g' f = .ok r' ∧ Laid m r r' := by
  obtain ⟨r, h1, b1⟩ := zoom_block g h.wf f hf
  obtain ⟨r', h2, b2⟩ := zoom_block g' h.wf' f hf
  obtain ⟨-, -, a3⟩ := zoomWindow_val g.ny f hf
  obtain ⟨-, -, b3⟩ := zoomWindow_val g.nx f hf
  have hs := h.size
  refine ⟨r, r', h1, h2, laid_block h b1 b2 ?_ ?_⟩
  · cases m <;> simp only [Move.size, Prod.mk.injEq, if_true, reduceCtorEq, if_false] at hs ⊢ <;> rw [hs.1, hs.2] <;> exact ⟨rfl, rfl⟩
  · cases m <;> simp only [Move.size, Prod.mk.injEq, if_true, reduceCtorEq, if_false] at hs ⊢ <;> rw [hs.1, hs.2]
    · refine ⟨rfl, ?_⟩
      rcases hx rfl with h3 | h3
      · omega
      · rw [h3]; omega
    · refine ⟨?_, rfl⟩
      rcases hy rfl with h3 | h3
      · omega
      · rw [h3]; omega
    · exact ⟨rfl, rfl⟩

/-- **C118** is violated by `zoom`: if an even, positive number of points is left out along x, the zoomed mirror image shows other points than the
mirror image of the zoomed surface, as soon as the heights along a row of the part shown differ. -/
theorem C118_zoom_violated :
    ∃ g g' r r' : Grid (Option ℚ), Laid .mirror g g' ∧ zoom g (2 : ℚ) = .ok r ∧ zoom g' (2 : ℚ) = .ok r' ∧ ¬ Laid .mirror r r' := by
  refine ⟨⟨[[some 0, some 1, some 2, some 3]], 4⟩, ⟨[[some 3, some 2, some 1, some 0]], 4⟩, ⟨[[some 1, some 2, some 3]], 3⟩,
    ⟨[[some 2, some 1, some 0]], 3⟩, ⟨by decide, by decide, by decide, by decide⟩, by decide +kernel, by decide +kernel, fun h => ?_⟩
  have := h.points 0 (by decide) 0 (by decide)
  revert this
  decide

end Zooming

section Filling
open FillRotate Spec
variable {K : Type} [Field K] [LinearOrder K] [IsStrictOrderedRing K] {m : Move} {g g' : Grid (Option K)}

/-- **C118** (`fill_nonmeasured`), for surfaces where no point has two nearest measured points of different height. -/
theorem C118_fill_partial {pick : Pick (Nat × Nat) K} (hp : IsNearest dist2 pick) (h : Laid m g g') (ht : NoTies g) :
    Laid m (griddataNearest pick g) (griddataNearest pick g') := by
  have back : ∀ {p z}, (p, z) ∈ points2 g' → (m.source g.ny g.nx p.1 p.2, z) ∈ points2 g := by
    intro p z hz
    obtain ⟨h1, h2, h3⟩ := mem_points2.1 hz
    obtain ⟨h4, h5⟩ := source_lt h h1 h2
    exact mem_points2.2 ⟨h4, h5, by rw [← h.points _ h1 _ h2, h3]⟩
  have forth : ∀ {p z}, (p, z) ∈ points2 g → ∃ q, (q, z) ∈ points2 g' ∧ m.source g.ny g.nx q.1 q.2 = p := by
    intro p z hz
    obtain ⟨h1, h2, h3⟩ := mem_points2.1 hz
    obtain ⟨h4, h5, h6⟩ := source_back h h1 h2
    exact ⟨_, mem_points2.2 ⟨h4, h5, by rw [h.points _ h4 _ h5, h6, h3]⟩, h6⟩
  have hemp : (points2 g').isEmpty = (points2 g).isEmpty := by
    rw [Bool.eq_iff_iff, List.isEmpty_iff, List.isEmpty_iff]
    constructor <;> intro e <;> refine List.eq_nil_iff_forall_not_mem.2 fun q hq => ?_
    · obtain ⟨q', hq', -⟩ := forth (p := q.1) (z := q.2) hq
      rw [e] at hq'; cases hq'
    · have := back (p := q.1) (z := q.2) hq
      rw [e] at this; cases this
  unfold griddataNearest
  refine laid_ofFn h fun i hi j hj => ?_
  rw [hemp]
  split
  · rfl
  · rename_i hne
    have hne' : points2 g ≠ [] := fun e => hne (by rw [e]; rfl)
    have hne2 : points2 g' ≠ [] := fun e => hne (by rw [← hemp, e]; rfl)
    obtain ⟨a1, a2⟩ := hp (points2 g') (i, j) hne2
    obtain ⟨b1, b2⟩ := hp (points2 g) (m.source g.ny g.nx i j) hne'
    rcases hA : pick (points2 g') (i, j) with ⟨p, y⟩
    rcases hB : pick (points2 g) (m.source g.ny g.nx i j) with ⟨q, z⟩
    rw [hA] at a1 a2
    rw [hB] at b1 b2
    obtain ⟨s1, s2⟩ := source_lt h hi hj
    have p1 := mem_points2.1 a1
    have p2 := mem_points2.1 (back a1)
    have q1 := mem_points2.1 b1
    have hs : m.source g.ny g.nx i j = ((m.source g.ny g.nx i j).1, (m.source g.ny g.nx i j).2) := rfl
    show some y = some z
    refine congrArg some (ht _ s1 _ s2 _ q y z p2.1 p2.2.1 q1.1 q1.2.1 p2.2.2 q1.2.2 (fun c c1 c2 c3 => ?_) fun c c1 c2 c3 => ?_)
    · obtain ⟨w, hw⟩ := Option.ne_none_iff_exists'.1 c3
      obtain ⟨c', hc', rfl⟩ := forth (mem_points2.2 ⟨c1, c2, hw⟩)
      have c4 := mem_points2.1 hc'
      rw [← hs, dist_move h ⟨p1.1, p1.2.1⟩ (q := (i, j)) ⟨hi, hj⟩, dist_move h ⟨c4.1, c4.2.1⟩ (q := (i, j)) ⟨hi, hj⟩]
      exact a2 _ hc'
    · obtain ⟨w, hw⟩ := Option.ne_none_iff_exists'.1 c3
      exact b2 _ (mem_points2.2 ⟨c1, c2, hw⟩)

/-- **C118** is violated by `fill_nonmeasured` where two measured points are equally near, if the choice between them depends on the positions only:
the point between two measured ones is filled with the height of the same side before and after mirroring. -/
theorem C118_fill_violated {pick : Pick (Nat × Nat) ℚ} (hp : IsNearest dist2 pick)
    (hpos : ∀ (v v' : List ((Nat × Nat) × ℚ)) q, v.map Prod.fst = v'.map Prod.fst → (pick v q).1 = (pick v' q).1) :
    ∃ g g' : Grid (Option ℚ), Laid .mirror g g' ∧ ¬ Laid .mirror (griddataNearest pick g) (griddataNearest pick g') := by
  refine ⟨⟨[[some 0, none, some 1]], 3⟩, ⟨[[some 1, none, some 0]], 3⟩, ⟨by decide, by decide, by decide, by decide⟩, fun h => ?_⟩
  have e1 : points2 (⟨[[some 0, none, some 1]], 3⟩ : Grid (Option ℚ)) = [((0, 0), 0), ((0, 2), 1)] := by decide +kernel
  have e2 : points2 (⟨[[some 1, none, some 0]], 3⟩ : Grid (Option ℚ)) = [((0, 0), 1), ((0, 2), 0)] := by decide +kernel
  have h1 := h.points 0 (by rw [griddataNearest, ofFn_ny]; decide) 1 (by rw [griddataNearest, ofFn_nx]; decide)
  simp only [Move.source, griddataNearest, ofFn_nx, Nat.reduceSub, e1, e2, List.isEmpty_cons, Bool.false_eq_true, if_false] at h1
  rw [get_ofFn _ (by decide) (by decide), get_ofFn _ (by decide) (by decide), Option.some.injEq] at h1
  have a := (hp [((0, 0), 0), ((0, 2), 1)] (0, 1) (by simp)).1
  have b := (hp [((0, 0), 1), ((0, 2), 0)] (0, 1) (by simp)).1
  have c := hpos [((0, 0), 0), ((0, 2), 1)] [((0, 0), 1), ((0, 2), 0)] (0, 1) rfl
  rcases hA : pick [((0, 0), 0), ((0, 2), 1)] (0, 1) with ⟨p, y⟩
  rcases hB : pick [((0, 0), 1), ((0, 2), 0)] (0, 1) with ⟨q, z⟩
  rw [hA] at a h1 c
  rw [hB] at b h1 c
  simp only at h1 c
  subst h1 c
  simp only [List.mem_cons, Prod.mk.injEq, List.not_mem_nil, or_false] at a b
  rcases a with ⟨rfl, rfl⟩ | ⟨rfl, rfl⟩ <;> simp at b

end Filling
end Surfalize.Props
