import Verif.Lemmas.Stable
import Verif.Lemmas.Detrend
import Verif.Props.Gauss
import Verif.Props.FillRotate
import Verif.Props.Stable

/-!
# C114 — small changes of the heights change the results of operations little
-/
set_option linter.unusedSectionVars false
namespace Surfalize.Props
open Surfalize Container StableSpec Stable BaseOps

section Simple
variable {K : Type} [Field K] [LinearOrder K] [IsStrictOrderedRing K] {e : K} {g g' : Grid (Option K)}

private theorem get_mapf {α β : Type} (f : Option α → Option β) {g : Grid (Option α)} (hg : g.WF) {i j : Nat} (hi : i < g.ny) (hj : j < g.nx) :
    (Container.map f g).get i j = f (g.get i j) := by
  have hi' : i < g.rows.length := hi
  have hl : g.rows[i].length = g.nx := hg _ (List.getElem_mem hi')
  show ((((g.rows.map (List.map f))[i]?).bind fun r => r[j]?).getD none) = _
  unfold Grid.get
  rw [List.getElem?_map, List.getElem?_eq_getElem hi']
  simp [List.getElem?_eq_getElem (hl ▸ hj : j < g.rows[i].length)]

private theorem near_map {e' : K} {f f' : Option K → Option K} (h : NearSurface e g g')
    (hf : ∀ i j, i < g.ny → j < g.nx → NearPt e (g.get i j) (g'.get i j) → NearPt e' (f (g.get i j)) (f' (g'.get i j))) :
    NearSurface e' (Container.map f g) (Container.map f' g') := by
  refine ⟨map_wf f h.wf, map_wf f' h.wf', by rw [map_ny, map_ny, h.ny], by rw [map_nx, map_nx, h.nx], fun i j hi hj => ?_⟩
  rw [map_ny] at hi
  rw [map_nx] at hj
  rw [get_mapf f h.wf hi hj, get_mapf f' h.wf' (h.ny ▸ hi) (h.nx ▸ hj)]
  exact hf i j hi hj (h.points i j hi hj)

private theorem point_measured {i j : Nat} {x : K} (hg : g.WF) (hi : i < g.ny) (hj : j < g.nx) (hx : g.get i j = some x) :
    measured (flat g) ≠ [] := fun hc => by
  have : x ∈ measured (flat g) := mem_measured.2 (hx ▸ get_mem hg hi hj)
  rw [hc] at this
  cases this

/-- The common part of `center` and `zero`: subtracting a number that is near. -/
private theorem near_sub (h : NearSurface e g g') {m m' : Option K}
    (hm : measured (flat g) ≠ [] → ∃ a b, m = some a ∧ m' = some b ∧ |b - a| ≤ e) :
    NearSurface (2 * e) (Container.map (fun z => osub z m) g) (Container.map (fun z => osub z m') g') := by
  refine near_map h fun i j hi hj hp => ?_
  cases hx : g.get i j with
  | none =>
    rw [hx] at hp
    generalize g'.get i j = y at hp
    cases hp
    exact .missing
  | some x =>
    obtain ⟨a, b, rfl, rfl, hab⟩ := hm (point_measured h.wf hi hj hx)
    rw [hx] at hp
    generalize g'.get i j = y at hp
    cases hp with
    | measured hxy =>
      refine .measured ?_
      rw [abs_le] at *
      constructor <;> linarith [hxy.1, hxy.2, hab.1, hab.2]

/-- **C114** (`center`). -/
theorem C114_center (h : NearSurface e g g') : NearSurface (2 * e) (center g) (center g') := by
  refine near_sub h fun hne => ?_
  have ho := off_measured (near_flat h)
  have := off_mean ho hne
  rw [add_zero] at this
  exact ⟨_, _, if_neg hne, if_neg (off_ne ho hne), this⟩

/-- **C114** (`zero`). -/
theorem C114_zero (h : NearSurface e g g') {r : Grid (Option K)} (hr : zero g = .ok r) :
    ∃ r', zero g' = .ok r' ∧ NearSurface (2 * e) r r' := by
  unfold zero at hr ⊢
  split at hr
  · cases hr
  · rename_i hne
    cases hr
    have hf := near_flat h
    rw [if_neg (fun hc => hne (List.forall₂_nil_right_iff.1 (hc ▸ hf)))]
    refine ⟨_, rfl, near_sub h fun hne => ?_⟩
    have ho := off_measured hf
    obtain ⟨a, ha⟩ := exists_min? hne
    obtain ⟨b, hb⟩ := exists_min? (off_ne ho hne)
    have := off_min ho hne
    simp only [HeightParams.minL, ha, hb, Option.getD_some, add_zero] at this
    exact ⟨a, b, ha, hb, this⟩

/-- **C114** (`invert`). -/
theorem C114_invert (h : NearSurface e g g') {r : Grid (Option K)} (hr : invert g = .ok r) :
    ∃ r', invert g' = .ok r' ∧ NearSurface (3 * e) r r' := by
  unfold invert at hr ⊢
  have hf := near_flat h
  split at hr
  · cases hr
  · rename_i hne
    cases hr
    rw [if_neg (fun hc => hne (List.forall₂_nil_right_iff.1 (hc ▸ hf)))]
    refine ⟨_, rfl, near_map h fun i j hi hj hp => ?_⟩
    by_cases hm : none ∈ flat g
    · have hm' : none ∈ flat g' := by
        by_contra hc
        have : ∀ {a b : List (Option K)}, List.Forall₂ (NearPt e) a b → none ∈ a → none ∈ b := by
          intro a b hab
          induction hab with
          | nil => exact id
          | cons h _ ih =>
            intro hn
            rcases List.mem_cons.1 hn with hn | hn
            · subst hn
              cases h
              exact List.mem_cons_self
            · exact List.mem_cons_of_mem _ (ih hn)
        exact hc (this hf hm)
      simp only [propmin, propmax, if_pos hm, if_pos hm']
      exact .missing
    · have hm' := none_mem hf hm
      simp only [propmin, propmax, if_neg hm, if_neg hm']
      have ho := off_measured hf
      have hn := HeightParams.measured_ne_nil hm hne
      have hmin := off_min ho hn
      have hmax := off_max ho hn
      obtain ⟨a, ha⟩ := exists_min? hn
      obtain ⟨b, hb⟩ := exists_min? (off_ne ho hn)
      obtain ⟨c, hc⟩ := exists_max? hn
      obtain ⟨d, hd⟩ := exists_max? (off_ne ho hn)
      simp only [HeightParams.minL, HeightParams.maxL, ha, hb, hc, hd, Option.getD_some, add_zero] at hmin hmax
      rw [ha, hb, hc, hd]
      generalize g.get i j = x at hp
      generalize g'.get i j = y at hp
      cases hp with
      | missing => exact .missing
      | measured hxy =>
        refine .measured ?_
        rw [abs_le] at *
        constructor <;> linarith [hxy.1, hxy.2, hmin.1, hmin.2, hmax.1, hmax.2]

/-- **C114** (`fill_nonmeasured`). The neighbour search looks at the positions of the measured points only. -/
theorem C114_fill {pick : FillRotate.Pick (Nat × Nat) K} (hp : Spec.IsNearest Spec.dist2 pick)
    (hpos : ∀ (v v' : List ((Nat × Nat) × K)) q, v.map Prod.fst = v'.map Prod.fst → (pick v q).1 = (pick v' q).1)
    (h : NearSurface e g g') : NearSurface e (FillRotate.griddataNearest pick g) (FillRotate.griddataNearest pick g') := by
  unfold FillRotate.griddataNearest
  refine ⟨ofFn_wf _ _ _, ofFn_wf _ _ _, by rw [ofFn_ny, ofFn_ny, h.ny], by rw [ofFn_nx, ofFn_nx, h.nx], fun i j hi hj => ?_⟩
  rw [ofFn_ny] at hi
  rw [ofFn_nx] at hj
  rw [get_ofFn _ hi hj, get_ofFn _ (h.ny ▸ hi) (h.nx ▸ hj)]
  have hfst : (FillRotate.points2 g).map Prod.fst = (FillRotate.points2 g').map Prod.fst := by
    unfold FillRotate.points2
    rw [h.ny, h.nx, List.map_filterMap, List.map_filterMap]
    refine List.filterMap_congr fun p hp => ?_
    obtain ⟨h1, h2⟩ := mem_pixels.1 hp
    have := h.points p.1 p.2 h1 h2
    generalize g.get p.1 p.2 = x at this
    generalize g'.get p.1 p.2 = y at this
    cases this <;> rfl
  have hlen : (FillRotate.points2 g).isEmpty = (FillRotate.points2 g').isEmpty := by
    have := congrArg List.length hfst
    rw [List.length_map, List.length_map] at this
    revert this
    generalize FillRotate.points2 g = a
    generalize FillRotate.points2 g' = b
    intro this
    cases a <;> cases b <;> simp at this ⊢
  rw [hlen]
  split
  · exact .missing
  · rename_i hem
    have hem' : ¬ (FillRotate.points2 g).isEmpty = true := by rw [hlen]; exact hem
    have m1 := (hp (FillRotate.points2 g) (i, j) (fun hc => hem' (by rw [hc]; rfl))).1
    have m2 := (hp (FillRotate.points2 g') (i, j) (fun hc => hem (by rw [hc]; rfl))).1
    have hpq := hpos _ _ (i, j) hfst
    generalize pick (FillRotate.points2 g) (i, j) = a at m1 hpq
    generalize pick (FillRotate.points2 g') (i, j) = b at m2 hpq
    obtain ⟨p, hpp, e1⟩ := List.mem_filterMap.1 m1
    obtain ⟨q, hqq, e2⟩ := List.mem_filterMap.1 m2
    rw [Option.map_eq_some_iff] at e1 e2
    obtain ⟨x, hx, rfl⟩ := e1
    obtain ⟨y, hy, rfl⟩ := e2
    have hpq' : p = q := hpq
    subst hpq'
    obtain ⟨h1, h2⟩ := mem_pixels.1 hpp
    have := h.points p.1 p.2 h1 h2
    rw [hx, hy] at this
    exact this

end Simple

section Filters
open Gauss GaussSpec
variable {e : ℝ} {ny nx : Nat} {z z' : Nat → Nat → ℝ}

private theorem axis_near (mode : End) (σ : ℝ) {n : Nat} {z z' : Nat → ℝ} (h : ∀ j < n, |z' j - z j| ≤ e) {i : Nat} (hi : i < n) :
    |axis mode σ n z' i - axis mode σ n z i| ≤ e := by
  have h1 := axis_affine (mode := mode) (-1) 0 (Or.inr rfl) σ n z i
  have h2 := axis_add mode σ n z' (fun j => -1 * z j + 0) i
  rw [h1] at h2
  have h3 := axis_abs mode σ (z := fun j => z' j + (-1 * z j + 0)) (b := e) (fun j hj => by
    rw [show z' j + (-1 * z j + 0) = z' j - z j by ring]
    exact h j hj) hi
  rw [h2, show axis mode σ n z' i + (-1 * axis mode σ n z i + 0) = axis mode σ n z' i - axis mode σ n z i by ring] at h3
  exact h3

private theorem twice_near (mode : End) (σy σx : ℝ) (h : ∀ i < ny, ∀ j < nx, |z' i j - z i j| ≤ e) :
    ∀ i < ny, ∀ j < nx, |twice mode σy σx ny nx z' i j - twice mode σy σx ny nx z i j| ≤ e :=
  fun _ hi _ hj => axis_near mode σx (fun k hk => axis_near mode σy (fun k' hk' => h k' hk' k hk) hi) hj

private theorem surfaceOf_near (h : ∀ i < ny, ∀ j < nx, |z' i j - z i j| ≤ e) : NearSurface e (surfaceOf ny nx z) (surfaceOf ny nx z') := by
  refine ⟨ofFn_wf _ _ _, ofFn_wf _ _ _, ?_, rfl, fun i j hi hj => ?_⟩
  · unfold surfaceOf
    rw [ofFn_ny, ofFn_ny]
  · unfold surfaceOf at hi hj
    rw [ofFn_ny] at hi
    rw [ofFn_nx] at hj
    rw [surfaceOf_get z hi hj, surfaceOf_get z' hi hj]
    exact .measured (h i hi j hj)

private theorem high_near (mode : End) (σy σx : ℝ) (h : ∀ i < ny, ∀ j < nx, |z' i j - z i j| ≤ e) :
    ∀ i < ny, ∀ j < nx, |z' i j - twice mode σy σx ny nx z' i j - (z i j - twice mode σy σx ny nx z i j)| ≤ 2 * e := by
  intro i hi j hj
  have a := abs_le.1 (h i hi j hj)
  have b := abs_le.1 (twice_near mode σy σx h i hi j hj)
  rw [abs_le]
  constructor <;> linarith [a.1, a.2, b.1, b.2]

/-- **C114** (`filter`). For fully measured surfaces, every end treatment and every cutoff wavelength the results of the
low pass filter differ by at most `e`, those of the high pass and of the band pass filter by at most `2 e`. -/
theorem C114_filter {g g' : Grid (Option ℝ)} (h : NearSurface e g g') (he : 0 ≤ e) (hf : none ∉ flat g) (mode : End) (sx sy c : ℝ)
    (c2 : Option ℝ) (ip : Bool) :
    (∃ r r', filterSurface mode sx sy "lowpass" c c2 ip g = .ok (.one r) ∧ filterSurface mode sx sy "lowpass" c c2 ip g' = .ok (.one r') ∧
      NearSurface e r r') ∧
    (∃ r r', filterSurface mode sx sy "highpass" c c2 ip g = .ok (.one r) ∧ filterSurface mode sx sy "highpass" c c2 ip g' = .ok (.one r') ∧
      NearSurface (2 * e) r r') ∧
    ∀ d, c < d → ∃ r r', filterSurface mode sx sy "bandpass" c (some d) ip g = .ok (.one r) ∧
      filterSurface mode sx sy "bandpass" c (some d) ip g' = .ok (.one r') ∧ NearSurface (2 * e) r r' := by
  have hz : ∀ i < g.ny, ∀ j < g.nx, |g'.val i j - g.val i j| ≤ e := fun i hi j hj => near_val h he hi hj
  have e1 := surfaceOf_val h.wf hf
  have e2 := surfaceOf_val h.wf' (none_mem (near_flat h) hf)
  rw [h.ny, h.nx] at e2
  generalize g.ny = ny at hz e1 e2
  generalize g.nx = nx at hz e1 e2
  rw [e1, e2]
  refine ⟨⟨_, _, low_eq _ _ _ _ _ _ _ _ _, low_eq _ _ _ _ _ _ _ _ _, surfaceOf_near (twice_near _ _ _ hz)⟩,
    ⟨_, _, high_eq _ _ _ _ _ _ _ _ _, high_eq _ _ _ _ _ _ _ _ _, surfaceOf_near (high_near _ _ _ hz)⟩, fun d hd => ?_⟩
  rw [band_eq _ _ _ _ _ hd, band_eq _ _ _ _ _ hd]
  exact ⟨_, _, high_eq _ _ _ _ _ _ _ _ _, high_eq _ _ _ _ _ _ _ _ _, surfaceOf_near (high_near _ _ _ (twice_near _ _ _ hz))⟩

end Filters

section Detrend
open Surfalize.Detrend Spec
variable {K : Type} [Field K] [LinearOrder K] [IsStrictOrderedRing K] {e : K} {g g' : Grid (Option K)}

private theorem sse_move {ι : Type} (v : List (ι × K)) (f h : ι → K) (m : K) :
    sse v (f + m • h) = sse v f - 2 * m * (v.map fun q => (q.2 - f q.1) * h q.1).sum + m ^ 2 * (v.map fun q => h q.1 ^ 2).sum := by
  unfold sse
  induction v with
  | nil => simp
  | cons q v ih =>
    simp only [List.map_cons, List.sum_cons]
    rw [ih]
    simp only [Pi.add_apply, Pi.smul_apply, smul_eq_mul]
    ring

private theorem minimiser_orth {ι : Type} (W : Submodule K (ι → K)) (v : List (ι × K)) {f : ι → K} (hf : f ∈ W)
    (mf : ∀ h ∈ W, sse v f ≤ sse v h) {h : ι → K} (hh : h ∈ W) : (v.map fun q => (q.2 - f q.1) * h q.1).sum = 0 := by
  have key : ∀ m : K, 0 ≤ - (2 * m * (v.map fun q => (q.2 - f q.1) * h q.1).sum) + m ^ 2 * (v.map fun q => h q.1 ^ 2).sum := by
    intro m
    have := mf _ (W.add_mem hf (W.smul_mem m hh))
    rw [sse_move] at this
    linarith
  have hpos : 0 ≤ (v.map fun q => h q.1 ^ 2).sum := List.sum_nonneg (by
    intro x hx; obtain ⟨y, _, rfl⟩ := List.mem_map.1 hx; exact sq_nonneg _)
  rcases hpos.eq_or_lt with h0 | h0
  · have hz := sum_sq_eq_zero v (fun q => h q.1) h0.ge
    have : (v.map fun q => (q.2 - f q.1) * h q.1) = v.map fun _ => 0 := List.map_congr_left fun q hq => by rw [hz q hq, mul_zero]
    rw [this]
    simp
  · generalize (v.map fun q => (q.2 - f q.1) * h q.1).sum = S at key ⊢
    generalize (v.map fun q => h q.1 ^ 2).sum = T at key h0
    have := key (S / T)
    have e1 : -(2 * (S / T) * S) + (S / T) ^ 2 * T = -(S ^ 2 / T) := by
      field_simp
      ring
    rw [e1] at this
    have h2 : S ^ 2 ≤ 0 := by
      by_contra hc
      push Not at hc
      have := div_pos hc h0
      linarith
    exact pow_eq_zero_iff two_ne_zero |>.1 (le_antisymm h2 (sq_nonneg S))

/-- **C114** (`level`, `detrend_polynomial`). The detrended heights differ by at most as much as the heights, in the root
mean square: the sum of the squared differences does not grow. -/
theorem C114_detrend {lstsq : Lstsq K} (hl : IsLstsq lstsq) (d : Nat) (h : NearSurface e g g') {r t r' t' : Grid (Option K)}
    (hr : detrend2 lstsq d g = .ok (r, t)) (hr' : detrend2 lstsq d g' = .ok (r', t')) :
    r.ny = g.ny ∧ r.nx = g.nx ∧ r'.ny = g.ny ∧ r'.nx = g.nx ∧
    (∀ i j, i < g.ny → j < g.nx → (r.get i j = none ↔ g.get i j = none) ∧ (r'.get i j = none ↔ g.get i j = none)) ∧
    ∑ i ∈ Finset.range g.ny, ∑ j ∈ Finset.range g.nx, (r'.val i j - r.val i j) ^ 2
      ≤ ∑ i ∈ Finset.range g.ny, ∑ j ∈ Finset.range g.nx, (g'.val i j - g.val i j) ^ 2 := by
  obtain ⟨f, hf, mf, rfl, -⟩ := detrend2_core hl hr
  obtain ⟨f', hf', mf', rfl, -⟩ := detrend2_core hl hr'
  rw [h.ny, h.nx]
  refine ⟨ofFn_ny _ _ _, rfl, ofFn_ny _ _ _, rfl, fun i j hi hj => ?_, ?_⟩
  · rw [get_ofFn _ hi hj, get_ofFn _ hi hj, Option.map_eq_none_iff, Option.map_eq_none_iff]
    refine ⟨Iff.rfl, ?_⟩
    have := h.points i j hi hj
    generalize g.get i j = x at this
    generalize g'.get i j = y at this
    cases this <;> simp
  · -- the difference of the heights, pixel by pixel
    let D : Nat × Nat → K := fun p => g'.val p.1 p.2 - g.val p.1 p.2
    have hv : validPixels g' = (validPixels g).map fun q => (q.1, q.2 + D q.1) := by
      unfold validPixels
      rw [h.ny, h.nx, List.map_filterMap]
      refine List.filterMap_congr fun p hp => ?_
      obtain ⟨h1, h2⟩ := mem_pixels.1 hp
      have hp := h.points p.1 p.2 h1 h2
      have hD : D p = g'.val p.1 p.2 - g.val p.1 p.2 := rfl
      unfold Grid.val at hD
      generalize g.get p.1 p.2 = x at hp hD
      generalize g'.get p.1 p.2 = y at hp hD
      cases hp with
      | missing => rfl
      | measured hxy =>
        simp only [Option.getD_some] at hD
        simp [hD]
    have o1 := minimiser_orth (pixPoly d) _ hf mf (Submodule.sub_mem _ hf' hf)
    have o2 := minimiser_orth (pixPoly d) _ hf' mf' (Submodule.sub_mem _ hf' hf)
    rw [hv, List.map_map] at o2
    -- both sums over the measured pixels
    have s1 : ∑ i ∈ Finset.range g.ny, ∑ j ∈ Finset.range g.nx, (g'.val i j - g.val i j) ^ 2 = ((validPixels g).map fun q => D q.1 ^ 2).sum := by
      unfold validPixels
      rw [sum_filterMap, sum_pixels]
      refine Finset.sum_congr rfl fun i hi => Finset.sum_congr rfl fun j hj => ?_
      have hp := h.points i j (Finset.mem_range.1 hi) (Finset.mem_range.1 hj)
      have hD : D (i, j) = g'.val i j - g.val i j := rfl
      dsimp only
      unfold Grid.val at hD ⊢
      generalize g.get i j = x at hp hD ⊢
      generalize g'.get i j = y at hp hD ⊢
      cases hp with
      | missing => simp
      | measured hxy => simp [hD]
    have s2 : ∑ i ∈ Finset.range g.ny, ∑ j ∈ Finset.range g.nx,
        ((Grid.ofFn g.ny g.nx fun i j => (g'.get i j).map fun z => z - f' (i, j)).val i j
          - (Grid.ofFn g.ny g.nx fun i j => (g.get i j).map fun z => z - f (i, j)).val i j) ^ 2
        = ((validPixels g).map fun q => (D q.1 - (f' q.1 - f q.1)) ^ 2).sum := by
      unfold validPixels
      rw [sum_filterMap, sum_pixels]
      refine Finset.sum_congr rfl fun i hi => Finset.sum_congr rfl fun j hj => ?_
      have hp := h.points i j (Finset.mem_range.1 hi) (Finset.mem_range.1 hj)
      have hD : D (i, j) = g'.val i j - g.val i j := rfl
      dsimp only
      unfold Grid.val at hD ⊢
      rw [get_ofFn _ (Finset.mem_range.1 hi) (Finset.mem_range.1 hj), get_ofFn _ (Finset.mem_range.1 hi) (Finset.mem_range.1 hj)]
      generalize g.get i j = x at hp hD ⊢
      generalize g'.get i j = y at hp hD ⊢
      cases hp with
      | missing => simp
      | measured hxy =>
        simp [hD]
        ring
    rw [s1, s2]
    revert o1 o2
    generalize validPixels g = v
    clear_value D
    intro o1 o2
    have split : (v.map fun q => D q.1 ^ 2).sum = (v.map fun q => (D q.1 - (f' q.1 - f q.1)) ^ 2).sum + (v.map fun q => (f' q.1 - f q.1) ^ 2).sum
        + 2 * ((v.map fun q => (q.2 + D q.1 - f' q.1) * (f' q.1 - f q.1)).sum - (v.map fun q => (q.2 - f q.1) * (f' q.1 - f q.1)).sum) := by
      clear o1 o2
      induction v with
      | nil => simp
      | cons q v ih =>
        simp only [List.map_cons, List.sum_cons]
        linear_combination ih
    have hpos : 0 ≤ (v.map fun q => (f' q.1 - f q.1) ^ 2).sum := List.sum_nonneg (by
      intro x hx; obtain ⟨y, _, rfl⟩ := List.mem_map.1 hx; exact sq_nonneg _)
    have o1' : (v.map fun q => (q.2 - f q.1) * (f' q.1 - f q.1)).sum = 0 := o1
    have o2' : (v.map fun q => (q.2 + D q.1 - f' q.1) * (f' q.1 - f q.1)).sum = 0 := o2
    rw [split, o1', o2']
    linarith

end Detrend

/-! ## The hypotheses are met -/

/-- The first of the nearest points is found from the positions only. -/
theorem C114_pick_exists {K : Type} (d : (Nat × Nat) × K) : ∃ pick : FillRotate.Pick (Nat × Nat) K, Spec.IsNearest Spec.dist2 pick ∧
    ∀ (v v' : List ((Nat × Nat) × K)) q, v.map Prod.fst = v'.map Prod.fst → (pick v q).1 = (pick v' q).1 := by
  refine ⟨fun v q => v.getD (argmin ((v.map Prod.fst).map fun p => (Spec.dist2 p q : ℚ))) d, fun v q hv => ?_, fun v v' q hvv => ?_⟩
  · have hne : ((v.map Prod.fst).map fun p => (Spec.dist2 p q : ℚ)) ≠ [] := by simpa using hv
    have hlt := argmin_lt hne
    have hlt' : argmin ((v.map Prod.fst).map fun p => (Spec.dist2 p q : ℚ)) < v.length := by simpa using hlt
    dsimp only
    rw [getD_of_lt _ hlt']
    refine ⟨List.getElem_mem _, fun x hx => ?_⟩
    obtain ⟨k, hk, rfl⟩ := List.mem_iff_getElem.1 hx
    have := argmin_le rfl hlt (j := k) (by simpa using hk)
    simp only [List.getElem_map] at this
    exact_mod_cast this
  · dsimp only
    rw [hvv]
    have hl : v.length = v'.length := by simpa using congrArg List.length hvv
    generalize argmin ((v'.map Prod.fst).map fun p => (Spec.dist2 p q : ℚ)) = k
    have hk : (v.map Prod.fst).getD k d.1 = (v'.map Prod.fst).getD k d.1 := by rw [hvv]
    by_cases hkl : k < v.length
    · rw [getD_of_lt _ (by simpa using hkl), getD_of_lt _ (by simpa [← hl] using hkl), List.getElem_map, List.getElem_map] at hk
      rw [getD_of_lt _ hkl, getD_of_lt _ (hl ▸ hkl)]
      exact hk
    · rw [List.getD_eq_getElem?_getD, List.getD_eq_getElem?_getD, List.getElem?_eq_none (by omega), List.getElem?_eq_none (by omega)]

example : NearSurface (2 * (1 / 10) : ℚ) (center demoA) (center demoB) := C114_center C113_demo

example : ∃ r r', Gauss.filterSurface .reflect 1 2 "lowpass" 3 none false demoA = .ok (.one r) ∧
    Gauss.filterSurface .reflect 1 2 "lowpass" 3 none false demoB = .ok (.one r') ∧ NearSurface (1 / 10) r r' :=
  (C114_filter C113_demo (by norm_num) (by simp [demoA, Container.flat]) .reflect 1 2 3 none false).1

end Surfalize.Props
