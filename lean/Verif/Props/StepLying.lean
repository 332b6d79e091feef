import Verif.Props.Lying
import Verif.Props.Rescaled
import Verif.Props.Stepheight
import Verif.Spec.StepLevel

/-!
# C125 — step levelling does not depend on how the sample lies, on the unit or on the datum
-/
set_option linter.unusedSectionVars false
namespace Surfalize.Props
open Surfalize LyingSpec Lying Container Stepheight Spec Detrend

section
variable {K : Type} [Field K] [LinearOrder K] [IsStrictOrderedRing K] [FloorRing K] {m : Move} {g g' : Grid (Option K)}

/-- The points of the upper level; all others count as not measured. -/
private def top (g : Grid (Option K)) : Grid (Option K) :=
  Container.map (fun z => if above (otsu defaultBins (measured (flat g))) z then z else none) g

private theorem top_get (hg : g.WF) {i j : Nat} (hi : i < g.ny) (hj : j < g.nx) :
    (top g).get i j = if above (otsu defaultBins (measured (flat g))) (g.get i j) then g.get i j else none :=
  get_mapf _ hg hi hj

private theorem top_valid (hg : g.WF) :
    (validPixels g).filter (fun p => maskFn defaultBins (flat g) (some p.2)) = validPixels (top g) := by
  rw [mask_valid, maskFn_eq]
  unfold validPixels
  have e1 : (top g).ny = g.ny := map_ny _ _
  have e2 : (top g).nx = g.nx := map_nx _ _
  rw [e1, e2]
  refine List.filterMap_congr fun p hp => ?_
  rw [mem_pixels] at hp
  rw [top_get hg hp.1 hp.2]
  cases hz : g.get p.1 p.2 with
  | none => simp [above]
  | some z =>
    by_cases ha : above (otsu defaultBins (measured (flat g))) (some z) = true
    · simp [ha]
    · simp [ha]

private theorem plane_iff (f : Nat × Nat → K) : f ∈ pixPoly 1 ↔ ∃ a b c : K, ∀ p, f p = a * p.2 + b * p.1 + c := by
  rw [mem_polySpace_iff]
  constructor
  · rintro ⟨c, hc⟩
    refine ⟨c 1 0, c 0 1, c 0 0, fun p => ?_⟩
    rw [hc p]
    simp [poly2, Finset.sum_range_succ]
    ring
  · rintro ⟨a, b, c, h⟩
    refine ⟨fun i j => if i = 1 then a else if j = 1 then b else c, fun p => ?_⟩
    rw [h p]
    simp [poly2, Finset.sum_range_succ]
    ring

/-- What `stepheight_level` does, in terms of a plane that fits the upper level best. -/
private theorem level_core {lstsq : Lstsq K} (hl : IsLstsq lstsq) (hg : g.WF) :
    ∃ f ∈ pixPoly (K := K) 1, (∀ h ∈ pixPoly 1, sse (validPixels (top g)) f ≤ sse (validPixels (top g)) h) ∧
      levelData lstsq g = Grid.ofFn g.ny g.nx fun i j => (g.get i j).map fun z => z - (f (i, j) - mean ((pixels g.ny g.nx).map f)) := by
  set v := (validPixels g).filter fun p => maskFn defaultBins (flat g) (some p.2) with hvdef
  have hv : v = validPixels (top g) := top_valid hg
  set cs := lstsq 3 (v.map fun p => [(p.1.2 : K), (p.1.1 : K), 1]) (v.map fun p => p.2) with hcs
  refine ⟨fun p => cs.getD 0 0 * (p.2 : K) + cs.getD 1 0 * (p.1 : K) + cs.getD 2 0, (plane_iff _).2 ⟨_, _, _, fun p => rfl⟩, ?_, rfl⟩
  intro h hh
  obtain ⟨a', b', c', he⟩ := (plane_iff h).1 hh
  rw [← hv]
  have hA : (v.map fun p => [(p.1.2 : K), (p.1.1 : K), 1]).length = (v.map fun p => p.2).length := by simp
  have hw : ∀ r ∈ (v.map fun p => [(p.1.2 : K), (p.1.1 : K), 1]), r.length = 3 := by
    intro r hr; obtain ⟨p, _, rfl⟩ := List.mem_map.1 hr; rfl
  obtain ⟨hlen, hmin⟩ := hl 3 _ _ hA hw
  rw [← hcs] at hlen hmin
  have hc := hmin [a', b', c'] rfl
  have e : ∀ c : List K, c.length = 3 → (List.zipWith (fun r y => (y - (List.zipWith (fun a b => a * b) r c).sum) ^ 2)
      (v.map fun p => [(p.1.2 : K), (p.1.1 : K), 1]) (v.map fun p => p.2)).sum
      = sse v (fun p => c.getD 0 0 * (p.2 : K) + c.getD 1 0 * (p.1 : K) + c.getD 2 0) := by
    intro c hc
    obtain ⟨x, y, w, rfl⟩ := List.length_eq_three.1 hc
    unfold sse
    rw [List.zipWith_map, List.zipWith_self]
    congr 1
    apply List.map_congr_left
    intro q _
    simp
    ring
  rw [e _ hlen, e _ rfl] at hc
  refine le_trans hc (le_of_eq ?_)
  congr 1
  funext p
  rw [he p]
  rfl

/-- Planes that agree at three points that do not lie on one line are the same. -/
private theorem plane_eq {f f' : Nat × Nat → K} (hf : f ∈ pixPoly (K := K) 1) (hf' : f' ∈ pixPoly (K := K) 1) {p q r : Nat × Nat}
    (hn : ((q.1 : Int) - p.1) * ((r.2 : Int) - p.2) ≠ ((r.1 : Int) - p.1) * ((q.2 : Int) - p.2))
    (h1 : f p = f' p) (h2 : f q = f' q) (h3 : f r = f' r) : f = f' := by
  obtain ⟨a, b, c, e⟩ := (plane_iff f).1 hf
  obtain ⟨a', b', c', e'⟩ := (plane_iff f').1 hf'
  rw [e, e'] at h1 h2 h3
  have hd : ((q.1 : K) - p.1) * ((r.2 : K) - p.2) - ((r.1 : K) - p.1) * ((q.2 : K) - p.2) ≠ 0 := by
    intro h
    apply hn
    have : (((((q.1 : Int) - p.1) * ((r.2 : Int) - p.2) - ((r.1 : Int) - p.1) * ((q.2 : Int) - p.2) : Int)) : K) = 0 := by push_cast; exact h
    have := Int.cast_eq_zero.1 this
    omega
  have k1 : (a - a') * ((q.2 : K) - p.2) + (b - b') * ((q.1 : K) - p.1) = 0 := by linear_combination h2 - h1
  have k2 : (a - a') * ((r.2 : K) - p.2) + (b - b') * ((r.1 : K) - p.1) = 0 := by linear_combination h3 - h1
  have ha : a - a' = 0 := by
    have : (a - a') * (((q.1 : K) - p.1) * ((r.2 : K) - p.2) - ((r.1 : K) - p.1) * ((q.2 : K) - p.2)) = 0 := by
      linear_combination ((q.1 : K) - p.1) * k2 - ((r.1 : K) - p.1) * k1
    exact (mul_eq_zero.1 this).resolve_right hd
  have hb : b - b' = 0 := by
    have : (b - b') * (((q.1 : K) - p.1) * ((r.2 : K) - p.2) - ((r.1 : K) - p.1) * ((q.2 : K) - p.2)) = 0 := by
      linear_combination ((r.2 : K) - p.2) * k1 - ((q.2 : K) - p.2) * k2
    exact (mul_eq_zero.1 this).resolve_right hd
  have ha' : a = a' := sub_eq_zero.1 ha
  have hb' : b = b' := sub_eq_zero.1 hb
  have hc' : c = c' := by rw [ha', hb'] at h1; linear_combination h1
  funext s
  rw [e, e', ha', hb', hc']

private theorem top_laid (h : Laid m g g') : Laid m (top g) (top g') := by
  unfold top
  rw [otsu_perm (measured_perm (flat_perm h))]
  exact laid_map _ h

private theorem top_mem {g : Grid (Option K)} (hg : g.WF) {s : Nat × Nat} (h : s.1 < g.ny ∧ s.2 < g.nx ∧ ∃ z, g.get s.1 s.2 = some z ∧ otsu defaultBins (measured (flat g)) < z) :
    ∃ z, (s, z) ∈ validPixels (top g) := by
  obtain ⟨h1, h2, z, hz, ht⟩ := h
  refine ⟨z, List.mem_filterMap.2 ⟨s, mem_pixels.2 ⟨by rw [show (top g).ny = g.ny from map_ny _ _]; exact h1, h2⟩, ?_⟩⟩
  rw [top_get hg h1 h2, hz, if_pos (by simpa [above] using ht)]
  rfl

/-- **C125** (lying). Step levelling a sample that lies differently gives the levelled sample lying differently, if the upper level does not lie on one line. -/
theorem C125_lying_partial {lstsq : Lstsq K} (hl : IsLstsq lstsq) (h : Laid m g g') (hs : Spread (otsu defaultBins (measured (flat g))) g) :
    Laid m (levelData lstsq g) (levelData lstsq g') := by
  have h' := laid_symm h
  obtain ⟨f, hf, mf, e⟩ := level_core hl h.wf
  obtain ⟨f', hf', mf', e'⟩ := level_core hl h'.wf
  have ht := top_laid h'
  have key := trend_move ht hf' hf mf' mf
  obtain ⟨φ, hφ, eφ⟩ := move_trend h' hf'
  obtain ⟨p, q, r, hp, hn⟩ := hs
  have at' : ∀ s ∈ [p, q, r], f s = φ s := by
    intro s hs
    obtain ⟨z, hz⟩ := top_mem h.wf (hp s hs)
    rw [key (s, z) hz]
    have t1 : (top g').ny = g'.ny := map_ny _ _
    show f' (m.source (top g').ny (top g').nx s.1 s.2) = φ s
    rw [t1]
    exact (eφ s.1 (hp s hs).1 s.2 (hp s hs).2.1).symm
  have hfφ : f = φ := plane_eq hf hφ hn (at' p (by simp)) (at' q (by simp)) (at' r (by simp))
  have hm : mean ((pixels g.ny g.nx).map f) = mean ((pixels g'.ny g'.nx).map f') := by
    have := (pixels_perm h').map f'
    rw [List.map_map] at this
    rw [← HeightParams.mean_perm this]
    refine congrArg mean (List.map_congr_left fun s hs => ?_)
    rw [mem_pixels] at hs
    rw [hfφ]
    exact eφ s.1 hs.1 s.2 hs.2
  refine laid_symm ?_
  rw [e, e']
  refine laid_ofFn h' fun i hi j hj => ?_
  rw [h'.points i hi j hj, hm, hfφ, eφ i hi j hj]

variable {c d : K}

private theorem otsu_res (hc : 0 < c) {l : List K} {z : K} (hz : z ∈ l) :
    otsu defaultBins (l.map fun z => c * z + d) < c * z + d ↔ otsu defaultBins l < z := by
  by_cases h : ∃ x ∈ l, ∃ y ∈ l, x ≠ y
  · rw [otsu_affine (by decide) h hc d]
    constructor
    · intro h; by_contra h'; push Not at h'; nlinarith
    · intro h; nlinarith
  · push Not at h
    have k : ∀ l' : List K, ∀ w, w ∈ l' → (∀ x ∈ l', x = w) → otsu defaultBins l' < w := by
      intro l' w hw hx
      have h1 : l'.min? = some w := by
        rw [List.min?_eq_some_iff]
        exact ⟨hw, fun x h => le_of_eq (hx x h).symm⟩
      have h2 : l'.max? = some w := by
        rw [List.max?_eq_some_iff]
        exact ⟨hw, fun x h => le_of_eq (hx x h)⟩
      have := otsu_const (n := defaultBins) (by decide) h1 h2
      exact this
    refine iff_of_true (k _ _ (List.mem_map_of_mem hz) ?_) (k _ _ hz fun x hx => h x hx z hz)
    intro x hx
    obtain ⟨y, hy, rfl⟩ := List.mem_map.1 hx
    rw [h y hy z hz]

private theorem top_res (hc : 0 < c) (h : Rescaled c d g g') : Rescaled c d (top g) (top g') := by
  unfold top
  refine map_res h fun z hz => ?_
  cases z with
  | none => simp [above]
  | some z =>
    rw [meas_res h]
    have := otsu_res (d := d) hc (l := measured (flat g)) (z := z) (mem_measured.2 hz)
    simp only [Option.map_some, above, gt_iff_lt, this]
    split <;> rfl

/-- **C125** (unit and datum). Step levelling a sample measured in another unit and from another datum gives the levelled sample in this unit and from this datum, if the
upper level does not lie on one line. -/
theorem C125_units_partial {lstsq : Lstsq K} (hl : IsLstsq lstsq) (hc : 0 < c) (h : Rescaled c d g g') (hs : Spread (otsu defaultBins (measured (flat g))) g) :
    Rescaled c d (levelData lstsq g) (levelData lstsq g') := by
  obtain ⟨f, hf, mf, e⟩ := level_core hl h.wf
  obtain ⟨f', hf', mf', e'⟩ := level_core hl h.wf'
  have ht := top_res hc h
  have key := minimiser_unique (pixPoly 1) (validPixels (top g')) hf' (poly_res hf c d) mf' (fun ψ hψ => by
    have e : ψ = fun p => c * ((1 / c) * ψ p + -d / c) + d := by
      funext p; field_simp; ring
    rw [e, sse_res ht, sse_res ht]
    exact mul_le_mul_of_nonneg_left (mf _ (poly_res hψ _ _)) (by positivity))
  obtain ⟨p, q, r, hp, hn⟩ := hs
  have at' : ∀ s ∈ [p, q, r], f' s = c * f s + d := by
    intro s hs
    obtain ⟨z, hz⟩ := top_mem h.wf (hp s hs)
    refine key (s, c * z + d) ?_
    rw [valid_res ht]
    exact List.mem_map.2 ⟨(s, z), hz, rfl⟩
  have hff : f' = fun s => c * f s + d := plane_eq hf' (poly_res hf c d) hn (at' p (by simp)) (at' q (by simp)) (at' r (by simp))
  have hne : (pixels g.ny g.nx).map f ≠ [] := by
    have : p ∈ pixels g.ny g.nx := mem_pixels.2 ⟨(hp p (by simp)).1, (hp p (by simp)).2.1⟩
    exact fun h0 => List.ne_nil_of_mem this (List.map_eq_nil_iff.1 h0)
  have hm : mean ((pixels g.ny g.nx).map f') = c * mean ((pixels g.ny g.nx).map f) + d := by
    rw [← mean_res hne, List.map_map, hff]
    rfl
  rw [e, e', h.ny, h.nx, hm, hff]
  refine ofFn_res fun i hi j hj => ?_
  rw [h.points i hi j hj]
  cases g.get i j with
  | none => rfl
  | some z =>
    simp only [Option.map_some, Option.some.injEq]
    ring

end

/-- An upper level of one point. -/
def ridge (a b c : ℚ) : Grid (Option ℚ) := ⟨[[some a, some b, some c]], 3⟩

private theorem ridge_otsu {x h : ℚ} (hh : x < h) {l : List ℚ} (hx : ∀ y ∈ l, y = x ∨ y = h) (h1 : x ∈ l) (h2 : h ∈ l) :
    ¬ otsu defaultBins l < x ∧ otsu defaultBins l < h := by
  obtain ⟨⟨u, hu, hu'⟩, v, hv, hv'⟩ := C34_threshold (nbins := defaultBins) (by decide) l ⟨x, h1, h, h2, hh.ne⟩
  rcases hx u hu with rfl | rfl <;> rcases hx v hv with rfl | rfl <;> constructor <;> linarith

private theorem ridge_core {lstsq : Lstsq ℚ} (a b c : ℚ) {mk : Option ℚ → Bool} (hm : maskFn defaultBins [some a, some b, some c] = mk) {k : Nat} {h u v w : ℚ}
    (hv : (validPixels (ridge a b c)).filter (fun p => mk (some p.2)) = [((0, k), h)]) (hs : lstsq 3 [[(k : ℚ), 0, 1]] [h] = [u, v, w]) :
    levelData lstsq (ridge a b c) = ridge (a + u) b (c - u) := by
  have hp : levelPlane lstsq (ridge a b c) mk = fun i j : Nat => (u * (j : ℚ) + v * (i : ℚ) + w) - (u + w) := by
    unfold levelPlane
    simp only [hv, List.map_cons, List.map_nil, Nat.cast_zero]
    rw [hs]
    simp only [List.getD_cons_zero, List.getD_cons_succ]
    have e : pixels (ridge a b c).ny (ridge a b c).nx = [(0, 0), (0, 1), (0, 2)] := rfl
    rw [e]
    funext i j
    simp [mean]
    ring
  have hf : flat (ridge a b c) = [some a, some b, some c] := rfl
  unfold levelData
  simp only [hf, hm, hp]
  have n2 : List.range 3 = [0, 1, 2] := rfl
  have g0 : (ridge a b c).get 0 0 = some a := rfl
  have g1 : (ridge a b c).get 0 1 = some b := rfl
  have g2 : (ridge a b c).get 0 2 = some c := rfl
  show (⟨[0].map fun i => (List.range 3).map fun j => ((ridge a b c).get i j).map fun z => z - (u * (j : ℚ) + v * (i : ℚ) + w - (u + w)), 3⟩ : Grid (Option ℚ)) = ⟨_, 3⟩
  refine congrArg (fun r => (⟨r, 3⟩ : Grid (Option ℚ))) ?_
  rw [n2]
  simp only [List.map_cons, List.map_nil, g0, g1, g2, Option.map_some, List.cons.injEq, Option.some.injEq, and_true]
  refine ⟨by push_cast; ring, by push_cast; ring, by push_cast; ring⟩

private theorem min_norm {lstsq : Lstsq ℚ} (hl : IsLstsq lstsq) (hn : IsMinNorm lstsq) (k : ℚ) (h : ℚ) :
    lstsq 3 [[k, 0, 1]] [h] = [k * h / (k ^ 2 + 1), 0, h / (k ^ 2 + 1)] := by
  have hk : k ^ 2 + 1 ≠ 0 := by positivity
  obtain ⟨hlen, hmin⟩ := hl 3 [[k, 0, 1]] [h] rfl (by simp)
  have h0 := hmin [k * h / (k ^ 2 + 1), 0, h / (k ^ 2 + 1)] rfl
  have h1 := hn 3 [[k, 0, 1]] [h] rfl (by simp) [k * h / (k ^ 2 + 1), 0, h / (k ^ 2 + 1)] rfl (by
    simp
    field_simp
    ring)
  generalize lstsq 3 [[k, 0, 1]] [h] = cs at *
  obtain ⟨a, b, c, rfl⟩ := List.length_eq_three.1 hlen
  have z0 : h - (k * (k * h / (k ^ 2 + 1)) + h / (k ^ 2 + 1)) = 0 := by field_simp; ring
  simp at h0 h1
  rw [z0] at h0
  have e : h = k * a + c := by nlinarith [sq_nonneg (h - (k * a + c))]
  have e2 : (k * h / (k ^ 2 + 1)) ^ 2 + (h / (k ^ 2 + 1)) ^ 2 = h ^ 2 / (k ^ 2 + 1) := by field_simp
  have h2 : a ^ 2 + b ^ 2 + c ^ 2 ≤ h ^ 2 / (k ^ 2 + 1) := by rw [← e2]; linarith
  have h3 : (a ^ 2 + b ^ 2 + c ^ 2) * (k ^ 2 + 1) ≤ h ^ 2 := by rwa [le_div_iff₀ (by positivity)] at h2
  have h4 : (a - k * c) ^ 2 + b ^ 2 * (k ^ 2 + 1) ≤ 0 := by rw [e] at h3; nlinarith
  have hb : b = 0 := by
    have : b ^ 2 * (k ^ 2 + 1) ≤ 0 := by nlinarith [sq_nonneg (a - k * c)]
    have : b ^ 2 ≤ 0 := by nlinarith [mul_nonneg (sq_nonneg b) (sq_nonneg k)]
    nlinarith [sq_nonneg b, pow_eq_zero_iff (n := 2) (a := b) (by decide)]
  have ha : a = k * c := by
    have : (a - k * c) ^ 2 = 0 := le_antisymm (by nlinarith [mul_nonneg (sq_nonneg b) (by positivity : 0 ≤ k ^ 2 + 1)]) (sq_nonneg _)
    exact sub_eq_zero.1 (pow_eq_zero_iff (by decide) |>.1 this)
  have hc : c = h / (k ^ 2 + 1) := by rw [eq_div_iff hk, e, ha]; ring
  rw [ha, hb, hc]
  congr 1
  ring

private theorem ridge_first {lstsq : Lstsq ℚ} (hl : IsLstsq lstsq) (hn : IsMinNorm lstsq) {x h : ℚ} (hh : x < h) : levelData lstsq (ridge h x x) = ridge h x x := by
  obtain ⟨o1, o2⟩ := ridge_otsu hh (l := [h, x, x]) (by simp) (by simp) (by simp)
  have m : maskFn defaultBins [some h, some x, some x] = above (otsu defaultBins [h, x, x]) := maskFn_eq _ _
  have hv : (validPixels (ridge h x x)).filter (fun p => above (otsu defaultBins [h, x, x]) (some p.2)) = [((0, 0), h)] := by
    have e : validPixels (ridge h x x) = [((0, 0), h), ((0, 1), x), ((0, 2), x)] := rfl
    rw [e]
    simp [List.filter, above, o1, o2]
  have := ridge_core (lstsq := lstsq) h x x m hv (by rw [show ((0 : Nat) : ℚ) = 0 from rfl]; exact min_norm hl hn 0 h)
  rw [this]
  congr 1 <;> simp

private theorem ridge_last {lstsq : Lstsq ℚ} (hl : IsLstsq lstsq) (hn : IsMinNorm lstsq) {x h : ℚ} (hh : x < h) :
    levelData lstsq (ridge x x h) = ridge (x + 2 * h / 5) x (h - 2 * h / 5) := by
  obtain ⟨o1, o2⟩ := ridge_otsu hh (l := [x, x, h]) (by simp) (by simp) (by simp)
  have m : maskFn defaultBins [some x, some x, some h] = above (otsu defaultBins [x, x, h]) := maskFn_eq _ _
  have hv : (validPixels (ridge x x h)).filter (fun p => above (otsu defaultBins [x, x, h]) (some p.2)) = [((0, 2), h)] := by
    have e : validPixels (ridge x x h) = [((0, 0), x), ((0, 1), x), ((0, 2), h)] := rfl
    rw [e]
    simp [List.filter, above, o1, o2]
  have := ridge_core (lstsq := lstsq) x x h m hv (by rw [show ((2 : Nat) : ℚ) = 2 from rfl]; exact min_norm hl hn 2 h)
  rw [this]
  congr 1 <;> norm_num

/-- **Violated** (C125, lying): with the solver of least coefficients, which is the one the code uses, levelling a ridge at the left edge changes nothing; at the right
edge the same ridge is tilted. -/
theorem C125_lying_violated {lstsq : Lstsq ℚ} (hl : IsLstsq lstsq) (hn : IsMinNorm lstsq) :
    Laid .mirror (ridge 4 0 0) (ridge 0 0 4) ∧ levelData lstsq (ridge 4 0 0) = ridge 4 0 0 ∧ levelData lstsq (ridge 0 0 4) = ridge (8 / 5) 0 (12 / 5) ∧
    ¬ Laid .mirror (levelData lstsq (ridge 4 0 0)) (levelData lstsq (ridge 0 0 4)) := by
  have e1 := ridge_first hl hn (x := 0) (h := 4) (by norm_num)
  have e2 := ridge_last hl hn (x := 0) (h := 4) (by norm_num)
  have e2' : levelData lstsq (ridge 0 0 4) = ridge (8 / 5) 0 (12 / 5) := by rw [e2]; congr 1 <;> norm_num
  refine ⟨⟨by decide, by decide, rfl, ?_⟩, e1, e2', ?_⟩
  · intro i hi j hj
    have hi' : i < 1 := hi
    have hj' : j < 3 := hj
    interval_cases i
    interval_cases j <;> rfl
  · rw [e1, e2']
    intro h
    have := h.points 0 (by decide) 0 (by decide)
    have e3 : (some (8 / 5 : ℚ)) = some 0 := this
    norm_num at e3

/-- **Violated** (C125, datum): measured from another datum the same ridge is tilted differently. -/
theorem C125_datum_violated {lstsq : Lstsq ℚ} (hl : IsLstsq lstsq) (hn : IsMinNorm lstsq) :
    Rescaled 1 1 (ridge 0 0 4) (ridge 1 1 5) ∧ levelData lstsq (ridge 0 0 4) = ridge (8 / 5) 0 (12 / 5) ∧ levelData lstsq (ridge 1 1 5) = ridge 3 1 3 ∧
    ¬ Rescaled 1 1 (levelData lstsq (ridge 0 0 4)) (levelData lstsq (ridge 1 1 5)) := by
  have e1 := ridge_last hl hn (x := 0) (h := 4) (by norm_num)
  have e2 := ridge_last hl hn (x := 1) (h := 5) (by norm_num)
  have e1' : levelData lstsq (ridge 0 0 4) = ridge (8 / 5) 0 (12 / 5) := by rw [e1]; congr 1 <;> norm_num
  have e2' : levelData lstsq (ridge 1 1 5) = ridge 3 1 3 := by rw [e2]; congr 1 <;> norm_num
  refine ⟨⟨by decide, by decide, rfl, rfl, ?_⟩, e1', e2', ?_⟩
  · intro i hi j hj
    have hi' : i < 1 := hi
    have hj' : j < 3 := hj
    interval_cases i
    interval_cases j
    · show some (1 : ℚ) = some (1 * 0 + 1); norm_num
    · show some (1 : ℚ) = some (1 * 0 + 1); norm_num
    · show some (5 : ℚ) = some (1 * 4 + 1); norm_num
  · rw [e1', e2']
    intro h
    have := h.points 0 (by decide) 0 (by decide)
    have e3 : (some (3 : ℚ)) = some (1 * (8 / 5) + 1) := this
    norm_num at e3

section Solver
variable {K : Type} [Field K] [LinearOrder K] [IsStrictOrderedRing K]

private theorem dot_ip {w : Nat} {r c : List K} (hr : r.length = w) (hc : c.length = w) :
    (List.zipWith (fun a b => a * b) r c).sum = ip (List.range w) (fun i => r.getD i 0) (fun i => c.getD i 0) := by
  unfold ip
  congr 1
  refine List.ext_getElem (by simp [hr, hc]) fun i h1 h2 => ?_
  simp at h1 h2
  simp [hr, hc, h2]

private theorem zip_all {A : List (List K)} {z : List K} {F : List K → K → K} (h : (List.zipWith F A z).all (fun e => decide (e = 0)) = true) :
    ∀ q ∈ A.zip z, F q.1 q.2 = 0 := by
  intro q hq
  rw [← List.map_uncurry_zip_eq_zipWith, List.all_eq_true] at h
  have := h (F q.1 q.2) (List.mem_map.2 ⟨q, hq, rfl⟩)
  simpa using this

/-- There is a solver with both properties. -/
theorem C125_solver_exists : ∃ lstsq : Lstsq K, IsLstsq lstsq ∧ IsMinNorm lstsq := by
  classical
  obtain ⟨l0, hl0⟩ := exists_lstsq (K := K)
  have key : ∀ (w : Nat) (A : List (List K)) (z : List K), ∃ c : List K, A.length = z.length → (∀ r ∈ A, r.length = w) →
      (c.length = w ∧ ∀ c' : List K, c'.length = w →
        (List.zipWith (fun r y => (y - (List.zipWith (fun a b => a * b) r c).sum) ^ 2) A z).sum
          ≤ (List.zipWith (fun r y => (y - (List.zipWith (fun a b => a * b) r c').sum) ^ 2) A z).sum) ∧
      ∀ c' : List K, c'.length = w → (List.zipWith (fun r y => y - (List.zipWith (fun a b => a * b) r c').sum) A z).all (fun e => decide (e = 0)) = true →
        (c.map fun a => a ^ 2).sum ≤ (c'.map fun a => a ^ 2).sum := by
    intro w A z
    by_cases hex : ∃ c0 : List K, c0.length = w ∧ (List.zipWith (fun r y => y - (List.zipWith (fun a b => a * b) r c0).sum) A z).all (fun e => decide (e = 0)) = true
    · obtain ⟨c0, h0, hz0⟩ := hex
      obtain ⟨f, hf, o⟩ := exists_projection (List.range w) (A.map fun r => fun i : Nat => r.getD i 0) (fun i => c0.getD i 0)
      refine ⟨(List.range w).map f, fun hAz hw => ?_⟩
      have hlen : ((List.range w).map f).length = w := by simp
      have gf : ip (K := K) (List.range w) = ip (List.range w) := rfl
      have ipc : ∀ u : Nat → K, ip (List.range w) u (fun i => ((List.range w).map f).getD i 0) = ip (List.range w) u f := by
        intro u
        unfold ip
        congr 1
        refine List.map_congr_left fun i hi => ?_
        rw [List.mem_range] at hi
        simp [hi]
      have sqi : ∀ c : List K, c.length = w → (c.map fun a => a ^ 2).sum = ip (List.range w) (fun i => c.getD i 0) (fun i => c.getD i 0) := by
        intro c hc
        rw [← dot_ip hc hc, List.zipWith_self]
        congr 1
        exact List.map_congr_left fun a _ => sq a
      have rows : ∀ r ∈ A, (fun i : Nat => r.getD i 0) ∈ Submodule.span K {e | e ∈ A.map fun r => fun i : Nat => r.getD i 0} := fun r hr =>
        Submodule.subset_span (List.mem_map.2 ⟨r, hr, rfl⟩)
      -- the projection solves the system
      have sol : ∀ q ∈ A.zip z, q.2 - (List.zipWith (fun a b => a * b) q.1 ((List.range w).map f)).sum = 0 := by
        intro q hq
        have hr := hw q.1 (List.of_mem_zip hq).1
        have h1 := zip_all hz0 q hq
        have h2 := o _ (rows q.1 (List.of_mem_zip hq).1)
        rw [ip_sub_left, ip_comm _ (fun i => c0.getD i 0), ip_comm _ f] at h2
        rw [dot_ip hr h0] at h1
        rw [dot_ip hr hlen, ipc]
        linarith
      refine ⟨⟨hlen, fun c' _ => ?_⟩, fun c' hc' hz' => ?_⟩
      · have e : (List.zipWith (fun r y => (y - (List.zipWith (fun a b => a * b) r ((List.range w).map f)).sum) ^ 2) A z).sum = 0 := by
          rw [← List.map_uncurry_zip_eq_zipWith]
          refine List.sum_eq_zero fun x hx => ?_
          obtain ⟨q, hq, rfl⟩ := List.mem_map.1 hx
          simp only [Function.uncurry]
          rw [sol q hq]; ring
        rw [e, ← List.map_uncurry_zip_eq_zipWith]
        refine List.sum_nonneg fun x hx => ?_
        obtain ⟨q, _, rfl⟩ := List.mem_map.1 hx
        exact sq_nonneg _
      · -- any other solution differs by something orthogonal to the rows
        have orth : ∀ h ∈ Submodule.span K {e | e ∈ A.map fun r => fun i : Nat => r.getD i 0}, ip (List.range w) h ((fun i => c'.getD i 0) - f) = 0 := by
          intro h hh
          induction hh using Submodule.span_induction with
          | mem e he =>
            obtain ⟨r, hr, rfl⟩ := List.mem_map.1 he
            obtain ⟨k, hk, rfl⟩ := List.getElem_of_mem hr
            have hkz : k < z.length := by omega
            have hq : (A[k], z[k]) ∈ A.zip z := by
              have : (A.zip z)[k]'(by simp; omega) = (A[k], z[k]) := by simp
              rw [← this]; exact List.getElem_mem _
            have h1 := sol _ hq
            have h2 := zip_all hz' _ hq
            simp only at h1 h2
            rw [dot_ip (hw _ hr) hlen, ipc] at h1
            rw [dot_ip (hw _ hr) hc'] at h2
            rw [ip_comm, ip_sub_left, ip_comm _ _ (fun i => A[k].getD i 0), ip_comm _ f]
            linarith
          | zero =>
            rw [ip_comm]
            simp [ip]
          | add x y _ _ hx hy => rw [ip_comm, ip_add, ip_comm _ _ x, ip_comm _ _ y, hx, hy, add_zero]
          | smul a x _ hx => rw [ip_comm, ip_smul, ip_comm _ _ x, hx, mul_zero]
        have hfo := orth f hf
        rw [sqi _ hlen, sqi _ hc', ipc, ip_comm, ipc]
        set u : Nat → K := fun i => c'.getD i 0 with hu
        have e : u = f + (u - f) := by abel
        have hnn : 0 ≤ ip (List.range w) (u - f) (u - f) := List.sum_nonneg (by
          intro x hx; obtain ⟨i, _, rfl⟩ := List.mem_map.1 hx; exact mul_self_nonneg _)
        have : ip (List.range w) u u = ip (List.range w) f f + ip (List.range w) (u - f) (u - f) := by
          conv_lhs => rw [e]
          rw [ip_add, ip_comm _ _ f, ip_comm _ _ (u - f), ip_add, ip_add, hfo, ip_comm _ (u - f) f, hfo]
          ring
        linarith
    · refine ⟨l0 w A z, fun hAz hw => ⟨hl0 w A z hAz hw, fun c' hc' hz' => absurd ⟨c', hc', hz'⟩ hex⟩⟩
  choose c hc using key
  exact ⟨c, fun w A z h1 h2 => (hc w A z h1 h2).1, fun w A z h1 h2 c' h3 h4 => (hc w A z h1 h2).2 c' h3 h4⟩

end Solver

/-- Three points of the upper level at the corners of a square above a lower point. -/
example : Spread (1 : ℚ) ⟨[[some 2, some 3], [some 4, some 0]], 2⟩ := by
  refine ⟨(0, 0), (0, 1), (1, 0), ?_, by decide⟩
  intro s hs
  simp only [List.mem_cons, List.not_mem_nil, or_false] at hs
  rcases hs with rfl | rfl | rfl
  · exact ⟨by decide, by decide, 2, rfl, by norm_num⟩
  · exact ⟨by decide, by decide, 3, rfl, by norm_num⟩
  · exact ⟨by decide, by decide, 4, rfl, by norm_num⟩

/-- The threshold of these heights is below 2, so that they meet the hypothesis, in either position. -/
example {lstsq : Lstsq ℚ} (hl : IsLstsq lstsq) :
    Laid .mirror (levelData lstsq ⟨[[some 2, some 2], [some 2, some 0]], 2⟩) (levelData lstsq ⟨[[some 2, some 2], [some 0, some 2]], 2⟩) := by
  refine C125_lying_partial hl ⟨by decide, by decide, rfl, ?_⟩ ?_
  · intro i hi j hj
    have hi' : i < 2 := hi
    have hj' : j < 2 := hj
    interval_cases i <;> interval_cases j <;> rfl
  · have o := (ridge_otsu (x := 0) (h := 2) (by norm_num) (l := [2, 2, 2, 0]) (by simp) (by simp) (by simp)).2
    refine ⟨(0, 0), (0, 1), (1, 0), ?_, by decide⟩
    intro s hs
    simp only [List.mem_cons, List.not_mem_nil, or_false] at hs
    rcases hs with rfl | rfl | rfl
    · exact ⟨by decide, by decide, 2, rfl, o⟩
    · exact ⟨by decide, by decide, 2, rfl, o⟩
    · exact ⟨by decide, by decide, 2, rfl, o⟩

end Surfalize.Props
