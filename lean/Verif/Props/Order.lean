import Verif.Lemmas.Order
import Verif.Props.Gauss
import Verif.Props.Rescaled
import Verif.Props.Detrend
import Mathlib.Algebra.Module.LinearMap.End

/-!
# C119 — processing steps that do not interact can be given in any order
-/
set_option linter.unusedSectionVars false
namespace Surfalize.Props
open Surfalize LyingSpec Lying Container BaseOps

section Datum
variable {K : Type} [Field K] [LinearOrder K] [IsStrictOrderedRing K] [FloorRing K]

private theorem rescaled_one {g g' g'' : Grid (Option K)} {d e : K} (h : Rescaled 1 d g g') (h' : Rescaled 1 e g g'') (he : d = e) : g' = g'' := by
  refine grid_ext_get h.wf' h'.wf' (h.ny.trans h'.ny.symm) (h.nx.trans h'.nx.symm) fun i hi j hj => ?_
  rw [h.points i (h.ny ▸ hi) j (h.nx ▸ hj), h'.points i (h.ny ▸ hi) j (h.nx ▸ hj), he]

private theorem center_shift {g : Grid (Option K)} (hg : g.WF) : ∃ d, Rescaled 1 d g (center g) := by
  by_cases hm : measured (flat g) = []
  · refine ⟨0, hg, map_wf _ hg, map_ny _ _, rfl, fun i hi j hj => ?_⟩
    have hz := get_mem hg hi hj
    have : g.get i j = none := by
      cases h : g.get i j with
      | none => rfl
      | some z =>
        rw [h] at hz
        have := mem_measured.2 hz
        rw [hm] at this; cases this
    unfold center
    rw [get_mapf _ hg hi hj, this]; rfl
  · refine ⟨-mean (measured (flat g)), hg, map_wf _ hg, map_ny _ _, rfl, fun i hi j hj => ?_⟩
    unfold center
    rw [get_mapf _ hg hi hj]
    simp only [nanmean, if_neg hm]
    cases g.get i j with
    | none => rfl
    | some z => simp only [osub, Option.bind_some, Option.map_some, Option.some.injEq]; ring

private theorem zero_shift {g r : Grid (Option K)} (hg : g.WF) (h : zero g = .ok r) : ∃ d, Rescaled 1 d g r := by
  unfold zero at h
  split at h
  · cases h
  · cases h
    cases hm : nanmin (flat g) with
    | none =>
      refine ⟨0, hg, map_wf _ hg, map_ny _ _, rfl, fun i hi j hj => ?_⟩
      have hz := get_mem hg hi hj
      have : g.get i j = none := by
        cases h : g.get i j with
        | none => rfl
        | some z =>
          rw [h] at hz
          have := mem_measured.2 hz
          rw [List.min?_eq_none_iff.1 hm] at this; cases this
      rw [get_mapf _ hg hi hj, this]; rfl
    | some m =>
      refine ⟨-m, hg, map_wf _ hg, map_ny _ _, rfl, fun i hi j hj => ?_⟩
      rw [get_mapf _ hg hi hj]
      cases g.get i j with
      | none => rfl
      | some z => simp only [osub, Option.bind_some, Option.map_some, Option.some.injEq]; ring

private theorem eq_of_rescaled {g g' : Grid (Option K)} (h : Rescaled 1 0 g g') : g' = g := by
  refine grid_ext_get h.wf' h.wf h.ny h.nx fun i hi j hj => ?_
  rw [h.points i (h.ny ▸ hi) j (h.nx ▸ hj)]
  cases g.get i j <;> simp

/-- **C119** (`center` after `zero`): the earlier shift has no effect. -/
theorem C119_center_zero {g r : Grid (Option K)} (hg : g.WF) (h : zero g = .ok r) : center r = center g := by
  obtain ⟨d, hd⟩ := zero_shift hg h
  exact eq_of_rescaled (C118_center_units hd)

/-- **C119** (`zero` after `center`): the earlier shift has no effect. -/
theorem C119_zero_center {g : Grid (Option K)} (hg : g.WF) : zero (center g) = zero g := by
  obtain ⟨d, hd⟩ := center_shift hg
  have h := C118_zero_units one_pos hd
  cases h1 : zero g with
  | error e =>
    rw [h1] at h
    cases h2 : zero (center g) with
    | error e' => rw [h2] at h; exact congrArg _ (Eq.symm h)
    | ok r => rw [h2] at h; exact h.elim
  | ok r =>
    rw [h1] at h
    cases h2 : zero (center g) with
    | error e' => rw [h2] at h; exact h.elim
    | ok r' => rw [h2] at h; exact congrArg _ (eq_of_rescaled h)

open Detrend Spec in
/-- **C119** (detrending after `center` or `zero`): the shift has no effect. -/
theorem C119_detrend_shift {lstsq : Lstsq K} (hl : IsLstsq lstsq) (n : Nat) {g r t : Grid (Option K)} (hg : g.WF)
    (h : detrend2 lstsq n g = .ok (r, t)) :
    (∃ t', detrend2 lstsq n (center g) = .ok (r, t')) ∧ ∀ z, zero g = .ok z → ∃ t', detrend2 lstsq n z = .ok (r, t') := by
  have key : ∀ {d : K} {g' : Grid (Option K)}, Rescaled 1 d g g' → ∃ t', detrend2 lstsq n g' = .ok (r, t') := by
    intro d g' hd
    have hb := C118_detrend_units hl n one_pos hd
    rw [h] at hb
    cases h2 : detrend2 lstsq n g' with
    | error e => rw [h2] at hb; exact hb.elim
    | ok q =>
      rw [h2] at hb
      obtain ⟨r', t'⟩ := q
      have := eq_of_rescaled hb
      simp only at this
      exact ⟨t', by rw [this]⟩
  refine ⟨?_, fun z hz => ?_⟩
  · obtain ⟨d, hd⟩ := center_shift hg
    exact key hd
  · obtain ⟨d, hd⟩ := zero_shift hg hz
    exact key hd

open Detrend Spec in
/-- **C119** (`center` after detrending): nothing is left to do. -/
theorem C119_center_detrend {lstsq : Lstsq K} (hl : IsLstsq lstsq) (n : Nat) {g r t : Grid (Option K)} (h : detrend2 lstsq n g = .ok (r, t)) :
    center r = r := by
  have hw := (C27_surface hl n g r t h).1
  have h0 := (C28_mean_zero hl n g r t h).2
  by_cases hm : measured (flat r) = []
  · obtain ⟨d, hd⟩ := center_shift hw
    refine grid_ext_get hd.wf' hw hd.ny hd.nx fun i hi j hj => ?_
    rw [hd.points i (hd.ny ▸ hi) j (hd.nx ▸ hj)]
    have hz := get_mem hw (hd.ny ▸ hi) (hd.nx ▸ hj)
    cases h : r.get i j with
    | none => rfl
    | some z =>
      rw [h] at hz
      have := mem_measured.2 hz
      rw [hm] at this; cases this
  · unfold center
    rw [nanmean, if_neg hm, h0]
    have : (fun z : Option K => osub z (some 0)) = fun z => z := by
      funext z; cases z <;> simp [osub]
    rw [this, map_id]

open Detrend Spec in
/-- **C119** (detrending twice): in either order the result is that of the higher degree. -/
theorem C119_detrend_detrend {lstsq : Lstsq K} (hl : IsLstsq lstsq) (a b : Nat) {g r t r' t' : Grid (Option K)}
    (h : detrend2 lstsq a g = .ok (r, t)) (h' : detrend2 lstsq b r = .ok (r', t')) :
    ∃ t'', detrend2 lstsq (max a b) g = .ok (r', t'') := by
  obtain ⟨hw, -, hny, hnx, -, -, c, hc, -⟩ := C27_surface hl a g r t h
  rcases le_total a b with hab | hab
  · rw [max_eq_right hab]
    have hs := detrend2_shape h'
    rw [hny, hnx] at hs
    obtain ⟨R, T, hR⟩ := detrend2_ok lstsq b g hs
    obtain ⟨f, hf, -, hr, -⟩ := detrend2_core hl h
    have hfb : (fun p => -f p) ∈ pixPoly (K := K) b := Submodule.neg_mem _ (polySpace_mono _ _ hab hf)
    have := detrend2_unique hl hl hR h' hny hnx (fun p => -f p) hfb (fun i hi j hj => by
      rw [hr, get_ofFn _ hi hj]
      cases g.get i j with
      | none => rfl
      | some z => simp only [Option.map_some, sub_eq_add_neg])
    rw [← this] at hR
    exact ⟨T, hR⟩
  · rw [max_eq_left hab]
    obtain ⟨u, hu, -⟩ := C28_idempotent hl a g r t h
    obtain ⟨f, hf, mf, hr, -⟩ := detrend2_core hl hu
    obtain ⟨f', hf', mf', hr', -⟩ := detrend2_core hl h'
    have hf0 : ∀ q ∈ validPixels r, f q.1 = 0 := by
      intro q hq
      obtain ⟨p, hp, hq⟩ := List.mem_filterMap.1 hq
      rw [mem_pixels] at hp
      have e : r.get p.1 p.2 = (r.get p.1 p.2).map fun z => z - f (p.1, p.2) := by
        conv_lhs => rw [hr]
        exact get_ofFn _ hp.1 hp.2
      cases hz : r.get p.1 p.2 with
      | none => rw [hz] at hq; cases hq
      | some z =>
        rw [hz] at hq e
        simp only [Option.map_some, Option.some.injEq] at hq e
        subst hq
        show f (p.1, p.2) = 0
        linarith
    have e0 : sse (validPixels r) (0 : Nat × Nat → K) = sse (validPixels r) f := by
      unfold sse
      refine congrArg _ (List.map_congr_left fun q hq => ?_)
      rw [hf0 q hq]; rfl
    have key := minimiser_unique (pixPoly b) (validPixels r) hf' (Submodule.zero_mem _) mf' (fun ψ hψ => by
      rw [e0]; exact mf ψ (polySpace_mono _ _ hab hψ))
    have : r' = r := by
      rw [hr']
      refine grid_ext_get (ofFn_wf _ _ _) hw (ofFn_ny _ _ _) (ofFn_nx _ _ _) fun i hi j hj => ?_
      rw [ofFn_ny] at hi
      rw [ofFn_nx] at hj
      rw [get_ofFn _ hi hj]
      cases hz : r.get i j with
      | none => rfl
      | some z =>
        have := key ((i, j), z) (List.mem_filterMap.2 ⟨(i, j), mem_pixels.2 ⟨hi, hj⟩, by rw [hz]; rfl⟩)
        simp only [Option.map_some, Option.some.injEq]
        rw [this]
        simp
    rw [this]
    exact ⟨t, h⟩

open Detrend Spec in
/-- A surface with a missing point can be shifted, detrended with degree 1 and the result with degree 2, and the other way round. -/
example {lstsq : Lstsq ℚ} (hl : IsLstsq lstsq) : ∃ (g : Grid (Option ℚ)) (z r t r' t' s u s' u' : Grid (Option ℚ)), g = { rows := [[some 1, some 3], [some 4, none]], nx := 2 } ∧
    g.WF ∧ zero g = .ok z ∧ z ≠ g ∧ detrend2 lstsq 1 g = .ok (r, t) ∧ detrend2 lstsq 2 r = .ok (r', t') ∧ detrend2 lstsq 2 g = .ok (s, u) ∧
    detrend2 lstsq 1 s = .ok (s', u') := by
  have ok : ∀ d (x : Grid (Option ℚ)), 2 ≤ x.ny → 2 ≤ x.nx → ∃ r t, detrend2 lstsq d x = .ok (r, t) := fun d x h h' => detrend2_ok _ _ _ (Or.inl ⟨h, h'⟩)
  obtain ⟨r, t, h1⟩ := ok 1 { rows := [[some 1, some 3], [some 4, none]], nx := 2 } (by decide) (by decide)
  obtain ⟨s, u, h2⟩ := ok 2 { rows := [[some 1, some 3], [some 4, none]], nx := 2 } (by decide) (by decide)
  obtain ⟨-, -, y1, x1, -⟩ := C27_surface hl 1 _ r t h1
  obtain ⟨-, -, y2, x2, -⟩ := C27_surface hl 2 _ s u h2
  obtain ⟨r', t', h3⟩ := ok 2 r (by rw [y1]; decide) (by rw [x1])
  obtain ⟨s', u', h4⟩ := ok 1 s (by rw [y2]; decide) (by rw [x2])
  exact ⟨_, { rows := [[some 0, some 2], [some 3, none]], nx := 2 }, r, t, r', t', s, u, s', u', rfl, by decide, by decide +kernel, by decide +kernel, h1, h3, h2, h4⟩

end Datum

section Filters
open Gauss GaussSpec

/-- The heights outside the surface do not count. -/
private noncomputable def op (mode : End) (sx sy : ℝ) (ny nx : Nat) (c : ℝ) : Module.End ℝ (Nat → Nat → ℝ) where
  toFun h := fun i j => if i < ny ∧ j < nx then twice mode (Filter.sigma (c / sy)) (Filter.sigma (c / sx)) ny nx h i j else 0
  map_add' h h' := by
    funext i j
    simp only [Pi.add_apply]
    split
    · unfold twice; simp only [Pi.add_apply, axis_add]
    · simp
  map_smul' a h := by
    funext i j
    simp only [Pi.smul_apply, smul_eq_mul, RingHom.id_apply]
    split
    · have e := fun σ n z k => axis_affine (mode := mode) a 0 (Or.inr rfl) σ n z k
      simp only [add_zero] at e
      unfold twice; simp only [Pi.smul_apply, smul_eq_mul, e]
    · simp

private theorem op_apply {mode : End} {sx sy c : ℝ} {ny nx : Nat} (h : Nat → Nat → ℝ) {i j : Nat} (hi : i < ny) (hj : j < nx) :
    op mode sx sy ny nx c h i j = twice mode (Filter.sigma (c / sy)) (Filter.sigma (c / sx)) ny nx h i j := if_pos ⟨hi, hj⟩

private theorem twice_congr {mode : End} {σy σx : ℝ} {ny nx : Nat} {h h' : Nat → Nat → ℝ} (e : ∀ i < ny, ∀ j < nx, h i j = h' i j) {i j : Nat}
    (hi : i < ny) (hj : j < nx) : twice mode σy σx ny nx h i j = twice mode σy σx ny nx h' i j :=
  axis_congr (fun k hk => axis_congr (fun l hl => e l hl k hk) hi) hj

private theorem op_comm {mode : End} (hm : mode = .reflect ∨ mode = .mirror ∨ mode = .wrap) (sx sy : ℝ) (ny nx : Nat) (c c' : ℝ) :
    Commute (op mode sx sy ny nx c) (op mode sx sy ny nx c') := by
  refine LinearMap.ext fun h => ?_
  funext i j
  show op mode sx sy ny nx c (op mode sx sy ny nx c' h) i j = op mode sx sy ny nx c' (op mode sx sy ny nx c h) i j
  by_cases hij : i < ny ∧ j < nx
  · obtain ⟨hi, hj⟩ := hij
    rw [op_apply _ hi hj, op_apply _ hi hj, twice_congr (fun i hi j hj => op_apply h hi hj) hi hj,
      twice_congr (fun i hi j hj => op_apply h hi hj) hi hj]
    have hy : 0 < ny := by omega
    have hx : 0 < nx := by omega
    have sw : ∀ (a b : ℝ) (F : Nat → Nat → ℝ) (i k : Nat), axis mode a ny (fun l => axis mode b nx (F l) k) i =
        axis mode b nx (fun q => axis mode a ny (fun l => F l q) i) k := fun a b F i k => axis_comm mode a b ny nx F i k
    unfold twice
    simp only [sw]
    rw [axis_axis hm hx]
    refine axis_congr (fun k hk => axis_congr (fun l hl => ?_) hk) hj
    exact axis_axis hm hy _ _ _ _
  · show (if i < ny ∧ j < nx then _ else _) = (if i < ny ∧ j < nx then _ else _)
    rw [if_neg hij, if_neg hij]

/-- What a filter of one of the types with one result does. -/
private noncomputable def opOf (mode : End) (sx sy : ℝ) (ny nx : Nat) (kind : String) (c : ℝ) (c2 : Option ℝ) : Module.End ℝ (Nat → Nat → ℝ) :=
  if kind = "lowpass" then op mode sx sy ny nx c
  else if kind = "highpass" then 1 - op mode sx sy ny nx c
  else (1 - op mode sx sy ny nx (c2.getD 0)) * op mode sx sy ny nx c

private theorem opOf_comm {mode : End} (hm : mode = .reflect ∨ mode = .mirror ∨ mode = .wrap) (sx sy : ℝ) (ny nx : Nat) (kind kind' : String)
    (c c' : ℝ) (c2 c2' : Option ℝ) : Commute (opOf mode sx sy ny nx kind c c2) (opOf mode sx sy ny nx kind' c' c2') := by
  have a := op_comm hm sx sy ny nx
  have b : ∀ {X : Module.End ℝ (Nat → Nat → ℝ)}, (∀ c, Commute X (op mode sx sy ny nx c)) → ∀ kind c c2, Commute X (opOf mode sx sy ny nx kind c c2) := by
    intro X hX kind c c2
    unfold opOf
    split
    · exact hX _
    split
    · exact (Commute.one_right _).sub_right (hX _)
    · exact ((Commute.one_right _).sub_right (hX _)).mul_right (hX _)
  exact b (fun c => (b (fun c'' => a c c'') kind _ _).symm) kind' _ _

private theorem kinds {mode : End} {sx sy : ℝ} {ny nx : Nat} {kind : String} {c : ℝ} {c2 : Option ℝ} {ip : Bool} {h : Nat → Nat → ℝ} {a : Grid (Option ℝ)}
    (hf : filterSurface mode sx sy kind c c2 ip (surfaceOf ny nx h) = .ok (.one a)) :
    kind = "lowpass" ∨ kind = "highpass" ∨ kind = "bandpass" ∧ ∃ x, c2 = some x ∧ c < x := by
  by_cases k1 : kind = "lowpass"
  · exact Or.inl k1
  by_cases k2 : kind = "highpass"
  · exact Or.inr (Or.inl k2)
  refine Or.inr (Or.inr ?_)
  have hmiss : ¬ BaseOps.hasMissing (surfaceOf ny nx h) = true := fun q =>
    surfaceOf_measured ny nx h ((HeightParams.mem_none_iff_hasMissing _).1 q)
  unfold filterSurface Filter.filter BaseOps.noNonmeasured at hf
  rw [if_neg hmiss] at hf
  split at hf
  · cases hf
  split at hf
  · cases hf
  split at hf
  · rename_i kb
    refine ⟨kb, ?_⟩
    cases c2 with
    | none => cases hf
    | some x =>
      dsimp only at hf
      split at hf
      · cases hf
      · rename_i hx; exact ⟨x, rfl, not_le.1 hx⟩
  cases hf

private theorem opOf_eq {mode : End} {sx sy : ℝ} {ny nx : Nat} {kind : String} {c : ℝ} {c2 : Option ℝ} {ip : Bool} {h : Nat → Nat → ℝ} {a : Grid (Option ℝ)}
    (hf : filterSurface mode sx sy kind c c2 ip (surfaceOf ny nx h) = .ok (.one a)) :
    a = surfaceOf ny nx (opOf mode sx sy ny nx kind c c2 h) := by
  by_cases k1 : kind = "lowpass"
  · subst k1
    rw [low_eq] at hf
    cases hf
    refine surfaceOf_congr fun i hi j hj => ?_
    rw [opOf, if_pos rfl]; exact (op_apply h hi hj).symm
  by_cases k2 : kind = "highpass"
  · subst k2
    rw [high_eq] at hf
    cases hf
    refine surfaceOf_congr fun i hi j hj => ?_
    rw [opOf, if_neg k1, if_pos rfl, LinearMap.sub_apply]
    show _ = h i j - op mode sx sy ny nx c h i j
    rw [op_apply h hi hj]
  obtain ⟨rfl, x, rfl, hx⟩ := ((kinds hf).resolve_left k1).resolve_left k2
  rw [band_eq _ _ _ _ _ hx, high_eq] at hf
  cases hf
  refine surfaceOf_congr fun i hi j hj => ?_
  rw [opOf, if_neg k1, if_neg k2, Module.End.mul_apply, LinearMap.sub_apply]
  show _ = op mode sx sy ny nx c h i j - op mode sx sy ny nx x (op mode sx sy ny nx c h) i j
  rw [op_apply _ hi hj, op_apply _ hi hj, twice_congr (fun i hi j hj => op_apply h hi hj) hi hj]

/-- **C119** (two filters): low-pass, high-pass and band-pass filters of any cutoffs can be given in any order, if the ends are continued by reflection
(the default), mirroring or periodically. -/
theorem C119_filters_partial {mode : End} (hm : mode = .reflect ∨ mode = .mirror ∨ mode = .wrap) {sx sy : ℝ} {kind kind' : String} {c c' : ℝ}
    {c2 c2' : Option ℝ} {ip ip' jp jp' : Bool} {g a b a' b' : Grid (Option ℝ)} (hg : g.WF)
    (h1 : filterSurface mode sx sy kind c c2 ip g = .ok (.one a)) (h2 : filterSurface mode sx sy kind' c' c2' ip' a = .ok (.one b))
    (h1' : filterSurface mode sx sy kind' c' c2' jp' g = .ok (.one a')) (h2' : filterSurface mode sx sy kind c c2 jp a' = .ok (.one b')) :
    b = b' := by
  have hf : none ∉ flat g := by
    intro hn
    have := (HeightParams.mem_none_iff_hasMissing g).2 hn
    unfold filterSurface Filter.filter BaseOps.noNonmeasured at h1
    rw [if_pos this] at h1
    cases h1
  rw [surfaceOf_val hg hf] at h1 h1'
  have e1 := opOf_eq h1
  have e1' := opOf_eq h1'
  subst e1 e1'
  rw [opOf_eq h2, opOf_eq h2']
  have := opOf_comm hm sx sy g.ny g.nx kind kind' c c' c2 c2'
  have := LinearMap.congr_fun this g.val
  exact congrArg _ this.symm

/-- Both orders exist. -/
example (sx sy c c' : ℝ) : ∃ a b a' b', filterSurface .reflect sx sy "lowpass" c none false (surfaceOf 2 3 fun i j => i + j) = .ok (.one a) ∧
    filterSurface .reflect sx sy "highpass" c' none false a = .ok (.one b) ∧
    filterSurface .reflect sx sy "highpass" c' none false (surfaceOf 2 3 fun i j => i + j) = .ok (.one a') ∧
    filterSurface .reflect sx sy "lowpass" c none false a' = .ok (.one b') :=
  ⟨_, _, _, _, low_eq _ _ _ _ _ _ _ _ _, high_eq _ _ _ _ _ _ _ _ _, high_eq _ _ _ _ _ _ _ _ _, low_eq _ _ _ _ _ _ _ _ _⟩

/-- **C119** (two filters, profiles): low-pass and high-pass filters of profiles can be given in any order too. -/
theorem C119_profile_filters_partial {mode : End} (hm : mode = .reflect ∨ mode = .mirror ∨ mode = .wrap) {step : ℝ} {kind kind' : String}
    (hk : kind = "lowpass" ∨ kind = "highpass") (hk' : kind' = "lowpass" ∨ kind' = "highpass") {c c' : ℝ}
    {c2 c2' : Option ℝ} {ip ip' jp jp' : Bool} {l : List (Option ℝ)} (hl : none ∉ l) :
    ∃ a a' b, filterProfile mode step kind c c2 ip l = .ok (.one a) ∧ filterProfile mode step kind' c' c2' ip' a = .ok (.one b) ∧
      filterProfile mode step kind' c' c2' jp' l = .ok (.one a') ∧ filterProfile mode step kind c c2 jp a' = .ok (.one b) := by
  obtain ⟨n, h, rfl⟩ : ∃ n h, l = profileOf n h := by
    refine ⟨l.length, fun i => (l.getD i none).getD 0, List.ext_getElem (by rw [profileOf_length]) fun i h1 h2 => ?_⟩
    have e := profileOf_getD (n := l.length) (fun i => (l.getD i none).getD 0) h1
    have gd : ∀ {m : List (Option ℝ)} (h : i < m.length), m.getD i none = m[i] := fun h => by
      rw [List.getD_eq_getElem?_getD, List.getElem?_eq_getElem h]; rfl
    rw [gd h2] at e
    rw [e]
    simp only [gd h1]
    cases hz : l[i] with
    | none => exact absurd (hz ▸ List.getElem_mem h1) hl
    | some z => rfl
  have sc := fun σ a z k => axis_affine (mode := mode) a 0 (Or.inr rfl) σ n z k
  simp only [add_zero] at sc
  have sb : ∀ (σ : ℝ) (f g : Nat → ℝ) (i : Nat), axis mode σ n (fun k => f k - g k) i = axis mode σ n f i - axis mode σ n g i := by
    intro σ f g i
    have e1 := axis_add mode σ n f (fun k => -1 * g k) i
    have e2 := sc σ (-1) g i
    rw [e2] at e1
    rw [show (fun k => f k - g k) = fun k => f k + -1 * g k by funext k; ring, e1]
    ring
  have co : ∀ (z : Nat → ℝ), ∀ i < n, axis mode (Filter.sigma (c' / step)) n (axis mode (Filter.sigma (c / step)) n z) i =
      axis mode (Filter.sigma (c / step)) n (axis mode (Filter.sigma (c' / step)) n z) i := fun z i hi =>
    axis_axis hm (by omega) _ _ _ _
  rcases hk with rfl | rfl <;> rcases hk' with rfl | rfl
  · refine ⟨_, _, _, low1_eq _ _ _ _ _ _ _, low1_eq _ _ _ _ _ _ _, low1_eq _ _ _ _ _ _ _, ?_⟩
    rw [low1_eq]
    congr 2
    exact profileOf_congr fun i hi => (co h i hi).symm
  · refine ⟨_, _, _, low1_eq _ _ _ _ _ _ _, high1_eq _ _ _ _ _ _ _, high1_eq _ _ _ _ _ _ _, ?_⟩
    rw [low1_eq]
    congr 2
    refine profileOf_congr fun i hi => ?_
    rw [sb, co h i hi]
  · refine ⟨_, _, _, high1_eq _ _ _ _ _ _ _, low1_eq _ _ _ _ _ _ _, low1_eq _ _ _ _ _ _ _, ?_⟩
    rw [high1_eq]
    congr 2
    refine profileOf_congr fun i hi => ?_
    rw [sb, co h i hi]
  · refine ⟨_, _, _, high1_eq _ _ _ _ _ _ _, high1_eq _ _ _ _ _ _ _, high1_eq _ _ _ _ _ _ _, ?_⟩
    rw [high1_eq]
    congr 2
    refine profileOf_congr fun i hi => ?_
    rw [sb, sb, co h i hi]
    ring

/-- A smoothing of radius one or two of a profile of three points whose ends are continued by zeros or by the end values. -/
private theorem axis_three {mode : End} (hm : mode = .constant ∨ mode = .nearest) {σ : ℝ} (hs : 1 / 10 ^ 15 < σ) (z : Nat → ℝ) :
    (radius σ = 1 → axis mode σ 3 z 0 = weight σ 0 * z 0 + weight σ 1 * (z 1 + if mode = .nearest then z 0 else 0)) ∧
    (radius σ = 1 → axis mode σ 3 z 1 = weight σ 0 * z 1 + weight σ 1 * (z 0 + z 2)) ∧
    (radius σ = 1 → axis mode σ 3 z 2 = weight σ 0 * z 2 + weight σ 1 * (z 1 + if mode = .nearest then z 2 else 0)) ∧
    (radius σ = 2 → axis mode σ 3 z 0 = weight σ 0 * z 0 + weight σ 1 * (z 1 + if mode = .nearest then z 0 else 0)
      + weight σ 2 * (z 2 + if mode = .nearest then z 0 else 0)) ∧
    (radius σ = 2 → axis mode σ 3 z 1 = weight σ 0 * z 1 + weight σ 1 * (z 0 + z 2)
      + weight σ 2 * (if mode = .nearest then z 0 + z 2 else 0)) ∧
    (radius σ = 2 → axis mode σ 3 z 2 = weight σ 0 * z 2 + weight σ 1 * (z 1 + if mode = .nearest then z 2 else 0)
      + weight σ 2 * (z 0 + if mode = .nearest then z 2 else 0)) := by
  have w1 := Gauss.weight_neg σ 1
  have w2 := Gauss.weight_neg σ 2
  have i1 : Finset.Icc (-1 : Int) 1 = {-1, 0, 1} := by decide
  have i2 : Finset.Icc (-2 : Int) 2 = {-2, -1, 0, 1, 2} := by decide
  refine ⟨fun r => ?_, fun r => ?_, fun r => ?_, fun r => ?_, fun r => ?_, fun r => ?_⟩ <;>
  · unfold axis
    rw [if_pos hs, r]
    push_cast
    first | rw [i1] | rw [i2]
    rcases hm with rfl | rfl <;> simp [pick, Gauss.ext, w1, w2] <;> ring

/-- **C119** (violated): where the ends are continued by zeros or by the end values, two low-pass filters give different results in different orders. -/
theorem C119_filters_violated {mode : End} (hm : mode = .constant ∨ mode = .nearest) {step : ℝ} (hs : 0 < step) :
    ∃ c c' : ℝ, 0 < c ∧ 0 < c' ∧ ∃ (l a a' b b' : List (Option ℝ)), l = [some 0, some 1, some 0] ∧
      filterProfile mode step "lowpass" c none false l = .ok (.one a) ∧ filterProfile mode step "lowpass" c' none false a = .ok (.one b) ∧
      filterProfile mode step "lowpass" c' none false l = .ok (.one a') ∧ filterProfile mode step "lowpass" c none false a' = .ok (.one b') ∧
      b ≠ b' := by
  have hq := sigma_const_pos
  have hp := Real.pi_pos
  have sg : ∀ s : ℝ, Filter.sigma ((s * Real.pi / Real.sqrt (Real.log 2 / 2) * step) / step) = s := by
    intro s; unfold Filter.sigma; field_simp
  refine ⟨1 / 4 * Real.pi / Real.sqrt (Real.log 2 / 2) * step, 1 / 2 * Real.pi / Real.sqrt (Real.log 2 / 2) * step, by positivity, by positivity,
    profileOf 3 (fun i => if i = 1 then 1 else 0), _, _, _, _, ?_, low1_eq _ _ _ _ _ _ _, low1_eq _ _ _ _ _ _ _, low1_eq _ _ _ _ _ _ _,
    low1_eq _ _ _ _ _ _ _, ?_⟩
  · simp [profileOf, List.range_succ]
  intro he
  have := profileOf_inj he (i := 0) (by omega)
  rw [sg, sg] at this
  have r1 : radius (1 / 4) = 1 := by unfold radius; rw [Nat.floor_eq_iff (by norm_num)]; norm_num
  have r2 : radius (1 / 2) = 2 := by unfold radius; rw [Nat.floor_eq_iff (by norm_num)]; norm_num
  have A := fun z => axis_three hm (σ := 1 / 4) (by norm_num) z
  have B := fun z => axis_three hm (σ := 1 / 2) (by norm_num) z
  rw [(B _).2.2.2.1 r2, (A _).1 r1, (A _).1 r1, (A _).2.1 r1, (A _).2.2.1 r1, (B _).2.2.2.1 r2, (B _).2.2.2.2.1 r2] at this
  have p1 := weight_pos (1 / 4) 1
  have p2 := weight_pos (1 / 2) 2
  have := mul_pos p1 p2
  rcases hm with rfl | rfl
  · simp at *
    nlinarith
  · simp at *
    nlinarith

private theorem sum_pix (ny nx : Nat) (f : Nat → Nat → ℝ) :
    ((pixels ny nx).map fun p => f p.1 p.2).sum = ∑ i ∈ Finset.range ny, ∑ j ∈ Finset.range nx, f i j :=
  Detrend.sum_pixels ny nx fun p => f p.1 p.2

/-- The mean of the heights of a surface without missing points. -/
private theorem center_surfaceOf (ny nx : Nat) (h : Nat → Nat → ℝ) :
    center (surfaceOf ny nx h) = surfaceOf ny nx fun i j => h i j - (∑ i ∈ Finset.range ny, ∑ j ∈ Finset.range nx, h i j) / ((pixels ny nx).length : ℝ) := by
  have e : flat (surfaceOf ny nx h) = ((pixels ny nx).map fun p => h p.1 p.2).map some := by
    unfold surfaceOf; rw [flat_ofFn, List.map_map]; rfl
  unfold center
  rw [e]
  unfold nanmean
  rw [measured_some]
  have hw : (surfaceOf ny nx h).WF := ofFn_wf _ _ _
  refine grid_ext_get (map_wf _ hw) (ofFn_wf _ _ _) ?_ rfl fun i hi j hj => ?_
  · rw [map_ny]; unfold surfaceOf; rw [ofFn_ny, ofFn_ny]
  rw [map_ny] at hi
  have hi' : i < ny := by have := hi; unfold surfaceOf at this; rwa [ofFn_ny] at this
  have hj' : j < nx := hj
  rw [get_mapf _ hw hi hj, surfaceOf_get _ hi' hj', surfaceOf_get _ hi' hj']
  rw [if_neg]
  · show some _ = some _
    unfold Surfalize.mean
    rw [sum_pix, List.length_map]
  · intro hn
    have : (i, j) ∈ pixels ny nx := mem_pixels.2 ⟨hi', hj'⟩
    rw [List.map_eq_nil_iff] at hn
    rw [hn] at this; cases this

/-- **C119** (`center` and a filter): with the default end treatment (and with `wrap`) a low-pass filter and `center` can be given in either order; a
high-pass or band-pass filter makes `center` superfluous before and after it. -/
theorem C119_center_filter_partial {mode : End} (hm : mode = .reflect ∨ mode = .wrap) {sx sy c : ℝ} {c2 : Option ℝ} {ip ip' : Bool} {kind : String}
    {g a : Grid (Option ℝ)} (hg : g.WF) (h : filterSurface mode sx sy kind c c2 ip g = .ok (.one a)) :
    filterSurface mode sx sy kind c c2 ip' (center g) = .ok (.one (center a)) ∧ (kind ≠ "lowpass" → center a = a) := by
  have hf : none ∉ flat g := by
    intro hn
    have := (HeightParams.mem_none_iff_hasMissing g).2 hn
    unfold filterSurface Filter.filter BaseOps.noNonmeasured at h
    rw [if_pos this] at h
    cases h
  rw [surfaceOf_val hg hf] at h ⊢
  generalize g.ny = ny at *
  generalize g.nx = nx at *
  generalize g.val = z at *
  have hc : mode ≠ .constant := by rcases hm with rfl | rfl <;> decide
  have tw : ∀ σy σx d i j, twice mode σy σx ny nx (fun i j => z i j - d) i j = twice mode σy σx ny nx z i j - d := by
    intro σy σx d i j
    have e := fun σ n z k => axis_affine (mode := mode) 1 (-d) (Or.inl hc) σ n z k
    simp only [one_mul, ← sub_eq_add_neg] at e
    unfold twice
    simp only [e]
  have m0 : ∀ l : Nat → Nat → ℝ, ∑ i ∈ Finset.range ny, ∑ j ∈ Finset.range nx, l i j = 0 → center (surfaceOf ny nx l) = surfaceOf ny nx l := by
    intro l hl
    rw [center_surfaceOf, hl]
    simp
  have sb : ∀ f g : Nat → Nat → ℝ, ∑ i ∈ Finset.range ny, ∑ j ∈ Finset.range nx, (f i j - g i j) =
      ∑ i ∈ Finset.range ny, ∑ j ∈ Finset.range nx, f i j - ∑ i ∈ Finset.range ny, ∑ j ∈ Finset.range nx, g i j := by
    intro f g; simp only [Finset.sum_sub_distrib]
  have hk := kinds h
  rcases hk with rfl | rfl | ⟨rfl, x, rfl, hx⟩
  · rw [low_eq] at h
    cases h
    rw [center_surfaceOf, low_eq, center_surfaceOf, twice_sum hm]
    refine ⟨?_, fun q => absurd rfl q⟩
    congr 2
    exact surfaceOf_congr fun i _ j _ => tw _ _ _ _ _
  · rw [high_eq] at h
    cases h
    have := m0 (fun i j => z i j - twice mode (Filter.sigma (c / sy)) (Filter.sigma (c / sx)) ny nx z i j) (by rw [sb z, twice_sum hm, sub_self])
    rw [this]
    refine ⟨?_, fun _ => rfl⟩
    rw [center_surfaceOf, high_eq]
    congr 2
    refine surfaceOf_congr fun i _ j _ => ?_
    rw [tw]; ring
  · rw [band_eq _ _ _ _ _ hx, high_eq] at h
    cases h
    have := m0 (fun i j => twice mode (Filter.sigma (c / sy)) (Filter.sigma (c / sx)) ny nx z i j - twice mode (Filter.sigma (x / sy)) (Filter.sigma (x / sx)) ny nx (twice mode (Filter.sigma (c / sy)) (Filter.sigma (c / sx)) ny nx z) i j)
      (by rw [sb (twice mode (Filter.sigma (c / sy)) (Filter.sigma (c / sx)) ny nx z), twice_sum hm _ _ _ _ (twice mode (Filter.sigma (c / sy)) (Filter.sigma (c / sx)) ny nx z), sub_self])
    rw [this]
    refine ⟨?_, fun _ => rfl⟩
    rw [center_surfaceOf, band_eq _ _ _ _ _ hx, high_eq]
    congr 2
    refine surfaceOf_congr fun i _ j _ => ?_
    have t2 : ∀ σy σx d i j (z : Nat → Nat → ℝ), twice mode σy σx ny nx (fun i j => z i j - d) i j = twice mode σy σx ny nx z i j - d := by
      intro σy σx d i j z
      have e := fun σ n z k => axis_affine (mode := mode) 1 (-d) (Or.inl hc) σ n z k
      simp only [one_mul, ← sub_eq_add_neg] at e
      unfold twice
      simp only [e]
    have e : ∀ d, (twice mode (Filter.sigma (c / sy)) (Filter.sigma (c / sx)) ny nx fun i j => z i j - d) =
        fun i j => twice mode (Filter.sigma (c / sy)) (Filter.sigma (c / sx)) ny nx z i j - d := by
      intro d; funext i j; exact tw _ _ _ _ _
    rw [e, t2]
    ring

/-- A surface of unequal heights meets the hypotheses, for each of the three types. -/
example (sx sy c x : ℝ) (hx : c < x) : ∃ g : Grid (Option ℝ), g.WF ∧ g.get 0 0 ≠ g.get 1 2 ∧
    (∃ a, filterSurface .reflect sx sy "lowpass" c none false g = .ok (.one a)) ∧ (∃ a, filterSurface .reflect sx sy "highpass" c none false g = .ok (.one a)) ∧
    ∃ a, filterSurface .reflect sx sy "bandpass" c (some x) false g = .ok (.one a) := by
  refine ⟨surfaceOf 2 3 fun i j => i + j, ofFn_wf _ _ _, ?_, ⟨_, low_eq _ _ _ _ _ _ _ _ _⟩, ⟨_, high_eq _ _ _ _ _ _ _ _ _⟩,
    ⟨_, (band_eq _ _ _ _ _ hx _ _ _ _).trans (high_eq _ _ _ _ _ _ _ _ _)⟩⟩
  rw [surfaceOf_get _ (by omega) (by omega), surfaceOf_get _ (by omega) (by omega)]
  norm_num

end Filters
end Surfalize.Props

