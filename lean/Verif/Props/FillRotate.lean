import Verif.Model.FillRotate
import Verif.Spec.FillRotate
import Verif.Spec.Geometry
import Verif.Lemmas.Detrend
import Verif.Lemmas.HeightParams
import Verif.Lemmas.Geometry
import Verif.Lemmas.Py
import Mathlib.Tactic.Positivity

/-!
# C29, C30, C71 — filling non-measured points, rotation
-/
set_option linter.unusedSectionVars false
namespace Surfalize.Props
open Surfalize FillRotate Spec Detrend BaseOps Object Geometry Container

/-! ## C29 -/

section Fill
variable {K V : Type} [Field K] [LinearOrder K] [FloorRing K]

/-- **C29** (heights, surfaces). Filling a surface with at least one measured point leaves no point non-measured and
keeps the shape; every measured height is kept, and every other point gets the height of a measured point nearest to
it. -/
theorem C29_heights {pick : Pick (Nat × Nat) K} (hp : IsNearest dist2 pick) (g : Grid (Option K)) (hg : g.WF)
    (hm : measured (flat g) ≠ []) :
    let r := griddataNearest pick g
    r.WF ∧ r.ny = g.ny ∧ r.nx = g.nx ∧
    ∀ i < g.ny, ∀ j < g.nx,
      (∀ z, g.get i j = some z → r.get i j = some z) ∧
      ∃ i' j', i' < g.ny ∧ j' < g.nx ∧ g.get i' j' ≠ none ∧ r.get i j = g.get i' j' ∧
        ∀ a < g.ny, ∀ b < g.nx, g.get a b ≠ none → dist2 (i', j') (i, j) ≤ dist2 (a, b) (i, j) := by
  intro r
  have mem : ∀ q : (Nat × Nat) × K, q ∈ points2 g ↔ q.1.1 < g.ny ∧ q.1.2 < g.nx ∧ g.get q.1.1 q.1.2 = some q.2 := by
    intro q
    unfold points2
    rw [List.mem_filterMap]
    constructor
    · rintro ⟨p, hp, e⟩
      rw [Option.map_eq_some_iff] at e
      obtain ⟨z, hz, rfl⟩ := e
      rw [mem_pixels] at hp
      exact ⟨hp.1, hp.2, hz⟩
    · rintro ⟨h1, h2, h3⟩
      exact ⟨q.1, mem_pixels.2 ⟨h1, h2⟩, by simp [h3]⟩
  have hne : points2 g ≠ [] := by
    obtain ⟨z, hz⟩ := List.exists_mem_of_ne_nil _ hm
    rw [mem_measured] at hz
    obtain ⟨i, hi, j, hj, e⟩ := mem_flat_get hg hz
    intro hc
    have := (mem ((i, j), z)).2 ⟨hi, hj, e⟩
    rw [hc] at this
    cases this
  have he : (points2 g).isEmpty = false := by simpa using hne
  refine ⟨ofFn_wf _ _ _, ofFn_ny _ _ _, rfl, ?_⟩
  intro i hi j hj
  have hget : r.get i j = some (pick (points2 g) (i, j)).2 := by
    show (griddataNearest pick g).get i j = _
    unfold griddataNearest
    rw [get_ofFn _ hi hj, he]
    simp
  obtain ⟨h1, h2⟩ := hp (points2 g) (i, j) hne
  obtain ⟨k1, k2, k3⟩ := (mem _).1 h1
  constructor
  · intro z hz
    have h3 := h2 _ ((mem ((i, j), z)).2 ⟨hi, hj, hz⟩)
    have h4 : (pick (points2 g) (i, j)).1 = (i, j) := by
      have h5 : dist2 (pick (points2 g) (i, j)).1 (i, j) = 0 := by
        simpa [dist2, Nat.dist_self] using h3
      unfold dist2 at h5
      simp only [Nat.add_eq_zero_iff, pow_eq_zero_iff, ne_eq, OfNat.ofNat_ne_zero, not_false_eq_true] at h5
      exact Prod.ext (Nat.eq_of_dist_eq_zero h5.1) (Nat.eq_of_dist_eq_zero h5.2)
    rw [h4] at k3
    rw [hget, ← k3]
    exact hz
  · refine ⟨_, _, k1, k2, by rw [k3]; simp, by rw [hget, k3], ?_⟩
    intro a ha b hb hab
    obtain ⟨z, hz⟩ := Option.ne_none_iff_exists'.1 hab
    exact h2 ((a, b), z) ((mem _).2 ⟨ha, hb, hz⟩)

/-- **C29** (object, surfaces). A fully measured surface is returned itself; otherwise the in-place call returns the
surface itself with the filled heights and the copying call a new surface with them, steps kept. -/
theorem C29_object (pick : Pick (Nat × Nat) K) (s : Surf K V) (inplace : Bool) :
    (none ∉ flat s.data → fillNearest pick s inplace = (s, .self)) ∧
    (none ∈ flat s.data →
      (inplace = true → (fillNearest pick s inplace).2 = .self ∧
        (fillNearest pick s inplace).1.data = griddataNearest pick s.data) ∧
      (inplace = false → (fillNearest pick s inplace).1 = s ∧
        ∃ n : Surf K V, (fillNearest pick s inplace).2 = .new n ∧ n.data = griddataNearest pick s.data ∧
          n.stepX = s.stepX ∧ n.stepY = s.stepY)) := by
  constructor
  · intro h
    have : hasMissing s.data = false := by
      rw [← Bool.not_eq_true, HeightParams.mem_none_iff_hasMissing]; exact h
    simp [fillNearest, this]
  · intro h
    have : hasMissing s.data = true := (HeightParams.mem_none_iff_hasMissing _).2 h
    refine ⟨?_, ?_⟩
    · rintro rfl
      simp [fillNearest, this, finishSurface, Surf.overwrite, Surf.setData]
    · rintro rfl
      simp [fillNearest, this, finishSurface, Surf.init, Surf.setData]

/-- **C29** (profiles). -/
theorem C29_profile {pick : Pick Nat K} (hp : IsNearest Nat.dist pick) (p : List (Option K)) :
    (none ∉ p → fillNearest1 pick p = (p, true)) ∧
    (none ∈ p → measured p ≠ [] → ∃ r, fillNearest1 pick p = (r, false) ∧ r.length = p.length ∧ none ∉ r ∧
      ∀ k < p.length, (∀ z, p[k]? = some (some z) → r[k]? = some (some z)) ∧
        ∃ k' < p.length, r[k]? = p[k']? ∧ p[k']? ≠ some none ∧
          ∀ m < p.length, p[m]? ≠ some none → Nat.dist k' k ≤ Nat.dist m k) := by
  constructor
  · intro h
    have : hasMissing (C := List) p = false := by
      rw [← Bool.not_eq_true, HeightParams.mem_none_iff_hasMissing]; exact h
    simp [fillNearest1, this]
  intro h hm
  have hmiss : hasMissing (C := List) p = true := (HeightParams.mem_none_iff_hasMissing _).2 h
  have at1e : ∀ k (hk : k < p.length) (z : K), at1 p k = some z ↔ p[k]? = some (some z) := by
    intro k hk z
    simp [at1, hk]
  have mem : ∀ q : Nat × K, q ∈ points1 p ↔ q.1 < p.length ∧ at1 p q.1 = some q.2 := by
    intro q
    unfold points1
    rw [List.mem_filterMap]
    constructor
    · rintro ⟨k, hk, e⟩
      rw [Option.map_eq_some_iff] at e
      obtain ⟨z, hz, rfl⟩ := e
      exact ⟨List.mem_range.1 hk, hz⟩
    · rintro ⟨h1, h2⟩
      exact ⟨q.1, List.mem_range.2 h1, by simp [h2]⟩
  have hne : points1 p ≠ [] := by
    obtain ⟨z, hz⟩ := List.exists_mem_of_ne_nil _ hm
    rw [mem_measured] at hz
    obtain ⟨k, hk, e⟩ := List.mem_iff_getElem.1 hz
    intro hc
    have := (mem (k, z)).2 ⟨hk, by simp [at1, hk, e]⟩
    rw [hc] at this
    cases this
  have he : (points1 p).isEmpty = false := by simpa using hne
  have hr : griddataNearest1 pick p = (List.range p.length).map fun k => some (pick (points1 p) k).2 := by
    unfold griddataNearest1
    rw [he]
    simp
  refine ⟨_, by rw [fillNearest1, hmiss, if_pos rfl], by rw [hr]; simp, by rw [hr]; simp, ?_⟩
  intro k hk
  rw [hr]
  simp only [List.getElem?_map, List.getElem?_range hk, Option.map_some]
  obtain ⟨h1, h2⟩ := hp (points1 p) k hne
  obtain ⟨k1, k2⟩ := (mem _).1 h1
  refine ⟨?_, _, k1, ((at1e _ k1 _).1 k2).symm, by rw [(at1e _ k1 _).1 k2]; simp, ?_⟩
  · intro z hz
    have hz' := (at1e k hk z).2 hz
    have h3 := h2 _ ((mem (k, z)).2 ⟨hk, hz'⟩)
    simp only [Nat.dist_self, Nat.le_zero] at h3
    rw [Nat.eq_of_dist_eq_zero h3, hz'] at k2
    rw [Option.some.inj k2]
  · intro m hm' hmn
    have : ∃ z, at1 p m = some z := by
      simp only [List.getElem?_eq_getElem hm', ne_eq, Option.some.injEq] at hmn
      obtain ⟨z, hz⟩ := Option.ne_none_iff_exists'.1 hmn
      exact ⟨z, by simp [at1, hm', hz]⟩
    obtain ⟨z, hz⟩ := this
    exact h2 (m, z) ((mem _).2 ⟨hm', hz⟩)

/-- A nearest neighbour search exists (here: the first nearest point), so the assumption can be met. -/
theorem C29_pick_exists {ι : Type} (dist : ι → ι → Nat) (d : ι × K) : ∃ pick : Pick ι K, IsNearest dist pick := by
  have key : ∀ (v : List (ι × K)) (p : ι), ∃ q, v ≠ [] → q ∈ v ∧ ∀ x ∈ v, dist q.1 p ≤ dist x.1 p := by
    intro v p
    induction v with
    | nil => exact ⟨d, fun h => absurd rfl h⟩
    | cons a v ih =>
      obtain ⟨q, hq⟩ := ih
      by_cases hv : v = []
      · subst hv; exact ⟨a, fun _ => ⟨by simp, by simp⟩⟩
      obtain ⟨q1, q2⟩ := hq hv
      by_cases hd : dist a.1 p ≤ dist q.1 p
      · refine ⟨a, fun _ => ⟨by simp, ?_⟩⟩
        intro x hx
        rcases List.mem_cons.1 hx with rfl | hx
        · exact le_refl _
        · exact le_trans hd (q2 x hx)
      · refine ⟨q, fun _ => ⟨List.mem_cons_of_mem _ q1, ?_⟩⟩
        intro x hx
        rcases List.mem_cons.1 hx with rfl | hx
        · omega
        · exact q2 x hx
  choose F hF using key
  exact ⟨F, fun v p hv => hF v p hv⟩

/-- the hypotheses of C29 are met by a surface with a hole -/
example : measured (flat ({ rows := [[some 1, none], [some 3, some 4]], nx := 2 } : Grid (Option ℚ))) ≠ [] ∧
    none ∈ flat ({ rows := [[some 1, none], [some 3, some 4]], nx := 2 } : Grid (Option ℚ)) := by decide

end Fill

/-! ## C30, C71 -/

section Rotate
variable {K : Type} [Field K] [LinearOrder K] [IsStrictOrderedRing K] [FloorRing K]

theorem cropSize_straight {ny nx : Nat} (hy : 0 < ny) (hx : 0 < nx) :
    cropSize (ny : K) nx ny nx 0 1 = ((nx : K), (ny : K)) := by
  have h1 : (0 : K) < ny := by exact_mod_cast hy
  have h2 : (0 : K) < nx := by exact_mod_cast hx
  unfold cropSize
  have e : (if (ny : K) / nx < 1 then (ny : K) / ((ny : K) / nx) else (nx : K)) = nx := by
    split
    · field_simp
    · rfl
  simp only [mul_zero, zero_add, div_one, Prod.mk.injEq]
  rw [e]
  exact ⟨rfl, by field_simp⟩

theorem cropIndices_straight (n : Nat) : cropIndices n (n : K) = (1, (n : Int) - 1) := by
  unfold cropIndices
  simp only [sub_self, zero_div, sub_zero, pyInt_natCast, Prod.mk.injEq, and_true]
  have := pyInt_natCast (K := K) 0
  simp only [Nat.cast_zero] at this
  rw [this]
  rfl

/-- **C30** (what `rotate` by 0 or ±180 degrees really returns). Let `rot` be the array returned by
`ndimage.rotate`, of the same shape (`rot = data` for 0 degrees). The result is `rot` without its first row and
first column; the step sizes are kept exactly. -/
theorem C30_straight_partial (g rot : Grid (Option K)) (hf : none ∉ flat g) (hr : rot.WF)
    (hy : rot.ny = g.ny) (hx : rot.nx = g.nx) (h2y : 2 ≤ g.ny) (h2x : 2 ≤ g.nx) (stepY stepX : K) :
    ∃ d, rotateData g rot stepY stepX 0 1 = .ok (d, stepY, stepX) ∧ IsBlock rot d 1 1 (g.ny - 1) (g.nx - 1) := by
  have hmiss : hasMissing g = false := by
    rw [← Bool.not_eq_true, HeightParams.mem_none_iff_hasMissing]; exact hf
  have hblock : IsBlock rot (sliceGrid rot 1 ((rot.ny : Int) - 1) 1 ((rot.nx : Int) - 1)) 1 1 (g.ny - 1) (g.nx - 1) := by
    have := pySlice2_isBlock rot hr 1 ((rot.ny : Int) - 1 + 1) 1 ((rot.nx : Int) - 1 + 1)
      (a' := 1) (b' := g.ny) (c' := 1) (d' := g.nx) (by unfold normIdx; simp; omega) (by unfold normIdx; rw [if_neg (by omega)]; omega)
      (by unfold normIdx; simp; omega) (by unfold normIdx; rw [if_neg (by omega)]; omega) (by omega) (by omega)
    exact this
  refine ⟨_, ?_, hblock⟩
  unfold rotateData
  rw [hmiss]
  simp only [Bool.false_eq_true, if_false]
  rw [if_neg (by omega)]
  rw [hy, hx, cropSize_straight (by omega) (by omega)]
  simp only [cropIndices_straight]
  rw [hy, hx] at hblock
  obtain ⟨e1, e2⟩ := hblock.shape
  rw [e1, e2, if_neg (by omega)]
  have h1 : (0 : K) < g.ny := by exact_mod_cast (by omega : 0 < g.ny)
  have h2 : (0 : K) < g.nx := by exact_mod_cast (by omega : 0 < g.nx)
  have h3 : ((g.ny - 1 : Nat) : K) = (g.ny : K) - 1 := by rw [Nat.cast_sub (by omega)]; simp
  have h4 : ((g.nx - 1 : Nat) : K) = (g.nx : K) - 1 := by rw [Nat.cast_sub (by omega)]; simp
  have h5 : (g.ny : K) - 1 ≠ 0 := by
    have : (1 : K) < g.ny := by exact_mod_cast h2y
    linarith
  have h6 : (g.nx : K) - 1 ≠ 0 := by
    have : (1 : K) < g.nx := by exact_mod_cast h2x
    linarith
  rw [h3, h4]
  congr 3
  · field_simp; ring
  · field_simp; ring

/-- **C30** is false as stated: `rotate(0)` never returns the same surface. It loses one row and one column for every
fully measured surface of at least 2×2 points. -/
theorem C30_not_identity (g : Grid (Option K)) (hg : g.WF) (hf : none ∉ flat g) (h2y : 2 ≤ g.ny) (h2x : 2 ≤ g.nx)
    (stepY stepX : K) :
    ∀ d sy sx, rotateData g g stepY stepX 0 1 = .ok (d, sy, sx) → d ≠ g ∧ d.ny + 1 = g.ny ∧ d.nx + 1 = g.nx := by
  intro d sy sx h
  obtain ⟨d', h', b⟩ := C30_straight_partial g g hf hg rfl rfl h2y h2x stepY stepX
  rw [h', Except.ok.injEq, Prod.mk.injEq] at h
  obtain ⟨e1, e2⟩ := b.shape
  rw [h.1] at e1 e2
  refine ⟨?_, by omega, by omega⟩
  rintro rfl
  omega

/-- **C71** (the crop rectangle is admissible and maximal). For an original of `W × H` pixels, angle with
`s = |sin|`, `c = |cos|`, and the rotated array of its exact bounding size, the axis-parallel crop rectangle `w × h`
has the aspect ratio of the original and its corners lie in the rotated original; every larger rectangle of that
aspect ratio sticks out. -/
theorem C71_crop_rectangle (W H s c : K) (hW : 0 < W) (hH : 0 < H) (hs : 0 ≤ s) (hc : 0 ≤ c) (hsc : 0 < s + c) :
    let wh := cropSize H W (W * s + H * c) (W * c + H * s) s c
    0 < wh.1 ∧ wh.2 / wh.1 = H / W ∧
    wh.1 * c + wh.2 * s ≤ W ∧ wh.1 * s + wh.2 * c ≤ H ∧
    ∀ k : K, 1 < k → ¬ (k * wh.1 * c + k * wh.2 * s ≤ W ∧ k * wh.1 * s + k * wh.2 * c ≤ H) := by
  intro wh
  have pos : ∀ {a b : K}, 0 < a → 0 < b → 0 < a * s + b * c := by
    intro a b ha hb
    rcases eq_or_lt_of_le hs with h | h
    · have : 0 < c := by rw [← h] at hsc; linarith
      rw [← h]; have := mul_pos hb this; linarith
    · have h1 := mul_pos ha h
      have h2 := mul_nonneg hb.le hc
      linarith
  have p1 : 0 < H / W * s + c := by simpa using pos (div_pos hH hW) one_pos
  have p2 : 0 < s + H / W * c := by simpa using pos one_pos (div_pos hH hW)
  have q1 : 0 < W * s + H * c := pos hW hH
  have q2 : 0 < W * c + H * s := by rw [add_comm]; exact pos hH hW
  by_cases ha : H / W < 1
  · have hHW : H < W := by rwa [div_lt_one hW] at ha
    have e1 : wh.1 = H * W / (W * s + H * c) := by
      show (if H / W < 1 then H / ((W * s + H * c) / (W * c + H * s)) else W) / (H / W * s + c) = _
      rw [if_pos ha]
      have : H * s + W * c ≠ 0 := by linarith
      have h3 : H / W * s + c = (W * c + H * s) / W := by field_simp; ring
      rw [h3]
      field_simp
    have e2 : wh.2 = wh.1 * (H / W) := rfl
    have e3 : wh.2 = H * H / (W * s + H * c) := by rw [e2, e1]; field_simp
    have w1 : 0 < wh.1 := by rw [e1]; exact div_pos (mul_pos hH hW) q1
    have eq : wh.1 * s + wh.2 * c = H := by rw [e1, e3]; field_simp
    refine ⟨w1, by rw [e2]; field_simp, ?_, eq.le, ?_⟩
    · rw [e1, e3, div_mul_eq_mul_div, div_mul_eq_mul_div, ← add_div, div_le_iff₀ q1]
      nlinarith [mul_nonneg hs (mul_nonneg (sub_nonneg.2 hHW.le) (by linarith : 0 ≤ W + H))]
    · rintro k hk ⟨_, h2⟩
      have : k * wh.1 * s + k * wh.2 * c = k * H := by rw [← eq]; ring
      rw [this] at h2
      nlinarith
  · have hHW : W ≤ H := by
      rw [not_lt, one_le_div hW] at ha; exact ha
    have e1 : wh.1 = W * W / (W * c + H * s) := by
      show (if H / W < 1 then H / ((W * s + H * c) / (W * c + H * s)) else W) / (H / W * s + c) = _
      rw [if_neg ha]
      have h3 : H / W * s + c = (W * c + H * s) / W := by field_simp; ring
      rw [h3]
      field_simp
    have e2 : wh.2 = wh.1 * (H / W) := rfl
    have e3 : wh.2 = W * H / (W * c + H * s) := by rw [e2, e1]; field_simp
    have w1 : 0 < wh.1 := by rw [e1]; exact div_pos (mul_pos hW hW) q2
    have eq : wh.1 * c + wh.2 * s = W := by rw [e1, e3]; field_simp
    refine ⟨w1, by rw [e2]; field_simp, eq.le, ?_, ?_⟩
    · rw [e1, e3, div_mul_eq_mul_div, div_mul_eq_mul_div, ← add_div, div_le_iff₀ q2]
      nlinarith [mul_nonneg hs (mul_nonneg (sub_nonneg.2 hHW) (by linarith : 0 ≤ W + H))]
    · rintro k hk ⟨h1, _⟩
      have : k * wh.1 * c + k * wh.2 * s = k * W := by rw [← eq]; ring
      rw [this] at h1
      nlinarith

/-- **C71** (whole pixels). The pixel indices kept on an axis of `n` points lie strictly inside the centred interval
of length `h` (`0 ≤ h ≤ n`), and inside the array. -/
theorem C71_crop_indices (n : Nat) (h : K) (h0 : 0 ≤ h) (hn : h ≤ n) (i : Int)
    (h1 : (cropIndices n h).1 ≤ i) (h2 : i ≤ (cropIndices n h).2) :
    ((n : K) - h) / 2 < i ∧ (i : K) + 1 ≤ ((n : K) + h) / 2 ∧ 1 ≤ i ∧ i < n := by
  unfold cropIndices at h1 h2
  simp only at h1 h2
  have a0 : 0 ≤ ((n : K) - h) / 2 := by linarith
  have b0 : 0 ≤ (n : K) - ((n : K) - h) / 2 := by linarith
  rw [pyInt_nonneg a0] at h1
  rw [pyInt_nonneg b0] at h2
  have f1 := Int.lt_floor_add_one (((n : K) - h) / 2)
  have f2 := Int.floor_le ((n : K) - ((n : K) - h) / 2)
  have c1 : ((⌊((n : K) - h) / 2⌋ : Int) : K) + 1 ≤ i := by exact_mod_cast h1
  have c2 : (i : K) ≤ ((⌊(n : K) - ((n : K) - h) / 2⌋ : Int) : K) - 1 := by exact_mod_cast h2
  have fl : 0 ≤ ⌊((n : K) - h) / 2⌋ := Int.floor_nonneg.2 a0
  have e : ((n : K) + h) / 2 = (n : K) - ((n : K) - h) / 2 := by ring
  have hlt : (i : K) < n := by linarith
  refine ⟨by linarith, by linarith, by omega, by exact_mod_cast hlt⟩

/-- a 3×4 surface meets the hypotheses of C30 -/
example : ∃ d, rotateData ({ rows := [[some 1, some 2, some 3, some 4], [some 5, some 6, some 7, some 8],
      [some 9, some 10, some 11, some 12]], nx := 4 } : Grid (Option ℚ))
    { rows := [[some 1, some 2, some 3, some 4], [some 5, some 6, some 7, some 8],
      [some 9, some 10, some 11, some 12]], nx := 4 } 2 3 0 1
    = .ok (d, 2, 3) ∧ d = { rows := [[some 6, some 7, some 8], [some 10, some 11, some 12]], nx := 3 } := by
  refine ⟨_, ?_, rfl⟩
  decide +kernel

end Rotate
end Surfalize.Props
