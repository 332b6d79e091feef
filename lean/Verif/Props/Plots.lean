import Verif.Props.Angular
import Verif.Spec.Plots
import Verif.Props.Geometry
import Verif.Props.Stepheight
import Verif.Lemmas.Fourier
import Verif.Lemmas.Stepheight
import Verif.Lemmas.Autocorr
import Mathlib.Tactic.NormNum

/-!
# C105: plots show every value at its place
-/
set_option linter.unusedSectionVars false
namespace Surfalize.Props
open Surfalize Plots PlotSpec Spec

variable {K : Type} [Field K] [LinearOrder K] [IsStrictOrderedRing K]

/-! ## Lemmas -/

/-- `n` samples at distance `d`, drawn as `n` pixels between the first and the last sample: each pixel contains its sample. -/
theorem sample_in_pixel (L d : K) {n j : Nat} (hj : j < n) :
    L + (j : K) * d ∈ Set.uIcc (L + (j : K) * ((((n : K) - 1) * d) / n)) (L + ((j : K) + 1) * ((((n : K) - 1) * d) / n)) := by
  have hn : (0 : K) < n := by exact_mod_cast (by omega : 0 < n)
  have hj' : (j : K) + 1 ≤ n := by exact_mod_cast hj
  have hj0 : (0 : K) ≤ j := Nat.cast_nonneg j
  obtain ⟨q, rfl⟩ : ∃ q, d = n * q := ⟨d / n, by field_simp⟩
  have e : ((n : K) - 1) * (n * q) / n = ((n : K) - 1) * q := by field_simp
  rw [e, Set.mem_uIcc]
  rcases le_total 0 q with hq | hq
  · left
    constructor
    · nlinarith [mul_nonneg hj0 hq]
    · nlinarith [mul_nonneg (sub_nonneg.2 hj') hq]
  · right
    constructor
    · nlinarith [mul_nonneg (sub_nonneg.2 hj') (neg_nonneg.2 hq)]
    · nlinarith [mul_nonneg hj0 (neg_nonneg.2 hq)]

theorem column_of {α : Type} (p : Picture α K) (d : K) {j : Nat} (hj : j < p.data.nx)
    (h : p.right - p.left = ((p.data.nx : K) - 1) * d) : ColumnAt p j (p.left + (j : K) * d) := by
  unfold ColumnAt
  rw [h]
  exact sample_in_pixel p.left d hj

theorem row_of {α : Type} (p : Picture α K) (d : K) {i : Nat} (hi : i < p.data.ny)
    (h : p.top - p.bottom = ((p.data.ny : K) - 1) * d) : RowAt p i (p.top - (i : K) * d) := by
  unfold RowAt
  rw [h]
  have := sample_in_pixel p.top (-d) hi
  have e : ∀ c : K, c * (((p.data.ny : K) - 1) * -d / p.data.ny) = -(c * (((p.data.ny : K) - 1) * d / p.data.ny)) := by
    intro c; ring
  rw [e, e] at this
  simpa [sub_eq_add_neg] using this

theorem linspace_len (a b : K) (n : Nat) : (Geometry.linspace a b n).length = n := by
  unfold Geometry.linspace; split <;> simp_all

theorem linspace_getElem? (a b : K) {n i : Nat} (hi : i < n) (d : K) (h : b - a = ((n : K) - 1) * d) :
    (Geometry.linspace a b n)[i]? = some (a + (i : K) * d) := by
  unfold Geometry.linspace
  split
  · rename_i h1
    have : i = 0 := by omega
    subst this
    simp
  · rename_i h1
    have hn : (n : K) - 1 ≠ 0 := by
      intro h0
      have : (n : K) = 1 := by linarith
      exact h1 (by exact_mod_cast this)
    rw [List.getElem?_map, List.getElem?_range hi, h, mul_div_cancel_left₀ _ hn]
    rfl

/-! ## Surfaces -/

/-- **C105** (heights). The 2d plot shows all heights; the pixel of every point contains the place of the point: `x` counts
the columns from the left, `y` the rows from the bottom. A legend tells of non-measured points exactly if there are some; a
colour bar is drawn unless declined. -/
theorem C105_heights (g : Grid (Option K)) (stepX stepY : K) (layers : List (String × Layer)) (cb : Option Bool) :
    ∃ pic p, plot2d g stepX stepY layers "Topography" cb = .ok p ∧ p.picture = .inl pic ∧ pic.data = g ∧ p.cmap = .given ∧
      (p.colorbar = true ↔ cb ≠ some false) ∧ (p.legend = true ↔ ∃ r ∈ g.rows, none ∈ r) ∧
      ∀ i < g.ny, ∀ j < g.nx, Covers pic i j (place g.ny stepX stepY i j).1 (place g.ny stepX stepY i j).2 := by
  refine ⟨⟨g, 0, ((g.nx : K) - 1) * stepX, 0, ((g.ny : K) - 1) * stepY⟩, _, by unfold plot2d; rw [if_pos rfl], rfl, rfl, rfl, ?_, ?_, ?_⟩
  · cases cb with
    | none => simp
    | some b => cases b <;> simp
  · simp [BaseOps.hasMissing, Container.flat]
  · intro i hi j hj
    constructor
    · have := column_of (⟨g, 0, ((g.nx : K) - 1) * stepX, 0, ((g.ny : K) - 1) * stepY⟩ : Picture (Option K) K) stepX hj (by simp)
      simpa [place] using this
    · have := row_of (⟨g, 0, ((g.nx : K) - 1) * stepX, 0, ((g.ny : K) - 1) * stepY⟩ : Picture (Option K) K) stepY hi (by simp)
      have e : ((g.ny : K) - 1) * stepY - (i : K) * stepY = (place g.ny stepX stepY i j).2 := by unfold place; ring
      rwa [← e]

/-- **C105** (images). Any other name shows the image layer of that name, over the extent of the surface, in colour or in grey as
the layer is; without such a layer ValueError is raised. -/
theorem C105_images (g : Grid (Option K)) (stepX stepY : K) (layers : List (String × Layer)) (name : String) (cb : Option Bool)
    (hname : name ≠ "Topography") :
    (layers.lookup name = none → plot2d g stepX stepY layers name cb = .error .valueError) ∧
    ∀ l, layers.lookup name = some l → ∃ p pic, plot2d g stepX stepY layers name cb = .ok p ∧ p.picture = .inr pic ∧
      pic.data = l.pixels ∧ (p.cmap = if l.colour then .none else .gray) ∧ (p.colorbar = true ↔ cb = some true) ∧
      p.legend = false ∧ pic.left = 0 ∧ pic.bottom = 0 ∧ pic.right = ((g.nx : K) - 1) * stepX ∧
      pic.top = ((g.ny : K) - 1) * stepY ∧
      (l.pixels.nx = g.nx → l.pixels.ny = g.ny → ∀ i < g.ny, ∀ j < g.nx,
        Covers pic i j (place g.ny stepX stepY i j).1 (place g.ny stepX stepY i j).2) := by
  constructor
  · intro h
    unfold plot2d
    dsimp only
    rw [if_neg hname, h]
  · intro l h
    refine ⟨_, ⟨l.pixels, 0, ((g.nx : K) - 1) * stepX, 0, ((g.ny : K) - 1) * stepY⟩, by unfold plot2d; dsimp only; rw [if_neg hname, h], rfl,
      rfl, rfl, ?_, rfl, rfl, rfl, rfl, rfl, ?_⟩
    · cases cb with
      | none => simp
      | some b => cases b <;> simp
    · intro hx hy i hi j hj
      constructor
      · have := column_of (⟨l.pixels, 0, ((g.nx : K) - 1) * stepX, 0, ((g.ny : K) - 1) * stepY⟩ : Picture (List Nat) K) stepX (j := j) (by show j < l.pixels.nx; omega) (by simp [hx])
        simpa [place] using this
      · have := row_of (⟨l.pixels, 0, ((g.nx : K) - 1) * stepX, 0, ((g.ny : K) - 1) * stepY⟩ : Picture (List Nat) K) stepY (i := i) (by show i < l.pixels.ny; omega) (by simp [hy])
        have e : ((g.ny : K) - 1) * stepY - (i : K) * stepY = (place g.ny stepX stepY i j).2 := by unfold place; ring
        rwa [← e]

example : ∃ p pic, plot2d (⟨[[some (1 : ℚ), none], [some 3, some 5], [some 3, some 5]], 2⟩ : Grid (Option ℚ)) (1 / 2) 2
    [("RGB", ⟨⟨[[[1, 2, 3], [4, 5, 6]]], 2⟩, true⟩)] "RGB" none = .ok p ∧ p.picture = .inr pic ∧ pic.right = 1 / 2 ∧ pic.top = 4 := by
  obtain ⟨p, pic, h1, h2, -, -, -, -, -, -, h3, h4, -⟩ := (C105_images (⟨[[some (1 : ℚ), none], [some 3, some 5], [some 3, some 5]], 2⟩) (1 / 2) 2
    [("RGB", ⟨⟨[[[1, 2, 3], [4, 5, 6]]], 2⟩, true⟩)] "RGB" none (by decide +kernel)).2 _ rfl
  refine ⟨p, pic, h1, h2, ?_, ?_⟩
  · rw [h3]; norm_num
  · rw [h4]; norm_num [Grid.ny]

/-- **C105** (3d plot). With full detail the 3d plot has exactly the points of the surface at their places, the same as the 2d
plot. -/
theorem C105_points3d (resample : Grid (Option K) → K → Grid (Option K)) (g : Grid (Option K)) (hg : g.WF) (stepX stepY detail : K)
    (hd : 100 ≤ detail) :
    (plot3d resample g stepX stepY detail).length = g.ny ∧ (∀ r ∈ plot3d resample g stepX stepY detail, r.length = g.nx) ∧
      ∀ i < g.ny, ∀ j < g.nx, ((plot3d resample g stepX stepY detail)[i]?).bind (fun r => r[j]?) =
        some ((place g.ny stepX stepY i j).1, (place g.ny stepX stepY i j).2, g.get i j) := by
  unfold plot3d
  rw [if_neg (not_lt.2 hd)]
  unfold points3d
  refine ⟨?_, ?_, ?_⟩
  · rw [List.length_zipWith, List.length_reverse, linspace_len]
    exact Nat.min_self _
  · intro r hr
    obtain ⟨k, hk, rfl⟩ := List.getElem_of_mem hr
    rw [List.getElem_zipWith, List.length_zipWith, linspace_len]
    have : (g.rows[k]'(by simp [List.length_zipWith] at hk; omega)).length = g.nx := hg _ (List.getElem_mem _)
    rw [this, Nat.min_self]
  · intro i hi j hj
    have hi' : i < g.rows.length := hi
    rw [List.getElem?_zipWith, List.getElem?_reverse (by rw [linspace_len]; exact hi), linspace_len,
      linspace_getElem? 0 _ (by omega) stepY (by ring), List.getElem?_eq_getElem hi']
    have hr : (g.rows[i]).length = g.nx := hg _ (List.getElem_mem hi')
    show ((List.zipWith _ _ g.rows[i])[j]?) = _
    rw [List.getElem?_zipWith, linspace_getElem? 0 _ hj stepX (by ring), List.getElem?_eq_getElem (by omega)]
    have e1 : ((g.ny - 1 - i : Nat) : K) = (g.ny : K) - 1 - i := by
      rw [Nat.cast_sub (by omega), Nat.cast_sub (by omega)]; simp
    have e2 : g.get i j = (g.rows[i])[j]'(by omega) := by
      unfold Grid.get
      rw [List.getElem?_eq_getElem hi']
      show ((g.rows[i])[j]?).getD none = _
      rw [List.getElem?_eq_getElem (by omega)]
      rfl
    rw [e2]
    simp [place, e1]

example : ((plot3d (fun g _ => g) (⟨[[some (1 : ℚ), none], [some 3, some 5], [some 7, some 8]], 2⟩ : Grid (Option ℚ)) (1 / 2) 2 100)[0]?).bind
    (fun r => r[1]?) = some (1 / 2, 4, none) := by
  have := (C105_points3d (fun g _ => g) (⟨[[some (1 : ℚ), none], [some 3, some 5], [some 7, some 8]], 2⟩ : Grid (Option ℚ))
    (by simp [Grid.WF]) (1 / 2) 2 100 (le_refl _)).2.2 0 (by simp [Grid.ny]) 1 (by simp)
  rw [this]
  simp [place, Grid.ny, Grid.get]
  norm_num

/-- **C105** (profiles). A profile is drawn point by point at multiples of its step. -/
theorem C105_profile (l : List (Option K)) (step : K) :
    (profilePlot l (((l.length : K) - 1) * step)).length = l.length ∧
      ∀ (i : Nat) z, l[i]? = some z → (profilePlot l (((l.length : K) - 1) * step))[i]? = some ((i : K) * step, z) := by
  unfold profilePlot
  constructor
  · rw [List.length_zip, linspace_len, Nat.min_self]
  · intro i z hz
    have hi := (List.getElem?_eq_some_iff.1 hz).1
    rw [List.getElem?_zip_eq_some]
    exact ⟨by rw [linspace_getElem? 0 _ hi step (by ring)]; simp, hz⟩

section Coordinates
variable [FloorRing K]

private theorem share_bounds {n : Nat} {step x : K} {k : Nat} (hs : 0 < step) (hn : 2 ≤ n)
    (h : (k : K) ≤ x / (((n : K) - 1) * step) * (n : K) ∧ x / (((n : K) - 1) * step) * (n : K) < k + 1) :
    (k : K) * ((((n : K) - 1) * step) / n) ≤ x ∧ x ≤ ((k : K) + 1) * ((((n : K) - 1) * step) / n) := by
  have hn' : (2 : K) ≤ n := by exact_mod_cast hn
  have hn0 : (0 : K) < n := by linarith
  have hw : 0 < ((n : K) - 1) * step := mul_pos (by linarith) hs
  set w := ((n : K) - 1) * step with hwd
  have e : x = x / w * n * (w / n) := by field_simp
  have hq : 0 ≤ w / n := by positivity
  constructor
  · rw [e]; exact mul_le_mul_of_nonneg_right h.1 hq
  · rw [e]; exact mul_le_mul_of_nonneg_right h.2.le hq

/-- **C105** (vertical profiles). The vertical profile at `x` is the column of pixels that the plot shows at `x`. -/
theorem C105_vertical_profile (g : Grid (Option K)) (hwf : g.WF) (stepX stepY x : K) (layers : List (String × Layer))
    (cb : Option Bool) (hs : 0 < stepX) (hnx : 2 ≤ g.nx) (hx0 : 0 ≤ x) (hx : x < ((g.nx : K) - 1) * stepX) :
    ∃ pic p j out, plot2d g stepX stepY layers "Topography" cb = .ok p ∧ p.picture = .inl pic ∧ j < g.nx ∧ ColumnAt pic j x ∧
      Geometry.verticalProfile g stepX (((g.nx : K) - 1) * stepX) x 1 none = .ok out ∧ out.length = g.ny ∧
      ∀ r < g.ny, out[r]? = at? pic.data r j := by
  have hny' : (Geometry.transpose g).ny = g.nx := by simp [Geometry.transpose, Grid.ny]
  obtain ⟨i, row, hi, hrow, hp, -, hb⟩ := Geometry.horizontal_single_idx (Geometry.transpose g) (Geometry.transpose_wf g) stepX x none hs
    (by omega) (by simp) hx0 (by rw [hny']; exact hx)
  rw [hny'] at hi hp hb
  obtain ⟨b1, b2⟩ := share_bounds hs hnx hb
  refine ⟨⟨g, 0, ((g.nx : K) - 1) * stepX, 0, ((g.ny : K) - 1) * stepY⟩, _, i, row, by unfold plot2d; rw [if_pos rfl], rfl, hi, ?_, hp, ?_, ?_⟩
  · unfold ColumnAt
    rw [Set.mem_uIcc]
    left
    simp only [sub_zero, zero_add]
    exact ⟨b1, b2⟩
  · exact Geometry.transpose_wf g row (List.mem_of_getElem? hrow)
  · intro r hr
    show row[r]? = at? g r i
    rw [← Geometry.transpose_at g hwf i r hi hr]
    simp [at?, hrow]

/-- **C105** (horizontal profiles). The horizontal profile at `y` is the row of pixels that the plot shows at `height - y`: `y`
of a profile counts from the top, `y` of the plot from the bottom. Missing: the row that the plot shows at `y`. -/
theorem C105_horizontal_profile_partial (g : Grid (Option K)) (hwf : g.WF) (stepX stepY y : K) (layers : List (String × Layer))
    (cb : Option Bool) (hs : 0 < stepY) (hny : 2 ≤ g.ny) (hy0 : 0 ≤ y) (hy : y < ((g.ny : K) - 1) * stepY) :
    ∃ pic p i row, plot2d g stepX stepY layers "Topography" cb = .ok p ∧ p.picture = .inl pic ∧ i < g.ny ∧
      RowAt pic i (((g.ny : K) - 1) * stepY - y) ∧ pic.data.rows[i]? = some row ∧
      Geometry.horizontalProfile g stepY (((g.ny : K) - 1) * stepY) y 1 none = .ok row := by
  obtain ⟨i, row, hi, hrow, hp, -, hb⟩ := Geometry.horizontal_single_idx g hwf stepY y none hs hny (by simp) hy0 hy
  obtain ⟨b1, b2⟩ := share_bounds hs hny hb
  refine ⟨⟨g, 0, ((g.nx : K) - 1) * stepX, 0, ((g.ny : K) - 1) * stepY⟩, _, i, row, by unfold plot2d; rw [if_pos rfl], rfl, hi, ?_, hrow, hp⟩
  unfold RowAt
  rw [Set.mem_uIcc]
  right
  simp only [sub_zero]
  constructor <;> linarith

/-- **C105** (crop). The corners of a cropping box mean the same as in the plot: the first and the last column and row that are
kept are those of points within half a step of the edges of the box, and the plot shows them there. -/
theorem C105_crop (g : Grid (Option K)) (hwf : g.WF) (stepX stepY bx0 bx1 by0 by1 : K) (layers : List (String × Layer))
    (cb : Option Bool) (hsx : 0 < stepX) (hsy : 0 < stepY) (hnx : 0 < g.nx) (hny : 0 < g.ny)
    (h0 : 0 ≤ bx0) (h1 : bx0 ≤ bx1) (h2 : bx1 ≤ ((g.nx : K) - 1) * stepX)
    (h3 : 0 ≤ by0) (h4 : by0 ≤ by1) (h5 : by1 ≤ ((g.ny : K) - 1) * stepY) :
    ∃ pic p h x0 x1 y0 y1, plot2d g stepX stepY layers "Topography" cb = .ok p ∧ p.picture = .inl pic ∧
      Geometry.cropUnits g stepX stepY bx0 bx1 by0 by1 = .ok h ∧ IsBlock pic.data h y0 x0 (y1 - y0 + 1) (x1 - x0 + 1) ∧
      x0 ≤ x1 ∧ y0 ≤ y1 ∧
      (∃ x, ColumnAt pic x0 x ∧ |x - bx0| ≤ stepX / 2) ∧ (∃ x, ColumnAt pic x1 x ∧ |x - bx1| ≤ stepX / 2) ∧
      (∃ y, RowAt pic y1 y ∧ |y - by0| ≤ stepY / 2) ∧ (∃ y, RowAt pic y0 y ∧ |y - by1| ≤ stepY / 2) := by
  obtain ⟨h, x0, x1, y0, y1, hc, e1, e2, e3, e4, d1, d2, d3, d4, hb⟩ :=
    C22_crop_units g hwf stepX stepY bx0 bx1 by0 by1 hsx hsy hnx hny h0 h1 h2 h3 h4 h5
  obtain ⟨pic, p, hp, hpic, hd, -, -, -, hcov⟩ := C105_heights g stepX stepY layers cb
  refine ⟨pic, p, h, x0, x1, y0, y1, hp, hpic, hc, by rw [hd]; exact hb, e1, e3, ?_, ?_, ?_, ?_⟩
  · exact ⟨_, (hcov y0 (by omega) x0 (by omega)).1, d1⟩
  · exact ⟨_, (hcov y0 (by omega) x1 (by omega)).1, d2⟩
  · exact ⟨_, (hcov y1 (by omega) x0 (by omega)).2, d3⟩
  · exact ⟨_, (hcov y0 (by omega) x0 (by omega)).2, d4⟩

end Coordinates

/-- **C105** (violated for horizontal profiles). The profile at `y = 0` is not the row that the plot shows at `y = 0` but the one at the
opposite edge. -/
theorem C105_horizontal_profile_violated :
    ∃ (g : Grid (Option ℚ)) (pic : Picture (Option ℚ) ℚ) (p : Plot2d ℚ), plot2d g 1 1 [] "Topography" none = .ok p ∧
      p.picture = .inl pic ∧ Geometry.horizontalProfile g 1 2 0 1 none = .ok [some 1, some 1] ∧
      ∀ i, i < g.ny → RowAt pic i 0 → pic.data.rows[i]? = some [some 3, some 3] := by
  refine ⟨⟨[[some 1, some 1], [some 2, some 2], [some 3, some 3]], 2⟩, _, _, rfl, rfl, by decide +kernel, ?_⟩
  intro i hi h
  have hi' : i < 3 := hi
  have : i = 0 ∨ i = 1 ∨ i = 2 := by omega
  rcases this with rfl | rfl | rfl
  · exfalso
    unfold RowAt at h
    rw [Set.mem_uIcc] at h
    norm_num [Grid.ny] at h
  · exfalso
    unfold RowAt at h
    rw [Set.mem_uIcc] at h
    norm_num [Grid.ny] at h
  · rfl

/-- **C105** (violated for cropped surfaces). Cropping in place leaves the images as they are: the plot shows the whole image over the
extent of the cropped surface. Here a surface of four columns is cropped to the first two: at `x = 1`, the place of the second point, the plot of the image shows the
fourth pixel and not the second. -/
theorem C105_cropped_image_violated :
    ∃ (g h : Grid (Option ℚ)) (l : Layer) (pic : Picture (List Nat) ℚ) (p : Plot2d ℚ), l.pixels.nx = g.nx ∧ l.pixels.ny = g.ny ∧
      Geometry.cropPx g 0 1 0 0 = .ok h ∧ plot2d h 1 1 [("RGB", l)] "RGB" none = .ok p ∧ p.picture = .inr pic ∧
      ColumnAt pic 3 1 ∧ ¬ ColumnAt pic 1 1 := by
  refine ⟨⟨[[some 1, some 2, some 3, some 4]], 4⟩, ⟨[[some 1, some 2]], 2⟩, ⟨⟨[[[1], [2], [3], [4]]], 4⟩, false⟩, _, _, rfl, rfl,
    by decide +kernel, rfl, rfl, ?_, ?_⟩
  · unfold ColumnAt
    rw [Set.mem_uIcc]
    norm_num
  · unfold ColumnAt
    rw [Set.mem_uIcc]
    norm_num

/-- **C105** (violated for a layer called "Topography"). Such an image cannot be shown: the heights are. -/
theorem C105_shadowed_violated (g : Grid (Option K)) (stepX stepY : K) (l : Layer) (p : Plot2d K)
    (h : plot2d g stepX stepY [("Topography", l)] "Topography" none = .ok p) : ∀ pic, p.picture ≠ .inr pic := by
  unfold plot2d at h
  rw [if_pos rfl] at h
  injection h with h
  subst h
  intro pic hp
  cases hp

/-- **C105** (reduced detail). With less detail (and scipy's rule for the number of points, `round(n * factor)`) the places are still
equidistant, but at the step divided by the factor, so that the shown width differs from the width of the surface by up to
one and a half of these steps. Missing: the width of the surface. -/
theorem C105_detail_partial [FloorRing K] (resample : Grid (Option K) → K → Grid (Option K)) (g : Grid (Option K))
    (stepX stepY detail : K) (hd0 : 0 < detail) (hd : detail < 100) (hs : 0 ≤ stepX)
    (hwf : (resample g (detail / 100)).WF)
    (hx : (((resample g (detail / 100)).nx : Int)) = pyRound ((g.nx : K) * (detail / 100)))
    (hn : 0 < (resample g (detail / 100)).nx) (hy : 0 < (resample g (detail / 100)).ny) :
    ∃ w, ((plot3d resample g stepX stepY detail)[0]?).bind (fun r => (r[(resample g (detail / 100)).nx - 1]?).map fun q => q.1) = some w ∧
      |w - ((g.nx : K) - 1) * stepX| ≤ 3 / 2 * (stepX / (detail / 100)) := by
  set f := detail / 100 with hf
  have hf0 : 0 < f := by rw [hf]; positivity
  have hf1 : f < 1 := by rw [hf, div_lt_one (by norm_num)]; exact hd
  set h := resample g f with hh
  have e := (C105_points3d resample h hwf (stepX / f) (stepY / f) 100 (le_refl _)).2.2 0 hy (h.nx - 1) (by omega)
  have e' : plot3d resample g stepX stepY detail = plot3d resample h (stepX / f) (stepY / f) 100 := by
    unfold plot3d
    rw [if_pos hd, if_neg (lt_irrefl _)]
  rw [e']
  refine ⟨((h.nx - 1 : Nat) : K) * (stepX / f), ?_, ?_⟩
  · cases hr : (plot3d resample h (stepX / f) (stepY / f) 100)[0]? with
    | none => rw [hr] at e; cases e
    | some r =>
      rw [hr] at e
      have e2 : r[h.nx - 1]? = some ((place h.ny (stepX / f) (stepY / f) 0 (h.nx - 1)).1, (place h.ny (stepX / f) (stepY / f) 0 (h.nx - 1)).2, h.get 0 (h.nx - 1)) := e
      show (r[h.nx - 1]?).map _ = _
      rw [e2]
      rfl
  · have hr := Surfalize.pyRound_near ((g.nx : K) * f)
    rw [← hx] at hr
    rw [Nat.cast_sub (by omega), Nat.cast_one]
    have hq : 0 ≤ stepX / f := by positivity
    have hstep : stepX = stepX / f * f := by field_simp
    set q := stepX / f with hqd
    rw [hstep]
    have e3 : ((h.nx : K) - 1) * q - ((g.nx : K) - 1) * (q * f) = (((h.nx : K) - (g.nx : K) * f) - (1 - f)) * q := by ring
    rw [e3, abs_mul, abs_of_nonneg hq]
    apply mul_le_mul_of_nonneg_right _ hq
    rw [Int.cast_natCast] at hr
    have hr2 := abs_le.1 hr
    rw [abs_le]
    constructor <;> linarith [hr2.1, hr2.2]

/-- **C105** (violated for reduced detail). Half the detail of four columns: two columns that scipy takes from the edges, shown at 0 and 2
although the surface is 3 wide. -/
theorem C105_detail_violated (resample : Grid (Option ℚ) → ℚ → Grid (Option ℚ))
    (h : resample ⟨[[some 1, some 2, some 3, some 4], [some 1, some 2, some 3, some 4]], 4⟩ (1 / 2) = ⟨[[some 1, some 4]], 2⟩) :
    plot3d resample ⟨[[some 1, some 2, some 3, some 4], [some 1, some 2, some 3, some 4]], 4⟩ 1 1 50 = [[(0, 0, some 1), (2, 0, some 4)]] := by
  have e : (50 : ℚ) / 100 = 1 / 2 := by norm_num
  unfold plot3d
  rw [if_pos (by norm_num), e, h]
  decide +kernel

/-! ## Autocorrelation -/

/-- **C105** (autocorrelation). The picture shows the autocorrelation function; the pixel in row `k` and column `l` contains the lag of
`l - (nx - 1)` columns to the right and `(ny - 1) - k` rows upwards, lag zero being in the middle of the axes. -/
theorem C105_autocorrelation (g : Grid (Option K)) (stepX stepY : K) (hx : 0 < g.nx) (hy : 0 < g.ny) (pic : Picture (Option K) K)
    (h : autocorrPlot g stepX stepY = .ok pic) :
    Autocorr.acf g = .ok pic.data ∧ pic.data.ny = 2 * g.ny - 1 ∧ pic.data.nx = 2 * g.nx - 1 ∧
      pic.left = -pic.right ∧ pic.bottom = -pic.top ∧
      ∀ k < 2 * g.ny - 1, ∀ l < 2 * g.nx - 1,
        Covers pic k l (((l : K) - ((g.nx : K) - 1)) * stepX) ((((g.ny : K) - 1) - k) * stepY) := by
  unfold autocorrPlot at h
  cases ha : Autocorr.acf g with
  | error e => rw [ha] at h; cases h
  | ok A =>
    rw [ha] at h
    injection h with h
    have hshape : A.ny = 2 * g.ny - 1 ∧ A.nx = 2 * g.nx - 1 := by
      unfold Autocorr.acf at ha
      split at ha
      · cases ha
      · injection ha with ha
        subst ha
        constructor
        · rw [ofFn_ny]
          have : (BaseOps.center g).ny = g.ny := by simp [BaseOps.center, map_ny]
          rw [this]
        · rw [ofFn_nx]
          have : (BaseOps.center g).nx = g.nx := by simp [BaseOps.center, map_nx]
          rw [this]
    have hcx : A.nx / 2 = g.nx - 1 := by omega
    have hcy : A.ny / 2 = g.ny - 1 := by omega
    have cx : ((A.nx / 2 : Nat) : K) = (g.nx : K) - 1 := by rw [hcx, Nat.cast_sub (by omega), Nat.cast_one]
    have cy : ((A.ny / 2 : Nat) : K) = (g.ny : K) - 1 := by rw [hcy, Nat.cast_sub (by omega), Nat.cast_one]
    have nx' : (A.nx : K) = 2 * (g.nx : K) - 1 := by
      rw [hshape.2, Nat.cast_sub (by omega)]; push_cast; ring
    have ny' : (A.ny : K) = 2 * (g.ny : K) - 1 := by
      rw [hshape.1, Nat.cast_sub (by omega)]; push_cast; ring
    subst h
    refine ⟨rfl, hshape.1, hshape.2, rfl, rfl, ?_⟩
    intro k hk l hl
    simp only [Autocorr.centerIdx]
    constructor
    · have := column_of (⟨A, -(((A.nx / 2 : Nat) : K) * stepX), ((A.nx / 2 : Nat) : K) * stepX, -(((A.ny / 2 : Nat) : K) * stepY), ((A.ny / 2 : Nat) : K) * stepY⟩ : Picture (Option K) K)
        stepX (j := l) (by show l < A.nx; omega) (by dsimp only; rw [cx, nx']; ring)
      have e : ((l : K) - ((g.nx : K) - 1)) * stepX = -(((A.nx / 2 : Nat) : K) * stepX) + (l : K) * stepX := by rw [cx]; ring
      rw [e]
      exact this
    · have := row_of (⟨A, -(((A.nx / 2 : Nat) : K) * stepX), ((A.nx / 2 : Nat) : K) * stepX, -(((A.ny / 2 : Nat) : K) * stepY), ((A.ny / 2 : Nat) : K) * stepY⟩ : Picture (Option K) K)
        stepY (i := k) (by show k < A.ny; omega) (by dsimp only; rw [cy, ny']; ring)
      have e : (((g.ny : K) - 1) - k) * stepY = ((A.ny / 2 : Nat) : K) * stepY - (k : K) * stepY := by rw [cy]; ring
      rw [e]
      exact this

/-! ## Spectrum -/

theorem freqs_get {n k : Nat} (hk : k < n) {L : ℝ} (hL : L ≠ 0) :
    (Plots.freqs n L)[k]? = some ((((k : Int) - (n / 2 : Nat) : Int) : ℝ) / L) := by
  unfold Plots.freqs
  rw [List.getElem?_map, List.getElem?_range hk, Option.map_some, Fourier.fftfreq_shift hk hL]

theorem freqs_len (n : Nat) (L : ℝ) : (Plots.freqs n L).length = n := by simp [Plots.freqs]

theorem fft2_shift (N M : Nat) (d : Nat → Nat → ℝ) {a b : Nat} (ha : a < N) (hb : b < M) :
    Fourier.fft2 N M d (Fourier.shiftIdx N a) (Fourier.shiftIdx M b)
      = transform N M d ((a : Int) - (N / 2 : Nat)) ((b : Int) - (M / 2 : Nat)) := by
  unfold transform
  rw [Fourier.fft2_E]
  apply Finset.sum_congr rfl; intro i _
  apply Finset.sum_congr rfl; intro j _
  rw [Fourier.E_shift ha, Fourier.E_shift hb]
  congr 1
  unfold Fourier.E
  rw [← Complex.exp_add]
  congr 1
  push_cast
  ring

/-- What a successful plot of the spectrum is made of. -/
theorem spectrumPlot_ok {g : Grid (Option ℝ)} {stepX stepY : ℝ} {log han sub adjust : Bool} {fxmax fymax : Option ℝ}
    {pic : Picture ℝ ℝ} (h : spectrumPlot g stepX stepY log han sub adjust fxmax fymax = .ok pic) :
    BaseOps.hasMissing g = false ∧ ((g.nx : ℝ) - 1) * stepX ≠ 0 ∧ ((g.ny : ℝ) - 1) * stepY ≠ 0 ∧
    ∃ wx wy, wx = window g.nx (Plots.freqs g.nx (((g.nx : ℝ) - 1) * stepX)) fxmax ∧
      wy = window g.ny (Plots.freqs g.ny (((g.ny : ℝ) - 1) * stepY)) fymax ∧
      wx.1 < g.nx ∧ wx.2 < g.nx ∧ wy.1 < g.ny ∧ wy.2 < g.ny ∧
      pic.left = (((wx.1 : Int) - (g.nx / 2 : Nat) : Int) : ℝ) / (((g.nx : ℝ) - 1) * stepX) ∧
      pic.right = (((wx.2 : Int) - (g.nx / 2 : Nat) : Int) : ℝ) / (((g.nx : ℝ) - 1) * stepX) ∧
      pic.bottom = (((wy.2 : Int) - (g.ny / 2 : Nat) : Int) : ℝ) / (((g.ny : ℝ) - 1) * stepY) ∧
      pic.top = (((wy.1 : Int) - (g.ny / 2 : Nat) : Int) : ℝ) / (((g.ny : ℝ) - 1) * stepY) ∧
      pic.data = Grid.ofFn (wy.2 + 1 - wy.1) (wx.2 + 1 - wx.1) fun a c =>
        let amp := ‖Fourier.fft2 g.ny g.nx (prepared sub han g) (Fourier.shiftIdx g.ny (wy.1 + a)) (Fourier.shiftIdx g.nx (wx.1 + c))‖
        if log then Real.logb 10 (amp + 1 / 10 ^ 10) else amp := by
  unfold spectrumPlot at h
  dsimp only at h
  split at h
  · cases h
  · rename_i hm
    split at h
    · cases h
    · rename_i hw
      rw [not_or] at hw
      split at h
      · cases h
      · refine ⟨by simpa using hm, hw.1, hw.2, _, _, rfl, rfl, ?_⟩
        generalize hwx : window g.nx (Plots.freqs g.nx (((g.nx : ℝ) - 1) * stepX)) fxmax = wx at h ⊢
        generalize hwy : window g.ny (Plots.freqs g.ny (((g.ny : ℝ) - 1) * stepY)) fymax = wy at h ⊢
        split at h
        · rename_i l r b t h1 h2 h3 h4
          injection h with h
          subst h
          have b1 : wx.1 < g.nx := by have := (List.getElem?_eq_some_iff.1 h1).1; rwa [freqs_len] at this
          have b2 : wx.2 < g.nx := by have := (List.getElem?_eq_some_iff.1 h2).1; rwa [freqs_len] at this
          have b3 : wy.2 < g.ny := by have := (List.getElem?_eq_some_iff.1 h3).1; rwa [freqs_len] at this
          have b4 : wy.1 < g.ny := by have := (List.getElem?_eq_some_iff.1 h4).1; rwa [freqs_len] at this
          rw [freqs_get b1 hw.1] at h1
          rw [freqs_get b2 hw.1] at h2
          rw [freqs_get b3 hw.2] at h3
          rw [freqs_get b4 hw.2] at h4
          injection h1 with h1; injection h2 with h2; injection h3 with h3; injection h4 with h4
          exact ⟨b1, b2, b4, b3, h1.symm, h2.symm, h3.symm, h4.symm, rfl⟩
        · cases h

/-- **C105** (spectrum). Every pixel of the plot of the spectrum shows the amplitude (or its logarithm) of one spectral component of the data
and contains the frequencies of that component; without limits all components are shown. -/
theorem C105_spectrum (g : Grid (Option ℝ)) (stepX stepY : ℝ) (log han sub adjust : Bool) (fxmax fymax : Option ℝ)
    (pic : Picture ℝ ℝ) (h : spectrumPlot g stepX stepY log han sub adjust fxmax fymax = .ok pic) :
    ∃ kx ky : Int, (fxmax = none → kx = -((g.nx / 2 : Nat) : Int) ∧ pic.data.nx = g.nx) ∧
      (fymax = none → ky = -((g.ny / 2 : Nat) : Int) ∧ pic.data.ny = g.ny) ∧
      ∀ a < pic.data.ny, ∀ b < pic.data.nx,
        Covers pic a b (((kx + b : Int) : ℝ) / (((g.nx : ℝ) - 1) * stepX)) (((ky + a : Int) : ℝ) / (((g.ny : ℝ) - 1) * stepY)) ∧
        at? pic.data a b = some (let amp := ‖transform g.ny g.nx (prepared sub han g) (ky + a) (kx + b)‖
          if log then Real.logb 10 (amp + 1 / 10 ^ 10) else amp) := by
  obtain ⟨-, hW, hH, wx, wy, hwx, hwy, bx1, bx2, by1, by2, el, er, eb, et, ed⟩ := spectrumPlot_ok h
  refine ⟨(wx.1 : Int) - (g.nx / 2 : Nat), (wy.1 : Int) - (g.ny / 2 : Nat), ?_, ?_, ?_⟩
  · intro hn
    subst hn
    have : wx = (0, g.nx - 1) := hwx
    subst this
    refine ⟨by simp, ?_⟩
    rw [ed, ofFn_nx]
    dsimp only at bx2 ⊢
    omega
  · intro hn
    subst hn
    have : wy = (0, g.ny - 1) := hwy
    subst this
    refine ⟨by simp, ?_⟩
    rw [ed, ofFn_ny]
    dsimp only at by2 ⊢
    omega
  · intro a ha b hb
    have hny : pic.data.ny = wy.2 + 1 - wy.1 := by rw [ed, ofFn_ny]
    have hnx : pic.data.nx = wx.2 + 1 - wx.1 := by rw [ed, ofFn_nx]
    refine ⟨⟨?_, ?_⟩, ?_⟩
    · have hc : ((pic.data.nx : ℕ) : ℝ) - 1 = (wx.2 : ℝ) - wx.1 := by
        rw [hnx, Nat.cast_sub (by omega)]; push_cast; ring
      have := column_of pic (1 / (((g.nx : ℝ) - 1) * stepX)) hb (by rw [er, el, hc]; push_cast; ring)
      have e : (((wx.1 : Int) - (g.nx / 2 : Nat) + b : Int) : ℝ) / (((g.nx : ℝ) - 1) * stepX) =
          pic.left + (b : ℝ) * (1 / (((g.nx : ℝ) - 1) * stepX)) := by rw [el]; push_cast; ring
      rw [e]
      exact this
    · have hc : ((pic.data.ny : ℕ) : ℝ) - 1 = (wy.2 : ℝ) - wy.1 := by
        rw [hny, Nat.cast_sub (by omega)]; push_cast; ring
      have := row_of pic (-(1 / (((g.ny : ℝ) - 1) * stepY))) ha (by rw [et, eb, hc]; push_cast; ring)
      have e : (((wy.1 : Int) - (g.ny / 2 : Nat) + a : Int) : ℝ) / (((g.ny : ℝ) - 1) * stepY) =
          pic.top - (a : ℝ) * -(1 / (((g.ny : ℝ) - 1) * stepY)) := by rw [et]; push_cast; ring
      rw [e]
      exact this
    · have ha' : a < wy.2 + 1 - wy.1 := by omega
      have hb' : b < wx.2 + 1 - wx.1 := by omega
      rw [ed]
      unfold at? Grid.ofFn
      rw [List.getElem?_map, List.getElem?_range ha', Option.map_some, Option.bind_some, List.getElem?_map, List.getElem?_range hb',
        Option.map_some]
      dsimp only
      rw [fft2_shift _ _ _ (by omega : wy.1 + a < g.ny) (by omega : wx.1 + b < g.nx)]
      have e1 : (((wy.1 + a : Nat) : Int) - (g.ny / 2 : Nat)) = (wy.1 : Int) - (g.ny / 2 : Nat) + a := by push_cast; ring
      have e2 : (((wx.1 + b : Nat) : Int) - (g.nx / 2 : Nat)) = (wx.1 : Int) - (g.nx / 2 : Nat) + b := by push_cast; ring
      rw [e1, e2]

theorem window_spec {n : Nat} {L f : ℝ} (hn : 0 < n) (hL : 0 < L) (hf : 0 ≤ f) :
    (window n (Plots.freqs n L) (some f)).2 < n ∧ n / 2 ≤ (window n (Plots.freqs n L) (some f)).2 ∧
      (window n (Plots.freqs n L) (some f)).1 = n - (window n (Plots.freqs n L) (some f)).2 ∧
      ∀ k : Nat, k < n → |((((window n (Plots.freqs n L) (some f)).2 : Int) - (n / 2 : Nat) : Int) : ℝ) / L - f| ≤
        |(((k : Int) - (n / 2 : Nat) : Int) : ℝ) / L - f| := by
  have hne : Plots.freqs n L ≠ [] := by
    intro h0
    have := freqs_len n L
    rw [h0] at this
    simp at this
    omega
  have hlt : argclosest f (Plots.freqs n L) < (Plots.freqs n L).length := argclosest_lt hne
  have hlt' : argclosest f (Plots.freqs n L) < n := by rwa [freqs_len] at hlt
  have hmin : ∀ k : Nat, k < n → |((((argclosest f (Plots.freqs n L)) : Int) - (n / 2 : Nat) : Int) : ℝ) / L - f| ≤
        |(((k : Int) - (n / 2 : Nat) : Int) : ℝ) / L - f| := by
    intro k hk
    have hk' : k < (Plots.freqs n L).length := by rwa [freqs_len]
    have := argclosest_le hlt hk'
    have e1 := freqs_get hlt' hL.ne'
    have e2 := freqs_get hk hL.ne'
    rw [List.getElem?_eq_getElem hlt, Option.some.injEq] at e1
    rw [List.getElem?_eq_getElem hk', Option.some.injEq] at e2
    rwa [e1, e2] at this
  refine ⟨hlt', ?_, rfl, hmin⟩
  show n / 2 ≤ argclosest f (Plots.freqs n L)
  by_contra hc
  have h0 := hmin (n / 2) (by omega)
  rw [sub_self, Int.cast_zero, zero_div, zero_sub, abs_neg, abs_of_nonneg hf] at h0
  have hneg : ((((argclosest f (Plots.freqs n L)) : Int) - (n / 2 : Nat) : Int) : ℝ) / L < 0 := by
    apply div_neg_of_neg_of_pos _ hL
    exact_mod_cast (by omega : ((argclosest f (Plots.freqs n L)) : Int) - (n / 2 : Nat) < 0)
  rw [abs_of_neg (by linarith)] at h0
  linarith

/-- **C105** (limits, even number of columns). `fxmax` restricts the spectrum to the frequencies from `-f` to `f`, where `f` is the frequency of
the spectrum closest to `fxmax`. The same holds for `fymax` and rows. Missing: odd numbers, see below. -/
theorem C105_spectrum_limits_partial (g : Grid (Option ℝ)) (stepX stepY : ℝ) (log han sub adjust : Bool) (fx : ℝ) (fymax : Option ℝ)
    (pic : Picture ℝ ℝ) (h : spectrumPlot g stepX stepY log han sub adjust (some fx) fymax = .ok pic) (he : Even g.nx) (hs : 0 < stepX)
    (hf : 0 ≤ fx) : pic.left = -pic.right ∧ 0 ≤ pic.right ∧ 0 < pic.data.nx ∧
      ∀ k : Int, -((g.nx / 2 : Nat) : Int) ≤ k → k < (g.nx / 2 : Nat) → |pic.right - fx| ≤ |(k : ℝ) / (((g.nx : ℝ) - 1) * stepX) - fx| := by
  obtain ⟨-, hW, hH, wx, wy, hwx, hwy, bx1, bx2, by1, by2, el, er, eb, et, ed⟩ := spectrumPlot_ok h
  obtain ⟨m, hm⟩ := he
  have hn2 : (2 : ℝ) ≤ g.nx := by exact_mod_cast (by omega : 2 ≤ g.nx)
  have hL : 0 < ((g.nx : ℝ) - 1) * stepX := mul_pos (by linarith) hs
  obtain ⟨s1, s2, s3, s4⟩ := window_spec (n := g.nx) (by omega) hL hf
  rw [← hwx] at s1 s2 s3 s4
  refine ⟨?_, ?_, ?_, ?_⟩
  · rw [el, er, ← neg_div]
    congr 1
    have : (wx.1 : Int) - (g.nx / 2 : Nat) = -((wx.2 : Int) - (g.nx / 2 : Nat)) := by omega
    rw [this]
    push_cast
    ring
  · rw [er]
    apply div_nonneg _ hL.le
    exact_mod_cast (by omega : (0 : Int) ≤ (wx.2 : Int) - (g.nx / 2 : Nat))
  · rw [ed, ofFn_nx]
    omega
  · intro k hk1 hk2
    rw [er]
    have := s4 (k + (g.nx / 2 : Nat)).toNat (by omega)
    rwa [show (((k + (g.nx / 2 : Nat)).toNat : Int) - (g.nx / 2 : Nat)) = k by omega] at this

/-- **C105** (violated: limits for an odd number of columns). The negative side is cut one frequency too short. -/
theorem C105_spectrum_limits_violated (g : Grid (Option ℝ)) (stepX stepY : ℝ) (log han sub adjust : Bool) (fx : ℝ) (fymax : Option ℝ)
    (pic : Picture ℝ ℝ) (h : spectrumPlot g stepX stepY log han sub adjust (some fx) fymax = .ok pic) (ho : Odd g.nx) :
    pic.left = 1 / (((g.nx : ℝ) - 1) * stepX) - pic.right ∧ pic.left ≠ -pic.right := by
  obtain ⟨-, hW, hH, wx, wy, hwx, hwy, bx1, bx2, by1, by2, el, er, eb, et, ed⟩ := spectrumPlot_ok h
  obtain ⟨m, hm⟩ := ho
  have e : wx.1 = g.nx - wx.2 := by rw [hwx]; rfl
  have : pic.left = 1 / (((g.nx : ℝ) - 1) * stepX) - pic.right := by
    rw [el, er, ← sub_div]
    congr 1
    have : (wx.1 : Int) - (g.nx / 2 : Nat) = 1 - ((wx.2 : Int) - (g.nx / 2 : Nat)) := by omega
    rw [this]
    push_cast
    ring
  refine ⟨this, ?_⟩
  intro h2
  rw [h2] at this
  have h3 : 1 / (((g.nx : ℝ) - 1) * stepX) = 0 := by linarith
  rw [one_div, inv_eq_zero] at h3
  exact hW h3

/-- **C105** (violated: small limits for an odd number of columns). A limit below half a frequency step makes the plot fail, with the default colours. -/
theorem C105_spectrum_small_limit_violated (g : Grid (Option ℝ)) (stepX stepY : ℝ) (log han sub : Bool) (fx : ℝ) (fymax : Option ℝ)
    (hm : BaseOps.hasMissing g = false) (hx : 3 ≤ g.nx) (ho : Odd g.nx) (hs : 0 < stepX) (hy : ((g.ny : ℝ) - 1) * stepY ≠ 0)
    (hf0 : 0 ≤ fx) (hf : fx < 1 / 2 * (1 / (((g.nx : ℝ) - 1) * stepX))) :
    spectrumPlot g stepX stepY log han sub true (some fx) fymax = .error .valueError := by
  have hn3 : (3 : ℝ) ≤ g.nx := by exact_mod_cast hx
  have hL : 0 < ((g.nx : ℝ) - 1) * stepX := mul_pos (by linarith) hs
  obtain ⟨m, hm2⟩ := ho
  obtain ⟨s1, s2, s3, s4⟩ := window_spec (n := g.nx) (L := ((g.nx : ℝ) - 1) * stepX) (f := fx) (by omega) hL hf0
  unfold spectrumPlot
  dsimp only
  rw [if_neg (by simp [hm]), if_neg (by rw [not_or]; exact ⟨hL.ne', hy⟩)]
  generalize hwx : window g.nx (Plots.freqs g.nx (((g.nx : ℝ) - 1) * stepX)) (some fx) = wx at s1 s2 s3 s4 ⊢
  have h0 := s4 (g.nx / 2) (by omega)
  rw [sub_self, Int.cast_zero, zero_div, zero_sub, abs_neg, abs_of_nonneg hf0] at h0
  have hk : wx.2 = g.nx / 2 := by
    by_contra hne
    have hgt : g.nx / 2 + 1 ≤ wx.2 := by omega
    have h1 : (1 : ℝ) ≤ (((wx.2 : Int) - (g.nx / 2 : Nat) : Int) : ℝ) := by exact_mod_cast (by omega : (1 : Int) ≤ (wx.2 : Int) - (g.nx / 2 : Nat))
    have h2 : 1 / (((g.nx : ℝ) - 1) * stepX) ≤ (((wx.2 : Int) - (g.nx / 2 : Nat) : Int) : ℝ) / (((g.nx : ℝ) - 1) * stepX) :=
      div_le_div_of_nonneg_right h1 hL.le
    have h3 := le_abs_self ((((wx.2 : Int) - (g.nx / 2 : Nat) : Int) : ℝ) / (((g.nx : ℝ) - 1) * stepX) - fx)
    linarith
  rw [if_pos ⟨rfl, .inl (by omega)⟩]

/-- **C105** (spectrum, success). A surface without missing points and of positive size can always be plotted without limits; missing points are
rejected with ValueError. -/
theorem C105_spectrum_drawn (g : Grid (Option ℝ)) (stepX stepY : ℝ) (log han sub adjust : Bool) :
    (BaseOps.hasMissing g = true → spectrumPlot g stepX stepY log han sub adjust none none = .error .valueError) ∧
    (BaseOps.hasMissing g = false → 2 ≤ g.nx → 2 ≤ g.ny → 0 < stepX → 0 < stepY →
      ∃ pic, spectrumPlot g stepX stepY log han sub adjust none none = .ok pic) := by
  constructor
  · intro h
    unfold spectrumPlot
    dsimp only
    rw [if_pos h]
  · intro h hx hy hsx hsy
    have hx2 : (2 : ℝ) ≤ g.nx := by exact_mod_cast hx
    have hy2 : (2 : ℝ) ≤ g.ny := by exact_mod_cast hy
    have hW : 0 < ((g.nx : ℝ) - 1) * stepX := mul_pos (by linarith) hsx
    have hH : 0 < ((g.ny : ℝ) - 1) * stepY := mul_pos (by linarith) hsy
    unfold spectrumPlot
    dsimp only [window]
    rw [if_neg (by simp [h]), if_neg (by rw [not_or]; exact ⟨hW.ne', hH.ne'⟩), if_neg (by
      rintro ⟨-, h1 | h1⟩ <;> omega), freqs_get (by omega) hW.ne', freqs_get (by omega) hW.ne', freqs_get (by omega) hH.ne',
      freqs_get (by omega) hH.ne']
    exact ⟨_, rfl⟩

example : ∃ pic, spectrumPlot ⟨[[some 1, some 2], [some 3, some 5]], 2⟩ (1 / 2) 2 true true true true none none = .ok pic :=
  (C105_spectrum_drawn ⟨[[some 1, some 2], [some 3, some 5]], 2⟩ (1 / 2) 2 true true true true).2 (by simp [BaseOps.hasMissing, Container.flat])
    (by simp) (by simp [Grid.ny]) (by norm_num) (by norm_num)

/-- **C105** (spectrum, data). What is transformed are the heights; the mean of the heights is subtracted if asked for; with a window they are
multiplied by the same weights from 0 to 1 for mirror-symmetric points, which vanish on the edges. -/
theorem C105_spectrum_data (g : Grid (Option ℝ)) (sub han : Bool) :
    ∃ w : Nat → Nat → ℝ, (∀ i < g.ny, ∀ j < g.nx, 0 ≤ w i j ∧ w i j ≤ 1 ∧ w (g.ny - 1 - i) j = w i j ∧ w i (g.nx - 1 - j) = w i j) ∧
      (2 ≤ g.ny → ∀ j, w 0 j = 0) ∧ (2 ≤ g.nx → ∀ i, w i 0 = 0) ∧
      (∀ m n, g.ny = 2 * m + 1 → g.nx = 2 * n + 1 → w m n = 1) ∧
      ∀ i j z, g.get i j = some z →
        prepared sub han g i j = (if sub then z - mean (measured (Container.flat g)) else z) * (if han then w i j else 1) := by
  have h01 : ∀ n k, 0 ≤ hanning n k ∧ hanning n k ≤ 1 := by
    intro n k
    unfold hanning
    split
    · norm_num
    · have h1 := Real.neg_one_le_cos (Real.pi * ((1 : ℝ) - n + 2 * k) / ((n : ℝ) - 1))
      have h2 := Real.cos_le_one (Real.pi * ((1 : ℝ) - n + 2 * k) / ((n : ℝ) - 1))
      constructor <;> linarith
  have hsym : ∀ n k, k < n → hanning n (n - 1 - k) = hanning n k := by
    intro n k hk
    unfold hanning
    split
    · rfl
    · have e : ((n - 1 - k : Nat) : ℝ) = n - 1 - k := by rw [Nat.cast_sub (by omega), Nat.cast_sub (by omega)]; simp
      rw [e, show Real.pi * ((1 : ℝ) - n + 2 * (n - 1 - k)) / ((n : ℝ) - 1) = -(Real.pi * ((1 : ℝ) - n + 2 * k) / ((n : ℝ) - 1)) by ring, Real.cos_neg]
  have h0 : ∀ n, 2 ≤ n → hanning n 0 = 0 := by
    intro n hn
    have hn' : (2 : ℝ) ≤ n := by exact_mod_cast hn
    have hne : (n : ℝ) - 1 ≠ 0 := by linarith
    unfold hanning
    rw [if_neg (by omega), show Real.pi * ((1 : ℝ) - n + 2 * ((0 : Nat) : ℝ)) / ((n : ℝ) - 1) = -Real.pi by field_simp; push_cast; ring,
      Real.cos_neg, Real.cos_pi]
    norm_num
  have hmid : ∀ m, hanning (2 * m + 1) m = 1 := by
    intro m
    unfold hanning
    split
    · rfl
    · rw [show Real.pi * ((1 : ℝ) - ((2 * m + 1 : Nat) : ℝ) + 2 * m) / (((2 * m + 1 : Nat) : ℝ) - 1) = 0 by push_cast; ring, Real.cos_zero]
      norm_num
  refine ⟨fun i j => hanning g.ny i * hanning g.nx j, ?_, ?_, ?_, ?_, ?_⟩
  · intro i hi j hj
    dsimp only
    refine ⟨mul_nonneg (h01 _ _).1 (h01 _ _).1, mul_le_one₀ (h01 _ _).2 (h01 _ _).1 (h01 _ _).2, ?_, ?_⟩
    · rw [hsym _ _ hi]
    · rw [hsym _ _ hj]
  · intro hn j
    dsimp only
    rw [h0 _ hn, zero_mul]
  · intro hn i
    dsimp only
    rw [h0 _ hn, mul_zero]
  · intro m n hm hn
    dsimp only
    rw [hm, hn, hmid, hmid, mul_one]
  · intro i j z hz
    have : g.val i j = z := by unfold Grid.val; rw [hz]; rfl
    unfold prepared
    dsimp only
    rw [this]
    cases han <;> simp [ite_mul]

/-! ## Abbott curve -/

section
variable [FloorRing K]
open Stepheight

/-- A height falls into bin `j` of `n` iff it lies between the edges of the bin; the last bin includes its upper edge. -/
theorem binOf_iff {n j : Nat} (hj : j < n) {mn mx v : K} (h : mn < mx) (h1 : mn ≤ v) :
    binOf n mn mx v = j ↔ mn + (j : K) * ((mx - mn) / n) ≤ v ∧ (v < mn + ((j : K) + 1) * ((mx - mn) / n) ∨ j + 1 = n) := by
  have hlt : binOf n mn mx v < n := binOf_lt (by omega) _ _ _
  have up : binOf n mn mx v ≤ j ↔ (v < mn + ((j : K) + 1) * ((mx - mn) / n) ∨ j + 1 = n) := by
    rcases Nat.lt_or_ge (j + 1) n with hc | hc
    · rw [binOf_le_iff hc h h1]
      constructor
      · exact .inl
      · rintro (h2 | h2)
        · exact h2
        · omega
    · constructor
      · intro _
        exact .inr (by omega)
      · intro _
        omega
  have low : j ≤ binOf n mn mx v ↔ mn + (j : K) * ((mx - mn) / n) ≤ v := by
    rcases j with _ | j
    · simp [h1]
    · rw [← not_lt, Nat.lt_succ_iff, binOf_le_iff hj h h1, not_lt]
      push_cast
      rfl
  rw [← up, ← low]
  omega

theorem reverse_map_range_get {α : Type} (f : Nat → α) {n k : Nat} (hk : k < n) :
    ((List.range n).map f).reverse[k]? = some (f (n - 1 - k)) := by
  rw [List.getElem?_reverse (by simpa using hk), List.getElem?_map, List.length_map, List.length_range,
    List.getElem?_range (by omega)]
  rfl

/-- **C105** (Abbott curve, histogram). The bars divide the range of the heights evenly, from top to bottom, and each is as long as the percentage
of the heights between its edges; together they make 100 %. -/
theorem C105_bars {nbars : Nat} (hn : 1 ≤ nbars) {mn mx : K} (h : mn < mx) (data : List K) (hmn : ∀ v ∈ data, mn ≤ v) (hne : data ≠ []) :
    (bars nbars mn mx data).length = nbars ∧ ((bars nbars mn mx data).map Bar.percent).sum = 100 ∧
    ∀ k < nbars, ∃ b, (bars nbars mn mx data)[k]? = some b ∧
      b.hi = mx - (k : K) * ((mx - mn) / nbars) ∧ b.lo = mx - ((k : K) + 1) * ((mx - mn) / nbars) ∧
      b.percent = 100 * ((data.filter fun v => decide (b.lo ≤ v ∧ (v < b.hi ∨ k = 0))).length : K) / (data.length : K) := by
  have hK : (0 : K) < nbars := by exact_mod_cast hn
  have hL : (0 : K) < data.length := by exact_mod_cast List.length_pos_of_ne_nil hne
  have hsum : (counts nbars mn mx data).sum = (data.length : K) := by
    have e := count_sum data (binOf nbars mn mx) (fun _ => (1 : K)) (List.range nbars) List.nodup_range
    simp only [mul_one] at e
    unfold counts
    rw [e, List.filter_eq_self.2 (by
      intro v _
      simpa using binOf_lt (by omega) mn mx v)]
    simp
  have hget : ∀ k < nbars, (bars nbars mn mx data)[k]? = some
      ⟨mx - ((k : K) + 1) * ((mx - mn) / nbars), mx - (k : K) * ((mx - mn) / nbars),
        ((data.countP fun v => decide (binOf nbars mn mx v = nbars - 1 - k) : Nat) : K) / data.length * 100⟩ := by
    intro k hk
    unfold bars
    dsimp only
    rw [List.getElem?_zipWith, List.getElem?_zipWith, List.getElem?_tail, reverse_map_range_get _ (by omega : k < nbars + 1),
      reverse_map_range_get _ (by omega : k + 1 < nbars + 1), List.sum_reverse, hsum]
    have : (counts nbars mn mx data).reverse[k]? = some ((data.countP fun v => decide (binOf nbars mn mx v = nbars - 1 - k) : Nat) : K) :=
      reverse_map_range_get _ hk
    rw [this]
    dsimp only
    have e1 : ((nbars + 1 - 1 - k : Nat) : K) = nbars - k := by rw [Nat.add_sub_cancel, Nat.cast_sub (by omega)]
    have e2 : ((nbars + 1 - 1 - (k + 1) : Nat) : K) = nbars - k - 1 := by
      rw [Nat.add_sub_cancel, Nat.cast_sub (by omega)]; push_cast; ring
    rw [e1, e2]
    congr 2
    · field_simp; ring
    · field_simp; ring
  have hlen : (bars nbars mn mx data).length = nbars := by
    unfold bars counts
    simp
  refine ⟨hlen, ?_, ?_⟩
  · have : (bars nbars mn mx data).map Bar.percent = (counts nbars mn mx data).reverse.map fun d : K => d / data.length * 100 := by
      apply List.ext_getElem?
      intro k
      rcases Nat.lt_or_ge k nbars with hk | hk
      · rw [List.getElem?_map, hget k hk, List.getElem?_map]
        have : (counts nbars mn mx data).reverse[k]? = some ((data.countP fun v => decide (binOf nbars mn mx v = nbars - 1 - k) : Nat) : K) :=
          reverse_map_range_get _ hk
        rw [this]
        rfl
      · rw [List.getElem?_eq_none (by simp [hlen, hk]), List.getElem?_eq_none (by simp [counts, hk])]
    rw [this]
    have e : ∀ l : List K, (l.map fun d => d / (data.length : K) * 100).sum = l.sum / data.length * 100 := by
      intro l
      induction l with
      | nil => simp
      | cons a l ih => simp only [List.map_cons, List.sum_cons, ih]; ring
    rw [e, List.sum_reverse, hsum, div_self hL.ne', one_mul]
  · intro k hk
    refine ⟨_, hget k hk, rfl, rfl, ?_⟩
    dsimp only
    rw [List.countP_eq_length_filter]
    have : (data.filter fun v => decide (binOf nbars mn mx v = nbars - 1 - k)) =
        data.filter fun v => decide (mx - ((k : K) + 1) * ((mx - mn) / nbars) ≤ v ∧ (v < mx - (k : K) * ((mx - mn) / nbars) ∨ k = 0)) := by
      apply List.filter_congr
      intro v hv
      rw [decide_eq_decide, binOf_iff (by omega) h (hmn v hv)]
      have e1 : ((nbars - 1 - k : Nat) : K) = nbars - 1 - k := by
        rw [Nat.cast_sub (by omega), Nat.cast_sub hn]; simp
      rw [e1]
      have e2 : mn + ((nbars : K) - 1 - k) * ((mx - mn) / nbars) = mx - ((k : K) + 1) * ((mx - mn) / nbars) := by field_simp; ring
      have e3 : mn + ((nbars : K) - 1 - k + 1) * ((mx - mn) / nbars) = mx - (k : K) * ((mx - mn) / nbars) := by field_simp; ring
      have e4 : nbars - 1 - k + 1 = nbars ↔ k = 0 := by omega
      rw [e2, e3, e4]
    rw [this]
    ring

example : ∃ b, (bars 2 0 4 ([0, 1, 3, 4, 4] : List ℚ))[0]? = some b ∧ b.percent = 60 := by
  obtain ⟨-, -, h⟩ := C105_bars (nbars := 2) (by norm_num) (mn := (0 : ℚ)) (mx := 4) (by norm_num) [0, 1, 3, 4, 4]
    (by simp) (by simp)
  obtain ⟨b, hb, h1, h2, h3⟩ := h 0 (by norm_num)
  refine ⟨b, hb, ?_⟩
  rw [h3, h2, h1]
  norm_num
end

/-- **C105** (Abbott curve, parameter study). The two triangles stand on the upper and lower height of the core, at 0 % and 100 %, are as high as
Spk and Svk, and have the areas of the material above and of the void below the core. -/
theorem C105_triangles (sort : Interp.PtSort K) (c : Abbott.Curve K) :
    (∀ t, (triangles sort c).1 = some t → ∃ pk, c.pk sort = some pk ∧ t = [(0, c.yupper), (0, c.yupper + pk), (c.mr1 sort, c.yupper)] ∧
      doubleArea t = 2 * c.areaAbove (argclosest c.yupper c.height)) ∧
    (∀ t, (triangles sort c).2 = some t → ∃ vk, c.vk sort = some vk ∧ t = [(100, c.ylower), (100, c.ylower - vk), (c.mr2 sort, c.ylower)] ∧
      doubleArea t = 2 * c.areaBelow (argclosest c.ylower c.height)) := by
  constructor
  · intro t ht
    unfold triangles at ht
    dsimp only at ht
    rw [Option.map_eq_some_iff] at ht
    obtain ⟨pk, h1, rfl⟩ := ht
    refine ⟨pk, h1, rfl, ?_⟩
    unfold Abbott.Curve.pk Abbott.divN at h1
    split at h1
    · cases h1
    · rename_i hz
      cases h1
      unfold doubleArea
      dsimp only
      have e : ((0 : K) - 0) * (c.yupper - c.yupper) - (c.mr1 sort - 0) *
          (c.yupper + 2 * c.areaAbove (argclosest c.yupper c.height) / c.mr1 sort - c.yupper) =
            -(2 * c.areaAbove (argclosest c.yupper c.height)) := by field_simp; ring
      rw [e, abs_neg, abs_of_nonneg]
      exact mul_nonneg (by norm_num) (abs_nonneg _)
  · intro t ht
    unfold triangles at ht
    dsimp only at ht
    rw [Option.map_eq_some_iff] at ht
    obtain ⟨vk, h1, rfl⟩ := ht
    refine ⟨vk, h1, rfl, ?_⟩
    unfold Abbott.Curve.vk Abbott.divN at h1
    split at h1
    · cases h1
    · rename_i hz
      cases h1
      unfold doubleArea
      dsimp only
      have e : ((100 : K) - 100) * (c.ylower - c.ylower) - (c.mr2 sort - 100) *
          (c.ylower - 2 * c.areaBelow (argclosest c.ylower c.height) / (100 - c.mr2 sort) - c.ylower) =
            -(2 * c.areaBelow (argclosest c.ylower c.height)) := by field_simp; ring
      rw [e, abs_neg, abs_of_nonneg]
      exact mul_nonneg (by norm_num) (abs_nonneg _)

/-- **C105** (angular spectrum). The polar plot of a fully measured surface has one point for every multiple of the angle step below 180°, drawn at
that angle from the right; its distance from the centre is the power of the spectral components whose direction lies in the sector beginning there.
Missing points are rejected. -/
theorem C105_polar (g : Grid (Option ℝ)) (hg : g.WF) (stepX stepY step : ℝ) :
    (none ∈ Container.flat g → angularPlot g stepX stepY step = .error .valueError) ∧
    (none ∉ Container.flat g → 2 ≤ g.nx → 2 ≤ g.ny → 0 < stepX → 0 < stepY → 0 < step →
      ∃ curve, angularPlot g stepX stepY step = .ok curve ∧ (∀ k : Nat, k < curve.length ↔ (k : ℝ) * step < 180) ∧
        ∀ k < curve.length, curve[k]? = some ((k * step) * Real.pi / 180,
          Spec.sector g.ny g.nx g.val (((g.nx : ℝ) - 1) * stepX) (((g.ny : ℝ) - 1) * stepY) 2 (k * step) ((k + 1) * step))) := by
  unfold angularPlot
  constructor
  · intro h
    rw [((C44_errors g true).1 h).1]
  · intro hf hx hy hsx hsy hs
    have hx2 : (2 : ℝ) ≤ g.nx := by exact_mod_cast hx
    have hy2 : (2 : ℝ) ≤ g.ny := by exact_mod_cast hy
    have hW : 0 < ((g.nx : ℝ) - 1) * stepX := mul_pos (by linarith) hsx
    have hH : 0 < ((g.ny : ℝ) - 1) * stepY := mul_pos (by linarith) hsy
    obtain ⟨ang, spec, e, hl, hlt, hv, -⟩ := C44_bins g hg hf (by omega) (by omega) hW.ne' hH.ne' hs true
    rw [e]
    have hlen : ((ang.map fun a => a * Real.pi / 180).zip spec).length = ang.length := by simp [hl]
    refine ⟨_, rfl, fun k => ?_, fun k hk => ?_⟩
    · rw [hlen]; exact (hlt k).symm
    · rw [hlen] at hk
      obtain ⟨h1, h2⟩ := hv k hk
      have hk' : k < spec.length := by omega
      rw [List.getD_eq_getElem?_getD, List.getElem?_eq_getElem hk, Option.getD_some] at h1
      rw [List.getD_eq_getElem?_getD, List.getElem?_eq_getElem hk', Option.getD_some] at h2
      refine List.getElem?_zip_eq_some.2 ⟨?_, ?_⟩
      · rw [List.getElem?_map, List.getElem?_eq_getElem hk, h1]; rfl
      · rw [List.getElem?_eq_getElem hk', h2]; rfl

/-- **C105** (angular spectrum on given axes). Polar axes take the place of axes that fill one cell of the figure. Missing: axes that span
several cells (`C105_polar_place_violated`). -/
theorem C105_polar_place_partial (p : Place) (h : p.start < p.rows * p.cols) (h1 : p.stop = p.start) : replaceAxes p = .ok p := by
  obtain ⟨r, c, a, b⟩ := p
  simp only at h h1
  subst h1
  simp only [replaceAxes, addSubplot]
  rw [if_pos (by omega)]
  rfl

/-- **C105** is violated for axes that span several cells: the plot shrinks to the first of them. -/
theorem C105_polar_place_violated (p : Place) (h : p.start < p.rows * p.cols) (h1 : p.start < p.stop) :
    ∃ q, replaceAxes p = .ok q ∧ q.start = p.start ∧ q.stop = p.start ∧ q ≠ p := by
  refine ⟨⟨p.rows, p.cols, p.start, p.start⟩, ?_, rfl, rfl, fun e => ?_⟩
  · simp only [replaceAxes, addSubplot]
    rw [if_pos (by omega)]
    rfl
  · have := congrArg Place.stop e
    simp only at this
    omega

/-- The hypotheses are met: a surface with points, and axes over the left half of a 2 × 2 figure. -/
example : (∃ curve, angularPlot ⟨[[some 1, some 2], [some 3, some 5]], 2⟩ (1 / 2) 2 45 = .ok curve ∧ curve.length = 4) ∧
    replaceAxes ⟨2, 2, 0, 2⟩ = .ok ⟨2, 2, 0, 0⟩ := by
  refine ⟨?_, rfl⟩
  obtain ⟨curve, h1, h2, -⟩ := (C105_polar ⟨[[some 1, some 2], [some 3, some 5]], 2⟩ (by intro r hr; simp at hr; rcases hr with rfl | rfl <;> rfl)
    (1 / 2) 2 45).2 (by simp [Container.flat]) (by simp) (by simp [Grid.ny]) (by norm_num) (by norm_num) (by norm_num)
  refine ⟨curve, h1, ?_⟩
  have a := (h2 3).2 (by norm_num)
  have b := fun h => (h2 4).1 h
  norm_num at b
  omega

end Surfalize.Props
