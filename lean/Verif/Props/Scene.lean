import Verif.Model.Scene
import Verif.Props.Plots

/-!
# C111: the 3d picture

The camera looks at the middle of the surface, from the stated angles, at a distance that only zoom and width determine.
Removing the white border loses nothing that was drawn, the colour bar is set beside the picture and not over it, and what
is saved is what is returned.
-/
set_option linter.unusedSectionVars false
namespace Surfalize.Props
open Surfalize Surfalize.Scene Surfalize.PlotSpec

/-! ## Camera -/

/-- **C111** (direction and distance). For every pair of angles the camera is `2 · width / zoom` away from the point it looks
at; `vertical` is its angle above the plane, `horizontal` the direction of the line of sight, counted from the y axis; the
light falls from the camera unless a position is given. -/
theorem C111_camera (width height zoom vertical horizontal : ℝ) (light : Option Point) :
    let V := view width height zoom vertical horizontal light
    let dx := V.target.x - V.camera.x
    let dy := V.target.y - V.camera.y
    let dz := V.camera.z - V.target.z
    let D := 2 * width / zoom
    dx ^ 2 + dy ^ 2 + dz ^ 2 = D ^ 2 ∧
      dz = D * Real.sin (vertical * Real.pi / 180) ∧
      dx ^ 2 + dy ^ 2 = (D * Real.cos (vertical * Real.pi / 180)) ^ 2 ∧
      dx = D * Real.cos (vertical * Real.pi / 180) * Real.sin (horizontal * Real.pi / 180) ∧
      dy = D * Real.cos (vertical * Real.pi / 180) * Real.cos (horizontal * Real.pi / 180) ∧
      V.light = (match light with | some l => l | none => V.camera) := by
  have e1 : deg2rad vertical = vertical * Real.pi / 180 := by unfold deg2rad; ring
  have e2 : deg2rad horizontal = horizontal * Real.pi / 180 := by unfold deg2rad; ring
  simp only [view, e1, e2]
  have h1 := Real.sin_sq_add_cos_sq (vertical * Real.pi / 180)
  have h2 := Real.sin_sq_add_cos_sq (horizontal * Real.pi / 180)
  generalize Real.sin (vertical * Real.pi / 180) = sv at *
  generalize Real.cos (vertical * Real.pi / 180) = cv at *
  generalize Real.sin (horizontal * Real.pi / 180) = sh at *
  generalize Real.cos (horizontal * Real.pi / 180) = ch at *
  have hd : width * 2 / zoom = 2 * width / zoom := by ring
  rw [hd]
  generalize 2 * width / zoom = D
  refine ⟨?_, by ring, ?_, by ring, by ring, ?_⟩
  · have : ∀ a : ℝ, (a - (a - sh * (cv * D))) = sh * (cv * D) := fun a => by ring
    have h' : ∀ a : ℝ, (a - (a - ch * (cv * D))) = ch * (cv * D) := fun a => by ring
    rw [this, h']
    calc (sh * (cv * D)) ^ 2 + (ch * (cv * D)) ^ 2 + (0 + sv * D - 0) ^ 2
        = ((sh ^ 2 + ch ^ 2) * cv ^ 2 + sv ^ 2) * D ^ 2 := by ring
      _ = D ^ 2 := by rw [h2, one_mul, add_comm, h1, one_mul]
  · have : ∀ a : ℝ, (a - (a - sh * (cv * D))) = sh * (cv * D) := fun a => by ring
    have h' : ∀ a : ℝ, (a - (a - ch * (cv * D))) = ch * (cv * D) := fun a => by ring
    rw [this, h']
    calc (sh * (cv * D)) ^ 2 + (ch * (cv * D)) ^ 2 = (sh ^ 2 + ch ^ 2) * (cv * D) ^ 2 := by ring
      _ = (D * cv) ^ 2 := by rw [h2]; ring
  · cases light <;> rfl

/-- **C111** (angles in degrees). At 90 degrees the camera is straight above the middle; at 0 degrees it is in the plane:
before the front edge for direction 0, on the left for direction 90. -/
theorem C111_degrees (width height zoom h : ℝ) (light : Option Point) :
    (view width height zoom 90 h light).camera = ⟨width / 2, height / 2, 2 * width / zoom⟩ ∧
      (view width height zoom 0 0 light).camera = ⟨width / 2, height / 2 - 2 * width / zoom, 0⟩ ∧
      (view width height zoom 0 90 light).camera = ⟨width / 2 - 2 * width / zoom, height / 2, 0⟩ := by
  have e : deg2rad 90 = Real.pi / 2 := by unfold deg2rad; ring
  have e0 : deg2rad 0 = 0 := by unfold deg2rad; ring
  refine ⟨?_, ?_, ?_⟩ <;> simp [view, e, e0] <;> ring

/-- **C111** (the middle). The point the camera looks at lies half-way between any two opposite points of the surface. -/
theorem C111_middle (resample : Grid (Option ℝ) → ℝ → Grid (Option ℝ)) (g : Grid (Option ℝ)) (hg : g.WF)
    (stepX stepY detail zoom v h : ℝ) (light : Option Point) (hd : 100 ≤ detail) (i : Nat) (hi : i < g.ny) (j : Nat) (hj : j < g.nx) :
    let pts := Plots.plot3d resample g stepX stepY detail
    let V := view (((g.nx : ℝ) - 1) * stepX) (((g.ny : ℝ) - 1) * stepY) zoom v h light
    ∃ x y z x' y' z', (pts[i]?).bind (fun r => r[j]?) = some (x, y, z) ∧
      (pts[g.ny - 1 - i]?).bind (fun r => r[g.nx - 1 - j]?) = some (x', y', z') ∧
      V.target.x = (x + x') / 2 ∧ V.target.y = (y + y') / 2 := by
  have H := (C105_points3d resample g hg stepX stepY detail hd).2.2
  refine ⟨_, _, _, _, _, _, H i hi j hj, H _ (by omega) _ (by omega), ?_, ?_⟩
  · show ((g.nx : ℝ) - 1) * stepX / 2 = _
    simp only [place]
    rw [Nat.cast_sub (by omega), Nat.cast_sub (by omega)]
    push_cast
    ring
  · show ((g.ny : ℝ) - 1) * stepY / 2 = _
    simp only [place]
    rw [Nat.cast_sub (by omega), Nat.cast_sub (by omega)]
    push_cast
    ring

/-- The surface lies within `r` of the point the camera looks at, in the plane: the corners are furthest away. -/
theorem corner_dist {w h x y : ℝ} (hx0 : 0 ≤ x) (hx : x ≤ w) (hy0 : 0 ≤ y) (hy : y ≤ h) :
    (x - w / 2) ^ 2 + (y - h / 2) ^ 2 ≤ (w ^ 2 + h ^ 2) / 4 := by
  nlinarith [mul_nonneg hx0 (sub_nonneg.2 hx), mul_nonneg hy0 (sub_nonneg.2 hy)]

/-- **C111** (the camera is outside). At zoom 1 or less, on an area that is not more than three times as high as wide, the
camera is further from the middle than any place of the area, for all angles. -/
theorem C111_outside_partial (width height zoom v h : ℝ) (light : Option Point) (hw : 0 < width) (hh : 0 ≤ height)
    (hr : height ≤ 3 * width) (hz : 0 < zoom) (hz1 : zoom ≤ 1) (x y : ℝ) (hx0 : 0 ≤ x) (hx : x ≤ width) (hy0 : 0 ≤ y) (hy : y ≤ height) :
    let V := view width height zoom v h light
    (x - V.target.x) ^ 2 + (y - V.target.y) ^ 2 <
      (V.camera.x - V.target.x) ^ 2 + (V.camera.y - V.target.y) ^ 2 + (V.camera.z - V.target.z) ^ 2 := by
  have hc := (C111_camera width height zoom v h light).1
  intro V
  have e : (V.camera.x - V.target.x) ^ 2 + (V.camera.y - V.target.y) ^ 2 + (V.camera.z - V.target.z) ^ 2 = (2 * width / zoom) ^ 2 := by
    rw [← hc]
    show _ = (V.target.x - V.camera.x) ^ 2 + (V.target.y - V.camera.y) ^ 2 + (V.camera.z - V.target.z) ^ 2
    ring
  rw [e]
  have h1 := corner_dist hx0 hx hy0 hy
  have h2 : 2 * width ≤ 2 * width / zoom := by
    rw [le_div_iff₀ hz]
    nlinarith
  have h3 : (2 * width) ^ 2 ≤ (2 * width / zoom) ^ 2 := pow_le_pow_left₀ (by linarith) h2 2
  show (x - width / 2) ^ 2 + (y - height / 2) ^ 2 < _
  nlinarith

example : ∃ V : View, V = view 10 30 1 50 0 none ∧ (3 - V.target.x) ^ 2 + (30 - V.target.y) ^ 2 <
      (V.camera.x - V.target.x) ^ 2 + (V.camera.y - V.target.y) ^ 2 + (V.camera.z - V.target.z) ^ 2 :=
  ⟨_, rfl, C111_outside_partial 10 30 1 50 0 none (by norm_num) (by norm_num) (by norm_num) (by norm_num) (by norm_num) 3 30
    (by norm_num) (by norm_num) (by norm_num) (by norm_num)⟩

/-- **C111** is false of narrow areas: the distance follows from the width alone. On every area more than four times as high as
wide the camera at zoom 1, angles 0, stands on a place of the surface itself. -/
theorem C111_narrow_violated (width height : ℝ) (light : Option Point) (hw : 0 < width) (hr : 4 * width ≤ height) :
    ∃ x y, 0 ≤ x ∧ x ≤ width ∧ 0 ≤ y ∧ y ≤ height ∧ (view width height 1 0 0 light).camera = ⟨x, y, 0⟩ := by
  refine ⟨width / 2, height / 2 - 2 * width, by linarith, by linarith, by linarith, by linarith, ?_⟩
  rw [(C111_degrees width height 1 0 light).2.1]
  simp

/-! ## White border -/

section
variable {α : Type} [DecidableEq α]

theorem mem_inked {white : α} {p : Img α} {j : Nat} :
    j ∈ inked white p ↔ j < p.width ∧ ∃ i < p.height, p.px i j ≠ white := by
  simp [inked, List.mem_filter, List.any_eq_true]

theorem inked_sorted (white : α) (p : Img α) : (inked white p).Pairwise (· < ·) :=
  List.Pairwise.filter _ List.pairwise_lt_range

theorem le_getLast {l : List Nat} (h : l.Pairwise (· < ·)) (hl : l ≠ []) : ∀ j ∈ l, j ≤ l.getLast hl := by
  induction l with
  | nil => exact absurd rfl hl
  | cons a t ih =>
    intro j hj
    cases t with
    | nil => simp at hj; simp [hj]
    | cons b t =>
      rw [List.getLast_cons (by simp)]
      have hp := List.pairwise_cons.1 h
      have := ih hp.2 (by simp)
      rcases List.mem_cons.1 hj with rfl | hj
      · exact le_trans (le_of_lt (hp.1 b (by simp))) (this b (by simp))
      · exact this j hj

/-- **C111** (white border). What `crop_white` keeps is a block of columns at full height, with every pixel unchanged; every
pixel that is not white is kept; the first and the last column are not white, unless the picture is white all over: then it is
returned as it is. -/
theorem C111_crop (white : α) (p : Img α) :
    ∃ l, l + (cropWhite white p).width ≤ p.width ∧ (cropWhite white p).height = p.height ∧
      (∀ i < p.height, ∀ j < (cropWhite white p).width, (cropWhite white p).px i j = p.px i (l + j)) ∧
      (∀ i < p.height, ∀ j < p.width, p.px i j ≠ white → l ≤ j ∧ j < l + (cropWhite white p).width) ∧
      ((∃ i < p.height, ∃ j < p.width, p.px i j ≠ white) →
        0 < (cropWhite white p).width ∧ (∃ i < p.height, (cropWhite white p).px i 0 ≠ white) ∧
          ∃ i < p.height, (cropWhite white p).px i ((cropWhite white p).width - 1) ≠ white) ∧
      ((∀ i < p.height, ∀ j < p.width, p.px i j = white) → cropWhite white p = p) := by
  cases hi : inked white p with
  | nil =>
    have hw : ∀ i < p.height, ∀ j < p.width, p.px i j = white := by
      intro i h1 j h2
      by_contra h
      have : j ∈ inked white p := mem_inked.2 ⟨h2, i, h1, h⟩
      rw [hi] at this
      cases this
    have he : cropWhite white p = p := by
      have : bbox white p = none := by
        unfold bbox
        split
        · rfl
        · rename_i h; rw [hi] at h; cases h
      unfold cropWhite
      rw [this]
    rw [he]
    refine ⟨0, by omega, rfl, fun i _ j _ => by rw [Nat.zero_add], fun i h1 j h2 h => absurd (hw i h1 j h2) h, ?_, fun _ => rfl⟩
    rintro ⟨i, h1, j, h2, h⟩
    exact absurd (hw i h1 j h2) h
  | cons a t =>
    obtain ⟨r, hr, hrm, hrle⟩ : ∃ r, cropWhite white p = cropColumns p a (r + 1) ∧ r ∈ inked white p ∧ ∀ j ∈ inked white p, j ≤ r := by
      refine ⟨(inked white p).getLast (by rw [hi]; simp), ?_, List.getLast_mem _, le_getLast (inked_sorted white p) _⟩
      unfold cropWhite
      have : bbox white p = some (a, (inked white p).getLast (by rw [hi]; simp) + 1) := by
        unfold bbox
        split
        · rename_i h; rw [hi] at h; cases h
        · rename_i b s h
          have e := h.symm.trans hi
          cases e
          simp only [h]
      rw [this]
    have ha : a ∈ inked white p := by rw [hi]; simp
    have hal : ∀ j ∈ inked white p, a ≤ j := by
      intro j hj
      rw [hi] at hj
      have := inked_sorted white p
      rw [hi] at this
      rcases List.mem_cons.1 hj with rfl | hj
      · exact le_refl _
      · exact le_of_lt ((List.pairwise_cons.1 this).1 j hj)
    have har := hrle a ha
    have hrw := (mem_inked.1 hrm).1
    rw [hr]
    refine ⟨a, ?_, rfl, fun i _ j _ => rfl, ?_, ?_, ?_⟩
    · show a + (r + 1 - a) ≤ p.width
      omega
    · intro i h1 j h2 h
      have hj : j ∈ inked white p := mem_inked.2 ⟨h2, i, h1, h⟩
      have h3 := hal j hj
      have h4 := hrle j hj
      show a ≤ j ∧ j < a + (r + 1 - a)
      omega
    · intro _
      obtain ⟨-, i1, h1, h2⟩ := mem_inked.1 ha
      obtain ⟨-, i2, h3, h4⟩ := mem_inked.1 hrm
      refine ⟨?_, ⟨i1, h1, h2⟩, i2, h3, ?_⟩
      · show 0 < r + 1 - a
        omega
      · show p.px i2 (a + (r + 1 - a - 1)) ≠ white
        rw [show a + (r + 1 - a - 1) = r by omega]
        exact h4
    · intro hw
      obtain ⟨h0, i1, h1, h2⟩ := mem_inked.1 ha
      exact absurd (hw i1 h1 a h0) h2

/-- A picture with two white columns on the left and one on the right. -/
example : (cropWhite 0 (⟨5, 2, fun i j => if j = 3 ∧ i = 1 then 7 else if j = 2 then i else 0⟩ : Img Nat)).width = 2 ∧
    (cropWhite 0 (⟨5, 2, fun i j => if j = 3 ∧ i = 1 then 7 else if j = 2 then i else 0⟩ : Img Nat)).px 1 1 = 7 := by
  decide +kernel

/-! ## Colour bar -/

/-- **C111** (colour bar). With a `cbar_pad` that is not negative the result is, from left to right: the picture unchanged,
`cbar_pad` white columns, the colour bar, which is as high as the picture and keeps its proportions to within one pixel. -/
theorem C111_colorbar (white : α) (resize : Img α → Nat → Nat → Except Err (Img α))
    (hres : ∀ q w h q', resize q w h = .ok q' → q'.width = w ∧ q'.height = h) (p bar : Img α) (pad : Nat) (hb : 0 < bar.height)
    (r : Img α) (hr : withColorbar white resize p bar pad = .ok r) :
    ∃ cb, (∃ w h, resize bar w h = .ok cb) ∧ cb.height = p.height ∧
      cb.width * bar.height ≤ bar.width * p.height ∧ bar.width * p.height < (cb.width + 1) * bar.height ∧
      r.height = p.height ∧ r.width = p.width + pad + cb.width ∧
      (∀ i < p.height, ∀ j < p.width, r.px i j = p.px i j) ∧
      (∀ i < p.height, ∀ j < pad, r.px i (p.width + j) = white) ∧
      ∀ i < p.height, ∀ j < cb.width, r.px i (p.width + pad + j) = cb.px i j := by
  unfold withColorbar at hr
  cases hq : resize bar (bar.width * p.height / bar.height) p.height with
  | error e => rw [hq] at hr; cases hr
  | ok cb =>
    rw [hq] at hr
    obtain ⟨h1, h2⟩ := hres _ _ _ _ hq
    dsimp only at hr
    rw [if_neg (by omega)] at hr
    injection hr with hr
    subst hr
    refine ⟨cb, ⟨_, _, hq⟩, h2, ?_, ?_, rfl, ?_, ?_, ?_, ?_⟩
    · rw [h1]; exact Nat.div_mul_le_self _ _
    · rw [h1, Nat.add_one_mul]
      have := Nat.div_add_mod (bar.width * p.height) bar.height
      have h3 := Nat.mod_lt (bar.width * p.height) hb
      rw [Nat.mul_comm bar.height] at this
      omega
    · show ((p.width : Int) + cb.width + pad).toNat = _
      omega
    · intro i hi j hj
      dsimp only
      rw [if_neg (by omega), if_pos hj]
    · intro i hi j hj
      dsimp only
      rw [if_neg (by push_cast; omega), if_neg (by omega)]
    · intro i hi j hj
      dsimp only
      rw [if_pos (by push_cast; omega)]
      congr 1
      push_cast
      omega

/-- The assumption on `resize` can be met, and the composite exists. -/
example : ∃ r, withColorbar 0 (fun q w h => .ok ⟨w, h, q.px⟩) (⟨4, 6, fun i j => i + j⟩ : Img Nat) ⟨2, 3, fun _ _ => 9⟩ 2 = .ok r ∧
    r.width = 10 ∧ r.px 5 3 = 8 ∧ r.px 5 5 = 0 ∧ r.px 5 6 = 9 := ⟨_, rfl, by decide, by decide, by decide, by decide⟩

/-! ## Saving -/

/-- **C111** (saving). An interactive plot with a file name is refused before anything is drawn. Otherwise the file written is
exactly the picture returned, under the name given; without a name, after an exception and for an interactive plot no file is
written. -/
theorem C111_save (white : α) (resize : Img α → Nat → Nat → Except Err (Img α)) (shot bar : Img α) (a : Args) (s : String) (hs : s ≠ "") :
    (a.interactive = true → plot3d white resize shot bar a (some s) = ⟨false, .error .valueError, []⟩ ∧
      plot3d white resize shot bar a none = ⟨true, .ok none, []⟩) ∧
    (a.interactive = false → ∀ img, (plot3d white resize shot bar a (some s)).returned = .ok img →
      ∃ q, img = some q ∧ (plot3d white resize shot bar a (some s)).saved = [(s, q)] ∧
        (plot3d white resize shot bar a none).returned = .ok (some q) ∧ (plot3d white resize shot bar a none).saved = []) ∧
    ∀ e path, (plot3d white resize shot bar a path).returned = .error e → (plot3d white resize shot bar a path).saved = [] := by
  have hf : (some s).filter (fun s => s ≠ "") = some s := by simp [Option.filter, hs]
  refine ⟨fun hi => ?_, fun hi img h => ?_, fun e path h => ?_⟩
  · refine ⟨by simp [plot3d, hi, hs], by simp [plot3d, finish, hi]⟩
  · unfold plot3d at h ⊢
    simp only [hi, hf, Bool.false_and, Bool.false_eq_true, if_false] at h ⊢
    generalize hfin : finish white resize shot bar a = F at h ⊢
    have : F ≠ .ok none := by
      rw [← hfin]
      unfold finish
      rw [hi]
      simp only [Bool.false_eq_true, if_false]
      split
      · cases withColorbar white resize _ bar a.pad <;> simp [Except.map]
      · simp
    rcases F with e | _ | q
    · cases h
    · exact absurd rfl this
    · cases h
      exact ⟨q, rfl, rfl, rfl, rfl⟩
  · unfold plot3d at h ⊢
    dsimp only at h ⊢
    split at h
    · rename_i hc; rw [if_pos hc]
    · rename_i hc
      rw [if_neg hc]
      generalize finish white resize shot bar a = F at h ⊢
      rcases F with e | _ | q
      · rfl
      · cases h
      · cases h

/-- **C111** (the picture). Without interaction the picture is the rendering, without its white border if that is wanted, with
the colour bar beside it if that is wanted. -/
theorem C111_picture (white : α) (resize : Img α → Nat → Nat → Except Err (Img α)) (shot bar : Img α) (crop : Bool) (pad : Int) :
    (plot3d white resize shot bar ⟨false, crop, false, pad⟩ none).returned = .ok (some (if crop then cropWhite white shot else shot)) ∧
      (plot3d white resize shot bar ⟨false, crop, true, pad⟩ none).returned =
        (withColorbar white resize (if crop then cropWhite white shot else shot) bar pad).map some := by
  refine ⟨?_, ?_⟩
  · cases crop <;> rfl
  · unfold plot3d finish
    simp only [Bool.false_and, Bool.false_eq_true, if_false, if_true]
    generalize withColorbar white resize (if crop = true then cropWhite white shot else shot) bar pad = F
    cases F <;> rfl

end

/-- **C111** (grey pictures). `is_grayscale` holds exactly if the three channels of every pixel agree. -/
theorem C111_grayscale (p : Img (Nat × Nat × Nat)) :
    isGrayscale p = true ↔ ∀ i < p.height, ∀ j < p.width, ∃ v, p.px i j = (v, v, v) := by
  simp only [isGrayscale, List.all_eq_true, List.mem_range, Bool.and_eq_true, decide_eq_true_eq]
  refine ⟨fun h i hi j hj => ?_, fun h i hi j hj => ?_⟩
  · obtain ⟨h1, h2⟩ := h i hi j hj
    exact ⟨(p.px i j).1, Prod.ext rfl (Prod.ext h1.symm h2.symm)⟩
  · obtain ⟨v, e⟩ := h i hi j hj
    rw [e]
    exact ⟨rfl, rfl⟩

end Surfalize.Props
