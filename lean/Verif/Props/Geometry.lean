import Verif.Lemmas.Profiles
import Mathlib.Tactic.NormNum
import Mathlib.Tactic.FieldSimp

/-!
# C22–C26 — crop, zoom, slicing, straight and oblique profiles
-/
set_option linter.unusedSectionVars false
namespace Surfalize.Props
open Surfalize Geometry Spec

section Crop
variable {α : Type}

/-- **C22**, pixel boxes (`in_units=False`): a box inside the surface yields exactly that block. -/
theorem C22_crop_px (g : Grid α) (hwf : g.WF) (x0 x1 y0 y1 : Nat)
    (hx : x0 ≤ x1) (hx1 : x1 ≤ g.nx - 1) (hnx : 0 < g.nx) (hy : y0 ≤ y1) (hy1 : y1 ≤ g.ny - 1) (hny : 0 < g.ny) :
    ∃ h, cropPx g x0 x1 y0 y1 = .ok h ∧ IsBlock g h y0 x0 (y1 - y0 + 1) (x1 - x0 + 1) := by
  refine ⟨sliceGrid g y0 y1 x0 x1, ?_, ?_⟩
  · unfold cropPx; rw [if_neg (by omega)]
  · have e : ∀ n k : Nat, k ≤ n → normIdx n (k : Int) = k := by
      intro n k hk; rw [normIdx_nonneg (by omega)]; omega
    have := pySlice2_isBlock g hwf y0 ((y1 : Int) + 1) x0 ((x1 : Int) + 1)
      (e _ y0 (by omega)) (e _ (y1 + 1) (by omega)) (e _ x0 (by omega)) (e _ (x1 + 1) (by omega))
      (by omega) (by omega)
    rw [show y1 - y0 + 1 = y1 + 1 - y0 by omega, show x1 - x0 + 1 = x1 + 1 - x0 by omega]
    exact this

/-- **C22**, out-of-bounds boxes: starting before the first or ending after the last pixel raises
ValueError. This is the whole check the code makes; see `C22_crop_accepts_inverted_box` for what it
does not catch. -/
theorem C22_crop_px_error_partial (g : Grid α) (x0 x1 y0 y1 : Int) :
    cropPx g x0 x1 y0 y1 = .error .valueError ↔
      (x0 < 0 ∨ y0 < 0 ∨ (g.nx : Int) - 1 < x1 ∨ (g.ny : Int) - 1 < y1) := by
  unfold cropPx
  split
  · rename_i h; simpa using h
  · rename_i h; simpa using h

/-- **C22 is violated** for boxes whose end lies before the first pixel: the box `x0=0, x1=-2` lies outside
the surface, but instead of ValueError the code returns all columns except the last, because the bound
`-2 + 1` is read by Python as counting from the end. -/
theorem C22_crop_accepts_inverted_box :
    ∃ h, cropPx (⟨[[1, 2, 3], [4, 5, 6]], 3⟩ : Grid Int) 0 (-2) 0 1 = .ok h ∧
      h = ⟨[[1, 2], [4, 5]], 2⟩ := by
  exact ⟨_, rfl, by decide⟩

variable {K : Type} [Field K] [LinearOrder K] [IsStrictOrderedRing K] [FloorRing K]

/-- nearest grid index: characterisation of `round(b/step)` -/
theorem round_nearest (b step : K) (hs : 0 < step) :
    |((pyRound (b / step) : Int) : K) * step - b| ≤ step / 2 := by
  have h := pyRound_near (b / step)
  have e : ((pyRound (b / step) : Int) : K) * step - b = (((pyRound (b / step) : Int) : K) - b / step) * step := by
    field_simp
  rw [e, abs_mul, abs_of_pos hs]
  nlinarith

/-- **C22**, boxes in µm with y pointing up from the bottom edge: for every box inside the surface, crop
returns the block bounded by the columns nearest to `x0`, `x1` and the rows nearest to heights `y1`
(upper) and `y0` (lower) above the bottom row. -/
theorem C22_crop_units (g : Grid α) (hwf : g.WF) (stepX stepY bx0 bx1 by0 by1 : K)
    (hsx : 0 < stepX) (hsy : 0 < stepY) (hnx : 0 < g.nx) (hny : 0 < g.ny)
    (h0 : 0 ≤ bx0) (h1 : bx0 ≤ bx1) (h2 : bx1 ≤ ((g.nx : K) - 1) * stepX)
    (h3 : 0 ≤ by0) (h4 : by0 ≤ by1) (h5 : by1 ≤ ((g.ny : K) - 1) * stepY) :
    ∃ (h : Grid α) (x0 x1 y0 y1 : Nat), cropUnits g stepX stepY bx0 bx1 by0 by1 = .ok h ∧
      x0 ≤ x1 ∧ x1 < g.nx ∧ y0 ≤ y1 ∧ y1 < g.ny ∧
      |(x0 : K) * stepX - bx0| ≤ stepX / 2 ∧ |(x1 : K) * stepX - bx1| ≤ stepX / 2 ∧
      |((g.ny : K) - 1 - y1) * stepY - by0| ≤ stepY / 2 ∧
      |((g.ny : K) - 1 - y0) * stepY - by1| ≤ stepY / 2 ∧
      IsBlock g h y0 x0 (y1 - y0 + 1) (x1 - x0 + 1) := by
  have r0 : ∀ {b s : K}, 0 < s → 0 ≤ b → 0 ≤ pyRound (b / s) := by
    intro b s hs hb
    have := pyRound_mono (K := K) (x := ((0 : Int) : K)) (y := b / s) (by simpa using div_nonneg hb hs.le)
    rwa [pyRound_intCast] at this
  have rn : ∀ {b s : K} {n : Nat}, 0 < n → 0 < s → b ≤ ((n : K) - 1) * s → pyRound (b / s) ≤ (n : Int) - 1 := by
    intro b s n hn hs hb
    have e : ((n : K) - 1) = (((n : Int) - 1 : Int) : K) := by push_cast; rfl
    have := pyRound_mono (K := K) (x := b / s) (y := (((n : Int) - 1 : Int) : K)) (by
      rw [div_le_iff₀ hs, ← e]; exact hb)
    rwa [pyRound_intCast] at this
  have m : ∀ {b c s : K}, 0 < s → b ≤ c → pyRound (b / s) ≤ pyRound (c / s) := by
    intro b c s hs hb
    exact pyRound_mono (div_le_div_of_nonneg_right hb hs.le)
  have a1 := r0 hsx h0
  have a2 := m hsx h1
  have a3 := rn hnx hsx h2
  have b1 := r0 hsy h3
  have b2 := m hsy h4
  have b3 := rn hny hsy h5
  have n1 := round_nearest bx0 stepX hsx
  have n2 := round_nearest bx1 stepX hsx
  have n3 := round_nearest by0 stepY hsy
  have n4 := round_nearest by1 stepY hsy
  obtain ⟨x0, e1⟩ : ∃ x : Nat, pyRound (bx0 / stepX) = (x : Int) := ⟨_, (Int.toNat_of_nonneg a1).symm⟩
  obtain ⟨x1, e2⟩ : ∃ x : Nat, pyRound (bx1 / stepX) = (x : Int) := ⟨_, (Int.toNat_of_nonneg (by omega)).symm⟩
  obtain ⟨v0, e3⟩ : ∃ x : Nat, pyRound (by0 / stepY) = (x : Int) := ⟨_, (Int.toNat_of_nonneg b1).symm⟩
  obtain ⟨v1, e4⟩ : ∃ x : Nat, pyRound (by1 / stepY) = (x : Int) := ⟨_, (Int.toNat_of_nonneg (by omega)).symm⟩
  rw [e1] at a1 a2 n1
  rw [e2] at a2 a3 n2
  rw [e3] at b1 b2 n3
  rw [e4] at b2 b3 n4
  have c1 : ∀ v : Nat, v ≤ g.ny - 1 → ((g.ny : K) - 1 - ((g.ny - 1 - v : Nat) : K)) = (v : K) := by
    intro v hv
    rw [Nat.cast_sub hv, Nat.cast_sub (by omega : 1 ≤ g.ny)]; push_cast; ring
  obtain ⟨h, hh, hb⟩ := C22_crop_px g hwf x0 x1 (g.ny - 1 - v1) (g.ny - 1 - v0) (by omega) (by omega) hnx
    (by omega) (by omega) hny
  refine ⟨h, x0, x1, g.ny - 1 - v1, g.ny - 1 - v0, ?_, by omega, by omega, by omega, by omega, by simpa using n1, by simpa using n2, ?_, ?_, hb⟩
  · unfold cropUnits
    simp only [e1, e2, e3, e4]
    rw [← hh]
    congr 1 <;> omega
  · rw [c1 v0 (by omega)]; simpa using n3
  · rw [c1 v1 (by omega)]; simpa using n4

/-- C22 hypotheses are met: a 3×4 surface with steps 1/2 and a box given in µm. -/
example : cropUnits (⟨[[1, 2, 3, 4], [5, 6, 7, 8], [9, 10, 11, 12]], 4⟩ : Grid Int) (1/2 : ℚ) (1/2)
    (1/2) (3/2) (0) (1/2) = .ok ⟨[[6, 7, 8], [10, 11, 12]], 3⟩ := by
  decide +kernel

end Crop

section Zoom
variable {α : Type} {K : Type} [Field K] [LinearOrder K] [IsStrictOrderedRing K] [FloorRing K]

/-- **C23.** For `f ≥ 1`, `zoom(f)` keeps a contiguous block whose margins differ by at most one pixel on
each axis and whose size is `size/f` up to one pixel; `zoom(1)` keeps everything. -/
theorem C23_zoom (g : Grid α) (hwf : g.WF) (f : K) (hf : 1 ≤ f) :
    ∃ (h : Grid α) (y0 ny x0 nx : Nat), zoom g f = .ok h ∧ IsBlock g h y0 x0 ny nx ∧
      (y0 ≤ (g.ny - (y0 + ny)) + 1 ∧ g.ny - (y0 + ny) ≤ y0 + 1) ∧
      (x0 ≤ (g.nx - (x0 + nx)) + 1 ∧ g.nx - (x0 + nx) ≤ x0 + 1) ∧
      ((ny : K) ≤ (g.ny : K) / f + 1 ∧ (g.ny : K) / f < (ny : K) + 1) ∧
      ((nx : K) ≤ (g.nx : K) / f + 1 ∧ (g.nx : K) / f < (nx : K) + 1) ∧
      (f = 1 → h = g) := by
  obtain ⟨sy, cy, hy1, hy2, hy3, hy4, hy5, hy6, hy7⟩ := zoomWindow_spec g.ny f hf
  obtain ⟨sx, cx, hx1, hx2, hx3, hx4, hx5, hx6, hx7⟩ := zoomWindow_spec g.nx f hf
  have hf0 : f ≠ 0 := by intro h; rw [h] at hf; linarith
  have hb := pySlice2_isBlock g hwf _ _ _ _ hy1 hy2 hx1 hx2 (by omega) (by omega)
  rw [show sy + cy - sy = cy by omega, show sx + cx - sx = cx by omega] at hb
  refine ⟨_, sy, cy, sx, cx, by simp only [zoom, if_neg hf0], hb, hy4, hx4, ⟨hy5, hy6⟩, ⟨hx5, hx6⟩, ?_⟩
  intro h1
  obtain ⟨rfl, rfl⟩ := hy7 h1
  obtain ⟨rfl, rfl⟩ := hx7 h1
  rcases g with ⟨rows, nx⟩
  simp only [Grid.mk.injEq]
  rw [pySlice_replicate_length, hx1, hx2]
  refine ⟨?_, by simp⟩
  have hrow : pySlice rows (zoomWindow (Grid.ny ⟨rows, nx⟩) f).1 (zoomWindow (Grid.ny ⟨rows, nx⟩) f).2 = rows := by
    rw [pySlice_eq]
    have e1 : normIdx rows.length (zoomWindow (Grid.ny ⟨rows, nx⟩) f).1 = 0 := hy1
    have e2 : normIdx rows.length (zoomWindow (Grid.ny ⟨rows, nx⟩) f).2 = 0 + rows.length := hy2
    rw [e1, e2]; simp
  rw [hrow]
  conv_rhs => rw [← List.map_id rows]
  apply List.map_congr_left
  intro r hr
  have hl : r.length = nx := hwf r hr
  rw [pySlice_eq, hl, hx1, hx2, ← hl]; simp

/-- **C23** for profiles. -/
theorem C23_zoom_profile (l : List α) (f : K) (hf : 1 ≤ f) :
    ∃ (h : List α) (x0 n : Nat), zoom1 l f = .ok h ∧ IsBlock1 l h x0 n ∧
      (x0 ≤ (l.length - (x0 + n)) + 1 ∧ l.length - (x0 + n) ≤ x0 + 1) ∧
      ((n : K) ≤ (l.length : K) / f + 1 ∧ (l.length : K) / f < (n : K) + 1) ∧
      (f = 1 → h = l) := by
  obtain ⟨s, c, h1, h2, h3, h4, h5, h6, h7⟩ := zoomWindow_spec l.length f hf
  have hf0 : f ≠ 0 := by intro h; rw [h] at hf; linarith
  refine ⟨_, s, c, by simp only [zoom1, if_neg hf0]; rfl, ?_, h4, ⟨h5, h6⟩, ?_⟩
  · rw [pySlice_eq, h1, h2]
    have := slice1_isBlock l (a := s) (b := s + c) (by omega) h3
    rwa [show s + c - s = c by omega] at this
  · intro hf1
    obtain ⟨rfl, rfl⟩ := h7 hf1
    rw [pySlice_eq, h1, h2]; simp

/-- The hypothesis `1 ≤ f` of C23 is needed: a factor below one does not enlarge or reject, it silently
keeps an off-centre part (`zoom(1/2)` of 10 points keeps the last 5). -/
theorem C23_zoom_below_one_not_centred :
    zoom1 [0, 1, 2, 3, 4, 5, 6, 7, 8, 9] (1 / 2 : ℚ) = .ok [5, 6, 7, 8, 9] := by decide +kernel

/-- Non-trivial instance of C23. -/
example : zoom1 [0, 1, 2, 3, 4, 5, 6, 7, 8, 9] (2 : ℚ) = .ok [2, 3, 4, 5, 6, 7] ∧ (1 : ℚ) ≤ 2 := by
  decide +kernel

end Zoom

section ProfileCrop
variable {α : Type}

/-- **C22** for profiles: an interval inside the profile with distinct ends yields exactly that piece, every
other interval raises ValueError. -/
theorem C22_crop_profile (l : List α) (x0 x1 : Int) :
    (0 ≤ x0 ∧ x0 < x1 ∧ x1 ≤ (l.length : Int) - 1 →
      ∃ h, crop1Px l x0 x1 = .ok h ∧ IsBlock1 l h x0.toNat (x1 - x0 + 1).toNat) ∧
    (¬ (0 ≤ x0 ∧ x0 < x1 ∧ x1 ≤ (l.length : Int) - 1) → crop1Px l x0 x1 = .error .valueError) := by
  constructor
  · rintro ⟨h0, h1, h2⟩
    refine ⟨_, by unfold crop1Px; rw [if_neg (by omega)], ?_⟩
    rw [pySlice_eq, normIdx_nonneg h0, normIdx_nonneg (by omega)]
    have := slice1_isBlock l (a := min x0.toNat l.length) (b := min (x1 + 1).toNat l.length) (by omega) (by omega)
    rw [show min x0.toNat l.length = x0.toNat by omega] at this ⊢
    rw [show (x1 - x0 + 1).toNat = min (x1 + 1).toNat l.length - x0.toNat by omega]
    exact this
  · intro h
    unfold crop1Px; rw [if_pos (by omega)]

example : crop1Px [10, 20, 30, 40] 1 2 = .ok [20, 30] := by decide

/-- **C22** for profiles with the interval in µm: an interval inside the profile that is longer than one step gives the piece
bounded by the points nearest to its ends, and an interval shorter than that gives this piece or raises ValueError, namely
if both ends have the same nearest point. -/
theorem C22_crop_profile_units {K : Type} [Field K] [LinearOrder K] [IsStrictOrderedRing K] [FloorRing K] (l : List α)
    (step b0 b1 : K) (hs : 0 < step) (h0 : 0 ≤ b0) (h1 : b0 ≤ b1) (h2 : b1 ≤ ((l.length : K) - 1) * step) :
    ∃ x0 x1 : Nat, x0 ≤ x1 ∧ x1 < l.length ∧ |(x0 : K) * step - b0| ≤ step / 2 ∧ |(x1 : K) * step - b1| ≤ step / 2 ∧
      (step < b1 - b0 → x0 < x1) ∧
      (x0 < x1 → ∃ h, crop1Units l step b0 b1 = .ok h ∧ IsBlock1 l h x0 (x1 - x0 + 1)) ∧
      (x0 = x1 → crop1Units l step b0 b1 = .error .valueError) := by
  have a1 : 0 ≤ pyRound (b0 / step) := by
    have := pyRound_mono (K := K) (x := ((0 : Int) : K)) (y := b0 / step) (by simpa using div_nonneg h0 hs.le)
    rwa [pyRound_intCast] at this
  have a2 : pyRound (b0 / step) ≤ pyRound (b1 / step) := pyRound_mono (div_le_div_of_nonneg_right h1 hs.le)
  have a3 : pyRound (b1 / step) ≤ (l.length : Int) - 1 := by
    have e : ((l.length : K) - 1) = (((l.length : Int) - 1 : Int) : K) := by push_cast; rfl
    have := pyRound_mono (K := K) (x := b1 / step) (y := (((l.length : Int) - 1 : Int) : K)) (by
      rw [div_le_iff₀ hs, ← e]; exact h2)
    rwa [pyRound_intCast] at this
  have n1 := round_nearest b0 step hs
  have n2 := round_nearest b1 step hs
  obtain ⟨x0, e1⟩ : ∃ x : Nat, pyRound (b0 / step) = (x : Int) := ⟨_, (Int.toNat_of_nonneg a1).symm⟩
  obtain ⟨x1, e2⟩ : ∃ x : Nat, pyRound (b1 / step) = (x : Int) := ⟨_, (Int.toNat_of_nonneg (by omega)).symm⟩
  rw [e1] at a1 a2 n1
  rw [e2] at a2 a3 n2
  rw [Int.cast_natCast] at n1 n2
  refine ⟨x0, x1, by omega, by omega, n1, n2, ?_, ?_, ?_⟩
  · intro hlt
    by_contra hc
    have : x0 = x1 := by omega
    subst this
    rw [abs_le] at n1 n2
    linarith [n1.2, n2.1]
  · intro hlt
    obtain ⟨h, hh, hb⟩ := (C22_crop_profile l x0 x1).1 ⟨by omega, by omega, by omega⟩
    refine ⟨h, ?_, ?_⟩
    · unfold crop1Units; rw [e1, e2]; exact hh
    · rw [show ((x1 : Int) - x0 + 1).toNat = x1 - x0 + 1 by omega, Int.toNat_natCast] at hb
      exact hb
  · rintro rfl
    unfold crop1Units
    rw [e1, e2]
    exact (C22_crop_profile l x0 x0).2 (by omega)

example : crop1Units [10, 20, 30, 40] (1/2 : ℚ) (3/5) (6/5) = .ok [20, 30] ∧
    crop1Units [10, 20, 30, 40] (1/2 : ℚ) (2/5) (3/5) = .error .valueError := by decide +kernel

end ProfileCrop

section Slicing
variable {α : Type} {K : Type} [Field K] [LinearOrder K] [IsStrictOrderedRing K] [FloorRing K]

theorem newStep_eq (step : K) (s : PySlice) : newStep step (.sl s) = ((s.step.getD 1 : Int) : K) * step := by
  rcases s with ⟨a, b, k⟩; cases k <;> simp [newStep]

theorem sliceIdx_diff (n : Nat) (s : PySlice) {i i' y y' : Nat} (h : sliceIdx n s i = some y)
    (h' : sliceIdx n s i' = some y') : (y' : Int) - y = ((i' : Int) - i) * s.step.getD 1 := by
  rcases s with ⟨sa, sb, sk⟩
  unfold sliceIdx at h h'
  simp only at h h' ⊢
  generalize hk : sk.getD 1 = k at h h' ⊢
  have fin : ∀ a b : Int, -1 ≤ b → 0 ≤ b → ∀ (_ : (if a + i * k < b then some (a + i * k).toNat else none) = some y)
      (_ : (if a + i' * k < b then some (a + i' * k).toNat else none) = some y') (_ : 0 ≤ a) (_ : 0 < k),
      (y' : Int) - y = ((i' : Int) - i) * k := by
    intro a b _ _ h h' ha hk
    split at h
    · split at h'
      · simp only [Option.some.injEq] at h h'
        have e1 : 0 ≤ (i : Int) * k := by positivity
        have e2 : 0 ≤ (i' : Int) * k := by positivity
        have e3 : (y' : Int) - y = i' * k - i * k := by omega
        rw [e3]; ring
      · simp at h'
    · simp at h
  have fin2 : ∀ a b : Int, -1 ≤ b → ∀ (_ : (if b < a + i * k then some (a + i * k).toNat else none) = some y)
      (_ : (if b < a + i' * k then some (a + i' * k).toNat else none) = some y'),
      (y' : Int) - y = ((i' : Int) - i) * k := by
    intro a b hb h h'
    split at h
    · split at h'
      · simp only [Option.some.injEq] at h h'
        have e3 : (y' : Int) - y = i' * k - i * k := by omega
        rw [e3]; ring
      · simp at h'
    · simp at h
  split at h
  · rename_i hpos
    rw [if_pos hpos] at h'
    refine fin _ _ ?_ ?_ h h' ?_ hpos
    · cases sb <;> simp only <;> omega
    · cases sb <;> simp only <;> omega
    · cases sa <;> simp only <;> omega
  · rename_i hpos
    rw [if_neg hpos] at h'
    refine fin2 _ _ ?_ h h'
    cases sb <;> simp only <;> omega

/-- **C24**, two-dimensional slicing: `s[sy, sx]` (no zero slice step) consists of exactly the points
selected by Python's slicing rule in rows and columns. -/
theorem C24_slice_points (g : Grid α) (hwf : g.WF) (stepY stepX : K) (sy sx : PySlice)
    (hy : sy.step ≠ some 0) (hx : sx.step ≠ some 0) :
    ∃ (h : Grid α) (ty tx : K), getitem g stepY stepX (.two (.sl sy) (.sl sx)) = .ok (h, ty, tx) ∧ h.WF ∧
      ∀ i j, at? h i j = (sliceIdx g.ny sy i).bind fun y => (sliceIdx g.nx sx j).bind fun x => at? g y x := by
  obtain ⟨rows, hr⟩ : ∃ r, sy.apply g.rows = some r :=
    Option.ne_none_iff_exists'.1 (fun hn => hy ((apply_none_iff _ _).1 hn))
  have hcol : ∀ {β : Type} (l : List β), ∃ r, sx.apply l = some r := fun l =>
    Option.ne_none_iff_exists'.1 (fun hn => hx ((apply_none_iff _ _).1 hn))
  obtain ⟨cols, hc⟩ := hcol (List.replicate g.nx ())
  have hmem : ∀ r ∈ rows, r ∈ g.rows := by
    intro r hr'
    obtain ⟨i, hi⟩ := List.mem_iff_getElem?.1 hr'
    rw [apply_getElem? sy _ _ hr] at hi
    cases hs : sliceIdx g.rows.length sy i with
    | none => rw [hs] at hi; simp at hi
    | some y => rw [hs] at hi; exact List.mem_of_getElem? hi
  refine ⟨{ rows := rows.map fun r => (sx.apply r).getD [], nx := cols.length }, newStep stepY (.sl sy),
    newStep stepX (.sl sx), by simp only [getitem, hr, hc], ?_, ?_⟩
  · intro r hr'
    simp only [List.mem_map] at hr'
    obtain ⟨r0, hr0, rfl⟩ := hr'
    obtain ⟨c0, hc0⟩ := hcol r0
    rw [hc0]
    simp only [Option.getD_some]
    exact apply_length_congr sx r0 _ (by simp [hwf r0 (hmem r0 hr0)]) _ _ hc0 hc
  · intro i j
    simp only [at?, List.getElem?_map]
    rw [apply_getElem? sy _ _ hr]
    show _ = (sliceIdx g.rows.length sy i).bind _
    cases hs : sliceIdx g.rows.length sy i with
    | none => simp
    | some y =>
      simp only [Option.bind_some]
      cases hrow : g.rows[y]? with
      | none => cases sliceIdx g.nx sx j <;> simp
      | some r0 =>
        obtain ⟨c0, hc0⟩ := hcol r0
        have hl : r0.length = g.nx := hwf r0 (List.mem_of_getElem? hrow)
        simp only [Option.map_some, Option.bind_some, hc0, Option.getD_some]
        rw [apply_getElem? sx _ _ hc0, hl]

/-- **C24**, step sizes: the result's steps are the receiver's steps times the slice steps, so kept points
keep their signed physical distances: two kept rows `i`, `i'` of the result that were rows `y`, `y'` of
the receiver satisfy `(i' - i)·step_y' = (y' - y)·step_y`, and likewise for columns. -/
theorem C24_slice_steps (g h : Grid α) (stepY stepX ty tx : K) (sy sx : PySlice)
    (hg : getitem g stepY stepX (.two (.sl sy) (.sl sx)) = .ok (h, ty, tx)) :
    ty = ((sy.step.getD 1 : Int) : K) * stepY ∧ tx = ((sx.step.getD 1 : Int) : K) * stepX ∧
    (∀ i i' y y', sliceIdx g.ny sy i = some y → sliceIdx g.ny sy i' = some y' →
      ((i' : K) - i) * ty = ((y' : K) - y) * stepY) ∧
    (∀ j j' x x', sliceIdx g.nx sx j = some x → sliceIdx g.nx sx j' = some x' →
      ((j' : K) - j) * tx = ((x' : K) - x) * stepX) := by
  simp only [getitem] at hg
  have e : ty = newStep stepY (.sl sy) ∧ tx = newStep stepX (.sl sx) := by
    split at hg
    · simp only [Except.ok.injEq, Prod.mk.injEq] at hg
      exact ⟨hg.2.1.symm, hg.2.2.symm⟩
    · simp at hg
  rw [newStep_eq, newStep_eq] at e
  refine ⟨e.1, e.2, ?_, ?_⟩
  · intro i i' y y' h1 h2
    have := sliceIdx_diff _ _ h1 h2
    have hK : ((y' : K) - y) = ((i' : K) - i) * ((sy.step.getD 1 : Int) : K) := by exact_mod_cast congrArg (Int.cast (R := K)) this
    rw [hK, e.1]; ring
  · intro i i' y y' h1 h2
    have := sliceIdx_diff _ _ h1 h2
    have hK : ((y' : K) - y) = ((i' : K) - i) * ((sx.step.getD 1 : Int) : K) := by exact_mod_cast congrArg (Int.cast (R := K)) this
    rw [hK, e.2]; ring

/-- **C24**, row slicing `s[sy]` is `s[sy, :]`. -/
theorem C24_slice_rows (g : Grid α) (stepY stepX : K) (sy : PySlice) :
    getitem g stepY stepX (.one (.sl sy)) = getitem g stepY stepX (.two (.sl sy) (.sl ⟨none, none, none⟩)) := by
  have hid : ∀ {β : Type} (l : List β), (⟨none, none, none⟩ : PySlice).apply l = some l := by
    intro β l; simp [PySlice.apply, stride_one]
  simp only [getitem, hid]
  cases hr : sy.apply g.rows with
  | none => rfl
  | some rows => simp [newStep]

/-- **C24**, the remaining index forms: an integer index never yields a surface. -/
theorem C24_int_index_error (g : Grid α) (stepY stepX : K) (i : Int) (it : Item)
    (h : ∀ s, it = .sl s → s.step ≠ some 0) :
    getitem g stepY stepX (.one (.idx i)) = .error .indexError ∧
    getitem g stepY stepX (.two (.idx i) it) = .error .indexError ∧
    getitem g stepY stepX (.two it (.idx i)) = .error .indexError := by
  refine ⟨rfl, ?_, ?_⟩ <;> cases it with
  | idx j => rfl
  | sl s => simp [getitem, h s rfl]

/-- Non-trivial instance: `s[::2, 1:4:2]` -/
example : getitem (⟨[[1, 2, 3, 4], [5, 6, 7, 8], [9, 10, 11, 12]], 4⟩ : Grid Int) (1/2 : ℚ) (1/4)
    (.two (.sl ⟨none, none, some 2⟩) (.sl ⟨some 1, some 4, some 2⟩))
    = .ok (⟨[[2, 4], [10, 12]], 2⟩, 1, 1/2) := by decide +kernel

/-- Finding: a negative slice step flips the rows but also makes the step size (hence `height_um`)
negative, although sizes are meant to be positive. -/
theorem C24_negative_step_size :
    getitem (⟨[[1, 2], [3, 4]], 2⟩ : Grid Int) (1 : ℚ) 1 (.one (.sl ⟨none, none, some (-1)⟩))
    = .ok (⟨[[3, 4], [1, 2]], 2⟩, -1, 1) := by decide +kernel

end Slicing

section Profiles
variable {K : Type} [Field K] [LinearOrder K] [IsStrictOrderedRing K] [FloorRing K]

/-- **C25**, horizontal profiles without averaging: for any `0 ≤ y < height_um` the profile is one row of
the surface, and for `y` on the grid, `y = i·step_y`, it is row `i` — for every row except the last
(`i < ny - 1`), see `C25_last_row_is_nan`. -/
theorem C25_horizontal_partial (g : Grid (Option K)) (hwf : g.WF) (stepY y : K) (avgStep : Option K)
    (hs : 0 < stepY) (hny : 2 ≤ g.ny) (ha : ∀ a, avgStep = some a → stepY ≤ a)
    (hy0 : 0 ≤ y) (hy : y < ((g.ny : K) - 1) * stepY) :
    ∃ i row, i < g.ny ∧ g.rows[i]? = some row ∧
      horizontalProfile g stepY (((g.ny : K) - 1) * stepY) y 1 avgStep = .ok row ∧
      (∀ k : Nat, y = (k : K) * stepY → i = k) := by
  exact horizontal_single g hwf stepY y avgStep hs hny ha hy0 hy

/-- **C25**, vertical profiles: the same for columns; `out[r]` is the point of column `i` in row `r`. -/
theorem C25_vertical_partial (g : Grid (Option K)) (hwf : g.WF) (stepX x : K) (avgStep : Option K)
    (hs : 0 < stepX) (hnx : 2 ≤ g.nx) (ha : ∀ a, avgStep = some a → stepX ≤ a)
    (hx0 : 0 ≤ x) (hx : x < ((g.nx : K) - 1) * stepX) :
    ∃ i out, i < g.nx ∧ verticalProfile g stepX (((g.nx : K) - 1) * stepX) x 1 avgStep = .ok out ∧
      out.length = g.ny ∧ (∀ r < g.ny, out[r]? = at? g r i) ∧
      (∀ k : Nat, x = (k : K) * stepX → i = k) := by
  have hny' : (transpose g).ny = g.nx := by simp [transpose, Grid.ny]
  obtain ⟨i, row, hi, hrow, hp, hk⟩ := horizontal_single (transpose g) (transpose_wf g) stepX x avgStep hs
    (by omega) ha hx0 (by rw [hny']; exact hx)
  rw [hny'] at hi hp
  refine ⟨i, row, hi, hp, ?_, ?_, hk⟩
  · exact transpose_wf g row (List.mem_of_getElem? hrow)
  · intro r hr
    rw [← transpose_at g hwf i r hi hr]
    simp [at?, hrow]

/-- **C25 is violated at the last row**: for every surface with at least two rows, the profile at
`y = height_um` (the position of the last row) consists of non-measured points only, because the computed
index is one past the end. The same holds for columns at `x = width_um`. -/
theorem C25_last_row_is_nan (g : Grid (Option K)) (stepY : K) (hs : 0 < stepY) (hny : 2 ≤ g.ny) :
    horizontalProfile g stepY (((g.ny : K) - 1) * stepY) (((g.ny : K) - 1 : K) * stepY) 1 none
      = .ok (List.replicate g.nx none) := by
  exact horizontal_last g stepY hs hny

theorem C25_last_column_is_nan (g : Grid (Option K)) (stepX : K) (hs : 0 < stepX) (hnx : 2 ≤ g.nx) :
    verticalProfile g stepX (((g.nx : K) - 1) * stepX) (((g.nx : K) - 1 : K) * stepX) 1 none
      = .ok (List.replicate g.ny none) := by
  have hny' : (transpose g).ny = g.nx := by simp [transpose, Grid.ny]
  have := horizontal_last (transpose g) stepX hs (by omega)
  rw [hny'] at this
  exact this

/-- **C25**, beyond the surface: ValueError. -/
theorem C25_outside_error (g : Grid (Option K)) (stepY h y : K) (k : Nat) (a : Option K) (hy : h < y) :
    horizontalProfile g stepY h y k a = .error .valueError ∧
    verticalProfile g stepY h y k a = .error .valueError := by
  simp [verticalProfile, horizontalProfile, hy]

/-- **C25**, odd averaging `average = 2h+1` with pixel distance `p`, away from the edges: the profile is the
pointwise mean of exactly `2h+1` rows, spaced `p` apart and centred at the row `i` that the profile without
averaging returns; a point is non-measured iff it is so in one of these rows. -/
theorem C25_average_odd (g : Grid (Option K)) (hwf : g.WF) (stepY y : K) (avgStep : Option K) (h p i : Nat)
    (hs : 0 < stepY) (hny : 2 ≤ g.ny)
    (hp : averagePx stepY avgStep = (p : Int)) (hp0 : 0 < p)
    (hi : (i : K) ≤ y / (((g.ny : K) - 1) * stepY) * (g.ny : K) ∧ y / (((g.ny : K) - 1) * stepY) * (g.ny : K) < i + 1)
    (hy : y ≤ ((g.ny : K) - 1) * stepY) (hlo : h * p ≤ i) (hhi : i + h * p < g.ny) :
    ∃ out, horizontalProfile g stepY (((g.ny : K) - 1) * stepY) y (2 * h + 1) avgStep = .ok out ∧
      out.length = g.nx ∧
      ∀ j < g.nx, ∀ vals : List (Option K), vals.length = 2 * h + 1 →
        (∀ r < 2 * h + 1, vals[r]? = at? g (i - h * p + r * p) j) →
        out[j]? = some (if none ∈ vals then none else some ((measured vals).sum / ((2 * h + 1 : Nat) : K))) := by
  exact horizontal_average g hwf stepY y avgStep (2 * h + 1) h p i (by omega) hs hny hp hp0 hi hy hlo hhi

/-- **C25**, even averaging: `average = 2h` does exactly what `average = 2h+1` does, so it averages `2h+1`
rows instead of `2h`. -/
theorem C25_average_even_uses_one_more (g : Grid (Option K)) (stepY H y : K) (avgStep : Option K) (h : Nat) :
    horizontalProfile g stepY H y (2 * h) avgStep = horizontalProfile g stepY H y (2 * h + 1) avgStep := by
  unfold horizontalProfile profileWindow
  rw [show 2 * h / 2 = h by omega, show (2 * h + 1) / 2 = h by omega]

/-- **C25 is violated**: "the value is rounded to the closest data point" is not what happens. On a surface
with 3 rows spaced 1 µm, `y = 1.4` is closest to row 1, but row 2 is returned. -/
theorem C25_not_nearest :
    horizontalProfile (⟨[[some 10], [some 20], [some 30]], 1⟩ : Grid (Option ℚ)) 1 2 (7/5) 1 none
      = .ok [some 30] := by decide +kernel

/-- Instance meeting the hypotheses of the averaging theorem (`h = 1`, `p = 1`, `i = 1`). -/
example : horizontalProfile (⟨[[some 1, none], [some 2, some 4], [some 6, some 5], [some 7, some 8]], 2⟩ :
    Grid (Option ℚ)) 1 3 1 3 none = .ok [some 3, none] := by decide +kernel

/-- **C26**, what holds: whenever the end points lie in different pixel columns and in the surface, the
profile is sampled at `int(hypot(dx,dy))` equidistant columns, from the start column to the end column. The
sampled rows follow `y = (dy/dx)·x`, i.e. the line *through the origin*; hence the first (last) sample lies
on the start (end) point iff the line through both points passes through the origin. -/
theorem C26_oblique_partial {α : Type} (g : Grid α) (w h x0 y0 x1 y1 : K) (cs : List (K × K))
    (ho : obliqueCoords g w h x0 y0 x1 y1 = .ok cs) :
    ∃ X0 Y0 X1 Y1 : Int,
      X0 = pyInt (x0 / w * g.nx) ∧ Y0 = pyInt (y0 / h * g.ny) ∧ X1 = pyInt (x1 / w * g.nx) ∧ Y1 = pyInt (y1 / h * g.ny) ∧
      X0 ≠ X1 ∧ cs.length = Nat.sqrt ((X1 - X0) ^ 2 + (Y1 - Y0) ^ 2).toNat ∧
      cs ≠ [] ∧
      ((Y0 * X1 = Y1 * X0) ↔ cs.head? = some ((Y0 : K), (X0 : K))) ∧
      (2 ≤ cs.length → (Y0 * X1 = Y1 * X0 ↔ cs.getLast? = some ((Y1 : K), (X1 : K)))) ∧
      (Y0 * X1 = Y1 * X0 → ∀ c ∈ cs, ∃ t : K, 0 ≤ t ∧ t ≤ 1 ∧
        c = ((Y0 : K) + t * ((Y1 : K) - Y0), (X0 : K) + t * ((X1 : K) - X0))) := by
  exact oblique_spec g w h x0 y0 x1 y1 cs ho

/-- **C26 is violated**: on a 10×10 surface the profile from (1,4) to (5,4) µm (a horizontal line in row 4) is
sampled in row 0. -/
theorem C26_oblique_ignores_offset :
    obliqueCoords (⟨List.replicate 10 (List.replicate 10 ()), 10⟩ : Grid Unit) (9 : ℚ) 9 1 4 5 4
      = .ok [(0, 1), (0, 7/3), (0, 11/3), (0, 5)] := by decide +kernel

/-- **C26 is violated** for every segment within one pixel column: ZeroDivisionError. -/
theorem C26_vertical_segment_fails {α : Type} (g : Grid α) (w h x0 y0 y1 : K)
    (hw : 0 < w) (hh : 0 < h) (hx0 : 0 ≤ x0) (hx : x0 ≤ w) (h0 : 0 ≤ y0) (h0' : y0 ≤ h) (h1 : 0 ≤ y1) (h1' : y1 ≤ h) :
    obliqueCoords g w h x0 y0 x0 y1 = .error .zeroDivision := by
  exact oblique_vertical g w h x0 y0 y1 hw hh hx0 hx h0 h0' h1 h1'

/-- A diagonal through the origin, where the profile is right. -/
example : obliqueCoords (⟨List.replicate 10 (List.replicate 10 ()), 10⟩ : Grid Unit) (9 : ℚ) 9 0 0 3 3
      = .ok [(0, 0), (1, 1), (2, 2), (3, 3)] := by decide +kernel

omit [FloorRing K] in
private theorem pixel_bounds (n : Nat) {w x : K} (hw : 0 < w) (h0 : 0 ≤ x) (h1 : x ≤ w) :
    0 ≤ x / w * (n : K) ∧ x / w * (n : K) ≤ n := by
  have a : 0 ≤ x / w := div_nonneg h0 hw.le
  have b : x / w ≤ 1 := (div_le_one hw).2 h1
  have c : (0 : K) ≤ n := Nat.cast_nonneg n
  exact ⟨mul_nonneg a c, by nlinarith⟩

private theorem pixel_inside (n : Nat) {w x : K} (hw : 0 < w) (h0 : 0 ≤ x) (h1 : x ≤ w) :
    0 ≤ ⌊x / w * (n : K)⌋ ∧ ⌊x / w * (n : K)⌋ ≤ (n : Int) ∧ pyInt (x / w * (n : K)) = ⌊x / w * (n : K)⌋ := by
  obtain ⟨a, b⟩ := pixel_bounds n hw h0 h1
  refine ⟨Int.floor_nonneg.2 a, ?_, by rw [pyInt, if_pos a]⟩
  have := Int.floor_le_floor b
  rwa [Int.floor_natCast] at this

private theorem pixel_outside {n : Nat} {w x : K} (hn : 0 < n) (hw : 0 < w) (ho : x ≤ -(w / (n : K)) ∨ w + w / (n : K) ≤ x) :
    ¬ (0 ≤ pyInt (x / w * (n : K)) ∧ pyInt (x / w * (n : K)) ≤ (n : Int)) := by
  have c : (0 : K) < n := Nat.cast_pos.2 hn
  rcases ho with o | o
  · have e : x / w * (n : K) ≤ -1 := by
      rw [div_mul_eq_mul_div, div_le_iff₀ hw]
      have := mul_le_mul_of_nonneg_right o c.le
      rw [neg_mul, div_mul_cancel₀ _ c.ne'] at this
      linarith
    have hneg : ¬ (0 : K) ≤ x / w * (n : K) := by linarith
    rintro ⟨k, -⟩
    rw [pyInt, if_neg hneg] at k
    have : ⌈x / w * (n : K)⌉ ≤ -1 := Int.ceil_le.2 (by push_cast; exact e)
    omega
  · have e : (n : K) + 1 ≤ x / w * (n : K) := by
      rw [div_mul_eq_mul_div, le_div_iff₀ hw]
      have := mul_le_mul_of_nonneg_right o c.le
      rw [add_mul, div_mul_cancel₀ _ c.ne'] at this
      linarith
    have hpos : (0 : K) ≤ x / w * (n : K) := by linarith
    rintro ⟨-, k⟩
    rw [pyInt, if_pos hpos] at k
    have : ((n : Int) + 1) ≤ ⌊x / w * (n : K)⌋ := Int.le_floor.2 (by push_cast; exact e)
    omega

/-- **C26**, inside: whenever both end points lie on the surface (0 ≤ x ≤ width, 0 ≤ y ≤ height), the profile is never
refused with ValueError; and it is computed exactly if the points lie in different pixel columns. -/
theorem C26_inside {α : Type} (g : Grid α) (w h x0 y0 x1 y1 : K) (hw : 0 < w) (hh : 0 < h)
    (hx0 : 0 ≤ x0 ∧ x0 ≤ w) (hy0 : 0 ≤ y0 ∧ y0 ≤ h) (hx1 : 0 ≤ x1 ∧ x1 ≤ w) (hy1 : 0 ≤ y1 ∧ y1 ≤ h) :
    obliqueCoords g w h x0 y0 x1 y1 ≠ .error .valueError ∧
      ((∃ cs, obliqueCoords g w h x0 y0 x1 y1 = .ok cs) ↔ ⌊x0 / w * (g.nx : K)⌋ ≠ ⌊x1 / w * (g.nx : K)⌋) := by
  obtain ⟨a1, a2, a3⟩ := pixel_inside g.nx hw hx0.1 hx0.2
  obtain ⟨b1, b2, b3⟩ := pixel_inside g.ny hh hy0.1 hy0.2
  obtain ⟨c1, c2, c3⟩ := pixel_inside g.nx hw hx1.1 hx1.2
  obtain ⟨d1, d2, d3⟩ := pixel_inside g.ny hh hy1.1 hy1.2
  have hn : ¬ (w = 0 ∨ h = 0) := by
    rintro (e | e)
    · exact hw.ne' e
    · exact hh.ne' e
  have hc : ¬ (¬ (0 ≤ pyInt (x0 / w * (g.nx : K)) ∧ pyInt (x0 / w * (g.nx : K)) ≤ g.nx) ∨
      ¬ (0 ≤ pyInt (y0 / h * (g.ny : K)) ∧ pyInt (y0 / h * (g.ny : K)) ≤ g.ny) ∨
      ¬ (0 ≤ pyInt (x1 / w * (g.nx : K)) ∧ pyInt (x1 / w * (g.nx : K)) ≤ g.nx) ∨
      ¬ (0 ≤ pyInt (y1 / h * (g.ny : K)) ∧ pyInt (y1 / h * (g.ny : K)) ≤ g.ny)) := by
    rw [a3, b3, c3, d3]
    rintro (e | e | e | e)
    · exact e ⟨a1, a2⟩
    · exact e ⟨b1, b2⟩
    · exact e ⟨c1, c2⟩
    · exact e ⟨d1, d2⟩
  simp only [obliqueCoords]
  rw [if_neg hn, if_neg hc, a3, c3]
  by_cases e : ⌊x1 / w * (g.nx : K)⌋ - ⌊x0 / w * (g.nx : K)⌋ = 0
  · rw [if_pos e]
    refine ⟨by simp, ⟨fun ⟨cs, k⟩ => (by cases k), fun k => absurd (by omega) k⟩⟩
  · rw [if_neg e]
    exact ⟨(fun k => by cases k), ⟨fun _ k => e (by omega), fun _ => ⟨_, rfl⟩⟩⟩

/-- **C26**, outside: if one of the four coordinates lies a whole pixel or more outside the surface (one pixel is
width/nx by height/ny), the profile is refused with ValueError. -/
theorem C26_outside {α : Type} (g : Grid α) (w h x0 y0 x1 y1 : K) (hw : 0 < w) (hh : 0 < h) (hnx : 0 < g.nx) (hny : 0 < g.ny)
    (ho : (x0 ≤ -(w / g.nx) ∨ w + w / g.nx ≤ x0) ∨ (y0 ≤ -(h / g.ny) ∨ h + h / g.ny ≤ y0) ∨
      (x1 ≤ -(w / g.nx) ∨ w + w / g.nx ≤ x1) ∨ (y1 ≤ -(h / g.ny) ∨ h + h / g.ny ≤ y1)) :
    obliqueCoords g w h x0 y0 x1 y1 = .error .valueError := by
  have hn : ¬ (w = 0 ∨ h = 0) := by
    rintro (e | e)
    · exact hw.ne' e
    · exact hh.ne' e
  simp only [obliqueCoords]
  rw [if_neg hn, if_pos]
  rcases ho with o | o | o | o
  · exact Or.inl (pixel_outside hnx hw o)
  · exact Or.inr (Or.inl (pixel_outside hny hh o))
  · exact Or.inr (Or.inr (Or.inl (pixel_outside hnx hw o)))
  · exact Or.inr (Or.inr (Or.inr (pixel_outside hny hh o)))

/-- Only the x of the end point is outside. -/
example : obliqueCoords (⟨List.replicate 10 (List.replicate 10 ()), 10⟩ : Grid Unit) (9 : ℚ) 9 0 0 12 3 = .error .valueError :=
  C26_outside _ _ _ _ _ _ _ (by norm_num) (by norm_num) (by decide) (by decide)
    (Or.inr (Or.inr (Or.inl (Or.inr (by norm_num)))))

end Profiles
end Surfalize.Props
