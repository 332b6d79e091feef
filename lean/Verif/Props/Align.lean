import Verif.Model.Align
import Verif.Spec.Align
import Verif.Props.Direction
import Verif.Props.Orientation
import Verif.Props.FillRotate
/-!
# C127: aligning a texture
-/
set_option linter.unusedSectionVars false
namespace Surfalize.Props
open Spec Fourier Orientation Align FillRotate Geometry Container BaseOps

private theorem normIdx_nat (n k : Nat) (h : k ≤ n) : normIdx n (k : Int) = k := by
  unfold normIdx; split <;> omega

/-- The indices kept on an axis of `n` points for a length `l`: at least three, inside the array, and in the middle. -/
private theorem kept (n : Nat) (l : ℝ) (hl : 4 ≤ l) (hln : l < n + 1 / 2) : ∃ p q : Nat,
    cropIndices n l = ((p : Int), (q : Int) - 1) ∧ p + 3 ≤ q ∧ q ≤ n ∧
    ∀ k : Nat, k < q - p → |(p : ℝ) - ((n : ℝ) - 1) / 2 + k| ≤ (l - 1) / 2 := by
  have hA : ∃ A : Int, pyInt (((n : ℝ) - l) / 2) = A ∧ 0 ≤ A ∧ ((n : ℝ) - l) / 2 ≤ A + 1 ∧ (A : ℝ) ≤ max 0 (((n : ℝ) - l) / 2) := by
    by_cases h0 : 0 ≤ ((n : ℝ) - l) / 2
    · refine ⟨_, pyInt_nonneg h0, Int.floor_nonneg.2 h0, (Int.lt_floor_add_one _).le, ?_⟩
      exact (Int.floor_le _).trans (le_max_right _ _)
    · refine ⟨0, ?_, le_rfl, by push_cast; linarith, by simp⟩
      unfold pyInt
      rw [if_neg h0, Int.ceil_eq_iff]
      push_cast
      constructor <;> linarith
  obtain ⟨A, hA1, hA2, hA3, hA4⟩ := hA
  set B : Int := ⌊(n : ℝ) - (n - l) / 2⌋ with hB
  have f3 := Int.lt_floor_add_one ((n : ℝ) - (n - l) / 2)
  have f4 := Int.floor_le ((n : ℝ) - (n - l) / 2)
  rw [← hB] at f3 f4
  have hn4 : (4 : ℝ) ≤ n := by
    have h3 : (3 : ℝ) < n := by linarith
    have h4 : 3 < n := by exact_mod_cast h3
    exact_mod_cast h4
  have hAB : A + 4 ≤ B := by
    have : (A : ℝ) + 3 < B := by
      rcases max_cases (0 : ℝ) (((n : ℝ) - l) / 2) with ⟨e, _⟩ | ⟨e, _⟩ <;> rw [e] at hA4 <;> linarith
    have : A + 3 < B := by exact_mod_cast this
    omega
  have hBn : B ≤ n := by
    have : (B : ℝ) < n + 1 := by linarith
    have : B < (n : Int) + 1 := by exact_mod_cast this
    omega
  obtain ⟨p, hp⟩ : ∃ p : Nat, A + 1 = p := ⟨(A + 1).toNat, by omega⟩
  obtain ⟨q, hq⟩ : ∃ q : Nat, B = q := ⟨B.toNat, by omega⟩
  refine ⟨p, q, ?_, by omega, by omega, ?_⟩
  · unfold cropIndices
    rw [hA1, pyInt_nonneg (by linarith), ← hB, hp, hq]
  · intro k hk
    have e1 : (A : ℝ) + 1 ≤ p + k := by
      have : A + 1 ≤ (p : Int) + k := by omega
      exact_mod_cast this
    have e2 : (p : ℝ) + k + 1 ≤ B := by
      have : (p : Int) + k + 1 ≤ B := by omega
      exact_mod_cast this
    rw [abs_le]
    constructor <;> linarith

set_option maxHeartbeats 1000000 in
/-- **C71** (the pixels of a real array, partial). An array that is not wider than high (and not too narrow) is cropped to
points of the turned original only: the result has at least three rows and columns, and every height of it is the
height of a place inside the original, whatever the angle and however the shape of the turned array is rounded.
Missing: arrays wider than high (`C71_wide_violated`). -/
theorem C71_inside_partial {F : ℝ → ℝ → ℝ} {N M : Nat} (hNM : M ≤ N) (hbig : 16 * (N ^ 2 + M ^ 2) ≤ M ^ 4) (hM0 : 0 < M)
    {angle : ℝ} {g rot : Grid (Option ℝ)} (h : Turned F N M angle rot) (hy : g.ny = N) (hx : g.nx = M)
    (hm : hasMissing g = false) (stepY stepX : ℝ) :
    ∃ d sy sx, rotateData g rot stepY stepX |Real.sin (angle * Real.pi / 180)| |Real.cos (angle * Real.pi / 180)| =
        .ok (d, sy, sx) ∧ 3 ≤ d.ny ∧ 3 ≤ d.nx ∧ ∃ y0 x0 : ℝ, ∀ i < d.ny, ∀ j < d.nx, ∃ r c : ℝ,
          r = ((N : ℝ) - 1) / 2 + Real.cos (angle * Real.pi / 180) * (y0 + i) + Real.sin (angle * Real.pi / 180) * (x0 + j) ∧
          c = ((M : ℝ) - 1) / 2 - Real.sin (angle * Real.pi / 180) * (y0 + i) + Real.cos (angle * Real.pi / 180) * (x0 + j) ∧
          0 ≤ r ∧ r ≤ (N : ℝ) - 1 ∧ 0 ≤ c ∧ c ≤ (M : ℝ) - 1 ∧ d.get i j = some (F r c) := by
  set S := Real.sin (angle * Real.pi / 180)
  set C := Real.cos (angle * Real.pi / 180)
  have hSC : |S| ^ 2 + |C| ^ 2 = 1 := by rw [sq_abs, sq_abs]; exact Real.sin_sq_add_cos_sq _
  have s0 := abs_nonneg S
  have c0 := abs_nonneg C
  have h1 : 1 ≤ |S| + |C| := by nlinarith [mul_nonneg s0 c0]
  have hM : (0 : ℝ) < M := by exact_mod_cast hM0
  have hNMr : (M : ℝ) ≤ N := by exact_mod_cast hNM
  have hN : (0 : ℝ) < N := by linarith
  have hbigr : 16 * ((N : ℝ) ^ 2 + M ^ 2) ≤ M ^ 4 := by exact_mod_cast hbig
  set D : ℝ := N * |S| + M * |C| with hD
  have hDM : (M : ℝ) ≤ D := by nlinarith
  have hD0 : 0 < D := by linarith
  have hDsq : D ^ 2 ≤ (N : ℝ) ^ 2 + M ^ 2 := by
    have : D ^ 2 + (N * |C| - M * |S|) ^ 2 = ((N : ℝ) ^ 2 + M ^ 2) * (|S| ^ 2 + |C| ^ 2) := by rw [hD]; ring
    rw [hSC, mul_one] at this
    linarith [sq_nonneg ((N : ℝ) * |C| - M * |S|)]
  set R := ⌊(N : ℝ) * |C| + M * |S| + 1 / 2⌋₊ with hR
  set Q := ⌊(N : ℝ) * |S| + M * |C| + 1 / 2⌋₊ with hQ
  have hrows : rot.ny = R := h.rows
  have hcols : rot.nx = Q := h.cols
  have hR' : (N : ℝ) * |C| + M * |S| < R + 1 := by
    have := Nat.lt_floor_add_one ((N : ℝ) * |C| + M * |S| + 1 / 2)
    rw [← hR] at this; linarith
  have hR2 : (N : ℝ) * |C| + M * |S| < R + 1 / 2 := by
    have := Nat.lt_floor_add_one ((N : ℝ) * |C| + M * |S| + 1 / 2)
    rw [← hR] at this; linarith
  have hQ2 : D < Q + 1 / 2 := by
    have := Nat.lt_floor_add_one ((N : ℝ) * |S| + M * |C| + 1 / 2)
    rw [← hQ] at this; linarith
  set w : ℝ := M ^ 2 / D with hw
  set e : ℝ := N * M / D with he
  have hwD : w * D = M ^ 2 := by rw [hw]; exact div_mul_cancel₀ _ hD0.ne'
  have heD : e * D = N * M := by rw [he]; exact div_mul_cancel₀ _ hD0.ne'
  have hwM : e * M = w * N := by rw [he, hw]; ring
  have hw4 : 4 ≤ w := by
    rw [hw, le_div_iff₀ hD0]
    have : (4 * D) ^ 2 ≤ ((M : ℝ) ^ 2) ^ 2 := by nlinarith
    exact abs_le_of_sq_le_sq' this (by positivity) |>.2
  have hwe : w ≤ e := by rw [he, hw]; exact div_le_div_of_nonneg_right (by nlinarith) hD0.le
  have hwQ : w < Q + 1 / 2 := by
    refine lt_of_le_of_lt ?_ hQ2
    rw [hw, div_le_iff₀ hD0]; nlinarith
  have heR : e < R + 1 / 2 := by
    refine lt_of_le_of_lt ?_ hR2
    rw [he, div_le_iff₀ hD0, hD]
    have : ((N : ℝ) * |C| + M * |S|) * (N * |S| + M * |C|) =
      (N : ℝ) * M * (|S| ^ 2 + |C| ^ 2) + (N ^ 2 + M ^ 2) * (|S| * |C|) := by ring
    rw [this, hSC, mul_one]
    have := mul_nonneg (by positivity : 0 ≤ (N : ℝ) ^ 2 + M ^ 2) (mul_nonneg s0 c0)
    linarith
  -- the crop rectangle lies inside the array
  have fitX : w * |C| + e * |S| = M := by
    rw [hw, he]; field_simp; rw [hD]; ring
  have fitY : w * |S| + e * |C| ≤ N := by
    rw [hw, he, div_mul_eq_mul_div, div_mul_eq_mul_div, ← add_div, div_le_iff₀ hD0, hD]
    nlinarith [mul_nonneg s0 (sub_nonneg.2 hNMr), mul_nonneg (mul_nonneg s0 (sub_nonneg.2 hNMr)) (by linarith : 0 ≤ (N : ℝ) + M)]
  have hR1 : 4 ≤ (R : ℝ) := by
    have h3 : (3 : ℝ) < R := by linarith
    have h4 : 3 < R := by exact_mod_cast h3
    exact_mod_cast h4
  have hQ1 : 4 ≤ (Q : ℝ) := by
    have h3 : (3 : ℝ) < Q := by linarith
    have h4 : 3 < Q := by exact_mod_cast h3
    exact_mod_cast h4
  have hcs : cropSize (g.ny : ℝ) g.nx R Q |S| |C| = (w, e) := by
    rw [hy, hx]
    unfold cropSize
    have hasp : ¬ (N : ℝ) / M < 1 := by rw [not_lt, one_le_div hM]; exact hNMr
    simp only [if_neg hasp]
    have e1 : (M : ℝ) / (N / M * |S| + |C|) = w := by
      rw [hw, hD]
      have : (N : ℝ) / M * |S| + |C| = (N * |S| + M * |C|) / M := by field_simp
      rw [this, div_div_eq_mul_div, sq]
    rw [e1]
    congr 1
    rw [he, hw]; field_simp
  obtain ⟨py, qy, iy, hpy, hqy, my⟩ := kept R e (by linarith) heR
  obtain ⟨px, qx, ix, hpx, hqx, mx⟩ := kept Q w hw4 hwQ
  have hblock := pySlice2_isBlock rot h.wf (py : Int) qy px qx (normIdx_nat _ _ (by omega)) (normIdx_nat _ _ (by omega))
    (normIdx_nat _ _ (by omega)) (normIdx_nat _ _ (by omega)) (by omega) (by omega)
  have hslice : sliceGrid rot py ((qy : Int) - 1) px ((qx : Int) - 1) =
      { rows := (pySlice rot.rows py qy).map fun r => pySlice r px qx
        nx := (pySlice (List.replicate rot.nx ()) px qx).length } := by
    unfold sliceGrid
    rw [sub_add_cancel, sub_add_cancel]
  rw [← hslice] at hblock
  set d := sliceGrid rot py ((qy : Int) - 1) px ((qx : Int) - 1) with hd
  have dny : d.ny = qy - py := hblock.shape.1
  have dnx : d.nx = qx - px := hblock.shape.2
  have hdata : ∃ sy sx, rotateData g rot stepY stepX |S| |C| = .ok (d, sy, sx) := by
    unfold rotateData
    rw [if_neg (by rw [hm]; simp), if_neg (by rw [hx, hcols, hrows]; omega)]
    simp only [hrows, hcols, hcs, iy, ix]
    rw [if_neg (by rw [← hd, dny, dnx]; omega)]
    exact ⟨_, _, rfl⟩
  obtain ⟨sy, sx, hdata⟩ := hdata
  refine ⟨d, sy, sx, hdata, by omega, by omega, (py : ℝ) - ((R : ℝ) - 1) / 2, (px : ℝ) - ((Q : ℝ) - 1) / 2, ?_⟩
  intro i hi j hj
  have hat := hblock.points i (by omega) j (by omega)
  have hget : d.get i j = rot.get (py + i) (px + j) := by
    unfold Grid.get
    exact congrArg (fun o => Option.getD o none) hat
  rw [hget]
  have my := my i (by omega)
  have mx := mx j (by omega)
  set y := (py : ℝ) - ((R : ℝ) - 1) / 2 + i with hyv
  set x := (px : ℝ) - ((Q : ℝ) - 1) / 2 + j with hxv
  have bound : ∀ u v L : ℝ, |u| * e + |v| * w ≤ L → 1 ≤ |u| + |v| → |u * y + v * x| ≤ (L - 1) / 2 := by
    intro u v L hL h1
    have t1 := abs_add_le (u * y) (v * x)
    rw [abs_mul, abs_mul] at t1
    have t2 := mul_le_mul_of_nonneg_left my (abs_nonneg u)
    have t3 := mul_le_mul_of_nonneg_left mx (abs_nonneg v)
    nlinarith
  have b1 := abs_le.1 (bound C S N (by linarith) (by linarith))
  have b2 := abs_le.1 (bound (-S) C M (by rw [abs_neg]; linarith) (by rw [abs_neg]; linarith))
  have r1 : 0 ≤ ((N : ℝ) - 1) / 2 + C * y + S * x := by linarith [b1.1]
  have r2 : ((N : ℝ) - 1) / 2 + C * y + S * x ≤ N - 1 := by linarith [b1.2]
  have r3 : 0 ≤ ((M : ℝ) - 1) / 2 - S * y + C * x := by linarith [b2.1]
  have r4 : ((M : ℝ) - 1) / 2 - S * y + C * x ≤ M - 1 := by linarith [b2.2]
  refine ⟨_, _, rfl, rfl, r1, r2, r3, r4, ?_⟩
  refine h.heights (py + i) (by omega) (px + j) (by omega) y x _ _ ?_ ?_ rfl rfl r1 r2 r3 r4
  · rw [hrows, hyv]; push_cast; ring
  · rw [hcols, hxv]; push_cast; ring

private def flat1 : Grid (Option ℝ) := Grid.ofFn 11 18 fun _ _ => some 1

set_option maxHeartbeats 1000000 in
/-- **C71** is violated by arrays that are wider than high: the crop is computed from the rounded shape of the turned array,
and may keep points outside the original. A flat surface at height 1 of 11 × 18 points, turned by the angle with
sine 24/25 and cosine 7/25 (about 73.7 degrees), shows a point at height 0. -/
theorem C71_wide_violated : ∃ angle : ℝ, 0 < angle ∧ angle < 90 ∧ Real.sin (angle * Real.pi / 180) = 24 / 25 ∧
    ∀ (rot : Grid (Option ℝ)) (step : ℝ), Turned (fun _ _ => 1) 11 18 angle rot → ZeroOutside 11 18 angle rot →
    ∃ d sy sx, rotateData flat1 rot step step |Real.sin (angle * Real.pi / 180)| |Real.cos (angle * Real.pi / 180)| =
      .ok (d, sy, sx) ∧ ∃ i < d.ny, ∃ j < d.nx, d.get i j = some 0 := by
  have hpi := Real.pi_pos
  have a0 : 0 < Real.arcsin (24 / 25) := Real.arcsin_pos.2 (by norm_num)
  have a1 : Real.arcsin (24 / 25) < Real.pi / 2 := Real.arcsin_lt_pi_div_two.2 (by norm_num)
  have ang : Real.arcsin (24 / 25) * 180 / Real.pi * Real.pi / 180 = Real.arcsin (24 / 25) := by field_simp
  have hs : Real.sin (Real.arcsin (24 / 25) * 180 / Real.pi * Real.pi / 180) = 24 / 25 := by
    rw [ang, Real.sin_arcsin (by norm_num) (by norm_num)]
  have hc : Real.cos (Real.arcsin (24 / 25) * 180 / Real.pi * Real.pi / 180) = 7 / 25 := by
    rw [ang, Real.cos_arcsin, show (1 : ℝ) - (24 / 25) ^ 2 = (7 / 25) ^ 2 by norm_num, Real.sqrt_sq (by norm_num)]
  refine ⟨Real.arcsin (24 / 25) * 180 / Real.pi, by positivity, ?_, hs, ?_⟩
  · rw [div_lt_iff₀ hpi]; linarith
  · intro rot step h hz
    have hrows : rot.ny = 20 := by
      rw [h.rows, hs, hc, abs_of_pos (by norm_num), abs_of_pos (by norm_num), Nat.floor_eq_iff (by norm_num)]
      constructor <;> norm_num
    have hcols : rot.nx = 16 := by
      rw [h.cols, hs, hc, abs_of_pos (by norm_num), abs_of_pos (by norm_num), Nat.floor_eq_iff (by norm_num)]
      constructor <;> norm_num
    have fny : flat1.ny = 11 := ofFn_ny _ _ _
    have fnx : flat1.nx = 18 := ofFn_nx _ _ _
    have hcs : cropSize (flat1.ny : ℝ) flat1.nx (20 : Nat) (16 : Nat) (24 / 25) (7 / 25) = (132 / 13, 242 / 39) := by
      rw [fny, fnx]; unfold cropSize; norm_num
    have iy : cropIndices (20 : Nat) (242 / 39 : ℝ) = (7, 12) := by
      unfold cropIndices
      rw [pyInt_nonneg (by norm_num), pyInt_nonneg (by norm_num)]
      rw [show ⌊(((20 : Nat) : ℝ) - 242 / 39) / 2⌋ = 6 by rw [Int.floor_eq_iff]; norm_num,
        show ⌊((20 : Nat) : ℝ) - (((20 : Nat) : ℝ) - 242 / 39) / 2⌋ = 13 by rw [Int.floor_eq_iff]; norm_num]
      norm_num
    have ix : cropIndices (16 : Nat) (132 / 13 : ℝ) = (3, 12) := by
      unfold cropIndices
      rw [pyInt_nonneg (by norm_num), pyInt_nonneg (by norm_num)]
      rw [show ⌊(((16 : Nat) : ℝ) - 132 / 13) / 2⌋ = 2 by rw [Int.floor_eq_iff]; norm_num,
        show ⌊((16 : Nat) : ℝ) - (((16 : Nat) : ℝ) - 132 / 13) / 2⌋ = 13 by rw [Int.floor_eq_iff]; norm_num]
      norm_num
    have hblock := pySlice2_isBlock rot h.wf ((7 : Nat) : Int) ((13 : Nat) : Int) ((3 : Nat) : Int) ((13 : Nat) : Int)
      (normIdx_nat _ _ (by omega)) (normIdx_nat _ _ (by omega)) (normIdx_nat _ _ (by omega)) (normIdx_nat _ _ (by omega))
      (by omega) (by omega)
    have hslice : sliceGrid rot 7 12 3 12 =
        { rows := (pySlice rot.rows ((7 : Nat) : Int) ((13 : Nat) : Int)).map fun r => pySlice r ((3 : Nat) : Int) ((13 : Nat) : Int)
          nx := (pySlice (List.replicate rot.nx ()) ((3 : Nat) : Int) ((13 : Nat) : Int)).length } := rfl
    rw [← hslice] at hblock
    set d := sliceGrid rot 7 12 3 12 with hd
    have dny : d.ny = 6 := hblock.shape.1
    have dnx : d.nx = 10 := hblock.shape.2
    have hm : hasMissing flat1 = false := by
      cases hm : hasMissing flat1 with
      | false => rfl
      | true =>
        obtain ⟨i, hi, j, hj, e⟩ := mem_flat_get (ofFn_wf _ _ _) ((HeightParams.mem_none_iff_hasMissing flat1).1 hm)
        rw [ofFn_ny] at hi
        rw [ofFn_nx] at hj
        have e2 : flat1.get i j = some 1 := get_ofFn _ hi hj
        exact absurd (e2.symm.trans e) (by simp)
    refine ⟨d, ?_⟩
    rw [hs, hc, abs_of_pos (by norm_num), abs_of_pos (by norm_num)]
    unfold rotateData
    rw [if_neg (by rw [hm]; simp), if_neg (by rw [fnx, hcols, hrows]; omega)]
    simp only [hrows, hcols, hcs, iy, ix]
    rw [if_neg (by rw [← hd, dny, dnx]; omega)]
    refine ⟨_, _, rfl, 5, by omega, 9, by omega, ?_⟩
    have hat := hblock.points 5 (by omega) 9 (by omega)
    have hget : d.get 5 9 = rot.get 12 12 := by
      unfold Grid.get
      exact congrArg (fun o => Option.getD o none) hat
    rw [hget]
    refine hz 12 (by omega) 12 (by omega) _ _ _ _ rfl rfl rfl rfl (.inr (.inl ?_))
    rw [hs, hc, hrows, hcols]
    norm_num

private theorem grating_measured {g : Grid (Option ℝ)} {c a φ : ℝ} {ky kx : Int} (h : Grating g c a φ ky kx) :
    hasMissing g = false := by
  cases hm : hasMissing g with
  | false => rfl
  | true => exact absurd ((HeightParams.mem_none_iff_hasMissing g).1 hm) (grating_full h)

/-- What `align` makes of a grating on a square array, from the orientation `θ` it found. -/
private theorem align_grating {argsort : Argsort} {fit : Fit} {method : String} {g : Grid (Option ℝ)} {c a φ : ℝ} {ky kx : Int}
    (h : Grating g c a φ ky kx) (htall : g.nx ≤ g.ny) (hbig : 16 * (g.ny ^ 2 + g.nx ^ 2) ≤ g.nx ^ 4)
    {ndrotate : Grid (Option ℝ) → ℝ → Grid (Option ℝ)}
    (hr : ∀ angle, Turned (wave c a φ ky kx g.ny g.nx) g.ny g.nx angle (ndrotate g angle)) {stepY stepX θ : ℝ}
    (ho : Orientation.orientation argsort fit method g (((g.nx : ℝ) - 1) * stepX) (((g.ny : ℝ) - 1) * stepY) stepX stepY =
      .ok (some θ)) {κ : ℝ}
    (hκ : κ = Real.sin (θ * Real.pi / 180) * (kx / g.nx) + Real.cos (θ * Real.pi / 180) * (ky / g.ny)) :
    (∃ d sy sx, align argsort fit ndrotate "y" method g stepY stepX = .ok (d, sy, sx) ∧ 3 ≤ d.ny ∧ 3 ≤ d.nx ∧
      ∃ γ : Nat → ℝ, ∀ i < d.ny, ∀ j < d.nx, d.get i j = some (c + a * Real.cos (γ j + i * (2 * Real.pi * κ)))) ∧
    (∃ d sy sx, align argsort fit ndrotate "x" method g stepY stepX = .ok (d, sy, sx) ∧ 3 ≤ d.ny ∧ 3 ≤ d.nx ∧
      ∃ γ : Nat → ℝ, ∀ i < d.ny, ∀ j < d.nx, d.get i j = some (c + a * Real.cos (γ i - j * (2 * Real.pi * κ)))) := by
  have hm := grating_measured h
  obtain ⟨hNp, hMp⟩ := grating_pos h
  constructor
  · obtain ⟨d, sy, sx, h1, h2, h3, y0, x0, h4⟩ := C71_inside_partial htall hbig hMp (hr (-θ)) rfl rfl hm stepY stepX
    refine ⟨d, sy, sx, ?_, h2, h3, ?_⟩
    · unfold align
      rw [ho]
      simpa [alignAngle, Except.map] using h1
    · have e1 : Real.sin (-θ * Real.pi / 180) = -Real.sin (θ * Real.pi / 180) := by
        rw [← Real.sin_neg]; congr 1; ring
      have e2 : Real.cos (-θ * Real.pi / 180) = Real.cos (θ * Real.pi / 180) := by
        rw [← Real.cos_neg (θ * Real.pi / 180)]; congr 1; ring
      rw [e1, e2] at h4
      set S := Real.sin (θ * Real.pi / 180)
      set C := Real.cos (θ * Real.pi / 180)
      refine ⟨fun j => 2 * Real.pi * ((ky : ℝ) * (((g.ny : ℝ) - 1) / 2 + C * y0 - S * (x0 + j)) / g.ny +
        kx * (((g.nx : ℝ) - 1) / 2 + S * y0 + C * (x0 + j)) / g.nx) + φ, fun i hi j hj => ?_⟩
      obtain ⟨r, cc, e3, e4, -, -, -, -, e5⟩ := h4 i hi j hj
      rw [e5, e3, e4]
      unfold wave
      congr 4
      rw [hκ]
      ring
  · obtain ⟨d, sy, sx, h1, h2, h3, y0, x0, h4⟩ := C71_inside_partial htall hbig hMp (hr (-(θ + 90))) rfl rfl hm stepY stepX
    refine ⟨d, sy, sx, ?_, h2, h3, ?_⟩
    · unfold align
      rw [ho]
      simpa [alignAngle, Except.map] using h1
    · have e1 : Real.sin (-(θ + 90) * Real.pi / 180) = -Real.cos (θ * Real.pi / 180) := by
        rw [← Real.sin_add_pi_div_two, ← Real.sin_neg]; congr 1; ring
      have e2 : Real.cos (-(θ + 90) * Real.pi / 180) = -Real.sin (θ * Real.pi / 180) := by
        rw [← Real.cos_add_pi_div_two, ← Real.cos_neg]; congr 1; ring
      rw [e1, e2] at h4
      set S := Real.sin (θ * Real.pi / 180)
      set C := Real.cos (θ * Real.pi / 180)
      refine ⟨fun i => 2 * Real.pi * ((ky : ℝ) * (((g.ny : ℝ) - 1) / 2 - S * (y0 + i) - C * x0) / g.ny +
        kx * (((g.nx : ℝ) - 1) / 2 + C * (y0 + i) - S * x0) / g.nx) + φ, fun i hi j hj => ?_⟩
      obtain ⟨r, cc, e3, e4, -, -, -, -, e5⟩ := h4 i hi j hj
      rw [e5, e3, e4]
      unfold wave
      congr 4
      rw [hκ]
      ring

private theorem align_straight {argsort : Argsort} {fit : Fit} {method : String} {g : Grid (Option ℝ)} {c a φ : ℝ} {ky kx : Int}
    (h : Grating g c a φ ky kx) (htall : g.nx ≤ g.ny) (hbig : 16 * (g.ny ^ 2 + g.nx ^ 2) ≤ g.nx ^ 4)
    {ndrotate : Grid (Option ℝ) → ℝ → Grid (Option ℝ)}
    (hr : ∀ angle, Turned (wave c a φ ky kx g.ny g.nx) g.ny g.nx angle (ndrotate g angle)) {stepY stepX θ : ℝ}
    (ho : Orientation.orientation argsort fit method g (((g.nx : ℝ) - 1) * stepX) (((g.ny : ℝ) - 1) * stepY) stepX stepY =
      .ok (some θ)) (hθ : Real.sin (θ * Real.pi / 180) * (kx / g.nx) + Real.cos (θ * Real.pi / 180) * (ky / g.ny) = 0)
    {axis : String} (ha : axis = "x" ∨ axis = "y") :
    ∃ d sy sx, align argsort fit ndrotate axis method g stepY stepX = .ok (d, sy, sx) ∧ 3 ≤ d.ny ∧ 3 ≤ d.nx ∧
      (∀ i < d.ny, ∀ j < d.nx, ∃ z, d.get i j = some z) ∧ Straight axis d := by
  obtain ⟨⟨d, sy, sx, h1, h2, h3, γ, h4⟩, d', sy', sx', h1', h2', h3', γ', h4'⟩ :=
    align_grating h htall hbig hr ho (κ := 0) hθ.symm
  simp only [mul_zero, add_zero, sub_zero] at h4 h4'
  rcases ha with rfl | rfl
  · exact ⟨d', sy', sx', h1', h2', h3', fun i hi j hj => ⟨_, h4' i hi j hj⟩, fun e => absurd e (by decide),
      fun _ i hi j hj j' hj' => by rw [h4' i hi j hj, h4' i hi j' hj']⟩
  · exact ⟨d, sy, sx, h1, h2, h3, fun i hi j hj => ⟨_, h4 i hi j hj⟩,
      fun _ i hi i' hi' j hj => by rw [h4 i hi j hj, h4 i' hi' j hj], fun e => absurd e (by decide)⟩

/-- The angle found by the coarse method. -/
private theorem coarse {argsort : Argsort} (hs : IsArgsort argsort) {fit : Fit} {g : Grid (Option ℝ)} {c a φ : ℝ} {ky kx : Int}
    (h : Grating g c a φ ky kx) {W H stepX stepY : ℝ} (hW : 0 < W) (hH : 0 < H) :
    ∃ θ, Orientation.orientation argsort fit "fft" g W H stepX stepY = .ok (some θ) ∧
      θ = (if kx = 0 then 90 else if ky = 0 then 0 else -(Real.arctan ((ky / H) / (kx / W)) * 180 / Real.pi)) := by
  refine ⟨_, ?_, rfl⟩
  unfold Orientation.orientation
  rw [if_neg (by rw [grating_measured h]; simp), if_neg (by decide), if_pos rfl, (C97_noise hs (grating_noisy h) hW hH).2.2.2]
  rfl

private theorem wide_enough {N M : Nat} (h : 16 * (N ^ 2 + M ^ 2) ≤ M ^ 4) (hM : 0 < M) (hNM : M ≤ N) : 5 ≤ M := by
  by_contra hlt
  have h4 : M ^ 2 ≤ 4 ^ 2 := Nat.pow_le_pow_left (by omega) 2
  have h5 : M ^ 4 = M ^ 2 * M ^ 2 := by ring
  have h6 : 0 < M ^ 2 := by positivity
  have h7 : M ^ 2 ≤ N ^ 2 := Nat.pow_le_pow_left hNM 2
  nlinarith

/-- **C127** (partial). With the coarse orientation `align` puts every grating exactly parallel to the chosen axis, if the
surface is to its height as the numbers of points are (on square arrays: equal steps): the result is at least three points
wide and high, all its points are measured, and its heights do not change along that axis. Asked for: an array that is not
wider than high, and not too narrow. Missing from the full property: other ratios (`C127_stretched_violated`) and wide
arrays. -/
theorem C127_aligned_partial {argsort : Argsort} (hs : IsArgsort argsort) {g : Grid (Option ℝ)} {c a φ : ℝ} {ky kx : Int}
    (h : Grating g c a φ ky kx) (htall : g.nx ≤ g.ny) (hbig : 16 * (g.ny ^ 2 + g.nx ^ 2) ≤ g.nx ^ 4) {fit : Fit}
    {ndrotate : Grid (Option ℝ) → ℝ → Grid (Option ℝ)}
    (hr : ∀ angle, Turned (wave c a φ ky kx g.ny g.nx) g.ny g.nx angle (ndrotate g angle)) {stepY stepX : ℝ}
    (hy : 0 < stepY) (hx : 0 < stepX)
    (hratio : (((g.nx : ℝ) - 1) * stepX) * g.ny = (((g.ny : ℝ) - 1) * stepY) * g.nx)
    {axis : String} (ha : axis = "x" ∨ axis = "y") :
    ∃ d sy sx, align argsort fit ndrotate axis "fft" g stepY stepX = .ok (d, sy, sx) ∧ 3 ≤ d.ny ∧ 3 ≤ d.nx ∧
      (∀ i < d.ny, ∀ j < d.nx, ∃ z, d.get i j = some z) ∧ Straight axis d := by
  obtain ⟨hNp, hMp⟩ := grating_pos h
  have hM5 : (5 : ℝ) ≤ g.nx := by exact_mod_cast wide_enough hbig hMp htall
  have hNM : (g.nx : ℝ) ≤ g.ny := by exact_mod_cast htall
  have hW : 0 < ((g.nx : ℝ) - 1) * stepX := mul_pos (by linarith) hx
  have hH : 0 < ((g.ny : ℝ) - 1) * stepY := mul_pos (by linarith) hy
  obtain ⟨θ, ho, hθ⟩ := coarse hs (fit := fit) h (stepX := stepX) (stepY := stepY) hW hH
  refine align_straight h htall hbig hr ho ?_ ha
  rw [hθ]
  split_ifs with h1 h2
  · rw [h1, show (90 : ℝ) * Real.pi / 180 = Real.pi / 2 by ring, Real.cos_pi_div_two]; simp
  · rw [h2]; simp
  · have hk : (kx : ℝ) ≠ 0 := by exact_mod_cast h1
    have hpi := Real.pi_ne_zero
    set W := ((g.nx : ℝ) - 1) * stepX
    set H := ((g.ny : ℝ) - 1) * stepY
    set t : ℝ := (ky / H) / (kx / W) with ht0
    rw [show -(Real.arctan t * 180 / Real.pi) * Real.pi / 180 = -Real.arctan t by field_simp, Real.sin_neg, Real.cos_neg]
    have hc := (Real.cos_arctan_pos t).ne'
    have ht := Real.tan_arctan t
    rw [Real.tan_eq_sin_div_cos, div_eq_iff hc] at ht
    rw [ht]
    have hN0 : (g.ny : ℝ) ≠ 0 := by linarith
    have hM0 : (g.nx : ℝ) ≠ 0 := by linarith
    have e : t * (kx / g.nx) = ky / g.ny := by
      rw [ht0]
      field_simp
      linear_combination hratio
    linear_combination (-Real.cos (Real.arctan t)) * e

/-- **C127** (partial). The default method aligns with any steps, also unequal ones: the refined orientation is counted in
points (`C88_rectangular_violated`) and the array is turned by points, so the two cancel. Missing: gratings the refined
orientation does not find (`C88_parallel_violated`, `C88_short_violated`). -/
theorem C127_refined_partial {argsort : Argsort} (hs : IsArgsort argsort) {g : Grid (Option ℝ)} {c a φ : ℝ} {ky kx : Int}
    (h : Grating g c a φ ky kx) (htall : g.nx ≤ g.ny) (hbig : 16 * (g.ny ^ 2 + g.nx ^ 2) ≤ g.nx ^ 4) {fit : Fit}
    {ndrotate : Grid (Option ℝ) → ℝ → Grid (Option ℝ)}
    (hr : ∀ angle, Turned (wave c a φ ky kx g.ny g.nx) g.ny g.nx angle (ndrotate g angle)) {stepY stepX : ℝ}
    (hy : 0 < stepY) (hx : 0 < stepX)
    (hcase :
      ((((g.nx : ℝ) - 1) * stepX) * |(ky : ℝ)| < (((g.ny : ℝ) - 1) * stepY) * |(kx : ℝ)| ∧
        Recovers fit ((g.nx : ℝ) / |(kx : ℝ)|) c ∧
        ∃ k, k = distance (g.nx - 1) kx.natAbs ∧ 0 < k ∧ 5 ≤ g.ny / k ∧ 10 * ky.natAbs * k ≤ g.ny ∧
          g.ny ≤ 2 * ky.natAbs * k * (g.ny / k - 1)) ∨
      ((((g.ny : ℝ) - 1) * stepY) * |(kx : ℝ)| < (((g.nx : ℝ) - 1) * stepX) * |(ky : ℝ)| ∧
        Recovers fit ((g.ny : ℝ) / |(ky : ℝ)|) c ∧
        ∃ k, k = distance (g.ny - 1) ky.natAbs ∧ 0 < k ∧ 5 ≤ g.nx / k ∧ 10 * kx.natAbs * k ≤ g.nx ∧
          g.nx ≤ 2 * kx.natAbs * k * (g.nx / k - 1)))
    {axis : String} (ha : axis = "x" ∨ axis = "y") :
    ∃ d sy sx, align argsort fit ndrotate axis "fft_refined" g stepY stepX = .ok (d, sy, sx) ∧ 3 ≤ d.ny ∧ 3 ≤ d.nx ∧
      (∀ i < d.ny, ∀ j < d.nx, ∃ z, d.get i j = some z) ∧ Straight axis d := by
  rcases hcase with ⟨hv, hf, k, hk, hk0, h5, hd, hw⟩ | ⟨hv, hf, k, hk, hk0, h5, hd, hw⟩
  · obtain ⟨θ, ho, -, -, hθ⟩ := C88_rows hs h hf hx hy hv hk hk0 h5 hd hw
    exact align_straight h htall hbig hr ho hθ ha
  · obtain ⟨θ, ho, -, -, hθ⟩ := C88_columns hs h hf hx hy hv hk hk0 h5 hd hw
    exact align_straight h htall hbig hr ho hθ ha

/-- **C127** (the axis). Any other axis raises ValueError, whatever the surface. -/
theorem C127_axis {argsort : Argsort} {fit : Fit} {ndrotate : Grid (Option ℝ) → ℝ → Grid (Option ℝ)} {axis : String}
    (h1 : axis ≠ "x") (h2 : axis ≠ "y") (method : String) (g : Grid (Option ℝ)) (stepY stepX : ℝ) :
    align argsort fit ndrotate axis method g stepY stepX = .error .valueError := by
  unfold align alignAngle
  rw [if_neg (by tauto)]

/-- **C127** (errors). Surfaces with missing points and unknown methods raise ValueError, for every axis. -/
theorem C127_errors {argsort : Argsort} {fit : Fit} {ndrotate : Grid (Option ℝ) → ℝ → Grid (Option ℝ)} (axis method : String)
    (g : Grid (Option ℝ)) (stepY stepX : ℝ) (h : none ∈ flat g ∨ (method ≠ "fft" ∧ method ≠ "fft_refined")) :
    align argsort fit ndrotate axis method g stepY stepX = .error .valueError := by
  have ho : Orientation.orientation argsort fit method g (((g.nx : ℝ) - 1) * stepX) (((g.ny : ℝ) - 1) * stepY) stepX stepY =
      .error .valueError := by
    unfold Orientation.orientation
    rcases h with h | ⟨h1, h2⟩
    · rw [if_pos ((HeightParams.mem_none_iff_hasMissing g).2 h)]
    · rw [if_neg h2, if_neg h1, ite_self]
  unfold align
  rw [ho]
  unfold alignAngle
  split <;> rename_i he <;> split_ifs at he <;> first | exact he.symm ▸ rfl | simp_all [Except.map]

private theorem three_equal {α δ : ℝ} (h0 : δ ≠ 0) (h1 : |δ| < Real.pi) (h2 : Real.cos (α + δ) = Real.cos α)
    (h3 : Real.cos (α + 2 * δ) = Real.cos α) : False := by
  have hd := abs_lt.1 h1
  have hs : Real.sin δ ≠ 0 := fun e => h0 (by
    rcases Real.sin_eq_zero_iff_of_lt_of_lt hd.1 hd.2 |>.1 e with e; exact e)
  have e1 : Real.cos α = Real.cos (α + δ) * Real.cos δ + Real.sin (α + δ) * Real.sin δ := by
    rw [← Real.cos_sub]; congr 1; ring
  have e2 : Real.cos (α + 2 * δ) = Real.cos (α + δ) * Real.cos δ - Real.sin (α + δ) * Real.sin δ := by
    rw [← Real.cos_add]; congr 1; ring
  have e3 : Real.sin (α + δ) * Real.sin δ = 0 := by linarith
  have e4 : Real.sin (α + δ) = 0 := by
    rcases mul_eq_zero.1 e3 with e | e
    · exact e
    · exact absurd e hs
  have e5 := Real.sin_sq_add_cos_sq (α + δ)
  rw [e4] at e5
  have e6 : Real.cos (α + δ) ≠ 0 := fun e => by rw [e] at e5; norm_num at e5
  rw [e4, zero_mul, add_zero, ← h2] at e1
  have e7 : Real.cos δ = 1 := by
    have : Real.cos (α + δ) * (Real.cos δ - 1) = 0 := by linarith
    rcases mul_eq_zero.1 this with e | e
    · exact absurd e e6
    · linarith
  have e8 := Real.sin_sq_add_cos_sq δ
  rw [e7] at e8
  exact hs (pow_eq_zero_iff (two_ne_zero) |>.1 (by linarith))

/-- **C127** is violated by the coarse method. The orientation is an angle of the surface, but the array is turned as if
its points were square and its sides as long as its numbers of points: whenever the surface is not to its height as the
numbers of points are (on square arrays: for all unequal steps; on square points: for every array that is higher than
wide), `align` leaves every oblique grating oblique: some column of the result has different heights. -/
theorem C127_stretched_violated {argsort : Argsort} (hs : IsArgsort argsort) {g : Grid (Option ℝ)} {c a φ : ℝ} {ky kx : Int}
    (h : Grating g c a φ ky kx) (hky : ky ≠ 0) (hkx : kx ≠ 0) (htall : g.nx ≤ g.ny)
    (hbig : 16 * (g.ny ^ 2 + g.nx ^ 2) ≤ g.nx ^ 4) {fit : Fit} {ndrotate : Grid (Option ℝ) → ℝ → Grid (Option ℝ)}
    (hr : ∀ angle, Turned (wave c a φ ky kx g.ny g.nx) g.ny g.nx angle (ndrotate g angle)) {stepY stepX : ℝ}
    (hy : 0 < stepY) (hx : 0 < stepX)
    (hratio : (((g.nx : ℝ) - 1) * stepX) * g.ny ≠ (((g.ny : ℝ) - 1) * stepY) * g.nx) :
    ∃ d sy sx, align argsort fit ndrotate "y" "fft" g stepY stepX = .ok (d, sy, sx) ∧ ¬ Straight "y" d := by
  obtain ⟨hNp, hMp⟩ := grating_pos h
  have hM5 : (5 : ℝ) ≤ g.nx := by exact_mod_cast wide_enough hbig hMp htall
  have hNM : (g.nx : ℝ) ≤ g.ny := by exact_mod_cast htall
  have hW : 0 < ((g.nx : ℝ) - 1) * stepX := mul_pos (by linarith) hx
  have hH : 0 < ((g.ny : ℝ) - 1) * stepY := mul_pos (by linarith) hy
  obtain ⟨θ, ho, hθ⟩ := coarse hs (fit := fit) h (stepX := stepX) (stepY := stepY) hW hH
  obtain ⟨⟨d, sy, sx, h1, h2, h3, γ, h4⟩, -⟩ := align_grating h htall hbig hr ho rfl
  refine ⟨d, sy, sx, h1, fun hst => ?_⟩
  have r1 := hst.1 rfl 0 (by omega) 1 (by omega) 0 (by omega)
  have r2 := hst.1 rfl 0 (by omega) 2 (by omega) 0 (by omega)
  rw [h4 0 (by omega) 0 (by omega), h4 1 (by omega) 0 (by omega), Option.some.injEq, add_right_inj,
    mul_right_inj' h.contrast] at r1
  rw [h4 0 (by omega) 0 (by omega), h4 2 (by omega) 0 (by omega), Option.some.injEq, add_right_inj,
    mul_right_inj' h.contrast] at r2
  push_cast at r1 r2
  rw [zero_mul, add_zero] at r1 r2
  rw [one_mul] at r1
  have kxr : (kx : ℝ) ≠ 0 := by exact_mod_cast hkx
  have kyr : (ky : ℝ) ≠ 0 := by exact_mod_cast hky
  rw [if_neg hkx, if_neg hky] at hθ
  set W := ((g.nx : ℝ) - 1) * stepX
  set H := ((g.ny : ℝ) - 1) * stepY
  set t : ℝ := (ky / H) / (kx / W) with ht
  set q : ℝ := W * g.ny / (H * g.nx) with hq
  have hN0 : (0 : ℝ) < g.ny := by linarith
  have hM0 : (0 : ℝ) < g.nx := by linarith
  have ht' : t * (kx / g.nx) = ky / g.ny * q := by rw [ht, hq]; field_simp
  have hpi := Real.pi_pos
  have hang : θ * Real.pi / 180 = -Real.arctan t := by rw [hθ]; field_simp
  have hcp := Real.cos_arctan_pos t
  have htan := Real.tan_arctan t
  rw [Real.tan_eq_sin_div_cos, div_eq_iff hcp.ne'] at htan
  have hκ : Real.sin (θ * Real.pi / 180) * (kx / g.nx) + Real.cos (θ * Real.pi / 180) * (ky / g.ny) =
      Real.cos (Real.arctan t) * (1 - q) * (ky / g.ny) := by
    rw [hang, Real.sin_neg, Real.cos_neg, htan]
    linear_combination (-Real.cos (Real.arctan t)) * ht'
  rw [hκ] at r1 r2
  have q0 : 0 < q := by rw [hq]; positivity
  have q1 : q ≠ 1 := by
    rw [hq, Ne, div_eq_one_iff_eq (by positivity)]
    exact hratio
  have hc1 := Real.cos_le_one (Real.arctan t)
  have hsin : |Real.sin (Real.arctan t)| ≤ 1 := Real.abs_sin_le_one _
  rw [htan] at hsin
  set C := Real.cos (Real.arctan t)
  have f0 : C * (1 - q) ≠ 0 := mul_ne_zero hcp.ne' (sub_ne_zero.2 (Ne.symm q1))
  have hny : |(ky : ℝ) / g.ny| < 1 / 2 := by
    have : 2 * |(ky : ℝ)| < g.ny := by exact_mod_cast h.nyquist_y
    rw [abs_div, abs_of_pos hN0, div_lt_iff₀ hN0]
    linarith
  have hnx : |(kx : ℝ) / g.nx| < 1 / 2 := by
    have : 2 * |(kx : ℝ)| < g.nx := by exact_mod_cast h.nyquist_x
    rw [abs_div, abs_of_pos hM0, div_lt_iff₀ hM0]
    linarith
  have hu0 : (ky : ℝ) / g.ny ≠ 0 := div_ne_zero kyr hN0.ne'
  set u := (ky : ℝ) / g.ny
  set v := (kx : ℝ) / g.nx
  have hsmall : |C * (1 - q) * u| < 1 / 2 := by
    rw [abs_mul, abs_mul, abs_of_pos hcp]
    have k0 := abs_nonneg u
    rcases lt_or_gt_of_ne q1 with hlt | hgt
    · rw [abs_of_pos (by linarith : 0 < 1 - q)]
      have f1 : C * (1 - q) ≤ 1 := by nlinarith
      nlinarith
    · rw [abs_of_neg (by linarith : 1 - q < 0)]
      have e : |t| * |v| = |u| * q := by rw [← abs_mul, ht', abs_mul, abs_of_pos q0]
      rw [abs_mul, abs_of_pos hcp] at hsin
      have e2 : C * |u| * q ≤ |v| := by
        calc C * |u| * q = |t| * C * |v| := by linear_combination (-C) * e
          _ ≤ 1 * |v| := mul_le_mul_of_nonneg_right hsin (abs_nonneg _)
          _ = _ := one_mul _
      have e3 : 0 ≤ C * |u| := mul_nonneg hcp.le k0
      nlinarith
  have r2' : Real.cos (γ 0 + 2 * (2 * Real.pi * (C * (1 - q) * u))) = Real.cos (γ 0) := r2.symm
  refine three_equal (α := γ 0) (δ := 2 * Real.pi * (C * (1 - q) * u)) ?_ ?_ r1.symm r2'
  · exact mul_ne_zero (by linarith) (mul_ne_zero f0 hu0)
  · rw [abs_mul (2 * Real.pi), abs_of_pos (by linarith : 0 < 2 * Real.pi)]
    nlinarith

/-! ### Non-vacuity -/

/-- There is such a turned array for `C71_wide_violated`. -/
theorem C71_zero_exists (F : ℝ → ℝ → ℝ) (ny nx : Nat) (angle : ℝ) : ∃ rot, Turned F ny nx angle rot ∧ ZeroOutside ny nx angle rot := by
  classical
  let S := Real.sin (angle * Real.pi / 180)
  let C := Real.cos (angle * Real.pi / 180)
  let R := ⌊(ny : ℝ) * |C| + nx * |S| + 1 / 2⌋₊
  let Q := ⌊(ny : ℝ) * |S| + nx * |C| + 1 / 2⌋₊
  let r : Nat → Nat → ℝ := fun i j => ((ny : ℝ) - 1) / 2 + C * (i - ((R : ℝ) - 1) / 2) + S * (j - ((Q : ℝ) - 1) / 2)
  let c : Nat → Nat → ℝ := fun i j => ((nx : ℝ) - 1) / 2 - S * (i - ((R : ℝ) - 1) / 2) + C * (j - ((Q : ℝ) - 1) / 2)
  refine ⟨Grid.ofFn R Q fun i j => some (if 0 ≤ r i j ∧ r i j ≤ (ny : ℝ) - 1 ∧ 0 ≤ c i j ∧ c i j ≤ (nx : ℝ) - 1 then
    F (r i j) (c i j) else 0), ⟨ofFn_wf _ _ _, ofFn_ny _ _ _, ofFn_nx _ _ _, ?_⟩, ?_⟩
  · intro i hi j hj y x r' c' ey ex er ec h1 h2 h3 h4
    rw [ofFn_ny] at hi ey
    rw [ofFn_nx] at hj ex
    have er' : r' = r i j := by rw [er, ey, ex]
    have ec' : c' = c i j := by rw [ec, ey, ex]
    rw [get_ofFn _ hi hj, if_pos (by rw [← er', ← ec']; exact ⟨h1, h2, h3, h4⟩), er', ec']
  · intro i hi j hj y x r' c' ey ex er ec h1
    rw [ofFn_ny] at hi ey
    rw [ofFn_nx] at hj ex
    have er' : r' = r i j := by rw [er, ey, ex]
    have ec' : c' = c i j := by rw [ec, ey, ex]
    rw [get_ofFn _ hi hj, if_neg]
    rw [← er', ← ec']
    rintro ⟨h2, h3, h4, h5⟩
    rcases h1 with h1 | h1 | h1 | h1 <;> linarith

/-- Turning with ideal interpolation exists. -/
theorem C127_rotation_exists (F : ℝ → ℝ → ℝ) (ny nx : Nat) : ∃ ndrotate : Grid (Option ℝ) → ℝ → Grid (Option ℝ),
    ∀ g angle, Turned F ny nx angle (ndrotate g angle) := by
  refine ⟨fun _ angle =>
    let S := Real.sin (angle * Real.pi / 180)
    let C := Real.cos (angle * Real.pi / 180)
    let R := ⌊(ny : ℝ) * |C| + nx * |S| + 1 / 2⌋₊
    let Q := ⌊(ny : ℝ) * |S| + nx * |C| + 1 / 2⌋₊
    Grid.ofFn R Q fun i j => some (F (((ny : ℝ) - 1) / 2 + C * (i - ((R : ℝ) - 1) / 2) + S * (j - ((Q : ℝ) - 1) / 2))
      (((nx : ℝ) - 1) / 2 - S * (i - ((R : ℝ) - 1) / 2) + C * (j - ((Q : ℝ) - 1) / 2))), fun _ angle =>
    ⟨ofFn_wf _ _ _, ofFn_ny _ _ _, ofFn_nx _ _ _, ?_⟩⟩
  intro i hi j hj y x r c ey ex er ec _ _ _ _
  rw [ofFn_ny] at hi ey
  rw [ofFn_nx] at hj ex
  rw [get_ofFn _ hi hj, er, ec, ey, ex]

private noncomputable def demo (n : Nat) (ky kx : Int) : Grid (Option ℝ) :=
  Grid.ofFn n n fun i j => some (1 + 2 * Real.cos (2 * Real.pi * ((ky : ℝ) * i / n + (kx : ℝ) * j / n) + 0))

private theorem demo_ny (n : Nat) (ky kx : Int) : (demo n ky kx).ny = n := ofFn_ny _ _ _

private theorem demo_nx (n : Nat) (ky kx : Int) : (demo n ky kx).nx = n := ofFn_nx _ _ _

private theorem demo_grating {n : Nat} {ky kx : Int} (h0 : ky ≠ 0 ∨ kx ≠ 0) (hy : 2 * |ky| < n) (hx : 2 * |kx| < n) :
    Grating (demo n ky kx) 1 2 0 ky kx := by
  refine ⟨ofFn_wf _ _ _, ?_, two_ne_zero, h0, by rw [demo_ny]; exact_mod_cast hy, by rw [demo_nx]; exact_mod_cast hx⟩
  intro i hi j hj
  rw [demo_ny] at hi ⊢
  rw [demo_nx] at hj ⊢
  unfold demo
  rw [get_ofFn _ hi hj]

/-- The premises of `C127_aligned_partial` hold: one period down and two across 8 × 8 points. -/
example {argsort : Argsort} (hs : IsArgsort argsort) (fit : Fit) : ∃ ndrotate d sy sx,
    align argsort fit ndrotate "y" "fft" (demo 8 1 2) (1 / 2) (1 / 2) = .ok (d, sy, sx) ∧ 3 ≤ d.ny ∧ Straight "y" d := by
  obtain ⟨ndrotate, hr⟩ := C127_rotation_exists (wave 1 2 0 1 2 (demo 8 1 2).ny (demo 8 1 2).nx) (demo 8 1 2).ny (demo 8 1 2).nx
  obtain ⟨d, sy, sx, h1, h2, -, -, h3⟩ := C127_aligned_partial hs
    (demo_grating (n := 8) (ky := 1) (kx := 2) (by decide) (by decide) (by decide)) (by rw [demo_ny, demo_nx])
    (by rw [demo_ny, demo_nx]; decide) (fit := fit) (hr _) (stepY := 1 / 2) (stepX := 1 / 2) (by norm_num) (by norm_num)
    (by rw [demo_ny, demo_nx]) (axis := "y") (.inr rfl)
  exact ⟨ndrotate, d, sy, sx, h1, h2, h3⟩

/-- The premises of `C127_refined_partial` hold: two periods down and four across 100 × 100 points, steps 3 and 2. -/
example {argsort : Argsort} (hs : IsArgsort argsort) : ∃ fit ndrotate d sy sx,
    align argsort fit ndrotate "x" "fft_refined" (demo 100 2 4) 3 2 = .ok (d, sy, sx) ∧ Straight "x" d := by
  obtain ⟨fit, hfit⟩ := C88_recovers_exists (P := ((demo 100 2 4).nx : ℝ) / |((4 : Int) : ℝ)|) (by rw [demo_nx]; norm_num) 1
  obtain ⟨ndrotate, hr⟩ := C127_rotation_exists (wave 1 2 0 2 4 (demo 100 2 4).ny (demo 100 2 4).nx) (demo 100 2 4).ny (demo 100 2 4).nx
  obtain ⟨d, sy, sx, h1, -, -, -, h3⟩ := C127_refined_partial hs
    (demo_grating (n := 100) (ky := 2) (kx := 4) (by decide) (by decide) (by decide)) (by rw [demo_ny, demo_nx])
    (by rw [demo_ny, demo_nx]; decide) (fit := fit) (hr _) (stepY := 3) (stepX := 2) (by norm_num) (by norm_num)
    (.inl ⟨by rw [demo_ny, demo_nx]; norm_num, hfit, 2, by rw [demo_nx]; decide, by decide, by rw [demo_ny]; decide, by rw [demo_ny]; decide,
      by rw [demo_ny]; decide⟩) (axis := "x") (.inl rfl)
  exact ⟨fit, ndrotate, d, sy, sx, h1, h3⟩

/-- The premises of `C127_stretched_violated` hold: rows twice as far apart as columns. -/
example {argsort : Argsort} (hs : IsArgsort argsort) (fit : Fit) : ∃ ndrotate d sy sx,
    align argsort fit ndrotate "y" "fft" (demo 8 1 2) 2 1 = .ok (d, sy, sx) ∧ ¬ Straight "y" d := by
  obtain ⟨ndrotate, hr⟩ := C127_rotation_exists (wave 1 2 0 1 2 (demo 8 1 2).ny (demo 8 1 2).nx) (demo 8 1 2).ny (demo 8 1 2).nx
  exact ⟨ndrotate, C127_stretched_violated hs
    (demo_grating (n := 8) (ky := 1) (kx := 2) (by decide) (by decide) (by decide)) (by decide) (by decide)
    (by rw [demo_ny, demo_nx]) (by rw [demo_ny, demo_nx]; decide) (fit := fit) (hr _) two_pos one_pos
    (by rw [demo_ny, demo_nx]; norm_num)⟩

/-- A `C127_axis` case: there is no axis 'z'. -/
example (argsort : Argsort) (fit : Fit) (g : Grid (Option ℝ)) :
    align argsort fit (fun g _ => g) "z" "fft" g 1 1 = .error .valueError := C127_axis (by decide) (by decide) _ _ _ _

/-- `C127_errors`: a surface with a missing point. -/
example (argsort : Argsort) (fit : Fit) : align argsort fit (fun g _ => g) "x" "fft" ⟨[[some 1, none]], 2⟩ 1 1 = .error .valueError :=
  C127_errors _ _ _ _ _ (.inl (by simp [Container.flat]))

end Surfalize.Props
