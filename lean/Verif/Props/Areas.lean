import Verif.Lemmas.Areas
import Mathlib.Tactic.IntervalCases

/-!
# C31, C32 — developed area and gradient
-/
set_option linter.unusedSectionVars false
namespace Surfalize.Props
open Surfalize BaseOps Areas Finset Spec Container

/-- **C31** (lower bound part). For every fully measured surface the developed area is at
least the projected area `(nx-1)·step_x · (ny-1)·step_y` of the measured field. -/
theorem C31_area_ge_projected (g : Grid (Option ℝ)) (f : Nat → Nat → ℝ) (h : HasHeights g f) (sx sy : ℝ) :
    ∃ a, surfaceArea g sx sy = .ok a ∧ ((g.nx - 1 : Nat) * sx) * ((g.ny - 1 : Nat) * sy) ≤ a := by
  refine ⟨_, surfaceArea_eq h sx sy, ?_⟩
  have h1 : ((g.nx - 1 : Nat) * sx) * ((g.ny - 1 : Nat) * sy)
      = ∑ _i ∈ range (g.ny - 1), ∑ _j ∈ range (g.nx - 1), sx * sy := by
    rw [sum_const2]; ring
  rw [h1]
  exact sum_le_sum fun i _ => sum_le_sum fun j _ => le_sqrt_term sx sy _ _

/-- **C31** (flatness, proved part). The developed area equals the area of the flat field exactly when all
points except possibly the last corner have equal height. The property asks for "all points"; the code counts
the first triangle of each cell twice and never looks at the corner `(ny-1, nx-1)`, see
`C31_corner_ignored`. -/
theorem C31_flat_partial (g : Grid (Option ℝ)) (f : Nat → Nat → ℝ) (h : HasHeights g f) (sx sy : ℝ)
    (hx : 0 < sx) (hy : 0 < sy) (hnx : 2 ≤ g.nx) (hny : 2 ≤ g.ny) :
    surfaceArea g sx sy = .ok (((g.nx - 1 : Nat) * sx) * ((g.ny - 1 : Nat) * sy)) ↔
      ∀ i < g.ny, ∀ j < g.nx, (i + 1 < g.ny ∨ j + 1 < g.nx) → f i j = f 0 0 := by
  rw [surfaceArea_eq h]
  have h1 : ((g.nx - 1 : Nat) * sx) * ((g.ny - 1 : Nat) * sy)
      = ∑ _i ∈ range (g.ny - 1), ∑ _j ∈ range (g.nx - 1), sx * sy := by
    rw [sum_const2]; ring
  rw [h1]
  have key : (∑ i ∈ range (g.ny - 1), ∑ j ∈ range (g.nx - 1),
      Real.sqrt ((sy * (f (i + 1) j - f i j)) ^ 2 + (sx * (f i (j + 1) - f i j)) ^ 2 + (sx * sy) ^ 2)
      = ∑ _i ∈ range (g.ny - 1), ∑ _j ∈ range (g.nx - 1), sx * sy) ↔
      ∀ i < g.ny - 1, ∀ j < g.nx - 1, f (i + 1) j = f i j ∧ f i (j + 1) = f i j := by
    constructor
    · intro he i hi j hj
      have e1 := (sum_eq_sum_iff_of_le (fun i _ => sum_le_sum fun j _ =>
        le_sqrt_term sx sy (sy * (f (i + 1) j - f i j)) (sx * (f i (j + 1) - f i j)))).1 he.symm i (mem_range.2 hi)
      have e2 := (sum_eq_sum_iff_of_le (fun j _ =>
        le_sqrt_term sx sy (sy * (f (i + 1) j - f i j)) (sx * (f i (j + 1) - f i j)))).1 e1 j (mem_range.2 hj)
      obtain ⟨ha, hb⟩ := sqrt_term_eq hx hy e2.symm
      exact ⟨by linarith, by linarith⟩
    · intro hz
      apply sum_congr rfl
      intro i hi
      apply sum_congr rfl
      intro j hj
      obtain ⟨ha, hb⟩ := hz i (mem_range.1 hi) j (mem_range.1 hj)
      rw [ha, hb, sub_self, mul_zero, mul_zero]
      rw [show (0 : ℝ) ^ 2 + 0 ^ 2 + (sx * sy) ^ 2 = (sx * sy) ^ 2 by ring, Real.sqrt_sq (by positivity)]
  rw [Except.ok.injEq, key]
  constructor
  · intro hz i hi j hj hc
    by_cases hj' : j < g.nx - 1
    · rw [eq_col (m := g.ny - 1) (j := j) (fun k hk => (hz k hk j hj').1) i (by omega)]
      exact eq_row (n := g.nx - 1) (fun k hk => (hz 0 (by omega) k hk).2) j (by omega)
    · have hi' : i < g.ny - 1 := by omega
      rw [eq_row (n := g.nx - 1) (fun k hk => (hz i hi' k hk).2) j (by omega)]
      exact eq_col (m := g.ny - 1) (j := 0) (fun k hk => (hz k hk 0 (by omega)).1) i (by omega)
  · intro hz i hi j hj
    have a := hz i (by omega) j (by omega) (by omega)
    have b := hz (i + 1) (by omega) j (by omega) (by omega)
    have c := hz i (by omega) (j + 1) (by omega) (by omega)
    exact ⟨by rw [a, b], by rw [a, c]⟩

/-- **C31** is false as stated: the developed area does not depend on the height of the last corner, so a
surface with a spike there is given the area of a flat one. -/
theorem C31_corner_ignored :
    surfaceArea { rows := [[some 0, some 0], [some 0, some 7]], nx := 2 } 1 1 = .ok 1 := by
  have h : HasHeights { rows := [[some 0, some 0], [some 0, some 7]], nx := 2 }
      (fun i j => if i = 1 ∧ j = 1 then 7 else 0) := by
    refine ⟨?_, ?_⟩
    · decide
    · intro i hi j hj
      have hi' : i < 2 := hi
      have hj' : j < 2 := hj
      interval_cases i <;> interval_cases j <;> simp [Grid.get]
  rw [surfaceArea_eq h]
  simp [Grid.ny]

/-- **C31** (sign of Sdr, proved part, and refutation of the other clause). `Sdr` is a number exactly when the
surface has neither 2 rows nor 2 columns; for at least 3 rows and columns it is strictly positive — also for
flat surfaces, so the clause "`Sdr = 0` exactly for flat surfaces" is false for every surface: the projected
area used is that of a field one row and one column smaller. -/
theorem C31_sdr_pos (g : Grid (Option ℝ)) (f : Nat → Nat → ℝ) (h : HasHeights g f) (sx sy : ℝ)
    (hx : 0 < sx) (hy : 0 < sy) (hnx : 3 ≤ g.nx) (hny : 3 ≤ g.ny) :
    ∃ x, sdr g sx sy = .ok (some x) ∧ 0 < x := by
  obtain ⟨a, ha, hle⟩ := C31_area_ge_projected g f h sx sy
  have e1 : ((g.nx - 1 : Nat) : ℝ) = (g.nx : ℝ) - 1 := by rw [Nat.cast_sub (by omega)]; simp
  have e2 : ((g.ny - 1 : Nat) : ℝ) = (g.ny : ℝ) - 1 := by rw [Nat.cast_sub (by omega)]; simp
  rw [e1, e2] at hle
  have c1 : (3 : ℝ) ≤ g.nx := by exact_mod_cast hnx
  have c2 : (3 : ℝ) ≤ g.ny := by exact_mod_cast hny
  have hp : projectedArea (((g.nx : ℝ) - 1) * sx) (((g.ny : ℝ) - 1) * sy) sx sy
      = ((g.nx : ℝ) - 2) * ((g.ny : ℝ) - 2) * (sx * sy) := by unfold projectedArea; ring
  have hpos : 0 < ((g.nx : ℝ) - 2) * ((g.ny : ℝ) - 2) * (sx * sy) := by
    apply mul_pos (mul_pos (by linarith) (by linarith)) (mul_pos hx hy)
  refine ⟨(a / (((g.nx : ℝ) - 2) * ((g.ny : ℝ) - 2) * (sx * sy)) - 1) * 100, ?_, ?_⟩
  · unfold sdr
    rw [ha]
    simp only [Except.map]
    rw [hp, if_neg (ne_of_gt hpos)]
  · have hlt : ((g.nx : ℝ) - 2) * ((g.ny : ℝ) - 2) * (sx * sy) < a := by
      refine lt_of_lt_of_le ?_ hle
      nlinarith [mul_pos hx hy, mul_pos (mul_pos hx hy) (show (0:ℝ) < g.nx + g.ny - 3 by linarith)]
    have : 1 < a / (((g.nx : ℝ) - 2) * ((g.ny : ℝ) - 2) * (sx * sy)) := by
      rw [lt_div_iff₀ hpos]; linarith
    linarith

/-- **C31** (planes, proved part): with equal steps `s` in both directions, the developed area of the plane
`z = c + a·x + b·y` (`x = j·s`, `y = i·s`) is its true area, the projected area times `√(1 + a² + b²)`. -/
theorem C31_plane_partial (g : Grid (Option ℝ)) (a b c s : ℝ) (hs : 0 < s)
    (h : HasHeights g fun i j => c + a * (j * s) + b * (i * s)) :
    surfaceArea g s s = .ok ((((g.nx - 1 : Nat) * s) * ((g.ny - 1 : Nat) * s)) * Real.sqrt (1 + a ^ 2 + b ^ 2)) := by
  rw [surfaceArea_eq h]
  congr 1
  rw [show (((g.nx - 1 : Nat) : ℝ) * s) * ((g.ny - 1 : Nat) * s) * Real.sqrt (1 + a ^ 2 + b ^ 2)
    = (g.ny - 1 : Nat) * (g.nx - 1 : Nat) * (s * s * Real.sqrt (1 + a ^ 2 + b ^ 2)) by ring, ← sum_const2]
  apply sum_congr rfl
  intro i _
  apply sum_congr rfl
  intro j _
  have e : s * s * Real.sqrt (1 + a ^ 2 + b ^ 2) = Real.sqrt ((s * s) ^ 2 * (1 + a ^ 2 + b ^ 2)) := by
    rw [Real.sqrt_mul (by positivity), Real.sqrt_sq (by positivity)]
  rw [e]
  congr 1
  push_cast
  ring

/-- **C31** is false for different step sizes: for the plane `z = x` with `step_x = 1`, `step_y = 2` the
developed area of a cell is reported as `√5` instead of `√8` (the cross products pair each step with the
wrong height difference). -/
theorem C31_plane_wrong_for_unequal_steps :
    ∃ g : Grid (Option ℝ), HasHeights g (fun i j => 0 + 1 * (j * 1) + 0 * (i * 2)) ∧ g.nx = 2 ∧ g.ny = 2 ∧
      surfaceArea g 1 2 = .ok (Real.sqrt 5) ∧
      surfaceArea g 1 2 ≠ .ok ((((g.nx - 1 : Nat) * 1) * ((g.ny - 1 : Nat) * 2)) * Real.sqrt (1 + 1 ^ 2 + 0 ^ 2)) := by
  have h : HasHeights { rows := [[some 0, some 1], [some 0, some 1]], nx := 2 }
      (fun i j => 0 + 1 * (j * 1) + 0 * (i * 2)) := by
    refine ⟨?_, ?_⟩
    · decide
    · intro i hi j hj
      have hi' : i < 2 := hi
      have hj' : j < 2 := hj
      interval_cases i <;> interval_cases j <;> simp [Grid.get]
  have e : surfaceArea { rows := [[some 0, some 1], [some 0, some 1]], nx := 2 } 1 2 = .ok (Real.sqrt 5) := by
    rw [surfaceArea_eq h]
    simp [Grid.ny]
    norm_num
  refine ⟨_, h, rfl, rfl, e, ?_⟩
  rw [e]
  intro hc
  rw [Except.ok.injEq] at hc
  have h5 := Real.sq_sqrt (show (0:ℝ) ≤ 5 by norm_num)
  rw [hc] at h5
  have h2 := Real.sq_sqrt (show (0:ℝ) ≤ 1 + 1 ^ 2 + 0 ^ 2 by norm_num)
  simp [Grid.ny] at h5
  simp at h2
  rw [mul_pow, show (1:ℝ) + 1 = 2 by norm_num, Real.sq_sqrt (by norm_num)] at h5
  norm_num at h5

/-- a 3×3 surface meeting the hypotheses above -/
example : HasHeights { rows := [[some 0, some 1, some 2], [some 1, some 2, some 3], [some 2, some 3, some 4]], nx := 3 }
    (fun i j => 0 + 1 * (j * 1) + 1 * (i * 1)) := by
  refine ⟨?_, ?_⟩
  · decide
  · intro i hi j hj
    have hi' : i < 3 := hi
    have hj' : j < 3 := hj
    interval_cases i <;> interval_cases j <;> simp [Grid.get] <;> norm_num

/-! ## C32 -/

/-- **C32** (offset). -/
theorem C32_offset (g g' : Grid (Option ℝ)) (f : Nat → Nat → ℝ) (c : ℝ) (h : HasHeights g f)
    (h' : HasHeights g' fun i j => f i j + c) (hs : g.SameShape g') (hny : 0 < g.ny) (hnx : 0 < g.nx) (sx sy : ℝ) :
    sdq g' sx sy = sdq g sx sy := by
  rw [sdq_eq h hny hnx, sdq_eq h' (hs.1 ▸ hny) (hs.2 ▸ hnx), hs.1, hs.2]
  simp only [add_sub_add_right_eq_sub]

/-- **C32** (scaling). Multiplying all heights by `c` multiplies `Sdq` by `|c|`. -/
theorem C32_scale (g g' : Grid (Option ℝ)) (f : Nat → Nat → ℝ) (c : ℝ) (h : HasHeights g f)
    (h' : HasHeights g' fun i j => c * f i j) (hs : g.SameShape g') (hny : 0 < g.ny) (hnx : 0 < g.nx) (sx sy x : ℝ)
    (hx : sdq g sx sy = .ok (some x)) : sdq g' sx sy = .ok (some (|c| * x)) := by
  rw [sdq_eq h hny hnx, Except.ok.injEq, Option.some.injEq] at hx
  rw [sdq_eq h' (hs.1 ▸ hny) (hs.2 ▸ hnx), ← hs.1, ← hs.2, ← hx, ← Real.sqrt_sq (abs_nonneg c), sq_abs,
    ← Real.sqrt_mul (sq_nonneg c)]
  congr 3
  rw [← mul_div_assoc, mul_add, mul_sum, mul_sum]
  congr 2 <;>
  · apply sum_congr rfl
    intro i _
    rw [mul_sum]
    apply sum_congr rfl
    intro j _
    ring

/-- **C32** (flatness). `Sdq = 0` exactly for flat surfaces. -/
theorem C32_zero_iff_flat (g : Grid (Option ℝ)) (f : Nat → Nat → ℝ) (h : HasHeights g f) (hny : 0 < g.ny) (hnx : 0 < g.nx)
    (sx sy : ℝ) (hx : 0 < sx) (hy : 0 < sy) :
    sdq g sx sy = .ok (some 0) ↔ Flat g.ny g.nx f := by
  rw [sdq_eq h hny hnx, Except.ok.injEq, Option.some.injEq]
  have n1 : 0 ≤ ∑ i ∈ range g.ny, ∑ j ∈ range (g.nx - 1), ((f i (j + 1) - f i j) / sx) ^ 2 :=
    sum_nonneg fun _ _ => sum_nonneg fun _ _ => sq_nonneg _
  have n2 : 0 ≤ ∑ i ∈ range (g.ny - 1), ∑ j ∈ range g.nx, ((f (i + 1) j - f i j) / sy) ^ 2 :=
    sum_nonneg fun _ _ => sum_nonneg fun _ _ => sq_nonneg _
  have hA : 0 < (g.ny : ℝ) * g.nx := by positivity
  rw [Real.sqrt_eq_zero (by positivity), div_eq_zero_iff, or_iff_left (ne_of_gt hA)]
  constructor
  · intro hz
    have z1 : ∑ i ∈ range g.ny, ∑ j ∈ range (g.nx - 1), ((f i (j + 1) - f i j) / sx) ^ 2 = 0 := by linarith
    have z2 : ∑ i ∈ range (g.ny - 1), ∑ j ∈ range g.nx, ((f (i + 1) j - f i j) / sy) ^ 2 = 0 := by linarith
    have k1 : ∀ i < g.ny, ∀ j < g.nx - 1, f i (j + 1) = f i j := by
      intro i hi j hj
      have := (sum_eq_zero_iff_of_nonneg (fun _ _ => sum_nonneg fun _ _ => sq_nonneg _)).1 z1 i (mem_range.2 hi)
      have := (sum_eq_zero_iff_of_nonneg (fun _ _ => sq_nonneg _)).1 this j (mem_range.2 hj)
      rw [sq_eq_zero_iff, div_eq_zero_iff, or_iff_left (ne_of_gt hx)] at this
      linarith
    have k2 : ∀ i < g.ny - 1, ∀ j < g.nx, f (i + 1) j = f i j := by
      intro i hi j hj
      have := (sum_eq_zero_iff_of_nonneg (fun _ _ => sum_nonneg fun _ _ => sq_nonneg _)).1 z2 i (mem_range.2 hi)
      have := (sum_eq_zero_iff_of_nonneg (fun _ _ => sq_nonneg _)).1 this j (mem_range.2 hj)
      rw [sq_eq_zero_iff, div_eq_zero_iff, or_iff_left (ne_of_gt hy)] at this
      linarith
    intro i hi j hj
    rw [eq_row (n := g.nx - 1) (fun k hk => k1 i hi k hk) j (by omega)]
    exact eq_col (m := g.ny - 1) (j := 0) (fun k hk => k2 k hk 0 hnx) i (by omega)
  · intro hf
    have z1 : ∑ i ∈ range g.ny, ∑ j ∈ range (g.nx - 1), ((f i (j + 1) - f i j) / sx) ^ 2 = 0 := by
      apply sum_eq_zero; intro i hi; apply sum_eq_zero; intro j hj
      rw [mem_range] at hi hj
      rw [hf i hi j (by omega), hf i hi (j + 1) (by omega)]; simp
    have z2 : ∑ i ∈ range (g.ny - 1), ∑ j ∈ range g.nx, ((f (i + 1) j - f i j) / sy) ^ 2 = 0 := by
      apply sum_eq_zero; intro i hi; apply sum_eq_zero; intro j hj
      rw [mem_range] at hi hj
      rw [hf i (by omega) j hj, hf (i + 1) (by omega) j hj]; simp
    rw [z1, z2, add_zero]

/-- **C32** (bound). `Sdq²` is at most the mean squared slope over the existing neighbour pairs in `x` plus
that in `y` (the code divides by the number of points instead of the numbers of pairs); both exist when
the surface has at least two rows and columns. -/
theorem C32_le_rms_slope (g : Grid (Option ℝ)) (f : Nat → Nat → ℝ) (h : HasHeights g f) (hny : 2 ≤ g.ny) (hnx : 2 ≤ g.nx)
    (sx sy x : ℝ) (hx : sdq g sx sy = .ok (some x)) :
    0 ≤ x ∧ x ^ 2 ≤ (∑ i ∈ range g.ny, ∑ j ∈ range (g.nx - 1), ((f i (j + 1) - f i j) / sx) ^ 2) / (g.ny * (g.nx - 1 : Nat))
      + (∑ i ∈ range (g.ny - 1), ∑ j ∈ range g.nx, ((f (i + 1) j - f i j) / sy) ^ 2) / ((g.ny - 1 : Nat) * g.nx) := by
  rw [sdq_eq h (by omega) (by omega), Except.ok.injEq, Option.some.injEq] at hx
  have n1 : 0 ≤ ∑ i ∈ range g.ny, ∑ j ∈ range (g.nx - 1), ((f i (j + 1) - f i j) / sx) ^ 2 :=
    sum_nonneg fun _ _ => sum_nonneg fun _ _ => sq_nonneg _
  have n2 : 0 ≤ ∑ i ∈ range (g.ny - 1), ∑ j ∈ range g.nx, ((f (i + 1) j - f i j) / sy) ^ 2 :=
    sum_nonneg fun _ _ => sum_nonneg fun _ _ => sq_nonneg _
  have p1 : 0 < (g.ny : ℝ) := by exact_mod_cast (by omega : 0 < g.ny)
  have p2 : 0 < (g.nx : ℝ) := by exact_mod_cast (by omega : 0 < g.nx)
  have p3 : 0 < ((g.ny - 1 : Nat) : ℝ) := by exact_mod_cast (by omega : 0 < g.ny - 1)
  have p4 : 0 < ((g.nx - 1 : Nat) : ℝ) := by exact_mod_cast (by omega : 0 < g.nx - 1)
  have q3 : ((g.ny - 1 : Nat) : ℝ) ≤ g.ny := by exact_mod_cast (by omega : g.ny - 1 ≤ g.ny)
  have q4 : ((g.nx - 1 : Nat) : ℝ) ≤ g.nx := by exact_mod_cast (by omega : g.nx - 1 ≤ g.nx)
  rw [← hx]
  refine ⟨Real.sqrt_nonneg _, ?_⟩
  rw [Real.sq_sqrt (by positivity), add_div]
  apply add_le_add
  · exact div_le_div_of_nonneg_left n1 (mul_pos p1 p4) (mul_le_mul_of_nonneg_left q4 p1.le)
  · exact div_le_div_of_nonneg_left n2 (mul_pos p3 p2) (mul_le_mul_of_nonneg_right q3 p2.le)

/-- **C32** (`Rdq`). The root mean square slope of a profile of at least two points is offset invariant, scales
with `|c|`, and vanishes exactly for constant profiles. -/
theorem C32_rdq (v : List ℝ) (hn : 2 ≤ v.length) (s : ℝ) (hs : 0 < s) :
    ∃ x, rdq (v.map some) s = .ok (some x) ∧ 0 ≤ x ∧
      (∀ c, rdq ((v.map fun z => z + c).map some) s = .ok (some x)) ∧
      (∀ c, rdq ((v.map fun z => c * z).map some) s = .ok (some (|c| * x))) ∧
      (x = 0 ↔ ∀ a ∈ v, ∀ b ∈ v, a = b) := by
  have key : ∀ w : List ℝ, 2 ≤ w.length → rdq (w.map some) s = .ok (some (Real.sqrt
      ((∑ i ∈ range (w.length - 1), ((w.getD (i + 1) 0 - w.getD i 0) / s) ^ 2) / ((w.length - 1 : Nat) : ℝ)))) := by
    intro w hw
    unfold rdq noNonmeasured
    rw [if_neg]
    · simp only [List.length_map, if_neg (show ¬ w.length ≤ 1 by omega)]
      congr 4
      apply sum_congr rfl
      intro i hi
      rw [mem_range] at hi
      have e : ∀ k, k < w.length → (((w.map some)[k]?).getD none).getD 0 = w.getD k 0 := by
        intro k hk; simp [hk]
      rw [e _ (by omega), e _ (by omega)]
    · simp [hasMissing, flat]
  have p4 : 0 < ((v.length - 1 : Nat) : ℝ) := by exact_mod_cast (by omega : 0 < v.length - 1)
  have gd : ∀ (F : ℝ → ℝ) k, k < v.length → (v.map F).getD k 0 = F (v.getD k 0) := by
    intro F k hk; simp [hk]
  refine ⟨_, key v hn, Real.sqrt_nonneg _, ?_, ?_, ?_⟩
  · intro c
    rw [key _ (by simpa using hn)]
    simp only [List.length_map]
    congr 4
    apply sum_congr rfl
    intro i hi
    rw [mem_range] at hi
    rw [gd _ _ (by omega), gd _ _ (by omega)]
    ring
  · intro c
    rw [key _ (by simpa using hn)]
    simp only [List.length_map]
    rw [← Real.sqrt_sq (abs_nonneg c), sq_abs, ← Real.sqrt_mul (sq_nonneg c), ← mul_div_assoc, mul_sum]
    congr 4
    apply sum_congr rfl
    intro i hi
    rw [mem_range] at hi
    rw [gd _ _ (by omega), gd _ _ (by omega)]
    ring
  · have n1 : 0 ≤ ∑ i ∈ range (v.length - 1), ((v.getD (i + 1) 0 - v.getD i 0) / s) ^ 2 :=
      sum_nonneg fun _ _ => sq_nonneg _
    rw [Real.sqrt_eq_zero (by positivity), div_eq_zero_iff, or_iff_left (ne_of_gt p4)]
    constructor
    · intro hz
      have step : ∀ i < v.length - 1, v.getD (i + 1) 0 = v.getD i 0 := by
        intro i hi
        have := (sum_eq_zero_iff_of_nonneg (fun _ _ => sq_nonneg _)).1 hz i (mem_range.2 hi)
        rw [sq_eq_zero_iff, div_eq_zero_iff, or_iff_left (ne_of_gt hs)] at this
        linarith
      have all := eq_row (f := fun _ k => v.getD k 0) (i := 0) step
      have al : ∀ a ∈ v, a = v.getD 0 0 := by
        intro a ha
        obtain ⟨k, hk, rfl⟩ := List.mem_iff_getElem.1 ha
        rw [← all k (by omega), getD_of_lt _ hk]
      intro a ha b hb
      rw [al a ha, al b hb]
    · intro hz
      apply sum_eq_zero
      intro i hi
      rw [mem_range] at hi
      rw [getD_of_lt v (show i < v.length by omega), getD_of_lt v (show i + 1 < v.length by omega),
        hz _ (List.getElem_mem (show i + 1 < v.length by omega)) _ (List.getElem_mem (show i < v.length by omega))]
      simp

example : 2 ≤ ([1, 3, 2] : List ℝ).length := by decide

end Surfalize.Props
