import Verif.Props.TestSurface
import Verif.Props.Stepheight
import Verif.Props.Areas

/-!
# C115: step height, cavity volume and slopes of the test surfaces
-/
set_option linter.unusedSectionVars false
namespace Surfalize.Props
open Surfalize Container Stepheight Spec

section Step
variable {K : Type} [Field K] [LinearOrder K] [IsStrictOrderedRing K] [FloorRing K]

theorem median_const {l : List K} {v : K} (hne : l ≠ []) (h : ∀ x ∈ l, x = v) : median l = v := by
  refine le_antisymm (median_le hne fun x hx => (h x hx).le) (not_lt.1 fun hc => ?_)
  have h1 := median_gt hne (t := median l) fun x hx => by rw [h x hx]; exact hc
  exact lt_irrefl _ h1

theorem levels_sum {lo hi t : K} (hlt : lo < hi) (ht : t * (hi - lo) < hi - lo) (h0 : 0 ≤ t * (hi - lo)) : ∀ l : List K, (∀ z ∈ l, z = lo ∨ z = hi) →
    ((l.filter fun z => decide (z < hi - t * (hi - lo))).map fun z => hi - z).sum = (l.count lo : K) * (hi - lo) := by
  intro l
  induction l with
  | nil => intro _; simp
  | cons z l ih =>
    intro h
    have ih' := ih fun w hw => h w (List.mem_cons_of_mem _ hw)
    rcases h z List.mem_cons_self with rfl | rfl
    · rw [List.filter_cons_of_pos (by simp only [decide_eq_true_eq]; linarith), List.map_cons, List.sum_cons, ih', List.count_cons_self]
      push_cast; ring
    · rw [List.filter_cons_of_neg (by simp only [decide_eq_true_eq]; linarith), ih', List.count_cons_of_ne (by exact hlt.ne')]

/-- **C115** (step). The step height of a surface of two plateaus is the distance of the plateaus, and its cavity volume
is the number of low points times that distance times the area of a pixel (for every threshold below 1), whatever the
shares of the plateaus and their arrangement. -/
theorem C115_step {g : Grid (Option K)} {lo hi : K} (hlt : lo < hi) (hv : ∀ z ∈ flat g, z = some lo ∨ z = some hi)
    (hlo : some lo ∈ flat g) (hhi : some hi ∈ flat g) :
    stepheight g = some (hi - lo) ∧
    ∀ t dx dy, 0 ≤ t → t < 1 → cavityVolume g t dx dy = ((flat g).count (some lo) : K) * (hi - lo) * dx * dy := by
  have hnone : none ∉ flat g := fun hc => by rcases hv _ hc with h | h <;> simp at h
  have hs : Splittable g := ⟨hnone, lo, hi, hlo, hhi, hlt.ne⟩
  have hlv : ∀ z ∈ measured (flat g), z = lo ∨ z = hi := by
    intro z hz
    simpa using hv (some z) (mem_measured.1 hz)
  obtain ⟨⟨x, hx, hx'⟩, y, hy, hy'⟩ := C34_threshold (nbins := defaultBins) (by decide) (measured (flat g)) ⟨lo, mem_measured.2 hlo, hi, mem_measured.2 hhi, hlt.ne⟩
  have tlo : lo < otsu defaultBins (measured (flat g)) := by
    rcases hlv x hx with rfl | rfl <;> linarith
  have thi : otsu defaultBins (measured (flat g)) < hi := by
    rcases hlv y hy with rfl | rfl <;> linarith
  have hup : median (higher (otsu defaultBins (measured (flat g))) (measured (flat g))) = hi := by
    refine median_const (List.ne_nil_of_mem (a := hi) (List.mem_filter.2 ⟨mem_measured.2 hhi, by simpa using thi⟩)) fun z hz => ?_
    have := List.mem_filter.1 hz
    rcases hlv z this.1 with rfl | rfl
    · have := this.2; simp only [decide_eq_true_eq] at this; linarith
    · rfl
  have hdown : median (lower (otsu defaultBins (measured (flat g))) (measured (flat g))) = lo := by
    refine median_const (List.ne_nil_of_mem (a := lo) (List.mem_filter.2 ⟨mem_measured.2 hlo, by simpa using tlo.le⟩)) fun z hz => ?_
    have := List.mem_filter.1 hz
    rcases hlv z this.1 with rfl | rfl
    · rfl
    · have := this.2; simp only [decide_eq_true_eq] at this; linarith
  have hst : stepheight g = some (hi - lo) := by rw [stepheight_eq hs, hup, hdown]
  refine ⟨hst, fun t dx dy t0 t1 => ?_⟩
  obtain ⟨u, s, hu, hs', -, hc⟩ := C35_value g hs
  rw [hst, Option.some.injEq] at hs'
  rw [medians_eq hs] at hu
  simp only [hup, Option.some.injEq] at hu
  rw [hc, ← hu, ← hs']
  have hd : 0 < hi - lo := by linarith
  rw [levels_sum hlt (by nlinarith) (by positivity) _ hlv]
  congr 3
  have : ∀ l : List (Option K), (measured l).count lo = l.count (some lo) := by
    intro l
    induction l with
    | nil => rfl
    | cons o l ih =>
      cases o with
      | none => rw [List.count_cons_of_ne (by simp), ← ih]; rfl
      | some z =>
        have e : measured (some z :: l) = z :: measured l := rfl
        rw [e]
        by_cases h : z = lo
        · subst h; rw [List.count_cons_self, List.count_cons_self, ih]
        · rw [List.count_cons_of_ne (by simpa using h), List.count_cons_of_ne (by simpa using h), ih]
  exact_mod_cast this _

/-- A groove one pixel wide and 2 deep. -/
example : stepheight (⟨[[some 5, some 3, some 5]], 3⟩ : Grid (Option ℚ)) = some 2 ∧
    cavityVolume (⟨[[some 5, some 3, some 5]], 3⟩ : Grid (Option ℚ)) (1 / 2) (1 / 2) 3 = 3 := by
  obtain ⟨h1, h2⟩ := C115_step (g := ⟨[[some 5, some 3, some 5]], 3⟩) (lo := (3 : ℚ)) (hi := 5) (by norm_num) (by simp [flat])
    (by simp [flat]) (by simp [flat])
  refine ⟨by rw [h1]; norm_num, ?_⟩
  rw [h2 _ _ _ (by norm_num) (by norm_num), show (flat (⟨[[some 5, some 3, some 5]], 3⟩ : Grid (Option ℚ))).count (some 3) = 1 by decide +kernel]
  norm_num

end Step

section Slope
open Areas Finset TestSurface

theorem plane_heights (ny nx : Nat) (c a b : ℝ) : HasHeights (plane ny nx c a b) fun i j => c + a * i + b * j := by
  refine ⟨ofFn_wf _ _ _, fun i hi j hj => ?_⟩
  have hi' : i < ny := by rw [plane, ofFn_ny] at hi; exact hi
  have hj' : j < nx := hj
  rw [plane, get_ofFn _ hi' hj']

/-- **C115** (slope of a plane, what the code computes): the squares of the two slopes enter with the weights
`(n-1)/n`, because the sum over the `n-1` differences is divided by the number `n` of points. -/
theorem C115_plane_slope_partial {ny nx : Nat} (hy : 0 < ny) (hx : 0 < nx) (c a b sx sy : ℝ) :
    sdq (plane ny nx c a b) sx sy = .ok (some (Real.sqrt ((b / sx) ^ 2 * ((nx - 1) / nx) + (a / sy) ^ 2 * ((ny - 1) / ny)))) := by
  have e1 : (plane ny nx c a b).ny = ny := ofFn_ny _ _ _
  have e2 : (plane ny nx c a b).nx = nx := rfl
  have hy' : (0 : ℝ) < ny := by exact_mod_cast hy
  have hx' : (0 : ℝ) < nx := by exact_mod_cast hx
  rw [sdq_eq (plane_heights ny nx c a b) (by rw [e1]; exact hy) (by rw [e2]; exact hx), e1, e2]
  have d1 : ∀ i j : Nat, ((c + a * (i : ℝ) + b * ((j + 1 : Nat) : ℝ) - (c + a * i + b * j)) / sx) ^ 2 = (b / sx) ^ 2 := by
    intro i j; congr 2; push_cast; ring
  have d2 : ∀ i j : Nat, ((c + a * ((i + 1 : Nat) : ℝ) + b * (j : ℝ) - (c + a * i + b * j)) / sy) ^ 2 = (a / sy) ^ 2 := by
    intro i j; congr 2; push_cast; ring
  simp only [d1, d2, sum_const, card_range, nsmul_eq_mul, Nat.cast_sub (show 1 ≤ nx from hx), Nat.cast_sub (show 1 ≤ ny from hy), Nat.cast_one]
  congr 3
  field_simp

/-- **C115 is false of the code for `Sdq`**: the root mean square gradient of an inclined plane is its slope, but the code
reports less, on every inclined plane. -/
theorem C115_plane_slope_violated {ny nx : Nat} (hy : 0 < ny) (hx : 0 < nx) (c a b : ℝ) {sx sy : ℝ} (hsx : 0 < sx) (hsy : 0 < sy)
    (hab : a ≠ 0 ∨ b ≠ 0) :
    ∃ s, sdq (plane ny nx c a b) sx sy = .ok (some s) ∧ s < Real.sqrt ((b / sx) ^ 2 + (a / sy) ^ 2) := by
  refine ⟨_, C115_plane_slope_partial hy hx c a b sx sy, Real.sqrt_lt_sqrt ?_ ?_⟩
  · have : (1 : ℝ) ≤ nx := by exact_mod_cast hx
    have : (1 : ℝ) ≤ ny := by exact_mod_cast hy
    have : 0 ≤ ((nx : ℝ) - 1) / nx := div_nonneg (by linarith) (by linarith)
    have : 0 ≤ ((ny : ℝ) - 1) / ny := div_nonneg (by linarith) (by linarith)
    positivity
  · have hx' : (0 : ℝ) < nx := by exact_mod_cast hx
    have hy' : (0 : ℝ) < ny := by exact_mod_cast hy
    have w1 : ((nx : ℝ) - 1) / nx < 1 := by rw [div_lt_one hx']; linarith
    have w2 : ((ny : ℝ) - 1) / ny < 1 := by rw [div_lt_one hy']; linarith
    rcases hab with h | h
    · have : 0 < (a / sy) ^ 2 := by positivity
      have := sq_nonneg (b / sx)
      nlinarith
    · have : 0 < (b / sx) ^ 2 := by positivity
      have := sq_nonneg (a / sy)
      nlinarith

example : sdq (plane 2 2 0 0 3) 1 1 = .ok (some (Real.sqrt (9 / 2))) := by
  rw [C115_plane_slope_partial (by norm_num) (by norm_num)]; norm_num

/-- **C115** (slope of a straight profile). `Rdq` is exactly the slope. -/
theorem C115_profile_slope {n : Nat} (hn : 2 ≤ n) (c b : ℝ) {s : ℝ} (hs : 0 < s) :
    rdq ((List.range n).map fun j : Nat => some (c + b * j)) s = .ok (some (|b| / s)) := by
  unfold rdq BaseOps.noNonmeasured
  rw [if_neg (by simp [BaseOps.hasMissing, flat])]
  simp only [List.length_map, List.length_range, if_neg (show ¬ n ≤ 1 by omega)]
  have e : ∀ i ∈ range (n - 1), ((((((List.range n).map fun j : Nat => some (c + b * (j : ℝ)))[i + 1]?).getD none).getD 0
      - ((((List.range n).map fun j : Nat => some (c + b * (j : ℝ)))[i]?).getD none).getD 0) / s) ^ 2 = (b / s) ^ 2 := by
    intro i hi
    rw [mem_range] at hi
    rw [List.getElem?_map, List.getElem?_map, List.getElem?_range (by omega), List.getElem?_range (by omega)]
    simp only [Option.map_some, Option.getD_some]
    congr 2
    push_cast
    ring
  have hp : (0 : ℝ) < ((n - 1 : Nat) : ℝ) := by exact_mod_cast (by omega : 0 < n - 1)
  rw [sum_congr rfl e, sum_const, card_range, nsmul_eq_mul, mul_comm, mul_div_assoc, div_self hp.ne', mul_one, Real.sqrt_sq_eq_abs,
    abs_div, abs_of_pos hs]

example : rdq ((List.range 4).map fun j : Nat => some (1 + (-3) * (j : ℝ))) 2 = .ok (some (3 / 2)) := by
  rw [C115_profile_slope (by norm_num) _ _ (by norm_num)]; norm_num

end Slope
end Surfalize.Props
