import Verif.Model.Period
import Verif.Spec.Period
import Verif.Lemmas.Fourier
/-!
# Lemmas for the period of a profile
-/
set_option linter.unusedSectionVars false
namespace Surfalize.Period
open Surfalize Fourier Finset Spec PeriodSpec

section
variable {K : Type} [LinearOrder K]

theorem ahead_spec (x : Nat → K) {n i : Nat} (hi : i < n - 1) :
    i < ahead x n i ∧ ahead x n i ≤ n - 1 ∧ ∀ j, i < j → j < ahead x n i → x j = x i := by
  unfold ahead
  cases h : (List.range n).find? fun j => decide (i < j) && (decide (j = n - 1) || decide (x j ≠ x i)) with
  | none =>
    rw [List.find?_eq_none] at h
    have := h (n - 1) (by simp; omega)
    simp at this
    omega
  | some j =>
    have h1 := List.find?_some h
    have h2 := List.mem_of_find?_eq_some h
    simp only [Bool.and_eq_true, decide_eq_true_eq] at h1
    rw [List.mem_range] at h2
    refine ⟨h1.1, by simp; omega, ?_⟩
    intro m hm hmj
    simp only [Option.getD_some] at hmj
    rw [List.find?_range_eq_some] at h
    have := h.2.2 m hmj
    simp only [Bool.not_eq_true', Bool.and_eq_false_iff, decide_eq_false_iff_not, Bool.or_eq_false_iff, not_not] at this
    rcases this with h' | h'
    · exact absurd hm h'
    · simpa using h'.2

theorem ahead_eq (x : Nat → K) {n i j : Nat} (h1 : i < j) (h2 : j ≤ n - 1) (hn : 0 < n) (h3 : ∀ m, i < m → m < j → x m = x i)
    (h4 : j = n - 1 ∨ x j ≠ x i) : ahead x n i = j := by
  unfold ahead
  have : ((List.range n).find? fun j => decide (i < j) && (decide (j = n - 1) || decide (x j ≠ x i))) = some j := by
    rw [List.find?_range_eq_some]
    refine ⟨by simp [h1, h4], by simp; omega, ?_⟩
    intro m hm
    simp only [Bool.not_eq_true', Bool.and_eq_false_iff, decide_eq_false_iff_not, Bool.or_eq_false_iff, not_not]
    by_cases him : i < m
    · right; exact ⟨by omega, h3 m him hm⟩
    · left; simpa using him
  rw [this]; rfl

theorem mem_localMaxima {x : Nat → K} {n p : Nat} : p ∈ localMaxima x n ↔ ∃ i, 1 ≤ i ∧ i < n - 1 ∧ x (i - 1) < x i ∧
    x (ahead x n i) < x i ∧ p = (i + (ahead x n i - 1)) / 2 := by
  unfold localMaxima
  rw [List.mem_filterMap]
  constructor
  · rintro ⟨i, -, h⟩
    split at h
    · rename_i hc
      exact ⟨i, hc.1, hc.2.1, hc.2.2.1, hc.2.2.2, (Option.some.inj h).symm⟩
    · cases h
  · rintro ⟨i, h1, h2, h3, h4, rfl⟩
    exact ⟨i, by simp; omega, if_pos ⟨h1, h2, h3, h4⟩⟩

/-- A local maximum is an inner position. -/
theorem localMaxima_bounds {x : Nat → K} {n p : Nat} (h : p ∈ localMaxima x n) : 1 ≤ p ∧ p + 2 ≤ n := by
  obtain ⟨i, h1, h2, -, -, rfl⟩ := mem_localMaxima.1 h
  obtain ⟨a1, a2, -⟩ := ahead_spec x h2
  omega

theorem suppress_length (dist : Nat) (peaks : List Nat) (keep : List Bool) (j : Nat) :
    (suppress dist peaks keep j).length = keep.length := by
  unfold suppress; split <;> simp

theorem fold_length (dist : Nat) (peaks : List Nat) : ∀ (order : List Nat) (keep : List Bool),
    (order.foldl (suppress dist peaks) keep).length = keep.length
  | [], _ => rfl
  | j :: order, keep => by rw [List.foldl_cons, fold_length dist peaks order, suppress_length]

theorem fold_some (dist : Nat) (peaks : List Nat) : ∀ (order : List Nat) (keep : List Bool), true ∈ keep →
    true ∈ order.foldl (suppress dist peaks) keep
  | [], _, h => h
  | j :: order, keep, h => by
    rw [List.foldl_cons]
    apply fold_some dist peaks order
    unfold suppress
    split
    · rename_i hj
      have hlt : j < keep.length := by
        by_contra hc
        rw [List.getD_eq_getElem?_getD, List.getElem?_eq_none (by omega)] at hj
        simp at hj
      have hv : keep[j] = true := by
        rw [List.getD_eq_getElem?_getD, List.getElem?_eq_getElem hlt] at hj
        simpa using hj
      refine List.mem_of_getElem? (i := j) ?_
      rw [List.getElem?_mapIdx, List.getElem?_eq_getElem hlt]
      simp [hv]
    · exact h

/-- Peaks that are too close are not selected together. -/
def Apart (dist : Nat) (peaks : List Nat) (keep : List Bool) (j : Nat) : Prop :=
  keep[j]? = some true → ∀ k, k ≠ j → keep[k]? = some true →
    dist ≤ (peaks.getD k 0 - peaks.getD j 0) + (peaks.getD j 0 - peaks.getD k 0)

theorem suppress_true {dist : Nat} {peaks : List Nat} {keep : List Bool} {j k : Nat}
    (h : (suppress dist peaks keep j)[k]? = some true) : keep[k]? = some true := by
  unfold suppress at h
  split at h
  · rw [List.getElem?_mapIdx] at h
    cases hk : keep[k]? with
    | none => rw [hk] at h; cases h
    | some b =>
      rw [hk] at h
      simp only [Option.map_some, Option.some.injEq, Bool.and_eq_true] at h
      rw [h.1]
  · exact h

theorem fold_apart (dist : Nat) (peaks : List Nat) : ∀ (order : List Nat) (keep : List Bool) (done : Nat → Prop),
    (∀ j, done j → Apart dist peaks keep j) → ∀ j, (done j ∨ j ∈ order) →
    Apart dist peaks (order.foldl (suppress dist peaks) keep) j
  | [], keep, done, h, j, hj => h j (by simpa using hj)
  | i :: order, keep, done, h, j, hj => by
    rw [List.foldl_cons]
    refine fold_apart dist peaks order _ (fun j => done j ∨ j = i) ?_ j (by
      rcases hj with hj | hj
      · exact .inl (.inl hj)
      · rcases List.mem_cons.1 hj with rfl | hj
        · exact .inl (.inr rfl)
        · exact .inr hj)
    rintro m (hm | rfl)
    · intro h1 k hk h2
      exact h m hm (suppress_true h1) k hk (suppress_true h2)
    · intro h1 k hk h2
      have h3 := suppress_true h1
      unfold suppress at h2
      rw [if_pos (by rw [List.getD_eq_getElem?_getD, h3]; rfl), List.getElem?_mapIdx] at h2
      cases hkk : keep[k]? with
      | none => rw [hkk] at h2; cases h2
      | some b =>
        rw [hkk] at h2
        simp only [Option.map_some, Option.some.injEq, Bool.and_eq_true, Bool.or_eq_true, decide_eq_true_eq] at h2
        exact h2.2.resolve_left hk

theorem byDistance_mem {argsort : List K → List Nat} {dist : Nat} {x : Nat → K} {peaks : List Nat} {p : Nat}
    (h : p ∈ byDistance argsort dist x peaks) : p ∈ peaks := by
  unfold byDistance at h
  obtain ⟨⟨q, b⟩, hq, rfl⟩ := List.mem_map.1 h
  exact (List.of_mem_zip (List.mem_filter.1 hq).1).1

theorem byDistance_ne {argsort : List K → List Nat} {dist : Nat} {x : Nat → K} {peaks : List Nat} (h : peaks ≠ []) :
    byDistance argsort dist x peaks ≠ [] := by
  have h1 := fold_some dist peaks (argsort (peaks.map x)).reverse (peaks.map fun _ => true) (by
    cases peaks with
    | nil => exact absurd rfl h
    | cons a l => simp)
  have h2 := fold_length dist peaks (argsort (peaks.map x)).reverse (peaks.map fun _ => true)
  unfold byDistance
  dsimp only
  generalize (argsort (peaks.map x)).reverse.foldl (suppress dist peaks) (peaks.map fun _ => true) = keep at h1 h2 ⊢
  rw [List.length_map] at h2
  obtain ⟨i, hi⟩ := List.mem_iff_getElem?.1 h1
  have hlt : i < keep.length := (List.getElem?_eq_some_iff.1 hi).1
  intro hc
  rw [List.map_eq_nil_iff, List.filter_eq_nil_iff] at hc
  have hz : (peaks.zip keep)[i]? = some (peaks[i], true) := by
    rw [List.getElem?_zip_eq_some]
    exact ⟨List.getElem?_eq_getElem (by omega), hi⟩
  exact hc _ (List.mem_of_getElem? hz) rfl

theorem walkLeft_le (x : Nat → K) (t : K) : ∀ (i : Nat) (m : K), walkLeft x t i m ≤ m
  | 0, m => by unfold walkLeft; split <;> simp
  | i + 1, m => by
    unfold walkLeft
    split
    · exact (walkLeft_le x t i _).trans (min_le_left _ _)
    · exact le_rfl

theorem walkLeft_visit (x : Nat → K) (t : K) {z : Nat} : ∀ (i : Nat) (m : K), z ≤ i → (∀ j, z ≤ j → j ≤ i → x j ≤ t) →
    walkLeft x t i m ≤ x z
  | 0, m, hz, h => by
    obtain rfl : z = 0 := by omega
    unfold walkLeft
    rw [if_pos (h 0 le_rfl le_rfl)]
    exact min_le_right _ _
  | i + 1, m, hz, h => by
    unfold walkLeft
    rw [if_pos (h (i + 1) hz le_rfl)]
    by_cases e : z = i + 1
    · subst e
      exact (walkLeft_le x t i _).trans (min_le_right _ _)
    · exact walkLeft_visit x t i _ (by omega) (fun j h1 h2 => h j h1 (by omega))

theorem le_walkLeft {x : Nat → K} {t b : K} : ∀ (i : Nat) (m : K), b ≤ m → (∀ j, j ≤ i → b ≤ x j) → b ≤ walkLeft x t i m
  | 0, m, hm, h => by
    unfold walkLeft
    split
    · exact le_min hm (h 0 le_rfl)
    · exact hm
  | i + 1, m, hm, h => by
    unfold walkLeft
    split
    · exact le_walkLeft i _ (le_min hm (h _ le_rfl)) (fun j hj => h j (by omega))
    · exact hm

theorem walkRight_le (x : Nat → K) (t : K) : ∀ (r i : Nat) (m : K), walkRight x t r i m ≤ m
  | 0, i, m => le_rfl
  | r + 1, i, m => by
    unfold walkRight
    split
    · exact (walkRight_le x t r _ _).trans (min_le_left _ _)
    · exact le_rfl

theorem walkRight_visit (x : Nat → K) (t : K) {z : Nat} : ∀ (r i : Nat) (m : K), i ≤ z → z < i + r →
    (∀ j, i ≤ j → j ≤ z → x j ≤ t) → walkRight x t r i m ≤ x z
  | 0, i, m, h1, h2, _ => by omega
  | r + 1, i, m, h1, h2, h => by
    unfold walkRight
    rw [if_pos (h i le_rfl h1)]
    by_cases e : z = i
    · subst e
      exact (walkRight_le x t r _ _).trans (min_le_right _ _)
    · exact walkRight_visit x t r (i + 1) _ (by omega) (by omega) (fun j h3 h4 => h j (by omega) h4)

theorem le_walkRight {x : Nat → K} {t b : K} : ∀ (r i : Nat) (m : K), b ≤ m → (∀ j, b ≤ x j) → b ≤ walkRight x t r i m
  | 0, i, m, hm, h => hm
  | r + 1, i, m, hm, h => by
    unfold walkRight
    split
    · exact le_walkRight r _ _ (le_min hm (h _)) h
    · exact hm

end

/-- A prominence of non-negative values is at most the value. -/
theorem prominence_le {x : Nat → ℝ} (h : ∀ j, 0 ≤ x j) (n p : Nat) : prominence x n p ≤ x p := by
  unfold prominence
  have := le_walkLeft (x := x) (t := x p) (b := 0) p (x p) (h p) (fun j _ => h j)
  have := le_max_left (walkLeft x (x p) p (x p)) (walkRight x (x p) (n - p) p (x p))
  linarith

/-- If the values fall to zero on both sides before they rise above the peak, the prominence is the value. -/
theorem prominence_eq {x : Nat → ℝ} (h : ∀ j, 0 ≤ x j) {n p z1 z2 : Nat} (h1 : z1 ≤ p) (h2 : p ≤ z2) (h3 : z2 < n)
    (e1 : x z1 = 0) (e2 : x z2 = 0) (hb : ∀ j, z1 ≤ j → j ≤ z2 → x j ≤ x p) : prominence x n p = x p := by
  unfold prominence
  have a1 := le_walkLeft (x := x) (t := x p) (b := 0) p (x p) (h p) (fun j _ => h j)
  have a2 := walkLeft_visit x (x p) p (x p) h1 (fun j q1 q2 => hb j q1 (by omega))
  have a3 := le_walkRight (x := x) (t := x p) (b := 0) (n - p) p (x p) (h p) h
  have a4 := walkRight_visit x (x p) (n - p) p (x p) h2 (by omega) (fun j q1 q2 => hb j (by omega) q2)
  rw [e1] at a2
  rw [e2] at a4
  rw [le_antisymm a2 a1, le_antisymm a4 a3]
  simp

theorem fft1_E (y : List ℝ) (u : Nat) : fft1 y u = ∑ j ∈ range y.length, (y.getD j 0 : ℂ) * E y.length (-(u : Int)) j := by
  unfold fft1 E
  apply sum_congr rfl; intro j _
  congr 2
  push_cast
  ring

/-- The spectrum of a sinusoid with `k` periods. -/
theorem fft1_sinusoid {y : List ℝ} {k : Nat} {a φ c : ℝ} (h : Sinusoidal y k a φ c) (hk : 0 < k) (hn : 2 * k < y.length)
    {u : Nat} (hu : u < y.length) :
    ‖fft1 y u‖ = if u = 0 then y.length * |c| else if u = k ∨ u = y.length - k then y.length * (|a| / 2) else 0 := by
  have hpos : 0 < y.length := by omega
  have hy : ∀ j < y.length, y.getD j 0 = c + a * Real.cos (2 * Real.pi * ((k : ℝ) * j / y.length) + φ) := by
    intro j hj
    rw [List.getD_eq_getElem?_getD, h j hj]; rfl
  have hsplit : fft1 y u = (c : ℂ) * (∑ j ∈ range y.length, E y.length (-(u : Int)) j)
      + fft2 1 y.length (fun _ j => a * Real.cos (2 * Real.pi * ((k : ℝ) * j / y.length) + φ)) 0 u := by
    rw [fft1_E, fft2_E, sum_range_one, mul_sum, ← sum_add_distrib]
    apply sum_congr rfl; intro j hj
    rw [hy j (mem_range.1 hj)]
    have : E 1 (-((0 : Nat) : Int)) ((0 : Nat) : Int) = 1 := by unfold E; simp
    rw [this]
    push_cast
    ring
  rw [hsplit, sum_E _ hpos, fft2_cos 1 y.length (by norm_num) hpos a φ 0 k _ (by
    intro i hi j hj
    obtain rfl : i = 0 := by omega
    simp) 0 u]
  have d0 : ((y.length : Int) ∣ -(u : Int)) ↔ u = 0 := by
    rw [Int.dvd_neg]
    constructor
    · intro hd
      exact Nat.eq_zero_of_dvd_of_lt (Int.natCast_dvd_natCast.1 hd) hu
    · rintro rfl; simp
  have d1 : ((y.length : Int) ∣ (k : Int) - u) ↔ u = k := by
    constructor
    · rintro ⟨m, hm⟩
      have : m = 0 := by
        by_contra hm0
        rcases lt_or_gt_of_ne hm0 with h1 | h1
        · have : (y.length : Int) * m ≤ -(y.length : Int) := by nlinarith
          omega
        · have : (y.length : Int) ≤ (y.length : Int) * m := by nlinarith
          omega
      subst this; omega
    · rintro rfl; simp
  have d2 : ((y.length : Int) ∣ -(k : Int) - u) ↔ u = y.length - k := by
    constructor
    · rintro ⟨m, hm⟩
      have : m = -1 := by
        by_contra hm0
        rcases lt_or_gt_of_ne hm0 with h1 | h1
        · have : (y.length : Int) * m ≤ -2 * (y.length : Int) := by nlinarith
          omega
        · have : 0 ≤ (y.length : Int) * m := by nlinarith
          omega
      subst this; omega
    · rintro rfl; exact ⟨-1, by omega⟩
  simp only [Nat.cast_one, d0, d1, d2]
  have one : ∀ z : Int, ((1 : Int) ∣ z) = True := fun z => by simp
  simp only [one, true_and]
  have nexp : ‖Complex.exp (φ * Complex.I)‖ = 1 := Complex.norm_exp_ofReal_mul_I φ
  have nexp' : ‖Complex.exp (-(φ * Complex.I))‖ = 1 := by
    rw [← neg_mul, ← Complex.ofReal_neg]
    exact Complex.norm_exp_ofReal_mul_I (-φ)
  by_cases c0 : u = 0
  · subst c0
    rw [if_pos rfl, if_pos rfl, if_neg (by omega), if_neg (by omega)]
    simp [mul_comm]
  · rw [if_neg c0, if_neg c0]
    by_cases c1 : u = k
    · rw [if_pos c1, if_neg (by omega), if_pos (.inl c1)]
      simp [nexp]
      ring
    · by_cases c2 : u = y.length - k
      · rw [if_neg c1, if_pos c2, if_pos (.inr c2)]
        simp [nexp']
        ring
      · rw [if_neg c1, if_neg c2, if_neg (by tauto)]
        simp

/-- A component is at most the sum of the distances from any height. -/
theorem fft1_le (y : List ℝ) (m : ℝ) {u : Nat} (hu : u < y.length) (h0 : u ≠ 0) :
    ‖fft1 y u‖ ≤ (y.map fun z => |z - m|).sum := by
  have hpos : 0 < y.length := by omega
  have hz : ∑ j ∈ range y.length, E y.length (-(u : Int)) j = 0 := by
    rw [sum_E _ hpos, if_neg]
    rw [Int.dvd_neg]
    intro hd
    exact h0 (Nat.eq_zero_of_dvd_of_lt (Int.natCast_dvd_natCast.1 hd) hu)
  have e : fft1 y u = ∑ j ∈ range y.length, ((y.getD j 0 - m : ℝ) : ℂ) * E y.length (-(u : Int)) j := by
    rw [fft1_E]
    simp only [Complex.ofReal_sub, sub_mul, sum_sub_distrib]
    rw [← mul_sum, hz, mul_zero, sub_zero]
  rw [e]
  refine (norm_sum_le _ _).trans (le_of_eq ?_)
  have : ∀ j ∈ range y.length, ‖((y.getD j 0 - m : ℝ) : ℂ) * E y.length (-(u : Int)) j‖ = |y.getD j 0 - m| := by
    intro j _
    have hE : ‖E y.length (-(u : Int)) j‖ = 1 := by
      unfold E
      rw [show (2 * Real.pi * Complex.I * (((-(u : Int) : Int) : ℂ) * ((j : Int) : ℂ) / (y.length : ℂ))) =
        ((2 * Real.pi * (-(u : ℝ) * j / y.length) : ℝ) : ℂ) * Complex.I by push_cast; ring]
      exact Complex.norm_exp_ofReal_mul_I _
    rw [norm_mul, hE, mul_one, Complex.norm_real, Real.norm_eq_abs]
  rw [sum_congr rfl this]
  clear this e hz hu h0 hpos
  induction y with
  | nil => simp
  | cons a y ih =>
    rw [List.length_cons, sum_range_succ', List.map_cons, List.sum_cons]
    simp only [List.getD_cons_succ, List.getD_cons_zero]
    rw [ih, add_comm]

theorem fft1_mirror (y : List ℝ) {u : Nat} (hu : u ≤ y.length) (hpos : 0 < y.length) :
    ‖fft1 y (y.length - u)‖ = ‖fft1 y u‖ := by
  rw [← Complex.norm_conj (fft1 y u), fft1_E, fft1_E]
  congr 1
  rw [map_sum]
  apply sum_congr rfl; intro j _
  rw [map_mul, Complex.conj_ofReal, E_conj]
  congr 1
  have := E_period y.length hpos (u : Int) (-1) j
  rw [neg_neg, ← this]
  congr 1
  push_cast [hu]
  ring

theorem strength_eq {y : List ℝ} {u : Nat} (hu : u < y.length) (h0 : u ≠ 0) : strength y u = ‖fft1 y u‖ := by
  have hpos : 0 < y.length := by omega
  have hz : ∑ j ∈ range y.length, E y.length (u : Int) j = 0 := by
    rw [sum_E _ hpos, if_neg]
    intro hd
    exact h0 (Nat.eq_zero_of_dvd_of_lt (Int.natCast_dvd_natCast.1 hd) hu)
  rw [← Complex.norm_conj (fft1 y u), fft1_E, map_sum]
  unfold strength
  congr 1
  have : ∀ j ∈ range y.length, ((starRingEnd ℂ) ((y.getD j 0 : ℂ) * E y.length (-(u : Int)) j)) = (y.getD j 0 : ℂ) * E y.length u j := by
    intro j _
    rw [map_mul, Complex.conj_ofReal, E_conj, neg_neg]
  rw [sum_congr rfl this]
  simp only [Complex.ofReal_sub, sub_mul, sum_sub_distrib]
  have e : ∀ j : Nat, Complex.exp (2 * Real.pi * Complex.I * ((u : ℂ) * j / y.length)) = E y.length u j := fun j => by
    unfold E; simp
  simp only [e]
  rw [← mul_sum, hz, mul_zero, sub_zero]

section
variable {K : Type} [LinearOrder K]

/-- The first peak in the order of the heights is kept. -/
theorem fold_first {dist : Nat} {peaks : List Nat} {j0 : Nat} : ∀ (order : List Nat) (keep : List Bool),
    keep[j0]? = some true →
    (∀ k, k ≠ j0 → keep[k]? = some true → dist ≤ (peaks.getD k 0 - peaks.getD j0 0) + (peaks.getD j0 0 - peaks.getD k 0)) →
    (order.foldl (suppress dist peaks) keep)[j0]? = some true
  | [], keep, h, _ => h
  | i :: order, keep, h, hf => by
    rw [List.foldl_cons]
    refine fold_first order _ ?_ (fun k hk h' => hf k hk (suppress_true h'))
    unfold suppress
    split
    · rename_i hi
      rw [List.getElem?_mapIdx, h]
      simp only [Option.map_some, Option.some.injEq, Bool.true_and, Bool.or_eq_true, decide_eq_true_eq]
      by_cases e : j0 = i
      · exact .inl e
      · right
        have := hf i (fun q => e q.symm) (by
          rw [List.getD_eq_getElem?_getD] at hi
          cases hk : keep[i]? with
          | none => rw [hk] at hi; cases hi
          | some b => rw [hk] at hi; simpa using hi)
        omega
    · exact h

theorem byDistance_first {argsort : List K → List Nat} {dist : Nat} {x : Nat → K} {peaks : List Nat} {j0 : Nat} {r : List Nat}
    (h : (argsort (peaks.map x)).reverse = j0 :: r) (hj : j0 < peaks.length) :
    peaks.getD j0 0 ∈ byDistance argsort dist x peaks := by
  have h1 : (peaks.map fun _ => true)[j0]? = some true := by
    rw [List.getElem?_map, List.getElem?_eq_getElem hj]; rfl
  have h2 := fold_length dist peaks (argsort (peaks.map x)).reverse (peaks.map fun _ => true)
  have hs : (suppress dist peaks (peaks.map fun _ => true) j0)[j0]? = some true := by
    unfold suppress
    split
    · rw [List.getElem?_mapIdx, h1]; simp
    · exact h1
  have h3 : ((argsort (peaks.map x)).reverse.foldl (suppress dist peaks) (peaks.map fun _ => true))[j0]? = some true := by
    rw [h, List.foldl_cons]
    refine fold_first r _ hs ?_
    intro k hk h'
    unfold suppress at h'
    rw [if_pos (by rw [List.getD_eq_getElem?_getD, h1]; rfl), List.getElem?_mapIdx] at h'
    cases hkk : (peaks.map fun _ => true)[k]? with
    | none => rw [hkk] at h'; cases h'
    | some b =>
      rw [hkk] at h'
      simp only [Option.map_some, Option.some.injEq, Bool.and_eq_true, Bool.or_eq_true, decide_eq_true_eq] at h'
      exact h'.2.resolve_left hk
  unfold byDistance
  dsimp only
  rw [List.mem_map]
  refine ⟨(peaks.getD j0 0, true), List.mem_filter.2 ⟨?_, rfl⟩, rfl⟩
  refine List.mem_of_getElem? (i := j0) ?_
  rw [List.getElem?_zip_eq_some]
  refine ⟨?_, h3⟩
  rw [List.getD_eq_getElem?_getD, List.getElem?_eq_getElem hj]; rfl

end

/-- The first entry of a descending argsort. -/
theorem top_one {argsort : List ℝ → List Nat} (hs : IsArgsort argsort) (l : List ℝ) (hl : l ≠ []) :
    ∃ i0 r, (argsort l).reverse = i0 :: r ∧ i0 < l.length ∧ (∀ k < l.length, l.getD k 0 ≤ l.getD i0 0) := by
  obtain ⟨hp, hw⟩ := hs l
  have hp' : (argsort l).reverse.Perm (List.range l.length) := (List.reverse_perm _).trans hp
  have hw' : (argsort l).reverse.Pairwise fun i j => l.getD j 0 ≤ l.getD i 0 := List.pairwise_reverse.2 hw
  have hlen := hp'.length_eq
  rw [List.length_range] at hlen
  match hr : (argsort l).reverse with
  | [] => rw [hr] at hlen; exact absurd (List.length_eq_zero_iff.1 hlen.symm) hl
  | i0 :: r =>
    rw [hr] at hp' hw'
    refine ⟨i0, r, rfl, List.mem_range.1 (hp'.mem_iff.1 (by simp)), fun k hk => ?_⟩
    have hmem := hp'.mem_iff.2 (List.mem_range.2 hk)
    rcases List.mem_cons.1 hmem with rfl | hm
    · exact le_rfl
    · exact (List.pairwise_cons.1 hw').1 k hm

/-- A prominence is at least the height above two lower values between which nothing is higher. -/
theorem le_prominence {x : Nat → ℝ} {s : ℝ} {n p z1 z2 : Nat} (h1 : z1 ≤ p) (h2 : p ≤ z2) (h3 : z2 < n)
    (e1 : x z1 ≤ s) (e2 : x z2 ≤ s) (hb : ∀ j, z1 ≤ j → j ≤ z2 → x j ≤ x p) : x p - s ≤ prominence x n p := by
  unfold prominence
  have a2 := walkLeft_visit x (x p) p (x p) h1 (fun j q1 q2 => hb j q1 (by omega))
  have a4 := walkRight_visit x (x p) (n - p) p (x p) h2 (by omega) (fun j q1 q2 => hb j (by omega) q2)
  have := max_le (a2.trans e1) (a4.trans e2)
  linarith

/-- What the period is if the search finds exactly a peak and its mirror image. -/
theorem period_of_peak {n k p : Nat} {d : ℝ} (h1 : 1 ≤ k) (h2 : 2 * k < n) (hd : 0 < d) (hp : p = k ∨ p = n - k) :
    1 / |fftfreq n d p| = n * d / k := by
  have hn : (0 : ℝ) < n := by exact_mod_cast (by omega : 0 < n)
  have hk : (0 : ℝ) < k := by exact_mod_cast (by omega : 0 < k)
  have hab : |fftfreq n d p| = k * (1 / (n * d)) := by
    unfold fftfreq
    rw [abs_mul, abs_of_pos (show (0 : ℝ) < 1 / (n * d) by positivity)]
    congr 1
    rcases hp with rfl | rfl
    · rw [if_pos (by omega), abs_of_pos hk]
    · rw [if_neg (by omega), Nat.cast_sub (by omega)]
      rw [show (n : ℝ) - k - n = -k by ring, abs_neg, abs_of_pos hk]
  rw [hab]
  field_simp

end Surfalize.Period
