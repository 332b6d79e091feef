import Verif.Model.Stepheight
import Verif.Spec.Stepheight
import Verif.Lemmas.Num
import Verif.Lemmas.HeightParams
import Verif.Lemmas.Detrend
import Verif.Lemmas.BaseOps
import Mathlib.Tactic.Positivity

/-! Helper lemmas for Otsu's threshold and the step height. -/
set_option linter.unusedSectionVars false
namespace Surfalize.Stepheight
open Surfalize Container Spec

variable {K : Type} [Field K] [LinearOrder K] [IsStrictOrderedRing K] [FloorRing K]

theorem centers_length (n : Nat) (a b : K) : (centers n a b).length = n := by simp [centers]
theorem counts_length (n : Nat) (a b : K) (l : List K) : (counts n a b l).length = n := by simp [counts]

theorem centers_getD {n k : Nat} (hk : k < n) (a b : K) :
    (centers n a b).getD k 0 = a + ((k : K) + 1 / 2) * ((b - a) / n) := by
  rw [getD_of_lt _ (by simpa [centers] using hk)]
  simp only [centers, List.getElem_map, List.getElem_range]
  ring

theorem center_between {n k : Nat} (hk : k < n) {a b : K} (hab : a < b) :
    a < (centers n a b).getD k 0 ∧ (centers n a b).getD k 0 < b := by
  have hn : (0 : K) < n := by exact_mod_cast (by omega : 0 < n)
  have hk' : (k : K) + 1 ≤ n := by exact_mod_cast hk
  rw [centers_getD hk]
  have hd : 0 < (b - a) / n := div_pos (by linarith) hn
  have hk0 : (0 : K) ≤ k := Nat.cast_nonneg k
  constructor
  · nlinarith
  · have h1 : (n : K) * ((b - a) / n) = b - a := by field_simp
    nlinarith

theorem argmax_lt {l : List K} (h : l ≠ []) : argmax l < l.length := by
  obtain ⟨m, hm⟩ := exists_max? h
  unfold argmax
  rw [hm]
  exact List.idxOf_lt_length_of_mem (max?_spec.1 hm).1

theorem argmax_ge {l : List K} (h : l ≠ []) {j : Nat} (hj : j < l.length) : l[j] ≤ l[argmax l]'(argmax_lt h) := by
  obtain ⟨m, hm⟩ := exists_max? h
  have h1 := (max?_spec.1 hm).2 _ (List.getElem_mem hj)
  have h2 : l[argmax l]'(argmax_lt h) = m := by
    have : argmax l = l.idxOf m := by unfold argmax; rw [hm]
    simp only [this, List.getElem_idxOf]
  rw [h2]; exact h1

theorem nonconst_min_max {l : List K} (h : ∃ x ∈ l, ∃ y ∈ l, x ≠ y) :
    ∃ mn mx, l.min? = some mn ∧ l.max? = some mx ∧ mn < mx ∧ mn ∈ l ∧ mx ∈ l ∧ ∀ x ∈ l, mn ≤ x ∧ x ≤ mx := by
  obtain ⟨x, hx, y, hy, hxy⟩ := h
  have hne : l ≠ [] := List.ne_nil_of_mem hx
  obtain ⟨mn, h1⟩ := exists_min? hne
  obtain ⟨mx, h2⟩ := exists_max? hne
  have s1 := min?_spec.1 h1
  have s2 := max?_spec.1 h2
  refine ⟨mn, mx, h1, h2, ?_, s1.1, s2.1, fun z hz => ⟨s1.2 z hz, s2.2 z hz⟩⟩
  rcases lt_or_gt_of_ne hxy with h | h
  · exact lt_of_le_of_lt (s1.2 x hx) (lt_of_lt_of_le h (s2.2 y hy))
  · exact lt_of_le_of_lt (s1.2 y hy) (lt_of_lt_of_le h (s2.2 x hx))

/-- the index chosen by Otsu's method -/
def otsuIdx (n : Nat) (mn mx : K) (l : List K) : Nat :=
  argmax ((List.range (n - 1)).map (variance12 (counts n mn mx l) (centers n mn mx)))

theorem otsuIdx_lt {n : Nat} (hn : 2 ≤ n) (mn mx : K) (l : List K) : otsuIdx n mn mx l < n - 1 := by
  have := argmax_lt (l := (List.range (n - 1)).map (variance12 (counts n mn mx l) (centers n mn mx))) (by
    simp; omega)
  unfold otsuIdx
  simpa using this

theorem otsu_eq {n : Nat} {l : List K} {mn mx : K} (h1 : l.min? = some mn) (h2 : l.max? = some mx) (hlt : mn < mx) :
    otsu n l = (centers n mn mx).getD (otsuIdx n mn mx l) 0 := by
  unfold otsu otsuIdx
  rw [h1, h2]
  simp only
  rw [if_neg (ne_of_lt hlt)]

theorem otsu_between {n : Nat} (hn : 2 ≤ n) {l : List K} {mn mx : K} (h1 : l.min? = some mn) (h2 : l.max? = some mx)
    (hlt : mn < mx) : mn < otsu n l ∧ otsu n l < mx := by
  rw [otsu_eq h1 h2 hlt]
  have := otsuIdx_lt hn mn mx l
  exact center_between (by omega) hlt

/-- constant data: the threshold is below the data -/
theorem otsu_const {n : Nat} (hn : 2 ≤ n) {l : List K} {m : K} (h1 : l.min? = some m) (h2 : l.max? = some m) :
    otsu n l < m := by
  unfold otsu
  rw [h1, h2]
  simp only [if_true]
  rw [centers_getD (by omega)]
  have hn' : (2 : K) ≤ n := by exact_mod_cast hn
  have hpos : (0 : K) < n := by linarith
  have e : m + 1 / 2 - (m - 1 / 2) = 1 := by ring
  rw [e]
  have : (((0 : Nat) : K) + 1 / 2) * (1 / n) ≤ 1 / 4 := by
    rw [Nat.cast_zero, zero_add, div_mul_div_comm, one_mul, div_le_div_iff₀ (by positivity) (by norm_num)]
    linarith
  linarith

/-! ### medians -/

theorem median_gt {l : List K} (hne : l ≠ []) {t : K} (h : ∀ x ∈ l, t < x) : t < median l := by
  have hlen := sortAsc_length l
  have hpos := List.length_pos_of_ne_nil hne
  have hm : ∀ i (hi : i < (sortAsc l).length), t < (sortAsc l)[i] := fun i hi =>
    h _ ((sortAsc_perm l).mem_iff.1 (List.getElem_mem hi))
  unfold median
  simp only
  split
  · rw [getD_of_lt _ (by omega)]; exact hm _ _
  · rw [getD_of_lt _ (by omega), getD_of_lt _ (by omega)]
    linarith [hm (l.length / 2 - 1) (by omega), hm (l.length / 2) (by omega)]

theorem median_le {l : List K} (hne : l ≠ []) {t : K} (h : ∀ x ∈ l, x ≤ t) : median l ≤ t := by
  have hlen := sortAsc_length l
  have hpos := List.length_pos_of_ne_nil hne
  have hm : ∀ i (hi : i < (sortAsc l).length), (sortAsc l)[i] ≤ t := fun i hi =>
    h _ ((sortAsc_perm l).mem_iff.1 (List.getElem_mem hi))
  unfold median
  simp only
  split
  · rw [getD_of_lt _ (by omega)]; exact hm _ _
  · rw [getD_of_lt _ (by omega), getD_of_lt _ (by omega)]
    linarith [hm (l.length / 2 - 1) (by omega), hm (l.length / 2) (by omega)]

/-! ### the mask -/

/-- the code's class swap never happens -/
theorem maskFn_eq (n : Nat) (hs : List (Option K)) : maskFn n hs = above (otsu n (measured hs)) := by
  unfold maskFn
  simp only
  set t := otsu n (measured hs)
  rw [if_neg]
  intro hc
  unfold gtO at hc
  split at hc
  · rename_i a b ha hb
    simp only [decide_eq_true_eq] at hc
    unfold statO at ha hb
    split at ha
    · cases ha
    split at hb
    · cases hb
    rename_i h1 h2
    rw [Option.some.injEq] at ha hb
    push Not at h1 h2
    have ma : mean (measured (hs.filter fun z => ! above t z)) ≤ t := by
      apply HeightParams.mean_le (HeightParams.measured_ne_nil h1.1 h1.2)
      intro z hz
      rw [mem_measured, List.mem_filter] at hz
      simpa [above] using hz.2
    have mb : t ≤ mean (measured (hs.filter fun z => above t z)) := by
      apply HeightParams.le_mean (HeightParams.measured_ne_nil h2.1 h2.2)
      intro z hz
      rw [mem_measured, List.mem_filter] at hz
      have : t < z := by simpa [above] using hz.2
      exact this.le
    rw [ha] at ma
    rw [hb] at mb
    linarith
  · cases hc

theorem ownMask_upper (hs : List (Option K)) :
    ((ownMask hs).filter fun p => p.2).map (fun p => p.1) = hs.filter fun z => above (otsu defaultBins (measured hs)) z := by
  unfold ownMask
  rw [maskFn_eq, List.filter_map, List.map_map]
  simp only [Function.comp_def, List.map_id']

theorem ownMask_lower (hs : List (Option K)) :
    ((ownMask hs).filter fun p => ! p.2).map (fun p => p.1) = hs.filter fun z => ! above (otsu defaultBins (measured hs)) z := by
  unfold ownMask
  rw [maskFn_eq, List.filter_map, List.map_map]
  simp only [Function.comp_def, List.map_id']

theorem ownMask_fst (hs : List (Option K)) : (ownMask hs).map (fun p => p.1) = hs := by
  unfold ownMask
  rw [List.map_map]
  simp [Function.comp_def]

theorem stepheight_some {g : Grid (Option K)} {s : K} (h : stepheight g = some s) :
    ∃ u l, (upperLowerMedian (ownMask (flat g))).1 = some u ∧ (upperLowerMedian (ownMask (flat g))).2 = some l ∧
      s = u - l ∧ l ≤ otsu defaultBins (measured (flat g)) ∧ otsu defaultBins (measured (flat g)) < u ∧
      none ∉ flat g ∧ ∃ x ∈ measured (flat g), ∃ y ∈ measured (flat g), x ≠ y := by
  unfold stepheight stepheightWith osub at h
  cases hu : (upperLowerMedian (ownMask (flat g))).1 with
  | none => simp [hu] at h
  | some u =>
    cases hl : (upperLowerMedian (ownMask (flat g))).2 with
    | none => simp [hu, hl] at h
    | some l =>
      simp only [hu, hl, Option.bind_some, Option.map_some, Option.some.injEq] at h
      refine ⟨u, l, rfl, rfl, h.symm, ?_⟩
      unfold upperLowerMedian at hu hl
      simp only [ownMask_upper, ownMask_lower] at hu hl
      set t := otsu defaultBins (measured (flat g)) with ht
      unfold statO at hu hl
      split at hu
      · cases hu
      split at hl
      · cases hl
      rename_i h1 h2
      push Not at h1 h2
      rw [Option.some.injEq] at hu hl
      have hnone : none ∉ flat g := by
        intro hc
        exact h2.1 (List.mem_filter.2 ⟨hc, by simp [above]⟩)
      have l1 : ∀ z ∈ measured ((flat g).filter fun z => ! above t z), z ≤ t := by
        intro z hz
        rw [mem_measured, List.mem_filter] at hz
        simpa [above] using hz.2
      have u1 : ∀ z ∈ measured ((flat g).filter fun z => above t z), t < z := by
        intro z hz
        rw [mem_measured, List.mem_filter] at hz
        simpa [above] using hz.2
      have nu := HeightParams.measured_ne_nil h1.1 h1.2
      have nl := HeightParams.measured_ne_nil h2.1 h2.2
      refine ⟨hl ▸ median_le nl l1, hu ▸ median_gt nu u1, hnone, ?_⟩
      obtain ⟨a, ha⟩ := List.exists_mem_of_ne_nil _ nu
      obtain ⟨b, hb⟩ := List.exists_mem_of_ne_nil _ nl
      have a2 := u1 a ha
      have b2 := l1 b hb
      rw [mem_measured, List.mem_filter] at ha hb
      exact ⟨a, mem_measured.2 ha.1, b, mem_measured.2 hb.1, by intro e; rw [e] at a2; linarith⟩

/-! ### histogram sums are sums over the points -/

theorem count_sum (l : List K) (b : K → Nat) (f : Nat → K) (ks : List Nat) (hk : ks.Nodup) :
    (ks.map fun k => ((l.countP fun v => decide (b v = k) : Nat) : K) * f k).sum
      = ((l.filter fun v => decide (b v ∈ ks)).map fun v => f (b v)).sum := by
  induction l with
  | nil => simp
  | cons v l ih =>
    have e : ∀ ks : List Nat, ks.Nodup → (ks.map fun k => (if b v = k then f k else 0)).sum = if b v ∈ ks then f (b v) else 0 := by
      intro ks
      induction ks with
      | nil => simp
      | cons k ks ih2 =>
        intro hn
        rw [List.nodup_cons] at hn
        rw [List.map_cons, List.sum_cons, ih2 hn.2]
        by_cases h : b v = k
        · have : b v ∉ ks := h ▸ hn.1
          simp [h, hn.1]
        · simp [h]
    have split : (ks.map fun k => (((v :: l).countP fun v => decide (b v = k) : Nat) : K) * f k).sum
        = (ks.map fun k => ((l.countP fun v => decide (b v = k) : Nat) : K) * f k).sum
          + (ks.map fun k => (if b v = k then f k else 0)).sum := by
      rw [← List.sum_map_add]
      congr 1
      apply List.map_congr_left
      intro k _
      by_cases h : b v = k
      · rw [List.countP_cons_of_pos (by simp [h])]
        simp only [h, if_true]
        push_cast
        ring
      · rw [List.countP_cons_of_neg (by simp [h])]
        simp [h]
    rw [split, ih, e ks hk]
    by_cases h : b v ∈ ks
    · rw [List.filter_cons_of_pos (by simpa using h)]
      simp only [h, if_true, List.map_cons, List.sum_cons]
      ring
    · rw [List.filter_cons_of_neg (by simpa using h)]
      simp [h]

theorem binOf_lt {n : Nat} (hn : 0 < n) (mn mx v : K) : binOf n mn mx v < n := by unfold binOf; omega

theorem variance12_eq {n : Nat} (hn : 0 < n) (mn mx : K) (l : List K) {i : Nat} (hi : i + 1 ≤ n) :
    variance12 (counts n mn mx l) (centers n mn mx) i
      = betweenVariance l (fun v => (centers n mn mx).getD (binOf n mn mx v) 0) (fun v => decide (binOf n mn mx v ≤ i)) := by
  have nd1 : ((List.range n).take (i + 1)).Nodup := (List.nodup_range (n := n)).sublist (List.take_sublist _ _)
  have nd2 : ((List.range n).drop (i + 1)).Nodup := (List.nodup_range (n := n)).sublist (List.drop_sublist _ _)
  have m1 : ∀ k, k < n → (k ∈ (List.range n).take (i + 1) ↔ k ≤ i) := by
    intro k hk
    rw [List.take_range, List.mem_range]
    omega
  have m2 : ∀ k, k < n → (k ∈ (List.range n).drop (i + 1) ↔ ¬ k ≤ i) := by
    intro k hk
    have h1 : k ∈ (List.range n).take (i + 1) ++ (List.range n).drop (i + 1) := by
      rw [List.take_append_drop]; exact List.mem_range.2 hk
    have nd : ((List.range n).take (i + 1) ++ (List.range n).drop (i + 1)).Nodup := by
      rw [List.take_append_drop]; exact List.nodup_range
    rw [List.nodup_append] at nd
    rw [← m1 k hk]
    constructor
    · intro h h'
      exact nd.2.2 k h' k h rfl
    · intro h
      rcases List.mem_append.1 h1 with h2 | h2
      · exact absurd h2 h
      · exact h2
  have f1 : (l.filter fun v => decide (binOf n mn mx v ∈ (List.range n).take (i + 1)))
      = l.filter fun v => decide (binOf n mn mx v ≤ i) := by
    apply List.filter_congr
    intro v _
    have := m1 _ (binOf_lt hn mn mx v)
    simp only [this]
  have f2 : (l.filter fun v => decide (binOf n mn mx v ∈ (List.range n).drop (i + 1)))
      = l.filter fun v => ! decide (binOf n mn mx v ≤ i) := by
    apply List.filter_congr
    intro v _
    have := m2 _ (binOf_lt hn mn mx v)
    simp only [this, decide_not]
  have hp : List.zipWith (fun c m => c * m) (counts n mn mx l) (centers n mn mx)
      = (List.range n).map fun k => ((l.countP fun v => decide (binOf n mn mx v = k) : Nat) : K) * (centers n mn mx).getD k 0 := by
    apply List.ext_getElem (by simp [counts, centers])
    intro k h1 h2
    have hk : k < n := by simpa using h2
    simp only [List.getElem_zipWith, List.getElem_map, List.getElem_range]
    rw [getD_of_lt _ (by simpa [centers_length] using hk)]
    simp [counts]
  have c1 := count_sum l (binOf n mn mx) (fun _ => 1) _ nd1
  have c2 := count_sum l (binOf n mn mx) (fun _ => 1) _ nd2
  have c3 := count_sum l (binOf n mn mx) (fun k => (centers n mn mx).getD k 0) _ nd1
  have c4 := count_sum l (binOf n mn mx) (fun k => (centers n mn mx).getD k 0) _ nd2
  rw [f1] at c1 c3
  rw [f2] at c2 c4
  simp only [mul_one, List.map_const', List.sum_replicate, nsmul_eq_mul] at c1 c2
  unfold variance12 betweenVariance
  simp only
  rw [hp, ← List.map_take, ← List.map_drop, c3, c4]
  unfold counts
  rw [← List.map_take, ← List.map_drop, c1, c2]

/-! ### affine change of heights -/

theorem min?_affine {l : List K} {m : K} (h : l.min? = some m) {a : K} (ha : 0 < a) (b : K) :
    (l.map fun x => a * x + b).min? = some (a * m + b) := by
  have hs := min?_spec.1 h
  refine min?_spec.2 ⟨List.mem_map.2 ⟨m, hs.1, rfl⟩, ?_⟩
  intro x hx
  obtain ⟨y, hy, rfl⟩ := List.mem_map.1 hx
  nlinarith [hs.2 y hy]

theorem max?_affine {l : List K} {m : K} (h : l.max? = some m) {a : K} (ha : 0 < a) (b : K) :
    (l.map fun x => a * x + b).max? = some (a * m + b) := by
  have hs := max?_spec.1 h
  refine max?_spec.2 ⟨List.mem_map.2 ⟨m, hs.1, rfl⟩, ?_⟩
  intro x hx
  obtain ⟨y, hy, rfl⟩ := List.mem_map.1 hx
  nlinarith [hs.2 y hy]

theorem argmax_scale (l : List K) {a : K} (ha : 0 < a) : argmax (l.map fun x => a * x) = argmax l := by
  by_cases hl : l = []
  · subst hl; rfl
  obtain ⟨m, hm⟩ := exists_max? hl
  have h2 := max?_affine hm ha 0
  simp only [add_zero] at h2
  unfold argmax
  rw [hm, h2]
  simp only
  clear hm h2 hl
  induction l with
  | nil => rfl
  | cons x l ih =>
    rw [List.map_cons, List.idxOf_cons, List.idxOf_cons]
    by_cases hx : x = m
    · simp [hx]
    · have : a * x ≠ a * m := fun h => hx (mul_left_cancel₀ (ne_of_gt ha) h)
      simp only [cond_eq_ite, beq_iff_eq, hx, this, if_false, ih]

theorem betweenVariance_affine (l : List K) (rep rep' : K → K) (low low' : K → Bool) (a b : K)
    (hrep : ∀ v ∈ l, rep' (a * v + b) = a * rep v + b) (hlow : ∀ v ∈ l, low' (a * v + b) = low v) :
    betweenVariance (l.map fun x => a * x + b) rep' low' = a ^ 2 * betweenVariance l rep low := by
  have e1 : (l.map fun x => a * x + b).filter low' = (l.filter low).map fun x => a * x + b := by
    rw [List.filter_map]
    congr 1
    apply List.filter_congr
    intro v hv
    exact hlow v hv
  have e2 : (l.map fun x => a * x + b).filter (fun v => ! low' v) = (l.filter fun v => ! low v).map fun x => a * x + b := by
    rw [List.filter_map]
    congr 1
    apply List.filter_congr
    intro v hv
    simp only [Function.comp_apply, hlow v hv]
  have sums : ∀ s : List K, (∀ v ∈ s, v ∈ l) → (s.map fun v => rep' (a * v + b)).sum = a * (s.map rep).sum + s.length * b := by
    intro s hs
    induction s with
    | nil => simp
    | cons v s ih =>
      rw [List.map_cons, List.sum_cons, ih (fun x hx => hs x (by simp [hx])), hrep v (hs v (by simp))]
      simp only [List.map_cons, List.sum_cons, List.length_cons]
      push_cast
      ring
  unfold betweenVariance
  simp only [e1, e2, List.length_map, List.map_map]
  have s1 := sums (l.filter low) (fun v hv => (List.mem_filter.1 hv).1)
  have s2 := sums (l.filter fun v => ! low v) (fun v hv => (List.mem_filter.1 hv).1)
  simp only [Function.comp_def]
  rw [s1, s2]
  by_cases h1 : ((l.filter low).length : K) = 0
  · rw [h1]; ring
  by_cases h2 : ((l.filter fun v => ! low v).length : K) = 0
  · rw [h2]; ring
  field_simp
  ring

theorem binOf_affine (n : Nat) {mn mx : K} (h : mn < mx) {a : K} (ha : 0 < a) (b v : K) :
    binOf n (a * mn + b) (a * mx + b) (a * v + b) = binOf n mn mx v := by
  unfold binOf
  have e : (a * v + b - (a * mn + b)) * n / (a * mx + b - (a * mn + b)) = (v - mn) * n / (mx - mn) := by
    have h1 : mx - mn ≠ 0 := by linarith
    have h2 : a * mx + b - (a * mn + b) ≠ 0 := by
      have : a * mx + b - (a * mn + b) = a * (mx - mn) := by ring
      rw [this]; exact mul_ne_zero (ne_of_gt ha) h1
    field_simp
    ring
  rw [e]

theorem centers_affine {n k : Nat} (hk : k < n) (mn mx a b : K) :
    (centers n (a * mn + b) (a * mx + b)).getD k 0 = a * (centers n mn mx).getD k 0 + b := by
  rw [centers_getD hk, centers_getD hk]
  ring

theorem otsu_affine {n : Nat} (hn : 2 ≤ n) {l : List K} (hl : ∃ x ∈ l, ∃ y ∈ l, x ≠ y) {a : K} (ha : 0 < a) (b : K) :
    otsu n (l.map fun x => a * x + b) = a * otsu n l + b := by
  obtain ⟨mn, mx, h1, h2, hlt, _, _, _⟩ := nonconst_min_max hl
  rw [otsu_eq h1 h2 hlt, otsu_eq (min?_affine h1 ha b) (max?_affine h2 ha b) (by nlinarith)]
  have hi : otsuIdx n (a * mn + b) (a * mx + b) (l.map fun x => a * x + b) = otsuIdx n mn mx l := by
    unfold otsuIdx
    symm
    rw [← argmax_scale (a := a ^ 2) _ (by positivity), List.map_map]
    congr 1
    apply List.map_congr_left
    intro i hi
    have hi' : i + 1 ≤ n := by rw [List.mem_range] at hi; omega
    simp only [Function.comp_apply]
    rw [variance12_eq (K := K) (n := n) (by omega) _ _ _ hi', variance12_eq (K := K) (n := n) (by omega) _ _ _ hi']
    symm
    refine betweenVariance_affine (K := K) _ _ _ _ _ _ _ ?_ ?_
    · intro v _
      rw [binOf_affine n hlt ha, centers_affine (binOf_lt (by omega) _ _ _)]
    · intro v _
      rw [binOf_affine n hlt ha]
  rw [hi]
  have := otsuIdx_lt hn mn mx l
  exact centers_affine (by omega) _ _ _ _

theorem otsu_perm {n : Nat} {l l' : List K} (h : l.Perm l') : otsu n l = otsu n l' := by
  unfold otsu
  rw [min?_perm h, max?_perm h]
  have : ∀ mn mx : K, (counts n mn mx l : List K) = counts n mn mx l' := by
    intro mn mx
    unfold counts
    apply List.map_congr_left
    intro k _
    rw [h.countP_eq]
  simp only [this]

end Surfalize.Stepheight
