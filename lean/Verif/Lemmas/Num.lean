import Verif.Prelude.Num
import Mathlib.Tactic.Ring
import Mathlib.Tactic.Linarith
import Mathlib.Tactic.FieldSimp
import Mathlib.Tactic.Positivity
import Mathlib.Algebra.Order.BigOperators.Group.List
import Mathlib.Algebra.BigOperators.Ring.List
import Mathlib.Data.List.MinMax

/-! Helper lemmas about the numpy primitives. -/
set_option linter.unusedSectionVars false
namespace Surfalize
section Measured
variable {α β : Type}

theorem getD_of_lt (l : List α) {i : Nat} (h : i < l.length) (d : α) : l.getD i d = l[i] := by
  simp [List.getD, h]

theorem measured_map_bind (f : α → Option β) (l : List (Option α)) :
    measured (l.map fun z => z.bind f) = (measured l).filterMap f := by
  simp [measured, List.filterMap_filterMap, List.filterMap_map]

theorem measured_map_map (f : α → β) (l : List (Option α)) :
    measured (l.map (Option.map f)) = (measured l).map f := by
  induction l with
  | nil => rfl
  | cons a l ih => cases a <;> simpa [measured] using ih

theorem mem_measured {l : List (Option α)} {a : α} : a ∈ measured l ↔ some a ∈ l := by
  simp [measured]

theorem measured_some (l : List α) : measured (l.map some) = l := by
  induction l with
  | nil => rfl
  | cons a l ih => simp [measured]

theorem eq_map_some_of_no_none (l : List (Option α)) (h : none ∉ l) :
    l = (measured l).map some := by
  induction l with
  | nil => rfl
  | cons a l ih =>
    cases a with
    | none => simp at h
    | some a =>
      simp only [measured, List.filterMap_cons, id, List.map_cons] at ih ⊢
      rw [← ih (by simp at h; exact h)]

end Measured

section Field
variable {K : Type} [Field K] [LinearOrder K] [IsStrictOrderedRing K]

theorem mean_mul_length {l : List K} (h : l ≠ []) : mean l * (l.length : K) = l.sum := by
  have : (l.length : K) ≠ 0 := by
    have : l.length ≠ 0 := by simpa using h
    exact_mod_cast this
  unfold mean; field_simp

omit [LinearOrder K] [IsStrictOrderedRing K] in
theorem sum_map_sub_const (l : List K) (c : K) :
    (l.map fun x => x - c).sum = l.sum - (l.length : K) * c := by
  induction l with
  | nil => simp
  | cons a l ih => simp only [List.map_cons, List.sum_cons, ih, List.length_cons]; push_cast; ring

omit [LinearOrder K] [IsStrictOrderedRing K] in
theorem sum_map_add_const (l : List K) (c : K) :
    (l.map fun x => x + c).sum = l.sum + (l.length : K) * c := by
  induction l with
  | nil => simp
  | cons a l ih => simp only [List.map_cons, List.sum_cons, ih, List.length_cons]; push_cast; ring

omit [LinearOrder K] [IsStrictOrderedRing K] in
theorem sum_map_mul_const (l : List K) (c : K) : (l.map fun x => c * x).sum = c * l.sum := by
  induction l with
  | nil => simp
  | cons a l ih => simp only [List.map_cons, List.sum_cons, ih]; ring

omit [LinearOrder K] [IsStrictOrderedRing K] in
theorem mean_map_const_mul (l : List K) (c : K) : mean (l.map fun x => c * x) = c * mean l := by
  unfold mean; rw [sum_map_mul_const, List.length_map, mul_div_assoc]

theorem mean_map_add_const {l : List K} (h : l ≠ []) (c : K) :
    mean (l.map fun x => x + c) = mean l + c := by
  have h0 : (l.length : K) ≠ 0 := by
    have : l.length ≠ 0 := by simpa using h
    exact_mod_cast this
  unfold mean; rw [sum_map_add_const, List.length_map]; field_simp

theorem mean_map_sub_const {l : List K} (h : l ≠ []) (c : K) :
    mean (l.map fun x => x - c) = mean l - c := by
  have := mean_map_add_const h (-c)
  simpa [sub_eq_add_neg] using this

theorem mean_centered {l : List K} (h : l ≠ []) : mean (l.map fun x => x - mean l) = 0 := by
  rw [mean_map_sub_const h]; ring

theorem length_pos_cast {l : List K} (h : l ≠ []) : (0 : K) < (l.length : K) := by
  have : 0 < l.length := by
    rcases l with _ | _ <;> simp at h ⊢
  exact_mod_cast this

/-! ### min / max -/

theorem min?_spec {l : List K} {m : K} : l.min? = some m ↔ m ∈ l ∧ ∀ x ∈ l, m ≤ x := by
  rw [List.min?_eq_some_iff]

theorem max?_spec {l : List K} {m : K} : l.max? = some m ↔ m ∈ l ∧ ∀ x ∈ l, x ≤ m := by
  rw [List.max?_eq_some_iff]

theorem exists_min? {l : List K} (h : l ≠ []) : ∃ m, l.min? = some m := by
  cases hm : l.min? with
  | none => simp at hm; exact absurd hm h
  | some m => exact ⟨m, rfl⟩

theorem exists_max? {l : List K} (h : l ≠ []) : ∃ m, l.max? = some m := by
  cases hm : l.max? with
  | none => simp at hm; exact absurd hm h
  | some m => exact ⟨m, rfl⟩

theorem min?_map_add {l : List K} {m : K} (h : l.min? = some m) (c : K) :
    (l.map fun x => x + c).min? = some (m + c) := by
  rw [min?_spec] at h ⊢
  refine ⟨List.mem_map.2 ⟨m, h.1, rfl⟩, ?_⟩
  intro x hx
  obtain ⟨y, hy, rfl⟩ := List.mem_map.1 hx
  have := h.2 y hy; linarith

theorem max?_map_add {l : List K} {m : K} (h : l.max? = some m) (c : K) :
    (l.map fun x => x + c).max? = some (m + c) := by
  rw [max?_spec] at h ⊢
  refine ⟨List.mem_map.2 ⟨m, h.1, rfl⟩, ?_⟩
  intro x hx
  obtain ⟨y, hy, rfl⟩ := List.mem_map.1 hx
  have := h.2 y hy; linarith

theorem min?_perm {l l' : List K} (h : l.Perm l') : l.min? = l'.min? := by
  cases hm : l.min? with
  | none => simp at hm; subst hm; rw [List.nil_perm.1 h]; rfl
  | some m =>
    symm; rw [min?_spec] at hm ⊢
    exact ⟨h.mem_iff.1 hm.1, fun x hx => hm.2 x (h.mem_iff.2 hx)⟩

theorem max?_perm {l l' : List K} (h : l.Perm l') : l.max? = l'.max? := by
  cases hm : l.max? with
  | none => simp at hm; subst hm; rw [List.nil_perm.1 h]; rfl
  | some m =>
    symm; rw [max?_spec] at hm ⊢
    exact ⟨h.mem_iff.1 hm.1, fun x hx => hm.2 x (h.mem_iff.2 hx)⟩

/-! ### argmin -/

theorem argmin_lt {l : List K} (h : l ≠ []) : argmin l < l.length := by
  obtain ⟨m, hm⟩ := exists_min? h
  simp only [argmin, hm]
  exact List.idxOf_lt_length_of_mem (min?_spec.1 hm).1

theorem argmin_le {l : List K} {i j : Nat} (hi : argmin l = i) (hil : i < l.length) (hjl : j < l.length) :
    l[i] ≤ l[j] := by
  have h : l ≠ [] := by rintro rfl; simp at hil
  obtain ⟨m, hm⟩ := exists_min? h
  simp only [argmin, hm] at hi
  subst hi
  rw [List.getElem_idxOf]
  exact (min?_spec.1 hm).2 _ (List.getElem_mem hjl)

theorem argmin_lt_of_lt {l : List K} {j : Nat} (hj : j < argmin l) (hil : argmin l < l.length) :
    l[argmin l] < l[j]'(hj.trans hil) := by
  have h : l ≠ [] := by rintro rfl; simp at hil
  refine lt_of_le_of_ne (argmin_le rfl hil _) ?_
  intro heq
  obtain ⟨m, hm⟩ := exists_min? h
  have hidx : argmin l = l.idxOf m := by simp only [argmin, hm]
  have hval : l[argmin l] = m := by
    have : l.idxOf m < l.length := by rw [← hidx]; exact hil
    have h2 := List.getElem_idxOf this
    simp only [hidx]; exact h2
  have hjm : l[j]'(hj.trans hil) = m := by rw [← heq, hval]
  rw [hidx] at hj
  have := List.not_of_lt_findIdx (xs := l) (p := (· == m)) (by simpa [List.idxOf] using hj)
  simp [hjm] at this

theorem argclosest_lt {x : K} {l : List K} (h : l ≠ []) : argclosest x l < l.length := by
  have := argmin_lt (l := l.map fun t => |t - x|) (by simpa using h)
  simpa [argclosest] using this

theorem argclosest_le {x : K} {l : List K} {j : Nat} (hi : argclosest x l < l.length) (hj : j < l.length) :
    |l[argclosest x l] - x| ≤ |l[j] - x| := by
  have := argmin_le (l := l.map fun t => |t - x|) rfl (by simpa [argclosest] using hi)
    (j := j) (by simpa using hj)
  simpa [argclosest] using this

theorem argclosest_first {x : K} {l : List K} {j : Nat} (hi : argclosest x l < l.length)
    (hj : j < argclosest x l) : |l[argclosest x l] - x| < |l[j]'(hj.trans hi) - x| := by
  have := argmin_lt_of_lt (l := l.map fun t => |t - x|) (j := j) (by simpa [argclosest] using hj)
    (by simpa [argclosest] using hi)
  simpa [argclosest] using this

theorem abs_sub_lt_iff_mid {a p q : K} (h : p < q) : |q - a| < |p - a| ↔ p + q < 2 * a := by
  constructor
  · intro hlt
    rcases abs_cases (q - a) with ⟨h1, _⟩ | ⟨h1, _⟩ <;> rcases abs_cases (p - a) with ⟨h2, _⟩ | ⟨h2, _⟩ <;>
      rw [h1, h2] at hlt <;> linarith
  · intro hlt
    rcases abs_cases (q - a) with ⟨h1, _⟩ | ⟨h1, _⟩ <;> rcases abs_cases (p - a) with ⟨h2, _⟩ | ⟨h2, _⟩ <;>
      rw [h1, h2] <;> linarith

/-- On a strictly increasing grid the nearest index grows with the target. -/
theorem argclosest_mono {l : List K} (hs : l.Pairwise (· < ·)) (hne : l ≠ []) {a b : K} (hab : a ≤ b) :
    argclosest a l ≤ argclosest b l := by
  by_contra hcon
  push Not at hcon
  have hi := argclosest_lt (x := a) hne
  have hj := argclosest_lt (x := b) hne
  have hlt : l[argclosest b l] < l[argclosest a l] := List.pairwise_iff_getElem.1 hs _ _ hj hi hcon
  have h1 := argclosest_first hi hcon
  have h2 := argclosest_le hj hi
  rw [abs_sub_lt_iff_mid hlt] at h1
  have h3 : ¬ |l[argclosest a l] - b| < |l[argclosest b l] - b| := not_lt.2 h2
  rw [abs_sub_lt_iff_mid hlt] at h3
  linarith

/-! ### sorting -/

theorem sortAsc_perm (l : List K) : (sortAsc l).Perm l := List.perm_insertionSort _ l

theorem sortAsc_sorted (l : List K) : (sortAsc l).Pairwise (· ≤ ·) := by
  have := List.pairwise_insertionSort (r := ((· ≤ ·) : K → K → Prop)) l
  exact this

theorem sortAsc_length (l : List K) : (sortAsc l).length = l.length := (sortAsc_perm l).length_eq

theorem sortDesc_perm (l : List K) : (sortDesc l).Perm l := (List.reverse_perm _).trans (sortAsc_perm l)

theorem sortDesc_length (l : List K) : (sortDesc l).length = l.length := (sortDesc_perm l).length_eq

theorem sortDesc_sorted (l : List K) : (sortDesc l).Pairwise (· ≥ ·) := by
  unfold sortDesc; rw [List.pairwise_reverse]; exact sortAsc_sorted l

theorem sortAsc_eq_of_perm {l l' : List K} (h : l.Perm l') : sortAsc l = sortAsc l' := by
  refine List.Perm.eq_of_pairwise (le := ((· ≤ ·) : K → K → Prop)) ?_ (sortAsc_sorted l) (sortAsc_sorted l') ?_
  · intro a b _ _ h1 h2; exact le_antisymm h1 h2
  · exact (sortAsc_perm l).trans (h.trans (sortAsc_perm l').symm)

theorem countP_gt_sorted {l : List K} (hs : l.Pairwise (· ≥ ·)) {i : Nat} (hi : i < l.length) :
    l.countP (fun z => decide (z > l[i])) ≤ i := by
  have hsplit : l.countP (fun z => decide (z > l[i]))
      = (l.take i).countP (fun z => decide (z > l[i])) + (l.drop i).countP (fun z => decide (z > l[i])) := by
    rw [← List.countP_append, List.take_append_drop]
  have h2 : (l.drop i).countP (fun z => decide (z > l[i])) = 0 := by
    rw [List.countP_eq_zero]
    intro a ha
    obtain ⟨k, hk, rfl⟩ := List.getElem_of_mem ha
    rw [List.length_drop] at hk
    rw [List.getElem_drop]
    simp only [gt_iff_lt, decide_eq_true_eq, not_lt]
    rcases Nat.eq_zero_or_pos k with rfl | hk0
    · simp
    · exact List.pairwise_iff_getElem.1 hs i (i + k) hi (by omega) (by omega)
  have h1 : (l.take i).countP (fun z => decide (z > l[i])) ≤ i :=
    le_trans List.countP_le_length (by simp)
  omega

theorem countP_lt_sorted {l : List K} (hs : l.Pairwise (· ≥ ·)) {i : Nat} (hi : i < l.length) :
    l.countP (fun z => decide (z < l[i])) ≤ l.length - 1 - i := by
  have hsplit : l.countP (fun z => decide (z < l[i]))
      = (l.take (i+1)).countP (fun z => decide (z < l[i])) + (l.drop (i+1)).countP (fun z => decide (z < l[i])) := by
    rw [← List.countP_append, List.take_append_drop]
  have h2 : (l.take (i+1)).countP (fun z => decide (z < l[i])) = 0 := by
    rw [List.countP_eq_zero]
    intro a ha
    obtain ⟨k, hk, rfl⟩ := List.getElem_of_mem ha
    rw [List.length_take] at hk
    rw [List.getElem_take]
    simp only [decide_eq_true_eq, not_lt]
    rcases Nat.lt_or_ge k i with hk0 | hk0
    · exact List.pairwise_iff_getElem.1 hs k i (by omega) hi hk0
    · have : k = i := by omega
      subst this; exact le_refl _
  have h1 : (l.drop (i+1)).countP (fun z => decide (z < l[i])) ≤ l.length - 1 - i :=
    le_trans List.countP_le_length (by simp; omega)
  omega

/-- With distinct entries the counts are exact. -/
theorem countP_gt_sorted_strict {l : List K} (hs : l.Pairwise (· > ·)) {i : Nat} (hi : i < l.length) :
    l.countP (fun z => decide (z > l[i])) = i := by
  apply le_antisymm (countP_gt_sorted (hs.imp fun h => h.le) hi)
  have hsplit : l.countP (fun z => decide (z > l[i]))
      = (l.take i).countP (fun z => decide (z > l[i])) + (l.drop i).countP (fun z => decide (z > l[i])) := by
    rw [← List.countP_append, List.take_append_drop]
  have : (l.take i).countP (fun z => decide (z > l[i])) = (l.take i).length := by
    rw [List.countP_eq_length]
    intro a ha
    obtain ⟨k, hk, rfl⟩ := List.getElem_of_mem ha
    rw [List.length_take] at hk
    rw [List.getElem_take]
    simp only [decide_eq_true_eq]
    exact List.pairwise_iff_getElem.1 hs k i (by omega) hi (by omega)
  rw [List.length_take] at this
  omega

theorem countP_lt_sorted_strict {l : List K} (hs : l.Pairwise (· > ·)) {i : Nat} (hi : i < l.length) :
    l.countP (fun z => decide (z < l[i])) = l.length - 1 - i := by
  apply le_antisymm (countP_lt_sorted (hs.imp fun h => h.le) hi)
  have hsplit : l.countP (fun z => decide (z < l[i]))
      = (l.take (i+1)).countP (fun z => decide (z < l[i])) + (l.drop (i+1)).countP (fun z => decide (z < l[i])) := by
    rw [← List.countP_append, List.take_append_drop]
  have : (l.drop (i+1)).countP (fun z => decide (z < l[i])) = (l.drop (i+1)).length := by
    rw [List.countP_eq_length]
    intro a ha
    obtain ⟨k, hk, rfl⟩ := List.getElem_of_mem ha
    rw [List.length_drop] at hk
    rw [List.getElem_drop]
    simp only [decide_eq_true_eq]
    exact List.pairwise_iff_getElem.1 hs i (i+1+k) hi (by omega) (by omega)
  rw [List.length_drop] at this
  omega

end Field
end Surfalize
