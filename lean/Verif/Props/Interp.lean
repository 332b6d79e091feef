import Verif.Lemmas.Interp
import Mathlib.Tactic.NormNum

/-!
# C46, C47 — linear interpolation, nearest search, extremal positions
-/
set_option linter.unusedSectionVars false
namespace Surfalize.Props
open Surfalize Interp Spec

variable {K : Type} [Field K] [LinearOrder K] [IsStrictOrderedRing K]

/-- The assumption on `np.argsort` is satisfiable. -/
theorem C46_sort_exists : IsSort (stableSort : PtSort K) := stableSort_isSort

/-- **C46** (samples). The interpolation passes through every sample point. -/
theorem C46_samples {sort : PtSort K} (h : IsSort sort) (pts : List (K × K)) (hd : DistinctX pts) {p : K × K}
    (hp : p ∈ pts) : interp1d sort false pts p.1 = .ok p.2 := by
  unfold interp1d
  rw [if_neg (List.ne_nil_of_mem hp)]
  congr 1
  exact npInterp_sample (sort_strict h hd) ((h pts).1.mem_iff.2 hp)

/-- **C46** (linear). Between two neighbouring samples the graph is the straight line through them. -/
theorem C46_linear {sort : PtSort K} (h : IsSort sort) (pts : List (K × K)) (hd : DistinctX pts) {p q : K × K}
    (hn : Neighbours pts p q) {t : K} (h0 : 0 ≤ t) (h1 : t ≤ 1) :
    interp1d sort false pts (p.1 + t * (q.1 - p.1)) = .ok (p.2 + t * (q.2 - p.2)) := by
  unfold interp1d
  rw [if_neg (List.ne_nil_of_mem hn.1)]
  congr 1
  have hs := sort_strict h hd
  have hp := (h pts).1
  have hn' : Neighbours (sort pts) p q :=
    ⟨hp.mem_iff.2 hn.1, hp.mem_iff.2 hn.2.1, hn.2.2.1, fun r hr => hn.2.2.2 r (hp.mem_iff.1 hr)⟩
  obtain ⟨i, hi, rfl, rfl⟩ := neighbours_consecutive hs hn'
  have hlt := hn'.2.2.1
  have e : 0 < (sort pts)[i + 1].1 - (sort pts)[i].1 := by linarith
  simp only [Bool.false_eq_true, if_false]
  rw [npInterp_between hs hi (by nlinarith) (by nlinarith)]
  field_simp
  ring

/-- **C46** (outside). Left of all samples the value of the leftmost, right of all samples that of the rightmost. -/
theorem C46_outside {sort : PtSort K} (h : IsSort sort) (pts : List (K × K)) (hd : DistinctX pts) {p : K × K}
    (hp : p ∈ pts) (x : K) :
    ((∀ q ∈ pts, p.1 ≤ q.1) → x ≤ p.1 → interp1d sort false pts x = .ok p.2) ∧
    ((∀ q ∈ pts, q.1 ≤ p.1) → p.1 ≤ x → interp1d sort false pts x = .ok p.2) := by
  have hs := sort_strict h hd
  have hpm := (h pts).1
  unfold interp1d
  rw [if_neg (List.ne_nil_of_mem hp)]
  simp only [Bool.false_eq_true, if_false]
  constructor
  · intro hmin hx
    congr 1
    cases hl : sort pts with
    | nil => exact absurd hl (sort_ne_nil h (List.ne_nil_of_mem hp))
    | cons a l =>
      have ha : a ∈ pts := hpm.mem_iff.1 (by rw [hl]; simp)
      have hpl : p ∈ a :: l := by rw [← hl]; exact hpm.mem_iff.2 hp
      rw [hl] at hs
      have : p = a := by
        rcases List.mem_cons.1 hpl with e | e
        · exact e
        · exact absurd ((List.pairwise_cons.1 hs).1 p e) (not_lt.2 (hmin a ha))
      subst this
      exact npInterp_left hs hx
  · intro hmax hx
    congr 1
    have hne := sort_ne_nil h (List.ne_nil_of_mem hp)
    obtain ⟨m, hm⟩ : ∃ m, (sort pts).getLast? = some m := ⟨_, List.getLast?_eq_some_getLast hne⟩
    have hmm : m ∈ sort pts := List.mem_of_getLast? hm
    have e : m = p := by
      obtain ⟨i, hi, hi'⟩ := List.mem_iff_getElem.1 (hpm.mem_iff.2 hp)
      rw [List.getLast?_eq_getElem?] at hm
      have hlt : (sort pts).length - 1 < (sort pts).length := by omega
      rw [List.getElem?_eq_getElem hlt, Option.some.injEq] at hm
      rcases lt_or_eq_of_le (show i ≤ (sort pts).length - 1 by omega) with h1 | h1
      · have := List.pairwise_iff_getElem.1 hs _ _ hi hlt h1
        rw [hi', hm] at this
        exact absurd this (not_lt.2 (hmax m (hpm.mem_iff.1 hmm)))
      · rw [← hm, ← hi']; simp [h1]
    rw [npInterp_right hm fun q hq => le_trans (hmax q (hpm.mem_iff.1 hq)) hx, e]

/-- **C46** (range). Interpolated values stay within any bounds of the sampled values (also with repeated abscissae
and on unsorted input with `assume_sorted`). -/
theorem C46_range {sort : PtSort K} (h : IsSort sort) (assumeSorted : Bool) (pts : List (K × K)) (hne : pts ≠ []) {lo hi : K}
    (hb : ∀ p ∈ pts, lo ≤ p.2 ∧ p.2 ≤ hi) (x : K) :
    ∃ y, interp1d sort assumeSorted pts x = .ok y ∧ lo ≤ y ∧ y ≤ hi := by
  unfold interp1d
  rw [if_neg hne]
  refine ⟨_, rfl, ?_⟩
  cases assumeSorted with
  | true => exact npInterp_bounds hne hb x
  | false => exact npInterp_bounds (sort_ne_nil h hne) (fun p hp => hb p ((h pts).1.mem_iff.1 hp)) x

/-- **C46** (monotone). If larger abscissae carry larger (smaller) values, the interpolation is non-decreasing
(non-increasing). -/
theorem C46_monotone {sort : PtSort K} (h : IsSort sort) (pts : List (K × K)) (hd : DistinctX pts) {x y vx vy : K}
    (hxy : x ≤ y) (hx : interp1d sort false pts x = .ok vx) (hy : interp1d sort false pts y = .ok vy) :
    ((∀ p ∈ pts, ∀ q ∈ pts, p.1 < q.1 → p.2 ≤ q.2) → vx ≤ vy) ∧
    ((∀ p ∈ pts, ∀ q ∈ pts, p.1 < q.1 → q.2 ≤ p.2) → vy ≤ vx) := by
  have hs := sort_strict h hd
  have hpm := (h pts).1
  unfold interp1d at hx hy
  split at hx
  · cases hx
  rw [if_neg ‹_›] at hy
  simp only [Bool.false_eq_true, if_false, Except.ok.injEq] at hx hy
  subst hx hy
  constructor
  · intro hm
    refine npInterp_monotone hs ?_ hxy
    exact hs.imp_of_mem fun ha hb hab => hm _ (hpm.mem_iff.1 ha) _ (hpm.mem_iff.1 hb) hab
  · intro hm
    refine npInterp_antitone hs ?_ hxy
    exact hs.imp_of_mem fun ha hb hab => hm _ (hpm.mem_iff.1 ha) _ (hpm.mem_iff.1 hb) hab

/-- **C46** (order). The order in which samples with distinct abscissae are given — and how the sorting is done —
does not matter; samples already in order may be passed with `assume_sorted`. -/
theorem C46_order {sort sort' : PtSort K} (h : IsSort sort) (h' : IsSort sort') (pts pts' : List (K × K)) (hd : DistinctX pts)
    (hp : pts.Perm pts') (x : K) :
    interp1d sort false pts x = interp1d sort' false pts' x ∧
    ((pts.Pairwise fun p q => p.1 ≤ q.1) → interp1d sort true pts x = interp1d sort false pts x) := by
  have hd' : DistinctX pts' := ((hp.map _).nodup_iff).1 hd
  have e1 : sort pts = sort' pts' :=
    sort_unique ((h pts).1.trans (hp.trans (h' pts').1.symm)) (sort_strict h hd) (sort_strict h' hd')
  constructor
  · unfold interp1d
    by_cases hn : pts = []
    · subst hn; rw [List.nil_perm.1 hp]; rfl
    · have hn' : pts' ≠ [] := fun hc => hn (by rw [hc] at hp; exact List.perm_nil.1 hp)
      rw [if_neg hn, if_neg hn', e1]
      rfl
  · intro hs
    have : sort pts = pts := sort_unique (h pts).1 (sort_strict h hd) (strict_of_distinct hs hd)
    unfold interp1d
    rw [this]
    simp

/-- With repeated abscissae the order does matter: the two samples at 1 swapped, the value just right of 1 (here at
`3/2`) changes, for the stable sort. -/
theorem C46_ties_order_matters :
    interp1d stableSort false [((1 : ℚ), 0), (1, 10), (2, 10)] (3 / 2) = .ok 10 ∧
    interp1d stableSort false [((1 : ℚ), 10), (1, 0), (2, 10)] (3 / 2) = .ok 5 := by
  constructor <;> decide +kernel

/-- **C46** (nearest). `argclosest` returns the first index whose value has the least distance to the target, and
`closest` the value there. -/
theorem C46_argclosest (x : K) (l : List K) (hne : l ≠ []) :
    ∃ (i : Nat) (hi : i < l.length), argclosest x l = i ∧ closest x l = .ok l[i] ∧
      (∀ (j : Nat) (hj : j < l.length), |l[i] - x| ≤ |l[j] - x|) ∧
      ∀ (j : Nat) (hj : j < i), |l[i] - x| < |l[j] - x| := by
  have hi := argclosest_lt (x := x) hne
  refine ⟨_, hi, rfl, ?_, fun j hj => argclosest_le hi hj, fun j hj => argclosest_first hi hj⟩
  unfold closest
  rw [if_neg hne, getD_of_lt _ hi]

/-- Non-vacuity. -/
example : DistinctX [((2 : ℚ), 5), (0, 1), (1, 3)] ∧ Neighbours [((2 : ℚ), 5), (0, 1), (1, 3)] (0, 1) (1, 3) := by
  refine ⟨by unfold DistinctX; decide +kernel, by decide +kernel, by decide +kernel, by norm_num, ?_⟩
  decide +kernel

/-! ### C47 -/

/-- **C47**. On data without NaN, `argmax_all` lists in increasing order exactly the positions of the maximum — at
least one — and `argmin_all` those of the minimum. An empty array raises. -/
theorem C47_positions_partial (l : List (Option K)) (h : none ∉ l) (hne : l ≠ []) :
    (∃ is, argmaxAll l = .ok is ∧ is.Pairwise (· < ·) ∧ is ≠ [] ∧
      ∀ i, i ∈ is ↔ ∃ m, l[i]? = some (some m) ∧ ∀ z, some z ∈ l → z ≤ m) ∧
    (∃ is, argminAll l = .ok is ∧ is.Pairwise (· < ·) ∧ is ≠ [] ∧
      ∀ i, i ∈ is ↔ ∃ m, l[i]? = some (some m) ∧ ∀ z, some z ∈ l → m ≤ z) := by
  have hm : measured l ≠ [] := by
    rw [eq_map_some_of_no_none l h] at hne
    simpa using hne
  have key : ∀ v, some v ∈ l → whereEq l (some v) ≠ [] ∧ (whereEq l (some v)).Pairwise (· < ·) ∧
      ∀ i, i ∈ whereEq l (some v) ↔ l[i]? = some (some v) := by
    intro v hv
    have hiff : ∀ i, i ∈ whereEq l (some v) ↔ l[i]? = some (some v) := by
      intro i
      unfold whereEq
      simp only [List.mem_filter, List.mem_range, decide_eq_true_eq]
      constructor
      · exact fun h => h.2
      · exact fun h => ⟨(List.getElem?_eq_some_iff.1 h).1, h⟩
    refine ⟨?_, ?_, hiff⟩
    · obtain ⟨i, hi, e⟩ := List.mem_iff_getElem.1 hv
      exact List.ne_nil_of_mem ((hiff i).2 (by rw [List.getElem?_eq_getElem hi, e]))
    · exact List.pairwise_lt_range.filter _
  constructor
  · obtain ⟨m, hmx⟩ := exists_max? hm
    have hs := max?_spec.1 hmx
    obtain ⟨k1, k2, k3⟩ := key m (mem_measured.1 hs.1)
    refine ⟨whereEq l (some m), ?_, k2, k1, ?_⟩
    · unfold argmaxAll propmax; rw [if_neg hne, if_neg h, hmx]
    · intro i
      rw [k3]
      constructor
      · exact fun e => ⟨m, e, fun z hz => hs.2 z (mem_measured.2 hz)⟩
      · rintro ⟨m', e, hm'⟩
        have h1 : m' ≤ m := hs.2 m' (mem_measured.2 (List.mem_of_getElem? e))
        have h2 := hm' m (mem_measured.1 hs.1)
        rw [e, le_antisymm h1 h2]
  · obtain ⟨m, hmx⟩ := exists_min? hm
    have hs := min?_spec.1 hmx
    obtain ⟨k1, k2, k3⟩ := key m (mem_measured.1 hs.1)
    refine ⟨whereEq l (some m), ?_, k2, k1, ?_⟩
    · unfold argminAll propmin; rw [if_neg hne, if_neg h, hmx]
    · intro i
      rw [k3]
      constructor
      · exact fun e => ⟨m, e, fun z hz => hs.2 z (mem_measured.2 hz)⟩
      · rintro ⟨m', e, hm'⟩
        have h1 : m ≤ m' := hs.2 m' (mem_measured.2 (List.mem_of_getElem? e))
        have h2 := hm' m (mem_measured.1 hs.1)
        rw [e, le_antisymm h2 h1]

/-- Data containing a NaN gives no position at all, contrary to "never empty" (`arr == nan` is false everywhere). -/
theorem C47_nan_empty (l : List (Option K)) (h : none ∈ l) : argmaxAll l = .ok [] ∧ argminAll l = .ok [] := by
  unfold argmaxAll argminAll propmax propmin
  rw [if_neg (List.ne_nil_of_mem h), if_neg (List.ne_nil_of_mem h), if_pos h, if_pos h]
  exact ⟨rfl, rfl⟩

example : argmaxAll [some (1 : ℚ), some 3, some 2, some 3] = .ok [1, 3] := by decide +kernel

end Surfalize.Props
