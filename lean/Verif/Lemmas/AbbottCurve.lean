import Verif.Lemmas.Abbott
import Mathlib.Data.List.TakeWhile

/-! Lemmas about the built curve, its interpolations and areas. -/
set_option linter.unusedSectionVars false
namespace Surfalize.Abbott
open Surfalize Interp Geometry Spec

variable {K : Type} [Field K] [LinearOrder K] [IsStrictOrderedRing K] [FloorRing K]

/-! ### sorted lists -/

theorem takeWhile_lt_iff {c : K} : ∀ {l : List (K × K)}, (l.Pairwise fun p q => p.1 < q.1) → ∀ (j : Nat) (hj : j < l.length),
    j < (l.takeWhile fun p => decide (p.1 ≤ c)).length ↔ l[j].1 ≤ c
  | [], _, j, hj => by simp at hj
  | p :: l, hs, j, hj => by
    have hs' := List.pairwise_cons.1 hs
    by_cases hp : p.1 ≤ c
    · rw [List.takeWhile_cons, if_pos (by simpa using hp)]
      cases j with
      | zero => simpa using hp
      | succ j =>
        simp only [List.length_cons, List.getElem_cons_succ, Nat.add_lt_add_iff_right]
        exact takeWhile_lt_iff hs'.2 j (by simpa using hj)
    · rw [List.takeWhile_cons, if_neg (by simpa using hp)]
      constructor
      · intro h; simp at h
      · intro h
        cases j with
        | zero => exact absurd h hp
        | succ j =>
          have := hs'.1 _ (List.getElem_mem (l := l) (n := j) (by simpa using hj))
          simp only [List.getElem_cons_succ] at h
          exact absurd (le_trans this.le h) hp

theorem take_countP {c : K} : ∀ {l : List (K × K)}, (l.Pairwise fun p q => p.1 < q.1) →
    l.take (l.countP fun p => decide (p.1 ≤ c)) = l.filter fun p => decide (p.1 ≤ c)
  | [], _ => by simp
  | p :: l, hs => by
    have hs' := List.pairwise_cons.1 hs
    by_cases hp : p.1 ≤ c
    · rw [List.countP_cons_of_pos (by simpa using hp), List.filter_cons_of_pos (by simpa using hp), List.take_succ_cons,
        take_countP hs'.2]
    · have h0 : (l.countP fun p => decide (p.1 ≤ c)) = 0 := by
        rw [List.countP_eq_zero]
        intro q hq
        have := hs'.1 q hq
        simp only [decide_eq_true_eq, not_le]
        linarith [not_le.1 hp]
      have h1 : (l.filter fun p => decide (p.1 ≤ c)) = [] := by
        rw [List.filter_eq_nil_iff]
        intro q hq
        have := hs'.1 q hq
        simp only [decide_eq_true_eq, not_le]
        linarith [not_le.1 hp]
      rw [List.countP_cons_of_neg (by simpa using hp), List.filter_cons_of_neg (by simpa using hp), h0, h1, List.take_zero]

theorem drop_filter : ∀ {l : List (K × K)}, (l.Pairwise fun p q => p.1 < q.1) → ∀ {i : Nat} (hi : i < l.length),
    l.drop i = l.filter fun p => decide (l[i].1 ≤ p.1)
  | [], _, i, hi => by simp at hi
  | p :: l, hs, 0, _ => by
    have hs' := List.pairwise_cons.1 hs
    rw [List.drop_zero, eq_comm, List.filter_eq_self]
    intro q hq
    rcases List.mem_cons.1 hq with rfl | hq
    · simp
    · simpa using (hs'.1 q hq).le
  | p :: l, hs, i + 1, hi => by
    have hs' := List.pairwise_cons.1 hs
    have hi' : i < l.length := by simpa using hi
    rw [List.drop_succ_cons, drop_filter hs'.2 hi', List.filter_cons_of_neg]
    · rfl
    · have := hs'.1 _ (List.getElem_mem hi')
      simpa using this

/-! ### the curve as points -/

theorem zip_get {a b : List K} {i : Nat} (hi : i < (List.zip a b).length) :
    (List.zip a b)[i] = (a[i]'(by simp at hi; omega), b[i]'(by simp at hi; omega)) := List.getElem_zip

variable {n : Nat} {d : List K}

theorem pts_length (n : Nat) (d : List K) : (List.zip (ratios n : List K) (heights n d)).length = n := by
  simp [ratios_length, heights_length]

theorem pts_strict (hn : 2 ≤ n) (d : List K) : (List.zip (ratios n : List K) (heights n d)).Pairwise fun p q => p.1 < q.1 := by
  rw [List.pairwise_iff_getElem]
  intro i j hi hj hij
  rw [zip_get, zip_get]
  exact List.pairwise_iff_getElem.1 (ratios_strict hn) _ _ _ _ hij

theorem pts_antitone (hn : 2 ≤ n) (hd : d ≠ []) : (List.zip (ratios n : List K) (heights n d)).Pairwise fun p q => q.2 ≤ p.2 := by
  rw [List.pairwise_iff_getElem]
  intro i j hi hj hij
  rw [zip_get, zip_get]
  exact List.pairwise_iff_getElem.1 (heights_antitone hn hd) _ _ _ _ hij

theorem ratio_zero (hn : 2 ≤ n) : (ratios n : List K)[0]'(by rw [ratios_length]; omega) = 0 := by
  rw [ratios_get hn]; simp

theorem ratio_last (hn : 2 ≤ n) : (ratios n : List K)[n - 1]'(by rw [ratios_length]; omega) = 100 := by
  rw [ratios_get hn, Nat.cast_sub (by omega)]
  have := cast_ge_one (K := K) hn
  have : (n : K) - 1 ≠ 0 := by linarith
  push_cast
  field_simp

/-! ### Smc -/

/-- at a point of a cell -/
theorem smc_cell (hn : 2 ≤ n) (d : List K) {i : Nat} (hi : i + 1 < n) {t : K} (h0 : 0 ≤ t) (h1 : t ≤ 1) :
    smcFit (ratios n) (heights n d)
        ((ratios n)[i]'(by rw [ratios_length]; omega)
          + t * ((ratios n)[i + 1]'(by rw [ratios_length]; omega) - (ratios n)[i]'(by rw [ratios_length]; omega)))
      = (heights n d)[i]'(by rw [heights_length]; omega)
        + t * ((heights n d)[i + 1]'(by rw [heights_length]; omega) - (heights n d)[i]'(by rw [heights_length]; omega)) := by
  have hl := pts_length n d
  have hs := pts_strict hn d
  have hlt := List.pairwise_iff_getElem.1 (ratios_strict (K := K) hn) i (i + 1) (by rw [ratios_length]; omega)
    (by rw [ratios_length]; omega) (by omega)
  unfold smcFit
  rw [npInterp_between hs (i := i) (by omega)]
  · rw [zip_get, zip_get]
    simp only
    have : (ratios n : List K)[i + 1]'(by rw [ratios_length]; omega) - (ratios n)[i]'(by rw [ratios_length]; omega) ≠ 0 := by
      linarith
    field_simp
    ring
  · rw [zip_get]; simp only; nlinarith
  · rw [zip_get]; simp only; nlinarith

theorem smc_sample (hn : 2 ≤ n) (d : List K) {i : Nat} (hi : i < n) :
    smcFit (ratios n) (heights n d) ((ratios n)[i]'(by rw [ratios_length]; omega)) = (heights n d)[i]'(by rw [heights_length]; omega) := by
  have hl := pts_length n d
  have := npInterp_sample (pts_strict hn d) (List.getElem_mem (l := List.zip (ratios n : List K) (heights n d)) (n := i) (by omega))
  rw [zip_get] at this
  exact this

theorem smc_antitone (hn : 2 ≤ n) (hd : d ≠ []) {p q : K} (h : p ≤ q) :
    smcFit (ratios n) (heights n d) q ≤ smcFit (ratios n) (heights n d) p :=
  npInterp_antitone (pts_strict hn d) (pts_antitone hn hd) h

theorem smc_left (hn : 2 ≤ n) (d : List K) {p : K} (h : p ≤ 0) :
    smcFit (ratios n) (heights n d) p = (heights n d)[0]'(by rw [heights_length]; omega) := by
  have hs := pts_strict hn d
  have hl := pts_length n d
  unfold smcFit
  cases hp : List.zip (ratios n : List K) (heights n d) with
  | nil => rw [hp] at hl; simp at hl; omega
  | cons a l =>
    have e : a = (List.zip (ratios n : List K) (heights n d))[0]'(by omega) := by simp [hp]
    rw [zip_get] at e
    rw [hp] at hs
    rw [npInterp_left hs, e]
    rw [e]
    simp only
    rw [ratio_zero hn]; exact h

theorem smc_right (hn : 2 ≤ n) (d : List K) {p : K} (h : 100 ≤ p) :
    smcFit (ratios n) (heights n d) p = (heights n d)[n - 1]'(by rw [heights_length]; omega) := by
  have hs := pts_strict hn d
  have hl := pts_length n d
  unfold smcFit
  rw [npInterp_right (p := (List.zip (ratios n : List K) (heights n d))[n - 1]'(by omega))]
  · rw [zip_get]
  · simp only [List.getLast?_eq_getElem?, hl]
    rw [List.getElem?_eq_getElem]
  · intro q hq
    have := ratios_bounds hn (List.of_mem_zip hq).1
    linarith [this.2]

/-- every ratio lies in a cell -/
theorem ratio_cell (hn : 2 ≤ n) {p : K} (h0 : 0 ≤ p) (h1 : p ≤ 100) :
    ∃ (i : Nat) (hi : i + 1 < n) (t : K), 0 ≤ t ∧ t ≤ 1 ∧
      p = (ratios n)[i]'(by rw [ratios_length]; omega)
          + t * ((ratios n)[i + 1]'(by rw [ratios_length]; omega) - (ratios n)[i]'(by rw [ratios_length]; omega)) := by
  have hN := cast_ge_one (K := K) hn
  obtain ⟨i, hi, a1, a2⟩ := exists_cell hn (x := p / 100 * ((n : K) - 1)) (by positivity) (by
    have : p / 100 ≤ 1 := by rw [div_le_one (by norm_num)]; exact h1
    nlinarith)
  refine ⟨i, hi, p / 100 * ((n : K) - 1) - i, by linarith, by linarith, ?_⟩
  rw [ratios_get hn, ratios_get hn]
  have : (n : K) - 1 ≠ 0 := by linarith
  push_cast
  field_simp
  ring

theorem smc_mem_range (hn : 2 ≤ n) (hd : d ≠ []) (p : K) :
    (heights n d)[n - 1]'(by rw [heights_length]; omega) ≤ smcFit (ratios n) (heights n d) p ∧
    smcFit (ratios n) (heights n d) p ≤ (heights n d)[0]'(by rw [heights_length]; omega) := by
  refine npInterp_bounds ?_ ?_ p
  · intro hc; have := pts_length n d; rw [hc] at this; simp at this; omega
  · intro q hq
    have hh := List.of_mem_zip hq
    obtain ⟨i, hi, e⟩ := List.mem_iff_getElem.1 hh.2
    have hi' : i < n := by rw [heights_length] at hi; exact hi
    rw [← e]
    have ha := heights_antitone hn hd
    constructor
    · rcases lt_or_eq_of_le (show i ≤ n - 1 by omega) with h | h
      · exact List.pairwise_iff_getElem.1 ha _ _ hi (by rw [heights_length]; omega) h
      · subst h; exact le_refl _
    · rcases Nat.eq_zero_or_pos i with h | h
      · subst h; exact le_refl _
      · exact List.pairwise_iff_getElem.1 ha _ _ (by rw [heights_length]; omega) hi h

/-! ### Smr on strictly decreasing curves -/

theorem inv_distinct (hs : (heights n d).Pairwise (· > ·)) : DistinctX (List.zip (heights n d) (ratios n : List K)) := by
  unfold DistinctX
  have : (List.zip (heights n d) (ratios n : List K)).map (fun p => p.1) = heights n d := by
    rw [List.map_fst_zip]; rw [heights_length, ratios_length]
  rw [this]
  exact hs.imp fun h => ne_of_gt h

theorem inv_length (n : Nat) (d : List K) : (List.zip (heights n d) (ratios n : List K)).length = n := by
  simp [ratios_length, heights_length]

theorem inv_neighbours (hs : (heights n d).Pairwise (· > ·)) {i : Nat} (hi : i + 1 < n) :
    Neighbours (List.zip (heights n d) (ratios n : List K))
      ((heights n d)[i + 1]'(by rw [heights_length]; omega), (ratios n)[i + 1]'(by rw [ratios_length]; omega))
      ((heights n d)[i]'(by rw [heights_length]; omega), (ratios n)[i]'(by rw [ratios_length]; omega)) := by
  have hl := inv_length n d
  have hg := List.pairwise_iff_getElem.1 hs
  refine ⟨?_, ?_, ?_, ?_⟩
  · rw [← zip_get (a := heights n d) (b := ratios n) (i := i + 1) (by omega)]; exact List.getElem_mem _
  · rw [← zip_get (a := heights n d) (b := ratios n) (i := i) (by omega)]; exact List.getElem_mem _
  · exact hg i (i + 1) (by rw [heights_length]; omega) (by rw [heights_length]; omega) (by omega)
  · intro r hr
    obtain ⟨j, hj, rfl⟩ := List.mem_iff_getElem.1 hr
    rw [zip_get]
    simp only
    rcases Nat.lt_or_ge i j with h | h
    · left
      rcases lt_or_eq_of_le (show i + 1 ≤ j by omega) with h1 | h1
      · exact (hg (i + 1) j (by rw [heights_length]; omega) (by rw [heights_length]; omega) h1).le
      · subst h1; exact le_refl _
    · right
      rcases lt_or_eq_of_le h with h1 | h1
      · exact (hg j i (by rw [heights_length]; omega) (by rw [heights_length]; omega) h1).le
      · subst h1; exact le_refl _

theorem mrAt_cell {sort : PtSort K} (hsort : IsSort sort) (hs : (heights n d).Pairwise (· > ·)) {i : Nat} (hi : i + 1 < n)
    {t : K} (h0 : 0 ≤ t) (h1 : t ≤ 1) :
    npInterp (sort (List.zip (heights n d) (ratios n : List K)))
        ((heights n d)[i]'(by rw [heights_length]; omega)
          + t * ((heights n d)[i + 1]'(by rw [heights_length]; omega) - (heights n d)[i]'(by rw [heights_length]; omega)))
      = (ratios n)[i]'(by rw [ratios_length]; omega)
        + t * ((ratios n)[i + 1]'(by rw [ratios_length]; omega) - (ratios n)[i]'(by rw [ratios_length]; omega)) := by
  have hN := inv_neighbours hs hi
  have hst := sort_strict hsort (inv_distinct hs)
  have hp := (hsort (List.zip (heights n d) (ratios n : List K))).1
  have hN' : Neighbours (sort (List.zip (heights n d) (ratios n : List K))) _ _ :=
    ⟨hp.mem_iff.2 hN.1, hp.mem_iff.2 hN.2.1, hN.2.2.1, fun r hr => hN.2.2.2 r (hp.mem_iff.1 hr)⟩
  obtain ⟨j, hj, e1, e2⟩ := neighbours_consecutive hst hN'
  have hlt := hN.2.2.1
  simp only at hlt
  rw [npInterp_between hst hj]
  · rw [e1, e2]
    simp only
    have : (heights n d)[i]'(by rw [heights_length]; omega) - (heights n d)[i + 1]'(by rw [heights_length]; omega) ≠ 0 := by
      linarith
    field_simp
    ring
  · rw [e1]; simp only; nlinarith
  · rw [e2]; simp only; nlinarith

theorem mrAt_antitone {sort : PtSort K} (hsort : IsSort sort) (hn : 2 ≤ n) (hs : (heights n d).Pairwise (· > ·)) {x y : K}
    (h : x ≤ y) : npInterp (sort (List.zip (heights n d) (ratios n : List K))) y ≤ npInterp (sort (List.zip (heights n d) (ratios n : List K))) x := by
  have hst := sort_strict hsort (inv_distinct hs)
  have hp := (hsort (List.zip (heights n d) (ratios n : List K))).1
  refine npInterp_antitone hst ?_ h
  refine hst.imp_of_mem fun {a b} ha hb hab => ?_
  obtain ⟨i, hi, rfl⟩ := List.mem_iff_getElem.1 (hp.mem_iff.1 ha)
  obtain ⟨j, hj, rfl⟩ := List.mem_iff_getElem.1 (hp.mem_iff.1 hb)
  rw [zip_get, zip_get] at hab ⊢
  simp only at hab ⊢
  have hl := inv_length n d
  rcases lt_trichotomy i j with h1 | h1 | h1
  · have := List.pairwise_iff_getElem.1 hs i j (by rw [heights_length]; omega) (by rw [heights_length]; omega) h1
    exact absurd hab (not_lt.2 this.le)
  · subst h1; exact le_refl _
  · exact (List.pairwise_iff_getElem.1 (ratios_strict (K := K) hn) j i (by rw [ratios_length]; omega) (by rw [ratios_length]; omega) h1).le

/-! ### argclosest on a decreasing list, areas -/

theorem argclosest_antitone {l : List K} (hs : l.Pairwise (· ≥ ·)) (hne : l ≠ []) {a b : K} (hab : a ≤ b) :
    argclosest b l ≤ argclosest a l := by
  by_contra hcon
  push Not at hcon
  have hi := argclosest_lt (x := a) hne
  have hj := argclosest_lt (x := b) hne
  have h1 := argclosest_first hj hcon
  have h2 := argclosest_le hi hj
  have hge : l[argclosest b l] ≤ l[argclosest a l] := List.pairwise_iff_getElem.1 hs _ _ hi hj hcon
  rcases lt_or_eq_of_le hge with hlt | heq
  · have h3 : ¬ |l[argclosest a l] - b| ≤ |l[argclosest b l] - b| := not_le.2 h1
    have h4 : ¬ |l[argclosest a l] - b| < |l[argclosest b l] - b| := fun h => h3 h.le
    rw [abs_sub_lt_iff_mid hlt] at h4
    have h5 : ¬ (|l[argclosest b l] - a| < |l[argclosest a l] - a|) := not_lt.2 h2
    rcases lt_or_eq_of_le h2 with h6 | h6
    · rw [abs_sub_lt_iff_mid hlt] at h6; linarith
    · -- equal distances at `a`: midpoint is `a`
      have hmid : l[argclosest a l] + l[argclosest b l] = 2 * a := by
        rcases abs_eq_abs.1 h6 with e | e <;> linarith
      have hmb : ¬ (l[argclosest b l] + l[argclosest a l] < 2 * b) := h4
      have : a = b := le_antisymm hab (by linarith)
      subst this
      exact lt_irrefl _ hcon
  · rw [heq] at h1; exact lt_irrefl _ h1

theorem trapezoid_nonpos : ∀ {l : List (K × K)}, (∀ p ∈ l, 0 ≤ p.1) → (l.Pairwise fun p q => q.2 ≤ p.2) → trapezoid l ≤ 0
  | [], _, _ => le_refl _
  | [_], _, _ => le_refl _
  | p :: q :: r, h0, hs => by
    rw [trapezoid]
    have hs' := List.pairwise_cons.1 hs
    have := trapezoid_nonpos (l := q :: r) (fun z hz => h0 z (by simp [hz])) hs'.2
    have h1 := hs'.1 q (by simp)
    have h2 := h0 p (by simp)
    have h3 := h0 q (by simp)
    nlinarith

theorem trapezoid_take_le : ∀ {l : List (K × K)}, (∀ p ∈ l, 0 ≤ p.1) → (l.Pairwise fun p q => q.2 ≤ p.2) →
    ∀ {i j : Nat}, i ≤ j → trapezoid (l.take j) ≤ trapezoid (l.take i)
  | [], _, _, _, _, _ => by simp
  | [p], _, _, i, j, _ => by
    have : ∀ k, trapezoid ([p].take k) = 0 := by
      intro k; cases k <;> simp [trapezoid]
    rw [this, this]
  | p :: q :: r, h0, hs, i, j, hij => by
    have hs' := List.pairwise_cons.1 hs
    have h1 := hs'.1 q (by simp)
    have h2 := h0 p (by simp)
    have h3 := h0 q (by simp)
    have hneg : (q.2 - p.2) * (p.1 + q.1) / 2 ≤ 0 := by nlinarith
    have ih : ∀ {i j : Nat}, i ≤ j → trapezoid ((q :: r).take j) ≤ trapezoid ((q :: r).take i) :=
      fun h => trapezoid_take_le (fun z hz => h0 z (by simp [hz])) hs'.2 h
    have two : ∀ k, trapezoid ((p :: q :: r).take (k + 2)) = (q.2 - p.2) * (p.1 + q.1) / 2 + trapezoid ((q :: r).take (k + 1)) := by
      intro k; simp [trapezoid]
    match i, j, hij with
    | 0, 0, _ => exact le_refl _
    | 0, 1, _ => simp [trapezoid]
    | 1, 1, _ => exact le_refl _
    | 0, j + 2, _ =>
      rw [two]
      have := ih (show 0 ≤ j + 1 by omega)
      simp only [List.take_zero] at this ⊢
      have e : trapezoid ([] : List (K × K)) = 0 := rfl
      rw [e] at this ⊢
      linarith
    | 1, j + 2, _ =>
      rw [two]
      have := ih (show 1 ≤ j + 1 by omega)
      have e1 : trapezoid ((q :: r).take 1) = 0 := by simp [trapezoid]
      have e2 : trapezoid ((p :: q :: r).take 1) = 0 := by simp [trapezoid]
      rw [e1] at this; rw [e2]
      linarith
    | i + 2, j + 2, hij =>
      rw [two, two]
      have := ih (show i + 1 ≤ j + 1 by omega)
      linarith

theorem trapezoid_tail {l : List (K × K)} (h0 : ∀ p ∈ l, 0 ≤ p.1) (hs : l.Pairwise fun p q => q.2 ≤ p.2) :
    trapezoid l ≤ trapezoid l.tail := by
  match l with
  | [] => exact le_refl _
  | [p] => exact le_refl _
  | p :: q :: r =>
    rw [trapezoid, List.tail_cons]
    have h1 := (List.pairwise_cons.1 hs).1 q (by simp)
    have h2 := h0 p (by simp)
    have h3 := h0 q (by simp)
    nlinarith

theorem trapezoid_drop_le {l : List (K × K)} (h0 : ∀ p ∈ l, 0 ≤ p.1) (hs : l.Pairwise fun p q => q.2 ≤ p.2) {i j : Nat}
    (hij : i ≤ j) : trapezoid (l.drop i) ≤ trapezoid (l.drop j) := by
  induction j with
  | zero => have : i = 0 := by omega
            subst this; exact le_refl _
  | succ j ih =>
    rcases lt_or_eq_of_le hij with h | h
    · refine le_trans (ih (by omega)) ?_
      have := trapezoid_tail (l := l.drop j) (fun p hp => h0 p (List.mem_of_mem_drop hp)) (hs.sublist (List.drop_sublist _ _))
      rwa [List.tail_drop] at this
    · subst h; exact le_refl _

/-! ### building the curve -/

theorem isLine_of_lstsq {lstsq : Detrend.Lstsq K} (hl : IsLstsq lstsq) (r : List (K × K)) :
    IsLine r ((lstsq 2 (r.map fun p => [p.1, 1]) (r.map fun p => p.2)).getD 0 0)
      ((lstsq 2 (r.map fun p => [p.1, 1]) (r.map fun p => p.2)).getD 1 0) := by
  intro a' b'
  obtain ⟨hlen, hmin⟩ := hl 2 (r.map fun p => [p.1, 1]) (r.map fun p => p.2) (by simp) (by
    intro q hq
    obtain ⟨_, _, rfl⟩ := List.mem_map.1 hq
    rfl)
  obtain ⟨a, b, e⟩ := List.length_eq_two.1 hlen
  have h := hmin [a', b'] rfl
  rw [e] at h ⊢
  simp only [List.getD_cons_zero, List.getD_cons_succ]
  have conv : ∀ x y : K, (List.zipWith (fun (r : List K) (z : K) => (z - (List.zipWith (fun a b => a * b) r [x, y]).sum) ^ 2)
      (r.map fun p => [p.1, 1]) (r.map fun p => p.2)).sum = (r.map fun p => (p.2 - (x * p.1 + y)) ^ 2).sum := by
    intro x y
    rw [List.zipWith_map, List.zipWith_self]
    congr 1
    apply List.map_congr_left
    intro p _
    simp
    ring
  rw [conv, conv] at h
  exact h

theorem region_eq (hn : 2 ≤ n) (d : List K) {i : Nat} (hi : i < n) :
    region (ratios n) (heights n d) i
      = (List.zip (ratios n : List K) (heights n d)).filter fun p =>
          decide ((ratios n)[i]'(by rw [ratios_length]; omega) ≤ p.1) && decide (p.1 ≤ (ratios n)[i]'(by rw [ratios_length]; omega) + 40) := by
  have hl := pts_length n d
  have hs := pts_strict hn d
  unfold region
  simp only
  rw [getD_of_lt _ (by rw [ratios_length]; omega)]
  set m := (ratios n : List K)[i]'(by rw [ratios_length]; omega) with hm
  have hc : (ratios n : List K).countP (fun x => decide (x ≤ m + 40))
      = (List.zip (ratios n : List K) (heights n d)).countP fun p => decide (p.1 ≤ m + 40) := by
    have e : (List.zip (ratios n : List K) (heights n d)).map (fun p => p.1) = ratios n := by
      rw [List.map_fst_zip]; rw [heights_length, ratios_length]
    conv_lhs => rw [← e]
    rw [List.countP_map]
    rfl
  rw [hc, take_countP hs]
  set l' := (List.zip (ratios n : List K) (heights n d)).filter fun p => decide (p.1 ≤ m + 40) with hl'
  have hs' : l'.Pairwise fun p q => p.1 < q.1 := hs.filter _
  have htake : l' = (List.zip (ratios n : List K) (heights n d)).take ((List.zip (ratios n : List K) (heights n d)).countP fun p => decide (p.1 ≤ m + 40)) :=
    (take_countP hs).symm
  have hcount : i < (List.zip (ratios n : List K) (heights n d)).countP fun p => decide (p.1 ≤ m + 40) := by
    have h1 : i < ((List.zip (ratios n : List K) (heights n d)).takeWhile fun p => decide (p.1 ≤ m + 40)).length := by
      rw [takeWhile_lt_iff hs i (by omega), zip_get]
      simp only
      rw [← hm]; linarith
    have h2 : ((List.zip (ratios n : List K) (heights n d)).takeWhile fun p => decide (p.1 ≤ m + 40)).length
        ≤ (List.zip (ratios n : List K) (heights n d)).countP fun p => decide (p.1 ≤ m + 40) := by
      rw [List.countP_eq_length_filter]
      have : (List.takeWhile (fun p => decide (p.1 ≤ m + 40)) (List.zip (ratios n : List K) (heights n d))).Sublist
          ((List.zip (ratios n : List K) (heights n d)).filter fun p => decide (p.1 ≤ m + 40)) := by
        have e := (List.takeWhile_sublist (l := List.zip (ratios n : List K) (heights n d)) (fun p => decide (p.1 ≤ m + 40))).filter
          (fun p => decide (p.1 ≤ m + 40))
        rwa [List.filter_eq_self.2 (fun a ha => List.mem_takeWhile_imp (p := fun p : K × K => decide (p.1 ≤ m + 40)) ha)] at e
      exact this.length_le
    omega
  have hil : i < l'.length := by rw [htake, List.length_take, hl]; have := List.countP_le_length (p := fun p : K × K => decide (p.1 ≤ m + 40)) (l := List.zip (ratios n : List K) (heights n d)); omega
  rw [drop_filter hs' hil]
  have hgi : l'[i].1 = m := by
    have : l'[i] = (List.zip (ratios n : List K) (heights n d))[i]'(by omega) := by
      simp only [htake, List.getElem_take]
    rw [this, zip_get]
  rw [hgi, hl', List.filter_filter]

theorem build_ok {lstsq : Detrend.Lstsq K} (hl : IsLstsq lstsq) (hn : 2 ≤ n) {data : List (Option K)} (hm : none ∉ data)
    (hne : data ≠ []) :
    ∃ (c : Curve K) (hi : c.istart < n), build lstsq n data = .ok c ∧ c.data = measured data ∧ c.mr = ratios n ∧
      c.height = heights n (measured data) ∧
      (ratios n : List K)[c.istart]'(by rw [ratios_length]; omega) ≤ 60 ∧
      IsLine (region (ratios n) (heights n (measured data)) c.istart) c.slope c.intercept ∧
      ∀ (j : Nat) (hj : j < n), (ratios n : List K)[j]'(by rw [ratios_length]; omega) ≤ 60 →
        let S := fun (j : Nat) (hj : j < n) => (smcFit (ratios n) (heights n (measured data)) ((ratios n)[j]'(by rw [ratios_length]; omega) + 40)
            - (heights n (measured data))[j]'(by rw [heights_length]; omega)) / 40
        S j hj ≤ S c.istart hi ∧ (j < c.istart → S j hj < S c.istart hi) := by
  set d := measured data with hd
  have hlen := pts_length n d
  have hs := pts_strict hn d
  have hz := ratio_zero (K := K) hn
  have h100 := ratio_last (K := K) hn
  obtain ⟨r, hr, hrl, hmax, hfirst⟩ := search_spec (smcFit (ratios n) (heights n d)) (List.zip (ratios n : List K) (heights n d))
    ⟨(List.zip (ratios n : List K) (heights n d))[0]'(by omega), by
      rw [List.head?_eq_getElem?, List.getElem?_eq_getElem], by
      rw [zip_get]; simp only; rw [hz]; norm_num⟩
    ⟨(List.zip (ratios n : List K) (heights n d))[n - 1]'(by omega), List.getElem_mem _, by
      rw [zip_get]; simp only; rw [h100]; norm_num⟩
  have hsl : ∀ j (hj : j < (slopesOf (smcFit (ratios n) (heights n d)) (List.zip (ratios n : List K) (heights n d))).length),
      ∃ hjn : j < n, (ratios n : List K)[j]'(by rw [ratios_length]; omega) ≤ 60 ∧
      (slopesOf (smcFit (ratios n) (heights n d)) (List.zip (ratios n : List K) (heights n d)))[j]
        = (smcFit (ratios n) (heights n d) ((ratios n)[j]'(by rw [ratios_length]; omega) + 40)
            - (heights n d)[j]'(by rw [heights_length]; omega)) / 40 := by
    intro j hj
    have hj' : j < ((List.zip (ratios n : List K) (heights n d)).takeWhile fun p => decide (p.1 ≤ 60)).length := by
      simpa [slopesOf] using hj
    have hjn : j < n := by
      have := (List.takeWhile_sublist (l := List.zip (ratios n : List K) (heights n d)) (fun p => decide (p.1 ≤ 60))).length_le
      omega
    refine ⟨hjn, ?_, ?_⟩
    · have := (takeWhile_lt_iff hs j (by omega)).1 hj'
      rw [zip_get] at this
      exact this
    · simp only [slopesOf, List.getElem_map]
      have e : ((List.zip (ratios n : List K) (heights n d)).takeWhile fun p => decide (p.1 ≤ 60))[j]
          = (List.zip (ratios n : List K) (heights n d))[j]'(by omega) := by
        have hp := List.takeWhile_prefix (l := List.zip (ratios n : List K) (heights n d)) (fun p => decide (p.1 ≤ 60))
        exact hp.getElem hj'
      rw [e, zip_get]
  have hsl' : ∀ j (hj : j < n), (ratios n : List K)[j]'(by rw [ratios_length]; omega) ≤ 60 →
      j < (slopesOf (smcFit (ratios n) (heights n d)) (List.zip (ratios n : List K) (heights n d))).length := by
    intro j hj h60
    have : j < ((List.zip (ratios n : List K) (heights n d)).takeWhile fun p => decide (p.1 ≤ 60)).length := by
      rw [takeWhile_lt_iff hs j (by omega), zip_get]; exact h60
    simpa [slopesOf] using this
  obtain ⟨hrn, hr60, hrS⟩ := hsl r hrl
  let c := lstsq 2 ((region (ratios n) (heights n d) r).map fun p => [p.1, 1]) ((region (ratios n) (heights n d) r).map fun p => p.2)
  refine ⟨(⟨d, ratios n, heights n d, r, c.getD 0 0, c.getD 1 0⟩ : Curve K), hrn, ?_, rfl, rfl, rfl, hr60,
    isLine_of_lstsq hl _, ?_⟩
  · unfold build
    rw [if_neg hm, if_neg hne]
    simp only [← hd, hr]
    rfl
  · intro j hj h60
    simp only
    obtain ⟨_, _, hjS⟩ := hsl j (hsl' j hj h60)
    constructor
    · rw [← hjS, ← hrS]; exact hmax _ (List.getElem_mem _)
    · intro hjr
      rw [← hjS, ← hrS]; exact hfirst j hjr

end Surfalize.Abbott
