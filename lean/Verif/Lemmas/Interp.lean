import Verif.Model.Interp
import Verif.Spec.Interp
import Verif.Lemmas.Num
import Mathlib.Tactic.Linarith
import Mathlib.Tactic.Positivity
import Mathlib.Tactic.FieldSimp

/-! Lemmas about linear interpolation. -/
set_option linter.unusedSectionVars false
namespace Surfalize.Interp
open Surfalize Spec

variable {K : Type} [Field K] [LinearOrder K] [IsStrictOrderedRing K]

theorem stableSort_isSort : IsSort (stableSort : PtSort K) := by
  intro l
  refine ⟨List.perm_insertionSort _ l, ?_⟩
  have : IsTrans (K × K) (fun p q => p.1 ≤ q.1) := ⟨fun a b c h1 h2 => le_trans h1 h2⟩
  have : Std.Total (fun p q : K × K => p.1 ≤ q.1) := ⟨fun a b => le_total a.1 b.1⟩
  exact List.pairwise_insertionSort (r := fun p q : K × K => p.1 ≤ q.1) l

/-- the sampled values bound the interpolated ones -/
theorem npInterp_bounds {lo hi : K} : ∀ {l : List (K × K)}, l ≠ [] → (∀ p ∈ l, lo ≤ p.2 ∧ p.2 ≤ hi) → ∀ x : K,
    lo ≤ npInterp l x ∧ npInterp l x ≤ hi
  | [], h, _, _ => absurd rfl h
  | [p], _, hb, x => by simpa [npInterp] using hb p (by simp)
  | p :: q :: r, _, hb, x => by
    rw [npInterp]
    have hp := hb p (by simp)
    have hq := hb q (by simp)
    split
    · rename_i h1
      split
      · exact hp
      · rename_i h2
        push Not at h2
        have hd : 0 < q.1 - p.1 := by linarith
        have e : (q.2 - p.2) / (q.1 - p.1) * (x - p.1) + p.2
            = (p.2 * (q.1 - x) + q.2 * (x - p.1)) / (q.1 - p.1) := by field_simp; ring
        rw [e, le_div_iff₀ hd, div_le_iff₀ hd]
        have a1 : 0 ≤ q.1 - x := by linarith
        have a2 : 0 ≤ x - p.1 := by linarith
        constructor <;> nlinarith
    · exact npInterp_bounds (by simp) (fun z hz => hb z (by simp [hz])) x

theorem npInterp_left {p : K × K} {l : List (K × K)} (hs : (p :: l).Pairwise fun p q => p.1 < q.1) {x : K} (h : x ≤ p.1) :
    npInterp (p :: l) x = p.2 := by
  cases l with
  | nil => rfl
  | cons q r =>
    have : p.1 < q.1 := (List.pairwise_cons.1 hs).1 q (by simp)
    rw [npInterp, if_pos (lt_of_le_of_lt h this), if_pos h]

theorem npInterp_right : ∀ {l : List (K × K)} {p : K × K}, l.getLast? = some p → ∀ {x : K}, (∀ q ∈ l, q.1 ≤ x) →
    npInterp l x = p.2
  | [], _, h, _, _ => by simp at h
  | [p], _, h, _, _ => by simp at h; simp [npInterp, h]
  | a :: b :: r, p, h, x, hx => by
    rw [npInterp, if_neg (not_lt.2 (hx b (by simp)))]
    exact npInterp_right (by simpa using h) (fun q hq => hx q (by simp [hq]))

/-- between neighbours of a strictly sorted list -/
theorem npInterp_between : ∀ {l : List (K × K)}, (l.Pairwise fun p q => p.1 < q.1) → ∀ {i : Nat} (hi : i + 1 < l.length)
    {x : K}, l[i].1 ≤ x → x ≤ l[i + 1].1 →
    npInterp l x = (l[i + 1].2 - l[i].2) / (l[i + 1].1 - l[i].1) * (x - l[i].1) + l[i].2
  | [], _, _, hi, _, _, _ => by simp at hi
  | [p], _, _, hi, _, _, _ => by simp at hi
  | p :: q :: r, hs, 0, hi, x, h1, h2 => by
    have hpq : p.1 < q.1 := (List.pairwise_cons.1 hs).1 q (by simp)
    simp only [List.getElem_cons_zero, zero_add, List.getElem_cons_succ] at h1 h2 ⊢
    rw [npInterp]
    by_cases hx : x < q.1
    · rw [if_pos hx]
      split
      · have : x = p.1 := le_antisymm ‹_› h1
        rw [this]; ring
      · rfl
    · have : x = q.1 := le_antisymm h2 (not_lt.1 hx)
      rw [if_neg hx, npInterp_left (List.pairwise_cons.1 hs).2 this.le, this]
      have : q.1 - p.1 ≠ 0 := by linarith
      field_simp
      ring
  | p :: q :: r, hs, i + 1, hi, x, h1, h2 => by
    have hs' := (List.pairwise_cons.1 hs).2
    have hq : q.1 ≤ x := by
      simp only [List.getElem_cons_succ] at h1
      have : q.1 ≤ ((q :: r)[i]'(by simp at hi ⊢; omega)).1 := by
        cases i with
        | zero => exact le_refl _
        | succ k =>
          exact ((List.pairwise_cons.1 hs').1 _ (List.getElem_mem _)).le
      exact le_trans this h1
    rw [npInterp, if_neg (not_lt.2 hq)]
    exact npInterp_between hs' (by simpa using hi) h1 h2

theorem npInterp_sample {l : List (K × K)} (hs : l.Pairwise fun p q => p.1 < q.1) {p : K × K} (hp : p ∈ l) :
    npInterp l p.1 = p.2 := by
  obtain ⟨i, hi, rfl⟩ := List.mem_iff_getElem.1 hp
  by_cases h : i + 1 < l.length
  · have hlt : l[i].1 < l[i + 1].1 := List.pairwise_iff_getElem.1 hs _ _ hi h (by omega)
    rw [npInterp_between hs h (le_refl _) hlt.le]
    ring
  · refine npInterp_right (p := l[i]) ?_ ?_
    · rw [List.getLast?_eq_getElem?]
      have : l.length - 1 = i := by omega
      rw [this]; simp [hi]
    · intro q hq
      obtain ⟨j, hj, rfl⟩ := List.mem_iff_getElem.1 hq
      rcases lt_or_eq_of_le (show j ≤ i by omega) with h1 | rfl
      · exact (List.pairwise_iff_getElem.1 hs _ _ hj hi h1).le
      · exact le_refl _

/-- decreasing samples give a decreasing function -/
theorem npInterp_antitone : ∀ {l : List (K × K)}, (l.Pairwise fun p q => p.1 < q.1) → (l.Pairwise fun p q => q.2 ≤ p.2) →
    ∀ {x y : K}, x ≤ y → npInterp l y ≤ npInterp l x
  | [], _, _, _, _, _ => le_refl _
  | [p], _, _, _, _, _ => le_refl _
  | p :: q :: r, hs, hd, x, y, hxy => by
    have hpq : p.1 < q.1 := (List.pairwise_cons.1 hs).1 q (by simp)
    have hv : q.2 ≤ p.2 := (List.pairwise_cons.1 hd).1 q (by simp)
    have ih : ∀ {x y : K}, x ≤ y → npInterp (q :: r) y ≤ npInterp (q :: r) x :=
      fun h => npInterp_antitone (List.pairwise_cons.1 hs).2 (List.pairwise_cons.1 hd).2 h
    have hl : (q.2 - p.2) / (q.1 - p.1) ≤ 0 := div_nonpos_of_nonpos_of_nonneg (by linarith) (by linarith)
    have hxq : ∀ z, p.1 ≤ z → z < q.1 → q.2 ≤ (q.2 - p.2) / (q.1 - p.1) * (z - p.1) + p.2 := by
      intro z h1 h2
      have hd : q.1 - p.1 ≠ 0 := by linarith
      have : (q.2 - p.2) / (q.1 - p.1) * (q.1 - p.1) = q.2 - p.2 := by field_simp
      nlinarith
    rw [npInterp, npInterp]
    by_cases hy : y < q.1
    · have hx : x < q.1 := lt_of_le_of_lt hxy hy
      rw [if_pos hy, if_pos hx]
      by_cases hyp : y ≤ p.1
      · rw [if_pos hyp, if_pos (le_trans hxy hyp)]
      · rw [if_neg hyp]
        push Not at hyp
        by_cases hxp : x ≤ p.1
        · rw [if_pos hxp]; nlinarith
        · rw [if_neg hxp]; nlinarith
    · rw [if_neg hy]
      have hle : npInterp (q :: r) y ≤ npInterp (q :: r) q.1 := ih (not_lt.1 hy)
      rw [npInterp_left (List.pairwise_cons.1 hs).2 (le_refl _)] at hle
      by_cases hx : x < q.1
      · rw [if_pos hx]
        by_cases hxp : x ≤ p.1
        · rw [if_pos hxp]; linarith
        · rw [if_neg hxp]; push Not at hxp; linarith [hxq x hxp.le hx]
      · rw [if_neg hx]; exact ih hxy

theorem npInterp_neg : ∀ (l : List (K × K)) (x : K), npInterp (l.map fun p => (p.1, -p.2)) x = - npInterp l x
  | [], _ => by simp [npInterp]
  | [p], _ => by simp [npInterp]
  | p :: q :: r, x => by
    have := npInterp_neg (q :: r) x
    simp only [List.map_cons] at this ⊢
    rw [npInterp, npInterp, this]
    split
    · split
      · rfl
      · ring
    · rfl

theorem npInterp_monotone {l : List (K × K)} (hs : l.Pairwise fun p q => p.1 < q.1) (hd : l.Pairwise fun p q => p.2 ≤ q.2)
    {x y : K} (h : x ≤ y) : npInterp l x ≤ npInterp l y := by
  have := npInterp_antitone (l := l.map fun p => (p.1, -p.2)) (by rw [List.pairwise_map]; exact hs)
    (by rw [List.pairwise_map]; exact hd.imp fun h => by simpa using h) h
  rw [npInterp_neg, npInterp_neg] at this
  linarith

theorem strict_of_distinct {l : List (K × K)} (hs : l.Pairwise fun p q => p.1 ≤ q.1) (hd : DistinctX l) :
    l.Pairwise fun p q => p.1 < q.1 := by
  unfold DistinctX List.Nodup at hd
  rw [List.pairwise_map] at hd
  exact (hs.and hd).imp fun h => lt_of_le_of_ne h.1 h.2

theorem sort_strict {sort : PtSort K} (h : IsSort sort) {l : List (K × K)} (hd : DistinctX l) :
    (sort l).Pairwise fun p q => p.1 < q.1 := by
  obtain ⟨hp, hs⟩ := h l
  apply strict_of_distinct hs
  unfold DistinctX
  exact ((hp.map _).nodup_iff).2 hd

theorem sort_unique {s t : List (K × K)} (hp : s.Perm t) (hs : s.Pairwise fun p q => p.1 < q.1)
    (ht : t.Pairwise fun p q => p.1 < q.1) : s = t := by
  refine List.Perm.eq_of_pairwise (le := fun p q : K × K => p.1 < q.1) ?_ hs ht hp
  intro a b _ _ h1 h2
  exact absurd (lt_trans h1 h2) (lt_irrefl _)

theorem sort_ne_nil {sort : PtSort K} (h : IsSort sort) {l : List (K × K)} (hl : l ≠ []) : sort l ≠ [] := by
  intro hc
  have := (h l).1
  rw [hc] at this
  exact hl (List.nil_perm.1 this)

/-- neighbours are consecutive after sorting -/
theorem neighbours_consecutive {l : List (K × K)} (hs : l.Pairwise fun p q => p.1 < q.1) {p q : K × K}
    (h : Neighbours l p q) : ∃ (i : Nat) (hi : i + 1 < l.length), l[i] = p ∧ l[i + 1] = q := by
  obtain ⟨hp, hq, hlt, hno⟩ := h
  obtain ⟨i, hi, rfl⟩ := List.mem_iff_getElem.1 hp
  obtain ⟨j, hj, rfl⟩ := List.mem_iff_getElem.1 hq
  have hij : i < j := by
    by_contra hc
    rcases lt_or_eq_of_le (not_lt.1 hc) with h1 | rfl
    · exact absurd (List.pairwise_iff_getElem.1 hs _ _ hj hi h1) (not_lt.2 hlt.le)
    · exact lt_irrefl _ hlt
  have hj1 : j = i + 1 := by
    by_contra hc
    have h1 : i + 1 < j := by omega
    rcases hno _ (List.getElem_mem (show i + 1 < l.length by omega)) with h2 | h2
    · exact absurd (List.pairwise_iff_getElem.1 hs i (i + 1) hi (by omega) (by omega)) (not_lt.2 h2)
    · exact absurd (List.pairwise_iff_getElem.1 hs (i + 1) j (by omega) hj h1) (not_lt.2 h2)
  subst hj1
  exact ⟨i, hj, rfl, rfl⟩

end Surfalize.Interp
