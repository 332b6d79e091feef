import Verif.Model.Abbott
import Verif.Spec.Detrend
import Verif.Lemmas.Interp
import Verif.Lemmas.Profiles
import Mathlib.Tactic.Linarith
import Mathlib.Tactic.Positivity
import Mathlib.Tactic.FieldSimp
import Mathlib.Tactic.NormNum

/-! Lemmas about the material ratio curve. -/
set_option linter.unusedSectionVars false
namespace Surfalize.Abbott
open Surfalize Interp Geometry Spec

variable {K : Type} [Field K] [LinearOrder K] [IsStrictOrderedRing K] [FloorRing K]

/-! ### quantiles -/

/-- position `i + t` in the sorted list, `0 ≤ t < 1`, `i + 1 < n` -/
theorem quantile_eq {s : List K} {q : K} {i : Nat} (hi : i + 1 < s.length) (h1 : (i : K) ≤ q * ((s.length : K) - 1))
    (h2 : q * ((s.length : K) - 1) ≤ (i : K) + 1) :
    quantile s q = s[i] + (q * ((s.length : K) - 1) - i) * (s[i + 1] - s[i]) := by
  unfold quantile
  simp only
  rcases lt_or_eq_of_le h2 with h | h
  · have hf : ⌊q * ((s.length : K) - 1)⌋ = (i : ℤ) := by
      rw [Int.floor_eq_iff]; push_cast; exact ⟨h1, h⟩
    rw [hf, Int.toNat_natCast, getD_of_lt _ (by omega), Nat.min_eq_left (by omega), getD_of_lt _ hi]
  · have hf : ⌊q * ((s.length : K) - 1)⌋ = ((i + 1 : Nat) : ℤ) := by
      rw [Int.floor_eq_iff, h]; push_cast; exact ⟨le_refl _, by linarith⟩
    rw [hf, Int.toNat_natCast, getD_of_lt _ hi, h]
    push_cast
    ring

theorem exists_cell {n : Nat} (hn : 2 ≤ n) {x : K} (h0 : 0 ≤ x) (h1 : x ≤ (n : K) - 1) :
    ∃ i : Nat, i + 1 < n ∧ (i : K) ≤ x ∧ x ≤ (i : K) + 1 := by
  rcases lt_or_eq_of_le h1 with h | h
  · refine ⟨⌊x⌋.toNat, ?_, ?_, ?_⟩
    · have hf : 0 ≤ ⌊x⌋ := Int.floor_nonneg.2 h0
      have : ⌊x⌋ < (n : ℤ) - 1 := by
        rw [Int.floor_lt]; push_cast; exact h
      omega
    · have hf : 0 ≤ ⌊x⌋ := Int.floor_nonneg.2 h0
      have e : ((⌊x⌋.toNat : Nat) : K) = ((⌊x⌋ : ℤ) : K) := by
        rw [← Int.cast_natCast, Int.toNat_of_nonneg hf]
      rw [e]; exact Int.floor_le x
    · have hf : 0 ≤ ⌊x⌋ := Int.floor_nonneg.2 h0
      have e : ((⌊x⌋.toNat : Nat) : K) = ((⌊x⌋ : ℤ) : K) := by
        rw [← Int.cast_natCast, Int.toNat_of_nonneg hf]
      rw [e]; exact (Int.lt_floor_add_one x).le
  · refine ⟨n - 2, by omega, ?_, ?_⟩
    · rw [h, Nat.cast_sub hn]; push_cast; linarith
    · rw [h, Nat.cast_sub hn]; push_cast; linarith

theorem quantile_single (a q : K) : quantile [a] q = a := by
  unfold quantile
  simp

theorem quantile_zero {s : List K} (hne : s ≠ []) : quantile s 0 = s[0]'(List.length_pos_of_ne_nil hne) := by
  have hpos := List.length_pos_of_ne_nil hne
  unfold quantile
  simp [hpos]

theorem quantile_one {s : List K} (hne : s ≠ []) :
    quantile s 1 = s[s.length - 1]'(by have := List.length_pos_of_ne_nil hne; omega) := by
  have hpos := List.length_pos_of_ne_nil hne
  by_cases h1 : s.length = 1
  · obtain ⟨a, rfl⟩ := List.length_eq_one_iff.1 h1
    simp [quantile_single]
  · have hn : 2 ≤ s.length := by omega
    have hc : ((s.length - 2 : Nat) : K) = (s.length : K) - 2 := by rw [Nat.cast_sub hn]; norm_num
    rw [quantile_eq (i := s.length - 2) (by omega) (by rw [hc]; linarith) (by rw [hc]; linarith), hc]
    have e : s[s.length - 2 + 1]'(by omega) = s[s.length - 1] := by congr 1; omega
    rw [e]; ring

theorem quantile_mono {s : List K} (hs : s.Pairwise (· ≤ ·)) (hne : s ≠ []) {p q : K} (h0 : 0 ≤ p) (hpq : p ≤ q)
    (h1 : q ≤ 1) : quantile s p ≤ quantile s q := by
  have hpos := List.length_pos_of_ne_nil hne
  by_cases hl : s.length = 1
  · obtain ⟨a, rfl⟩ := List.length_eq_one_iff.1 hl
    simp [quantile_single]
  have hn : 2 ≤ s.length := by omega
  have hN : (1 : K) ≤ (s.length : K) - 1 := by
    have : ((2 : Nat) : K) ≤ (s.length : K) := by exact_mod_cast hn
    push_cast at this; linarith
  have hmon : p * ((s.length : K) - 1) ≤ q * ((s.length : K) - 1) := by nlinarith
  obtain ⟨i, hi, a1, a2⟩ := exists_cell hn (x := p * ((s.length : K) - 1)) (by nlinarith) (by nlinarith)
  obtain ⟨j, hj, b1, b2⟩ := exists_cell hn (x := q * ((s.length : K) - 1)) (by nlinarith) (by nlinarith)
  rw [quantile_eq hi a1 a2, quantile_eq hj b1 b2]
  have sle : ∀ a b (ha : a < s.length) (hb : b < s.length), a ≤ b → s[a] ≤ s[b] := by
    intro a b ha hb hab
    rcases lt_or_eq_of_le hab with h | rfl
    · exact List.pairwise_iff_getElem.1 hs _ _ ha hb h
    · exact le_refl _
  have d1 := sle i (i + 1) (by omega) hi (by omega)
  have d2 := sle j (j + 1) (by omega) hj (by omega)
  rcases lt_trichotomy i j with h | h | h
  · have d3 := sle (i + 1) j hi (by omega) (by omega)
    nlinarith
  · subst h; nlinarith
  · -- j < i forces p = q at the border
    have hij : ((j : K) + 1) ≤ (i : K) := by exact_mod_cast h
    have e1 : q * ((s.length : K) - 1) = p * ((s.length : K) - 1) := by linarith
    have e2 : p * ((s.length : K) - 1) = i := by linarith
    have e3 : q * ((s.length : K) - 1) = (j : K) + 1 := by linarith
    have hji : i = j + 1 := by
      have : (i : K) = ((j + 1 : Nat) : K) := by push_cast; linarith
      exact_mod_cast this
    subst hji
    rw [e2, e3]
    push_cast
    nlinarith

theorem quantile_strict {s : List K} (hs : s.Pairwise (· < ·)) (hn : 2 ≤ s.length) {p q : K} (h0 : 0 ≤ p) (hpq : p < q)
    (h1 : q ≤ 1) : quantile s p < quantile s q := by
  have hN : (1 : K) ≤ (s.length : K) - 1 := by
    have : ((2 : Nat) : K) ≤ (s.length : K) := by exact_mod_cast hn
    push_cast at this; linarith
  have hmon : p * ((s.length : K) - 1) < q * ((s.length : K) - 1) := by nlinarith
  obtain ⟨i, hi, a1, a2⟩ := exists_cell hn (x := p * ((s.length : K) - 1)) (by nlinarith) (by nlinarith)
  obtain ⟨j, hj, b1, b2⟩ := exists_cell hn (x := q * ((s.length : K) - 1)) (by nlinarith) (by nlinarith)
  rw [quantile_eq hi a1 a2, quantile_eq hj b1 b2]
  have slt : ∀ a b (ha : a < s.length) (hb : b < s.length), a < b → s[a] < s[b] :=
    fun a b ha hb hab => List.pairwise_iff_getElem.1 hs _ _ ha hb hab
  have sle : ∀ a b (ha : a < s.length) (hb : b < s.length), a ≤ b → s[a] ≤ s[b] := by
    intro a b ha hb hab
    rcases lt_or_eq_of_le hab with h | rfl
    · exact (slt _ _ ha hb h).le
    · exact le_refl _
  have d1 := slt i (i + 1) (by omega) hi (by omega)
  have d2 := slt j (j + 1) (by omega) hj (by omega)
  rcases lt_trichotomy i j with h | h | h
  · have d3 := sle (i + 1) j hi (by omega) (by omega)
    rcases lt_or_eq_of_le a2 with a3 | a3
    · nlinarith
    · rcases lt_or_eq_of_le b1 with b3 | b3
      · nlinarith
      · have hij : ((i : K) + 1) < (j : K) := by linarith
        have : i + 1 < j := by exact_mod_cast (by push_cast; exact hij : ((i + 1 : Nat) : K) < (j : K))
        have d4 := slt (i + 1) j hi (by omega) this
        nlinarith
  · subst h; nlinarith
  · have hij : ((j : K) + 1) ≤ (i : K) := by exact_mod_cast h
    linarith

/-! ### the sampled curve -/

theorem ratios_length (n : Nat) : (ratios n : List K).length = n := linspace_length _ _ _
theorem heights_length (n : Nat) (d : List K) : (heights n d).length = n := by simp [heights, ratios_length]

theorem ratios_get {n : Nat} (hn : 2 ≤ n) {i : Nat} (hi : i < (ratios n : List K).length) :
    (ratios n : List K)[i] = (i : K) * (100 / ((n : K) - 1)) := by
  unfold ratios linspace
  simp only [if_neg (show ¬ n = 1 by omega), List.getElem_map, List.getElem_range, sub_zero, zero_add]

theorem cast_ge_one {n : Nat} (hn : 2 ≤ n) : (1 : K) ≤ (n : K) - 1 := by
  have : ((2 : Nat) : K) ≤ (n : K) := by exact_mod_cast hn
  push_cast at this; linarith

theorem ratios_strict {n : Nat} (hn : 2 ≤ n) : (ratios n : List K).Pairwise (· < ·) := by
  rw [List.pairwise_iff_getElem]
  intro i j hi hj hij
  rw [ratios_get hn, ratios_get hn]
  have h1 := cast_ge_one (K := K) hn
  have h2 : (0 : K) < 100 / ((n : K) - 1) := by positivity
  have h3 : (i : K) < (j : K) := by exact_mod_cast hij
  nlinarith

theorem ratios_bounds {n : Nat} (_hn : 2 ≤ n) {m : K} (h : m ∈ ratios n) : 0 ≤ m ∧ m ≤ 100 := by
  obtain ⟨t, h0, h1, e⟩ := linspace_mem _ _ _ h
  rw [e]; constructor <;> nlinarith

theorem heights_get {n : Nat} (d : List K) {i : Nat} (hi : i < (heights n d).length) :
    (heights n d)[i] = quantile (sortAsc d) (1 - (ratios n)[i]'(by simpa [heights] using hi) / 100) := by
  simp [heights]

theorem heights_antitone {n : Nat} (hn : 2 ≤ n) {d : List K} (hd : d ≠ []) : (heights n d).Pairwise (· ≥ ·) := by
  rw [List.pairwise_iff_getElem]
  intro i j hi hj hij
  rw [heights_get, heights_get]
  have hr := List.pairwise_iff_getElem.1 (ratios_strict (K := K) hn) i j (by simpa [heights] using hi) (by simpa [heights] using hj) hij
  have b1 := ratios_bounds hn (List.getElem_mem (l := (ratios n : List K)) (n := i) (by simpa [heights] using hi))
  have b2 := ratios_bounds hn (List.getElem_mem (l := (ratios n : List K)) (n := j) (by simpa [heights] using hj))
  have hne : sortAsc d ≠ [] := by
    intro hc; have := sortAsc_length d; rw [hc] at this
    exact hd (List.length_eq_zero_iff.1 this.symm)
  exact quantile_mono (sortAsc_sorted d) hne (by linarith) (by linarith) (by linarith)

theorem sortAsc_strict {d : List K} (hd : d.Nodup) : (sortAsc d).Pairwise (· < ·) := by
  have h1 : (sortAsc d).Nodup := (sortAsc_perm d).nodup_iff.2 hd
  exact ((sortAsc_sorted d).and h1).imp fun h => lt_of_le_of_ne h.1 h.2

theorem heights_strict {n : Nat} (hn : 2 ≤ n) {d : List K} (hd : d.Nodup) (h2 : 2 ≤ d.length) :
    (heights n d).Pairwise (· > ·) := by
  rw [List.pairwise_iff_getElem]
  intro i j hi hj hij
  rw [heights_get, heights_get]
  have hr := List.pairwise_iff_getElem.1 (ratios_strict (K := K) hn) i j (by simpa [heights] using hi) (by simpa [heights] using hj) hij
  have b1 := ratios_bounds hn (List.getElem_mem (l := (ratios n : List K)) (n := i) (by simpa [heights] using hi))
  have b2 := ratios_bounds hn (List.getElem_mem (l := (ratios n : List K)) (n := j) (by simpa [heights] using hj))
  exact quantile_strict (sortAsc_strict hd) (by rw [sortAsc_length]; exact h2) (by linarith) (by linarith) (by linarith)

theorem sortAsc_ne {d : List K} (hd : d ≠ []) : sortAsc d ≠ [] := by
  intro hc; have := sortAsc_length d; rw [hc] at this
  exact hd (List.length_eq_zero_iff.1 this.symm)

theorem heights_first {n : Nat} (hn : 2 ≤ n) {d : List K} (hd : d ≠ []) :
    (heights n d)[0]'(by rw [heights_length]; omega) ∈ d ∧
    ∀ z ∈ d, z ≤ (heights n d)[0]'(by rw [heights_length]; omega) := by
  have hne := sortAsc_ne hd
  have e : (heights n d)[0]'(by rw [heights_length]; omega) = quantile (sortAsc d) 1 := by
    rw [heights_get, ratios_get hn]; simp
  rw [e, quantile_one hne]
  refine ⟨(sortAsc_perm d).mem_iff.1 (List.getElem_mem _), ?_⟩
  intro z hz
  obtain ⟨i, hi, rfl⟩ := List.mem_iff_getElem.1 ((sortAsc_perm d).mem_iff.2 hz)
  rcases lt_or_eq_of_le (show i ≤ (sortAsc d).length - 1 by omega) with h | h
  · exact List.pairwise_iff_getElem.1 (sortAsc_sorted d) _ _ hi (by omega) h
  · subst h; exact le_refl _

theorem heights_last {n : Nat} (hn : 2 ≤ n) {d : List K} (hd : d ≠ []) :
    (heights n d)[n - 1]'(by rw [heights_length]; omega) ∈ d ∧
    ∀ z ∈ d, (heights n d)[n - 1]'(by rw [heights_length]; omega) ≤ z := by
  have hne := sortAsc_ne hd
  have h1 := cast_ge_one (K := K) hn
  have e : (heights n d)[n - 1]'(by rw [heights_length]; omega) = quantile (sortAsc d) 0 := by
    rw [heights_get, ratios_get hn]
    congr 1
    rw [Nat.cast_sub (by omega)]
    push_cast
    have : (n : K) - 1 ≠ 0 := by linarith
    field_simp
    ring
  rw [e, quantile_zero hne]
  refine ⟨(sortAsc_perm d).mem_iff.1 (List.getElem_mem _), ?_⟩
  intro z hz
  obtain ⟨i, hi, rfl⟩ := List.mem_iff_getElem.1 ((sortAsc_perm d).mem_iff.2 hz)
  rcases Nat.eq_zero_or_pos i with h | h
  · subst h; exact le_refl _
  · exact List.pairwise_iff_getElem.1 (sortAsc_sorted d) _ _ _ hi h

/-! ### the search loop -/

/-- the slopes examined by the loop -/
def slopesOf (smc : K → K) (l : List (K × K)) : List K :=
  (l.takeWhile fun p => decide (p.1 ≤ 60)).map fun p => (smc (p.1 + 40) - p.2) / 40

theorem search_some (smc : K → K) : ∀ (l : List (K × K)) (i : Nat) (best : K) (f : Nat), (∃ p ∈ l, 60 < p.1) →
    ∃ r, search smc l i (some best, f) = .ok r ∧
      ((r = f ∧ ∀ s ∈ slopesOf smc l, s ≤ best) ∨
       ∃ (k : Nat) (hk : k < (slopesOf smc l).length), r = i + k ∧ best < (slopesOf smc l)[k] ∧
        (∀ s ∈ slopesOf smc l, s ≤ (slopesOf smc l)[k]) ∧
        ∀ (j : Nat) (hj : j < k), (slopesOf smc l)[j] < (slopesOf smc l)[k])
  | [], _, _, _, h => by obtain ⟨p, hp, _⟩ := h; cases hp
  | p :: l, i, best, f, h => by
    rw [search]
    have h60 : (100 : K) - 40 = 60 := by norm_num
    by_cases hp : p.1 > 100 - 40
    · rw [if_pos hp]
      refine ⟨f, rfl, Or.inl ⟨rfl, ?_⟩⟩
      intro s hs
      unfold slopesOf at hs
      rw [List.takeWhile_cons, if_neg (by rw [h60] at hp; simpa using hp)] at hs
      cases hs
    · rw [if_neg hp]
      simp only
      rw [h60] at hp
      have hp' : p.1 ≤ 60 := not_lt.1 hp
      have hex : ∃ p ∈ l, 60 < p.1 := by
        obtain ⟨q, hq, hq'⟩ := h
        rcases List.mem_cons.1 hq with rfl | hq
        · exact absurd hq' (not_lt.2 hp')
        · exact ⟨q, hq, hq'⟩
      have hsl : slopesOf smc (p :: l) = (smc (p.1 + 40) - p.2) / 40 :: slopesOf smc l := by
        unfold slopesOf
        rw [List.takeWhile_cons, if_pos (by simpa using hp'), List.map_cons]
      set s0 := (smc (p.1 + 40) - p.2) / 40 with hs0
      by_cases hb : s0 > best
      · rw [if_pos hb]
        obtain ⟨r, hr, hcase⟩ := search_some smc l (i + 1) s0 i hex
        refine ⟨r, hr, Or.inr ?_⟩
        rcases hcase with ⟨h1, h2⟩ | ⟨k, hk, h1, h2, h3, h4⟩
        · refine ⟨0, by rw [hsl]; simp, by simpa using h1, ?_, ?_, ?_⟩
          · simpa only [hsl, List.getElem_cons_zero] using hb
          · intro s hs
            simp only [hsl, List.getElem_cons_zero]
            rw [hsl] at hs
            rcases List.mem_cons.1 hs with rfl | hs
            · exact le_refl _
            · exact h2 s hs
          · intro j hj; omega
        · refine ⟨k + 1, by rw [hsl]; simpa using hk, by omega, ?_, ?_, ?_⟩
          · simp only [hsl, List.getElem_cons_succ]; linarith
          · intro s hs
            simp only [hsl, List.getElem_cons_succ]
            rw [hsl] at hs
            rcases List.mem_cons.1 hs with rfl | hs
            · exact h2.le
            · exact h3 s hs
          · intro j hj
            cases j with
            | zero => simp only [hsl, List.getElem_cons_succ, List.getElem_cons_zero]; exact h2
            | succ j => simp only [hsl, List.getElem_cons_succ]; exact h4 j (by omega)
      · rw [if_neg hb]
        obtain ⟨r, hr, hcase⟩ := search_some smc l (i + 1) best f hex
        refine ⟨r, hr, ?_⟩
        rcases hcase with ⟨h1, h2⟩ | ⟨k, hk, h1, h2, h3, h4⟩
        · refine Or.inl ⟨h1, ?_⟩
          intro s hs
          rw [hsl] at hs
          rcases List.mem_cons.1 hs with rfl | hs
          · exact not_lt.1 hb
          · exact h2 s hs
        · refine Or.inr ⟨k + 1, by rw [hsl]; simpa using hk, by omega, ?_, ?_, ?_⟩
          · simp only [hsl, List.getElem_cons_succ]; exact h2
          · intro s hs
            simp only [hsl, List.getElem_cons_succ]
            rw [hsl] at hs
            rcases List.mem_cons.1 hs with rfl | hs
            · linarith [not_lt.1 hb]
            · exact h3 s hs
          · intro j hj
            cases j with
            | zero => simp only [hsl, List.getElem_cons_succ, List.getElem_cons_zero]; linarith [not_lt.1 hb]
            | succ j => simp only [hsl, List.getElem_cons_succ]; exact h4 j (by omega)

/-- the loop returns the first index of the largest slope -/
theorem search_spec (smc : K → K) (l : List (K × K)) (h0 : ∃ p, l.head? = some p ∧ p.1 ≤ 60) (h : ∃ p ∈ l, 60 < p.1) :
    ∃ r, search smc l 0 (none, 0) = .ok r ∧ ∃ hr : r < (slopesOf smc l).length,
      (∀ s ∈ slopesOf smc l, s ≤ (slopesOf smc l)[r]) ∧
      ∀ (j : Nat) (hj : j < r), (slopesOf smc l)[j] < (slopesOf smc l)[r] := by
  cases l with
  | nil => obtain ⟨p, hp, _⟩ := h; cases hp
  | cons p l =>
    obtain ⟨p', hp', hp60⟩ := h0
    simp only [List.head?_cons, Option.some.injEq] at hp'
    subst hp'
    have hex : ∃ p ∈ l, 60 < p.1 := by
      obtain ⟨q, hq, hq'⟩ := h
      rcases List.mem_cons.1 hq with rfl | hq
      · exact absurd hq' (not_lt.2 hp60)
      · exact ⟨q, hq, hq'⟩
    have h60 : (100 : K) - 40 = 60 := by norm_num
    rw [search, if_neg (by rw [h60]; exact not_lt.2 hp60)]
    simp only
    have hsl : slopesOf smc (p :: l) = (smc (p.1 + 40) - p.2) / 40 :: slopesOf smc l := by
      unfold slopesOf
      rw [List.takeWhile_cons, if_pos (by simpa using hp60), List.map_cons]
    obtain ⟨r, hr, hcase⟩ := search_some smc l 1 ((smc (p.1 + 40) - p.2) / 40) 0 hex
    refine ⟨r, hr, ?_⟩
    rcases hcase with ⟨h1, h2⟩ | ⟨k, hk, h1, h2, h3, h4⟩
    · subst h1
      refine ⟨by rw [hsl]; simp, ?_, fun j hj => by omega⟩
      intro s hs
      simp only [hsl, List.getElem_cons_zero]
      rw [hsl] at hs
      rcases List.mem_cons.1 hs with rfl | hs
      · exact le_refl _
      · exact h2 s hs
    · have hrk : r = k + 1 := by omega
      subst hrk
      refine ⟨by rw [hsl]; simpa using hk, ?_, ?_⟩
      · intro s hs
        simp only [hsl, List.getElem_cons_succ]
        rw [hsl] at hs
        rcases List.mem_cons.1 hs with rfl | hs
        · exact h2.le
        · exact h3 s hs
      · intro j hj
        cases j with
        | zero => simp only [hsl, List.getElem_cons_succ, List.getElem_cons_zero]; exact h2
        | succ j => simp only [hsl, List.getElem_cons_succ]; exact h4 j (by omega)

/-! ### the fitted line -/

theorem sum_map_sub' {β : Type} (l : List β) (f g : β → K) : (l.map fun x => f x - g x).sum = (l.map f).sum - (l.map g).sum := by
  induction l with
  | nil => simp
  | cons x l ih => simp only [List.map_cons, List.sum_cons, ih]; ring

theorem sum_nonpos' {l : List K} (h : ∀ x ∈ l, x ≤ 0) : l.sum ≤ 0 := by
  induction l with
  | nil => simp
  | cons x l ih =>
    rw [List.sum_cons]
    have := h x (by simp)
    have := ih fun y hy => h y (by simp [hy])
    linarith

theorem quad_zero {R W : K} (h : ∀ t : K, 0 ≤ -2 * t * R + t ^ 2 * W) : R = 0 := by
  by_contra hR
  have hW : 0 ≤ W := by
    have h1 := h 1
    have h2 := h (-1)
    nlinarith
  have h3 := h (R / (W + 1))
  have hpos : 0 < W + 1 := by linarith
  have : -2 * (R / (W + 1)) * R + (R / (W + 1)) ^ 2 * W = - (R ^ 2 * (W + 2)) / (W + 1) ^ 2 := by field_simp; ring
  rw [this] at h3
  have hR2 : 0 < R ^ 2 := by positivity
  have : 0 < R ^ 2 * (W + 2) / (W + 1) ^ 2 := by positivity
  have e : - (R ^ 2 * (W + 2)) / (W + 1) ^ 2 = - (R ^ 2 * (W + 2) / (W + 1) ^ 2) := by ring
  linarith

theorem sq_shift (l : List (K × K)) (a b c d t : K) :
    (l.map fun p => (p.2 - (a * p.1 + b) - t * (c * p.1 + d)) ^ 2).sum
      = (l.map fun p => (p.2 - (a * p.1 + b)) ^ 2).sum - 2 * t * (l.map fun p => (p.2 - (a * p.1 + b)) * (c * p.1 + d)).sum
        + t ^ 2 * (l.map fun p => (c * p.1 + d) ^ 2).sum := by
  induction l with
  | nil => simp
  | cons p l ih => simp only [List.map_cons, List.sum_cons, ih]; ring

/-- least squares line -/
def IsLine (l : List (K × K)) (a b : K) : Prop :=
  ∀ a' b' : K, (l.map fun p => (p.2 - (a * p.1 + b)) ^ 2).sum ≤ (l.map fun p => (p.2 - (a' * p.1 + b')) ^ 2).sum

theorem line_normal {l : List (K × K)} {a b : K} (h : IsLine l a b) (c d : K) :
    (l.map fun p => (p.2 - (a * p.1 + b)) * (c * p.1 + d)).sum = 0 := by
  apply quad_zero (W := (l.map fun p => (c * p.1 + d) ^ 2).sum)
  intro t
  have h1 := h (a + t * c) (b + t * d)
  have e : (l.map fun p => (p.2 - ((a + t * c) * p.1 + (b + t * d))) ^ 2) = l.map fun p => (p.2 - (a * p.1 + b) - t * (c * p.1 + d)) ^ 2 := by
    apply List.map_congr_left; intro p _; ring
  rw [e, sq_shift] at h1
  linarith

theorem cov_inner (l : List (K × K)) (x y : K) :
    (l.map fun q => (x - q.1) * (y - q.2)).sum
      = l.length * (x * y) - x * (l.map fun q => q.2).sum - y * (l.map fun q => q.1).sum + (l.map fun q => q.1 * q.2).sum := by
  induction l with
  | nil => simp
  | cons p l ih => simp only [List.map_cons, List.sum_cons, ih, List.length_cons]; push_cast; ring

/-- `Σ_p Σ_q (p₁ - q₁) (p₂ - q₂)` through the line's coefficients -/
theorem cov_line {l : List (K × K)} {a b : K} (h : IsLine l a b) :
    (l.map fun p => (l.map fun q => (p.1 - q.1) * (p.2 - q.2)).sum).sum
      = a * (l.map fun p => (l.map fun q => (p.1 - q.1) * (p.1 - q.1)).sum).sum := by
  have e1 : (l.map fun p => (l.map fun q => (p.1 - q.1) * (p.2 - q.2)).sum).sum
      - a * (l.map fun p => (l.map fun q => (p.1 - q.1) * (p.1 - q.1)).sum).sum
      = (l.map fun p => (l.map fun q => (p.1 - q.1) * ((p.2 - (a * p.1 + b)) - (q.2 - (a * q.1 + b)))).sum).sum := by
    rw [← sum_map_mul_const, List.map_map, ← sum_map_sub']
    congr 1
    apply List.map_congr_left
    intro p _
    simp only [Function.comp_apply]
    rw [← sum_map_mul_const, List.map_map, ← sum_map_sub']
    congr 1
    apply List.map_congr_left
    intro q _
    simp only [Function.comp_apply]
    ring
  have e2 : (l.map fun p => (l.map fun q => (p.1 - q.1) * ((p.2 - (a * p.1 + b)) - (q.2 - (a * q.1 + b)))).sum).sum = 0 := by
    have hn0 := line_normal h 0 1
    have hn1 := line_normal h 1 0
    simp only [zero_mul, zero_add, mul_one, one_mul, add_zero] at hn0 hn1
    have inner : ∀ p : K × K, (l.map fun q => (p.1 - q.1) * ((p.2 - (a * p.1 + b)) - (q.2 - (a * q.1 + b)))).sum
        = l.length * (p.1 * (p.2 - (a * p.1 + b))) - (p.2 - (a * p.1 + b)) * (l.map fun q => q.1).sum := by
      intro p
      have hc := cov_inner (l.map fun q => (q.1, q.2 - (a * q.1 + b))) p.1 (p.2 - (a * p.1 + b))
      simp only [List.map_map, Function.comp_def, List.length_map] at hc
      rw [hc, hn0]
      have : (l.map fun q => q.1 * (q.2 - (a * q.1 + b))).sum = 0 := by
        rw [← hn1]; congr 1; apply List.map_congr_left; intro q _; ring
      rw [this]; ring
    simp only [inner]
    rw [sum_map_sub']
    have s1 : (l.map fun p => (l.length : K) * (p.1 * (p.2 - (a * p.1 + b)))).sum = 0 := by
      have := sum_map_mul_const (l.map fun p => p.1 * (p.2 - (a * p.1 + b))) (l.length : K)
      rw [List.map_map] at this
      simp only [Function.comp_def] at this
      rw [this]
      have h0 : (l.map fun q => q.1 * (q.2 - (a * q.1 + b))).sum = 0 := by
        rw [← hn1]; congr 1; apply List.map_congr_left; intro q _; ring
      rw [h0, mul_zero]
    have s2 : (l.map fun p => (p.2 - (a * p.1 + b)) * (l.map fun q => q.1).sum).sum = 0 := by
      have := sum_map_mul_const (l.map fun p => p.2 - (a * p.1 + b)) (l.map fun q => q.1).sum
      rw [List.map_map] at this
      simp only [Function.comp_def] at this
      have e : (l.map fun p => (p.2 - (a * p.1 + b)) * (l.map fun q => q.1).sum) = l.map fun p => (l.map fun q => q.1).sum * (p.2 - (a * p.1 + b)) := by
        apply List.map_congr_left; intro p _; ring
      rw [e, this, hn0, mul_zero]
    rw [s1, s2, sub_zero]
  linarith

theorem line_slope_nonpos {l : List (K × K)} {a b : K} (h : IsLine l a b) (hx : l.Pairwise fun p q => p.1 < q.1)
    (hy : l.Pairwise fun p q => q.2 ≤ p.2) (h2 : 2 ≤ l.length) : a ≤ 0 := by
  have hc := cov_line h
  have mono : ∀ p ∈ l, ∀ q ∈ l, (p.1 - q.1) * (p.2 - q.2) ≤ 0 := by
    intro p hp q hq
    obtain ⟨i, hi, rfl⟩ := List.mem_iff_getElem.1 hp
    obtain ⟨j, hj, rfl⟩ := List.mem_iff_getElem.1 hq
    rcases lt_trichotomy i j with hij | hij | hij
    · have a1 := List.pairwise_iff_getElem.1 hx _ _ hi hj hij
      have a2 := List.pairwise_iff_getElem.1 hy _ _ hi hj hij
      nlinarith
    · subst hij; simp
    · have a1 := List.pairwise_iff_getElem.1 hx _ _ hj hi hij
      have a2 := List.pairwise_iff_getElem.1 hy _ _ hj hi hij
      nlinarith
  have hle : (l.map fun p => (l.map fun q => (p.1 - q.1) * (p.2 - q.2)).sum).sum ≤ 0 := by
    apply sum_nonpos'
    intro s hs
    obtain ⟨p, hp, rfl⟩ := List.mem_map.1 hs
    apply sum_nonpos'
    intro s hs
    obtain ⟨q, hq, rfl⟩ := List.mem_map.1 hs
    exact mono p hp q hq
  have hnn : ∀ p, 0 ≤ (l.map fun q => (p - q.1) * (p - q.1)).sum := by
    intro p
    apply List.sum_nonneg
    intro s hs
    obtain ⟨q, hq, rfl⟩ := List.mem_map.1 hs
    exact mul_self_nonneg _
  have hpos : 0 < (l.map fun p => (l.map fun q => (p.1 - q.1) * (p.1 - q.1)).sum).sum := by
    obtain ⟨p, q, r, rfl⟩ : ∃ p q r, l = p :: q :: r := by
      match l, h2 with
      | p :: q :: r, _ => exact ⟨p, q, r, rfl⟩
    have hpq : p.1 < q.1 := (List.pairwise_cons.1 hx).1 q (by simp)
    rw [List.map_cons, List.sum_cons]
    have t1 : 0 < ((p :: q :: r).map fun z => (p.1 - z.1) * (p.1 - z.1)).sum := by
      simp only [List.map_cons, List.sum_cons]
      have : 0 ≤ (r.map fun z => (p.1 - z.1) * (p.1 - z.1)).sum := by
        apply List.sum_nonneg
        intro s hs
        obtain ⟨q, hq, rfl⟩ := List.mem_map.1 hs
        exact mul_self_nonneg _
      nlinarith
    have t2 : 0 ≤ ((q :: r).map fun z => ((p :: q :: r).map fun w => (z.1 - w.1) * (z.1 - w.1)).sum).sum := by
      apply List.sum_nonneg
      intro s hs
      obtain ⟨z, hz, rfl⟩ := List.mem_map.1 hs
      exact hnn z.1
    linarith
  rw [hc] at hle
  by_contra hcon
  push Not at hcon
  nlinarith

end Surfalize.Abbott
