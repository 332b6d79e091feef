import Verif.Lemmas.Num
import Verif.Model.BaseOps

/-! Helper lemmas for the base operations. -/
set_option linter.unusedSectionVars false
namespace Surfalize
open Container BaseOps
variable {K : Type} [Field K] [LinearOrder K] [IsStrictOrderedRing K]

theorem countP_take_le (l : List K) (p : K → Bool) (k : Nat) (hk : k ≤ l.length)
    (h : ∀ i (hi : i < l.length), i < k → p l[i] = true) : k ≤ l.countP p := by
  have hsplit : l.countP p = (l.take k).countP p + (l.drop k).countP p := by
    rw [← List.countP_append, List.take_append_drop]
  have : (l.take k).countP p = (l.take k).length := by
    rw [List.countP_eq_length]
    intro a ha
    obtain ⟨i, hi, rfl⟩ := List.getElem_of_mem ha
    rw [List.length_take] at hi
    rw [List.getElem_take]
    exact h i (by omega) (by omega)
  rw [List.length_take] at this
  omega

/-- At least half of the points are at or below the median. -/
theorem median_half (l : List K) : l.length ≤ 2 * l.countP (fun x => decide (x ≤ median l)) := by
  rcases l.eq_nil_or_concat with rfl | hne
  · simp
  have hpos : 0 < l.length := by
    obtain ⟨l', a, rfl⟩ := hne; simp
  have hs := sortAsc_sorted l
  have hlen := sortAsc_length l
  rw [← (sortAsc_perm l).countP_eq]
  have hle : ∀ i j (hi : i < (sortAsc l).length) (hj : j < (sortAsc l).length), i ≤ j →
      (sortAsc l)[i] ≤ (sortAsc l)[j] := by
    intro i j hi hj hij
    rcases Nat.eq_or_lt_of_le hij with rfl | hlt
    · exact le_refl _
    · exact List.pairwise_iff_getElem.1 hs i j hi hj hlt
  by_cases hodd : l.length % 2 = 1
  · have hk := countP_take_le (sortAsc l) (fun x => decide (x ≤ median l)) (l.length / 2 + 1) (by omega) (by
      intro i hi hik
      have hm : l.length / 2 < (sortAsc l).length := by omega
      simp only [median, hodd, if_true, decide_eq_true_eq]
      rw [getD_of_lt _ hm]
      exact hle i _ hi hm (by omega))
    omega
  · have hk := countP_take_le (sortAsc l) (fun x => decide (x ≤ median l)) (l.length / 2) (by omega) (by
      intro i hi hik
      have hm : l.length / 2 < (sortAsc l).length := by omega
      have hm1 : l.length / 2 - 1 < (sortAsc l).length := by omega
      simp only [median, hodd, if_false, decide_eq_true_eq]
      rw [getD_of_lt _ hm, getD_of_lt _ hm1]
      have h1 := hle i _ hi hm1 (by omega)
      have h2 := hle _ _ hm1 hm (by omega)
      linarith)
    omega

theorem median_nonneg {l : List K} (h : ∀ x ∈ l, 0 ≤ x) : 0 ≤ median l := by
  rcases l.eq_nil_or_concat with rfl | hne
  · simp [median, sortAsc]
  have hpos : 0 < l.length := by
    obtain ⟨l', a, rfl⟩ := hne; simp
  by_contra hneg
  push Not at hneg
  have h0 : l.countP (fun x => decide (x ≤ median l)) = 0 := by
    rw [List.countP_eq_zero]
    intro a ha
    simp only [decide_eq_true_eq, not_le]
    exact lt_of_lt_of_le hneg (h a ha)
  have := median_half l
  omega

/-- Markov's inequality on lists. -/
theorem markov {l : List K} (f : K → K) (hf : ∀ x, 0 ≤ f x) (t : K) :
    t * (l.countP (fun x => decide (t < f x)) : K) ≤ (l.map f).sum := by
  induction l with
  | nil => simp
  | cons a l ih =>
    simp only [List.countP_cons, List.map_cons, List.sum_cons]
    by_cases h : t < f a
    · simp only [h, decide_true, if_true]; push_cast; nlinarith
    · have := hf a
      simp only [h]; push_cast; simp; nlinarith

theorem grid_ne_nil (n : Nat) (hn : 0 < n) :
    ((List.range n).map fun i : Nat => ((i : K) + 1) / (n : K)) ≠ [] := by
  simp; omega

theorem grid_pairwise (n : Nat) (hn : 0 < n) :
    ((List.range n).map fun i : Nat => ((i : K) + 1) / (n : K)).Pairwise (· < ·) := by
  rw [List.pairwise_map]
  refine List.Pairwise.imp ?_ List.pairwise_lt_range
  intro a b hab
  have h0 : (0 : K) < (n : K) := by exact_mod_cast hn
  have : (a : K) < (b : K) := by exact_mod_cast hab
  rw [div_lt_div_iff_of_pos_right h0]; linarith

/-- The index chosen on the grid `(i+1)/n` is nearest to the target `t`, within half a step when the
target is inside the grid. -/
theorem argclosest_grid (n : Nat) (hn : 0 < n) (t : K) (ht1 : t ≤ 1) :
    let i := argclosest t ((List.range n).map fun i : Nat => ((i : K) + 1) / (n : K))
    i < n ∧ (i = 0 ∨ (i : K) + 1 ≤ n * t + 1 / 2) ∧ n * t - 1 / 2 ≤ (i : K) + 1 := by
  intro i
  have hne : ((List.range n).map fun i : Nat => ((i : K) + 1) / (n : K)) ≠ [] := by
    simp; omega
  have h0 : (0 : K) < (n : K) := by exact_mod_cast hn
  have hi' := argclosest_lt (x := t) hne
  have hi : i < n := by simpa using hi'
  have hval : ∀ j, j < n → |((i : K) + 1) / n - t| ≤ |((j : K) + 1) / n - t| := by
    intro j hj
    have := argclosest_le (x := t) hi' (j := j) (by simpa using hj)
    simpa [i] using this
  refine ⟨hi, ?_, ?_⟩
  · rcases Nat.eq_zero_or_pos i with h | h
    · exact Or.inl h
    · right
      have h1 := hval (i - 1) (by omega)
      have hcast : ((i - 1 : Nat) : K) = (i : K) - 1 := by
        rw [Nat.cast_sub (by omega)]; simp
      rw [hcast] at h1
      have hlt : ((i : K) - 1 + 1) / n < ((i : K) + 1) / n := by
        rw [div_lt_div_iff_of_pos_right h0]; linarith
      -- the first nearest index is strictly nearer than its predecessor
      have h2 := argclosest_first (x := t) hi' (j := i - 1) (by simp only [i] at h ⊢; omega)
      have h2' : |((i : K) + 1) / n - t| < |((i : K) - 1 + 1) / n - t| := by
        simpa [i, hcast, Nat.cast_sub (show 1 ≤ i by omega)] using h2
      rw [abs_sub_lt_iff_mid hlt] at h2'
      have : ((i : K) - 1 + 1) / n + ((i : K) + 1) / n = (2 * (i : K) + 1) / n := by ring
      rw [this, div_lt_iff₀ h0] at h2'
      linarith
  · by_cases hlast : i + 1 = n
    · have : (i : K) + 1 = n := by exact_mod_cast hlast
      rw [this]; nlinarith
    · have h1 := hval (i + 1) (by omega)
      push_cast at h1
      have hlt : ((i : K) + 1) / n < ((i : K) + 1 + 1) / n := by
        rw [div_lt_div_iff_of_pos_right h0]; linarith
      have h3 : ¬ |((i : K) + 1 + 1) / n - t| < |((i : K) + 1) / n - t| := not_lt.2 h1
      rw [abs_sub_lt_iff_mid hlt] at h3
      push Not at h3
      have : ((i : K) + 1) / n + ((i : K) + 1 + 1) / n = (2 * (i : K) + 3) / n := by ring
      rw [this, le_div_iff₀ h0] at h3
      linarith

end Surfalize
