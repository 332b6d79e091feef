import Verif.Prelude.Py
import Verif.Lemmas.Num
import Mathlib.Tactic.Linarith
import Mathlib.Algebra.Order.Floor.Semiring

/-! Helper lemmas about Python primitives. -/
set_option linter.unusedSectionVars false
namespace Surfalize
variable {α : Type}

theorem normIdx_nonneg {n : Nat} {i : Int} (h : 0 ≤ i) : normIdx n i = min i.toNat n := by
  simp [normIdx, not_lt.2 h]

/-- A slice with bounds inside the list is the expected block. -/
theorem pySlice_inside (l : List α) {a b : Nat} (ha : a ≤ b) (hb : b ≤ l.length) :
    pySlice l (a : Int) (b : Int) = (l.take b).drop a := by
  have h1 : normIdx l.length (a : Int) = a := by
    rw [normIdx_nonneg (by omega)]; simp; omega
  have h2 : normIdx l.length (b : Int) = b := by
    rw [normIdx_nonneg (by omega)]; simp; omega
  simp [pySlice, h1, h2]

theorem pySlice_length_inside (l : List α) {a b : Nat} (ha : a ≤ b) (hb : b ≤ l.length) :
    (pySlice l (a : Int) (b : Int)).length = b - a := by
  rw [pySlice_inside l ha hb]; simp; omega

theorem pySlice_getElem?_inside (l : List α) {a b : Nat} (ha : a ≤ b) (hb : b ≤ l.length) (i : Nat) :
    (pySlice l (a : Int) (b : Int))[i]? = if i < b - a then l[a + i]? else none := by
  rw [pySlice_inside l ha hb, List.getElem?_drop, List.getElem?_take]
  by_cases h : i < b - a
  · rw [if_pos (by omega), if_pos h]
  · rw [if_neg (by omega), if_neg h]

theorem pySlice_map {β : Type} (f : α → β) (l : List α) (a b : Int) :
    pySlice (l.map f) a b = (pySlice l a b).map f := by
  simp [pySlice, List.map_take, List.map_drop]

theorem pySlice_length_congr {β : Type} (l : List α) (l' : List β) (h : l.length = l'.length) (a b : Int) :
    (pySlice l a b).length = (pySlice l' a b).length := by
  simp [pySlice, h]

section Floor
variable {K : Type} [Field K] [LinearOrder K] [IsStrictOrderedRing K] [FloorRing K]

theorem pyInt_nonneg {x : K} (h : 0 ≤ x) : pyInt x = ⌊x⌋ := by simp [pyInt, h]

theorem pyInt_natCast (n : Nat) : pyInt (n : K) = n := by
  rw [pyInt_nonneg (by positivity)]; simp

theorem pyInt_intCast (n : Int) : pyInt (n : K) = n := by
  unfold pyInt; split <;> simp

theorem pyInt_eq_iff {x : K} (h : 0 ≤ x) (k : Int) : pyInt x = k ↔ (k : K) ≤ x ∧ x < k + 1 := by
  rw [pyInt_nonneg h, Int.floor_eq_iff]

/-- Halving a natural number. -/
theorem pyInt_half (n : Nat) : pyInt ((((n : Int)) : K) / 2) = (n / 2 : Nat) := by
  rw [pyInt_eq_iff (by positivity)]
  have h := Nat.div_add_mod n 2
  have h2 := Nat.mod_lt n (show 0 < 2 by norm_num)
  have hK : (n : K) = 2 * ((n / 2 : Nat) : K) + ((n % 2 : Nat) : K) := by exact_mod_cast h.symm
  have hr : ((n % 2 : Nat) : K) < 2 := by exact_mod_cast h2
  have hr0 : (0 : K) ≤ ((n % 2 : Nat) : K) := by positivity
  constructor
  · rw [Int.cast_natCast, Int.cast_natCast, le_div_iff₀ (by norm_num)]; linarith
  · rw [Int.cast_natCast, Int.cast_natCast, div_lt_iff₀ (by norm_num)]; linarith

theorem pyRound_intCast (n : Int) : pyRound (n : K) = n := by
  simp [pyRound]

/-- `round` returns a nearest integer. -/
theorem pyRound_near (x : K) : |((pyRound x : Int) : K) - x| ≤ 1 / 2 := by
  have h1 := Int.floor_le x
  have h2 := Int.lt_floor_add_one x
  simp only [pyRound]
  split
  · rename_i h
    rw [abs_le]; constructor <;> linarith
  · rename_i h
    split
    · rename_i h'
      push_cast; rw [abs_le]; constructor <;> linarith
    · rename_i h'
      have he : x - (⌊x⌋ : K) = 1 / 2 := le_antisymm (not_lt.1 h') (not_lt.1 h)
      split
      · rw [abs_le]; constructor <;> linarith
      · push_cast; rw [abs_le]; constructor <;> linarith

theorem pyRound_mono {x y : K} (h : x ≤ y) : pyRound x ≤ pyRound y := by
  have hf : ⌊x⌋ ≤ ⌊y⌋ := Int.floor_le_floor h
  have bx : pyRound x = ⌊x⌋ ∨ pyRound x = ⌊x⌋ + 1 := by
    simp only [pyRound]; split_ifs <;> simp
  have by' : pyRound y = ⌊y⌋ ∨ pyRound y = ⌊y⌋ + 1 := by
    simp only [pyRound]; split_ifs <;> simp
  rcases lt_or_eq_of_le hf with hlt | heq
  · omega
  · simp only [pyRound]
    rw [← heq]
    split_ifs with a1 a2 a3 a4 a5 a6 a7 a8 a9 <;> first | omega | (exfalso; linarith)

end Floor

section Stride

theorem stride_one (l : List α) : stride 1 l = l := by
  unfold stride
  simp only [Nat.add_sub_cancel, Nat.div_one, mul_one]
  apply List.ext_getElem?
  intro i
  induction l generalizing i with
  | nil => simp
  | cons a l ih =>
    rw [List.length_cons, List.range_succ_eq_map, List.filterMap_cons]
    simp only [List.getElem?_cons_zero, List.filterMap_map]
    cases i with
    | zero => simp
    | succ i =>
      simp only [List.getElem?_cons_succ]
      have := ih i
      simpa [Function.comp_def] using this

/-- `l[::k]` has the `i`-th element `l[i*k]`. -/
theorem stride_getElem? (k : Nat) (hk : 0 < k) (l : List α) (i : Nat) : (stride k l)[i]? = l[i * k]? := by
  have hall : ∀ j ∈ List.range ((l.length + k - 1) / k), ∃ x, l[j * k]? = some x := by
    intro j hj
    have hj' : j < (l.length + k - 1) / k := List.mem_range.1 hj
    have h1 : (j + 1) * k ≤ l.length + k - 1 := (Nat.le_div_iff_mul_le hk).1 hj'
    have : j * k < l.length := by rw [Nat.add_mul, Nat.one_mul] at h1; omega
    exact ⟨l[j * k], List.getElem?_eq_getElem this⟩
  have hmap : ∀ (n : Nat), (∀ j ∈ List.range n, ∃ x, l[j * k]? = some x) →
      ((List.range n).filterMap fun i => l[i * k]?)[i]? = if i < n then l[i * k]? else none := by
    intro n
    induction n with
    | zero => intro _; simp
    | succ n ih =>
      intro h
      have ihn := ih (fun j hj => h j (by simp at hj ⊢; omega))
      have hlen : ((List.range n).filterMap fun i => l[i * k]?).length = n := by
        have : ∀ j ∈ List.range n, (l[j * k]?).isSome := by
          intro j hj
          obtain ⟨x, hx⟩ := h j (by simp at hj ⊢; omega)
          rw [hx]; rfl
        rw [List.length_filterMap_eq_countP, List.countP_eq_length.2 this, List.length_range]
      obtain ⟨x, hx⟩ := h n (by simp)
      rw [List.range_succ, List.filterMap_append]
      rcases Nat.lt_trichotomy i n with hlt | heq | hgt
      · rw [List.getElem?_append_left (by omega), ihn, if_pos hlt, if_pos (by omega)]
      · subst heq
        rw [List.getElem?_append_right (by omega), hlen, if_pos (by omega)]
        simp [hx]
      · rw [List.getElem?_append_right (by omega), hlen, if_neg (by omega)]
        simp [hx]; omega
  unfold stride
  rw [hmap _ hall]
  by_cases h : i < (l.length + k - 1) / k
  · rw [if_pos h]
  · rw [if_neg h]
    symm
    rw [List.getElem?_eq_none_iff]
    by_contra hlt
    push Not at hlt
    apply h
    apply (Nat.le_div_iff_mul_le hk).2
    rw [Nat.succ_mul]; omega

end Stride
end Surfalize
