import Verif.Model.Orientation
import Verif.Lemmas.BaseOps
import Verif.Lemmas.MapM
import Verif.Lemmas.Py
import Mathlib.Tactic.FieldSimp
import Mathlib.Tactic.Linarith
import Mathlib.Tactic.Ring

/-! Lemmas about the refined orientation. -/
set_option linter.unusedSectionVars false
namespace Surfalize

section Median
variable {K : Type} [Field K] [LinearOrder K] [IsStrictOrderedRing K]

theorem countP_drop_le (l : List K) (p : K → Bool) (k : Nat)
    (h : ∀ i (hi : i < l.length), k ≤ i → p l[i] = true) : l.length - k ≤ l.countP p := by
  have hsplit : l.countP p = (l.take k).countP p + (l.drop k).countP p := by
    rw [← List.countP_append, List.take_append_drop]
  have : (l.drop k).countP p = (l.drop k).length := by
    rw [List.countP_eq_length]
    intro a ha
    obtain ⟨i, hi, rfl⟩ := List.getElem_of_mem ha
    rw [List.length_drop] at hi
    rw [List.getElem_drop]
    exact h _ (by omega) (by omega)
  rw [List.length_drop] at this
  omega

/-- At least half of the points are at or above the median. -/
theorem median_half_ge (l : List K) : l.length ≤ 2 * l.countP (fun x => decide (median l ≤ x)) := by
  rcases l.eq_nil_or_concat with rfl | hne
  · simp
  have hpos : 0 < l.length := by
    obtain ⟨l', a, rfl⟩ := hne; simp
  have hs := sortAsc_sorted l
  have hlen := sortAsc_length l
  rw [← (sortAsc_perm l).countP_eq]
  have hle : ∀ i j (hi : i < (sortAsc l).length) (hj : j < (sortAsc l).length), i ≤ j →
      (sortAsc l)[i] ≤ (sortAsc l)[j] := by
    intro i j hi hj hij
    rcases Nat.eq_or_lt_of_le hij with rfl | hlt
    · exact le_refl _
    · exact List.pairwise_iff_getElem.1 hs i j hi hj hlt
  have hm : l.length / 2 < (sortAsc l).length := by omega
  have hk := countP_drop_le (sortAsc l) (fun x => decide (median l ≤ x)) (l.length / 2) (by
    intro i hi hik
    refine decide_eq_true ?_
    unfold median
    dsimp only
    split
    · rw [getD_of_lt _ hm]
      exact hle _ i hm hi hik
    · have hm1 : l.length / 2 - 1 < (sortAsc l).length := by omega
      rw [getD_of_lt _ hm, getD_of_lt _ hm1]
      have h1 := hle _ i hm hi hik
      have h2 := hle _ _ hm1 hm (by omega)
      linarith)
  omega

/-- A value taken by more than half of the points is the median. -/
theorem median_majority {l : List K} {v : K} (h : l.length < 2 * l.count v) : median l = v := by
  have key : ∀ p : K → Bool, l.length ≤ 2 * l.countP p → p v = true := by
    intro p hp
    by_contra hv
    have h1 : l.count v ≤ l.countP (fun x => ! p x) := by
      rw [List.count_eq_countP]
      apply List.countP_mono_left
      intro x _ hx
      have : x = v := by simpa using hx
      rw [this]
      simpa using hv
    have h2 := List.length_eq_countP_add_countP p (l := l)
    have h3 : l.countP (fun x => decide ¬ p x = true) = l.countP fun x => ! p x := by
      congr 1; funext x; cases p x <;> rfl
    omega
  have a := key _ (median_half l)
  have b := key _ (median_half_ge l)
  simp only [decide_eq_true_eq] at a b
  exact le_antisymm b a

theorem mean_const {l : List K} {v : K} (hne : l ≠ []) (h : ∀ x ∈ l, x = v) : mean l = v := by
  have e : l = List.replicate l.length v := List.eq_replicate_iff.2 ⟨rfl, h⟩
  have hl : (l.length : K) ≠ 0 := by
    have := List.length_pos_iff.2 hne
    exact_mod_cast this.ne'
  have hs : l.sum = l.length * v := by
    conv_lhs => rw [e]
    rw [List.sum_replicate, nsmul_eq_mul]
  have := mean_mul_length hne
  rw [hs, mul_comm] at this
  exact mul_left_cancel₀ hl this

end Median

namespace Orientation
open Sinusoid

theorem diffs_map_range (n : Nat) : ∀ x : Nat → ℝ,
    diffs ((List.range n).map x) = (List.range (n - 1)).map fun i => x (i + 1) - x i := by
  induction n with
  | zero => intro x; rfl
  | succ n ih =>
    intro x
    cases n with
    | zero => rfl
    | succ n =>
      have e : (List.range (n + 1 + 1)).map x = x 0 :: (List.range (n + 1)).map fun i => x (i + 1) := by
        rw [List.range_succ_eq_map]; simp [Function.comp_def]
      have e1 : (List.range (n + 1)).map (fun i => x (i + 1)) =
          x 1 :: (List.range n).map fun i => x (i + 1 + 1) := by
        rw [List.range_succ_eq_map]; simp [Function.comp_def]
      have e2 : diffs ((List.range (n + 1 + 1)).map x) =
          (x 1 - x 0) :: diffs ((List.range (n + 1)).map fun i => x (i + 1)) := by
        rw [e, e1]; rfl
      rw [e2, ih]
      simp only [Nat.add_sub_cancel]
      rw [List.range_succ_eq_map]
      simp [Function.comp_def]

/-- The remainder of a position in units of `h`. -/
noncomputable def wrap (h e : ℝ) : ℝ := e - ⌊e / h⌋ * h

theorem wrap_add_int {h e : ℝ} (hh : h ≠ 0) (k : Int) : wrap h (e + k * h) = wrap h e := by
  unfold wrap
  rw [add_div, mul_div_cancel_right₀ _ hh, Int.floor_add_intCast]
  push_cast
  ring

/-- the number of steps at which a slowly growing integer sequence changes -/
theorem jumps (f : Nat → Int) (σ : Int) (hs : σ = 1 ∨ σ = -1) : ∀ m : Nat,
    (∀ i < m, f (i + 1) = f i ∨ f (i + 1) = f i + σ) →
    f m - f 0 = σ * ((List.range m).countP fun i => decide (f (i + 1) ≠ f i) : Nat) := by
  intro m
  induction m with
  | zero => intro _; simp
  | succ m ih =>
    intro h
    have hi := ih fun i hi => h i (by omega)
    rw [List.range_succ, List.countP_append, List.countP_singleton]
    rcases h m (by omega) with e | e
    · rw [if_neg (by simp [e]), e]
      simpa using hi
    · have : f (m + 1) ≠ f m := by rw [e]; rcases hs with rfl | rfl <;> omega
      rw [if_pos (by simpa using this), e]
      push_cast
      rw [mul_add, mul_one, ← hi]
      ring

theorem floor_step {x d : ℝ} (hd : |d| < 1) : 
    ⌊x + d⌋ = ⌊x⌋ ∨ ⌊x + d⌋ = ⌊x⌋ + (if 0 ≤ d then 1 else -1) := by
  obtain ⟨h1, h2⟩ := abs_lt.1 hd
  have a := Int.floor_le x
  have b := Int.lt_floor_add_one x
  split
  · rename_i h
    by_cases hc : x + d < ⌊x⌋ + 1
    · left
      rw [Int.floor_eq_iff]
      exact ⟨by linarith, hc⟩
    · right
      rw [Int.floor_eq_iff]
      push Not at hc
      push_cast
      exact ⟨hc, by linarith⟩
  · rename_i h
    push Not at h
    by_cases hc : (⌊x⌋ : ℝ) ≤ x + d
    · left
      rw [Int.floor_eq_iff]
      exact ⟨hc, by linarith⟩
    · right
      rw [Int.floor_eq_iff]
      push Not at hc
      push_cast
      exact ⟨by linarith, by linarith⟩

/-- Positions that drift by `δ` from profile to profile and are known up to multiples of `h`: the drift is found exactly
if one of them has been wrapped around, and NaN if none has. -/
theorem slope_wrap {h E δ : ℝ} (hh : 0 < h) (hd : 5 * |δ| ≤ h) {m : Nat} (hm : 4 ≤ m) :
    slope ((List.range (m + 1)).map fun i : Nat => some (wrap h (E + δ * i))) =
      .ok (if ⌊(E + δ * m) / h⌋ = ⌊E / h⌋ then none else some δ) := by
  set f : Nat → Int := fun i => ⌊(E + δ * i) / h⌋ with hf
  set σ : Int := if 0 ≤ δ / h then 1 else -1 with hσ
  have hσ1 : σ = 1 ∨ σ = -1 := by rw [hσ]; split <;> simp
  have hstep : ∀ i, f (i + 1) = f i ∨ f (i + 1) = f i + σ := by
    intro i
    have e : (E + δ * ((i + 1 : Nat) : ℝ)) / h = (E + δ * i) / h + δ / h := by push_cast; ring
    have hlt : |δ / h| < 1 := by
      rw [abs_div, abs_of_pos hh, div_lt_one hh]
      have := abs_nonneg δ
      linarith
    simp only [hf, e, hσ]
    exact floor_step hlt
  have hj := jumps f σ hσ1 m fun i _ => hstep i
  set J := (List.range m).countP fun i => decide (f (i + 1) ≠ f i) with hJ
  have hf0 : f 0 = ⌊E / h⌋ := by simp [hf]
  -- few jumps
  have hbound : (J : ℝ) < 1 + m / 5 := by
    have habs : |((f m - f 0 : Int) : ℝ)| = J := by
      rw [hj]; rcases hσ1 with e | e <;> rw [e] <;> simp
    have a1 := Int.floor_le ((E + δ * m) / h)
    have a2 := Int.lt_floor_add_one ((E + δ * m) / h)
    have b1 := Int.floor_le (E / h)
    have b2 := Int.lt_floor_add_one (E / h)
    have e : (E + δ * m) / h = E / h + δ / h * m := by ring
    have hq : |δ / h| ≤ 1 / 5 := by
      rw [abs_div, abs_of_pos hh, div_le_iff₀ hh]; linarith
    obtain ⟨q1, q2⟩ := abs_le.1 hq
    have hm0 : (0 : ℝ) ≤ m := by positivity
    have c1 : δ / h * m ≤ 1 / 5 * m := mul_le_mul_of_nonneg_right q2 hm0
    have c2 : -(1 / 5) * m ≤ δ / h * m := mul_le_mul_of_nonneg_right q1 hm0
    rw [← habs, abs_lt]
    rw [hf0]
    push_cast
    simp only [hf]
    rw [e] at a1 a2 ⊢
    constructor <;> linarith
  have hJm : 2 * J < m := by
    have hm' : (4 : ℝ) ≤ m := by exact_mod_cast hm
    have : (2 : ℝ) * J < m := by linarith
    exact_mod_cast this
  -- the differences
  have hnone : none ∉ (List.range (m + 1)).map fun i : Nat => some (wrap h (E + δ * i)) := by simp
  have hfm : ((List.range (m + 1)).map fun i : Nat => some (wrap h (E + δ * i))).filterMap id =
      (List.range (m + 1)).map fun i : Nat => wrap h (E + δ * i) := by
    rw [List.filterMap_map]
    simp
  unfold slope
  rw [if_neg (by simp; omega), if_neg hnone]
  simp only [hfm]
  rw [diffs_map_range (m + 1) fun i => wrap h (E + δ * i), Nat.add_sub_cancel]
  set d := (List.range m).map fun i : Nat => wrap h (E + δ * ((i + 1 : Nat) : ℝ)) - wrap h (E + δ * i) with hdd
  have hdi : ∀ i : Nat, wrap h (E + δ * ((i + 1 : Nat) : ℝ)) - wrap h (E + δ * i) = δ - ((f (i + 1) - f i : Int) : ℝ) * h := by
    intro i
    simp only [wrap, hf]
    push_cast
    ring
  have hcount : d.count δ = m - J := by
    have e : d.count δ = (List.range m).countP fun i => ! decide (f (i + 1) ≠ f i) := by
      rw [List.count_eq_countP, hdd, List.countP_map]
      apply List.countP_congr
      intro i _
      simp only [Function.comp_apply, beq_iff_eq]
      rw [hdi]
      constructor
      · intro he
        have : ((f (i + 1) - f i : Int) : ℝ) * h = 0 := by linarith
        rcases mul_eq_zero.1 this with h0 | h0
        · have : f (i + 1) - f i = 0 := by exact_mod_cast h0
          simp; omega
        · exact absurd h0 hh.ne'
      · intro he
        have he' : f (i + 1) = f i := by simpa using he
        rw [he']; simp
    have h2 := List.length_eq_countP_add_countP (fun i => decide (f (i + 1) ≠ f i)) (l := List.range m)
    have h3 : (List.range m).countP (fun i => decide ¬ (decide (f (i + 1) ≠ f i)) = true) =
        (List.range m).countP fun i => ! decide (f (i + 1) ≠ f i) := by
      congr 1; funext x; cases decide (f (x + 1) ≠ f x) <;> rfl
    rw [List.length_range] at h2
    omega
  have hlen : d.length = m := by simp [hdd]
  have hmed : median d = δ := median_majority (by rw [hlen, hcount]; omega)
  rw [hmed]
  have hdev : ∀ x ∈ d, |x - δ| = 0 ∨ |x - δ| = h := by
    intro x hx
    obtain ⟨i, -, rfl⟩ := List.mem_map.1 hx
    rw [hdi]
    have e : δ - ((f (i + 1) - f i : Int) : ℝ) * h - δ = -(((f (i + 1) - f i : Int) : ℝ) * h) := by ring
    rw [e, abs_neg, abs_mul, abs_of_pos hh]
    rcases hstep i with e | e
    · left; rw [e]; simp
    · right
      rw [e, add_sub_cancel_left]
      rcases hσ1 with e | e <;> rw [e] <;> simp
  have hmem : δ ∈ d := by
    rw [← List.count_pos_iff, hcount]; omega
  have hdne : d ≠ [] := List.ne_nil_of_mem hmem
  obtain ⟨top, htop⟩ := exists_max? (l := d.map fun x => |x - δ|) (by simpa using hdne)
  rw [htop, Option.getD_some]
  have hts := max?_spec.1 htop
  have hiff : ⌊(E + δ * m) / h⌋ = ⌊E / h⌋ ↔ top = 0 := by
    have hz : (∀ x ∈ d, |x - δ| = 0) ↔ J = 0 := by
      constructor
      · intro hall
        have : d.count δ = d.length := by
          rw [List.count_eq_length]
          intro b hb
          have := hall b hb
          rw [abs_eq_zero] at this
          linarith
        omega
      · intro h0 x hx
        have : d.count δ = d.length := by omega
        rw [List.count_eq_length] at this
        rw [this x hx]; simp
    have hjz : J = 0 ↔ f m = f 0 := by
      constructor
      · intro h0; rw [h0] at hj; simp at hj; omega
      · intro h0
        rw [h0] at hj
        rcases hσ1 with e | e <;> rw [e] at hj <;> omega
    rw [← hf0, show ⌊(E + δ * m) / h⌋ = f m from rfl, ← hjz, ← hz]
    constructor
    · intro hall
      obtain ⟨x, hx, e⟩ := List.mem_map.1 hts.1
      rw [← e]; exact hall x hx
    · intro h0 x hx
      have := hts.2 _ (List.mem_map.2 ⟨x, hx, rfl⟩)
      rw [h0] at this
      exact le_antisymm this (abs_nonneg _)
  by_cases h0 : top = 0
  · rw [if_pos (.inl h0), if_pos (hiff.2 h0)]
  · rw [if_neg (fun h => h0 (hiff.1 h))]
    have htoph : top = h := by
      obtain ⟨x, hx, e⟩ := List.mem_map.1 hts.1
      rw [← e] at h0 ⊢
      exact (hdev x hx).resolve_left h0
    have hkept : ∀ x ∈ d.filter (fun x => decide (|x - δ| / top < 1 / 20)), x = δ := by
      intro x hx
      obtain ⟨hx, hp⟩ := List.mem_filter.1 hx
      rcases hdev x hx with e | e
      · rw [abs_eq_zero] at e; linarith
      · rw [e, htoph, div_self hh.ne'] at hp
        norm_num at hp
    have hin : δ ∈ d.filter (fun x => decide (|x - δ| / top < 1 / 20)) :=
      List.mem_filter.2 ⟨hmem, by simp⟩
    have hne := List.ne_nil_of_mem hin
    rw [if_neg (by rintro (e | e); exacts [h0 e, hne e]), mean_const hne hkept]

/-- A sinusoid that is known as a function is known up to half periods. -/
theorem firstExtremum_of_eq {a P X y0 a' x' : ℝ} (hP : 0 < P) (ha : a ≠ 0)
    (h : ∀ x, sinusoid a' P x' y0 x = sinusoid a P X y0 x) :
    (ofPopt (a', P, x', y0)).firstExtremum = wrap (P / 2) (X + P / 4) := by
  have hP' := hP.ne'
  have hpi := Real.pi_ne_zero
  have ha' : a' ≠ 0 := by
    intro e
    have h1 := h (X + P / 4)
    unfold sinusoid at h1
    have e1 : (X + P / 4 - X) / P * 2 * Real.pi = Real.pi / 2 := by field_simp; ring
    rw [e, e1, Real.sin_pi_div_two] at h1
    apply ha; linarith
  have h0 := h X
  unfold sinusoid at h0
  rw [sub_self, zero_div, zero_mul, zero_mul, Real.sin_zero, mul_zero] at h0
  have hs : Real.sin ((X - x') / P * 2 * Real.pi) = 0 := by
    have : a' * Real.sin ((X - x') / P * 2 * Real.pi) = 0 := by linarith
    exact (mul_eq_zero.1 this).resolve_left ha'
  obtain ⟨k, hk⟩ := Real.sin_eq_zero_iff.1 hs
  have hx : x' = X - k * (P / 2) := by
    have h2 : (X - x') / P * 2 = k := by
      exact (mul_right_cancel₀ hpi hk).symm
    field_simp at h2
    linarith
  have key : ∀ (A : ℝ) (y : ℝ) (n : Int), y = X + n * (P / 2) →
      (Sinus.mk A P y y0).firstExtremum = wrap (P / 2) (X + P / 4) := by
    intro A y n hy
    have hq : P / 2 ≠ 0 := by positivity
    rw [← wrap_add_int hq n]
    unfold Sinus.firstExtremum wrap
    have e : y + P / 4 = X + P / 4 + n * (P / 2) := by rw [hy]; ring
    simp only
    rw [e]; ring
  unfold ofPopt
  dsimp only
  split
  · exact key _ _ (-k - 1) (by rw [hx]; push_cast; ring)
  · exact key _ _ (-k) (by rw [hx]; push_cast; ring)

end Orientation
end Surfalize
