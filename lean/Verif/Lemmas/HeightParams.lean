import Verif.Lemmas.Num
import Verif.Model.HeightParams
import Verif.Spec.HeightParams
import Mathlib.Tactic.Linarith

/-! Helper lemmas for the height parameters. -/
set_option linter.unusedSectionVars false
namespace Surfalize.HeightParams
open Surfalize Container BaseOps Spec

section Basic
variable {K : Type} [Field K] [LinearOrder K] [IsStrictOrderedRing K]

theorem minL_spec {l : List K} (h : l ≠ []) : minL l ∈ l ∧ ∀ z ∈ l, minL l ≤ z := by
  obtain ⟨m, hm⟩ := exists_min? h
  have := min?_spec.1 hm
  simp only [minL, hm, Option.getD_some]
  exact this

theorem maxL_spec {l : List K} (h : l ≠ []) : maxL l ∈ l ∧ ∀ z ∈ l, z ≤ maxL l := by
  obtain ⟨m, hm⟩ := exists_max? h
  have := max?_spec.1 hm
  simp only [maxL, hm, Option.getD_some]
  exact this

theorem minL_eq {l : List K} {m : K} (h : m ∈ l) (h' : ∀ z ∈ l, m ≤ z) : minL l = m := by
  have hne : l ≠ [] := List.ne_nil_of_mem h
  have := minL_spec hne
  exact le_antisymm (this.2 m h) (h' _ this.1)

theorem maxL_eq {l : List K} {m : K} (h : m ∈ l) (h' : ∀ z ∈ l, z ≤ m) : maxL l = m := by
  have hne : l ≠ [] := List.ne_nil_of_mem h
  have := maxL_spec hne
  exact le_antisymm (h' _ this.1) (this.2 m h)

theorem minL_map_sub {l : List K} (h : l ≠ []) (c : K) : minL (l.map fun z => z - c) = minL l - c := by
  have := minL_spec h
  apply minL_eq
  · exact List.mem_map_of_mem (f := fun z => z - c) this.1
  · intro z hz
    obtain ⟨w, hw, rfl⟩ := List.mem_map.1 hz
    have := this.2 w hw
    linarith

theorem maxL_map_sub {l : List K} (h : l ≠ []) (c : K) : maxL (l.map fun z => z - c) = maxL l - c := by
  have := maxL_spec h
  apply maxL_eq
  · exact List.mem_map_of_mem (f := fun z => z - c) this.1
  · intro z hz
    obtain ⟨w, hw, rfl⟩ := List.mem_map.1 hz
    have := this.2 w hw
    linarith

theorem sum_le_length_mul {l : List K} {b : K} (h : ∀ z ∈ l, z ≤ b) : l.sum ≤ (l.length : K) * b := by
  induction l with
  | nil => simp
  | cons a l ih =>
    have h1 := h a (by simp)
    have h2 := ih (fun z hz => h z (by simp [hz]))
    simp only [List.sum_cons, List.length_cons]; push_cast; linarith

theorem length_mul_le_sum {l : List K} {b : K} (h : ∀ z ∈ l, b ≤ z) : (l.length : K) * b ≤ l.sum := by
  induction l with
  | nil => simp
  | cons a l ih =>
    have h1 := h a (by simp)
    have h2 := ih (fun z hz => h z (by simp [hz]))
    simp only [List.sum_cons, List.length_cons]; push_cast; linarith

theorem mean_le {l : List K} (hne : l ≠ []) {b : K} (h : ∀ z ∈ l, z ≤ b) : mean l ≤ b := by
  have := length_pos_cast hne
  rw [mean, div_le_iff₀ this, mul_comm]; exact sum_le_length_mul h

theorem le_mean {l : List K} (hne : l ≠ []) {b : K} (h : ∀ z ∈ l, b ≤ z) : b ≤ mean l := by
  have := length_pos_cast hne
  rw [mean, le_div_iff₀ this, mul_comm]; exact length_mul_le_sum h

theorem sum_nonneg_map (l : List K) (f : K → K) (h : ∀ z ∈ l, 0 ≤ f z) : 0 ≤ (l.map f).sum :=
  List.sum_nonneg (by intro x hx; obtain ⟨w, hw, rfl⟩ := List.mem_map.1 hx; exact h w hw)

/-- `Σ (f z - a)² = Σ f² - 2a Σ f + n a²` -/
theorem sum_sq_sub (l : List K) (f : K → K) (a : K) :
    (l.map fun z => (f z - a) ^ 2).sum = (l.map fun z => f z ^ 2).sum - 2 * a * (l.map f).sum + (l.length : K) * a ^ 2 := by
  induction l with
  | nil => simp
  | cons b l ih => simp only [List.map_cons, List.sum_cons, List.length_cons, ih]; push_cast; ring

/-- `Σ (b - x)(x + c) = n b c + (b - c) Σ x - Σ x²` -/
theorem sum_band (l : List K) (f : K → K) (b c : K) :
    (l.map fun z => (b - f z) * (f z + c)).sum
      = (l.length : K) * (b * c) + (b - c) * (l.map f).sum - (l.map fun z => f z ^ 2).sum := by
  induction l with
  | nil => simp
  | cons a l ih => simp only [List.map_cons, List.sum_cons, List.length_cons, ih]; push_cast; ring

/-- `Σ (x² - s q x - q²)²` expanded -/
theorem sum_kurt (l : List K) (f : K → K) (u v : K) :
    (l.map fun z => (f z ^ 2 - u * f z - v) ^ 2).sum
      = (l.map fun z => f z ^ 4).sum - 2 * u * (l.map fun z => f z ^ 3).sum
        + (u ^ 2 - 2 * v) * (l.map fun z => f z ^ 2).sum + 2 * u * v * (l.map f).sum + (l.length : K) * v ^ 2 := by
  induction l with
  | nil => simp
  | cons a l ih => simp only [List.map_cons, List.sum_cons, List.length_cons, ih]; push_cast; ring

theorem sum_map_eq_zero_iff (l : List K) (f : K → K) (h : ∀ z ∈ l, 0 ≤ f z) :
    (l.map f).sum = 0 ↔ ∀ z ∈ l, f z = 0 := by
  induction l with
  | nil => simp
  | cons a l ih =>
    have h1 := h a (by simp)
    have h2 : ∀ z ∈ l, 0 ≤ f z := fun z hz => h z (by simp [hz])
    have h3 := sum_nonneg_map l f h2
    simp only [List.map_cons, List.sum_cons, List.mem_cons, forall_eq_or_imp, ← ih h2]
    constructor
    · intro h; constructor <;> linarith
    · rintro ⟨h, h'⟩; rw [h, h']; ring

theorem mean_perm {l l' : List K} (h : l.Perm l') : mean l = mean l' := by
  simp [mean, h.sum_eq, h.length_eq]

end Basic

theorem mu_eq (l : List ℝ) : mean l = mu l := rfl

theorem moment_two_nonneg (l : List ℝ) : 0 ≤ moment 2 l := by
  unfold moment
  apply div_nonneg _ (by positivity)
  exact sum_nonneg_map l _ (fun z _ => by positivity)

theorem sum_centered {l : List ℝ} (h : l ≠ []) : (l.map fun z => z - mu l).sum = 0 := by
  rw [sum_map_sub_const]
  have := mean_mul_length h
  rw [mu_eq] at this
  linarith

/-- The code's values in terms of the definitions. -/
theorem paramsOf_sa (l : List ℝ) : (paramsOf l).sa = (l.map fun z => |z - mu l|).sum / l.length := by
  simp [paramsOf, mu_eq, Function.comp_def]

theorem paramsOf_sq (l : List ℝ) : (paramsOf l).sq = Real.sqrt (moment 2 l) := by
  simp [paramsOf, mu_eq, moment, Function.comp_def]

theorem paramsOf_sv {l : List ℝ} (h : l ≠ []) : (paramsOf l).sv = mu l - minL l := by
  simp only [paramsOf]
  rw [minL_map_sub h, mu_eq, abs_of_nonpos]
  · ring
  · have := le_mean h (minL_spec h).2
    rw [mu_eq] at this; linarith

theorem paramsOf_sp {l : List ℝ} (h : l ≠ []) : (paramsOf l).sp = maxL l - mu l := by
  simp only [paramsOf]
  rw [maxL_map_sub h, mu_eq]

theorem paramsOf_sz (l : List ℝ) : (paramsOf l).sz = (paramsOf l).sp + (paramsOf l).sv := rfl

theorem paramsOf_ssk (l : List ℝ) : (paramsOf l).ssk = divNaN (moment 3 l) (Real.sqrt (moment 2 l) ^ 3) := by
  have h1 : ∀ z : ℝ, z ^ 2 * z = z ^ 3 := fun z => by ring
  simp [paramsOf, mu_eq, moment, Function.comp_def, h1]

theorem paramsOf_sku (l : List ℝ) : (paramsOf l).sku = divNaN (moment 4 l) (Real.sqrt (moment 2 l) ^ 4) := by
  have h1 : ∀ z : ℝ, (z ^ 2) ^ 2 = z ^ 4 := fun z => by ring
  simp [paramsOf, mu_eq, moment, Function.comp_def, h1]

theorem Params.ext' {p q : Params} (h1 : p.sa = q.sa) (h2 : p.sq = q.sq) (h3 : p.sv = q.sv) (h4 : p.sp = q.sp)
    (h5 : p.sz = q.sz) (h6 : p.ssk = q.ssk) (h7 : p.sku = q.sku) : p = q := by
  cases p; cases q; simp_all

theorem mem_none_iff_hasMissing {C : Type → Type} [Container C] {α : Type} (c : C (Option α)) :
    hasMissing c = true ↔ none ∈ flat c := by
  simp [hasMissing]

/-- When the guarded computation succeeds. -/
theorem heightParameters_ok_iff (g : Grid (Option ℝ)) (p : Params) :
    heightParameters g = .ok p ↔ none ∉ flat g ∧ flat g ≠ [] ∧ p = paramsOf (measured (flat g)) := by
  unfold heightParameters noNonmeasured
  by_cases h : none ∈ flat g
  · rw [if_pos ((mem_none_iff_hasMissing g).2 h)]; simp [h]
  · rw [if_neg (by rw [mem_none_iff_hasMissing]; exact h)]
    by_cases h2 : flat g = []
    · simp [h2]
    · simp only [h2, if_false, h, not_false_iff, true_and, ne_eq, Except.ok.injEq]
      exact eq_comm

theorem measured_ne_nil {α : Type} {l : List (Option α)} (h : none ∉ l) (h2 : l ≠ []) : measured l ≠ [] := by
  intro h0
  have := eq_map_some_of_no_none l h
  rw [h0] at this; exact h2 this

theorem moment_shift {l : List ℝ} (h : l ≠ []) (c : ℝ) (k : Nat) : moment k (l.map fun z => z + c) = moment k l := by
  have hm : mu (l.map fun z => z + c) = mu l + c := mean_map_add_const h c
  simp only [moment, List.map_map, List.length_map, Function.comp_def, hm]
  congr 2
  apply List.map_congr_left
  intro z _
  ring

theorem moment_scale (l : List ℝ) (c : ℝ) (k : Nat) : moment k (l.map fun z => c * z) = c ^ k * moment k l := by
  have hm : mu (l.map fun z => c * z) = c * mu l := mean_map_const_mul l c
  simp only [moment, List.map_map, List.length_map, Function.comp_def, hm]
  rw [← mul_div_assoc, ← sum_map_mul_const, List.map_map]
  congr 2
  apply List.map_congr_left
  intro z _
  simp only [Function.comp_def]
  rw [← mul_pow, mul_sub]

theorem sa_shift {l : List ℝ} (h : l ≠ []) (c : ℝ) :
    ((l.map fun z => z + c).map fun z => |z - mu (l.map fun z => z + c)|).sum = (l.map fun z => |z - mu l|).sum := by
  have hm : mu (l.map fun z => z + c) = mu l + c := mean_map_add_const h c
  simp only [List.map_map, Function.comp_def, hm]
  congr 1
  apply List.map_congr_left
  intro z _
  congr 1; ring

theorem sa_scale (l : List ℝ) (c : ℝ) :
    ((l.map fun z => c * z).map fun z => |z - mu (l.map fun z => c * z)|).sum
      = |c| * (l.map fun z => |z - mu l|).sum := by
  have hm : mu (l.map fun z => c * z) = c * mu l := mean_map_const_mul l c
  rw [← sum_map_mul_const]
  simp only [List.map_map, Function.comp_def, hm]
  congr 1
  apply List.map_congr_left
  intro z _
  rw [← abs_mul]
  congr 1; ring

section MinMax
variable {l : List ℝ}

theorem minL_shift (h : l ≠ []) (c : ℝ) : minL (l.map fun z => z + c) = minL l + c := by
  have := minL_map_sub h (-c)
  simpa using this

theorem maxL_shift (h : l ≠ []) (c : ℝ) : maxL (l.map fun z => z + c) = maxL l + c := by
  have := maxL_map_sub h (-c)
  simpa using this

theorem minL_scale (h : l ≠ []) {c : ℝ} (hc : 0 < c) : minL (l.map fun z => c * z) = c * minL l := by
  have := minL_spec h
  apply minL_eq
  · exact List.mem_map_of_mem (f := fun z => c * z) this.1
  · intro z hz
    obtain ⟨w, hw, rfl⟩ := List.mem_map.1 hz
    exact mul_le_mul_of_nonneg_left (this.2 w hw) hc.le

theorem maxL_scale (h : l ≠ []) {c : ℝ} (hc : 0 < c) : maxL (l.map fun z => c * z) = c * maxL l := by
  have := maxL_spec h
  apply maxL_eq
  · exact List.mem_map_of_mem (f := fun z => c * z) this.1
  · intro z hz
    obtain ⟨w, hw, rfl⟩ := List.mem_map.1 hz
    exact mul_le_mul_of_nonneg_left (this.2 w hw) hc.le

theorem minL_neg (h : l ≠ []) : minL (l.map fun z => (-1 : ℝ) * z) = - maxL l := by
  have := maxL_spec h
  apply minL_eq
  · have := List.mem_map_of_mem (f := fun z => (-1 : ℝ) * z) this.1
    simpa using this
  · intro z hz
    obtain ⟨w, hw, rfl⟩ := List.mem_map.1 hz
    have := this.2 w hw; linarith

theorem maxL_neg (h : l ≠ []) : maxL (l.map fun z => (-1 : ℝ) * z) = - minL l := by
  have := minL_spec h
  apply maxL_eq
  · have := List.mem_map_of_mem (f := fun z => (-1 : ℝ) * z) this.1
    simpa using this
  · intro z hz
    obtain ⟨w, hw, rfl⟩ := List.mem_map.1 hz
    have := this.2 w hw; linarith

end MinMax

theorem divNaN_scale {a b k : ℝ} (hk : k ≠ 0) : divNaN (k * a) (k * b) = divNaN a b := by
  unfold divNaN
  by_cases h : b = 0
  · simp [h]
  · rw [if_neg h, if_neg (mul_ne_zero hk h), mul_div_mul_left _ _ hk]

theorem paramsOf_shift {l : List ℝ} (h : l ≠ []) (c : ℝ) : paramsOf (l.map fun z => z + c) = paramsOf l := by
  have h' : (l.map fun z => z + c) ≠ [] := by simpa using h
  have hm : mu (l.map fun z => z + c) = mu l + c := mean_map_add_const h c
  have hsv : (paramsOf (l.map fun z => z + c)).sv = (paramsOf l).sv := by
    rw [paramsOf_sv h', paramsOf_sv h, minL_shift h, hm]; ring
  have hsp : (paramsOf (l.map fun z => z + c)).sp = (paramsOf l).sp := by
    rw [paramsOf_sp h', paramsOf_sp h, maxL_shift h, hm]; ring
  apply Params.ext'
  · rw [paramsOf_sa, paramsOf_sa, sa_shift h, List.length_map]
  · rw [paramsOf_sq, paramsOf_sq, moment_shift h]
  · exact hsv
  · exact hsp
  · rw [paramsOf_sz, paramsOf_sz, hsv, hsp]
  · rw [paramsOf_ssk, paramsOf_ssk, moment_shift h, moment_shift h]
  · rw [paramsOf_sku, paramsOf_sku, moment_shift h, moment_shift h]

theorem sqrt_scale (l : List ℝ) (c : ℝ) :
    Real.sqrt (moment 2 (l.map fun z => c * z)) = |c| * Real.sqrt (moment 2 l) := by
  rw [moment_scale, Real.sqrt_mul (by positivity), Real.sqrt_sq_eq_abs]

theorem paramsOf_scale {l : List ℝ} (h : l ≠ []) {c : ℝ} (hc : 0 < c) :
    paramsOf (l.map fun z => c * z) =
      { sa := c * (paramsOf l).sa, sq := c * (paramsOf l).sq, sv := c * (paramsOf l).sv, sp := c * (paramsOf l).sp,
        sz := c * (paramsOf l).sz, ssk := (paramsOf l).ssk, sku := (paramsOf l).sku } := by
  have h' : (l.map fun z => c * z) ≠ [] := by simpa using h
  have hm : mu (l.map fun z => c * z) = c * mu l := mean_map_const_mul l c
  have hsv : (paramsOf (l.map fun z => c * z)).sv = c * (paramsOf l).sv := by
    rw [paramsOf_sv h', paramsOf_sv h, minL_scale h hc, hm]; ring
  have hsp : (paramsOf (l.map fun z => c * z)).sp = c * (paramsOf l).sp := by
    rw [paramsOf_sp h', paramsOf_sp h, maxL_scale h hc, hm]; ring
  have hs := sqrt_scale l c
  rw [abs_of_pos hc] at hs
  apply Params.ext'
  · rw [paramsOf_sa, paramsOf_sa, sa_scale, List.length_map, abs_of_pos hc]; ring
  · rw [paramsOf_sq, paramsOf_sq, hs]
  · exact hsv
  · exact hsp
  · rw [paramsOf_sz, paramsOf_sz, hsv, hsp]; ring
  · rw [paramsOf_ssk, paramsOf_ssk, hs, moment_scale, mul_pow, divNaN_scale (by positivity)]
  · rw [paramsOf_sku, paramsOf_sku, hs, moment_scale, mul_pow, divNaN_scale (by positivity)]

theorem divNaN_neg (a b : ℝ) : divNaN (-a) b = (divNaN a b).map fun x => -x := by
  unfold divNaN; split <;> simp [neg_div]

theorem paramsOf_neg {l : List ℝ} (h : l ≠ []) :
    paramsOf (l.map fun z => (-1 : ℝ) * z) =
      { sa := (paramsOf l).sa, sq := (paramsOf l).sq, sv := (paramsOf l).sp, sp := (paramsOf l).sv,
        sz := (paramsOf l).sz, ssk := (paramsOf l).ssk.map fun x => -x, sku := (paramsOf l).sku } := by
  have h' : (l.map fun z => (-1 : ℝ) * z) ≠ [] := by simpa using h
  have hm : mu (l.map fun z => (-1 : ℝ) * z) = (-1) * mu l := mean_map_const_mul l _
  have hsv : (paramsOf (l.map fun z => (-1 : ℝ) * z)).sv = (paramsOf l).sp := by
    rw [paramsOf_sv h', paramsOf_sp h, minL_neg h, hm]; ring
  have hsp : (paramsOf (l.map fun z => (-1 : ℝ) * z)).sp = (paramsOf l).sv := by
    rw [paramsOf_sp h', paramsOf_sv h, maxL_neg h, hm]; ring
  have hs := sqrt_scale l (-1)
  rw [abs_neg, abs_one, one_mul] at hs
  apply Params.ext'
  · rw [paramsOf_sa, paramsOf_sa, sa_scale, List.length_map, abs_neg, abs_one, one_mul]
  · rw [paramsOf_sq, paramsOf_sq, hs]
  · exact hsv
  · exact hsp
  · rw [paramsOf_sz, paramsOf_sz, hsv, hsp]; ring
  · rw [paramsOf_ssk, paramsOf_ssk, hs, moment_scale, ← divNaN_neg]
    congr 1; ring
  · rw [paramsOf_sku, paramsOf_sku, hs, moment_scale]
    congr 1; ring

theorem minL_perm {K : Type} [Field K] [LinearOrder K] [IsStrictOrderedRing K] {l l' : List K} (h : l.Perm l') :
    minL l = minL l' := by unfold minL; rw [min?_perm h]
theorem maxL_perm {K : Type} [Field K] [LinearOrder K] [IsStrictOrderedRing K] {l l' : List K} (h : l.Perm l') :
    maxL l = maxL l' := by unfold maxL; rw [max?_perm h]

theorem moment_perm {l l' : List ℝ} (h : l.Perm l') (k : Nat) : moment k l = moment k l' := by
  have hm : mu l = mu l' := mean_perm h
  unfold moment
  rw [hm, (h.map _).sum_eq, h.length_eq]

theorem paramsOf_perm {l l' : List ℝ} (h : l.Perm l') : paramsOf l = paramsOf l' := by
  by_cases hne : l = []
  · subst hne; rw [h.symm.eq_nil]
  have hne' : l' ≠ [] := by intro h0; subst h0; exact hne h.eq_nil
  have hm : mu l = mu l' := mean_perm h
  have hsv : (paramsOf l).sv = (paramsOf l').sv := by
    rw [paramsOf_sv hne, paramsOf_sv hne', hm, minL_perm h]
  have hsp : (paramsOf l).sp = (paramsOf l').sp := by
    rw [paramsOf_sp hne, paramsOf_sp hne', hm, maxL_perm h]
  apply Params.ext'
  · rw [paramsOf_sa, paramsOf_sa, hm, (h.map _).sum_eq, h.length_eq]
  · rw [paramsOf_sq, paramsOf_sq, moment_perm h]
  · exact hsv
  · exact hsp
  · rw [paramsOf_sz, paramsOf_sz, hsv, hsp]
  · rw [paramsOf_ssk, paramsOf_ssk, moment_perm h, moment_perm h]
  · rw [paramsOf_sku, paramsOf_sku, moment_perm h, moment_perm h]


/-! ## Sections -/

theorem arraySplitAux_spec {α : Type} (q : Nat) : ∀ (k r : Nat) (l : List α), l.length = q * k + r → r ≤ k →
    (arraySplitAux l q k r).length = k ∧ (arraySplitAux l q k r).flatten = l ∧
    ∀ s ∈ arraySplitAux l q k r, s.length = q ∨ (0 < r ∧ s.length = q + 1) := by
  intro k
  induction k with
  | zero =>
    intro r l hl hr
    have : l = [] := by
      apply List.eq_nil_of_length_eq_zero; rw [hl]; omega
    subst this; simp [arraySplitAux]
  | succ k ih =>
    intro r l hl hr
    simp only [arraySplitAux]
    rw [Nat.mul_succ] at hl
    by_cases h0 : r = 0
    · subst h0
      simp only [if_true]
      have hd : (l.drop q).length = q * k + 0 := by simp; omega
      obtain ⟨h1, h2, h3⟩ := ih 0 (l.drop q) hd (by omega)
      refine ⟨by simp [h1], by simp [h2], ?_⟩
      intro s hs
      simp only [List.mem_cons] at hs
      rcases hs with rfl | hs
      · left; simp; omega
      · rcases h3 s hs with h | h
        · exact Or.inl h
        · omega
    · simp only [h0, if_false]
      have hd : (l.drop (q + 1)).length = q * k + (r - 1) := by simp; omega
      obtain ⟨h1, h2, h3⟩ := ih (r - 1) (l.drop (q + 1)) hd (by omega)
      refine ⟨by simp [h1], by simp [h2], ?_⟩
      intro s hs
      simp only [List.mem_cons] at hs
      rcases hs with rfl | hs
      · right; simp; omega
      · rcases h3 s hs with h | h
        · exact Or.inl h
        · right; omega

theorem arraySplit_spec {α : Type} (l : List α) (n : Nat) (hn : 0 < n) :
    (arraySplit l n).length = n ∧ (arraySplit l n).flatten = l ∧
    ∀ s ∈ arraySplit l n, s.length = l.length / n ∨ s.length = l.length / n + 1 := by
  have h := arraySplitAux_spec (l.length / n) n (l.length % n) l
    (by rw [Nat.mul_comm]; exact (Nat.div_add_mod l.length n).symm |>.trans (by ring_nf))
    (Nat.mod_lt _ hn).le
  refine ⟨h.1, h.2.1, ?_⟩
  intro s hs
  rcases h.2.2 s hs with h | h
  · exact Or.inl h
  · exact Or.inr h.2

section Sec
variable {K : Type} [Field K] [LinearOrder K] [IsStrictOrderedRing K]

theorem sectionedData_ok {l : List K} {n : Int} {ss : List (List K)} (h : sectionedData l n = .ok ss) :
    1 ≤ n ∧ n ≤ l.length ∧ ss = arraySplit (l.map fun z => z - mean l) n.toNat := by
  unfold sectionedData at h
  split at h
  · simp at h
  · split at h
    · simp at h
    · simp only [Except.ok.injEq] at h
      exact ⟨by omega, by omega, h.symm⟩

/-- Sections are non-empty and made of centred heights. -/
theorem section_mem {l : List K} {n : Int} {ss : List (List K)} (h : sectionedData l n = .ok ss) :
    ss ≠ [] ∧ ∀ s ∈ ss, s ≠ [] ∧ ∀ x ∈ s, ∃ z ∈ l, x = z - mean l := by
  obtain ⟨h1, h2, rfl⟩ := sectionedData_ok h
  obtain ⟨a, b, c⟩ := arraySplit_spec (l.map fun z => z - mean l) n.toNat (by omega)
  constructor
  · intro h0; rw [h0] at a; simp at a; omega
  intro s hs
  constructor
  · intro h0
    have := c s hs
    rw [h0] at this
    simp only [List.length_nil, List.length_map] at this
    have hq : 1 ≤ l.length / n.toNat := (Nat.le_div_iff_mul_le (by omega)).2 (by omega)
    omega
  · intro x hx
    have : x ∈ (arraySplit (l.map fun z => z - mean l) n.toNat).flatten := List.mem_flatten.2 ⟨s, hs, hx⟩
    rw [b] at this
    obtain ⟨z, hz, rfl⟩ := List.mem_map.1 this
    exact ⟨z, hz, rfl⟩

theorem mean_mono {β : Type} (ss : List β) (f f' : β → K) (h : ∀ s ∈ ss, f s ≤ f' s) :
    mean (ss.map f) ≤ mean (ss.map f') := by
  unfold mean
  simp only [List.length_map]
  apply div_le_div_of_nonneg_right _ (by positivity)
  induction ss with
  | nil => simp
  | cons a ss ih =>
    simp only [List.map_cons, List.sum_cons]
    have := h a (by simp)
    have := ih (fun s hs => h s (by simp [hs]))
    linarith

theorem mean_add {β : Type} (ss : List β) (f f' : β → K) :
    mean (ss.map fun s => f s + f' s) = mean (ss.map f) + mean (ss.map f') := by
  unfold mean
  simp only [List.length_map]
  rw [← add_div]
  congr 1
  induction ss with
  | nil => simp
  | cons a ss ih => simp only [List.map_cons, List.sum_cons, ih]; ring

theorem guarded_ok {β : Type} {f : List K → Except Err β} {p : List (Option K)} {b : β}
    (h : guarded f p = .ok b) : none ∉ p ∧ p ≠ [] ∧ f (measured p) = .ok b := by
  unfold guarded noNonmeasured at h
  split at h
  · simp at h
  · rename_i hm
    have hm' : none ∉ p := by
      intro hc; exact hm ((mem_none_iff_hasMissing (C := List) p).2 hc)
    by_cases h0 : p = []
    · simp [h0] at h
    · beta_reduce at h; rw [if_neg h0] at h
      exact ⟨hm', h0, h⟩

theorem guarded_of {β : Type} (f : List K → Except Err β) {p : List (Option K)} (h : none ∉ p) (h0 : p ≠ []) :
    guarded f p = f (measured p) := by
  unfold guarded noNonmeasured
  rw [if_neg (by rw [mem_none_iff_hasMissing (C := List)]; exact h)]
  beta_reduce; rw [if_neg h0]

end Sec
end Surfalize.HeightParams
