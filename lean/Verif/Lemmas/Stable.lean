import Verif.Spec.Stable
import Verif.Model.HeightParams
import Verif.Model.Abbott
import Verif.Model.Areas
import Verif.Lemmas.Num
import Verif.Lemmas.GridFn
import Mathlib.Algebra.Order.BigOperators.Ring.Finset
import Mathlib.Analysis.SpecialFunctions.Pow.Real
import Mathlib.Tactic.Linarith
import Mathlib.Tactic.FieldSimp

/-! Helper lemmas for the stability of parameters (C113). -/
set_option linter.unusedSectionVars false
namespace Surfalize.Stable
open Surfalize Container StableSpec

/-- entries differ by the constant `c` up to `e` -/
abbrev Off {K : Type} [Field K] [LinearOrder K] (c e : K) (l l' : List K) : Prop := List.Forall₂ (fun x y => |y - (x + c)| ≤ e) l l'

variable {K : Type} [Field K] [LinearOrder K] [IsStrictOrderedRing K] {c e : K} {l l' : List K}

theorem off_nonneg (h : Off c e l l') (hn : l ≠ []) : 0 ≤ e := by
  cases h with
  | nil => exact absurd rfl hn
  | cons h _ => exact (abs_nonneg _).trans h

theorem off_length (h : Off c e l l') : l'.length = l.length := h.length_eq.symm

theorem off_ne (h : Off c e l l') (hn : l ≠ []) : l' ≠ [] := by
  cases h with
  | nil => exact absurd rfl hn
  | cons h _ => simp

theorem off_symm (h : Off 0 e l l') : Off 0 e l' l := by
  induction h with
  | nil => exact .nil
  | cons h _ ih =>
    refine .cons ?_ ih
    rw [abs_sub_comm] at h
    simpa using h

theorem off_mem (h : Off c e l l') {x : K} (hx : x ∈ l) : ∃ y ∈ l', |y - (x + c)| ≤ e := by
  induction h with
  | nil => simp at hx
  | cons h _ ih =>
    rcases List.mem_cons.1 hx with rfl | hx
    · exact ⟨_, List.mem_cons_self, h⟩
    · obtain ⟨y, hy, h⟩ := ih hx
      exact ⟨y, List.mem_cons_of_mem _ hy, h⟩

theorem off_mem' (h : Off c e l l') {y : K} (hy : y ∈ l') : ∃ x ∈ l, |y - (x + c)| ≤ e := by
  induction h with
  | nil => simp at hy
  | cons h _ ih =>
    rcases List.mem_cons.1 hy with rfl | hy
    · exact ⟨_, List.mem_cons_self, h⟩
    · obtain ⟨x, hx, h⟩ := ih hy
      exact ⟨x, List.mem_cons_of_mem _ hx, h⟩

theorem off_map {f g : K → K} {c' e' : K} (h : Off c e l l') (hf : ∀ x y, |y - (x + c)| ≤ e → |g y - (f x + c')| ≤ e') :
    Off c' e' (l.map f) (l'.map g) := by
  induction h with
  | nil => exact .nil
  | cons h _ ih => exact .cons (hf _ _ h) ih

theorem off_map₂ {α : Type} {R : α → α → Prop} {a a' : List α} {f g : α → K} {c' e' : K} (h : List.Forall₂ R a a')
    (hf : ∀ x y, R x y → |g y - (f x + c')| ≤ e') : Off c' e' (a.map f) (a'.map g) := by
  induction h with
  | nil => exact .nil
  | cons h _ ih => exact .cons (hf _ _ h) ih

theorem off_sum (h : Off c e l l') : |l'.sum - (l.sum + l.length * c)| ≤ l.length * e := by
  induction h with
  | nil => simp
  | @cons x y l l' h _ ih =>
    rw [List.sum_cons, List.sum_cons, List.length_cons]
    push_cast
    rw [abs_le] at h ih ⊢
    constructor <;> linarith [h.1, h.2, ih.1, ih.2]

theorem off_mean (h : Off c e l l') (hn : l ≠ []) : |Surfalize.mean l' - (Surfalize.mean l + c)| ≤ e := by
  have h1 := off_sum h
  have hp : (0 : K) < l.length := length_pos_cast hn
  have e1 := mean_mul_length hn
  have e2 := mean_mul_length (off_ne h hn)
  rw [off_length h] at e2
  rw [← e1, ← e2] at h1
  rw [show Surfalize.mean l' * (l.length : K) - (Surfalize.mean l * l.length + l.length * c)
    = l.length * (Surfalize.mean l' - (Surfalize.mean l + c)) by ring, abs_mul, abs_of_pos hp] at h1
  exact le_of_mul_le_mul_left h1 hp

theorem off_max (h : Off c e l l') (hn : l ≠ []) : |HeightParams.maxL l' - (HeightParams.maxL l + c)| ≤ e := by
  obtain ⟨m, hm⟩ := exists_max? hn
  obtain ⟨m', hm'⟩ := exists_max? (off_ne h hn)
  simp only [HeightParams.maxL, hm, hm', Option.getD_some]
  obtain ⟨a1, a2⟩ := max?_spec.1 hm
  obtain ⟨b1, b2⟩ := max?_spec.1 hm'
  obtain ⟨y, hy, h1⟩ := off_mem h a1
  obtain ⟨x, hx, h2⟩ := off_mem' h b1
  have := a2 _ hx
  have := b2 _ hy
  rw [abs_le] at *
  constructor <;> linarith [h1.1, h1.2, h2.1, h2.2]

theorem off_min (h : Off c e l l') (hn : l ≠ []) : |HeightParams.minL l' - (HeightParams.minL l + c)| ≤ e := by
  obtain ⟨m, hm⟩ := exists_min? hn
  obtain ⟨m', hm'⟩ := exists_min? (off_ne h hn)
  simp only [HeightParams.minL, hm, hm', Option.getD_some]
  obtain ⟨a1, a2⟩ := min?_spec.1 hm
  obtain ⟨b1, b2⟩ := min?_spec.1 hm'
  obtain ⟨y, hy, h1⟩ := off_mem h a1
  obtain ⟨x, hx, h2⟩ := off_mem' h b1
  have := a2 _ hx
  have := b2 _ hy
  rw [abs_le] at *
  constructor <;> linarith [h1.1, h1.2, h2.1, h2.2]

/-- the centered data are off by the difference of the means -/
theorem off_center (h : Off 0 e l l') :
    Off (-(Surfalize.mean l' - Surfalize.mean l)) e (l.map fun z => z - Surfalize.mean l) (l'.map fun z => z - Surfalize.mean l') :=
  off_map h fun x y hxy => by
    rw [show y - Surfalize.mean l' - (x - Surfalize.mean l + -(Surfalize.mean l' - Surfalize.mean l)) = y - (x + 0) by ring]
    exact hxy

/-! ## Sorting -/

theorem countP_le {t : K} (h : Off 0 e l l') : (l.countP fun x => decide (x ≤ t)) ≤ l'.countP fun x => decide (x ≤ t + e) := by
  induction h with
  | nil => simp
  | @cons x y l l' h _ ih =>
    rw [List.countP_cons, List.countP_cons]
    by_cases hx : x ≤ t
    · have hy : y ≤ t + e := by
        have := (abs_le.1 h).2
        linarith
      simp [hx, hy, ih]
    · simp only [hx, decide_false, Bool.false_eq_true, if_false, Nat.add_zero]
      exact ih.trans (Nat.le_add_right _ _)

theorem sorted_le_iff {s : List K} (hs : s.Pairwise (· ≤ ·)) {t : K} {i : Nat} (hi : i < s.length) :
    s[i] ≤ t ↔ i < s.countP fun x => decide (x ≤ t) := by
  induction s generalizing i with
  | nil => simp at hi
  | cons a s ih =>
    obtain ⟨h1, h2⟩ := List.pairwise_cons.1 hs
    rw [List.countP_cons]
    cases i with
    | zero =>
      rw [List.getElem_cons_zero]
      constructor
      · intro h
        simp [h]
      · intro h
        by_contra hc
        have h0 : (s.countP fun x => decide (x ≤ t)) = 0 := by
          rw [List.countP_eq_zero]
          intro x hx hxt
          exact hc ((h1 x hx).trans (by simpa using hxt))
        simp [hc, h0] at h
    | succ i =>
      rw [List.getElem_cons_succ, ih h2]
      by_cases ha : a ≤ t
      · simp [ha]
      · have h0 : (s.countP fun x => decide (x ≤ t)) = 0 := by
          rw [List.countP_eq_zero]
          intro x hx hxt
          exact ha ((h1 x hx).trans (by simpa using hxt))
        simp [ha, h0]

theorem sort_le (h : Off 0 e l l') {i : Nat} (hi : i < (sortAsc l).length) (hi' : i < (sortAsc l').length) :
    (sortAsc l')[i] ≤ (sortAsc l)[i] + e := by
  rw [sorted_le_iff (sortAsc_sorted l'), (sortAsc_perm l').countP_eq]
  refine lt_of_lt_of_le ?_ (countP_le h)
  rw [← (sortAsc_perm l).countP_eq, ← sorted_le_iff (sortAsc_sorted l) hi]

theorem off_sort (h : Off 0 e l l') : Off 0 e (sortAsc l) (sortAsc l') := by
  refine List.forall₂_iff_get.2 ⟨by rw [sortAsc_length, sortAsc_length, off_length h], fun i hi hi' => ?_⟩
  have h1 := sort_le h hi hi'
  have h2 := sort_le (off_symm h) hi' hi
  rw [List.get_eq_getElem, List.get_eq_getElem, abs_le]
  constructor <;> linarith

theorem off_getD (h : Off 0 e l l') (he : 0 ≤ e) (i : Nat) : |l'.getD i 0 - l.getD i 0| ≤ e := by
  induction h generalizing i with
  | nil => simpa using he
  | cons h _ ih =>
    cases i with
    | zero => simpa using h
    | succ i => simpa using ih i

theorem between {a b a' b' w e : K} (h1 : |a' - a| ≤ e) (h2 : |b' - b| ≤ e) (w0 : 0 ≤ w) (w1 : w ≤ 1) :
    |a' + w * (b' - a') - (a + w * (b - a))| ≤ e := by
  rw [show a' + w * (b' - a') - (a + w * (b - a)) = (1 - w) * (a' - a) + w * (b' - b) by ring]
  calc _ ≤ |(1 - w) * (a' - a)| + |w * (b' - b)| := abs_add_le _ _
    _ = (1 - w) * |a' - a| + w * |b' - b| := by rw [abs_mul, abs_mul, abs_of_nonneg w0, abs_of_nonneg (sub_nonneg.2 w1)]
    _ ≤ (1 - w) * e + w * e := add_le_add (mul_le_mul_of_nonneg_left h1 (sub_nonneg.2 w1)) (mul_le_mul_of_nonneg_left h2 w0)
    _ = e := by ring

section Abbott
open Abbott
variable [FloorRing K]

theorem off_quantile (h : Off 0 e l l') (hn : l ≠ []) {q : K} (q0 : 0 ≤ q) : |quantile l' q - quantile l q| ≤ e := by
  have he := off_nonneg h hn
  unfold quantile
  rw [off_length h]
  dsimp only
  have hp : (0 : K) ≤ q * ((l.length : K) - 1) := by
    refine mul_nonneg q0 (sub_nonneg.2 ?_)
    have := List.length_pos_iff.2 hn
    exact_mod_cast this
  have hf : ((⌊q * ((l.length : K) - 1)⌋.toNat : Nat) : K) = (⌊q * ((l.length : K) - 1)⌋ : K) := by
    have : ((⌊q * ((l.length : K) - 1)⌋.toNat : Nat) : Int) = ⌊q * ((l.length : K) - 1)⌋ := Int.toNat_of_nonneg (Int.floor_nonneg.2 hp)
    exact_mod_cast this
  rw [hf]
  exact between (off_getD h he _) (off_getD h he _) (sub_nonneg.2 (Int.floor_le _)) (by linarith [Int.lt_floor_add_one (q * ((l.length : K) - 1))])

theorem ratios_le {n : Nat} {m : K} (h : m ∈ ratios n) : m ≤ 100 := by
  unfold ratios Geometry.linspace at h
  split at h
  · rw [List.mem_singleton] at h
    subst h
    norm_num
  · rename_i hn
    obtain ⟨i, hi, rfl⟩ := List.mem_map.1 h
    rw [List.mem_range] at hi
    have h1 : (0 : K) < (n : K) - 1 := by
      have : 1 < n := by omega
      have : (1 : K) < n := by exact_mod_cast this
      linarith
    have h2 : (i : K) ≤ (n : K) - 1 := by
      have : i + 1 ≤ n := by omega
      have : ((i : K) + 1) ≤ n := by exact_mod_cast this
      linarith
    have h3 : (i : K) * ((100 - 0) / ((n : K) - 1)) = 100 * (i / ((n : K) - 1)) := by ring
    have h4 : (i : K) / ((n : K) - 1) ≤ 1 := (div_le_one h1).2 h2
    rw [h3]
    linarith

theorem off_heights (n : Nat) (h : Off 0 e l l') (hn : l ≠ []) : Off 0 e (heights n l) (heights n l') := by
  have hs := off_sort h
  have hsn : sortAsc l ≠ [] := fun hc => hn (by simpa [sortAsc_length] using congrArg List.length hc)
  unfold heights
  refine List.forall₂_map_left_iff.2 (List.forall₂_map_right_iff.2 (List.forall₂_same.2 fun m hm => ?_))
  have := ratios_le hm
  simpa using off_quantile hs hsn (q := 1 - m / 100) (by linarith)

theorem off_interp (h : Off 0 e l l') (hn : l ≠ []) : ∀ (m : List K) (x : K), m.length = l.length →
    |Interp.npInterp (List.zip m l') x - Interp.npInterp (List.zip m l) x| ≤ e := by
  induction h with
  | nil => exact absurd rfl hn
  | @cons a a' l l' ha ht ih =>
    intro m x hm
    cases m with
    | nil => simp at hm
    | cons p m =>
      cases ht with
      | nil =>
        cases m with
        | nil => simpa [Interp.npInterp] using ha
        | cons => simp at hm
      | @cons b b' l l' hb ht =>
        cases m with
        | nil => simp at hm
        | cons q m =>
          rw [List.zip_cons_cons, List.zip_cons_cons, List.zip_cons_cons, List.zip_cons_cons]
          unfold Interp.npInterp
          dsimp only
          rw [add_zero] at ha hb
          split
          · split
            · exact ha
            · rename_i h1 h2
              push Not at h2
              have hpq : 0 < q - p := by linarith
              have hw : ∀ u v : K, (v - u) / (q - p) * (x - p) + u = u + (x - p) / (q - p) * (v - u) := fun u v => by ring
              rw [hw, hw]
              exact between ha hb (div_nonneg (by linarith) hpq.le) ((div_le_one hpq).2 (by linarith))
          · have := ih (by simp) (q :: m) x (by simpa using hm)
            simpa using this

end Abbott

/-! ## Root mean squares -/

theorem rms {ι : Type} (s : Finset ι) (f g : ι → ℝ) :
    |Real.sqrt (∑ i ∈ s, f i ^ 2) - Real.sqrt (∑ i ∈ s, g i ^ 2)| ≤ Real.sqrt (∑ i ∈ s, (f i - g i) ^ 2) := by
  have tri : ∀ u v : ι → ℝ, Real.sqrt (∑ i ∈ s, (u i + v i) ^ 2) ≤ Real.sqrt (∑ i ∈ s, u i ^ 2) + Real.sqrt (∑ i ∈ s, v i ^ 2) := by
    intro u v
    rw [Real.sqrt_le_left (by positivity)]
    have hu : 0 ≤ ∑ i ∈ s, u i ^ 2 := Finset.sum_nonneg fun i _ => sq_nonneg _
    have hv : 0 ≤ ∑ i ∈ s, v i ^ 2 := Finset.sum_nonneg fun i _ => sq_nonneg _
    have hc := Finset.sum_mul_sq_le_sq_mul_sq s u v
    have h1 : ∑ i ∈ s, u i * v i ≤ Real.sqrt (∑ i ∈ s, u i ^ 2) * Real.sqrt (∑ i ∈ s, v i ^ 2) := by
      rw [← Real.sqrt_mul hu]
      exact Real.le_sqrt_of_sq_le hc
    have h2 : ∑ i ∈ s, (u i + v i) ^ 2 = ∑ i ∈ s, u i ^ 2 + 2 * ∑ i ∈ s, u i * v i + ∑ i ∈ s, v i ^ 2 := by
      rw [Finset.mul_sum, ← Finset.sum_add_distrib, ← Finset.sum_add_distrib]
      exact Finset.sum_congr rfl fun i _ => by ring
    rw [h2, add_sq, Real.sq_sqrt hu, Real.sq_sqrt hv]
    linarith
  rw [abs_le]
  have h1 := tri (fun i => f i - g i) g
  have h2 := tri (fun i => g i - f i) f
  simp only [sub_add_cancel] at h1 h2
  have h3 : ∑ i ∈ s, (g i - f i) ^ 2 = ∑ i ∈ s, (f i - g i) ^ 2 := Finset.sum_congr rfl fun i _ => by ring
  rw [h3] at h2
  constructor <;> linarith

theorem rms_list (l l' : List ℝ) (h : l'.length = l.length) :
    |Real.sqrt ((l'.map fun z => z ^ 2).sum) - Real.sqrt ((l.map fun z => z ^ 2).sum)|
      ≤ Real.sqrt (((List.zipWith (fun y x => y - x) l' l).map fun z => z ^ 2).sum) := by
  have key : ∀ m : List ℝ, m.length = l.length → (m.map fun z => z ^ 2).sum = ∑ i ∈ Finset.range l.length, (m.getD i 0) ^ 2 := by
    intro m hm
    rw [← hm, ← Fin.sum_univ_fun_getElem, Finset.sum_range]
    exact Finset.sum_congr rfl fun i _ => by rw [getD_of_lt]
  rw [key l' h, key l rfl, key (List.zipWith _ l' l) (by simp [h])]
  have h1 : ∀ i ∈ Finset.range l.length, ((List.zipWith (fun y x => y - x) l' l).getD i 0) ^ 2 = (l'.getD i 0 - l.getD i 0) ^ 2 := by
    intro i hi
    have hi := Finset.mem_range.1 hi
    rw [getD_of_lt _ (by simpa [h] using hi), getD_of_lt l' (by omega), getD_of_lt l hi, List.getElem_zipWith]
  rw [Finset.sum_congr rfl h1]
  exact rms _ _ _

theorem sq_sum_off {l l' : List ℝ} {e : ℝ} (h : Off 0 e l l') :
    ((List.zipWith (fun y x => y - x) l' l).map fun z => z ^ 2).sum ≤ l.length * e ^ 2 := by
  induction h with
  | nil => simp
  | @cons x y l l' h _ ih =>
    rw [List.zipWith_cons_cons, List.map_cons, List.sum_cons, List.length_cons]
    push_cast
    rw [add_zero] at h
    have : (y - x) ^ 2 ≤ e ^ 2 := sq_le_sq' (by linarith [(abs_le.1 h).1]) (abs_le.1 h).2
    linarith

/-- the mean minimises the sum of squares -/
theorem sq_sum_center (d : List ℝ) : ((d.map fun z => z - Surfalize.mean d).map fun z => z ^ 2).sum ≤ (d.map fun z => z ^ 2).sum := by
  by_cases hd : d = []
  · subst hd; simp
  have h1 := mean_mul_length hd
  have h2 : ∀ (t : List ℝ) (m : ℝ), ((t.map fun z => z - m).map fun z => z ^ 2).sum = (t.map fun z => z ^ 2).sum - 2 * m * t.sum + t.length * m ^ 2 := by
    intro t m
    induction t with
    | nil => simp
    | cons x t ih =>
      simp only [List.map_cons, List.sum_cons, List.length_cons, ih]
      push_cast
      ring
  rw [h2, ← h1]
  have : 0 ≤ (d.length : ℝ) * Surfalize.mean d ^ 2 := by positivity
  nlinarith

theorem zip_center (l l' : List ℝ) (a b : ℝ) :
    List.zipWith (fun y x => y - x) (l'.map fun z => z - b) (l.map fun z => z - a)
      = (List.zipWith (fun y x => y - x) l' l).map fun z => z - (b - a) := by
  rw [List.zipWith_map, List.map_zipWith]
  congr 1
  funext y x
  ring

theorem mean_zip (l l' : List ℝ) (h : l'.length = l.length) :
    Surfalize.mean (List.zipWith (fun y x => y - x) l' l) = Surfalize.mean l' - Surfalize.mean l := by
  have hs : ∀ (l l' : List ℝ), l'.length = l.length → (List.zipWith (fun y x => y - x) l' l).sum = l'.sum - l.sum := by
    intro l
    induction l with
    | nil => intro l' h; simp [List.length_eq_zero_iff.1 h]
    | cons x l ih =>
      intro l' h
      cases l' with
      | nil => simp at h
      | cons y l' =>
        rw [List.zipWith_cons_cons, List.sum_cons, List.sum_cons, List.sum_cons, ih l' (by simpa using h)]
        ring
  unfold Surfalize.mean
  rw [hs _ _ h, List.length_zipWith, h, min_self, sub_div]

theorem sqrt_div_abs {a b d n e : ℝ} (hn : 0 < n) (he : 0 ≤ e) (h : |Real.sqrt a - Real.sqrt b| ≤ Real.sqrt d) (hd : d ≤ n * e ^ 2) :
    |Real.sqrt (a / n) - Real.sqrt (b / n)| ≤ e := by
  rw [Real.sqrt_div' _ hn.le, Real.sqrt_div' _ hn.le, ← sub_div, abs_div, abs_of_nonneg (Real.sqrt_nonneg n),
    div_le_iff₀ (Real.sqrt_pos.2 hn)]
  refine h.trans ((Real.sqrt_le_sqrt hd).trans_eq ?_)
  rw [Real.sqrt_mul hn.le, Real.sqrt_sq he, mul_comm]

theorem off_rms {l l' : List ℝ} {e : ℝ} (h : Off 0 e l l') (hn : l ≠ []) :
    |Real.sqrt (((l'.map fun z => z - Surfalize.mean l').map fun z => z ^ 2).sum / (l'.length : ℝ))
      - Real.sqrt (((l.map fun z => z - Surfalize.mean l).map fun z => z ^ 2).sum / (l.length : ℝ))| ≤ e := by
  have hl := off_length h
  rw [hl]
  refine sqrt_div_abs (length_pos_cast hn) (off_nonneg h hn)
    (rms_list (l.map fun z => z - Surfalize.mean l) (l'.map fun z => z - Surfalize.mean l') (by simp [hl])) ?_
  rw [zip_center, ← mean_zip _ _ hl]
  exact (sq_sum_center _).trans (sq_sum_off h)

/-! ## Surfaces and profiles -/

theorem off_measured {p p' : List (Option K)} (h : List.Forall₂ (NearPt e) p p') : Off 0 e (measured p) (measured p') := by
  induction h with
  | nil => exact .nil
  | cons h _ ih =>
    cases h with
    | missing => exact ih
    | measured h => exact List.Forall₂.cons (by simpa using h) ih

theorem none_mem {p p' : List (Option K)} (h : List.Forall₂ (NearPt e) p p') (hp : none ∉ p) : none ∉ p' := by
  induction h with
  | nil => simp
  | cons h _ ih =>
    rw [List.mem_cons, not_or] at hp ⊢
    refine ⟨?_, ih hp.2⟩
    cases h with
    | missing => exact hp.1
    | measured h => simp

theorem near_flat {g g' : Grid (Option K)} (h : NearSurface e g g') : List.Forall₂ (NearPt e) (flat g) (flat g') := by
  rw [flat_eq_pixels h.wf, flat_eq_pixels h.wf', h.ny, h.nx]
  refine List.forall₂_map_left_iff.2 (List.forall₂_map_right_iff.2 (List.forall₂_same.2 fun p hp => ?_))
  obtain ⟨h1, h2⟩ := mem_pixels.1 hp
  exact h.points _ _ h1 h2

theorem near_val {g g' : Grid (Option K)} (h : NearSurface e g g') (he : 0 ≤ e) {i j : Nat} (hi : i < g.ny) (hj : j < g.nx) :
    |g'.val i j - g.val i j| ≤ e := by
  have := h.points i j hi hj
  unfold Grid.val
  revert this
  generalize g.get i j = a
  generalize g'.get i j = b
  rintro (_ | h)
  · simpa using he
  · simpa using h

theorem off_split {c : K} {l l' : List K} (h : Off c e l l') (q : Nat) : ∀ k r, List.Forall₂ (Off c e) (HeightParams.arraySplitAux l q k r) (HeightParams.arraySplitAux l' q k r) := by
  intro k
  induction k generalizing l l' with
  | zero => intro r; exact .nil
  | succ k ih =>
    intro r
    exact .cons (List.forall₂_take _ h) (ih (List.forall₂_drop _ h) _)

end Surfalize.Stable
