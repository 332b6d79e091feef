import Verif.Lemmas.AbbottCurve
import Verif.Lemmas.HeightParams
import Mathlib.Tactic.LinearCombination

/-! More lemmas about the Abbott-Firestone curve: plateaus, counting, affine changes of the heights. -/
set_option linter.unusedSectionVars false
namespace Surfalize.Abbott
open Surfalize Interp Geometry Spec

variable {K : Type} [Field K] [LinearOrder K] [IsStrictOrderedRing K] [FloorRing K]

theorem npInterp_ge_of_left {M x : K} : ∀ {l : List (K × K)}, (l.Pairwise fun p q => p.1 ≤ q.1) → ∀ {h : K × K}, h ∈ l → x ≤ h.1 →
    (∀ p ∈ l, p.1 ≤ h.1 → M ≤ p.2) → M ≤ npInterp l x
  | [], _, h, hm, _, _ => by simp at hm
  | [p], _, h, hm, _, hM => by
    simp only [List.mem_singleton] at hm; subst hm
    exact hM h (by simp) le_rfl
  | p :: q :: r, hs, h, hm, hx, hM => by
    have hs' := List.pairwise_cons.1 hs
    rw [npInterp]
    split
    · rename_i h1
      have hp : M ≤ p.2 := hM p (by simp) (by
        rcases List.mem_cons.1 hm with rfl | hm
        · exact le_rfl
        · exact hs'.1 h hm)
      split
      · exact hp
      · rename_i h2
        push Not at h2
        have hq : M ≤ q.2 := hM q (by simp) (by
          rcases List.mem_cons.1 hm with rfl | hm
          · linarith
          · rcases List.mem_cons.1 hm with rfl | hm
            · exact le_rfl
            · exact (List.pairwise_cons.1 hs'.2).1 h hm)
        have hd : 0 < q.1 - p.1 := by linarith
        have e : (q.2 - p.2) / (q.1 - p.1) * (x - p.1) + p.2
            = (p.2 * (q.1 - x) + q.2 * (x - p.1)) / (q.1 - p.1) := by field_simp; ring
        rw [e, le_div_iff₀ hd]
        nlinarith
    · rename_i h1
      push Not at h1
      rcases List.mem_cons.1 hm with rfl | hm'
      · -- then `q` has the same abscissa
        have hq := hs'.1 q (by simp)
        exact npInterp_ge_of_left hs'.2 (h := q) (by simp) (by linarith) fun z hz hzq => hM z (by simp [hz]) (by linarith)
      · exact npInterp_ge_of_left hs'.2 hm' hx fun z hz hzq => hM z (by simp [hz]) hzq

theorem npInterp_le_of_right {M x : K} : ∀ {l : List (K × K)}, (l.Pairwise fun p q => p.1 ≤ q.1) → ∀ {h : K × K}, h ∈ l → h.1 ≤ x →
    (∀ p ∈ l, h.1 ≤ p.1 → p.2 ≤ M) → npInterp l x ≤ M
  | [], _, h, hm, _, _ => by simp at hm
  | [p], _, h, hm, _, hM => by
    simp only [List.mem_singleton] at hm; subst hm
    exact hM h (by simp) le_rfl
  | p :: q :: r, hs, h, hm, hx, hM => by
    have hs' := List.pairwise_cons.1 hs
    rw [npInterp]
    split
    · rename_i h1
      -- `h = p`
      have hhp : h = p := by
        rcases List.mem_cons.1 hm with e | hm
        · exact e
        · exfalso
          have : q.1 ≤ h.1 := by
            rcases List.mem_cons.1 hm with rfl | hm
            · exact le_rfl
            · exact (List.pairwise_cons.1 hs'.2).1 h hm
          linarith
      subst hhp
      have hp : h.2 ≤ M := hM h (by simp) le_rfl
      have hq : q.2 ≤ M := hM q (by simp) (hs'.1 q (by simp))
      split
      · exact hp
      · rename_i h2
        push Not at h2
        have hd : 0 < q.1 - h.1 := by linarith
        have e : (q.2 - h.2) / (q.1 - h.1) * (x - h.1) + h.2
            = (h.2 * (q.1 - x) + q.2 * (x - h.1)) / (q.1 - h.1) := by field_simp; ring
        rw [e, div_le_iff₀ hd]
        nlinarith
    · rename_i h1
      push Not at h1
      rcases List.mem_cons.1 hm with rfl | hm'
      · have hq := hs'.1 q (by simp)
        exact npInterp_le_of_right hs'.2 (h := q) (by simp) h1 fun z hz hzq => hM z (by simp [hz]) (by linarith)
      · exact npInterp_le_of_right hs'.2 hm' hx fun z hz hzq => hM z (by simp [hz]) hzq

theorem height_cell {n : Nat} {d : List K} (hn : 2 ≤ n) (hs : (heights n d).Pairwise (· > ·)) {x : K}
    (h0 : x ≤ (heights n d)[0]'(by rw [heights_length]; omega)) (h1 : (heights n d)[n - 1]'(by rw [heights_length]; omega) ≤ x) :
    ∃ (i : Nat) (hi : i + 1 < n) (t : K), 0 ≤ t ∧ t ≤ 1 ∧
      x = (heights n d)[i]'(by rw [heights_length]; omega)
          + t * ((heights n d)[i + 1]'(by rw [heights_length]; omega) - (heights n d)[i]'(by rw [heights_length]; omega)) := by
  have key : ∀ k (hk : k + 1 < n), (heights n d)[k + 1]'(by rw [heights_length]; omega) ≤ x →
      ∃ (i : Nat) (hi : i + 1 < n), x ≤ (heights n d)[i]'(by rw [heights_length]; omega) ∧ (heights n d)[i + 1]'(by rw [heights_length]; omega) ≤ x := by
    intro k
    induction k with
    | zero => intro hk hx; exact ⟨0, hk, h0, hx⟩
    | succ k ih =>
      intro hk hx
      rcases le_total x ((heights n d)[k + 1]'(by rw [heights_length]; omega)) with h | h
      · exact ⟨k + 1, hk, h, hx⟩
      · exact ih (by omega) h
  obtain ⟨i, hi, a1, a2⟩ := key (n - 2) (by omega) (by
    have : (heights n d)[n - 2 + 1]'(by rw [heights_length]; omega) = (heights n d)[n - 1]'(by rw [heights_length]; omega) := by
      congr 1; omega
    rw [this]; exact h1)
  have hlt := List.pairwise_iff_getElem.1 hs i (i + 1) (by rw [heights_length]; omega) (by rw [heights_length]; omega) (by omega)
  refine ⟨i, hi, ((heights n d)[i]'(by rw [heights_length]; omega) - x) /
    ((heights n d)[i]'(by rw [heights_length]; omega) - (heights n d)[i + 1]'(by rw [heights_length]; omega)), ?_, ?_, ?_⟩
  · exact div_nonneg (by linarith) (by linarith)
  · rw [div_le_one (by linarith)]; linarith
  · have : (heights n d)[i]'(by rw [heights_length]; omega) - (heights n d)[i + 1]'(by rw [heights_length]; omega) ≠ 0 := by linarith
    field_simp
    ring

/-- what `build` fixes without any assumption on the solver -/
theorem build_fields {lstsq : Detrend.Lstsq K} {n : Nat} {data : List (Option K)} {c : Curve K} (h : build lstsq n data = .ok c) :
    none ∉ data ∧ data ≠ [] ∧ c.data = measured data ∧ c.mr = ratios n ∧ c.height = heights n (measured data) := by
  unfold build at h
  split at h
  · cases h
  · rename_i h1
    split at h
    · cases h
    · rename_i h2
      simp only at h
      split at h
      · cases h
      · cases h
        exact ⟨h1, h2, rfl, rfl, rfl⟩

theorem measured_ne {data : List (Option K)} (h1 : none ∉ data) (h2 : data ≠ []) : measured data ≠ [] := by
  cases data with
  | nil => exact absurd rfl h2
  | cons a l =>
    cases a with
    | none => simp at h1
    | some v => simp [measured]

/-! ### the quantile counts points -/

theorem quantile_counts {s : List K} (hs : s.Pairwise (· ≤ ·)) (hne : s ≠ []) {q : K} (h0 : 0 ≤ q) (h1 : q ≤ 1) :
    ((s.countP fun x => decide (quantile s q < x) : Nat) : K) < (1 - q) * ((s.length : K) - 1) + 1 ∧
    ((s.countP fun x => decide (x < quantile s q) : Nat) : K) < q * ((s.length : K) - 1) + 1 := by
  have hpos := List.length_pos_of_ne_nil hne
  have hlen : (1 : K) ≤ (s.length : K) := by exact_mod_cast hpos
  set pos := q * ((s.length : K) - 1) with hpdef
  have hp0 : 0 ≤ pos := mul_nonneg h0 (by linarith)
  have hp1 : pos ≤ (s.length : K) - 1 := by
    have : q * ((s.length : K) - 1) ≤ 1 * ((s.length : K) - 1) := mul_le_mul_of_nonneg_right h1 (by linarith)
    linarith
  have hf : 0 ≤ ⌊pos⌋ := Int.floor_nonneg.2 hp0
  set lo := ⌊pos⌋.toNat with hlo
  have hloK : ((lo : Nat) : K) = ((⌊pos⌋ : ℤ) : K) := by rw [hlo, ← Int.cast_natCast, Int.toNat_of_nonneg hf]
  have hl1 : (lo : K) ≤ pos := by rw [hloK]; exact Int.floor_le _
  have hl2 : pos < (lo : K) + 1 := by rw [hloK]; exact Int.lt_floor_add_one _
  have hloN : lo < s.length := by
    have : (lo : K) < (s.length : K) := by linarith
    exact_mod_cast this
  have hge : ∀ {i j : Nat} (hi : i < s.length) (hj : j < s.length), i ≤ j → s[i] ≤ s[j] := by
    intro i j hi hj hij
    rcases lt_or_eq_of_le hij with h | h
    · exact List.pairwise_iff_getElem.1 hs _ _ hi hj h
    · subst h; exact le_rfl
  have hu : min (lo + 1) (s.length - 1) < s.length := by omega
  have hq : quantile s q = s[lo] + (pos - lo) * (s[min (lo + 1) (s.length - 1)] - s[lo]) := by
    unfold quantile
    simp only [← hpdef, ← hlo]
    rw [getD_of_lt _ hloN, getD_of_lt _ hu]
  have hab : s[lo] ≤ s[min (lo + 1) (s.length - 1)] := hge _ _ (by omega)
  have hz1 : s[lo] ≤ quantile s q := by
    rw [hq]; have := mul_nonneg (show (0 : K) ≤ pos - lo by linarith) (show (0 : K) ≤ s[min (lo + 1) (s.length - 1)] - s[lo] by linarith)
    linarith
  have hz2 : quantile s q ≤ s[min (lo + 1) (s.length - 1)] := by
    rw [hq]
    have := mul_le_mul_of_nonneg_right (show pos - (lo : K) ≤ 1 by linarith) (show (0 : K) ≤ s[min (lo + 1) (s.length - 1)] - s[lo] by linarith)
    linarith
  constructor
  · -- only indices > lo
    have hc : (s.countP fun x => decide (quantile s q < x)) ≤ s.length - (lo + 1) := by
      conv_lhs => arg 2; rw [← List.take_append_drop (lo + 1) s]
      rw [List.countP_append]
      have z : ((s.take (lo + 1)).countP fun x => decide (quantile s q < x)) = 0 := by
        rw [List.countP_eq_zero]
        intro x hx
        obtain ⟨i, hi, rfl⟩ := List.mem_iff_getElem.1 hx
        rw [List.length_take] at hi
        simp only [List.getElem_take, decide_eq_true_eq, not_lt]
        exact le_trans (hge (by omega) hloN (by omega)) hz1
      rw [z, zero_add]
      exact le_trans List.countP_le_length (by rw [List.length_drop])
    have : ((s.countP fun x => decide (quantile s q < x) : Nat) : K) ≤ (s.length : K) - (lo + 1) := by
      have h2 : ((s.countP fun x => decide (quantile s q < x) : Nat) : K) ≤ ((s.length - (lo + 1) : Nat) : K) := by exact_mod_cast hc
      rwa [Nat.cast_sub (by omega), Nat.cast_add, Nat.cast_one] at h2
    have e : (1 - q) * ((s.length : K) - 1) = (s.length : K) - 1 - pos := by rw [hpdef]; ring
    rw [e]; linarith
  · -- if pos is an integer at most lo points are below, else at most lo + 1
    rcases lt_or_eq_of_le hl1 with hlt | heq
    · have hc : (s.countP fun x => decide (x < quantile s q)) ≤ lo + 1 := by
        conv_lhs => arg 2; rw [← List.take_append_drop (lo + 1) s]
        rw [List.countP_append]
        have z : ((s.drop (lo + 1)).countP fun x => decide (x < quantile s q)) = 0 := by
          rw [List.countP_eq_zero]
          intro x hx
          obtain ⟨i, hi, rfl⟩ := List.mem_iff_getElem.1 hx
          rw [List.length_drop] at hi
          simp only [List.getElem_drop, decide_eq_true_eq, not_lt]
          exact le_trans hz2 (hge hu (by omega) (by omega))
        rw [z, add_zero]
        exact le_trans List.countP_le_length (by rw [List.length_take]; omega)
      have : ((s.countP fun x => decide (x < quantile s q) : Nat) : K) ≤ (lo : K) + 1 := by exact_mod_cast hc
      linarith
    · have hqe : quantile s q = s[lo] := by rw [hq, heq]; ring
      have hc : (s.countP fun x => decide (x < quantile s q)) ≤ lo := by
        conv_lhs => arg 2; rw [← List.take_append_drop lo s]
        rw [List.countP_append]
        have z : ((s.drop lo).countP fun x => decide (x < quantile s q)) = 0 := by
          rw [List.countP_eq_zero]
          intro x hx
          obtain ⟨i, hi, rfl⟩ := List.mem_iff_getElem.1 hx
          rw [List.length_drop] at hi
          simp only [List.getElem_drop, decide_eq_true_eq, not_lt]
          rw [hqe]; exact hge hloN (by omega) (by omega)
        rw [z, add_zero]
        exact le_trans List.countP_le_length (by rw [List.length_take]; omega)
      have : ((s.countP fun x => decide (x < quantile s q) : Nat) : K) ≤ (lo : K) := by exact_mod_cast hc
      linarith

/-! ### affine changes of the heights -/

theorem quantile_affine {a t : K} {s : List K} (hne : s ≠ []) {q : K} (h0 : 0 ≤ q) (h1 : q ≤ 1) :
    quantile (s.map fun z => a * z + t) q = a * quantile s q + t := by
  have hpos := List.length_pos_of_ne_nil hne
  have hlen : (1 : K) ≤ (s.length : K) := by exact_mod_cast hpos
  have hp0 : 0 ≤ q * ((s.length : K) - 1) := mul_nonneg h0 (by linarith)
  have hp1 : q * ((s.length : K) - 1) ≤ (s.length : K) - 1 := by
    have := mul_le_mul_of_nonneg_right h1 (show (0 : K) ≤ (s.length : K) - 1 by linarith)
    linarith
  have hf : 0 ≤ ⌊q * ((s.length : K) - 1)⌋ := Int.floor_nonneg.2 hp0
  have hloN : ⌊q * ((s.length : K) - 1)⌋.toNat < s.length := by
    have hl1 : ((⌊q * ((s.length : K) - 1)⌋.toNat : Nat) : K) ≤ q * ((s.length : K) - 1) := by
      rw [← Int.cast_natCast, Int.toNat_of_nonneg hf]; exact Int.floor_le _
    have : ((⌊q * ((s.length : K) - 1)⌋.toNat : Nat) : K) < (s.length : K) := by linarith
    exact_mod_cast this
  unfold quantile
  simp only [List.length_map]
  rw [getD_of_lt _ (by rw [List.length_map]; exact hloN), getD_of_lt _ (by rw [List.length_map]; omega),
    getD_of_lt _ hloN, getD_of_lt _ (by omega), List.getElem_map, List.getElem_map]
  ring

theorem sortAsc_affine' {a : K} (ha : 0 < a) (t : K) (d : List K) :
    sortAsc (d.map fun z => a * z + t) = (sortAsc d).map fun z => a * z + t := by
  apply sortAsc_unique'
  where
  sortAsc_unique' : sortAsc (d.map fun z => a * z + t) = (sortAsc d).map fun z => a * z + t := by
    have h1 : (sortAsc (d.map fun z => a * z + t)).Perm ((sortAsc d).map fun z => a * z + t) :=
      (sortAsc_perm _).trans ((sortAsc_perm d).map _).symm
    refine h1.eq_of_pairwise (le := (· ≤ ·)) (fun _ _ _ _ h h' => le_antisymm h h') (sortAsc_sorted _) ?_
    rw [List.pairwise_map]
    refine (sortAsc_sorted d).imp fun {x y} h => ?_
    have := mul_le_mul_of_nonneg_left h ha.le
    linarith

theorem heights_affine {a : K} (ha : 0 < a) (t : K) {n : Nat} (hn : 2 ≤ n) {d : List K} (hd : d ≠ []) :
    heights n (d.map fun z => a * z + t) = (heights n d).map fun z => a * z + t := by
  unfold heights
  rw [sortAsc_affine' ha, List.map_map]
  apply List.map_congr_left
  intro m hm
  have hb := ratios_bounds hn hm
  simp only [Function.comp]
  refine quantile_affine (sortAsc_ne hd) ?_ ?_
  · have : m / 100 ≤ 1 := by rw [div_le_one (by norm_num)]; exact hb.2
    linarith
  · have : 0 ≤ m / 100 := div_nonneg hb.1 (by norm_num)
    linarith

theorem npInterp_affine_y (a t : K) : ∀ {l : List (K × K)}, l ≠ [] → ∀ x : K,
    npInterp (l.map fun p => (p.1, a * p.2 + t)) x = a * npInterp l x + t
  | [], h, _ => absurd rfl h
  | [p], _, x => rfl
  | p :: q :: r, _, x => by
    have ih := npInterp_affine_y a t (l := q :: r) (by simp) x
    simp only [List.map_cons, npInterp] at ih ⊢
    split
    · split
      · rfl
      · ring
    · exact ih

theorem npInterp_affine_x {a : K} (ha : 0 < a) (t : K) : ∀ (l : List (K × K)) (x : K),
    npInterp (l.map fun p => (a * p.1 + t, p.2)) (a * x + t) = npInterp l x
  | [], _ => rfl
  | [p], x => rfl
  | p :: q :: r, x => by
    have ih := npInterp_affine_x ha t (q :: r) x
    simp only [List.map_cons, npInterp] at ih ⊢
    have e1 : (a * x + t < a * q.1 + t) ↔ x < q.1 := by
      rw [add_lt_add_iff_right, mul_lt_mul_iff_right₀ ha]
    have e2 : (a * x + t ≤ a * p.1 + t) ↔ x ≤ p.1 := by
      rw [add_le_add_iff_right, mul_le_mul_iff_right₀ ha]
    simp only [e1, e2]
    split
    · split
      · rfl
      · have hane : a ≠ 0 := ha.ne'
        have : a * q.1 + t - (a * p.1 + t) = a * (q.1 - p.1) := by ring
        rw [this]
        have h3 : a * x + t - (a * p.1 + t) = a * (x - p.1) := by ring
        rw [h3]
        rename_i h1 h2
        have : q.1 - p.1 ≠ 0 := by push Not at h2; intro hc; linarith
        field_simp
    · exact ih

theorem zip_map_right (a t : K) (l m : List K) :
    List.zip l (m.map fun z => a * z + t) = (List.zip l m).map fun p => (p.1, a * p.2 + t) := by
  rw [List.zip_map_right]; rfl

theorem smcFit_affine (a t : K) {n : Nat} (hn : 2 ≤ n) (d : List K) (x : K) :
    smcFit (ratios n) ((heights n d).map fun z => a * z + t) x = a * smcFit (ratios n) (heights n d) x + t := by
  unfold smcFit
  rw [zip_map_right, npInterp_affine_y]
  intro hc
  have := pts_length n d
  rw [hc] at this
  simp at this
  omega

theorem search_affine {a : K} (ha : 0 < a) (t : K) (smc smc' : K → K) (hs : ∀ x, smc' x = a * smc x + t) :
    ∀ (l : List (K × K)) (i : Nat) (st : SearchState K),
      search smc' (l.map fun p => (p.1, a * p.2 + t)) i (st.1.map fun b => a * b, st.2) = search smc l i st
  | [], i, st => rfl
  | p :: r, i, st => by
    have ih := search_affine ha t smc smc' hs r
    simp only [List.map_cons, search]
    split
    · rfl
    · have e : (smc' (p.1 + 40) - (a * p.2 + t)) / 40 = a * ((smc (p.1 + 40) - p.2) / 40) := by rw [hs]; ring
      rw [e]
      rcases st with ⟨b, f⟩
      cases b with
      | none => simp only [Option.map_none]; exact ih (i + 1) (some ((smc (p.1 + 40) - p.2) / 40), f)
      | some b =>
        simp only [Option.map_some]
        have e2 : (a * ((smc (p.1 + 40) - p.2) / 40) > a * b) ↔ ((smc (p.1 + 40) - p.2) / 40 > b) :=
          mul_lt_mul_iff_right₀ ha
        simp only [e2]
        split
        · exact ih (i + 1) (some ((smc (p.1 + 40) - p.2) / 40), i)
        · exact ih (i + 1) (some b, f)

theorem line_unique {l : List (K × K)} {a b a' b' : K} (h : IsLine l a b) (h' : IsLine l a' b')
    (hx : l.Pairwise fun p q => p.1 < q.1) (h2 : 2 ≤ l.length) : a = a' ∧ b = b' := by
  have n1 := line_normal h (a - a') (b - b')
  have n2 := line_normal h' (a - a') (b - b')
  have hz : (l.map fun p => ((a - a') * p.1 + (b - b')) ^ 2).sum = 0 := by
    have : (l.map fun p => ((a - a') * p.1 + (b - b')) ^ 2)
        = l.map fun p => (p.2 - (a' * p.1 + b')) * ((a - a') * p.1 + (b - b')) - (p.2 - (a * p.1 + b)) * ((a - a') * p.1 + (b - b')) := by
      apply List.map_congr_left; intro p _; ring
    rw [this, sum_map_sub', n1, n2, sub_zero]
  have hall : ∀ p ∈ l, (a - a') * p.1 + (b - b') = 0 := by
    intro p hp
    have hz' : ((l.map fun p => (a - a') * p.1 + (b - b')).map fun z => z ^ 2).sum = 0 := by
      rw [List.map_map]; exact hz
    have := (HeightParams.sum_map_eq_zero_iff (l.map fun p => (a - a') * p.1 + (b - b')) (fun z => z ^ 2) (fun z _ => sq_nonneg z)).1 hz'
      _ (List.mem_map.2 ⟨p, hp, rfl⟩)
    exact (pow_eq_zero_iff two_ne_zero).1 this
  obtain ⟨p, q, r, rfl⟩ : ∃ p q r, l = p :: q :: r := by
    match l, h2 with
    | p :: q :: r, _ => exact ⟨p, q, r, rfl⟩
  have hp := hall p (by simp)
  have hq := hall q (by simp)
  have hlt := (List.pairwise_cons.1 hx).1 q (by simp)
  have ha : a - a' = 0 := by
    have : (a - a') * (q.1 - p.1) = 0 := by linear_combination hq - hp
    rcases mul_eq_zero.1 this with h | h
    · exact h
    · linarith
  rw [ha] at hp
  constructor
  · linarith
  · linarith

theorem isLine_affine {a : K} (t : K) {l : List (K × K)} {u v : K} (h : IsLine l u v) (ha : a ≠ 0) :
    IsLine (l.map fun p => (p.1, a * p.2 + t)) (a * u) (a * v + t) := by
  intro u' v'
  have e : ∀ x y : K, ((l.map fun p => (p.1, a * p.2 + t)).map fun p => (p.2 - (x * p.1 + y)) ^ 2).sum
      = a ^ 2 * (l.map fun p => (p.2 - (x / a * p.1 + (y - t) / a)) ^ 2).sum := by
    intro x y
    rw [List.map_map, ← List.sum_map_mul_left]
    congr 1
    apply List.map_congr_left
    intro p _
    simp only [Function.comp]
    field_simp
    ring
  rw [e, e]
  have h1 := h (u' / a) ((v' - t) / a)
  have h2 : a * u / a = u := by field_simp
  have h3 : (a * v + t - t) / a = v := by field_simp; ring
  rw [h2, h3]
  exact mul_le_mul_of_nonneg_left h1 (sq_nonneg a)

theorem region_affine (a t : K) (mr h : List K) (i : Nat) :
    region mr (h.map fun z => a * z + t) i = (region mr h i).map fun p => (p.1, a * p.2 + t) := by
  unfold region
  simp only
  rw [zip_map_right, ← List.map_take, ← List.map_drop]

theorem region_strict {n : Nat} (hn : 2 ≤ n) (d : List K) (i : Nat) :
    (region (ratios n) (heights n d) i).Pairwise fun p q => p.1 < q.1 :=
  (pts_strict hn d).sublist ((List.drop_sublist _ _).trans (List.take_sublist _ _))

theorem region_antitone {n : Nat} (hn : 2 ≤ n) {d : List K} (hd : d ≠ []) (i : Nat) :
    (region (ratios n) (heights n d) i).Pairwise fun p q => q.2 ≤ p.2 :=
  (pts_antitone hn hd).sublist ((List.drop_sublist _ _).trans (List.take_sublist _ _))

/-- with at least four classes the central region has at least two points -/
theorem region_two {n : Nat} (hn : 4 ≤ n) (d : List K) {i : Nat} (hi : i < n)
    (h60 : (ratios n : List K)[i]'(by rw [ratios_length]; omega) ≤ 60) :
    2 ≤ (region (ratios n) (heights n d) i).length := by
  have h3 : (3 : K) ≤ (n : K) - 1 := by
    have : ((4 : Nat) : K) ≤ (n : K) := by exact_mod_cast hn
    push_cast at this; linarith
  have hne : (n : K) - 1 ≠ 0 := by linarith
  have hi1 : i + 1 < n := by
    rcases lt_or_eq_of_le (show i + 1 ≤ n by omega) with h | h
    · exact h
    · exfalso
      have hl := ratio_last (K := K) (n := n) (by omega)
      have : i = n - 1 := by omega
      subst this
      rw [hl] at h60; norm_num at h60
  have hstep : (ratios n : List K)[i + 1]'(by rw [ratios_length]; omega) ≤ (ratios n : List K)[i]'(by rw [ratios_length]; omega) + 40 := by
    rw [ratios_get (by omega), ratios_get (by omega)]
    have h0 : (0 : K) < (n : K) - 1 := by linarith
    push_cast
    have : (100 : K) / ((n : K) - 1) ≤ 40 := by rw [div_le_iff₀ h0]; linarith
    have e : (0 : K) + ((i : K) + 1) * ((100 - 0) / ((n : K) - 1)) = 0 + (i : K) * ((100 - 0) / ((n : K) - 1)) + 100 / ((n : K) - 1) := by ring
    linarith
  have hl := pts_length n d
  rw [region_eq (by omega) d hi]
  set f := fun p : K × K => decide ((ratios n : List K)[i]'(by rw [ratios_length]; omega) ≤ p.1) &&
    decide (p.1 ≤ (ratios n : List K)[i]'(by rw [ratios_length]; omega) + 40) with hf
  have hsub : [(List.zip (ratios n : List K) (heights n d))[i]'(by omega), (List.zip (ratios n : List K) (heights n d))[i + 1]'(by omega)].Sublist
      (List.zip (ratios n : List K) (heights n d)) := by
    have e : List.zip (ratios n : List K) (heights n d)
        = (List.zip (ratios n : List K) (heights n d)).take i ++ ((List.zip (ratios n : List K) (heights n d))[i]'(by omega) ::
          (List.zip (ratios n : List K) (heights n d))[i + 1]'(by omega) :: (List.zip (ratios n : List K) (heights n d)).drop (i + 2)) := by
      rw [← List.drop_eq_getElem_cons, ← List.drop_eq_getElem_cons, List.take_append_drop]
    conv_rhs => rw [e]
    refine List.Sublist.trans ?_ (List.sublist_append_right _ _)
    exact List.Sublist.cons_cons _ (List.Sublist.cons_cons _ (List.nil_sublist _))
  have hsub' := hsub.filter f
  have hlt := List.pairwise_iff_getElem.1 (ratios_strict (K := K) (n := n) (by omega)) i (i + 1) (by rw [ratios_length]; omega)
    (by rw [ratios_length]; omega) (by omega)
  have e : ([(List.zip (ratios n : List K) (heights n d))[i]'(by omega), (List.zip (ratios n : List K) (heights n d))[i + 1]'(by omega)].filter f)
      = [(List.zip (ratios n : List K) (heights n d))[i]'(by omega), (List.zip (ratios n : List K) (heights n d))[i + 1]'(by omega)] := by
    rw [List.filter_eq_self]
    intro p hp
    simp only [List.mem_cons, List.not_mem_nil, or_false] at hp
    rcases hp with rfl | rfl
    · rw [zip_get, hf]; simp
    · rw [zip_get, hf]; simp only [Bool.and_eq_true, decide_eq_true_eq]; exact ⟨hlt.le, hstep⟩
  rw [e] at hsub'
  exact hsub'.length_le

/-! ### sorting, minimality from the normal equations, zero areas -/

theorem stableSort_comparesOnly : ComparesOnly (stableSort : PtSort K) := by
  intro f hf l
  unfold stableSort
  rw [List.map_insertionSort (r := fun p q : K × K => p.1 ≤ q.1) (s := fun p q : K × K => p.1 ≤ q.1)]
  intro a _ b _
  exact hf.le_iff_le.symm

theorem isLine_of_normal {l : List (K × K)} {a b : K} (h1 : (l.map fun p => (p.2 - (a * p.1 + b)) * p.1).sum = 0)
    (h2 : (l.map fun p => p.2 - (a * p.1 + b)).sum = 0) : IsLine l a b := by
  intro a' b'
  have e := sq_shift l a b (a' - a) (b' - b) 1
  have e1 : (l.map fun p => (p.2 - (a * p.1 + b) - 1 * ((a' - a) * p.1 + (b' - b))) ^ 2) = l.map fun p => (p.2 - (a' * p.1 + b')) ^ 2 := by
    apply List.map_congr_left; intro p _; ring
  have e2 : (l.map fun p => (p.2 - (a * p.1 + b)) * ((a' - a) * p.1 + (b' - b))).sum = 0 := by
    have : (l.map fun p => (p.2 - (a * p.1 + b)) * ((a' - a) * p.1 + (b' - b)))
        = l.map fun p => (p.2 - (a * p.1 + b)) * p.1 * (a' - a) - (p.2 - (a * p.1 + b)) * (b - b') := by
      apply List.map_congr_left; intro p _; ring
    rw [this, sum_map_sub', List.sum_map_mul_right, List.sum_map_mul_right, h1, h2]; ring
  rw [e1, e2] at e
  rw [e]
  have : 0 ≤ (l.map fun p => ((a' - a) * p.1 + (b' - b)) ^ 2).sum := by
    apply List.sum_nonneg
    intro x hx
    obtain ⟨p, _, rfl⟩ := List.mem_map.1 hx
    exact sq_nonneg _
  linarith

theorem argclosest_affine {a : K} (ha : 0 < a) (t x : K) (l : List K) :
    argclosest (a * x + t) (l.map fun z => a * z + t) = argclosest x l := by
  rcases eq_or_ne l [] with rfl | hne
  · rfl
  have hne' : (l.map fun z => a * z + t) ≠ [] := by simpa using hne
  have hi := argclosest_lt (x := x) hne
  have hj := argclosest_lt (x := a * x + t) hne'
  have hj' : argclosest (a * x + t) (l.map fun z => a * z + t) < l.length := by simpa using hj
  have hdist : ∀ z : K, |a * z + t - (a * x + t)| = a * |z - x| := by
    intro z
    have : a * z + t - (a * x + t) = a * (z - x) := by ring
    rw [this, abs_mul, abs_of_pos ha]
  by_contra hcon
  rcases Nat.lt_or_gt_of_ne hcon with h | h
  · have h1 := argclosest_first hi h
    have h2 := argclosest_le (x := a * x + t) (l := l.map fun z => a * z + t) (j := argclosest x l) hj (by simpa using hi)
    rw [List.getElem_map, List.getElem_map, hdist, hdist] at h2
    have := le_of_mul_le_mul_left h2 ha
    linarith
  · have h1 := argclosest_first (x := a * x + t) (l := l.map fun z => a * z + t) hj h
    have h2 := argclosest_le (x := x) (l := l) hi hj'
    rw [List.getElem_map, List.getElem_map, hdist, hdist] at h1
    have := mul_le_mul_of_nonneg_left h2 ha.le
    linarith

theorem trapezoid_const {v : K} : ∀ {l : List (K × K)}, (∀ p ∈ l, p.2 = v) → trapezoid l = 0
  | [], _ => rfl
  | [_], _ => rfl
  | p :: q :: r, h => by
    rw [trapezoid, trapezoid_const (l := q :: r) (fun z hz => h z (by simp [hz])), h p (by simp), h q (by simp)]
    ring

theorem trapezoid_affine (a t : K) : ∀ (l : List (K × K)),
    trapezoid (l.map fun p => (p.1, a * p.2 + t)) = a * trapezoid l
  | [] => by simp [trapezoid]
  | [_] => by simp [trapezoid]
  | p :: q :: r => by
    have ih := trapezoid_affine a t (q :: r)
    simp only [List.map_cons, trapezoid] at ih ⊢
    rw [ih]; ring

end Surfalize.Abbott
