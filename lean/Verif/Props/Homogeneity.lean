import Verif.Model.Homogeneity
import Verif.Spec.Geometry
import Verif.Lemmas.Num
import Verif.Lemmas.HeightParams
import Verif.Lemmas.Geometry
import Mathlib.Tactic.Positivity
import Mathlib.Tactic.Linarith
import Mathlib.Tactic.FieldSimp

/-!
# C33 — homogeneity
-/
set_option linter.unusedSectionVars false
namespace Surfalize.Homogeneity
open Surfalize

variable {K : Type} [Field K] [LinearOrder K] [IsStrictOrderedRing K]

/-- sum of the prefix sums -/
def prefixTotal : List K → K
  | [] => 0
  | x :: l => ((l.length : K) + 1) * x + prefixTotal l

theorem cumsum_sum (acc : K) (l : List K) : (cumsumFrom acc l).sum = l.length * acc + prefixTotal l := by
  induction l generalizing acc with
  | nil => simp [cumsumFrom, prefixTotal]
  | cons x l ih =>
    simp only [cumsumFrom, List.sum_cons, ih, prefixTotal, List.length_cons]
    push_cast
    ring

theorem cumsum_last (acc : K) (l : List K) : (acc :: cumsumFrom acc l).getLast? = some (acc + l.sum) := by
  induction l generalizing acc with
  | nil => simp [cumsumFrom]
  | cons x l ih =>
    rw [cumsumFrom, List.getLast?_cons_cons, ih]
    simp [add_assoc]

theorem trapezoid_eq (dx a e : K) (l : List K) (h : (a :: l).getLast? = some e) :
    trapezoidDx dx (a :: l) = dx * (l.sum + (a - e) / 2) := by
  induction l generalizing a with
  | nil =>
    simp only [List.getLast?_singleton, Option.some.injEq] at h
    simp [trapezoidDx, h]
  | cons b l ih =>
    rw [List.getLast?_cons_cons] at h
    rw [trapezoidDx, ih b h, List.sum_cons]
    ring

theorem giniIndex_eq {s : List K} (hs : s.sum ≠ 0) (hne : s ≠ []) :
    giniIndex s = some ((2 * prefixTotal s - s.sum) / (s.length * s.sum)) := by
  have hn : (0 : K) < s.length := length_pos_cast hne
  unfold giniIndex
  rw [if_neg hne, if_neg hs]
  simp only
  have hl : ((0 : K) :: (cumsumFrom 0 s).map fun x => x / s.sum).getLast? = some 1 := by
    have := cumsum_last (0 : K) s
    have h2 : ((0 : K) :: (cumsumFrom 0 s).map fun x => x / s.sum) = ((0 : K) :: cumsumFrom 0 s).map fun x => x / s.sum := by
      simp
    rw [h2, List.getLast?_map, this]
    simp [hs]
  rw [trapezoid_eq _ _ _ _ hl]
  have h3 : ((cumsumFrom 0 s).map fun x => x / s.sum).sum = prefixTotal s / s.sum := by
    have := cumsum_sum (0 : K) s
    simp only [mul_zero, zero_add] at this
    rw [← this]
    have e := sum_map_mul_const (cumsumFrom 0 s) (1 / s.sum)
    rw [one_div, inv_mul_eq_div] at e
    rw [← e]
    congr 1
    apply List.map_congr_left
    intro x _
    rw [inv_mul_eq_div]
  rw [h3]
  congr 1
  field_simp
  ring

theorem prefixTotal_le : ∀ {s : List K}, s.Pairwise (· ≤ ·) →
    2 * prefixTotal s ≤ (s.length + 1) * s.sum ∧
    (2 * prefixTotal s = (s.length + 1) * s.sum ↔ ∀ x ∈ s, ∀ y ∈ s, x = y)
  | [], _ => by simp [prefixTotal]
  | a :: l, h => by
    rw [List.pairwise_cons] at h
    obtain ⟨h1, h2⟩ := prefixTotal_le h.2
    have hb : (l.length : K) * a ≤ l.sum := HeightParams.length_mul_le_sum h.1
    simp only [prefixTotal, List.length_cons, List.sum_cons]
    push_cast
    refine ⟨by nlinarith, ?_⟩
    constructor
    · intro e
      have e1 : l.sum = l.length * a := by nlinarith
      have e2 : 2 * prefixTotal l = (l.length + 1) * l.sum := by nlinarith
      have e3 : ∀ x ∈ l, x - a = 0 := by
        have := (HeightParams.sum_map_eq_zero_iff l (fun x => x - a) (fun z hz => by linarith [h.1 z hz])).1 (by
          rw [sum_map_sub_const]; linarith)
        exact this
      have e4 : ∀ x ∈ a :: l, x = a := by
        intro x hx
        rcases List.mem_cons.1 hx with rfl | hx
        · rfl
        · linarith [e3 x hx]
      intro x hx y hy
      rw [e4 x hx, e4 y hy]
    · intro e
      have e2 := h2.2 (fun x hx y hy => e x (by simp [hx]) y (by simp [hy]))
      have e1 : l.sum = l.length * a := by
        have : l.sum = (l.map fun _ => a).sum := by
          congr 1
          conv_lhs => rw [← List.map_id l]
          apply List.map_congr_left
          intro x hx
          exact e x (by simp [hx]) a (by simp)
        rw [this]; simp
      rw [e1] at e2 ⊢
      nlinarith

theorem prefixTotal_ge {s : List K} (h : ∀ x ∈ s, 0 ≤ x) : s.sum ≤ prefixTotal s := by
  induction s with
  | nil => simp [prefixTotal]
  | cons a l ih =>
    simp only [prefixTotal, List.sum_cons]
    have := ih fun x hx => h x (by simp [hx])
    have h1 := h a (by simp)
    have : 0 ≤ (l.length : K) * a := by positivity
    nlinarith

theorem prefixTotal_scale (s : List K) (c : K) : prefixTotal (s.map fun x => c * x) = c * prefixTotal s := by
  induction s with
  | nil => simp [prefixTotal]
  | cons a l ih => simp only [List.map_cons, prefixTotal, ih, List.length_map]; ring

theorem sortAsc_scale (l : List K) {c : K} (hc : 0 < c) : sortAsc (l.map fun x => c * x) = (sortAsc l).map fun x => c * x := by
  have hp : (sortAsc (l.map fun x => c * x)).Perm ((sortAsc l).map fun x => c * x) :=
    (sortAsc_perm _).trans ((sortAsc_perm l).symm.map _)
  refine hp.eq_of_pairwise' (sortAsc_sorted _) ?_
  rw [List.pairwise_map]
  exact (sortAsc_sorted l).imp fun h => by nlinarith

end Surfalize.Homogeneity

namespace Surfalize.Props
open Surfalize Homogeneity Spec Geometry

section Index
variable {K : Type} [Field K] [LinearOrder K] [IsStrictOrderedRing K]

/-- **C33** (range). The index of non-negative cell values with positive sum lies in `(0, 1]` — it is at least
`1/n`. -/
theorem C33_range (vals : List K) (h0 : ∀ x ∈ vals, 0 ≤ x) (hs : 0 < vals.sum) :
    ∃ h, giniIndex (sortAsc vals) = some h ∧ 1 / (vals.length : K) ≤ h ∧ 0 < h ∧ h ≤ 1 := by
  have hp := sortAsc_perm vals
  have hsum : (sortAsc vals).sum = vals.sum := hp.sum_eq
  have hne : vals ≠ [] := by rintro rfl; simp at hs
  have hne' : sortAsc vals ≠ [] := fun h => hne (List.length_eq_zero_iff.1 (by rw [← sortAsc_length, h]; rfl))
  have hn : (0 : K) < vals.length := length_pos_cast hne
  refine ⟨_, giniIndex_eq (by rw [hsum]; exact ne_of_gt hs) hne', ?_⟩
  rw [hsum, sortAsc_length]
  have h1 := (prefixTotal_le (sortAsc_sorted vals)).1
  have h2 := prefixTotal_ge (s := sortAsc vals) (fun x hx => h0 x (hp.mem_iff.1 hx))
  rw [hsum] at h1 h2
  rw [sortAsc_length] at h1
  have hpos : (0 : K) < vals.length * vals.sum := by positivity
  have hge : 1 / (vals.length : K) ≤ (2 * prefixTotal (sortAsc vals) - vals.sum) / (vals.length * vals.sum) := by
    rw [div_le_div_iff₀ hn hpos]
    nlinarith
  refine ⟨hge, lt_of_lt_of_le (by positivity) hge, ?_⟩
  rw [div_le_one hpos]
  linarith

/-- **C33** (maximum). The index equals 1 exactly when all cells have the same value. -/
theorem C33_one_iff_equal (vals : List K) (hs : 0 < vals.sum) :
    giniIndex (sortAsc vals) = some 1 ↔ ∀ x ∈ vals, ∀ y ∈ vals, x = y := by
  have hp := sortAsc_perm vals
  have hsum : (sortAsc vals).sum = vals.sum := hp.sum_eq
  have hne : vals ≠ [] := by rintro rfl; simp at hs
  have hne' : sortAsc vals ≠ [] := fun h => hne (List.length_eq_zero_iff.1 (by rw [← sortAsc_length, h]; rfl))
  have hn : (0 : K) < vals.length := length_pos_cast hne
  have hpos : (0 : K) < vals.length * vals.sum := by positivity
  rw [giniIndex_eq (by rw [hsum]; exact ne_of_gt hs) hne', Option.some.injEq, hsum, sortAsc_length,
    div_eq_one_iff_eq (ne_of_gt hpos)]
  have h2 := (prefixTotal_le (sortAsc_sorted vals)).2
  rw [hsum, sortAsc_length] at h2
  constructor
  · intro e
    have := h2.1 (by linarith)
    exact fun x hx y hy => this x (hp.mem_iff.2 hx) y (hp.mem_iff.2 hy)
  · intro e
    have := h2.2 fun x hx y hy => e x (hp.mem_iff.1 hx) y (hp.mem_iff.1 hy)
    linarith

/-- **C33** (order). The index does not depend on the order of the cells. -/
theorem C33_order (vals vals' : List K) (h : vals.Perm vals') : giniIndex (sortAsc vals) = giniIndex (sortAsc vals') := by
  rw [sortAsc_eq_of_perm h]

/-- **C33** (scaling). The index does not change when all values are multiplied by a positive factor. -/
theorem C33_scale_partial (vals : List K) (c : K) (hc : 0 < c) (hs : vals.sum ≠ 0) :
    giniIndex (sortAsc (vals.map fun x => c * x)) = giniIndex (sortAsc vals) := by
  have hp := sortAsc_perm vals
  have hsum : (sortAsc vals).sum = vals.sum := hp.sum_eq
  have hne : vals ≠ [] := by rintro rfl; simp at hs
  have hne' : sortAsc vals ≠ [] := fun h => hne (List.length_eq_zero_iff.1 (by rw [← sortAsc_length, h]; rfl))
  have hn : (0 : K) < vals.length := length_pos_cast hne
  rw [sortAsc_scale _ hc]
  rw [giniIndex_eq (by rw [hsum]; exact hs) hne', giniIndex_eq (by
    rw [sum_map_mul_const, hsum]; exact mul_ne_zero (ne_of_gt hc) hs) (by simpa using hne')]
  rw [prefixTotal_scale, sum_map_mul_const, hsum, List.length_map, sortAsc_length]
  congr 1
  have : vals.sum ≠ 0 := hs
  field_simp

end Index

section Api
variable {K : Type} [Field K] [LinearOrder K] [IsStrictOrderedRing K] [FloorRing K]

theorem roundTo_natCast (d n : Nat) : roundTo d (n : K) = n := by
  unfold roundTo
  have : (n : K) * 10 ^ d = ((n * 10 ^ d : Int) : K) := by push_cast; ring
  rw [this, pyRound_intCast]
  push_cast
  have h10 : (10 : K) ^ d ≠ 0 := by positivity
  field_simp

theorem roundTo_mono (d : Nat) {x y : K} (h : x ≤ y) : roundTo d x ≤ roundTo d y := by
  unfold roundTo
  have h10 : (0 : K) < 10 ^ d := by positivity
  apply div_le_div_of_nonneg_right _ h10.le
  exact_mod_cast pyRound_mono (mul_le_mul_of_nonneg_right h h10.le)

theorem roundTo_near (d : Nat) (x : K) : |roundTo d x - x| ≤ 1 / 2 / 10 ^ d := by
  unfold roundTo
  have h10 : (0 : K) < 10 ^ d := by positivity
  have := pyRound_near (x * 10 ^ d)
  have e : (pyRound (x * 10 ^ d) : K) / 10 ^ d - x = ((pyRound (x * 10 ^ d) : K) - x * 10 ^ d) / 10 ^ d := by
    field_simp
  rw [e, abs_div, abs_of_pos h10]
  exact div_le_div_of_nonneg_right this h10.le

theorem mapM_ok_length {ε α β : Type} {f : α → Except ε β} : ∀ {l : List α} {r : List β}, l.mapM f = .ok r →
    List.Forall₂ (fun a b => f a = .ok b) l r
  | [], r, h => by
    simp only [List.mapM_nil, pure, Except.pure, Except.ok.injEq] at h
    subst h; exact .nil
  | a :: l, r, h => by
    rw [List.mapM_cons] at h
    cases ha : f a with
    | error e => simp [ha, bind, Except.bind] at h
    | ok b =>
      cases hl : l.mapM f with
      | error e => simp [ha, hl, bind, Except.bind] at h
      | ok r' =>
        simp only [ha, hl, bind, Except.bind, pure, Except.pure, Except.ok.injEq] at h
        subst h
        exact .cons ha (mapM_ok_length hl)

theorem mapM_some_forall {α β : Type} {f : α → Option β} : ∀ {l : List α} {r : List β}, l.mapM f = some r →
    List.Forall₂ (fun a b => f a = some b) l r
  | [], r, h => by
    simp only [List.mapM_nil, pure, Option.some.injEq] at h
    subst h; exact .nil
  | a :: l, r, h => by
    rw [List.mapM_cons] at h
    cases ha : f a with
    | none => simp [ha, bind] at h
    | some b =>
      cases hl : l.mapM f with
      | none => simp [ha, hl, bind] at h
      | some r' =>
        simp only [ha, hl, bind, pure, Option.bind, Option.some.injEq] at h
        subst h
        exact .cons ha (mapM_some_forall hl)

theorem forall₂_mem_right {α β : Type} {R : α → β → Prop} {l : List α} {r : List β} (h : List.Forall₂ R l r) :
    ∀ b ∈ r, ∃ a ∈ l, R a b := by
  induction h with
  | nil => simp
  | cons hab _ ih =>
    intro b hb
    rcases List.mem_cons.1 hb with rfl | hb
    · exact ⟨_, by simp, hab⟩
    · obtain ⟨a, ha, hR⟩ := ih b hb
      exact ⟨a, by simp [ha], hR⟩

theorem forall₂_comp {α β γ : Type} {R : α → β → Prop} {S : β → γ → Prop} {l : List α} {r : List β} {t : List γ}
    (h : List.Forall₂ R l r) (h' : List.Forall₂ S r t) : List.Forall₂ (fun a c => ∃ b, R a b ∧ S b c) l t := by
  induction h generalizing t with
  | nil => cases h'; exact .nil
  | cons hab _ ih =>
    cases h' with
    | cons hS h'' => exact .cons ⟨_, hab, hS⟩ (ih h'')

theorem mapM_const {ε α β : Type} {f : α → Except ε β} {v : β} : ∀ {l : List α}, (∀ a ∈ l, f a = .ok v) →
    l.mapM f = .ok (l.map fun _ => v)
  | [], _ => rfl
  | a :: l, h => by
    rw [List.mapM_cons, h a (by simp), mapM_const (fun b hb => h b (by simp [hb]))]
    rfl

theorem gini_range0 {vals : List K} (h0 : ∀ x ∈ vals, 0 ≤ x) {x : K} (h : giniIndex (sortAsc vals) = some x) :
    0 ≤ x ∧ x ≤ 1 := by
  by_cases hv : vals = []
  · subst hv
    simp only [sortAsc, List.insertionSort_nil, giniIndex, if_true, Option.some.injEq] at h
    subst h; exact ⟨le_refl _, zero_le_one⟩
  have hsum : (sortAsc vals).sum = vals.sum := (sortAsc_perm vals).sum_eq
  have hne' : sortAsc vals ≠ [] := fun h => hv (List.length_eq_zero_iff.1 (by rw [← sortAsc_length, h]; rfl))
  by_cases hs : vals.sum = 0
  · unfold giniIndex at h
    rw [if_neg hne', if_pos (hsum.trans hs)] at h
    cases h
  have hpos : 0 < vals.sum := lt_of_le_of_ne (List.sum_nonneg h0) (Ne.symm hs)
  obtain ⟨y, hy, _, h2, h3⟩ := C33_range vals h0 hpos
  rw [hy, Option.some.injEq] at h
  subst h
  exact ⟨h2.le, h3⟩

theorem cellIndex_some {vals : List (Option K)} {x : K} (h : cellIndex vals = some x) :
    none ∉ vals ∧ giniIndex (sortAsc ((measured vals).map (roundTo 8))) = some x := by
  unfold cellIndex at h
  split at h
  · cases h
  · rename_i hn; exact ⟨hn, h⟩

/-- **C33** (the reported number). Whenever `homogeneity` returns a number and the cell parameters are non-negative,
it lies in `[0, 1]` and differs by at most half of the last digit (`0.5·10⁻⁴`) from the mean over the parameters of
the index of the cell values (rounded to 8 digits). -/
theorem C33_reported {α : Type} (param : String → Grid α → Except Err (Option K)) (parameters : List String) (period stepX stepY : K)
    (g : Grid α) (h : K) (hh : homogeneity param parameters period stepX stepY g = .ok (some h))
    (hnn : ∀ p ∈ parameters, ∀ c x, param p c = .ok (some x) → 0 ≤ x) :
    0 ≤ h ∧ h ≤ 1 ∧ ∃ hs : List K, |h - mean hs| ≤ 1 / 2 / 10 ^ 4 ∧
      List.Forall₂ (fun p x => ∃ vals : List K,
        List.Forall₂ (fun c v => param p c = .ok (some v)) (cells g (pyInt (period / stepY)).toNat (pyInt (period / stepX)).toNat) vals ∧
        giniIndex (sortAsc (vals.map (roundTo 8))) = some x) parameters hs := by
  unfold homogeneity at hh
  split at hh
  · cases hh
  simp only at hh
  split at hh
  · cases hh
  split at hh
  · cases hh
  rename_i results hres
  split at hh
  · cases hh
  · cases hh
  rename_i hs hne hm
  simp only [Except.ok.injEq, Option.some.injEq] at hh
  have hne' : hs ≠ [] := fun e => hne e
  have f1 := mapM_ok_length hres
  have f2 := mapM_some_forall hm
  have key : ∀ x ∈ hs, 0 ≤ x ∧ x ≤ 1 := by
    intro x hx
    obtain ⟨vals, hv, hidx⟩ := forall₂_mem_right f2 x hx
    obtain ⟨p, hp, hvals⟩ := forall₂_mem_right f1 vals hv
    refine gini_range0 ?_ (cellIndex_some hidx).2
    intro y hy
    obtain ⟨z, hz, rfl⟩ := List.mem_map.1 hy
    obtain ⟨c, _, hc⟩ := forall₂_mem_right (mapM_ok_length hvals) (some z) (mem_measured.1 hz)
    have h0 := roundTo_mono 8 (hnn p hp c z hc)
    have := roundTo_natCast (K := K) 8 0
    simp only [Nat.cast_zero] at this
    rw [this] at h0
    exact h0
  have m0 : 0 ≤ mean hs := HeightParams.le_mean hne' fun x hx => (key x hx).1
  have m1 : mean hs ≤ 1 := HeightParams.mean_le hne' fun x hx => (key x hx).2
  subst hh
  refine ⟨?_, ?_, hs, roundTo_near 4 _, ?_⟩
  · have := roundTo_natCast (K := K) 4 0
    simp only [Nat.cast_zero] at this
    rw [← this]; exact roundTo_mono 4 m0
  · have := roundTo_natCast (K := K) 4 1
    simp only [Nat.cast_one] at this
    rw [← this]; exact roundTo_mono 4 m1
  · refine (forall₂_comp f1 f2).imp ?_
    rintro p x ⟨vals, h1, h2⟩
    obtain ⟨n1, n2⟩ := cellIndex_some h2
    have f3 := mapM_ok_length h1
    rw [eq_map_some_of_no_none vals n1] at f3
    exact ⟨measured vals, (List.forall₂_map_right_iff (R := fun a b => param p a = .ok b)).1 f3, n2⟩

/-- **C33** (equal cells). If all cells have the same value, positive after rounding to 8 digits, for every
parameter, the reported homogeneity is exactly 1. -/
theorem C33_equal_cells {α : Type} (param : String → Grid α → Except Err (Option K)) (parameters : List String)
    (period stepX stepY : K) (g : Grid α) (v : String → K) (hp : parameters ≠ [])
    (hd : ∀ p ∈ parameters, p ∉ disallowed)
    (hcx : 1 ≤ period / stepX) (hcy : 1 ≤ period / stepY)
    (hc : cells g (pyInt (period / stepY)).toNat (pyInt (period / stepX)).toNat ≠ [])
    (hv : ∀ p ∈ parameters, 0 < roundTo 8 (v p) ∧
      ∀ c ∈ cells g (pyInt (period / stepY)).toNat (pyInt (period / stepX)).toNat, param p c = .ok (some (v p))) :
    homogeneity param parameters period stepX stepY g = .ok (some 1) := by
  unfold homogeneity
  rw [if_neg (by
    rw [Bool.not_eq_true, List.any_eq_false]
    intro p hp'
    simpa using hd p hp')]
  have px : 1 ≤ pyInt (period / stepX) := by
    rw [pyInt_nonneg (by linarith)]; exact Int.le_floor.2 (by exact_mod_cast hcx)
  have py : 1 ≤ pyInt (period / stepY) := by
    rw [pyInt_nonneg (by linarith)]; exact Int.le_floor.2 (by exact_mod_cast hcy)
  simp only
  rw [if_neg (by omega)]
  set cs := cells g (pyInt (period / stepY)).toNat (pyInt (period / stepX)).toNat with hcs
  have m1 : ∀ p ∈ parameters, cs.mapM (param p) = .ok (cs.map fun _ => some (v p)) := by
    intro p hp'
    exact mapM_const (hv p hp').2
  have m2 : ∀ ps : List String, (∀ p ∈ ps, p ∈ parameters) →
      ps.mapM (fun p => cs.mapM (param p)) = .ok (ps.map fun p => cs.map fun _ => some (v p)) := by
    intro ps hps
    induction ps with
    | nil => rfl
    | cons p ps ih =>
      rw [List.mapM_cons, m1 p (hps p (by simp)), ih (fun q hq => hps q (by simp [hq]))]
      rfl
  have m3 : ∀ p ∈ parameters, cellIndex (cs.map fun _ => some (v p)) = some 1 := by
    intro p hp'
    have hpos := (hv p hp').1
    unfold cellIndex
    rw [if_neg (by simp)]
    have em : measured (cs.map fun _ => some (v p)) = cs.map fun _ => v p := by
      have := measured_some (cs.map fun _ => v p)
      rwa [List.map_map] at this
    rw [em]
    have hl : (0 : K) < cs.length := by exact_mod_cast List.length_pos_of_ne_nil hc
    rw [C33_one_iff_equal]
    · intro x hx y hy
      simp only [List.map_map, List.mem_map, Function.comp_apply] at hx hy
      obtain ⟨_, _, rfl⟩ := hx
      obtain ⟨_, _, rfl⟩ := hy
      rfl
    · simp only [List.map_const', List.map_replicate, List.sum_replicate, nsmul_eq_mul]
      positivity
  have m4 : ∀ ps : List String, (∀ p ∈ ps, p ∈ parameters) →
      (ps.map fun p => cs.map fun _ => some (v p)).mapM cellIndex = some (ps.map fun _ => (1 : K)) := by
    intro ps hps
    induction ps with
    | nil => rfl
    | cons p ps ih =>
      rw [List.map_cons, List.mapM_cons, m3 p (hps p (by simp)), ih (fun q hq => hps q (by simp [hq]))]
      rfl
  rw [m2 parameters (fun _ h => h)]
  simp only [m4 parameters (fun _ h => h)]
  have hmean : mean (parameters.map fun _ => (1 : K)) = 1 := by
    have : (0 : K) < parameters.length := by exact_mod_cast List.length_pos_of_ne_nil hp
    unfold mean
    simp only [List.map_const', List.sum_replicate, List.length_replicate, nsmul_eq_mul, mul_one]
    field_simp
  have h1 := roundTo_natCast (K := K) 4 1
  simp only [Nat.cast_one] at h1
  cases parameters with
  | nil => exact absurd rfl hp
  | cons p ps =>
    simp only [List.map_cons] at hmean ⊢
    rw [hmean, h1]

/-- **C33** (cells). The cells are disjoint blocks of `cy × cx` points that lie in the surface, one for each pair of
indices below `ny / cy` and `nx / cx`, in row-major order. -/
theorem C33_cells {α : Type} (g : Grid α) (hg : g.WF) (cy cx : Nat) (hy : 0 < cy) (hx : 0 < cx) :
    (cells g cy cx).length = (g.ny / cy) * (g.nx / cx) ∧
    ∀ i < g.ny / cy, ∀ j < g.nx / cx, ∃ c, (cells g cy cx)[i * (g.nx / cx) + j]? = some c ∧
      IsBlock g c (cy * i) (cx * j) cy cx := by
  have len : ∀ (l : List Nat) (F : Nat → Nat → Grid α) (n : Nat),
      (l.flatMap fun i => (List.range n).map fun j => F i j).length = l.length * n := by
    intro l F n
    induction l with
    | nil => simp
    | cons a l ih => rw [List.flatMap_cons, List.length_append, ih]; simp [Nat.add_mul, Nat.add_comm]
  have idx : ∀ (l : List Nat) (F : Nat → Nat → Grid α) (n i j : Nat) (hi : i < l.length), j < n →
      (l.flatMap fun i => (List.range n).map fun j => F i j)[i * n + j]? = some (F l[i] j) := by
    intro l F n
    induction l with
    | nil => intro i j hi; simp at hi
    | cons a l ih =>
      intro i j hi hj
      rw [List.flatMap_cons]
      cases i with
      | zero =>
        rw [List.getElem?_append_left (by simpa using hj)]
        simp [hj]
      | succ i =>
        rw [List.getElem?_append_right (by simp [Nat.add_mul]; omega)]
        simp only [List.length_map, List.length_range]
        have : (i + 1) * n + j - n = i * n + j := by rw [Nat.add_mul]; omega
        rw [this]
        exact ih i j (by simpa using hi) hj
  refine ⟨by unfold cells; rw [len]; simp, ?_⟩
  intro i hi j hj
  refine ⟨_, by unfold cells; exact idx _ _ _ i j (by simpa using hi) hj, ?_⟩
  simp only [List.getElem_range]
  have b1 : cy * (i + 1) ≤ g.ny := by
    calc cy * (i + 1) ≤ cy * (g.ny / cy) := Nat.mul_le_mul_left _ hi
      _ ≤ g.ny := Nat.mul_div_le _ _
  have b2 : cx * (j + 1) ≤ g.nx := by
    calc cx * (j + 1) ≤ cx * (g.nx / cx) := Nat.mul_le_mul_left _ hj
      _ ≤ g.nx := Nat.mul_div_le _ _
  have m1 : cy * (i + 1) = cy * i + cy := by ring
  have m2 : cx * (j + 1) = cx * j + cx := by ring
  have := pySlice2_isBlock g hg ((cy * i : Nat) : Int) (((cy * (i + 1) : Nat) : Int) - 1 + 1)
      ((cx * j : Nat) : Int) (((cx * (j + 1) : Nat) : Int) - 1 + 1)
      (a' := cy * i) (b' := cy * (i + 1)) (c' := cx * j) (d' := cx * (j + 1))
      (by unfold normIdx; rw [if_neg (by omega)]; omega) (by unfold normIdx; rw [if_neg (by omega)]; omega)
      (by unfold normIdx; rw [if_neg (by omega)]; omega) (by unfold normIdx; rw [if_neg (by omega)]; omega)
      (by omega) (by omega)
  have e1 : cy * (i + 1) - cy * i = cy := by omega
  have e2 : cx * (j + 1) - cx * j = cx := by omega
  rw [e1, e2] at this
  exact this

/-- **C33** (short periods). A period shorter than one pixel in either direction leaves no cell and raises
`ZeroDivisionError` instead of reporting a homogeneity. -/
theorem C33_period_below_one_pixel {α : Type} (param : String → Grid α → Except Err (Option K)) (parameters : List String)
    (period stepX stepY : K) (g : Grid α) (hd : ∀ p ∈ parameters, p ∉ disallowed) (hx : 0 ≤ period / stepX)
    (hy : 0 ≤ period / stepY) (hlt : period / stepX < 1 ∨ period / stepY < 1) :
    homogeneity param parameters period stepX stepY g = .error .zeroDivision := by
  have hdis : parameters.any (fun p => disallowed.contains p) = false := by
    rw [List.any_eq_false]
    intro p hp
    simpa using hd p hp
  have z : ∀ x : K, 0 ≤ x → x < 1 → (pyInt x).toNat = 0 := by
    intro x h0 h1
    rw [(pyInt_eq_iff h0 0).2 ⟨by simpa using h0, by simpa using h1⟩]; rfl
  have hz : (pyInt (period / stepX)).toNat = 0 ∨ (pyInt (period / stepY)).toNat = 0 :=
    hlt.imp (z _ hx) (z _ hy)
  unfold homogeneity
  rw [hdis]
  simp only [Bool.false_eq_true, if_false]
  rw [if_pos hz]

/-- **C33** (NaN). A single cell whose parameter is NaN makes the homogeneity NaN. -/
theorem C33_nan_cell {α : Type} (param : String → Grid α → Except Err (Option K)) (parameters : List String)
    (period stepX stepY : K) (g : Grid α) (hd : ∀ p ∈ parameters, p ∉ disallowed)
    (hcx : 1 ≤ period / stepX) (hcy : 1 ≤ period / stepY)
    (hok : ∀ p ∈ parameters, ∀ c ∈ cells g (pyInt (period / stepY)).toNat (pyInt (period / stepX)).toNat, ∃ v, param p c = .ok v)
    {p : String} (hp : p ∈ parameters) {c : Grid α} (hc : c ∈ cells g (pyInt (period / stepY)).toNat (pyInt (period / stepX)).toNat)
    (hn : param p c = .ok none) : homogeneity param parameters period stepX stepY g = .ok none := by
  unfold homogeneity
  rw [if_neg (by
    rw [Bool.not_eq_true, List.any_eq_false]
    intro p hp'
    simpa using hd p hp')]
  have px : 1 ≤ pyInt (period / stepX) := by
    rw [pyInt_nonneg (by linarith)]; exact Int.le_floor.2 (by exact_mod_cast hcx)
  have py : 1 ≤ pyInt (period / stepY) := by
    rw [pyInt_nonneg (by linarith)]; exact Int.le_floor.2 (by exact_mod_cast hcy)
  simp only
  rw [if_neg (by omega)]
  generalize cells g (pyInt (period / stepY)).toNat (pyInt (period / stepX)).toNat = cs at hok hc
  have tot : ∀ {β : Type} (f : β → Except Err (Option K)) (l : List β), (∀ b ∈ l, ∃ v, f b = .ok v) → ∃ r, l.mapM f = .ok r ∧
      ∀ b ∈ l, ∀ v, f b = .ok v → v ∈ r := by
    intro β f l
    induction l with
    | nil => intro _; exact ⟨[], rfl, by simp⟩
    | cons b l ih =>
      intro h
      obtain ⟨v, hv⟩ := h b (by simp)
      obtain ⟨r, hr, hm⟩ := ih fun x hx => h x (by simp [hx])
      refine ⟨v :: r, by rw [List.mapM_cons, hv, hr]; rfl, fun x hx w hw => ?_⟩
      rcases List.mem_cons.1 hx with rfl | hx
      · rw [hv] at hw; cases hw; simp
      · exact List.mem_cons_of_mem _ (hm x hx w hw)
  have tot2 : ∀ l : List String, (∀ q ∈ l, q ∈ parameters) → ∃ r, l.mapM (fun p => cs.mapM (param p)) = .ok r ∧
      (p ∈ l → ∃ vals ∈ r, none ∈ vals) := by
    intro l
    induction l with
    | nil => intro _; exact ⟨[], rfl, by simp⟩
    | cons q l ih =>
      intro h
      obtain ⟨v, hv, hvm⟩ := tot (param q) cs (hok q (h q (by simp)))
      obtain ⟨r, hr, hm⟩ := ih fun x hx => h x (by simp [hx])
      refine ⟨v :: r, by rw [List.mapM_cons, hv, hr]; rfl, fun hx => ?_⟩
      rcases List.mem_cons.1 hx with rfl | hx
      · exact ⟨v, by simp, hvm c hc none hn⟩
      · obtain ⟨vals, h1, h2⟩ := hm hx
        exact ⟨vals, by simp [h1], h2⟩
  obtain ⟨r, hr, hm⟩ := tot2 parameters fun _ h => h
  obtain ⟨vals, h1, h2⟩ := hm hp
  rw [hr]
  simp only
  have hnone : r.mapM cellIndex = none := by
    cases hx : r.mapM cellIndex with
    | none => rfl
    | some xs =>
      exfalso
      have f := mapM_some_forall hx
      have : ∀ {l : List (List (Option K))} {t : List K}, List.Forall₂ (fun a b => cellIndex a = some b) l t → vals ∉ l := by
        intro l t hf
        induction hf with
        | nil => simp
        | cons hab _ ih =>
          rintro (_ | ⟨_, hmem⟩)
          · exact (cellIndex_some hab).1 h2
          · exact ih hmem
      exact this f h1
  rw [hnone]

/-- **C33** is false of the reported number in two ways, because of the rounding: cell values below `5·10⁻⁹` are
rounded to 0, so scaling can turn the index into NaN; and 20001 cells of which one is positive give the
index `1/20001`, reported as 0. The first: -/
theorem C33_scale_fails_when_rounded :
    cellIndex (([1, 2] : List ℚ).map some) = some (5 / 6) ∧ cellIndex (([1, 2] : List ℚ).map fun x => some (1 / 10 ^ 9 * x)) = none := by
  constructor <;> decide +kernel

/-- concrete values meeting the hypotheses -/
example : giniIndex (sortAsc ([3, 1, 2] : List ℚ)) = some (7 / 9) ∧ (0 : ℚ) < ([3, 1, 2] : List ℚ).sum := by
  constructor <;> decide +kernel

/-- **C33**, which parameters can be named: skewness (it can be negative), the other parameters of periodic surfaces and the homogeneity itself
are refused with ValueError, whatever the surface and wherever they stand in the list; any other name is not refused for itself: if all
parameters can be evaluated on every cell, the result is a number or NaN. -/
theorem C33_names {α : Type} (param : String → Grid α → Except Err (Option K)) (parameters : List String) (period stepX stepY : K) (g : Grid α) :
    ((∃ p ∈ parameters, p = "Ssk" ∨ p = "depth" ∨ p = "homogeneity" ∨ p = "orientation" ∨ p = "aspect_ratio" ∨ p = "period") →
      homogeneity param parameters period stepX stepY g = .error .valueError) ∧
    ((∀ p ∈ parameters, p ≠ "Ssk" ∧ p ≠ "depth" ∧ p ≠ "homogeneity" ∧ p ≠ "orientation" ∧ p ≠ "aspect_ratio" ∧ p ≠ "period") →
      (∀ p ∈ parameters, ∀ c, ∃ v, param p c = .ok v) → 1 ≤ period / stepX → 1 ≤ period / stepY →
      ∃ h, homogeneity param parameters period stepX stepY g = .ok h) := by
  have hm (p : String) : p ∈ disallowed ↔ (p = "Ssk" ∨ p = "depth" ∨ p = "homogeneity" ∨ p = "orientation" ∨ p = "aspect_ratio" ∨ p = "period") := by
    simp [disallowed]
  constructor
  · rintro ⟨p, hp, h⟩
    unfold homogeneity
    rw [if_pos (List.any_eq_true.2 ⟨p, hp, by simpa using (hm p).2 h⟩)]
  · intro hd hv hx hy
    have hn : parameters.any (fun p => disallowed.contains p) = false := by
      rw [List.any_eq_false]
      intro p hp hc
      have := (hm p).1 (by simpa using hc)
      obtain ⟨a, b, c, d, e, f⟩ := hd p hp
      tauto
    have hpos {x : K} (h : 1 ≤ x) : (pyInt x).toNat ≠ 0 := by
      have : (1 : Int) ≤ pyInt x := by
        rw [pyInt, if_pos (zero_le_one.trans h)]
        exact Int.le_floor.2 (by simpa using h)
      omega
    have hcell : ∀ (p : String), p ∈ parameters → ∀ l : List (Grid α), ∃ r, l.mapM (param p) = .ok r := by
      intro p hp l
      induction l with
      | nil => exact ⟨[], rfl⟩
      | cons c cs ih =>
        obtain ⟨v, e⟩ := hv p hp c
        obtain ⟨r, e'⟩ := ih
        exact ⟨v :: r, by rw [List.mapM_cons, e, e']; rfl⟩
    have hall : ∀ l : List String, (∀ p ∈ l, p ∈ parameters) → ∃ r,
        l.mapM (fun p => (cells g (pyInt (period / stepY)).toNat (pyInt (period / stepX)).toNat).mapM (param p)) = .ok r := by
      intro l
      induction l with
      | nil => exact fun _ => ⟨[], rfl⟩
      | cons p ps ih =>
        intro h
        obtain ⟨v, e⟩ := hcell p (h p (by simp)) (cells g (pyInt (period / stepY)).toNat (pyInt (period / stepX)).toNat)
        obtain ⟨r, e'⟩ := ih fun q hq => h q (by simp [hq])
        exact ⟨v :: r, by rw [List.mapM_cons, e, e']; rfl⟩
    obtain ⟨r, e⟩ := hall parameters fun _ h => h
    unfold homogeneity
    rw [if_neg (by rw [hn]; exact Bool.false_ne_true)]
    dsimp only
    rw [if_neg (by rintro (h | h); exacts [hpos hx h, hpos hy h]), e]
    dsimp only
    split
    · exact ⟨_, rfl⟩
    · exact ⟨_, rfl⟩
    · exact ⟨_, rfl⟩

/-- Both cases occur. -/
example : homogeneity (fun _ _ => .ok (some (1 : ℚ))) ["Sa", "homogeneity"] 2 1 1 (⟨[[(), ()], [(), ()]], 2⟩ : Grid Unit) = .error .valueError :=
  (C33_names _ _ _ _ _ _).1 ⟨"homogeneity", by decide, by decide⟩

end Api

/-- **C33 is false of surfaces with a flat cell**: if all heights of one unit cell are equal, its `Sku` is NaN and the
homogeneity with the default parameters (`Sa`, `Sku`, `Sdr`) is NaN, whatever the other cells look like. -/
theorem C33_flat_cell_violated (param : String → Grid (Option ℝ) → Except Err (Option ℝ))
    (hsku : ∀ c, param "Sku" c = (HeightParams.heightParameters c).map fun q => q.sku) (period stepX stepY : ℝ) (g : Grid (Option ℝ))
    (hcx : 1 ≤ period / stepX) (hcy : 1 ≤ period / stepY)
    (hok : ∀ p ∈ ["Sa", "Sku", "Sdr"], ∀ c ∈ cells g (pyInt (period / stepY)).toNat (pyInt (period / stepX)).toNat, ∃ v, param p c = .ok v)
    {c : Grid (Option ℝ)} (hc : c ∈ cells g (pyInt (period / stepY)).toNat (pyInt (period / stepX)).toNat)
    {z : ℝ} (hflat : ∀ w ∈ Container.flat c, w = some z) :
    homogeneity param ["Sa", "Sku", "Sdr"] period stepX stepY g = .ok none := by
  refine C33_nan_cell param _ period stepX stepY g (by decide) hcx hcy hok (p := "Sku") (by simp) hc ?_
  obtain ⟨v, hv⟩ := hok "Sku" (by simp) c hc
  rw [hv]
  rw [hsku] at hv
  cases hq : HeightParams.heightParameters c with
  | error e => rw [hq] at hv; cases hv
  | ok q =>
    rw [hq] at hv
    cases hv
    obtain ⟨n1, n2, rfl⟩ := (HeightParams.heightParameters_ok_iff c q).1 hq
    have hne := HeightParams.measured_ne_nil n1 n2
    have hz : ∀ w ∈ measured (Container.flat c), w = z := fun w hw => by simpa using hflat _ (mem_measured.1 hw)
    have hrep : measured (Container.flat c) = List.replicate (measured (Container.flat c)).length z := List.eq_replicate_of_mem hz
    have hl : ((measured (Container.flat c)).length : ℝ) ≠ 0 := by
      exact_mod_cast (List.length_pos_of_ne_nil hne).ne'
    have hmu : Spec.mu (measured (Container.flat c)) = z := by
      unfold Spec.mu
      rw [hrep]
      simp only [List.sum_replicate, List.length_replicate, nsmul_eq_mul]
      field_simp
    have hm2 : Spec.moment 2 (measured (Container.flat c)) = 0 := by
      unfold Spec.moment
      rw [hmu, hrep]
      simp
    simp only [HeightParams.paramsOf_sku, hm2]
    simp [HeightParams.divNaN]

/-- The hypotheses are met: a surface of two cells of two by two points, the first flat, the second not; `Sa` and `Sdr`
are left out of account. -/
example : homogeneity (fun p c => if p = "Sku" then (HeightParams.heightParameters c).map fun q => q.sku else .ok (some 1))
    ["Sa", "Sku", "Sdr"] (2 : ℝ) 1 1 ⟨[[some 1, some 1, some 0, some 3], [some 1, some 1, some 2, some 5]], 4⟩ = .ok none := by
  have e2 : (pyInt ((2 : ℝ) / 1)).toNat = 2 := by
    rw [(pyInt_eq_iff (by norm_num) 2).2 ⟨by norm_num, by norm_num⟩]; rfl
  have hcells : cells (⟨[[some 1, some 1, some 0, some 3], [some 1, some 1, some 2, some 5]], 4⟩ : Grid (Option ℝ)) 2 2
      = [⟨[[some 1, some 1], [some 1, some 1]], 2⟩, ⟨[[some 0, some 3], [some 2, some 5]], 2⟩] := rfl
  refine C33_flat_cell_violated _ (fun c => if_pos rfl) 2 1 1 _ (by norm_num) (by norm_num) ?_ (c := ⟨[[some 1, some 1], [some 1, some 1]], 2⟩)
    ?_ (z := 1) (by simp [Container.flat])
  · rw [e2, hcells]
    intro p _ c hc
    by_cases h : p = "Sku"
    · rw [if_pos h]
      have : ∃ q, HeightParams.heightParameters c = .ok q := by
        simp only [List.mem_cons, List.not_mem_nil, or_false] at hc
        rcases hc with rfl | rfl
        · exact ⟨_, (HeightParams.heightParameters_ok_iff _ _).2 ⟨by simp [Container.flat], by simp [Container.flat], rfl⟩⟩
        · exact ⟨_, (HeightParams.heightParameters_ok_iff _ _).2 ⟨by simp [Container.flat], by simp [Container.flat], rfl⟩⟩
      obtain ⟨q, hq⟩ := this
      rw [hq]; exact ⟨_, rfl⟩
    · rw [if_neg h]; exact ⟨_, rfl⟩
  · rw [e2, hcells]; simp

end Surfalize.Props
