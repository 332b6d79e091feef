import Verif.Lemmas.Geometry
import Mathlib.Tactic.FieldSimp
import Mathlib.Tactic.NormNum

/-! Helper lemmas for profile extraction. -/
set_option linter.unusedSectionVars false
namespace Surfalize.Geometry
open Surfalize Spec
variable {K : Type} [Field K] [LinearOrder K] [IsStrictOrderedRing K] [FloorRing K]

theorem transpose_wf (g : Grid (Option K)) : (transpose g).WF := by
  intro r hr
  simp only [transpose, List.mem_map] at hr ⊢
  obtain ⟨j, _, rfl⟩ := hr
  simp [Grid.ny]

theorem transpose_at (g : Grid (Option K)) (hwf : g.WF) (i r : Nat) (hi : i < g.nx) (hr : r < g.ny) :
    at? (transpose g) i r = at? g r i := by
  have hr' : r < g.rows.length := hr
  have hl : g.rows[r].length = g.nx := hwf _ (List.getElem_mem hr')
  simp [at?, transpose, hi, hr', hl]

/-- A single row is its own mean. -/
theorem meanRows_single (row : List (Option K)) (nx : Nat) (h : row.length = nx) : meanRows [row] nx = row := by
  subst h
  apply List.ext_getElem
  · simp [meanRows]
  · intro j h1 h2
    simp only [meanRows, List.map_cons, List.map_nil, List.getElem_map, List.getElem_range]
    rw [List.getElem?_eq_getElem h2]
    simp only [Option.getD_some]
    cases hr : row[j] with
    | none => simp
    | some z => simp [measured, mean]

theorem pxOf_pos (avgStep : Option K) (stepY : K) (hs : 0 < stepY) (ha : ∀ a, avgStep = some a → stepY ≤ a) :
    0 < averagePx stepY avgStep := by
  cases avgStep with
  | none => simp [averagePx]
  | some a =>
    have h := ha a rfl
    have h1 : (1 : K) ≤ a / stepY := by rw [le_div_iff₀ hs]; linarith
    simp only [averagePx]
    rw [pyInt_nonneg (by linarith)]
    have : (1 : Int) ≤ ⌊a / stepY⌋ := by rw [Int.le_floor]; simpa using h1
    omega

theorem stride_single {α : Type} (k : Nat) (hk : 0 < k) (a : α) : stride k [a] = [a] := by
  apply List.ext_getElem?
  intro i
  rw [stride_getElem? k hk]
  cases i with
  | zero => simp
  | succ i =>
    have : (i + 1) * k ≠ 0 := Nat.mul_ne_zero (by omega) (by omega)
    obtain ⟨m, hm⟩ := Nat.exists_eq_succ_of_ne_zero this
    rw [hm]; simp

theorem horizontal_single_idx (g : Grid (Option K)) (hwf : g.WF) (stepY y : K) (avgStep : Option K)
    (hs : 0 < stepY) (hny : 2 ≤ g.ny) (ha : ∀ a, avgStep = some a → stepY ≤ a)
    (hy0 : 0 ≤ y) (hy : y < ((g.ny : K) - 1) * stepY) :
    ∃ i row, i < g.ny ∧ g.rows[i]? = some row ∧
      horizontalProfile g stepY (((g.ny : K) - 1) * stepY) y 1 avgStep = .ok row ∧
      (∀ k : Nat, y = (k : K) * stepY → i = k) ∧
      (i : K) ≤ y / (((g.ny : K) - 1) * stepY) * (g.ny : K) ∧ y / (((g.ny : K) - 1) * stepY) * (g.ny : K) < i + 1 := by
  have hn : (2 : K) ≤ (g.ny : K) := by exact_mod_cast hny
  have hH : 0 < ((g.ny : K) - 1) * stepY := by apply mul_pos <;> linarith
  set q := y / (((g.ny : K) - 1) * stepY) * (g.ny : K) with hq
  have hq0 : 0 ≤ q := by rw [hq]; positivity
  have hqn : q < g.ny := by
    rw [hq]
    have : y / (((g.ny : K) - 1) * stepY) < 1 := by rw [div_lt_one hH]; exact hy
    nlinarith
  obtain ⟨i, hi⟩ : ∃ i : Nat, pyInt q = (i : Int) :=
    ⟨(pyInt q).toNat, by rw [pyInt_nonneg hq0]; exact (Int.toNat_of_nonneg (Int.floor_nonneg.2 hq0)).symm⟩
  have hib := (pyInt_eq_iff hq0 (i : Int)).1 hi
  rw [Int.cast_natCast] at hib
  have hin : i < g.ny := by
    have : (i : K) < g.ny := lt_of_le_of_lt hib.1 hqn
    exact_mod_cast this
  have hlen : i < g.rows.length := hin
  refine ⟨i, g.rows[i], hin, List.getElem?_eq_getElem hlen, ?_, ?_, hib⟩
  · have hpx := pxOf_pos avgStep stepY hs ha
    unfold horizontalProfile
    rw [if_neg (not_lt.2 hy.le)]
    simp only [if_neg hH.ne', profileWindow]
    rw [← hq, hi]
    simp only [show 1 / 2 = 0 by rfl, Nat.cast_zero, zero_mul, sub_zero, add_zero]
    rw [if_neg (by omega), if_neg (by omega), if_neg (by omega)]
    have hsl : pySlice g.rows (i : Int) ((i : Int) + 1) = [g.rows[i]] := by
      rw [pySlice_eq, normIdx_nonneg (by omega), normIdx_nonneg (by omega)]
      rw [show min (i : Int).toNat g.rows.length = i by omega,
        show min ((i : Int) + 1).toNat g.rows.length = i + 1 by omega]
      rw [List.drop_take, show i + 1 - i = 1 by omega, List.drop_eq_getElem_cons hlen]; rfl
    rw [hsl, stride_single _ (by omega), meanRows_single _ _ (hwf _ (List.getElem_mem hlen))]
  · intro k hk
    have hk' : (k : K) < (g.ny : K) - 1 := by
      rw [hk] at hy; exact lt_of_mul_lt_mul_right hy hs.le
    have hn1 : (0 : K) < (g.ny : K) - 1 := by linarith
    have hqk : q = (k : K) + (k : K) / ((g.ny : K) - 1) := by
      rw [hq, hk]; field_simp; ring
    have hlt : (k : K) / ((g.ny : K) - 1) < 1 := by rw [div_lt_one hn1]; exact hk'
    have hge : 0 ≤ (k : K) / ((g.ny : K) - 1) := by positivity
    have h1 : (i : K) < (k : K) + 1 := by linarith [hib.1]
    have h2 : (k : K) < (i : K) + 1 := by linarith [hib.2]
    have h1' : i < k + 1 := by exact_mod_cast h1
    have h2' : k < i + 1 := by exact_mod_cast h2
    omega

theorem horizontal_single (g : Grid (Option K)) (hwf : g.WF) (stepY y : K) (avgStep : Option K)
    (hs : 0 < stepY) (hny : 2 ≤ g.ny) (ha : ∀ a, avgStep = some a → stepY ≤ a)
    (hy0 : 0 ≤ y) (hy : y < ((g.ny : K) - 1) * stepY) :
    ∃ i row, i < g.ny ∧ g.rows[i]? = some row ∧
      horizontalProfile g stepY (((g.ny : K) - 1) * stepY) y 1 avgStep = .ok row ∧
      (∀ k : Nat, y = (k : K) * stepY → i = k) := by
  obtain ⟨i, row, h1, h2, h3, h4, -⟩ := horizontal_single_idx g hwf stepY y avgStep hs hny ha hy0 hy
  exact ⟨i, row, h1, h2, h3, h4⟩

theorem horizontal_last (g : Grid (Option K)) (stepY : K) (hs : 0 < stepY) (hny : 2 ≤ g.ny) :
    horizontalProfile g stepY (((g.ny : K) - 1) * stepY) (((g.ny : K) - 1 : K) * stepY) 1 none
      = .ok (List.replicate g.nx none) := by
  have hn : (2 : K) ≤ (g.ny : K) := by exact_mod_cast hny
  have hH : 0 < ((g.ny : K) - 1) * stepY := by apply mul_pos <;> linarith
  unfold horizontalProfile
  rw [if_neg (lt_irrefl _)]
  simp only [if_neg hH.ne', profileWindow, div_self hH.ne', one_mul]
  rw [pyInt_natCast, show averagePx stepY (none : Option K) = 1 from rfl]
  simp only [show 1 / 2 = 0 by rfl, Nat.cast_zero, zero_mul, sub_zero, add_zero]
  rw [if_neg (by omega), if_neg (by omega), if_neg (by omega)]
  have hsl : pySlice g.rows (g.ny : Int) ((g.ny : Int) + 1) = [] := by
    rw [pySlice_eq, normIdx_nonneg (by omega), normIdx_nonneg (by omega)]
    have : g.rows.length = g.ny := rfl
    apply List.drop_eq_nil_of_le
    simp [this]
  rw [hsl]
  have hst : stride 1 ([] : List (List (Option K))) = [] := by simp [stride]
  simp only [Int.toNat_one, hst, meanRows, List.map_nil, true_or, if_true, Except.ok.injEq]
  simp

theorem horizontal_average (g : Grid (Option K)) (hwf : g.WF) (stepY y : K) (avgStep : Option K) (A h p i : Nat)
    (hA : A / 2 = h)
    (hs : 0 < stepY) (hny : 2 ≤ g.ny)
    (hp : averagePx stepY avgStep = (p : Int)) (hp0 : 0 < p)
    (hi : (i : K) ≤ y / (((g.ny : K) - 1) * stepY) * (g.ny : K) ∧ y / (((g.ny : K) - 1) * stepY) * (g.ny : K) < i + 1)
    (hy : y ≤ ((g.ny : K) - 1) * stepY) (hlo : h * p ≤ i) (hhi : i + h * p < g.ny) :
    ∃ out, horizontalProfile g stepY (((g.ny : K) - 1) * stepY) y A avgStep = .ok out ∧
      out.length = g.nx ∧
      ∀ j < g.nx, ∀ vals : List (Option K), vals.length = 2 * h + 1 →
        (∀ r < 2 * h + 1, vals[r]? = at? g (i - h * p + r * p) j) →
        out[j]? = some (if none ∈ vals then none else some ((measured vals).sum / ((2 * h + 1 : Nat) : K))) := by
  have hn : (2 : K) ≤ (g.ny : K) := by exact_mod_cast hny
  have hH : 0 < ((g.ny : K) - 1) * stepY := by apply mul_pos <;> linarith
  have hi0 : (0 : K) ≤ y / (((g.ny : K) - 1) * stepY) * (g.ny : K) := le_trans (by positivity) hi.1
  have hidx : pyInt (y / (((g.ny : K) - 1) * stepY) * (g.ny : K)) = (i : Int) := by
    rw [pyInt_eq_iff hi0]; simpa using hi
  have hlen : g.rows.length = g.ny := rfl
  have hpr : horizontalProfile g stepY (((g.ny : K) - 1) * stepY) y A avgStep
      = .ok (meanRows (stride p (pySlice g.rows ((i - h * p : Nat) : Int) ((i + h * p + 1 : Nat) : Int))) g.nx) := by
    unfold horizontalProfile
    rw [if_neg (not_lt.2 hy)]
    simp only [if_neg hH.ne', profileWindow, hidx, hA]
    have e1 : (i : Int) - ((h : Nat) : Int) * (p : Int) = ((i - h * p : Nat) : Int) := by
      rw [Nat.cast_sub hlo]; push_cast; rfl
    have e2 : (i : Int) + ((h : Nat) : Int) * (p : Int) = ((i + h * p : Nat) : Int) := by push_cast; rfl
    rw [hp, e1, e2, if_neg (by omega), if_neg (by omega), if_neg (by omega), Int.toNat_natCast]
    rfl
  refine ⟨_, hpr, by simp [meanRows], ?_⟩
  intro j hj vals hvl hv
  set R := stride p (pySlice g.rows ((i - h * p : Nat) : Int) ((i + h * p + 1 : Nat) : Int)) with hR
  have hRr : ∀ r : Nat, R[r]? = if r < 2 * h + 1 then g.rows[i - h * p + r * p]? else none := by
    intro r
    rw [hR, stride_getElem? p hp0, pySlice_getElem?_inside g.rows (by omega) (by omega)]
    have hiff : r * p < i + h * p + 1 - (i - h * p) ↔ r < 2 * h + 1 := by
      rw [show i + h * p + 1 - (i - h * p) = 2 * (h * p) + 1 by omega]
      constructor
      · intro hlt
        by_contra hc
        push Not at hc
        have : (2 * h + 1) * p ≤ r * p := Nat.mul_le_mul_right p hc
        rw [Nat.add_mul, Nat.mul_assoc] at this
        omega
      · intro hlt
        have : r * p ≤ (2 * h) * p := Nat.mul_le_mul_right p (by omega)
        rw [Nat.mul_assoc] at this
        omega
    by_cases hr : r < 2 * h + 1
    · rw [if_pos hr, if_pos (hiff.2 hr)]
    · rw [if_neg hr, if_neg (fun hc => hr (hiff.1 hc))]
  have hbound : ∀ r < 2 * h + 1, i - h * p + r * p < g.rows.length := by
    intro r hr
    have : r * p ≤ (2 * h) * p := Nat.mul_le_mul_right p (by omega)
    rw [Nat.mul_assoc] at this
    omega
  have hcol : (R.map fun r => (r[j]?).getD none) = vals := by
    apply List.ext_getElem?
    intro r
    rw [List.getElem?_map, hRr]
    by_cases hr : r < 2 * h + 1
    · rw [if_pos hr, hv r hr]
      have hb := hbound r hr
      have hl : g.rows[i - h * p + r * p].length = g.nx := hwf _ (List.getElem_mem hb)
      simp only [at?, List.getElem?_eq_getElem hb, Option.map_some, Option.bind_some]
      rw [List.getElem?_eq_getElem (by omega)]; simp
    · rw [if_neg hr]
      symm; simp; omega
  have hne : vals ≠ [] := by intro h0; rw [h0] at hvl; simp at hvl
  simp only [meanRows, List.getElem?_map]
  rw [List.getElem?_range hj]
  simp only [Option.map_some, hcol, hne, false_or]
  by_cases hnone : none ∈ vals
  · simp [hnone]
  · simp only [hnone, if_false]
    have : (measured vals).length = 2 * h + 1 := by
      have := congrArg List.length (eq_map_some_of_no_none vals hnone)
      simp at this; omega
    simp [mean, this]

theorem linspace_length (a b : K) (n : Nat) : (linspace a b n).length = n := by
  unfold linspace; split <;> simp_all

theorem linspace_mem (a b : K) (n : Nat) {x : K} (h : x ∈ linspace a b n) :
    ∃ t : K, 0 ≤ t ∧ t ≤ 1 ∧ x = a + t * (b - a) := by
  unfold linspace at h
  split at h
  · simp at h; exact ⟨0, le_refl _, zero_le_one, by simp [h]⟩
  · rename_i hn
    simp only [List.mem_map, List.mem_range] at h
    obtain ⟨i, hi, rfl⟩ := h
    have hn2 : 2 ≤ n := by omega
    have hn' : (0 : K) < (n : K) - 1 := by
      have : (2 : K) ≤ n := by exact_mod_cast hn2
      linarith
    refine ⟨(i : K) / ((n : K) - 1), by positivity, ?_, by ring⟩
    rw [div_le_one hn']
    have : (i : K) + 1 ≤ n := by exact_mod_cast hi
    linarith

theorem linspace_head (a b : K) (n : Nat) (h : 0 < n) : (linspace a b n).head? = some a := by
  unfold linspace
  split
  · rfl
  · obtain ⟨m, rfl⟩ : ∃ m, n = m + 1 := ⟨n - 1, by omega⟩
    rw [List.range_succ_eq_map]; simp

theorem linspace_last (a b : K) (n : Nat) (h : 2 ≤ n) : (linspace a b n).getLast? = some b := by
  unfold linspace
  rw [if_neg (by omega)]
  obtain ⟨m, rfl⟩ : ∃ m, n = m + 1 := ⟨n - 1, by omega⟩
  rw [List.range_succ]
  have : (m : K) ≠ 0 := by
    have : m ≠ 0 := by omega
    exact_mod_cast this
  simp
  field_simp
  ring

theorem oblique_spec {α : Type} (g : Grid α) (w h x0 y0 x1 y1 : K) (cs : List (K × K))
    (ho : obliqueCoords g w h x0 y0 x1 y1 = .ok cs) :
    ∃ X0 Y0 X1 Y1 : Int,
      X0 = pyInt (x0 / w * g.nx) ∧ Y0 = pyInt (y0 / h * g.ny) ∧ X1 = pyInt (x1 / w * g.nx) ∧ Y1 = pyInt (y1 / h * g.ny) ∧
      X0 ≠ X1 ∧ cs.length = Nat.sqrt ((X1 - X0) ^ 2 + (Y1 - Y0) ^ 2).toNat ∧
      cs ≠ [] ∧
      ((Y0 * X1 = Y1 * X0) ↔ cs.head? = some ((Y0 : K), (X0 : K))) ∧
      (2 ≤ cs.length → (Y0 * X1 = Y1 * X0 ↔ cs.getLast? = some ((Y1 : K), (X1 : K)))) ∧
      (Y0 * X1 = Y1 * X0 → ∀ c ∈ cs, ∃ t : K, 0 ≤ t ∧ t ≤ 1 ∧
        c = ((Y0 : K) + t * ((Y1 : K) - Y0), (X0 : K) + t * ((X1 : K) - X0))) := by
  unfold obliqueCoords at ho
  split at ho
  · simp at ho
  simp only at ho
  refine ⟨_, _, _, _, rfl, rfl, rfl, rfl, ?_⟩
  generalize pyInt (x0 / w * g.nx) = X0 at ho ⊢
  generalize pyInt (y0 / h * g.ny) = Y0 at ho ⊢
  generalize pyInt (x1 / w * g.nx) = X1 at ho ⊢
  generalize pyInt (y1 / h * g.ny) = Y1 at ho ⊢
  split at ho
  · simp at ho
  split at ho
  · simp at ho
  rename_i hdx
  simp only [Except.ok.injEq] at ho
  have hsq : (X1 - X0) * (X1 - X0) + (Y1 - Y0) * (Y1 - Y0) = (X1 - X0) ^ 2 + (Y1 - Y0) ^ 2 := by ring
  rw [hsq] at ho
  set n := Nat.sqrt ((X1 - X0) ^ 2 + (Y1 - Y0) ^ 2).toNat with hn
  have hn0 : 0 < n := by
    rw [hn]
    apply Nat.sqrt_pos.2
    have : 0 < (X1 - X0) ^ 2 := by positivity
    have : 0 ≤ (Y1 - Y0) ^ 2 := by positivity
    omega
  have hd : ((X1 - X0 : Int) : K) ≠ 0 := by exact_mod_cast hdx
  have hd' : (X1 : K) - X0 ≠ 0 := by rw [← Int.cast_sub]; exact hd
  have hcollin : ∀ {A B : Int} , (A = X0 ∧ B = Y0) ∨ (A = X1 ∧ B = Y1) →
      (Y0 * X1 = Y1 * X0 ↔ ((Y1 - Y0 : Int) : K) / ((X1 - X0 : Int) : K) * (A : K) = (B : K)) := by
    intro A B hAB
    rw [div_mul_eq_mul_div, div_eq_iff hd]
    have : (((Y1 - Y0 : Int) : K) * (A : K) = (B : K) * ((X1 - X0 : Int) : K)) ↔ (Y1 - Y0) * A = B * (X1 - X0) := by
      exact_mod_cast Iff.rfl
    rw [this]
    rcases hAB with ⟨rfl, rfl⟩ | ⟨rfl, rfl⟩
    · constructor <;> intro h <;> linarith
    · constructor <;> intro h <;> linarith
  subst ho
  refine ⟨by omega, by simp [linspace_length], ?_, ?_, ?_, ?_⟩
  · intro h0
    have := congrArg List.length h0
    simp [linspace_length] at this
    omega
  · rw [List.head?_map, linspace_head _ _ _ hn0]
    simp only [Option.map_some, Option.some.injEq, Prod.mk.injEq, and_true]
    exact hcollin (Or.inl ⟨rfl, rfl⟩)
  · intro h2
    simp only [List.length_map, linspace_length] at h2
    rw [List.getLast?_map, linspace_last _ _ _ h2]
    simp only [Option.map_some, Option.some.injEq, Prod.mk.injEq, and_true]
    exact hcollin (Or.inr ⟨rfl, rfl⟩)
  · intro hc c hcm
    simp only [List.mem_map] at hcm
    obtain ⟨x, hx, rfl⟩ := hcm
    obtain ⟨t, ht0, ht1, rfl⟩ := linspace_mem _ _ _ hx
    refine ⟨t, ht0, ht1, ?_⟩
    have h1 := (hcollin (A := X0) (B := Y0) (Or.inl ⟨rfl, rfl⟩)).1 hc
    refine Prod.ext ?_ rfl
    simp only
    rw [mul_add, h1, Int.cast_sub, Int.cast_sub]
    field_simp

theorem pyInt_range (q : K) (n : Nat) (h0 : 0 ≤ q) (h1 : q ≤ 1) : 0 ≤ pyInt (q * n) ∧ pyInt (q * (n : K)) ≤ n := by
  have : 0 ≤ q * (n : K) := by positivity
  rw [pyInt_nonneg this]
  refine ⟨Int.floor_nonneg.2 this, ?_⟩
  have h2 : q * (n : K) ≤ ((n : Int) : K) := by
    rw [Int.cast_natCast]; nlinarith [(Nat.cast_nonneg n : (0 : K) ≤ n)]
  have := Int.floor_le_floor h2
  simpa using this

theorem oblique_vertical {α : Type} (g : Grid α) (w h x0 y0 y1 : K)
    (hw : 0 < w) (hh : 0 < h) (hx0 : 0 ≤ x0) (hx : x0 ≤ w) (h0 : 0 ≤ y0) (h0' : y0 ≤ h) (h1 : 0 ≤ y1) (h1' : y1 ≤ h) :
    obliqueCoords g w h x0 y0 x0 y1 = .error .zeroDivision := by
  have f : ∀ {a b : K}, 0 < b → 0 ≤ a → a ≤ b → 0 ≤ a / b ∧ a / b ≤ 1 := by
    intro a b hb ha hab
    exact ⟨by positivity, by rw [div_le_one hb]; exact hab⟩
  have r1 := pyInt_range (x0 / w) g.nx (f hw hx0 hx).1 (f hw hx0 hx).2
  have r2 := pyInt_range (y0 / h) g.ny (f hh h0 h0').1 (f hh h0 h0').2
  have r3 := pyInt_range (y1 / h) g.ny (f hh h1 h1').1 (f hh h1 h1').2
  unfold obliqueCoords
  rw [if_neg (by intro hc; rcases hc with hc | hc <;> linarith)]
  simp only
  rw [if_neg (by tauto), if_pos (by ring)]

end Surfalize.Geometry
