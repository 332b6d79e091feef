import Verif.Spec.Extruded
import Verif.Props.HeightParams
import Verif.Props.Geometry
import Verif.Props.Functional
import Verif.Props.Period
import Verif.Props.Fourier
import Verif.Lemmas.Areas
/-!
# C117: a profile drawn out to a surface

Height parameters and extracted profiles are those of the profile. Slopes, functional parameters and periods are not.
-/
set_option linter.unusedSectionVars false
namespace Surfalize.Props
open Surfalize HeightParams Container BaseOps Spec Geometry

/-! ## Height parameters -/

private theorem params_copies {L l : List ℝ} {n : Nat} (hn : 0 < n) (hl : l ≠ [])
    (hsum : ∀ f : ℝ → ℝ, (L.map f).sum = n * (l.map f).sum) (hmem : ∀ z, z ∈ L ↔ z ∈ l) : paramsOf L = paramsOf l := by
  have hlen : (L.length : ℝ) = n * l.length := by
    have := hsum fun _ => 1
    simpa using this
  have hn' : (n : ℝ) ≠ 0 := by exact_mod_cast hn.ne'
  have hl' : (l.length : ℝ) ≠ 0 := by
    have := List.length_pos_of_ne_nil hl
    exact_mod_cast this.ne'
  have hL : L ≠ [] := by
    rintro rfl
    exact hl (List.eq_nil_iff_forall_not_mem.2 fun z hz => by simpa using (hmem z).2 hz)
  have hq : ∀ f : ℝ → ℝ, (L.map f).sum / L.length = (l.map f).sum / l.length := by
    intro f
    rw [hsum, hlen]
    field_simp
  have hmu : mu L = mu l := by
    have := hq fun z => z
    simpa [mu] using this
  have hmom : ∀ k, moment k L = moment k l := by
    intro k
    have := hq fun z => (z - mu l) ^ k
    simpa [moment, hmu] using this
  have hmin : minL L = minL l := by
    obtain ⟨a, b⟩ := minL_spec hl
    exact minL_eq ((hmem _).2 a) fun z hz => b z ((hmem z).1 hz)
  have hmax : maxL L = maxL l := by
    obtain ⟨a, b⟩ := maxL_spec hl
    exact maxL_eq ((hmem _).2 a) fun z hz => b z ((hmem z).1 hz)
  have hsa : (paramsOf L).sa = (paramsOf l).sa := by rw [paramsOf_sa, paramsOf_sa, hmu, hq]
  have hsp : (paramsOf L).sp = (paramsOf l).sp := by rw [paramsOf_sp hL, paramsOf_sp hl, hmu, hmax]
  have hsv : (paramsOf L).sv = (paramsOf l).sv := by rw [paramsOf_sv hL, paramsOf_sv hl, hmu, hmin]
  apply Params.ext' hsa
  · rw [paramsOf_sq, paramsOf_sq, hmom]
  · exact hsv
  · exact hsp
  · rw [paramsOf_sz, paramsOf_sz, hsp, hsv]
  · rw [paramsOf_ssk, paramsOf_ssk, hmom, hmom]
  · rw [paramsOf_sku, paramsOf_sku, hmom, hmom]

private theorem sum_flatten_replicate (n : Nat) (m : List ℝ) (f : ℝ → ℝ) :
    (((List.replicate n m).flatten).map f).sum = n * (m.map f).sum := by
  induction n with
  | zero => simp
  | succ n ih =>
    rw [List.replicate_succ, List.flatten_cons, List.map_append, List.sum_append, ih]
    push_cast; ring

private theorem sum_flatMap_replicate (n : Nat) (f : ℝ → ℝ) : ∀ m : List ℝ,
    ((m.flatMap fun z => List.replicate n z).map f).sum = n * (m.map f).sum
  | [] => by simp
  | z :: m => by
    rw [List.flatMap_cons, List.map_append, List.sum_append, sum_flatMap_replicate n f m, List.map_replicate,
      List.sum_replicate, List.map_cons, List.sum_cons, nsmul_eq_mul]
    ring

private theorem rows_flat {α : Type} {g : Grid α} {l : List α} (h : RowsAre g l) :
    flat g = (List.replicate g.ny l).flatten := by
  show g.rows.flatten = _
  congr 1
  exact List.eq_replicate_iff.2 ⟨rfl, h.2.2⟩

private theorem columns_flat {α : Type} {g : Grid α} {l : List α} (h : ColumnsAre g l) :
    flat g = l.flatMap fun z => List.replicate g.nx z := by
  show g.rows.flatten = _
  rw [h.2, List.flatMap_def]

/-- **C117** (height parameters). All height parameters of a profile drawn out to a surface, along the rows or the columns, are
those of the profile, `Rp`, `Rv` and `Rz` taken over one section. -/
theorem C117_heights (g : Grid (Option ℝ)) (l : List (Option ℝ)) (h : RowsAre g l ∨ ColumnsAre g l) (hm : none ∉ l)
    (hne : l ≠ []) :
    ∃ p, heightParameters g = .ok p ∧ Ra l = .ok p.sa ∧ Rq l = .ok p.sq ∧ Rt l = .ok p.sz ∧ Rp l 1 = .ok p.sp ∧
      Rv l 1 = .ok p.sv ∧ Rz l 1 = .ok p.sz ∧ Rsk l = .ok p.ssk ∧ Rku l = .ok p.sku := by
  obtain ⟨m, rfl⟩ : ∃ m : List ℝ, l = m.map some := ⟨_, eq_map_some_of_no_none l hm⟩
  have hm0 : m ≠ [] := by rintro rfl; exact hne rfl
  have key : none ∉ flat g ∧ flat g ≠ [] ∧ paramsOf (measured (flat g)) = paramsOf m := by
    rcases h with h | h
    · have e : flat g = ((List.replicate g.ny m).flatten).map some := by
        rw [rows_flat h, List.map_flatten, List.map_replicate]
      have hny := h.2.1
      obtain ⟨k, hk⟩ := Nat.exists_eq_succ_of_ne_zero hny.ne'
      refine ⟨by rw [e]; simp, ?_, ?_⟩
      · rw [e, hk, List.replicate_succ]
        simp [hm0]
      · rw [e, measured_some]
        refine params_copies hny hm0 (sum_flatten_replicate _ _) fun z => ?_
        simp only [List.mem_flatten, List.mem_replicate]
        exact ⟨fun ⟨a, ⟨_, b⟩, c⟩ => b ▸ c, fun hz => ⟨m, ⟨hny.ne', rfl⟩, hz⟩⟩
    · have e : flat g = (m.flatMap fun z => List.replicate g.nx z).map some := by
        rw [columns_flat h, List.flatMap_map, List.map_flatMap]
        congr 1
        funext z
        rw [List.map_replicate]
      have hnx := h.1
      refine ⟨by rw [e]; simp, ?_, ?_⟩
      · rw [e]
        obtain ⟨z, m', rfl⟩ := List.exists_cons_of_ne_nil hm0
        intro hc
        have := congrArg List.length hc
        simp at this
        omega
      · rw [e, measured_some]
        refine params_copies hnx hm0 (fun f => sum_flatMap_replicate _ f m) fun z => ?_
        simp only [List.mem_flatMap, List.mem_replicate]
        exact ⟨fun ⟨a, b, _, c⟩ => c ▸ b, fun hz => ⟨z, hz, hnx.ne', rfl⟩⟩
  obtain ⟨k1, k2, k3⟩ := key
  refine ⟨paramsOf m, (heightParameters_ok_iff g _).2 ⟨k1, k2, k3.symm⟩, ?_⟩
  have hrow : heightParameters ⟨[m.map some], (m.map some).length⟩ = .ok (paramsOf m) := by
    refine (heightParameters_ok_iff _ _).2 ⟨?_, ?_, ?_⟩
    · simp [flat]
    · simp [flat, hm0]
    · simp [flat, measured_some]
  obtain ⟨a1, a2, a3, a4, a5⟩ := C19_profile_is_one_row_surface _ _ hrow
  have hlen : 0 < m.length := List.length_pos_of_ne_nil hm0
  have hsec : sectionedData m 1 = .ok [m.map fun z => z - mean m] := by
    unfold sectionedData
    rw [if_neg (by omega), if_neg (by omega)]
    simp only [Int.toNat_one, arraySplit, arraySplitAux, Nat.div_one, Nat.mod_one, if_true, Except.ok.injEq]
    simp
  have one : ∀ x : ℝ, Surfalize.mean [x] = x := by intro x; simp [Surfalize.mean]
  have hmu : Surfalize.mean m = mu m := rfl
  have hle : minL m ≤ mu m := le_mean hm0 (minL_spec hm0).2
  refine ⟨a1, a2, a3, ?_, ?_, ?_, a4, a5⟩
  · rw [Rp, guarded_of _ hm hne, measured_some, rpOf, hsec]
    simp only [Except.map, List.map_cons, List.map_nil, one]
    rw [maxL_map_sub hm0, paramsOf_sp hm0, hmu]
  · rw [Rv, guarded_of _ hm hne, measured_some, rvOf, hsec]
    simp only [Except.map, List.map_cons, List.map_nil, one]
    rw [minL_map_sub hm0, paramsOf_sv hm0, hmu, abs_of_nonpos (by linarith)]
    congr 1; ring
  · rw [Rz, guarded_of _ hm hne, measured_some, rzOf, hsec]
    simp only [Except.map, List.map_cons, List.map_nil, one]
    rw [maxL_map_sub hm0, minL_map_sub hm0, paramsOf_sz, paramsOf_sp hm0, paramsOf_sv hm0, hmu]
    congr 1; ring

/-- Three rows that are the same profile, and its columns. -/
example : RowsAre (⟨[[some 1, some 4, some 2], [some 1, some 4, some 2]], 3⟩ : Grid (Option ℝ)) [some 1, some 4, some 2] ∧
    ColumnsAre (⟨[[some 1, some 1], [some 4, some 4], [some 2, some 2]], 2⟩ : Grid (Option ℝ)) [some 1, some 4, some 2] := by
  refine ⟨⟨rfl, by simp [Grid.ny], ?_⟩, by simp, rfl⟩
  intro r hr
  simp at hr
  rcases hr with rfl | rfl
  all_goals rfl

/-! ## Extracted profiles -/

section
variable {K : Type} [Field K] [LinearOrder K] [IsStrictOrderedRing K] [FloorRing K]

private theorem meanRows_same {rows : List (List (Option K))} {l : List (Option K)} (h : ∀ r ∈ rows, r = l) (hne : rows ≠ []) :
    meanRows rows l.length = l := by
  obtain ⟨k, hk⟩ : ∃ k, rows = List.replicate (k + 1) l := by
    refine ⟨rows.length - 1, List.eq_replicate_iff.2 ⟨?_, h⟩⟩
    have := List.length_pos_of_ne_nil hne
    omega
  subst hk
  unfold meanRows
  apply List.ext_getElem?
  intro j
  by_cases hj : j < l.length
  · rw [List.getElem?_map, List.getElem?_range hj, Option.map_some, List.map_replicate, List.getElem?_eq_getElem hj,
      Option.getD_some]
    congr 1
    cases hz : l[j] with
    | none => simp
    | some z =>
      rw [if_neg (by simp), show List.replicate (k + 1) (some z) = (List.replicate (k + 1) z).map some by
        rw [List.map_replicate], measured_some]
      congr 1
      unfold Surfalize.mean
      rw [List.sum_replicate, List.length_replicate, nsmul_eq_mul]
      have : ((k + 1 : Nat) : K) ≠ 0 := by exact_mod_cast Nat.succ_ne_zero k
      field_simp
  · rw [List.getElem?_eq_none (by simpa using hj), List.getElem?_eq_none (by omega)]

private theorem stride_mem {α : Type} {k : Nat} {l : List α} {x : α} (h : x ∈ stride k l) : x ∈ l := by
  unfold stride at h
  obtain ⟨i, -, hi⟩ := List.mem_filterMap.1 h
  exact List.mem_of_getElem? hi

private theorem stride_ne {α : Type} {k : Nat} (hk : 0 < k) {l : List α} (h : l ≠ []) : stride k l ≠ [] := by
  intro hc
  obtain ⟨x, l, rfl⟩ := List.exists_cons_of_ne_nil h
  have hm : x ∈ stride k (x :: l) := by
    unfold stride
    refine List.mem_filterMap.2 ⟨0, List.mem_range.2 ?_, by simp⟩
    apply Nat.div_pos _ hk
    simp
  rw [hc] at hm
  cases hm

/-- **C117** (extracted profiles). Every horizontal profile of a surface whose rows are all the same profile is that profile,
missing points included, with any averaging; only at `y = height_um` itself this need not be so (C25). -/
theorem C117_profile (g : Grid (Option K)) (l : List (Option K)) (h : RowsAre g l) (stepY H y : K) (average : Nat)
    (avgStep : Option K) (hs : 0 < stepY) (ha : ∀ a, avgStep = some a → stepY ≤ a) (hy0 : 0 ≤ y) (hy : y < H) :
    horizontalProfile g stepY H y average avgStep = .ok l := by
  have hH : 0 < H := lt_of_le_of_lt hy0 hy
  have hpx : 0 < averagePx stepY avgStep := by
    cases avgStep with
    | none => exact one_pos
    | some a =>
      have h1 : (1 : K) ≤ a / stepY := by rw [le_div_iff₀ hs]; simpa using ha a rfl
      show 0 < pyInt (a / stepY)
      have h2 : pyInt (a / stepY) = ⌊a / stepY⌋ := by
        unfold pyInt
        rw [if_pos (by linarith)]
      rw [h2]
      exact Int.floor_pos.2 h1
  unfold horizontalProfile
  rw [if_neg (not_lt.2 hy.le)]
  dsimp only
  rw [if_neg hH.ne', if_neg (not_le.2 hpx), h.1]
  congr 1
  apply meanRows_same
  · intro r hr
    have := stride_mem hr
    rw [pySlice_eq] at this
    exact h.2.2 r (List.mem_of_mem_take (List.mem_of_mem_drop this))
  · apply stride_ne (by omega)
    have hny := h.2.1
    have hnyK : (0 : K) < g.ny := by exact_mod_cast hny
    have hq0 : 0 ≤ y / H * g.ny := by positivity
    have hq1 : y / H * g.ny < g.ny := by
      have : y / H < 1 := by rw [div_lt_one hH]; exact hy
      nlinarith
    have hidx : 0 ≤ pyInt (y / H * g.ny) ∧ pyInt (y / H * g.ny) < g.ny := by
      have e : pyInt (y / H * g.ny) = ⌊y / H * g.ny⌋ := by unfold pyInt; rw [if_pos hq0]
      rw [e]
      refine ⟨Int.floor_nonneg.2 hq0, ?_⟩
      rw [Int.floor_lt]
      exact_mod_cast hq1
    have hw := (show (0 : Int) ≤ ((average / 2 : Nat) : Int) * averagePx stepY avgStep by positivity)
    rw [pySlice_eq]
    unfold profileWindow
    dsimp only
    set idx := pyInt (y / H * g.ny) with hi
    set half := ((average / 2 : Nat) : Int) * averagePx stepY avgStep with hh
    have hlen : g.rows.length = g.ny := rfl
    intro hc
    have hl := congrArg List.length hc
    rw [List.length_drop, List.length_take, List.length_nil, hlen] at hl
    rw [normIdx_nonneg (by split <;> omega), normIdx_nonneg (by split <;> omega)] at hl
    split at hl <;> split at hl <;> omega

/-- **C117** (extracted profiles, columns). The same for vertical profiles. -/
theorem C117_profile_y (g : Grid (Option K)) (l : List (Option K)) (h : ColumnsAre g l) (stepX W x : K) (average : Nat)
    (avgStep : Option K) (hs : 0 < stepX) (ha : ∀ a, avgStep = some a → stepX ≤ a) (hx0 : 0 ≤ x) (hx : x < W) :
    verticalProfile g stepX W x average avgStep = .ok l := by
  have ht : RowsAre (transpose g) l := by
    have hny : g.ny = l.length := by unfold Grid.ny; rw [h.2, List.length_map]
    refine ⟨hny, by simpa [transpose, Grid.ny] using h.1, ?_⟩
    intro r hr
    obtain ⟨j, hj, rfl⟩ := List.mem_map.1 hr
    rw [List.mem_range] at hj
    rw [h.2, List.map_map]
    conv_rhs => rw [← List.map_id l]
    apply List.map_congr_left
    intro z _
    simp [hj]
  exact C117_profile (transpose g) l ht stepX W x average avgStep hs ha hx0 hx

/-- A profile with a missing point, extracted with averaging over three rows. -/
example : horizontalProfile (⟨[[some 1, none, some 2], [some 1, none, some 2], [some 1, none, some 2]], 3⟩ : Grid (Option ℚ))
    1 2 1 3 none = .ok [some 1, none, some 2] := by
  refine C117_profile _ _ ⟨rfl, by simp [Grid.ny], ?_⟩ 1 2 1 3 none (by norm_num) (fun a h => by cases h) (by norm_num) (by norm_num)
  intro r hr
  simp only [List.mem_cons, List.not_mem_nil, or_false, or_self] at hr
  exact hr

end

/-! ## Slopes, functional parameters and periods -/

open Areas Finset in
/-- **C117 violated** for the slope: `Sdq` of a profile of `n ≥ 2` points drawn out along the rows is `√((n-1)/n)` times its `Rdq`,
too small for every profile that is not flat, because the `n-1` slopes of a row are averaged over `n` points. -/
theorem C117_slope_violated (g : Grid (Option ℝ)) (l : List (Option ℝ)) (h : RowsAre g l) (hm : none ∉ l) (hn : 2 ≤ l.length)
    (stepX stepY : ℝ) :
    ∃ r, rdq l stepX = .ok (some r) ∧ sdq g stepX stepY = .ok (some (r * Real.sqrt (((l.length : ℝ) - 1) / l.length))) := by
  obtain ⟨m, rfl⟩ : ∃ m : List ℝ, l = m.map some := ⟨_, eq_map_some_of_no_none l hm⟩
  rw [List.length_map] at hn
  have hnx : g.nx = m.length := by rw [h.1, List.length_map]
  have hrow : ∀ i < g.ny, g.rows[i]? = some (m.map some) := by
    intro i hi
    have hi' : i < g.rows.length := hi
    rw [List.getElem?_eq_getElem hi', h.2.2 _ (List.getElem_mem hi')]
  have hh : HasHeights g fun _ j => m.getD j 0 := by
    refine ⟨fun r hr => by rw [h.2.2 r hr, h.1], ?_⟩
    intro i hi j hj
    rw [hnx] at hj
    simp [Grid.get, hrow i hi, List.getD_eq_getElem?_getD, List.getElem?_eq_getElem hj]
  set S : ℝ := ∑ j ∈ range (m.length - 1), ((m.getD (j + 1) 0 - m.getD j 0) / stepX) ^ 2 with hS
  have hS0 : 0 ≤ S := sum_nonneg fun _ _ => sq_nonneg _
  have hn1 : (0 : ℝ) < (m.length : ℝ) - 1 := by
    have : (2 : ℝ) ≤ m.length := by exact_mod_cast hn
    linarith
  have hn0 : (0 : ℝ) < m.length := by linarith
  refine ⟨Real.sqrt (S / ((m.length : ℝ) - 1)), ?_, ?_⟩
  · unfold rdq noNonmeasured
    rw [if_neg (by rw [mem_none_iff_hasMissing (C := List)]; exact hm)]
    dsimp only
    rw [List.length_map, if_neg (by omega)]
    congr 4
    · apply sum_congr rfl
      intro j hj
      rw [mem_range] at hj
      simp only [List.getElem?_map, List.getD_eq_getElem?_getD]
      rw [List.getElem?_eq_getElem (by omega), List.getElem?_eq_getElem (by omega)]
      rfl
    · rw [Nat.cast_sub (by omega)]; simp
  · rw [sdq_eq hh h.2.1 (by omega), hnx, List.length_map, ← Real.sqrt_mul (by positivity)]
    congr 3
    have hny : (0 : ℝ) < g.ny := by exact_mod_cast h.2.1
    have z : ∑ i ∈ range (g.ny - 1), ∑ j ∈ range m.length, ((m.getD j 0 - m.getD j 0) / stepY) ^ 2 = 0 := by simp
    rw [z, sum_const, card_range, nsmul_eq_mul, add_zero, ← hS]
    clear_value S
    field_simp

/-- The factor is below one: the profile `0, 1` with step one has `Rdq = 1`, two copies of it `Sdq = √(1/2)`. -/
example : Areas.rdq [some 0, some 1] 1 = .ok (some 1) ∧
    Areas.sdq ⟨[[some 0, some 1], [some 0, some 1]], 2⟩ 1 1 = .ok (some (Real.sqrt (1 / 2))) := by
  have hr : RowsAre (⟨[[some 0, some 1], [some 0, some 1]], 2⟩ : Grid (Option ℝ)) [some 0, some 1] := by
    refine ⟨rfl, by simp [Grid.ny], ?_⟩
    intro r hr
    simp only [List.mem_cons, List.not_mem_nil, or_false, or_self] at hr
    exact hr
  obtain ⟨r, h1, h2⟩ := C117_slope_violated _ _ hr (by simp) (by simp) 1 1
  have e : Areas.rdq [some 0, some 1] 1 = .ok (some 1) := by
    unfold Areas.rdq noNonmeasured
    rw [if_neg (by rw [mem_none_iff_hasMissing (C := List)]; simp [flat])]
    simp
  rw [e] at h1
  cases h1
  refine ⟨e, h2.trans ?_⟩
  norm_num

open Abbott in
private theorem mc_third {K : Type} [Field K] [LinearOrder K] [IsStrictOrderedRing K] [FloorRing K] {lstsq : Detrend.Lstsq K}
    (hl : IsLstsq lstsq) {n i : Nat} (hn : 2 ≤ n) {hi : i < (ratios n : List K).length} (hr : (ratios n : List K)[i] = 100 / 3)
    {data : List (Option K)} (h1 : none ∉ data) (h2 : data ≠ []) :
    ∃ c, build lstsq n data = .ok c ∧ c.mc (100 / 3) = quantile (sortAsc (measured data)) (2 / 3) := by
  obtain ⟨c, -, hb, -, e1, e2, -⟩ := build_ok hl hn h1 h2
  refine ⟨c, hb, ?_⟩
  rw [ratios_length] at hi
  have hs := smc_sample hn (measured data) hi
  rw [hr] at hs
  rw [Curve.mc, e1, e2, hs, heights_get, hr]
  congr 1
  norm_num

open Functional Abbott in
/-- **C117 violated** for the functional parameters: they depend on how often a height occurs, not only on its share. The
profile `0, 1` has `Rmc(100/3) = 2/3`, the surface of two such rows `Smc(100/3) = 1`. -/
theorem C117_functional_violated {K : Type} [Field K] [LinearOrder K] [IsStrictOrderedRing K] [FloorRing K] {lstsq : Detrend.Lstsq K}
    (hl : IsLstsq lstsq) (sort : Interp.PtSort K) :
    RowsAre (⟨[[some 0, some 1], [some 0, some 1]], 2⟩ : Grid (Option K)) [some 0, some 1] ∧
    profile lstsq sort .mc [100 / 3] [some 0, some 1] = .ok (some (2 / 3)) ∧
    surface lstsq sort .mc [100 / 3] ⟨[[some 0, some 1], [some 0, some 1]], 2⟩ = .ok (some 1) := by
  have hr : RowsAre (⟨[[some 0, some 1], [some 0, some 1]], 2⟩ : Grid (Option K)) [some 0, some 1] := by
    refine ⟨rfl, by simp [Grid.ny], ?_⟩
    intro r hr
    simp only [List.mem_cons, List.not_mem_nil, or_false, or_self] at hr
    exact hr
  have hratio : (ratios 10000 : List K)[3333]'(by rw [ratios_length]; omega) = 100 / 3 := by
    rw [ratios_get (by omega)]
    norm_num
  have hmc : ∀ data : List (Option K), none ∉ data → data ≠ [] → ∃ c, curve lstsq data = .ok c ∧
      c.mc (100 / 3) = quantile (sortAsc (measured data)) (2 / 3) := fun data h1 h2 => mc_third hl (by omega) hratio h1 h2
  obtain ⟨c1, b1, e1⟩ := hmc [some 0, some 1] (by simp) (by simp)
  obtain ⟨c2, b2, e2⟩ := hmc [some 0, some 1, some 0, some 1] (by simp) (by simp)
  have s1 : sortAsc (measured [some (0 : K), some 1]) = [0, 1] := by
    apply List.Perm.eq_of_pairwise (le := (· ≤ ·)) (fun a b _ _ h1 h2 => le_antisymm h1 h2) (sortAsc_sorted _) (by simp)
    exact (sortAsc_perm _).trans (by rw [show measured [some (0 : K), some 1] = [0, 1] from rfl])
  have s2 : sortAsc (measured [some (0 : K), some 1, some 0, some 1]) = [0, 0, 1, 1] := by
    apply List.Perm.eq_of_pairwise (le := (· ≤ ·)) (fun a b _ _ h1 h2 => le_antisymm h1 h2) (sortAsc_sorted _) (by simp)
    exact (sortAsc_perm _).trans (by
      rw [show measured [some (0 : K), some 1, some 0, some 1] = [0, 1, 0, 1] from rfl]
      exact List.Perm.cons _ (List.Perm.swap _ _ _))
  have q1 : quantile [(0 : K), 1] (2 / 3) = 2 / 3 := by
    rw [quantile_eq (i := 0) (by simp) (by norm_num) (by norm_num)]
    norm_num
  have q2 : quantile [(0 : K), 0, 1, 1] (2 / 3) = 1 := by
    rw [quantile_eq (i := 2) (by simp) (by norm_num) (by norm_num)]
    norm_num
  rw [s1, q1] at e1
  rw [s2, q2] at e2
  refine ⟨hr, ?_, ?_⟩
  · simp only [profile, rmc, b1, Except.map, e1]
  · have hf : flat (⟨[[some 0, some 1], [some 0, some 1]], 2⟩ : Grid (Option K)) = [some 0, some 1, some 0, some 1] := rfl
    simp only [surface, smc, hf, b2, Except.map, e2]

open Fourier Period PeriodSpec in
/-- **C117 violated** for the period: the surface of a cosine profile of `k ≥ 2` whole periods has a period smaller than that of the
profile by the factor `(n-1)/n`. -/
theorem C117_period_violated {argsort : List ℝ → List Nat} (hs : IsArgsort argsort) {g : Grid (Option ℝ)} {c a φ : ℝ} {k : Nat}
    (h : Grating g c a φ 0 k) (hk : 2 ≤ k) (ha : 10 ≤ g.nx * |a| / 2) {l : List (Option ℝ)} (hr : RowsAre g l) {step H : ℝ}
    (hd : 0 < step) (hH : 0 < H) :
    ∃ p q, period argsort g (((g.nx : ℝ) - 1) * step) H = .ok (some p) ∧ profilePeriod argsort step l = .ok q ∧
      p = ((g.nx : ℝ) - 1) / g.nx * q ∧ p < q := by
  obtain ⟨p, hp, e, hlt⟩ := C76_period_too_small hs h (by exact_mod_cast (by omega : 0 < k)) hd hH
  have hlx : g.nx = l.length := hr.1
  have hx := h.nyquist_x
  rw [abs_of_nonneg (by positivity)] at hx
  have hrow : g.rows[0]? = some l := by
    have hi' : 0 < g.rows.length := hr.2.1
    rw [List.getElem?_eq_getElem hi', hr.2.2 _ (List.getElem_mem hi')]
  have hget : ∀ j < l.length, l[j]? = some (some (c + a * Real.cos (2 * Real.pi * ((k : ℝ) * j / l.length) + φ))) := by
    intro j hj
    have := h.heights 0 hr.2.1 j (by omega)
    simp only [Grid.get, hrow, Option.bind_some, List.getElem?_eq_getElem hj, Option.getD_some] at this
    rw [List.getElem?_eq_getElem hj, this, hlx]
    simp
  have hm : none ∉ l := by
    intro hc
    obtain ⟨j, hj, e⟩ := List.getElem_of_mem hc
    have := hget j hj
    rw [List.getElem?_eq_getElem hj, e] at this
    simp at this
  obtain ⟨m, rfl⟩ : ∃ m : List ℝ, l = m.map some := ⟨_, eq_map_some_of_no_none l hm⟩
  rw [List.length_map] at hlx hget
  have hsin : Sinusoidal m k a φ c := by
    intro j hj
    have := hget j hj
    rw [List.getElem?_map, List.getElem?_eq_getElem hj] at this
    rw [List.getElem?_eq_getElem hj]
    simpa using this
  have hq := C94_sinusoid_partial hs hd hsin hk (by omega) (by rw [← hlx]; exact ha)
  refine ⟨p, (m.length : ℝ) * step / k, hp, ?_, ?_, ?_⟩
  · unfold profilePeriod
    rw [if_neg hm, measured_some, hq]
  · rw [e, hlx]; push_cast; rfl
  · rw [hlx] at hlt; exact_mod_cast hlt

/-- Three rows of twelve points with two periods. -/
example : ∃ (g : Grid (Option ℝ)) (l : List (Option ℝ)), Grating g 1 2 0 0 (2 : Nat) ∧ RowsAre g l ∧ 10 ≤ (g.nx : ℝ) * |2| / 2 := by
  refine ⟨Grid.ofFn 3 12 fun _ j => some (1 + 2 * Real.cos (2 * Real.pi * ((2 : ℝ) * j / 12))),
    (List.range 12).map fun j : Nat => some (1 + 2 * Real.cos (2 * Real.pi * ((2 : ℝ) * j / 12))), ⟨ofFn_wf _ _ _, ?_, by norm_num,
      Or.inr (by norm_num), ?_, ?_⟩, ⟨by simp [Grid.ofFn], by simp [Grid.ofFn, Grid.ny], ?_⟩, ?_⟩
  · intro i hi j hj
    rw [ofFn_ny] at hi
    rw [ofFn_nx] at hj
    rw [get_ofFn _ hi hj, ofFn_ny, ofFn_nx]
    simp
  · rw [ofFn_ny]; norm_num
  · rw [ofFn_nx]; norm_num
  · intro r hr
    obtain ⟨i, -, rfl⟩ := List.mem_map.1 hr
    rfl
  · rw [ofFn_nx]; norm_num

end Surfalize.Props
