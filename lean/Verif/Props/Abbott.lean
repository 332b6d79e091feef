import Verif.Lemmas.AbbottMore
import Verif.Lemmas.Stepheight
import Mathlib.Tactic.NormNum

/-!
# C36 - C41, C74 — Abbott-Firestone curve and functional parameters

`nbins = n` is arbitrary (`surface.get_abbott_firestone_curve` uses 10000).
-/
set_option linter.unusedSectionVars false
namespace Surfalize.Props
open Surfalize Abbott Interp Spec

variable {K : Type} [Field K] [LinearOrder K] [IsStrictOrderedRing K] [FloorRing K]
variable {lstsq : Detrend.Lstsq K} {n : Nat} {data : List (Option K)} {c : Curve K}

private theorem mem_some {z : K} : z ∈ measured data ↔ some z ∈ data := mem_measured

/-! ## C36 -/

/-- **C36** (shape). The curve has `n` points, its heights never increase with the material ratio, it starts at ratio 0
with the maximum measured height and ends at ratio 100 with the minimum. -/
theorem C36_curve (hn : 2 ≤ n) (h : build lstsq n data = .ok c) :
    c.mr.length = n ∧ c.height.length = n ∧ c.mr.Pairwise (· < ·) ∧ c.height.Pairwise (· ≥ ·) ∧
    (∃ top, c.mr.head? = some 0 ∧ c.height.head? = some top ∧ some top ∈ data ∧ ∀ z, some z ∈ data → z ≤ top) ∧
    (∃ bot, c.mr.getLast? = some 100 ∧ c.height.getLast? = some bot ∧ some bot ∈ data ∧ ∀ z, some z ∈ data → bot ≤ z) := by
  obtain ⟨h1, h2, e1, e2, e3⟩ := build_fields h
  have hd := measured_ne h1 h2
  obtain ⟨t1, t2⟩ := heights_first hn hd
  obtain ⟨b1, b2⟩ := heights_last hn hd
  rw [e2, e3]
  refine ⟨ratios_length n, heights_length n _, ratios_strict hn, heights_antitone hn hd, ⟨_, ?_, ?_, mem_some.1 t1, fun z hz => t2 z (mem_some.2 hz)⟩,
    ⟨_, ?_, ?_, mem_some.1 b1, fun z hz => b2 z (mem_some.2 hz)⟩⟩
  · rw [List.head?_eq_getElem?, List.getElem?_eq_getElem (by rw [ratios_length]; omega), ratio_zero hn]
  · rw [List.head?_eq_getElem?, List.getElem?_eq_getElem]
  · simp only [List.getLast?_eq_getElem?, ratios_length]
    rw [List.getElem?_eq_getElem (by rw [ratios_length]; omega), ratio_last hn]
  · simp only [List.getLast?_eq_getElem?, heights_length]
    rw [List.getElem?_eq_getElem]

/-- **C36** (meaning of the ratio). At the curve point `(m, z)` fewer than `m%·(N-1) + 1` of the `N` points lie above
`z` and fewer than `(100-m)%·(N-1) + 1` below: `z` is the height where the share of material above is `m` percent, to
within one point. -/
theorem C36_material_ratio (hn : 2 ≤ n) (h : build lstsq n data = .ok c) {m z : K} (hmz : (m, z) ∈ List.zip c.mr c.height) :
    ((data.countP fun x => decide (∃ v, x = some v ∧ z < v) : Nat) : K) < m / 100 * ((data.length : K) - 1) + 1 ∧
    ((data.countP fun x => decide (∃ v, x = some v ∧ v < z) : Nat) : K) < (100 - m) / 100 * ((data.length : K) - 1) + 1 := by
  obtain ⟨h1, h2, e1, e2, e3⟩ := build_fields h
  have hd := measured_ne h1 h2
  have hdata := eq_map_some_of_no_none data h1
  set d := measured data with hdd
  have hl : data.length = d.length := by rw [hdata]; simp
  rw [e2, e3] at hmz
  have hb := ratios_bounds hn (List.of_mem_zip hmz).1
  have hz : z = quantile (sortAsc d) (1 - m / 100) := by
    obtain ⟨i, hi, e⟩ := List.mem_iff_getElem.1 hmz
    rw [zip_get] at e
    have ea := congrArg Prod.fst e
    have eb := congrArg Prod.snd e
    simp only at ea eb
    rw [← eb, ← ea, heights_get]
  have hq := quantile_counts (sortAsc_sorted d) (sortAsc_ne hd) (q := 1 - m / 100)
    (by have : m / 100 ≤ 1 := by rw [div_le_one (by norm_num)]; exact hb.2
        linarith)
    (by have : 0 ≤ m / 100 := div_nonneg hb.1 (by norm_num)
        linarith)
  rw [← hz, sortAsc_length] at hq
  have c1 : (data.countP fun x => decide (∃ v, x = some v ∧ z < v)) = (sortAsc d).countP fun x => decide (z < x) := by
    rw [hdata, List.countP_map, (sortAsc_perm d).countP_eq]
    apply List.countP_congr
    intro x _
    simp
  have c2 : (data.countP fun x => decide (∃ v, x = some v ∧ v < z)) = (sortAsc d).countP fun x => decide (x < z) := by
    rw [hdata, List.countP_map, (sortAsc_perm d).countP_eq]
    apply List.countP_congr
    intro x _
    simp
  rw [c1, c2, hl]
  refine ⟨by have := hq.1; rwa [sub_sub_cancel] at this, ?_⟩
  have : (100 - m) / 100 = 1 - m / 100 := by ring
  rw [this]; exact hq.2

private theorem build_perm {data' : List (Option K)} (hp : data.Perm data') :
    (build lstsq n data).map (fun c => { c with data := [] }) = (build lstsq n data').map fun c => { c with data := [] } := by
  have hm : (measured data).Perm (measured data') := by
    unfold measured; exact hp.filterMap _
  have hs : sortAsc (measured data) = sortAsc (measured data') := sortAsc_eq_of_perm hm
  unfold build
  have e1 : (none ∈ data) = (none ∈ data') := propext hp.mem_iff
  have e2 : (data = []) = (data' = []) := by
    refine propext ⟨fun h => ?_, fun h => ?_⟩
    · rw [h] at hp; exact hp.symm.eq_nil
    · rw [h] at hp; exact hp.eq_nil
  have e3 : heights n (measured data) = heights n (measured data') := by unfold heights; rw [hs]
  simp only [e1, e2, e3]
  split
  · rfl
  · split
    · rfl
    · split <;> rfl

/-- **C36, C17** (arrangement). The curve, its equivalent line and every parameter derived from them depend only on the
multiset of heights: a rearrangement of the points leaves everything except the stored points unchanged. -/
theorem C36_arrangement {data' : List (Option K)} (hp : data.Perm data') :
    (build lstsq n data).map (fun c => (c.mr, c.height, c.istart, c.slope, c.intercept))
      = (build lstsq n data').map fun c => (c.mr, c.height, c.istart, c.slope, c.intercept) := by
  have := congrArg (Except.map (ε := Err) fun c : Curve K => (c.mr, c.height, c.istart, c.slope, c.intercept)) (build_perm (lstsq := lstsq) (n := n) hp)
  cases h1 : build lstsq n data <;> cases h2 : build lstsq n data' <;> simp only [h1, h2, Except.map] at this ⊢ <;> simp_all

/-- **C17** (functional parameters). All functional and volume parameters are unchanged by rearranging the points. -/
theorem C17_functional_parameters {data' : List (Option K)} {c' : Curve K} {sort : PtSort K} (hp : data.Perm data')
    (h : build lstsq n data = .ok c) (h' : build lstsq n data' = .ok c') :
    c.k = c'.k ∧ c.mr1 sort = c'.mr1 sort ∧ c.mr2 sort = c'.mr2 sort ∧ c.pk sort = c'.pk sort ∧ c.vk sort = c'.vk sort ∧
    c.pkx = c'.pkx ∧ c.vkx = c'.vkx ∧ c.ak1 sort = c'.ak1 sort ∧ c.ak2 sort = c'.ak2 sort ∧
    (∀ z, c.mrAt sort z = c'.mrAt sort z) ∧ (∀ p, c.mc p = c'.mc p) ∧ (∀ p, c.Vm p = c'.Vm p) ∧ ∀ p, c.Vv p = c'.Vv p := by
  have hb := build_perm (lstsq := lstsq) (n := n) hp
  rw [h, h'] at hb
  simp only [Except.map, Except.ok.injEq] at hb
  obtain ⟨_, _, e1, _, _⟩ := build_fields h
  obtain ⟨_, _, e1', _, _⟩ := build_fields h'
  have hm : (measured data).Perm (measured data') := by unfold measured; exact hp.filterMap _
  obtain ⟨cd, cm, ch, ci, cs, cb⟩ := c
  obtain ⟨cd', cm', ch', ci', cs', cb'⟩ := c'
  simp only [Curve.mk.injEq] at hb
  obtain ⟨_, rfl, rfl, rfl, rfl, rfl⟩ := hb
  simp only at e1 e1'
  subst e1 e1'
  have hmax := max?_perm hm
  have hmin := min?_perm hm
  refine ⟨rfl, rfl, rfl, rfl, rfl, ?_, ?_, rfl, rfl, fun _ => rfl, fun _ => rfl, fun _ => rfl, fun _ => rfl⟩
  · simp only [Curve.pkx, hmax]; rfl
  · simp only [Curve.vkx, hmin]; rfl

/-- **C36** (missing points). Data with a non-measured point raises ValueError. -/
theorem C36_missing (h : none ∈ data) : build lstsq n data = .error .valueError := by
  unfold build; rw [if_pos h]

/-- On every non-empty, fully measured data set the curve exists. -/
theorem C36_defined (hl : IsLstsq lstsq) (hn : 2 ≤ n) (hm : none ∉ data) (hne : data ≠ []) : ∃ c, build lstsq n data = .ok c := by
  obtain ⟨c, _, h, _⟩ := build_ok hl hn hm hne
  exact ⟨c, h⟩

example : heights 3 [3, 1, 2, 5 / 2, (0 : ℚ)] = [3, 2, 0] := by decide +kernel
example : ∃ c, build (K := ℚ) (Classical.choose Detrend.exists_lstsq) 5 [some 3, some 1, some 2] = .ok c :=
  C36_defined (Classical.choose_spec Detrend.exists_lstsq) (by norm_num) (by decide) (by decide)

/-! ## C37 -/

/-- **C37** (Smc). `Smc` never increases with the ratio, is the maximum height up to 0 % and the minimum height from
100 % on, and always lies between them. -/
theorem C37_smc (hn : 2 ≤ n) (h : build lstsq n data = .ok c) :
    (∀ p q, p ≤ q → c.mc q ≤ c.mc p) ∧
    (∀ p, p ≤ 0 → some (c.mc p) ∈ data ∧ ∀ z, some z ∈ data → z ≤ c.mc p) ∧
    (∀ p, 100 ≤ p → some (c.mc p) ∈ data ∧ ∀ z, some z ∈ data → c.mc p ≤ z) ∧
    ∀ m z, (m, z) ∈ List.zip c.mr c.height → c.mc m = z := by
  obtain ⟨h1, h2, e1, e2, e3⟩ := build_fields h
  have hd := measured_ne h1 h2
  unfold Curve.mc
  rw [e2, e3]
  refine ⟨fun p q hpq => smc_antitone hn hd hpq, fun p hp => ?_, fun p hp => ?_, fun m z hmz => npInterp_sample (pts_strict hn _) hmz⟩
  · rw [smc_left hn _ hp]
    have := heights_first hn hd
    exact ⟨mem_some.1 this.1, fun z hz => this.2 z (mem_some.2 hz)⟩
  · rw [smc_right hn _ hp]
    have := heights_last hn hd
    exact ⟨mem_some.1 this.1, fun z hz => this.2 z (mem_some.2 hz)⟩

/-- **C37** (bounds of Smc). -/
theorem C37_smc_bounds (hn : 2 ≤ n) (h : build lstsq n data = .ok c) (p : K) {lo hi : K}
    (hlo : ∀ z, some z ∈ data → lo ≤ z) (hhi : ∀ z, some z ∈ data → z ≤ hi) : lo ≤ c.mc p ∧ c.mc p ≤ hi := by
  obtain ⟨h1, h2, e1, e2, e3⟩ := build_fields h
  have hd := measured_ne h1 h2
  unfold Curve.mc
  rw [e2, e3]
  have hr := smc_mem_range hn hd p
  exact ⟨le_trans (hlo _ (mem_some.1 (heights_last hn hd).1)) hr.1, le_trans hr.2 (hhi _ (mem_some.1 (heights_first hn hd).1))⟩

/-- **C37** (range of Smr). Whatever the order of ties, `Smr` is a percentage. -/
theorem C37_smr_range {sort : PtSort K} (hs : IsSort sort) (hn : 2 ≤ n) (h : build lstsq n data = .ok c) (z : K) :
    0 ≤ c.mrAt sort z ∧ c.mrAt sort z ≤ 100 := by
  obtain ⟨h1, h2, e1, e2, e3⟩ := build_fields h
  unfold Curve.mrAt
  rw [e2, e3]
  refine npInterp_bounds (sort_ne_nil hs ?_) ?_ z
  · intro hc; have := inv_length (K := K) n (measured data); rw [hc] at this; simp at this; omega
  · intro p hp
    exact ratios_bounds hn (List.of_mem_zip ((hs _).1.mem_iff.1 hp)).2

/-- **C37** (Smr decreases across plateaus, all data). If two different curve heights separate `x` from `y > x`, then
`Smr(y) ≤ Smr(x)`, whatever the order of ties. -/
theorem C37_smr_antitone_across {sort : PtSort K} (hs : IsSort sort) (hn : 2 ≤ n) (h : build lstsq n data = .ok c)
    {x y u v : K} (hu : u ∈ c.height) (hv : v ∈ c.height) (h1 : x ≤ u) (h2 : u < v) (h3 : v ≤ y) :
    c.mrAt sort y ≤ c.mrAt sort x := by
  obtain ⟨g1, g2, e1, e2, e3⟩ := build_fields h
  have hd := measured_ne g1 g2
  unfold Curve.mrAt
  rw [e3] at hu hv
  rw [e2, e3]
  set d := measured data with hdd
  obtain ⟨i, hi, rfl⟩ := List.mem_iff_getElem.1 hu
  obtain ⟨j, hj, rfl⟩ := List.mem_iff_getElem.1 hv
  have hlen := inv_length (K := K) n d
  have hni : i < n := by rwa [heights_length] at hi
  have hnj : j < n := by rwa [heights_length] at hj
  have hanti : ∀ {a b : Nat} (ha : a < (heights n d).length) (hb : b < (heights n d).length), a ≤ b → (heights n d)[b] ≤ (heights n d)[a] := by
    intro a b ha hb hab
    rcases lt_or_eq_of_le hab with h | h
    · exact List.pairwise_iff_getElem.1 (heights_antitone hn hd) _ _ ha hb h
    · subst h; exact le_rfl
  have hrat : ∀ {a b : Nat} (ha : a < (ratios n : List K).length) (hb : b < (ratios n : List K).length), a ≤ b → (ratios n : List K)[a] ≤ (ratios n)[b] := by
    intro a b ha hb hab
    rcases lt_or_eq_of_le hab with h | h
    · exact (List.pairwise_iff_getElem.1 (ratios_strict (K := K) hn) _ _ ha hb h).le
    · subst h; exact le_rfl
  -- last index with height ≥ the height at `j`
  have key : ∃ k, ∃ hk : k < n, (heights n d)[j] ≤ (heights n d)[k]'(by rw [heights_length]; omega) ∧
      ∀ m (hm : m < n), (heights n d)[j] ≤ (heights n d)[m]'(by rw [heights_length]; omega) → m ≤ k := by
    classical
    let P : Nat → Prop := fun m => ∃ hm : m < n, (heights n d)[j] ≤ (heights n d)[m]'(by rw [heights_length]; omega)
    have hk1 : P (Nat.findGreatest P n) := Nat.findGreatest_spec (P := P) hnj.le ⟨hnj, le_rfl⟩
    exact ⟨Nat.findGreatest P n, hk1.1, hk1.2, fun m hm hmm => Nat.le_findGreatest hm.le ⟨hm, hmm⟩⟩
  obtain ⟨k, hk, hk1, hk2⟩ := key
  have hperm := (hs (List.zip (heights n d) (ratios n : List K))).1
  have hsorted := (hs (List.zip (heights n d) (ratios n : List K))).2
  have up : npInterp (sort (List.zip (heights n d) (ratios n : List K))) y ≤ (ratios n : List K)[k]'(by rw [ratios_length]; omega) := by
    refine npInterp_le_of_right hsorted (h := (List.zip (heights n d) (ratios n : List K))[j]'(by omega)) (hperm.mem_iff.2 (List.getElem_mem _)) ?_ ?_
    · rw [zip_get]; exact h3
    · intro p hp hjp
      obtain ⟨m, hm, rfl⟩ := List.mem_iff_getElem.1 (hperm.mem_iff.1 hp)
      rw [zip_get, zip_get] at hjp
      rw [zip_get]
      exact hrat _ _ (hk2 m (by omega) hjp)
  have lo : (ratios n : List K)[k]'(by rw [ratios_length]; omega) ≤ npInterp (sort (List.zip (heights n d) (ratios n : List K))) x := by
    refine npInterp_ge_of_left hsorted (h := (List.zip (heights n d) (ratios n : List K))[i]'(by omega)) (hperm.mem_iff.2 (List.getElem_mem _)) ?_ ?_
    · rw [zip_get]; exact h1
    · intro p hp hip
      obtain ⟨m, hm, rfl⟩ := List.mem_iff_getElem.1 (hperm.mem_iff.1 hp)
      rw [zip_get, zip_get] at hip
      rw [zip_get]
      simp only at hip ⊢
      refine hrat _ _ ?_
      by_contra hlt
      push Not at hlt
      have := hanti (by rw [heights_length]; omega) (by rw [heights_length]; omega) hlt.le (a := m) (b := k)
      linarith
  exact le_trans up lo

/-- Distinct measured heights (at least two points) give a curve without plateaus. -/
theorem C37_distinct (hn : 2 ≤ n) (h : build lstsq n data = .ok c) (hd : (measured data).Nodup) (h2 : 2 ≤ data.length) :
    c.height.Pairwise (· > ·) := by
  obtain ⟨g1, g2, e1, e2, e3⟩ := build_fields h
  rw [e3]
  refine heights_strict hn hd ?_
  have : data.length = (measured data).length := by
    conv_lhs => rw [eq_map_some_of_no_none data g1]
    simp
  omega

/-- **C37** (Smr, curves without plateaus). `Smr` never increases with the height, is 0 from the maximum up and 100 from
the minimum down; `Smr(Smc(p)) = p` for every ratio in [0, 100] and `Smc(Smr(z)) = z` for every height between the
minimum and the maximum. Missing for the full property: curves with plateaus (see `C37_plateau`). -/
theorem C37_smr_partial {sort : PtSort K} (hs : IsSort sort) (hn : 2 ≤ n) (h : build lstsq n data = .ok c)
    (hst : c.height.Pairwise (· > ·)) :
    (∀ x y, x ≤ y → c.mrAt sort y ≤ c.mrAt sort x) ∧
    (∀ x, (∀ z, some z ∈ data → z ≤ x) → c.mrAt sort x = 0) ∧
    (∀ x, (∀ z, some z ∈ data → x ≤ z) → c.mrAt sort x = 100) ∧
    (∀ p, 0 ≤ p → p ≤ 100 → c.mrAt sort (c.mc p) = p) ∧
    ∀ x u v, some u ∈ data → some v ∈ data → u ≤ x → x ≤ v → c.mc (c.mrAt sort x) = x := by
  obtain ⟨g1, g2, e1, e2, e3⟩ := build_fields h
  have hd := measured_ne g1 g2
  have hanti : ∀ x y, x ≤ y → c.mrAt sort y ≤ c.mrAt sort x := by
    intro x y hxy
    unfold Curve.mrAt
    rw [e3] at hst
    rw [e2, e3]
    exact mrAt_antitone hs hn hst hxy
  have hinv : ∀ p, 0 ≤ p → p ≤ 100 → c.mrAt sort (c.mc p) = p := by
    intro p h0 h1
    obtain ⟨i, hi, t, t0, t1, rfl⟩ := ratio_cell hn h0 h1
    unfold Curve.mrAt Curve.mc
    rw [e3] at hst
    rw [e2, e3, smc_cell hn _ hi t0 t1, mrAt_cell hs hst hi t0 t1]
  have hr := C37_smr_range hs hn h
  have h0 : c.mrAt sort (c.mc 0) = 0 := hinv 0 le_rfl (by norm_num)
  have h100 : c.mrAt sort (c.mc 100) = 100 := hinv 100 (by norm_num) le_rfl
  obtain ⟨s1, s2, s3, s4⟩ := C37_smc hn h
  refine ⟨hanti, ?_, ?_, hinv, ?_⟩
  · intro x hx
    have := hanti _ _ (hx _ (s2 0 le_rfl).1)
    rw [h0] at this
    exact le_antisymm this (hr x).1
  · intro x hx
    have := hanti _ _ (hx _ (s3 100 le_rfl).1)
    rw [h100] at this
    exact le_antisymm (hr x).2 this
  · intro x u v hu hv h1 h2
    have hx1 : x ≤ c.mc 0 := le_trans h2 ((s2 0 le_rfl).2 v hv)
    have hx2 : c.mc 100 ≤ x := le_trans ((s3 100 le_rfl).2 u hu) h1
    have hcell : ∃ p, 0 ≤ p ∧ p ≤ 100 ∧ c.mc p = x := by
      unfold Curve.mc at hx1 hx2 ⊢
      rw [e3] at hst
      rw [e2, e3] at hx1 hx2 ⊢
      rw [smc_left hn _ le_rfl] at hx1
      rw [smc_right hn _ le_rfl] at hx2
      obtain ⟨i, hi, t, t0, t1, e⟩ := height_cell hn hst hx1 hx2
      have b1 := ratios_bounds hn (List.getElem_mem (l := (ratios n : List K)) (n := i) (by rw [ratios_length]; omega))
      have b2 := ratios_bounds hn (List.getElem_mem (l := (ratios n : List K)) (n := i + 1) (by rw [ratios_length]; omega))
      refine ⟨_, ?_, ?_, (smc_cell hn _ hi t0 t1).trans e.symm⟩
      · nlinarith [b1.1, b2.1]
      · nlinarith [b1.2, b2.2]
    obtain ⟨p, p0, p1, rfl⟩ := hcell
    rw [hinv p p0 p1]

/-- **C37 is false of the code on plateaus.** For the six heights 1,1,1,0,0,0 (curve with six classes, ties kept in
order by the sort) the ratio at 0.9 is 10 %, at 1 it is 40 % — `Smr` increases — and below the minimum it is 60 %,
not 100 %. -/
theorem C37_plateau :
    let d : List (Option ℚ) := [some 1, some 1, some 1, some 0, some 0, some 0]
    ∀ lstsq c, build lstsq 6 d = .ok c →
      c.mrAt stableSort (9 / 10) < c.mrAt stableSort 1 ∧ c.mrAt stableSort (-1) = 60 := by
  intro d lstsq c h
  obtain ⟨g1, g2, e1, e2, e3⟩ := build_fields h
  unfold Curve.mrAt
  rw [e2, e3]
  decide +kernel

example : ([some 3, some 1, some 2] : List (Option ℚ)) ≠ [] ∧ (measured [some 3, some 1, some (2 : ℚ)]).Nodup := by decide +kernel

/-! ## C38 -/

/-- **C38.** Building the curve never fails on measured data. The window starts at a curve point with ratio at most 60,
no other curve point up to 60 starts a 40 % secant with a larger slope, every earlier one has a strictly smaller slope,
and the equivalent line is the least squares line of exactly the curve points whose ratio is in the window. -/
theorem C38_window (hl : IsLstsq lstsq) (hn : 2 ≤ n) (hm : none ∉ data) (hne : data ≠ []) :
    ∃ c, build lstsq n data = .ok c ∧ ∃ s zs, (List.zip c.mr c.height)[c.istart]? = some (s, zs) ∧ s ≤ 60 ∧
      (∀ (j : Nat) (m z : K), (List.zip c.mr c.height)[j]? = some (m, z) → m ≤ 60 →
        (c.mc (m + 40) - z) / 40 ≤ (c.mc (s + 40) - zs) / 40 ∧
        (m < s → (c.mc (m + 40) - z) / 40 < (c.mc (s + 40) - zs) / 40)) ∧
      ∀ a b, (((List.zip c.mr c.height).filter fun p => decide (s ≤ p.1 ∧ p.1 ≤ s + 40)).map fun p => (p.2 - (c.slope * p.1 + c.intercept)) ^ 2).sum
        ≤ (((List.zip c.mr c.height).filter fun p => decide (s ≤ p.1 ∧ p.1 ≤ s + 40)).map fun p => (p.2 - (a * p.1 + b)) ^ 2).sum := by
  obtain ⟨c, hi, hb, e1, e2, e3, h60, hline, hmax⟩ := build_ok hl hn hm hne
  have hlen := pts_length n (measured data)
  refine ⟨c, hb, (ratios n : List K)[c.istart]'(by rw [ratios_length]; omega), (heights n (measured data))[c.istart]'(by rw [heights_length]; omega), ?_, h60, ?_, ?_⟩
  · rw [e2, e3, List.getElem?_eq_getElem (by omega), zip_get]
  · intro j m z hj hm60
    rw [e2, e3] at hj
    have hjn : j < n := by
      have := (List.getElem?_eq_some_iff.1 hj).1
      omega
    rw [List.getElem?_eq_getElem (by omega), zip_get] at hj
    have hmz := Option.some.inj hj
    have em := congrArg Prod.fst hmz
    have ez := congrArg Prod.snd hmz
    simp only at em ez
    subst em ez
    have := hmax j hjn hm60
    simp only at this
    unfold Curve.mc
    rw [e2, e3]
    refine ⟨this.1, fun hlt => this.2 ?_⟩
    by_contra hge
    push Not at hge
    rcases lt_or_eq_of_le hge with h | h
    · have := List.pairwise_iff_getElem.1 (ratios_strict (K := K) hn) _ _ (by rw [ratios_length]; omega) (by rw [ratios_length]; omega) h
      linarith
    · have : (ratios n : List K)[j]'(by rw [ratios_length]; omega) = (ratios n : List K)[c.istart]'(by rw [ratios_length]; omega) := by
        congr 1; exact h.symm
      linarith
  · rw [e2, e3]
    intro a b
    have hr := region_eq hn (measured data) hi
    have hf : ((List.zip (ratios n : List K) (heights n (measured data))).filter fun p =>
        decide ((ratios n : List K)[c.istart]'(by rw [ratios_length]; omega) ≤ p.1 ∧ p.1 ≤ (ratios n : List K)[c.istart]'(by rw [ratios_length]; omega) + 40))
        = region (ratios n) (heights n (measured data)) c.istart := by
      rw [hr]
      apply List.filter_congr
      intro p _
      simp
    rw [hf]
    exact hline a b

/-! ## C39 -/

private theorem slope_nonpos (hl : IsLstsq lstsq) (hn : 4 ≤ n) (h : build lstsq n data = .ok c) : c.slope ≤ 0 := by
  obtain ⟨g1, g2, _⟩ := build_fields h
  obtain ⟨c', hi, hb, e1, e2, e3, h60, hline, _⟩ := build_ok hl (show 2 ≤ n by omega) g1 g2
  rw [h] at hb
  obtain rfl := Except.ok.inj hb
  exact line_slope_nonpos hline (region_strict (by omega) _ _) (region_antitone (by omega) (measured_ne g1 g2) _) (region_two hn _ hi h60)

/-- **C39** (core height). `Sk ≥ 0` for every measured data set (at least four ratio classes). -/
theorem C39_sk (hl : IsLstsq lstsq) (hn : 4 ≤ n) (h : build lstsq n data = .ok c) : 0 ≤ c.k := by
  have := slope_nonpos hl hn h
  unfold Curve.k Curve.yupper Curve.ylower
  linarith

/-- **C39** (peaks and dales). `Spk` and `Svk` are non-negative whenever they are numbers; `Sak1 = Spk·Smr1/2` and
`Sak2 = Svk·(100-Smr2)/2`. -/
theorem C39_pk_vk {sort : PtSort K} (hs : IsSort sort) (hn : 2 ≤ n) (h : build lstsq n data = .ok c) :
    (∀ v, c.pk sort = some v → 0 ≤ v ∧ c.ak1 sort = some (v * c.mr1 sort / 2) ∧ 0 ≤ v * c.mr1 sort / 2) ∧
    (∀ v, c.vk sort = some v → 0 ≤ v ∧ c.ak2 sort = some (v * (100 - c.mr2 sort) / 2) ∧ 0 ≤ v * (100 - c.mr2 sort) / 2) ∧
    (c.pk sort = none ↔ c.mr1 sort = 0) ∧ (c.vk sort = none ↔ c.mr2 sort = 100) := by
  have b1 := C37_smr_range hs hn h c.yupper
  have b2 := C37_smr_range hs hn h c.ylower
  have p1 : ∀ v, c.pk sort = some v → 0 ≤ v := by
    intro v hv
    unfold Curve.pk divN at hv
    split at hv
    · cases hv
    · cases hv
      exact div_nonneg (by have : 0 ≤ c.areaAbove (argclosest c.yupper c.height) := abs_nonneg _
                           linarith) b1.1
  have p2 : ∀ v, c.vk sort = some v → 0 ≤ v := by
    intro v hv
    unfold Curve.vk divN at hv
    split at hv
    · cases hv
    · cases hv
      refine div_nonneg (by have : 0 ≤ c.areaBelow (argclosest c.ylower c.height) := abs_nonneg _
                            linarith) ?_
      have : c.mr2 sort ≤ 100 := b2.2
      linarith
  refine ⟨fun v hv => ⟨p1 v hv, ?_, ?_⟩, fun v hv => ⟨p2 v hv, ?_, ?_⟩, ?_, ?_⟩
  · unfold Curve.ak1; rw [hv]; simp only [Option.map_some, Option.some.injEq]; ring
  · have : 0 ≤ c.mr1 sort := b1.1
    have := mul_nonneg (p1 v hv) this
    linarith
  · unfold Curve.ak2; rw [hv]; simp only [Option.map_some, Option.some.injEq]; ring
  · have : 0 ≤ 100 - c.mr2 sort := by have : c.mr2 sort ≤ 100 := b2.2
                                      linarith
    have := mul_nonneg (p2 v hv) this
    linarith
  · unfold Curve.pk divN
    split <;> rename_i hz <;> simp [hz]
  · unfold Curve.vk divN
    split
    · rename_i hz; simp only [true_iff]; linarith
    · rename_i hz; simp only [reduceCtorEq, false_iff]; intro hc; exact hz (by rw [hc]; ring)

/-- **C39** (extreme heights). `Spkx` is the distance of the highest point to the upper end of the core, `Svkx` that of
the lowest point to the lower end, and `Spkx + Sk + Svkx` is the total height. -/
theorem C39_extreme (h : build lstsq n data = .ok c) {hi lo : K} (h1 : some hi ∈ data) (h2 : ∀ z, some z ∈ data → z ≤ hi)
    (h3 : some lo ∈ data) (h4 : ∀ z, some z ∈ data → lo ≤ z) :
    c.pkx = hi - c.intercept ∧ c.vkx = (c.slope * 100 + c.intercept) - lo ∧ c.pkx + c.k + c.vkx = hi - lo := by
  obtain ⟨g1, g2, e1, e2, e3⟩ := build_fields h
  have hmax : (measured data).max? = some hi := by
    obtain ⟨M, hM⟩ := exists_max? (measured_ne g1 g2)
    obtain ⟨a1, a2⟩ := max?_spec.1 hM
    rw [hM, le_antisymm (h2 M (mem_some.1 a1)) (a2 hi (mem_some.2 h1))]
  have hmin : (measured data).min? = some lo := by
    obtain ⟨M, hM⟩ := exists_min? (measured_ne g1 g2)
    obtain ⟨a1, a2⟩ := min?_spec.1 hM
    rw [hM, le_antisymm (a2 lo (mem_some.2 h3)) (h4 M (mem_some.1 a1))]
  have p1 : c.pkx = hi - c.intercept := by unfold Curve.pkx Curve.yupper; rw [e1, hmax]; rfl
  have p2 : c.vkx = (c.slope * 100 + c.intercept) - lo := by unfold Curve.vkx Curve.ylower; rw [e1, hmin]; rfl
  refine ⟨p1, p2, ?_⟩
  rw [p1, p2]
  unfold Curve.k Curve.yupper Curve.ylower
  ring

/-- **C39** (order of Smr1 and Smr2), for curves without plateaus. Missing: plateaus (`C39_smr_order_fails`). -/
theorem C39_smr_order_partial {sort : PtSort K} (hl : IsLstsq lstsq) (hs : IsSort sort) (hn : 4 ≤ n) (h : build lstsq n data = .ok c)
    (hst : c.height.Pairwise (· > ·)) : c.mr1 sort ≤ c.mr2 sort := by
  have hk := C39_sk hl hn h
  unfold Curve.k at hk
  exact (C37_smr_partial hs (by omega) h hst).1 _ _ (by linarith)

/-- **C39 is false of the code on plateaus**: for these eleven heights (eleven classes, ties kept in order) `Smr1` is
about 89.9 % and `Smr2` is 84 %. -/
theorem C39_smr_order_fails :
    let d : List (Option ℚ) := [1000, 900, 800, 700, 650, 600, 5, 5, 5, 5, 4].map some
    ∀ lstsq, IsLstsq lstsq → ∃ c, build lstsq 11 d = .ok c ∧ c.mr2 stableSort < c.mr1 stableSort := by
  intro d lstsq hl
  obtain ⟨c, hi, hb, e1, e2, e3, h60, hline, hmax⟩ := build_ok hl (n := 11) (by norm_num) (data := d) (by decide) (by decide)
  refine ⟨c, hb, ?_⟩
  have hist : c.istart = 6 := by
    have hle : c.istart ≤ 6 := by
      by_contra hc
      have h7 : c.istart ∈ [7, 8, 9, 10] := by
        have : c.istart < 11 := hi
        simp only [List.mem_cons, List.not_mem_nil, or_false]; omega
      have hbad : ∀ i ∈ [7, 8, 9, 10], ∀ hi : i < (ratios 11 : List ℚ).length, ¬ (ratios 11 : List ℚ)[i] ≤ 60 := by decide +kernel
      exact hbad _ h7 _ h60
    by_contra hne
    have h6 : c.istart ∈ [0, 1, 2, 3, 4, 5] := by simp only [List.mem_cons, List.not_mem_nil, or_false]; omega
    have hm := (hmax 6 (by norm_num) (by decide +kernel)).1
    have hbad : ∀ i ∈ [0, 1, 2, 3, 4, 5], ∀ hi : i < 11,
        ¬ (smcFit (ratios 11) (heights 11 (measured d)) ((ratios 11 : List ℚ)[6]'(by decide +kernel) + 40) - (heights 11 (measured d))[6]'(by decide +kernel)) / 40
          ≤ (smcFit (ratios 11) (heights 11 (measured d)) ((ratios 11 : List ℚ)[i]'(by rw [ratios_length]; omega) + 40) - (heights 11 (measured d))[i]'(by rw [heights_length]; omega)) / 40 := by
      decide +kernel
    exact hbad _ h6 hi hm
  rw [hist] at hline
  have hline' : IsLine (region (ratios 11) (heights 11 (measured d)) 6) (-1 / 50 : ℚ) (32 / 5) :=
    isLine_of_normal (by decide +kernel) (by decide +kernel)
  obtain ⟨es, ei⟩ := line_unique hline hline' (region_strict (by norm_num) _ _) (by decide +kernel)
  unfold Curve.mr2 Curve.mr1 Curve.mrAt Curve.ylower Curve.yupper
  rw [e2, e3, es, ei]
  decide +kernel

/-! ## C40 -/

/-- **C40.** `Sdc(p, q)` is the height difference `Smc(p) - Smc(q)`; it is additive, non-negative for `p ≤ q`, and never
exceeds the total height. `Sxp` with its defaults equals `Sdc` with its defaults. -/
theorem C40_sdc (hn : 2 ≤ n) (h : build lstsq n data = .ok c) :
    (∀ p q, c.dc p q = c.mc p - c.mc q) ∧ (∀ p q r, c.dc p r = c.dc p q + c.dc q r) ∧ (∀ p q, p ≤ q → 0 ≤ c.dc p q) ∧
    (∀ p q hi lo, (∀ z, some z ∈ data → z ≤ hi) → (∀ z, some z ∈ data → lo ≤ z) → c.dc p q ≤ hi - lo) ∧
    (∀ p q, c.sxp p q = c.dc p q) ∧ c.sxpDefault = c.sdcDefault ∧ 0 ≤ c.sxpDefault := by
  have hanti := (C37_smc hn h).1
  refine ⟨fun _ _ => rfl, fun p q r => by unfold Curve.dc; ring, fun p q hpq => ?_, fun p q hi lo hh hl => ?_, fun _ _ => rfl, rfl, ?_⟩
  · unfold Curve.dc; linarith [hanti p q hpq]
  · unfold Curve.dc
    have a := (C37_smc_bounds hn h p hl hh).2
    have b := (C37_smc_bounds hn h q hl hh).1
    linarith
  · unfold Curve.sxpDefault Curve.sxp
    have := hanti (5 / 2) 50 (by norm_num)
    linarith

/-! ## C41 -/

private theorem above_mono (hn : 2 ≤ n) (h : build lstsq n data = .ok c) {i j : Nat} (hij : i ≤ j) : c.areaAbove i ≤ c.areaAbove j := by
  obtain ⟨g1, g2, e1, e2, e3⟩ := build_fields h
  have hd := measured_ne g1 g2
  unfold Curve.areaAbove
  rw [e2, e3]
  have h0 : ∀ p ∈ List.zip (ratios n : List K) (heights n (measured data)), 0 ≤ p.1 := fun p hp => (ratios_bounds hn (List.of_mem_zip hp).1).1
  have hs := pts_antitone hn hd
  have t := trapezoid_take_le h0 hs hij
  have ni := trapezoid_nonpos (l := (List.zip (ratios n : List K) (heights n (measured data))).take i) (fun p hp => h0 p (List.mem_of_mem_take hp)) (hs.sublist (List.take_sublist _ _))
  have nj := trapezoid_nonpos (l := (List.zip (ratios n : List K) (heights n (measured data))).take j) (fun p hp => h0 p (List.mem_of_mem_take hp)) (hs.sublist (List.take_sublist _ _))
  rw [abs_of_nonpos ni, abs_of_nonpos nj]
  linarith

private theorem below_anti (hn : 2 ≤ n) (h : build lstsq n data = .ok c) {i j : Nat} (hij : i ≤ j) : c.areaBelow j ≤ c.areaBelow i := by
  obtain ⟨g1, g2, e1, e2, e3⟩ := build_fields h
  have hd := measured_ne g1 g2
  unfold Curve.areaBelow
  rw [e2, e3]
  set l := List.zip ((ratios n : List K).map fun m => 100 - m) (heights n (measured data)) with hl
  have h0 : ∀ p ∈ l, 0 ≤ p.1 := by
    intro p hp
    obtain ⟨m, hm, e⟩ := List.mem_map.1 (List.of_mem_zip hp).1
    have := ratios_bounds hn hm
    rw [← e]; linarith [this.2]
  have hs : l.Pairwise fun p q => q.2 ≤ p.2 := by
    rw [List.pairwise_iff_getElem]
    intro i j hi hj hij
    rw [zip_get, zip_get]
    exact List.pairwise_iff_getElem.1 (heights_antitone hn hd) _ _ _ _ hij
  have t := trapezoid_drop_le h0 hs hij
  have ni := trapezoid_nonpos (l := l.drop i) (fun p hp => h0 p (List.mem_of_mem_drop hp)) (hs.sublist (List.drop_sublist _ _))
  have nj := trapezoid_nonpos (l := l.drop j) (fun p hp => h0 p (List.mem_of_mem_drop hp)) (hs.sublist (List.drop_sublist _ _))
  rw [abs_of_nonpos ni, abs_of_nonpos nj]
  linarith

private theorem idx_mono (hn : 2 ≤ n) (h : build lstsq n data = .ok c) {p q : K} (hpq : p ≤ q) :
    argclosest (c.mc p) c.height ≤ argclosest (c.mc q) c.height := by
  obtain ⟨g1, g2, e1, e2, e3⟩ := build_fields h
  obtain ⟨_, hlen, _, hs, _⟩ := C36_curve hn h
  refine argclosest_antitone hs ?_ ((C37_smc hn h).1 p q hpq)
  intro hc; rw [hc] at hlen; simp at hlen; omega

/-- **C41.** The material volume `Vm(p)` is non-negative and non-decreasing, the void volume `Vv(p)` is non-negative and
non-increasing; `Vmp = Vm(p)`, `Vvv = Vv(q)`, `Vmc = Vm(q) - Vm(p) ≥ 0` and `Vvc = Vv(p) - Vv(q) ≥ 0` for `p ≤ q`. -/
theorem C41_volumes (hn : 2 ≤ n) (h : build lstsq n data = .ok c) :
    (∀ p, 0 ≤ c.Vm p) ∧ (∀ p, 0 ≤ c.Vv p) ∧ (∀ p q, p ≤ q → c.Vm p ≤ c.Vm q) ∧ (∀ p q, p ≤ q → c.Vv q ≤ c.Vv p) ∧
    (∀ p, c.vmp p = c.Vm p) ∧ (∀ q, c.vvv q = c.Vv q) ∧ (∀ p q, c.vmc p q = c.Vm q - c.Vm p) ∧
    (∀ p q, c.vvc p q = c.Vv p - c.Vv q) ∧ (∀ p q, p ≤ q → 0 ≤ c.vmc p q ∧ 0 ≤ c.vvc p q) := by
  have m1 : ∀ p q, p ≤ q → c.Vm p ≤ c.Vm q := by
    intro p q hpq
    have := above_mono hn h (idx_mono hn h hpq)
    unfold Curve.Vm
    linarith
  have m2 : ∀ p q, p ≤ q → c.Vv q ≤ c.Vv p := by
    intro p q hpq
    have := below_anti hn h (idx_mono hn h hpq)
    unfold Curve.Vv
    linarith
  refine ⟨fun p => div_nonneg (abs_nonneg _) (by norm_num), fun p => div_nonneg (abs_nonneg _) (by norm_num), m1, m2, fun _ => rfl, fun _ => rfl,
    fun _ _ => rfl, fun _ _ => rfl, fun p q hpq => ⟨?_, ?_⟩⟩
  · have := m1 p q hpq; unfold Curve.vmc; linarith
  · have := m2 p q hpq; unfold Curve.vvc; linarith

/-- **C41** (end points). Above the highest point there is no material, below the lowest no void. -/
theorem C41_ends (hn : 2 ≤ n) (h : build lstsq n data = .ok c) : (∀ p, p ≤ 0 → c.Vm p = 0) ∧ ∀ p, 100 ≤ p → c.Vv p = 0 := by
  obtain ⟨g1, g2, e1, e2, e3⟩ := build_fields h
  obtain ⟨_, hlen, _, hs, _⟩ := C36_curve hn h
  have hne : c.height ≠ [] := by intro hc; rw [hc] at hlen; simp at hlen; omega
  constructor
  · intro p hp
    have hmc : c.mc p = c.height[0]'(by omega) := by
      unfold Curve.mc
      simp only [e2, e3]
      exact smc_left hn _ hp
    have hidx : argclosest (c.mc p) c.height = 0 := by
      by_contra hc
      have := argclosest_first (x := c.mc p) (argclosest_lt hne) (show 0 < argclosest (c.mc p) c.height by omega)
      have e0 : c.height[0]'(by omega) - c.mc p = 0 := by rw [hmc, sub_self]
      rw [e0, abs_zero] at this
      exact absurd this (not_lt.2 (abs_nonneg _))
    unfold Curve.Vm Curve.areaAbove
    rw [hidx]
    simp [trapezoid]
  · intro p hp
    have hmc : c.mc p = c.height[n - 1]'(by omega) := by
      unfold Curve.mc
      simp only [e2, e3]
      exact smc_right hn _ hp
    have hlt := argclosest_lt (x := c.mc p) hne
    have hval : c.height[argclosest (c.mc p) c.height] = c.height[n - 1]'(by omega) := by
      have h1 := argclosest_le (x := c.mc p) hlt (show n - 1 < c.height.length by omega)
      have e0 : c.height[n - 1]'(by omega) - c.mc p = 0 := by rw [hmc, sub_self]
      rw [e0, abs_zero] at h1
      have := abs_eq_zero.1 (le_antisymm h1 (abs_nonneg _))
      linarith
    unfold Curve.Vv Curve.areaBelow
    rw [trapezoid_const (v := c.height[n - 1]'(by omega)), abs_zero, zero_div]
    intro p' hp'
    obtain ⟨i, hi, rfl⟩ := List.mem_iff_getElem.1 hp'
    have hi' : i + argclosest (c.mc p) c.height < n := by
      rw [List.length_drop, List.length_zip, List.length_map, e2, ratios_length, hlen] at hi
      omega
    rw [List.getElem_drop, zip_get]
    simp only
    have hanti : ∀ {a b : Nat} (ha : a < c.height.length) (hb : b < c.height.length), a ≤ b → c.height[b] ≤ c.height[a] := by
      intro a b ha hb hab
      rcases lt_or_eq_of_le hab with h | h
      · exact List.pairwise_iff_getElem.1 hs _ _ ha hb h
      · subst h; exact le_rfl
    refine le_antisymm ?_ ?_
    · rw [← hval]; exact hanti _ _ (by omega)
    · exact hanti _ _ (by omega)

/-! ## C74 -/

/-- **C74.** Adding a constant `t` to all heights and multiplying them by `a > 0` multiplies Sk, Spk, Svk, Spkx, Svkx,
Sak1, Sak2 and all volumes by `a`, leaves the material ratios Smr1, Smr2 unchanged, and transforms Smc and Smr(c)
accordingly. (`ComparesOnly`: numpy's sort only compares.) -/
theorem C74_affine {sort : PtSort K} (hl : IsLstsq lstsq) (hso : ComparesOnly sort) (hn : 4 ≤ n) {a t : K} (ha : 0 < a)
    (h : build lstsq n data = .ok c) :
    ∃ c', build lstsq n (data.map fun x => x.map fun z => a * z + t) = .ok c' ∧
      c'.k = a * c.k ∧ (∀ p, c'.mc p = a * c.mc p + t) ∧ (∀ z, c'.mrAt sort (a * z + t) = c.mrAt sort z) ∧
      c'.mr1 sort = c.mr1 sort ∧ c'.mr2 sort = c.mr2 sort ∧
      c'.pk sort = (c.pk sort).map (a * ·) ∧ c'.vk sort = (c.vk sort).map (a * ·) ∧
      c'.pkx = a * c.pkx ∧ c'.vkx = a * c.vkx ∧ (∀ p q, c'.dc p q = a * c.dc p q) ∧
      (∀ p, c'.Vm p = a * c.Vm p) ∧ ∀ p, c'.Vv p = a * c.Vv p := by
  obtain ⟨g1, g2, _⟩ := build_fields h
  have hn2 : 2 ≤ n := by omega
  have hd := measured_ne g1 g2
  obtain ⟨c0, hi, hb, e1, e2, e3, h60, hline, hmax⟩ := build_ok hl hn2 g1 g2
  rw [h] at hb
  obtain rfl := Except.ok.inj hb
  have g1' : none ∉ (data.map fun x => x.map fun z => a * z + t) := by
    intro hc
    obtain ⟨x, hx, e⟩ := List.mem_map.1 hc
    cases x with
    | none => exact g1 hx
    | some v => simp at e
  have g2' : (data.map fun x => x.map fun z => a * z + t) ≠ [] := by simpa using g2
  have hme : measured (data.map fun x => x.map fun z => a * z + t) = (measured data).map fun z => a * z + t := by
    conv_lhs => rw [eq_map_some_of_no_none data g1]
    rw [List.map_map]
    have : ((fun x : Option K => x.map fun z => a * z + t) ∘ some) = fun z => some (a * z + t) := rfl
    rw [this]
    unfold measured
    rw [List.filterMap_map]
    conv_rhs => rw [← List.filterMap_eq_map]
    rfl
  obtain ⟨c', hi', hb', e1', e2', e3', h60', hline', hmax'⟩ := build_ok hl hn2 g1' g2'
  rw [hme] at e1' e3' hline' hmax'
  rw [heights_affine ha t hn2 hd] at e3' hline'
  -- same start index: the search is the same
  have hist : c'.istart = c.istart := by
    have s0 := search_affine ha t (smcFit (ratios n) (heights n (measured data))) (smcFit (ratios n) ((heights n (measured data)).map fun z => a * z + t))
      (fun x => smcFit_affine a t hn2 (measured data) x) (List.zip (ratios n : List K) (heights n (measured data))) 0 (none, 0)
    unfold build at h hb'
    rw [if_neg g1, if_neg g2] at h
    rw [if_neg g1', if_neg g2', hme] at hb'
    simp only at h hb'
    rw [heights_affine ha t hn2 hd, zip_map_right] at hb'
    simp only [Option.map_none] at s0
    rw [s0] at hb'
    cases hsr : search (smcFit (ratios n) (heights n (measured data))) (List.zip (ratios n : List K) (heights n (measured data))) 0 (none, 0) with
    | error e => rw [hsr] at h; cases h
    | ok i =>
      rw [hsr] at h hb'
      simp only [Except.ok.injEq] at h hb'
      rw [← h, ← hb']
  rw [hist, region_affine] at hline'
  have hu := line_unique hline' (isLine_affine t hline ha.ne') (by
    rw [List.pairwise_map]; exact region_strict hn2 _ _) (by
    rw [List.length_map]; exact region_two hn _ hi h60)
  have hyu : c'.yupper = a * c.yupper + t := hu.2
  have hyl : c'.ylower = a * c.ylower + t := by unfold Curve.ylower; rw [hu.1, hu.2]; ring
  have hh : c'.height = c.height.map fun z => a * z + t := by rw [e3', e3]
  have hm : c'.mr = c.mr := by rw [e2', e2]
  have hmc : ∀ p, c'.mc p = a * c.mc p + t := by
    intro p
    unfold Curve.mc
    rw [hh, hm, e2, e3]
    exact smcFit_affine a t hn2 _ p
  have hmono : StrictMono fun z : K => a * z + t := by
    intro x y hxy
    have := mul_lt_mul_of_pos_left hxy ha
    simp only
    linarith
  have hmr : ∀ z, c'.mrAt sort (a * z + t) = c.mrAt sort z := by
    intro z
    unfold Curve.mrAt
    rw [hh, hm]
    have e : List.zip (c.height.map fun z => a * z + t) c.mr = (List.zip c.height c.mr).map fun p => (a * p.1 + t, p.2) := by
      rw [List.zip_map_left]; rfl
    rw [e, hso (fun z => a * z + t) hmono, npInterp_affine_x ha]
  have hmr1 : c'.mr1 sort = c.mr1 sort := by unfold Curve.mr1; rw [hyu, hmr]
  have hmr2 : c'.mr2 sort = c.mr2 sort := by unfold Curve.mr2; rw [hyl, hmr]
  have hidx : ∀ x, argclosest (a * x + t) c'.height = argclosest x c.height := by
    intro x
    rw [hh]
    exact argclosest_affine ha t x c.height
  have hab : ∀ i, c'.areaAbove i = a * c.areaAbove i := by
    intro i
    unfold Curve.areaAbove
    rw [hh, hm, zip_map_right, ← List.map_take, trapezoid_affine, abs_mul, abs_of_pos ha]
  have hbe : ∀ i, c'.areaBelow i = a * c.areaBelow i := by
    intro i
    unfold Curve.areaBelow
    rw [hh, hm, zip_map_right, ← List.map_drop, trapezoid_affine, abs_mul, abs_of_pos ha]
  have hdiv : ∀ x y : K, divN (2 * (a * x)) y = (divN (2 * x) y).map (a * ·) := by
    intro x y
    unfold divN
    split
    · rfl
    · simp only [Option.map_some, Option.some.injEq]; ring
  have hmaxd : (c'.data.max?).getD 0 = a * (c.data.max?).getD 0 + t := by
    rw [e1', e1]
    obtain ⟨M, hM⟩ := exists_max? hd
    obtain ⟨a1, a2⟩ := max?_spec.1 hM
    obtain ⟨M', hM'⟩ := exists_max? (l := (measured data).map fun z => a * z + t) (by simpa using hd)
    obtain ⟨b1, b2⟩ := max?_spec.1 hM'
    rw [hM, hM']
    simp only [Option.getD_some]
    obtain ⟨w, hw, rfl⟩ := List.mem_map.1 b1
    refine le_antisymm ?_ (b2 _ (List.mem_map.2 ⟨M, a1, rfl⟩))
    have := mul_le_mul_of_nonneg_left (a2 w hw) ha.le
    linarith
  have hmind : (c'.data.min?).getD 0 = a * (c.data.min?).getD 0 + t := by
    rw [e1', e1]
    obtain ⟨M, hM⟩ := exists_min? hd
    obtain ⟨a1, a2⟩ := min?_spec.1 hM
    obtain ⟨M', hM'⟩ := exists_min? (l := (measured data).map fun z => a * z + t) (by simpa using hd)
    obtain ⟨b1, b2⟩ := min?_spec.1 hM'
    rw [hM, hM']
    simp only [Option.getD_some]
    obtain ⟨w, hw, rfl⟩ := List.mem_map.1 b1
    refine le_antisymm (b2 _ (List.mem_map.2 ⟨M, a1, rfl⟩)) ?_
    have := mul_le_mul_of_nonneg_left (a2 w hw) ha.le
    linarith
  refine ⟨c', hb', ?_, hmc, hmr, hmr1, hmr2, ?_, ?_, ?_, ?_, ?_, ?_, ?_⟩
  · unfold Curve.k; rw [hyu, hyl]; ring
  · unfold Curve.pk; rw [hyu, hidx, hab, hmr1, hdiv]
  · unfold Curve.vk; rw [hyl, hidx, hbe, hmr2, hdiv]
  · unfold Curve.pkx; rw [hmaxd, hyu]; ring
  · unfold Curve.vkx; rw [hmind, hyl]; ring
  · intro p q; unfold Curve.dc; rw [hmc, hmc]; ring
  · intro p; unfold Curve.Vm; rw [hmc, hidx, hab]; ring
  · intro p; unfold Curve.Vv; rw [hmc, hidx, hbe]; ring

/-- The assumption on the sort in C74 is satisfiable. -/
theorem C74_sort_exists : IsSort (stableSort : PtSort K) ∧ ComparesOnly (stableSort : PtSort K) :=
  ⟨stableSort_isSort, stableSort_comparesOnly⟩

end Surfalize.Props
