import Verif.Spec.TestSurface
import Verif.Props.Abbott

/-!
# C115: the Abbott-Firestone curve of evenly spaced heights
-/
set_option linter.unusedSectionVars false
namespace Surfalize.Props
open Surfalize Abbott Interp Spec TestSurface

variable {K : Type} [Field K] [LinearOrder K] [IsStrictOrderedRing K] [FloorRing K]

theorem ramp_quantile {N : Nat} (hN : 2 ≤ N) {lo d : K} (hd : 0 < d) {data : List K} (hp : data.Perm (ramp N lo d)) {q : K}
    (h0 : 0 ≤ q) (h1 : q ≤ 1) : quantile (sortAsc data) q = lo + d * ((N : K) - 1) * q := by
  have hs : sortAsc data = ramp N lo d := by
    refine List.Perm.eq_of_pairwise (le := ((· ≤ ·) : K → K → Prop)) ?_ (sortAsc_sorted data) ?_ ((sortAsc_perm data).trans hp)
    · intro a b _ _ h1 h2; exact le_antisymm h1 h2
    · rw [List.pairwise_iff_getElem]
      intro i j hi hj hij
      simp only [ramp, List.getElem_map, List.getElem_range]
      have : (i : K) ≤ j := by exact_mod_cast hij.le
      nlinarith
  have hl : (ramp N lo d).length = N := by simp [ramp]
  have hN1 := cast_ge_one (K := K) hN
  rw [hs]
  obtain ⟨i, hi, a1, a2⟩ := exists_cell (K := K) hN (x := q * ((N : K) - 1)) (by positivity) (by nlinarith)
  rw [quantile_eq (i := i) (by rw [hl]; exact hi) (by rw [hl]; exact a1) (by rw [hl]; exact a2)]
  simp only [ramp, List.getElem_map, List.getElem_range, List.length_map, List.length_range]
  push_cast
  ring

/-- **C115** (evenly spaced heights, any arrangement). The Abbott-Firestone curve is the straight line from the highest to
the lowest point, `Sk` is the whole height range, `Smr1 = 0 %`, `Smr2 = 100 %` and there are no extreme peaks and dales.
Missing: `Spk` and `Svk` should be 0 (`C115_ramp_violated`). -/
theorem C115_ramp_partial {lstsq : Detrend.Lstsq K} {sort : PtSort K} (hl : IsLstsq lstsq) (hso : IsSort sort) {n N : Nat}
    (hn : 4 ≤ n) (hN : 2 ≤ N) {lo d : K} (hd : 0 < d) {data : List (Option K)} (hm : none ∉ data)
    (hp : (measured data).Perm (ramp N lo d)) :
    ∃ c, build lstsq n data = .ok c ∧
      (∀ p, 0 ≤ p → p ≤ 100 → c.mc p = lo + d * (N - 1) * (1 - p / 100)) ∧
      c.k = d * (N - 1) ∧ c.mr1 sort = 0 ∧ c.mr2 sort = 100 ∧ c.pkx = 0 ∧ c.vkx = 0 ∧
      c.sxpDefault = d * (N - 1) * (95 / 200) ∧ ∀ p q, 0 ≤ p → p ≤ q → q ≤ 100 → c.dc p q = d * (N - 1) * (q - p) / 100 := by
  have hlen : (measured data).length = N := by rw [hp.length_eq]; simp [ramp]
  have hne : data ≠ [] := by rintro rfl; simp [measured] at hlen; omega
  have hn2 : 2 ≤ n := by omega
  have hn1 := cast_ge_one (K := K) hn2
  have hN1 := cast_ge_one (K := K) hN
  obtain ⟨c, hi, hb, e1, e2, e3, h60, hline, -⟩ := build_ok hl (n := n) hn2 hm hne
  have hh : ∀ i (h : i < n), (heights n (measured data))[i]'(by rw [heights_length]; omega)
      = lo + d * ((N : K) - 1) * (1 - (ratios n : List K)[i]'(by rw [ratios_length]; omega) / 100) := by
    intro i h
    have b := ratios_bounds hn2 (List.getElem_mem (l := (ratios n : List K)) (n := i) (by rw [ratios_length]; omega))
    rw [heights_get, ramp_quantile hN hd hp (by linarith) (by linarith)]
  have hmc : ∀ p, 0 ≤ p → p ≤ 100 → c.mc p = lo + d * (N - 1) * (1 - p / 100) := by
    intro p p0 p1
    obtain ⟨i, hi, t, t0, t1, rfl⟩ := ratio_cell hn2 p0 p1
    rw [Curve.mc, e2, e3, smc_cell hn2 _ hi t0 t1, hh i (by omega), hh (i + 1) hi]
    ring
  have hline' : IsLine (region (ratios n) (heights n (measured data)) c.istart) (-(d * ((N : K) - 1) / 100)) (lo + d * (N - 1)) := by
    have on : ∀ p ∈ region (ratios n) (heights n (measured data)) c.istart,
        p.2 - (-(d * ((N : K) - 1) / 100) * p.1 + (lo + d * (N - 1))) = 0 := by
      intro p hp
      have hp' : p ∈ List.zip (ratios n) (heights n (measured data)) := by
        unfold region at hp
        exact List.take_subset _ _ (List.drop_subset _ _ hp)
      obtain ⟨i, hi, rfl⟩ := List.mem_iff_getElem.1 hp'
      have : i < n := by simpa [ratios_length, heights_length] using hi
      rw [zip_get]
      simp only
      rw [hh i this]
      ring
    intro a b
    have : ((region (ratios n) (heights n (measured data)) c.istart).map fun p => (p.2 - (-(d * ((N : K) - 1) / 100) * p.1 + (lo + d * (N - 1)))) ^ 2)
        = (region (ratios n) (heights n (measured data)) c.istart).map fun _ => (0 : K) :=
      List.map_congr_left fun p hp => by rw [on p hp]; ring
    rw [this]
    simp only [List.map_const', List.sum_replicate, smul_zero]
    exact List.sum_nonneg fun x hx => by
      obtain ⟨p, -, rfl⟩ := List.mem_map.1 hx
      positivity
  obtain ⟨es, ei⟩ := line_unique hline hline' (region_strict hn2 _ _) (region_two hn _ hi h60)
  have hk : c.k = d * (N - 1) := by rw [Curve.k, Curve.yupper, Curve.ylower, es, ei]; ring
  have hmem : ∀ z, some z ∈ data ↔ ∃ i < N, z = lo + d * (i : K) := by
    intro z
    rw [← mem_measured, hp.mem_iff]
    simp only [ramp, List.mem_map, List.mem_range]
    constructor
    · rintro ⟨i, h, rfl⟩; exact ⟨i, h, rfl⟩
    · rintro ⟨i, h, rfl⟩; exact ⟨i, h, rfl⟩
  have hle : ∀ z, some z ∈ data → z ≤ lo + d * ((N : K) - 1) := by
    intro z hz
    obtain ⟨i, h, rfl⟩ := (hmem z).1 hz
    have : (i : K) + 1 ≤ N := by exact_mod_cast h
    nlinarith
  have hge : ∀ z, some z ∈ data → lo ≤ z := by
    intro z hz
    obtain ⟨i, h, rfl⟩ := (hmem z).1 hz
    have : (0 : K) ≤ i := Nat.cast_nonneg _
    nlinarith
  have hhi : some (lo + d * ((N : K) - 1)) ∈ data := (hmem _).2 ⟨N - 1, by omega, by rw [Nat.cast_sub (by omega)]; simp⟩
  have hlo : some lo ∈ data := (hmem _).2 ⟨0, by omega, by simp⟩
  have hnd : (measured data).Nodup := by
    rw [hp.nodup_iff]
    refine List.Nodup.map (fun a b hab => ?_) List.nodup_range
    have := mul_left_cancel₀ hd.ne' (add_left_cancel hab)
    exact_mod_cast this
  have hdl : 2 ≤ data.length := by
    have : (measured data).length ≤ data.length := by unfold measured; exact List.length_filterMap_le _ _
    omega
  have hst := C37_distinct hn2 hb hnd hdl
  obtain ⟨-, r0, r1, -, -⟩ := C37_smr_partial hso hn2 hb hst
  obtain ⟨x1, x2, -⟩ := C39_extreme hb hhi hle hlo hge
  refine ⟨c, hb, hmc, hk, ?_, ?_, ?_, ?_, ?_, ?_⟩
  · exact r0 _ fun z hz => by rw [Curve.yupper, ei]; exact hle z hz
  · refine r1 _ fun z hz => ?_
    have := hge z hz
    rw [Curve.ylower, es, ei]; linarith
  · rw [x1, ei]; ring
  · rw [x2, ei, es]; ring
  · rw [Curve.sxpDefault, Curve.sxp, hmc _ (by norm_num) (by norm_num), hmc _ (by norm_num) (by norm_num)]; ring
  · intro p q p0 pq q1
    rw [Curve.dc, hmc p p0 (by linarith), hmc q (by linarith) q1]; ring

/-- **C115 is false of the code for `Spk` and `Svk`**: a surface of evenly spaced heights has no peaks above and no dales
below its core, so both should be 0; the code divides 0 by 0 and returns NaN. -/
theorem C115_ramp_violated {lstsq : Detrend.Lstsq K} {sort : PtSort K} (hl : IsLstsq lstsq) (hso : IsSort sort) {n N : Nat}
    (hn : 4 ≤ n) (hN : 2 ≤ N) {lo d : K} (hd : 0 < d) {data : List (Option K)} (hm : none ∉ data)
    (hp : (measured data).Perm (ramp N lo d)) :
    ∃ c, build lstsq n data = .ok c ∧ c.pk sort = none ∧ c.vk sort = none ∧ c.ak1 sort = none ∧ c.ak2 sort = none := by
  obtain ⟨c, hb, -, -, h1, h2, -⟩ := C115_ramp_partial hl hso hn hN hd hm hp
  obtain ⟨-, -, p1, p2⟩ := C39_pk_vk hso (by omega) hb
  have a := p1.2 h1
  have b := p2.2 h2
  exact ⟨c, hb, a, b, by rw [Curve.ak1, a]; rfl, by rw [Curve.ak2, b]; rfl⟩

/-- The hypotheses are met: 3, 1, 2, 4 in ten classes. -/
example (lstsq : Detrend.Lstsq ℚ) (hl : IsLstsq lstsq) :
    ∃ c, build lstsq 10 ([3, 1, 2, 4].map some) = .ok c ∧ c.k = 3 ∧ c.mc 50 = 5 / 2 := by
  obtain ⟨c, h, h1, h2, -⟩ := C115_ramp_partial hl C74_sort_exists.1 (n := 10) (N := 4) (by norm_num) (by norm_num) (lo := 1) (d := 1)
    one_pos (data := [3, 1, 2, 4].map some) (by decide) (by decide +kernel)
  refine ⟨c, h, by rw [h2]; norm_num, by rw [h1 50 (by norm_num) (by norm_num)]; norm_num⟩

end Surfalize.Props
