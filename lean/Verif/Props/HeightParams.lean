import Verif.Lemmas.HeightParams
import Verif.Props.BaseOps
import Mathlib.Tactic.NormNum

/-!
# C14–C19 — height parameters of surfaces and profiles
-/
set_option linter.unusedSectionVars false
namespace Surfalize.Props
open Surfalize Container BaseOps HeightParams Spec

/-- Success condition used by all theorems below: `height_parameters` succeeds exactly on non-empty surfaces
without non-measured points, otherwise it raises ValueError. -/
theorem C14_success (g : Grid (Option ℝ)) :
    (∃ p, heightParameters g = .ok p) ↔ (none ∉ flat g ∧ flat g ≠ []) := by
  constructor
  · rintro ⟨p, hp⟩
    have := (heightParameters_ok_iff g p).1 hp
    exact ⟨this.1, this.2.1⟩
  · intro h; exact ⟨_, (heightParameters_ok_iff g _).2 ⟨h.1, h.2, rfl⟩⟩

/-- **C14**, the other case: a surface with a point that was not measured, or without points, has none of these parameters: ValueError. -/
theorem C14_failure (g : Grid (Option ℝ)) (e : Err) :
    heightParameters g = .error e ↔ e = .valueError ∧ (none ∈ flat g ∨ flat g = []) := by
  unfold heightParameters noNonmeasured
  by_cases h : hasMissing g = true
  · rw [if_pos h]
    exact ⟨fun k => (by cases k; exact ⟨rfl, Or.inl ((mem_none_iff_hasMissing g).1 h)⟩), fun k => by rw [k.1]⟩
  · rw [if_neg h]
    by_cases h2 : flat g = []
    · simp only [if_pos h2]
      exact ⟨fun k => (by cases k; exact ⟨rfl, Or.inr h2⟩), fun k => by rw [k.1]⟩
    · simp only [if_neg h2]
      refine ⟨fun k => (by cases k), fun k => ?_⟩
      rcases k.2 with k | k
      · exact absurd ((mem_none_iff_hasMissing g).2 k) h
      · exact absurd k h2

/-- **C14**, definitions: the returned values are the ISO 25178 ones — `Sa` the mean absolute deviation,
`Sq` the root of the second central moment, `Sp`/`Sv` the distances of the extreme heights from the mean,
`Ssk`/`Sku` the third and fourth moments in units of `Sq` (NaN iff `Sq = 0`). -/
theorem C14_definitions (g : Grid (Option ℝ)) (p : Params) (h : heightParameters g = .ok p) :
    let l := measured (flat g)
    p.sa = (l.map fun z => |z - mu l|).sum / l.length ∧
    p.sq = Real.sqrt (moment 2 l) ∧
    (∃ mx, IsMax l mx ∧ p.sp = mx - mu l) ∧ (∃ mn, IsMin l mn ∧ p.sv = mu l - mn) ∧
    p.ssk = (if p.sq = 0 then none else some (moment 3 l / p.sq ^ 3)) ∧
    p.sku = (if p.sq = 0 then none else some (moment 4 l / p.sq ^ 4)) := by
  intro l
  obtain ⟨h1, h2, rfl⟩ := (heightParameters_ok_iff g p).1 h
  have hne : l ≠ [] := measured_ne_nil h1 h2
  refine ⟨paramsOf_sa l, paramsOf_sq l, ⟨_, maxL_spec hne, paramsOf_sp hne⟩, ⟨_, minL_spec hne, paramsOf_sv hne⟩, ?_, ?_⟩
  · rw [paramsOf_ssk l, paramsOf_sq l]; simp [divNaN]
  · rw [paramsOf_sku l, paramsOf_sq l]; simp [divNaN]

/-- **C14.** Ordering of the height parameters: `0 ≤ Sa ≤ Sq`, `Sq² ≤ Sp·Sv`, `Sq ≤ Sz/2`,
`Sz = Sp + Sv = max - min`, `Sp, Sv ≥ 0`, and `Sz = 0` exactly for flat surfaces. -/
theorem C14_ordering (g : Grid (Option ℝ)) (p : Params) (h : heightParameters g = .ok p) :
    0 ≤ p.sa ∧ p.sa ≤ p.sq ∧ p.sq ^ 2 ≤ p.sp * p.sv ∧ p.sq ≤ p.sz / 2 ∧ 0 ≤ p.sp ∧ 0 ≤ p.sv ∧
    p.sz = p.sp + p.sv ∧
    (∀ mx mn, IsMax (measured (flat g)) mx → IsMin (measured (flat g)) mn → p.sz = mx - mn) ∧
    (p.sz = 0 ↔ ∀ a ∈ measured (flat g), ∀ b ∈ measured (flat g), a = b) := by
  obtain ⟨h1, h2, rfl⟩ := (heightParameters_ok_iff g p).1 h
  have hne : measured (flat g) ≠ [] := measured_ne_nil h1 h2
  set l := measured (flat g) with hl
  have hn := length_pos_cast (K := ℝ) hne
  have hmx := maxL_spec hne
  have hmn := minL_spec hne
  have hsp0 : 0 ≤ (paramsOf l).sp := by
    rw [paramsOf_sp hne]; have := mean_le hne hmx.2; rw [mu_eq] at this; linarith
  have hsv0 : 0 ≤ (paramsOf l).sv := by
    rw [paramsOf_sv hne]; have := le_mean hne hmn.2; rw [mu_eq] at this; linarith
  have hsum0 := sum_centered hne
  have hm2 := moment_two_nonneg l
  have hsq2 : (paramsOf l).sq ^ 2 = moment 2 l := by rw [paramsOf_sq, Real.sq_sqrt hm2]
  have hsq0 : 0 ≤ (paramsOf l).sq := by rw [paramsOf_sq]; exact Real.sqrt_nonneg _
  have hband : (paramsOf l).sq ^ 2 ≤ (paramsOf l).sp * (paramsOf l).sv := by
    rw [hsq2, paramsOf_sp hne, paramsOf_sv hne]
    have hb := sum_band l (fun z => z - mu l) (maxL l - mu l) (mu l - minL l)
    rw [hsum0] at hb
    have hpos : 0 ≤ (l.map fun z => (maxL l - mu l - (z - mu l)) * (z - mu l + (mu l - minL l))).sum := by
      apply sum_nonneg_map
      intro z hz
      have a := hmx.2 z hz
      have b := hmn.2 z hz
      apply mul_nonneg <;> linarith
    unfold moment
    rw [div_le_iff₀ hn]
    linarith
  have hsz : (paramsOf l).sz = maxL l - minL l := by
    rw [paramsOf_sz, paramsOf_sp hne, paramsOf_sv hne]; ring
  refine ⟨?_, ?_, hband, ?_, hsp0, hsv0, rfl, ?_, ?_⟩
  · rw [paramsOf_sa]
    exact div_nonneg (sum_nonneg_map _ _ fun z _ => abs_nonneg _) hn.le
  · rw [paramsOf_sq]
    apply Real.le_sqrt_of_sq_le
    rw [paramsOf_sa]
    set S := (l.map fun z => |z - mu l|).sum with hS
    have hx := sum_sq_sub l (fun z => |z - mu l|) (S / l.length)
    have hpos : 0 ≤ (l.map fun z => (|z - mu l| - S / l.length) ^ 2).sum :=
      sum_nonneg_map _ _ fun z _ => by positivity
    simp only [sq_abs] at hx
    rw [← hS] at hx
    unfold moment
    rw [le_div_iff₀ hn]
    have e : 2 * (S / l.length) * S = 2 * ((S / l.length) ^ 2 * l.length) := by field_simp
    rw [hx, e] at hpos
    linarith
  · have : (paramsOf l).sz = (paramsOf l).sp + (paramsOf l).sv := rfl
    rw [this]
    apply abs_le_of_sq_le_sq' _ (by linarith) |>.2
    nlinarith [sq_nonneg ((paramsOf l).sp - (paramsOf l).sv)]
  · intro mx mn a b
    rw [hsz, maxL_eq a.1 a.2, minL_eq b.1 b.2]
  · rw [hsz]
    constructor
    · intro h0 a ha b hb
      have := hmx.2 a ha
      have := hmn.2 a ha
      have := hmx.2 b hb
      have := hmn.2 b hb
      linarith
    · intro hall
      rw [hall _ hmx.1 _ hmn.1, sub_self]

/-- C14 applies to a concrete surface with distinct heights. -/
example : ∃ p, heightParameters ⟨[[some 1, some 2], [some 4, some 7]], 2⟩ = .ok p ∧ p.sz = 6 := by
  obtain ⟨p, hp⟩ := (C14_success ⟨[[some 1, some 2], [some 4, some 7]], 2⟩).2 (by simp [flat])
  refine ⟨p, hp, ?_⟩
  have := (C14_ordering _ p hp).2.2.2.2.2.2.2.1 7 1 (by
    constructor
    · simp [flat, measured]
    · intro z hz; simp [flat, measured] at hz; rcases hz with rfl | rfl | rfl | rfl <;> norm_num) (by
    constructor
    · simp [flat, measured]
    · intro z hz; simp [flat, measured] at hz; rcases hz with rfl | rfl | rfl | rfl <;> norm_num)
  rw [this]; norm_num

/-- **C15**, offset: adding a constant to every height changes no height parameter. -/
theorem C15_offset (g : Grid (Option ℝ)) (c : ℝ) :
    heightParameters (Container.map (Option.map fun z => z + c) g) = heightParameters g := by
  unfold heightParameters noNonmeasured
  have hm : hasMissing (Container.map (Option.map fun z => z + c) g) = hasMissing g := by
    simp only [hasMissing, flat_map, List.any_map]
    congr 1; funext z; cases z <;> rfl
  rw [hm]
  by_cases h : hasMissing g = true
  · simp [h]
  · simp only [h, Bool.false_eq_true, if_false, flat_map]
    by_cases h0 : flat g = []
    · simp [h0]
    · have h1 : none ∉ flat g := by rw [← mem_none_iff_hasMissing]; exact h
      rw [if_neg (by simpa using h0), if_neg h0, measured_map_map, paramsOf_shift (measured_ne_nil h1 h0)]

/-- **C15**, scale: multiplying every height by `c > 0` multiplies `Sa, Sq, Sv, Sp, Sz` by `c` and keeps
`Ssk` and `Sku`. -/
theorem C15_scale (g : Grid (Option ℝ)) (c : ℝ) (hc : 0 < c) (p : Params) (h : heightParameters g = .ok p) :
    heightParameters (Container.map (Option.map fun z => c * z) g) =
      .ok { sa := c * p.sa, sq := c * p.sq, sv := c * p.sv, sp := c * p.sp, sz := c * p.sz, ssk := p.ssk, sku := p.sku } := by
  obtain ⟨h1, h2, rfl⟩ := (heightParameters_ok_iff g p).1 h
  rw [heightParameters_ok_iff, flat_map, measured_map_map, paramsOf_scale (measured_ne_nil h1 h2) hc]
  refine ⟨?_, by simpa using h2, rfl⟩
  intro hc
  obtain ⟨z, hz, he⟩ := List.mem_map.1 hc
  cases z with
  | none => exact h1 hz
  | some z => simp at he

/-- **C15**, inversion: `invert()` swaps `Sp` and `Sv`, keeps `Sa, Sq, Sz, Sku` and negates `Ssk`. -/
theorem C15_invert (g g' : Grid (Option ℝ)) (p : Params) (h : heightParameters g = .ok p)
    (hi : invert g = .ok g') :
    heightParameters g' = .ok { sa := p.sa, sq := p.sq, sv := p.sp, sp := p.sv, sz := p.sz,
                                ssk := p.ssk.map (fun x => -x), sku := p.sku } := by
  obtain ⟨h1, h2, rfl⟩ := (heightParameters_ok_iff g p).1 h
  obtain ⟨mn, mx, c', _, _, _, hc', hflat, _⟩ := C09_invert_measured_partial g h2 h1
  rw [hc'] at hi
  simp only [Except.ok.injEq] at hi
  subst hi
  have hne := measured_ne_nil h1 h2
  rw [heightParameters_ok_iff, hflat, measured_map_map]
  have e : (measured (flat g)).map (fun z => mn + mx - z)
      = ((measured (flat g)).map fun z => (-1 : ℝ) * z).map fun z => z + (mn + mx) := by
    rw [List.map_map]; apply List.map_congr_left; intro z _; simp only [Function.comp_def]; ring
  rw [e, paramsOf_shift (by simpa using hne), paramsOf_neg hne]
  refine ⟨?_, by simpa using h2, rfl⟩
  intro hc
  obtain ⟨z, hz, he⟩ := List.mem_map.1 hc
  cases z with
  | none => exact h1 hz
  | some z => simp at he

/-- **C16.** For every non-flat surface `Sku ≥ Ssk² + 1` (both are defined); in particular `Sku ≥ 1`. -/
theorem C16_kurtosis (g : Grid (Option ℝ)) (p : Params) (h : heightParameters g = .ok p)
    (hflat : ∃ a ∈ measured (flat g), ∃ b ∈ measured (flat g), a ≠ b) :
    ∃ ssk sku, p.ssk = some ssk ∧ p.sku = some sku ∧ ssk ^ 2 + 1 ≤ sku ∧ 1 ≤ sku := by
  obtain ⟨h1, h2, rfl⟩ := (heightParameters_ok_iff g p).1 h
  have hne : measured (flat g) ≠ [] := measured_ne_nil h1 h2
  set l := measured (flat g) with hl
  have hn := length_pos_cast (K := ℝ) hne
  have hm2 := moment_two_nonneg l
  have hpos : 0 < moment 2 l := by
    rcases lt_or_eq_of_le hm2 with hlt | heq
    · exact hlt
    · exfalso
      have hz : (l.map fun z => (z - mu l) ^ 2).sum = 0 := by
        unfold moment at heq
        rcases (div_eq_zero_iff.1 heq.symm) with h | h
        · exact h
        · exact absurd h hn.ne'
      have hz' := (sum_map_eq_zero_iff l (fun z => (z - mu l) ^ 2) (fun z _ => by positivity)).1 hz
      obtain ⟨a, ha, b, hb, hab⟩ := hflat
      have ha0 := hz' a ha
      have hb0 := hz' b hb
      have := pow_eq_zero_iff (two_ne_zero) |>.1 ha0
      have := pow_eq_zero_iff (two_ne_zero) |>.1 hb0
      apply hab; linarith
  set q := Real.sqrt (moment 2 l) with hq
  have hq0 : 0 < q := Real.sqrt_pos.2 hpos
  have hq2 : q ^ 2 = moment 2 l := Real.sq_sqrt hm2
  refine ⟨moment 3 l / q ^ 3, moment 4 l / q ^ 4, ?_, ?_, ?_⟩
  · rw [paramsOf_ssk, divNaN, if_neg (by positivity)]
  · rw [paramsOf_sku, divNaN, if_neg (by positivity)]
  have key : (moment 3 l / q ^ 3) ^ 2 + 1 ≤ moment 4 l / q ^ 4 := by
    have hx := sum_kurt l (fun z => z - mu l) (moment 3 l / moment 2 l) (moment 2 l)
    have hp : 0 ≤ (l.map fun z => ((z - mu l) ^ 2 - moment 3 l / moment 2 l * (z - mu l) - moment 2 l) ^ 2).sum :=
      sum_nonneg_map _ _ fun z _ => by positivity
    rw [sum_centered hne] at hx
    have e2 : (l.map fun z => (z - mu l) ^ 2).sum = moment 2 l * l.length := by unfold moment; field_simp
    have e3 : (l.map fun z => (z - mu l) ^ 3).sum = moment 3 l * l.length := by unfold moment; field_simp
    have e4 : (l.map fun z => (z - mu l) ^ 4).sum = moment 4 l * l.length := by unfold moment; field_simp
    rw [e2, e3, e4] at hx
    rw [hx] at hp
    have hfac : moment 4 l * l.length - 2 * (moment 3 l / moment 2 l) * (moment 3 l * l.length)
        + ((moment 3 l / moment 2 l) ^ 2 - 2 * moment 2 l) * (moment 2 l * l.length)
        + 2 * (moment 3 l / moment 2 l) * moment 2 l * 0 + l.length * moment 2 l ^ 2
        = l.length * (moment 4 l - moment 3 l ^ 2 / moment 2 l - moment 2 l ^ 2) := by
      field_simp; ring
    rw [hfac] at hp
    have hp' : 0 ≤ moment 4 l - moment 3 l ^ 2 / moment 2 l - moment 2 l ^ 2 := by
      rcases (mul_nonneg_iff_of_pos_left hn).1 hp with h; exact h
    have hq4 : q ^ 4 = moment 2 l ^ 2 := by rw [← hq2]; ring
    have hq6 : (q ^ 3) ^ 2 = moment 2 l ^ 3 := by rw [← hq2]; ring
    rw [le_div_iff₀ (by positivity), div_pow, hq6, hq4]
    have : (moment 3 l ^ 2 / moment 2 l ^ 3 + 1) * moment 2 l ^ 2 = moment 3 l ^ 2 / moment 2 l + moment 2 l ^ 2 := by
      field_simp
    rw [this]; linarith
  exact ⟨key, by nlinarith [sq_nonneg (moment 3 l / q ^ 3)]⟩

/-- Hypotheses of C16 are met by a two-level surface. -/
example : ∃ p, heightParameters ⟨[[some 0, some 0], [some 0, some 1]], 2⟩ = .ok p ∧
    ∃ a ∈ measured (flat (⟨[[some 0, some 0], [some 0, some 1]], 2⟩ : Grid (Option ℝ))),
    ∃ b ∈ measured (flat (⟨[[some 0, some 0], [some 0, some 1]], 2⟩ : Grid (Option ℝ))), a ≠ b := by
  obtain ⟨p, hp⟩ := (C14_success ⟨[[some 0, some 0], [some 0, some 1]], 2⟩).2 (by simp [flat])
  exact ⟨p, hp, 0, by simp [flat, measured], 1, by simp [flat, measured], by norm_num⟩

/-- **C17.** The height parameters depend only on the multiset of points: any surface with the same points in
another arrangement (of any shape) has the same height parameters, or fails in the same way. -/
theorem C17_arrangement (g g' : Grid (Option ℝ)) (h : (flat g).Perm (flat g')) :
    heightParameters g = heightParameters g' := by
  unfold heightParameters noNonmeasured
  have hm : hasMissing g = hasMissing g' := by
    rw [Bool.eq_iff_iff, mem_none_iff_hasMissing, mem_none_iff_hasMissing]
    exact h.mem_iff
  rw [hm]
  by_cases hh : hasMissing g' = true
  · simp [hh]
  · simp only [hh, Bool.false_eq_true, if_false]
    have h0 : flat g = [] ↔ flat g' = [] := ⟨fun e => by rw [e] at h; exact h.symm.eq_nil, fun e => by rw [e] at h; exact h.eq_nil⟩
    by_cases h1 : flat g' = []
    · rw [if_pos h1, if_pos (h0.2 h1)]
    · rw [if_neg h1, if_neg (fun e => h1 (h0.1 e))]
      have : (measured (flat g)).Perm (measured (flat g')) := h.filterMap id
      rw [paramsOf_perm this]

/-- Flipping the rows is such a rearrangement, so it changes no height parameter. -/
theorem C17_flip (g : Grid (Option ℝ)) :
    heightParameters { g with rows := g.rows.reverse } = heightParameters g :=
  C17_arrangement _ _ (by
    show (g.rows.reverse).flatten.Perm g.rows.flatten
    exact (List.reverse_perm g.rows).flatten)

section Profile
variable {K : Type} [Field K] [LinearOrder K] [IsStrictOrderedRing K]

/-- **C18.** For `1 ≤ n ≤ size` the sections are `n` non-empty contiguous pieces whose concatenation is the
profile centred on its mean line and whose lengths differ by at most one; every other `n` raises
ValueError. -/
theorem C18_sections (l : List K) (n : Int) :
    ((1 ≤ n ∧ n ≤ l.length) → ∃ ss, sectionedData l n = .ok ss ∧ (ss.length : Int) = n ∧
      ss.flatten = l.map (fun z => z - l.sum / (l.length : K)) ∧ (∀ s ∈ ss, s ≠ []) ∧
      ∀ s ∈ ss, ∀ t ∈ ss, s.length ≤ t.length + 1) ∧
    (¬ (1 ≤ n ∧ n ≤ l.length) → sectionedData l n = .error .valueError) := by
  constructor
  · rintro ⟨h1, h2⟩
    have hok : sectionedData l n = .ok (arraySplit (l.map fun z => z - mean l) n.toNat) := by
      unfold sectionedData; rw [if_neg (by omega), if_neg (by omega)]
    obtain ⟨a, b, c⟩ := arraySplit_spec (l.map fun z => z - mean l) n.toNat (by omega)
    refine ⟨_, hok, by rw [a]; omega, b, fun s hs => ((section_mem hok).2 s hs).1, ?_⟩
    intro s hs t ht
    have := c s hs
    have := c t ht
    omega
  · intro h
    unfold sectionedData
    by_cases h1 : n < 1
    · rw [if_pos h1]
    · rw [if_neg h1, if_pos (by omega)]

example : sectionedData [(1 : ℚ), 2, 3, 4, 5, 6, 7] 3 = .ok [[-3, -2, -1], [0, 1], [2, 3]] := by decide +kernel

/-- **C19**, bounds: for every number of sections for which the parameters are defined, `Rp` is at most the
overall peak height, `Rv` at most the larger of overall peak height and pit depth, `0 ≤ Rz ≤ Rt` and
`Rz ≤ Rp + Rv`; `Rt = max - min`. -/
theorem C19_bounds (p : List (Option K)) (n : Int) (rp rv rz rt : K)
    (hp : Rp p n = .ok rp) (hv : Rv p n = .ok rv) (hz : Rz p n = .ok rz) (ht : Rt p = .ok rt) :
    ∃ mx mn, mx ∈ measured p ∧ mn ∈ measured p ∧ (∀ z ∈ measured p, mn ≤ z ∧ z ≤ mx) ∧
      rt = mx - mn ∧ rp ≤ mx - mean (measured p) ∧
      0 ≤ rv ∧ rv ≤ max (mx - mean (measured p)) (mean (measured p) - mn) ∧
      0 ≤ rz ∧ rz ≤ rt ∧ rz ≤ rp + rv := by
  obtain ⟨h1, h2, ht⟩ := guarded_ok ht
  rw [Rp, guarded_of _ h1 h2] at hp
  rw [Rv, guarded_of _ h1 h2] at hv
  rw [Rz, guarded_of _ h1 h2] at hz
  have hne : measured p ≠ [] := measured_ne_nil h1 h2
  set l := measured p with hl
  have hmx := maxL_spec hne
  have hmn := minL_spec hne
  cases hs : sectionedData l n with
  | error e => rw [rpOf, hs] at hp; simp [Except.map] at hp
  | ok ss =>
    simp only [rpOf, rvOf, rzOf, hs, Except.map, Except.ok.injEq] at hp hv hz
    simp only [Except.ok.injEq] at ht
    obtain ⟨hss, hsec⟩ := section_mem hs
    have hmem : ∀ s ∈ ss, ∀ x ∈ s, minL l - mean l ≤ x ∧ x ≤ maxL l - mean l := by
      intro s hs x hx
      obtain ⟨z, hz, rfl⟩ := (hsec s hs).2 x hx
      have := hmx.2 z hz
      have := hmn.2 z hz
      constructor <;> linarith
    refine ⟨maxL l, minL l, hmx.1, hmn.1, fun z hz => ⟨hmn.2 z hz, hmx.2 z hz⟩, ht.symm, ?_, ?_, ?_, ?_, ?_, ?_⟩
    · rw [← hp]
      apply mean_le (by simpa using hss)
      intro z hz
      obtain ⟨s, hs, rfl⟩ := List.mem_map.1 hz
      exact (hmem s hs _ (maxL_spec (hsec s hs).1).1).2
    · rw [← hv]
      apply le_mean (by simpa using hss)
      intro z hz
      obtain ⟨s, hs, rfl⟩ := List.mem_map.1 hz
      exact abs_nonneg _
    · rw [← hv]
      apply mean_le (by simpa using hss)
      intro z hz
      obtain ⟨s, hs, rfl⟩ := List.mem_map.1 hz
      have := hmem s hs _ (minL_spec (hsec s hs).1).1
      rw [abs_le]
      constructor
      · have := le_max_right (maxL l - mean l) (mean l - minL l); linarith
      · have := le_max_left (maxL l - mean l) (mean l - minL l); linarith
    · rw [← hz]
      apply le_mean (by simpa using hss)
      intro z hz
      obtain ⟨s, hs, rfl⟩ := List.mem_map.1 hz
      have := (maxL_spec (hsec s hs).1).2 _ (minL_spec (hsec s hs).1).1
      linarith
    · rw [← hz, ← ht]
      apply mean_le (by simpa using hss)
      intro z hz
      obtain ⟨s, hs, rfl⟩ := List.mem_map.1 hz
      have a := hmem s hs _ (minL_spec (hsec s hs).1).1
      have b := hmem s hs _ (maxL_spec (hsec s hs).1).1
      unfold rtOf; linarith
    · rw [← hz, ← hp, ← hv, ← mean_add]
      apply mean_mono
      intro s hs
      have := neg_abs_le (minL s)
      linarith

/-- **C19**, exact relation: `Rz = Rp + Rv` as soon as no section lies entirely above the mean line; always
for one section. (For other profiles it fails: `C19_rz_not_rp_plus_rv`.) -/
theorem C19_rz_partial (p : List (Option K)) (n : Int) (rp rv rz : K) (ss : List (List K))
    (hp : Rp p n = .ok rp) (hv : Rv p n = .ok rv) (hz : Rz p n = .ok rz)
    (hs : sectionedData (measured p) n = .ok ss) (hbelow : ∀ s ∈ ss, ∃ x ∈ s, x ≤ 0) :
    rz = rp + rv := by
  obtain ⟨h1, h2, hz⟩ := guarded_ok hz
  rw [Rp, guarded_of _ h1 h2] at hp
  rw [Rv, guarded_of _ h1 h2] at hv
  simp only [rpOf, rvOf, rzOf, hs, Except.map, Except.ok.injEq] at hp hv hz
  rw [← hz, ← hp, ← hv, ← mean_add]
  congr 1
  apply List.map_congr_left
  intro s hs
  obtain ⟨x, hx, hx0⟩ := hbelow s hs
  have := (minL_spec (List.ne_nil_of_mem hx)).2 x hx
  rw [abs_of_nonpos (by linarith)]; ring

/-- **C19**, one section: `Rz(1) = Rt = Rp(1) + Rv(1)`. -/
theorem C19_one_section (p : List (Option K)) (h1 : none ∉ p) (h2 : p ≠ []) :
    ∃ rp rv rt, Rp p 1 = .ok rp ∧ Rv p 1 = .ok rv ∧ Rz p 1 = .ok rt ∧ Rt p = .ok rt ∧ rt = rp + rv := by
  have hne : measured p ≠ [] := measured_ne_nil h1 h2
  set l := measured p with hl
  have hlen : 1 ≤ l.length := List.length_pos_of_ne_nil hne
  have hs : sectionedData l 1 = .ok [l.map fun z => z - mean l] := by
    unfold sectionedData
    rw [if_neg (by omega), if_neg (by omega)]
    simp only [Int.toNat_one, arraySplit, arraySplitAux, Nat.div_one, Nat.mod_one, if_true, Except.ok.injEq]
    rw [List.take_of_length_le (le_refl _)]
  have hmx := maxL_spec hne
  have hmn := minL_spec hne
  have hpp : mean [maxL (l.map fun z => z - mean l)] = maxL l - mean l := by
    rw [maxL_map_sub hne]; simp [mean]
  have hvv : mean [|minL (l.map fun z => z - mean l)|] = mean l - minL l := by
    rw [minL_map_sub hne]
    have := le_mean hne hmn.2
    rw [abs_of_nonpos (by linarith)]; simp [mean]
  have hzz : mean [maxL (l.map fun z => z - mean l) - minL (l.map fun z => z - mean l)] = maxL l - minL l := by
    rw [minL_map_sub hne, maxL_map_sub hne]; simp [mean]
  refine ⟨maxL l - mean l, mean l - minL l, maxL l - minL l, ?_, ?_, ?_, ?_, by ring⟩
  · rw [Rp, guarded_of _ h1 h2, ← hl, rpOf, hs]; simp only [Except.map, List.map_cons, List.map_nil, hpp]
  · rw [Rv, guarded_of _ h1 h2, ← hl, rvOf, hs]; simp only [Except.map, List.map_cons, List.map_nil, hvv]
  · rw [Rz, guarded_of _ h1 h2, ← hl, rzOf, hs]; simp only [Except.map, List.map_cons, List.map_nil, hzz]
  · rw [Rt, guarded_of _ h1 h2, ← hl, rtOf]

/-- **C19 is violated**: `Rz = Rp + Rv` fails for a profile with a section above its mean line, because
`Rv` uses the absolute value of the section minimum: here `Rz = 1` but `Rp + Rv = 1/2 + 19/2 = 10`. -/
theorem C19_rz_not_rp_plus_rv :
    Rz [some (9 : ℚ), some 10, some (-9), some (-10)] 2 = .ok 1 ∧
    Rp [some (9 : ℚ), some 10, some (-9), some (-10)] 2 = .ok (1/2) ∧
    Rv [some (9 : ℚ), some 10, some (-9), some (-10)] 2 = .ok (19/2) := by decide +kernel

end Profile

/-- **C19**, `Ra ≤ Rq`, both non-negative and given by their ISO 4287 definitions. -/
theorem C19_ra_le_rq (p : List (Option ℝ)) (ra rq : ℝ) (ha : Ra p = .ok ra) (hq : Rq p = .ok rq) :
    0 ≤ ra ∧ ra ≤ rq ∧ ra = ((measured p).map fun z => |z - mu (measured p)|).sum / (measured p).length ∧
    rq ^ 2 = moment 2 (measured p) := by
  obtain ⟨h1, h2, ha⟩ := guarded_ok ha
  rw [Rq, guarded_of _ h1 h2] at hq
  simp only [Except.ok.injEq] at ha hq
  have hsa : ra = (paramsOf (measured p)).sa := by
    rw [← ha, paramsOf_sa, raOf, List.map_map]; rfl
  have hsq : rq = (paramsOf (measured p)).sq := by
    rw [← hq, paramsOf_sq, rqOf, List.map_map]; rfl
  have hflat : flat (⟨[p], p.length⟩ : Grid (Option ℝ)) = p := by simp [flat]
  have hg := (heightParameters_ok_iff ⟨[p], p.length⟩ (paramsOf (measured p))).2
    ⟨by rw [hflat]; exact h1, by rw [hflat]; exact h2, by rw [hflat]⟩
  have := C14_ordering _ _ hg
  refine ⟨by rw [hsa]; exact this.1, by rw [hsa, hsq]; exact this.2.1, by rw [hsa, paramsOf_sa], ?_⟩
  rw [hsq, paramsOf_sq, Real.sq_sqrt (moment_two_nonneg _)]

/-- **C19**, the scalar parameters of a profile agree with those of a one-row surface of the same heights. -/
theorem C19_profile_is_one_row_surface (p : List (Option ℝ)) (q : Params)
    (h : heightParameters ⟨[p], p.length⟩ = .ok q) :
    Ra p = .ok q.sa ∧ Rq p = .ok q.sq ∧ Rt p = .ok q.sz ∧ Rsk p = .ok q.ssk ∧ Rku p = .ok q.sku := by
  have hflat : flat (⟨[p], p.length⟩ : Grid (Option ℝ)) = p := by simp [flat]
  obtain ⟨h1, h2, rfl⟩ := (heightParameters_ok_iff _ q).1 h
  rw [hflat] at h1 h2 ⊢
  have hne := measured_ne_nil h1 h2
  have hrq : rqOf (measured p) = Real.sqrt (moment 2 (measured p)) := by
    rw [rqOf, List.map_map]; rfl
  refine ⟨?_, ?_, ?_, ?_, ?_⟩
  · rw [Ra, guarded_of _ h1 h2, paramsOf_sa, raOf, List.map_map]; rfl
  · rw [Rq, guarded_of _ h1 h2, paramsOf_sq, hrq]
  · rw [Rt, guarded_of _ h1 h2, paramsOf_sz, paramsOf_sp hne, paramsOf_sv hne, rtOf]
    congr 1; ring
  · rw [Rsk, guarded_of _ h1 h2, paramsOf_ssk, hrq, List.map_map]; rfl
  · rw [Rku, guarded_of _ h1 h2, paramsOf_sku, hrq, List.map_map]; rfl

end Surfalize.Props
