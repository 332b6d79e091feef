import Verif.Lemmas.Stable
import Verif.Props.HeightParams
import Verif.Props.Abbott
import Verif.Props.SaveLoad
import Mathlib.Tactic.IntervalCases

/-!
# C113 — small changes of the heights change the parameters little

If two surfaces or profiles of the same size miss the same points and their heights differ by at most `e`, then their
parameters differ by at most the stated multiple of `e`.
-/
set_option linter.unusedSectionVars false
namespace Surfalize.Props
open Surfalize Container StableSpec Stable HeightParams

section Height
variable {e : ℝ} {g g' : Grid (Option ℝ)}

private theorem near_ok (h : NearSurface e g g') (hm : none ∉ flat g) (hne : flat g ≠ []) :
    none ∉ flat g' ∧ flat g' ≠ [] := by
  have hf := near_flat h
  refine ⟨none_mem hf hm, fun hc => hne ?_⟩
  rw [hc] at hf
  exact List.forall₂_nil_right_iff.1 hf

/-- **C113** (height parameters). -/
theorem C113_height (h : NearSurface e g g') {p : Params} (hp : heightParameters g = .ok p) :
    ∃ p', heightParameters g' = .ok p' ∧ |p'.sa - p.sa| ≤ 2 * e ∧ |p'.sq - p.sq| ≤ e ∧ |p'.sp - p.sp| ≤ 2 * e ∧
      |p'.sv - p.sv| ≤ 2 * e ∧ |p'.sz - p.sz| ≤ 2 * e := by
  obtain ⟨h1, h2, rfl⟩ := (heightParameters_ok_iff g p).1 hp
  obtain ⟨h1', h2'⟩ := near_ok h h1 h2
  refine ⟨_, (heightParameters_ok_iff g' _).2 ⟨h1', h2', rfl⟩, ?_⟩
  have ho := off_measured (near_flat h)
  have hne := measured_ne_nil h1 h2
  have hne' := measured_ne_nil h1' h2'
  generalize measured (flat g) = l at ho hne
  generalize measured (flat g') = l' at ho hne'
  have hmean := off_mean ho hne
  have hmax := off_max ho hne
  have hmin := off_min ho hne
  rw [add_zero, mu_eq, mu_eq] at hmean
  rw [add_zero] at hmax hmin
  refine ⟨?_, ?_, ?_, ?_, ?_⟩
  · rw [paramsOf_sa, paramsOf_sa, off_length ho, ← sub_div, abs_div, abs_of_pos (length_pos_cast hne (K := ℝ)),
      div_le_iff₀ (length_pos_cast hne)]
    have hs : Off 0 (2 * e) (l.map fun z => |z - Spec.mu l|) (l'.map fun z => |z - Spec.mu l'|) := by
      refine off_map ho fun x y hxy => ?_
      rw [add_zero] at hxy ⊢
      refine (abs_abs_sub_abs_le_abs_sub _ _).trans ?_
      rw [abs_le] at *
      constructor <;> linarith [hxy.1, hxy.2, hmean.1, hmean.2]
    have := off_sum hs
    rw [mul_zero, add_zero, List.length_map] at this
    linarith
  · have := off_rms ho hne
    have hq : ∀ t : List ℝ, (paramsOf t).sq = Real.sqrt (((t.map fun z => z - Surfalize.mean t).map fun z => z ^ 2).sum / (t.length : ℝ)) := by
      intro t
      show Real.sqrt ((((t.map fun z => z - Surfalize.mean t).map fun z => |z|).map fun z => z ^ 2).sum / (t.length : ℝ)) = _
      rw [List.map_map]
      congr 3
      refine List.map_congr_left fun z _ => ?_
      simp
    rw [hq, hq]
    exact this
  · rw [paramsOf_sp hne, paramsOf_sp hne']
    rw [abs_le] at *
    constructor <;> linarith [hmax.1, hmax.2, hmean.1, hmean.2]
  · rw [paramsOf_sv hne, paramsOf_sv hne']
    rw [abs_le] at *
    constructor <;> linarith [hmin.1, hmin.2, hmean.1, hmean.2]
  · rw [paramsOf_sz, paramsOf_sz, paramsOf_sp hne, paramsOf_sp hne', paramsOf_sv hne, paramsOf_sv hne']
    rw [abs_le] at *
    constructor <;> linarith [hmin.1, hmin.2, hmax.1, hmax.2]

end Height

section Functional
variable {K : Type} [Field K] [LinearOrder K] [IsStrictOrderedRing K] [FloorRing K]
open Abbott

/-- **C113** (material ratio curve). The curves have the same material ratios, and the heights at a material ratio,
including interpolated ones, differ by at most `e`; `Sdc` and `Sxp` between any two material ratios differ by at most
`2 e`. -/
theorem C113_curve {e : K} {g g' : Grid (Option K)} (h : NearSurface e g g') {lstsq : Detrend.Lstsq K} {n : Nat} (hn : 2 ≤ n)
    {c c' : Curve K} (hc : build lstsq n (flat g) = .ok c) (hc' : build lstsq n (flat g') = .ok c') :
    c'.mr = c.mr ∧ List.Forall₂ (fun z z' => |z' - z| ≤ e) c.height c'.height ∧ (∀ p, |c'.mc p - c.mc p| ≤ e) ∧
      (∀ p q, |c'.dc p q - c.dc p q| ≤ 2 * e) ∧ ∀ p q, |c'.sxp p q - c.sxp p q| ≤ 2 * e := by
  have hok : ∀ {t : List (Option K)} {c : Curve K}, build lstsq n t = .ok c →
      measured t ≠ [] ∧ c.mr = ratios n ∧ c.height = heights n (measured t) := by
    intro t c hc
    unfold build at hc
    split at hc
    · cases hc
    · split at hc
      · cases hc
      · rename_i h1 h2
        dsimp only at hc
        split at hc
        · cases hc
        · cases hc
          exact ⟨measured_ne_nil h1 h2, rfl, rfl⟩
  obtain ⟨h1, h2, h3⟩ := hok hc
  obtain ⟨-, h2', h3'⟩ := hok hc'
  have ho := off_heights n (off_measured (near_flat h)) h1
  have hl : (heights n (measured (flat g))).length = n ∧ (ratios n : List K).length = n := by
    have : (ratios n : List K).length = n := by
      unfold ratios Geometry.linspace
      rw [if_neg (by omega)]
      simp
    exact ⟨by unfold heights; rw [List.length_map, this], this⟩
  have hmc : ∀ p, |c'.mc p - c.mc p| ≤ e := by
    intro p
    unfold Curve.mc smcFit
    rw [h2, h2', h3, h3']
    refine off_interp ho (fun hc => ?_) _ p (by rw [hl.1, hl.2])
    rw [hc] at hl
    simp at hl
    omega
  have hd : ∀ p q, |c'.mc p - c'.mc q - (c.mc p - c.mc q)| ≤ 2 * e := by
    intro p q
    have a := abs_le.1 (hmc p)
    have b := abs_le.1 (hmc q)
    rw [abs_le]
    constructor <;> linarith [a.1, a.2, b.1, b.2]
  refine ⟨by rw [h2, h2'], ?_, hmc, hd, hd⟩
  rw [h3, h3']
  exact ho.imp fun x y hxy => by simpa using hxy

end Functional

section Hybrid
open Areas
variable {e : ℝ} {g g' : Grid (Option ℝ)} {sx sy : ℝ}

private theorem hyp_ok {β : Type} {f : Grid (Option ℝ) → Except Err β} {g : Grid (Option ℝ)} {b : β} (h : BaseOps.noNonmeasured f g = .ok b) :
    none ∉ flat g ∧ f g = .ok b := by
  unfold BaseOps.noNonmeasured at h
  split at h
  · cases h
  · rename_i hm
    exact ⟨fun hc => hm ((mem_none_iff_hasMissing (C := Grid) g).2 hc), h⟩

private theorem hyp_of {β : Type} (f : Grid (Option ℝ) → Except Err β) {g : Grid (Option ℝ)} (h : none ∉ flat g) :
    BaseOps.noNonmeasured f g = f g := by
  unfold BaseOps.noNonmeasured
  rw [if_neg (by rw [mem_none_iff_hasMissing (C := Grid)]; exact h)]

private theorem near_dzX (h : NearSurface e g g') (he : 0 ≤ e) {i j : Nat} (hi : i < g.ny) (hj : j + 1 < g.nx) :
    |dzX g' i j - dzX g i j| ≤ 2 * e := by
  have a := abs_le.1 (near_val h he hi (by omega : j < g.nx))
  have b := abs_le.1 (near_val h he hi hj)
  unfold dzX
  rw [abs_le]
  constructor <;> linarith [a.1, a.2, b.1, b.2]

private theorem near_dzY (h : NearSurface e g g') (he : 0 ≤ e) {i j : Nat} (hi : i + 1 < g.ny) (hj : j < g.nx) :
    |dzY g' i j - dzY g i j| ≤ 2 * e := by
  have a := abs_le.1 (near_val h he (by omega : i < g.ny) hj)
  have b := abs_le.1 (near_val h he hi hj)
  unfold dzY
  rw [abs_le]
  constructor <;> linarith [a.1, a.2, b.1, b.2]

private theorem sqrt3 (a b c a' b' : ℝ) :
    |Real.sqrt (a' ^ 2 + b' ^ 2 + c ^ 2) - Real.sqrt (a ^ 2 + b ^ 2 + c ^ 2)| ≤ Real.sqrt ((a' - a) ^ 2 + (b' - b) ^ 2) := by
  have := rms (Finset.univ : Finset (Fin 3)) ![a', b', c] ![a, b, c]
  simpa [Fin.sum_univ_three] using this

/-- **C113** (surface area and `Sdr`). -/
theorem C113_area (h : NearSurface e g g') (he : 0 ≤ e) {a : ℝ} (ha : surfaceArea g sx sy = .ok a) :
    ∃ a', surfaceArea g' sx sy = .ok a' ∧
      |a' - a| ≤ ((g.ny - 1 : Nat) : ℝ) * ((g.nx - 1 : Nat) : ℝ) * (2 * e * Real.sqrt (sx ^ 2 + sy ^ 2)) := by
  obtain ⟨h1, h2⟩ := hyp_ok ha
  cases h2
  have h1' := none_mem (near_flat h) h1
  refine ⟨_, hyp_of _ h1', ?_⟩
  unfold surfaceAreaOf
  rw [h.ny, h.nx, ← mul_sub, ← Finset.sum_sub_distrib]
  have hb : |∑ i ∈ Finset.range (g.ny - 1), ((∑ j ∈ Finset.range (g.nx - 1), 1 / 2 * Real.sqrt ((sy * dzY g' i j) ^ 2 + (sx * dzX g' i j) ^ 2 + (sx * sy) ^ 2))
      - ∑ j ∈ Finset.range (g.nx - 1), 1 / 2 * Real.sqrt ((sy * dzY g i j) ^ 2 + (sx * dzX g i j) ^ 2 + (sx * sy) ^ 2))|
      ≤ ((g.ny - 1 : Nat) : ℝ) * (((g.nx - 1 : Nat) : ℝ) * (e * Real.sqrt (sx ^ 2 + sy ^ 2))) := by
    refine (Finset.abs_sum_le_sum_abs _ _).trans ?_
    refine (Finset.sum_le_card_nsmul _ _ (((g.nx - 1 : Nat) : ℝ) * (e * Real.sqrt (sx ^ 2 + sy ^ 2))) fun i hi => ?_).trans_eq (by simp)
    rw [← Finset.sum_sub_distrib]
    refine (Finset.abs_sum_le_sum_abs _ _).trans ?_
    refine (Finset.sum_le_card_nsmul _ _ (e * Real.sqrt (sx ^ 2 + sy ^ 2)) fun j hj => ?_).trans_eq (by simp)
    rw [Finset.mem_range] at hi hj
    rw [← mul_sub, abs_mul, abs_of_pos (by norm_num : (0 : ℝ) < 1 / 2)]
    have hx := near_dzX h he (i := i) (j := j) (by omega) (by omega)
    have hy := near_dzY h he (i := i) (j := j) (by omega) (by omega)
    have q : Real.sqrt ((sy * dzY g' i j - sy * dzY g i j) ^ 2 + (sx * dzX g' i j - sx * dzX g i j) ^ 2) ≤ 2 * e * Real.sqrt (sx ^ 2 + sy ^ 2) := by
      rw [show 2 * e * Real.sqrt (sx ^ 2 + sy ^ 2) = Real.sqrt ((2 * e) ^ 2 * (sx ^ 2 + sy ^ 2)) by
        rw [Real.sqrt_mul (sq_nonneg _), Real.sqrt_sq (by linarith)]]
      refine Real.sqrt_le_sqrt ?_
      rw [← mul_sub, ← mul_sub, mul_pow, mul_pow]
      have k1 := mul_le_mul_of_nonneg_left (sq_le_sq' (by linarith [(abs_le.1 hx).1]) (abs_le.1 hx).2) (sq_nonneg sx)
      have k2 := mul_le_mul_of_nonneg_left (sq_le_sq' (by linarith [(abs_le.1 hy).1]) (abs_le.1 hy).2) (sq_nonneg sy)
      linarith
    have := (sqrt3 (sy * dzY g i j) (sx * dzX g i j) (sx * sy) (sy * dzY g' i j) (sx * dzX g' i j)).trans q
    linarith
  rw [abs_mul, abs_of_pos (by norm_num : (0 : ℝ) < 2)]
  linarith

/-- **C113** (`Sdq`): the root mean square slope changes by at most the slopes that `e` can make. -/
theorem C113_sdq (h : NearSurface e g g') (he : 0 ≤ e) {a : ℝ} (ha : sdq g sx sy = .ok (some a)) :
    ∃ a', sdq g' sx sy = .ok (some a') ∧ |a' - a| ≤ 2 * e * Real.sqrt (1 / sx ^ 2 + 1 / sy ^ 2) := by
  obtain ⟨h1, h2⟩ := hyp_ok ha
  dsimp only at h2
  rw [Except.ok.injEq] at h2
  split at h2
  · cases h2
  · rename_i hA
    cases h2
    have h1' := none_mem (near_flat h) h1
    refine ⟨_, (hyp_of _ h1').trans (by
      dsimp only
      rw [h.ny, h.nx, if_neg hA]), ?_⟩
    have hA0 : 0 < (g.ny : ℝ) * (g.nx : ℝ) := lt_of_le_of_ne (by positivity) (Ne.symm hA)
    have hsum : ∀ t : Grid (Option ℝ), ∑ i ∈ Finset.range g.ny, ∑ j ∈ Finset.range (g.nx - 1), (dzX t i j / sx) ^ 2
        + ∑ i ∈ Finset.range (g.ny - 1), ∑ j ∈ Finset.range g.nx, (dzY t i j / sy) ^ 2
        = ∑ k ∈ (Finset.range g.ny ×ˢ Finset.range (g.nx - 1)).disjSum (Finset.range (g.ny - 1) ×ˢ Finset.range g.nx),
          (Sum.elim (fun p : Nat × Nat => dzX t p.1 p.2 / sx) (fun p : Nat × Nat => dzY t p.1 p.2 / sy) k) ^ 2 := by
      intro t
      rw [Finset.sum_disjSum, Finset.sum_product, Finset.sum_product]
      rfl
    rw [hsum, hsum]
    refine sqrt_div_abs hA0 (by positivity) (rms _ _ _) ?_
    rw [Finset.sum_disjSum, mul_pow, Real.sq_sqrt (by positivity)]
    have hX : ∑ p ∈ Finset.range g.ny ×ˢ Finset.range (g.nx - 1), (dzX g' p.1 p.2 / sx - dzX g p.1 p.2 / sx) ^ 2
        ≤ (g.ny : ℝ) * (g.nx : ℝ) * ((2 * e) ^ 2 * (1 / sx ^ 2)) := by
      refine (Finset.sum_le_card_nsmul _ _ ((2 * e) ^ 2 * (1 / sx ^ 2)) fun p hp => ?_).trans ?_
      · obtain ⟨a, b⟩ := Finset.mem_product.1 hp
        rw [Finset.mem_range] at a b
        have hx := near_dzX h he (i := p.1) (j := p.2) a (by omega)
        rw [← sub_div, div_pow, mul_one_div]
        exact div_le_div_of_nonneg_right (sq_le_sq' (by linarith [(abs_le.1 hx).1]) (abs_le.1 hx).2) (sq_nonneg sx)
      · rw [Finset.card_product, Finset.card_range, Finset.card_range, nsmul_eq_mul]
        push_cast
        refine mul_le_mul_of_nonneg_right (mul_le_mul_of_nonneg_left ?_ (Nat.cast_nonneg _)) (by positivity)
        exact_mod_cast Nat.sub_le _ _
    have hY : ∑ p ∈ Finset.range (g.ny - 1) ×ˢ Finset.range g.nx, (dzY g' p.1 p.2 / sy - dzY g p.1 p.2 / sy) ^ 2
        ≤ (g.ny : ℝ) * (g.nx : ℝ) * ((2 * e) ^ 2 * (1 / sy ^ 2)) := by
      refine (Finset.sum_le_card_nsmul _ _ ((2 * e) ^ 2 * (1 / sy ^ 2)) fun p hp => ?_).trans ?_
      · obtain ⟨a, b⟩ := Finset.mem_product.1 hp
        rw [Finset.mem_range] at a b
        have hy := near_dzY h he (i := p.1) (j := p.2) (by omega) b
        rw [← sub_div, div_pow, mul_one_div]
        exact div_le_div_of_nonneg_right (sq_le_sq' (by linarith [(abs_le.1 hy).1]) (abs_le.1 hy).2) (sq_nonneg sy)
      · rw [Finset.card_product, Finset.card_range, Finset.card_range, nsmul_eq_mul]
        push_cast
        refine mul_le_mul_of_nonneg_right (mul_le_mul_of_nonneg_right ?_ (Nat.cast_nonneg _)) (by positivity)
        exact_mod_cast Nat.sub_le _ _
    simp only [Sum.elim_inl, Sum.elim_inr]
    linarith

/-- **C113** (`Sdr`). -/
theorem C113_sdr (h : NearSurface e g g') (he : 0 ≤ e) {a : ℝ} (ha : sdr g sx sy = .ok (some a)) :
    ∃ a', sdr g' sx sy = .ok (some a') ∧ |a' - a| ≤ 100 * (((g.ny - 1 : Nat) : ℝ) * ((g.nx - 1 : Nat) : ℝ)
      * (2 * e * Real.sqrt (sx ^ 2 + sy ^ 2)) / |(((g.nx : ℝ) - 2) * sx) * (((g.ny : ℝ) - 2) * sy)|) := by
  unfold sdr at ha ⊢
  cases hs : surfaceArea g sx sy with
  | error x => rw [hs] at ha; cases ha
  | ok b =>
    rw [hs] at ha
    obtain ⟨b', hb', hbd⟩ := C113_area h he hs
    rw [hb']
    have ha' := Except.ok.inj ha
    dsimp only at ha'
    have hP : projectedArea (((g.nx : ℝ) - 1) * sx) (((g.ny : ℝ) - 1) * sy) sx sy = (((g.nx : ℝ) - 2) * sx) * (((g.ny : ℝ) - 2) * sy) := by
      unfold projectedArea
      ring
    rw [hP] at ha'
    split at ha'
    · cases ha'
    · rename_i h0
      cases ha'
      refine ⟨(b' / ((((g.nx : ℝ) - 2) * sx) * (((g.ny : ℝ) - 2) * sy)) - 1) * 100, ?_, ?_⟩
      · show Except.ok _ = _
        rw [h.ny, h.nx]
        dsimp only
        rw [hP, if_neg h0]
      · generalize (((g.nx : ℝ) - 2) * sx) * (((g.ny : ℝ) - 2) * sy) = P at h0 ⊢
        rw [show (b' / P - 1) * 100 - (b / P - 1) * 100 = 100 * ((b' - b) / P) by ring, abs_mul, abs_div,
          abs_of_pos (by norm_num : (0 : ℝ) < 100)]
        exact mul_le_mul_of_nonneg_left (div_le_div_of_nonneg_right hbd (abs_nonneg _)) (by norm_num)

end Hybrid

section Profile
variable {K : Type} [Field K] [LinearOrder K] [IsStrictOrderedRing K] {e : K} {p p' : List (Option K)}

private theorem prof_ok (h : NearProfile e p p') (hm : none ∉ p) (hne : p ≠ []) : none ∉ p' ∧ p' ≠ [] := by
  refine ⟨none_mem h hm, fun hc => hne ?_⟩
  rw [hc] at h
  cases h
  rfl

/-- **C113** (profiles: `Ra`, `Rt`). -/
theorem C113_profile (h : NearProfile e p p') :
    (∀ a, Ra p = .ok a → ∃ a', Ra p' = .ok a' ∧ |a' - a| ≤ 2 * e) ∧
    (∀ a, Rt p = .ok a → ∃ a', Rt p' = .ok a' ∧ |a' - a| ≤ 2 * e) := by
  refine ⟨fun a ha => ?_, fun a ha => ?_⟩
  all_goals
    obtain ⟨h1, h2, h3⟩ := guarded_ok ha
    obtain ⟨h1', h2'⟩ := prof_ok h h1 h2
    cases h3
    refine ⟨_, guarded_of _ h1' h2', ?_⟩
    have ho := off_measured h
    have hne := measured_ne_nil h1 h2
    generalize measured p = l at ho hne
    generalize measured p' = l' at ho
  · have hmean := off_mean ho hne
    rw [add_zero] at hmean
    unfold raOf
    rw [off_length ho, ← sub_div, abs_div, abs_of_pos (length_pos_cast hne (K := K)), div_le_iff₀ (length_pos_cast hne)]
    have hs : Off 0 (2 * e) ((l.map fun z => z - Surfalize.mean l).map fun z => |z|) ((l'.map fun z => z - Surfalize.mean l').map fun z => |z|) := by
      rw [List.map_map, List.map_map]
      refine off_map ho fun x y hxy => ?_
      rw [add_zero] at hxy ⊢
      refine (abs_abs_sub_abs_le_abs_sub _ _).trans ?_
      rw [abs_le] at *
      constructor <;> linarith [hxy.1, hxy.2, hmean.1, hmean.2]
    have := off_sum hs
    rw [mul_zero, add_zero, List.length_map, List.length_map] at this
    linarith
  · have hmax := off_max ho hne
    have hmin := off_min ho hne
    rw [add_zero] at hmax hmin
    unfold rtOf
    rw [abs_le] at *
    constructor <;> linarith [hmin.1, hmin.2, hmax.1, hmax.2]

private theorem sections_near {l l' : List K} {n : Int} {ss : List (List K)} (ho : Off 0 e l l') (hs : sectionedData l n = .ok ss) :
    ∃ ss', sectionedData l' n = .ok ss' ∧ ss ≠ [] ∧
      List.Forall₂ (fun s s' => s ≠ [] ∧ Off (-(Surfalize.mean l' - Surfalize.mean l)) e s s') ss ss' := by
  obtain ⟨h1, h2, rfl⟩ := sectionedData_ok hs
  have hl := off_length ho
  have hss := section_mem hs
  refine ⟨arraySplit (l'.map fun z => z - Surfalize.mean l') n.toNat, ?_, hss.1, ?_⟩
  · unfold sectionedData
    rw [if_neg (by omega), if_neg (by omega)]
  · have hf : List.Forall₂ (Off (-(Surfalize.mean l' - Surfalize.mean l)) e) (arraySplit (l.map fun z => z - Surfalize.mean l) n.toNat)
        (arraySplit (l'.map fun z => z - Surfalize.mean l') n.toNat) := by
      unfold arraySplit
      simp only [List.length_map, hl]
      exact off_split (off_center ho) _ _ _
    have hss2 := hss.2
    revert hf hss2
    generalize arraySplit (l.map fun z => z - Surfalize.mean l) n.toNat = A
    generalize arraySplit (l'.map fun z => z - Surfalize.mean l') n.toNat = B
    intro hf hss2
    induction hf with
    | nil => exact .nil
    | cons h _ ih =>
      exact .cons ⟨(hss2 _ List.mem_cons_self).1, h⟩ (ih fun s hs => hss2 s (List.mem_cons_of_mem _ hs))

/-- **C113** (profiles: the parameters of the sections). -/
theorem C113_sections (h : NearProfile e p p') (n : Int) :
    (∀ a, Rp p n = .ok a → ∃ a', Rp p' n = .ok a' ∧ |a' - a| ≤ 2 * e) ∧
    (∀ a, Rv p n = .ok a → ∃ a', Rv p' n = .ok a' ∧ |a' - a| ≤ 2 * e) ∧
    (∀ a, Rz p n = .ok a → ∃ a', Rz p' n = .ok a' ∧ |a' - a| ≤ 2 * e) := by
  have key : ∀ (f : List K → K) (F : List K → Int → Except Err K), (∀ l n, F l n = (sectionedData l n).map fun ss => Surfalize.mean (ss.map f)) →
      (∀ c s s', |c| ≤ e → s ≠ [] → Off c e s s' → |f s' - f s| ≤ 2 * e) →
      ∀ a, guarded (fun l => F l n) p = .ok a → ∃ a', guarded (fun l => F l n) p' = .ok a' ∧ |a' - a| ≤ 2 * e := by
    intro f F hF hf a ha
    obtain ⟨h1, h2, h3⟩ := guarded_ok ha
    obtain ⟨h1', h2'⟩ := prof_ok h h1 h2
    rw [guarded_of _ h1' h2']
    have ho := off_measured h
    have hne := measured_ne_nil h1 h2
    generalize measured p = l at ho hne h3
    generalize measured p' = l' at ho
    rw [hF] at h3
    rw [hF]
    cases hs : sectionedData l n with
    | error x => rw [hs] at h3; cases h3
    | ok ss =>
      rw [hs] at h3
      cases h3
      obtain ⟨ss', h4, h5, h6⟩ := sections_near ho hs
      rw [h4]
      refine ⟨_, rfl, ?_⟩
      have hm := off_mean ho hne
      rw [add_zero, ← abs_neg] at hm
      have := off_mean (off_map₂ (f := f) (g := f) (c' := 0) (e' := 2 * e) h6 fun s s' hs => by
        rw [add_zero]
        exact hf _ s s' hm hs.1 hs.2) (by simpa using h5)
      simpa using this
  refine ⟨key maxL rpOf (fun _ _ => rfl) ?_, key (fun s => |minL s|) rvOf (fun _ _ => rfl) ?_,
    key (fun s => maxL s - minL s) rzOf (fun _ _ => rfl) ?_⟩
  · intro c s s' hc hs ho
    have := off_max ho hs
    rw [abs_le] at *
    constructor <;> linarith [hc.1, hc.2, this.1, this.2]
  · intro c s s' hc hs ho
    have := off_min ho hs
    refine (abs_abs_sub_abs_le_abs_sub _ _).trans ?_
    rw [abs_le] at *
    constructor <;> linarith [hc.1, hc.2, this.1, this.2]
  · intro c s s' hc hs ho
    have a := off_max ho hs
    have b := off_min ho hs
    rw [abs_le] at *
    constructor <;> linarith [a.1, a.2, b.1, b.2]

end Profile

/-- **C113** (profiles: `Rq`). -/
theorem C113_rq {e : ℝ} {p p' : List (Option ℝ)} (h : NearProfile e p p') {a : ℝ} (ha : Rq p = .ok a) :
    ∃ a', Rq p' = .ok a' ∧ |a' - a| ≤ e := by
  obtain ⟨h1, h2, h3⟩ := guarded_ok ha
  obtain ⟨h1', h2'⟩ := prof_ok h h1 h2
  cases h3
  exact ⟨_, guarded_of _ h1' h2', off_rms (off_measured h) (measured_ne_nil h1 h2)⟩

private theorem near_getD {e : ℝ} (he : 0 ≤ e) {p p' : List (Option ℝ)} (h : NearProfile e p p') (i : Nat) :
    |((p'[i]?).getD none).getD 0 - ((p[i]?).getD none).getD 0| ≤ e := by
  induction h generalizing i with
  | nil => simpa using he
  | cons h _ ih =>
    cases i with
    | zero =>
      cases h with
      | missing => simpa using he
      | measured h => simpa using h
    | succ i => simpa using ih i

/-- **C113** (profiles: `Rdq`). -/
theorem C113_rdq {e step : ℝ} (he : 0 ≤ e) {p p' : List (Option ℝ)} (h : NearProfile e p p') {a : ℝ}
    (ha : Areas.rdq p step = .ok (some a)) : ∃ a', Areas.rdq p' step = .ok (some a') ∧ |a' - a| ≤ 2 * e / |step| := by
  have hl : p'.length = p.length := h.length_eq.symm
  unfold Areas.rdq BaseOps.noNonmeasured at ha ⊢
  split at ha
  · cases ha
  · rename_i hm
    rw [mem_none_iff_hasMissing (C := List)] at hm
    rw [if_neg (by rw [mem_none_iff_hasMissing (C := List)]; exact none_mem h hm)]
    dsimp only at ha ⊢
    rw [hl]
    rw [Except.ok.injEq] at ha
    split at ha
    · cases ha
    · rename_i hn
      cases ha
      refine ⟨_, by rw [if_neg hn], ?_⟩
      refine sqrt_div_abs (by exact_mod_cast (by omega : 0 < p.length - 1)) (by positivity) (rms _ _ _) ?_
      refine (Finset.sum_le_card_nsmul _ _ ((2 * e / |step|) ^ 2) fun i _ => ?_).trans_eq (by simp)
      have a := abs_le.1 (near_getD he h (i + 1))
      have b := abs_le.1 (near_getD he h i)
      rw [div_pow, sq_abs, ← sub_div, div_pow]
      exact div_le_div_of_nonneg_right (sq_le_sq' (by linarith [a.1, a.2, b.1, b.2]) (by linarith [a.1, a.2, b.1, b.2])) (sq_nonneg step)

section Saved
open LayoutM LayoutSpec FileArr Files FilesSpec SaveLoad SaveLoadSpec

/-- The heights of a saved and loaded surface are near the original ones. -/
private theorem close_near {s r : Raw ℝ} (hs : s.data.WF) (h : Close s r) {A : ℝ} (hA : ∀ z, some z ∈ flat s.data → |z| ≤ A) :
    NearSurface (A / 2 ^ 22 + 1 / 2 ^ 100) s.data r.data := by
  refine ⟨hs, h.wf, h.ny, h.nx, fun i j hi hj => ?_⟩
  have hm := h.missing i j hi hj
  cases h1 : s.data.get i j with
  | none => rw [hm.2 h1]; exact .missing
  | some z =>
    cases h2 : r.data.get i j with
    | none => rw [hm.1 h2] at h1; cases h1
    | some z' => exact .measured (h.heights A hA i j z z' h1 h2)

/-- **C113** (files). A fully measured surface whose heights are at most `A` in absolute value is saved in any of the
formats and loaded again: its height parameters are the same up to the precision of the format. -/
theorem C113_saved {E : Env ℝ} (hE : Sound E) {numMeta : Nat} {f : Format} (hf : f ∈ Format.writable) {suffix : List Char}
    (hsuf : suffix ∈ f.suffixes) {s : Sflz.Surf ℝ} (hs : Holds f numMeta s) (old : Bytes) (format : Option (List Char))
    {A : ℝ} (hA : ∀ z, some z ∈ flat s.raw.data → |z| ≤ A) {p : Params} (hp : heightParameters s.raw.data = .ok p) :
    ∃ content, SaveLoad.save E numMeta (.path suffix old) format s = (.ok (), .path suffix content) ∧
      ∀ enc suffix', (suffix'.map Char.toLower ∈ f.suffixes ∨ UnknownSuffix suffix') →
        ∃ r p', SaveLoad.load E enc (.path suffix' content) none = (.ok r, .path suffix' content) ∧
          heightParameters r.data = .ok p' ∧
          |p'.sa - p.sa| ≤ 2 * (A / 2 ^ 22 + 1 / 2 ^ 100) ∧ |p'.sq - p.sq| ≤ A / 2 ^ 22 + 1 / 2 ^ 100 ∧
          |p'.sp - p.sp| ≤ 2 * (A / 2 ^ 22 + 1 / 2 ^ 100) ∧ |p'.sv - p.sv| ≤ 2 * (A / 2 ^ 22 + 1 / 2 ^ 100) ∧
          |p'.sz - p.sz| ≤ 2 * (A / 2 ^ 22 + 1 / 2 ^ 100) := by
  obtain ⟨content, h1, h2⟩ := C89_path hE hf hsuf hs old format
  refine ⟨content, h1, fun enc suffix' h => ?_⟩
  obtain ⟨r, h3, h4⟩ := h2 enc suffix' h
  obtain ⟨p', h5, h6⟩ := C113_height (close_near hs.1.wf h4 hA) hp
  exact ⟨r, p', h3, h5, h6⟩

/-- Sound surroundings exist for real heights, too. -/
theorem C113_sound_exists : ∃ E : Env ℝ, Sound E := by
  obtain ⟨c, hc⟩ := FloatCodec.exists_nearest ℝ
  obtain ⟨T, hT⟩ := exists_faithful ℝ
  refine ⟨⟨c, demoText, T, ⟨⟨id, .ok⟩, ⟨id, .ok⟩⟩, .ok, id, fun m => Int.log 10 m, ⟨1, 2, 3, 4, 5, 2024, 6⟩,
    "171120260815".toList, "171120260815".toList, 0, 0, fun _ _ => .error .valueError,
    fun _ _ => (.error .corrupted, 0), fun _ h => h.buf.length, fun _ _ => []⟩,
    ⟨hc, C56_faithful_exists, hT, fun _ => rfl, fun _ => rfl, ?_, exists_log10, ?_, ?_, ?_, ?_⟩⟩
  · intro b; simp; omega
  · unfold SaveLoadSpec.ClockOk
    show ∀ x ∈ [(1 : Int), 2, 3, 4, 5, 2024, 6], _
    decide
  · show (utf8 "171120260815".toList).length ≤ 12
    decide +kernel
  · show (utf8 "171120260815".toList).length ≤ 12
    decide +kernel
  · show -(2 ^ 31) ≤ (0 : Int) ∧ (0 : Int) ≤ 2 ^ 31 - 1
    decide

end Saved

/-! ## The hypotheses are met -/

/-- A surface and one measured a little differently. -/
def demoA {K : Type} [Field K] : Grid (Option K) := ⟨[[some 0, some 1, some 4], [some 2, some 7, some 3], [some 1, some 5, some 2]], 3⟩
def demoB {K : Type} [Field K] : Grid (Option K) :=
  ⟨[[some (1 / 10), some 1, some 4], [some 2, some (69 / 10), some 3], [some (21 / 20), some 5, some 2]], 3⟩

theorem C113_demo {K : Type} [Field K] [LinearOrder K] [IsStrictOrderedRing K] : NearSurface (1 / 10 : K) demoA demoB := by
  refine ⟨by unfold Grid.WF demoA; simp, by unfold Grid.WF demoB; simp, rfl, rfl, fun i j hi hj => ?_⟩
  have hi' : i < 3 := hi
  have hj' : j < 3 := hj
  have key : ∀ x y : K, |y - x| ≤ 1 / 10 → NearPt (1 / 10 : K) (some x) (some y) := fun _ _ h => .measured h
  interval_cases i <;> interval_cases j <;> refine key _ _ ?_ <;> rw [abs_le] <;> constructor <;> norm_num

example : ∃ p p', heightParameters demoA = .ok p ∧ heightParameters demoB = .ok p' ∧ |p'.sq - p.sq| ≤ 1 / 10 := by
  obtain ⟨p, hp⟩ := (C14_success demoA).2 ⟨by simp [demoA, Container.flat], by simp [demoA, Container.flat]⟩
  obtain ⟨p', h1, -, h2, -⟩ := C113_height C113_demo hp
  exact ⟨p, p', hp, h1, h2⟩

example : ∃ a a', Areas.sdq demoA 1 2 = .ok (some a) ∧ Areas.sdq demoB 1 2 = .ok (some a') ∧
    |a' - a| ≤ 2 * (1 / 10) * Real.sqrt (1 / 1 ^ 2 + 1 / 2 ^ 2) := by
  obtain ⟨a, ha⟩ : ∃ a, Areas.sdq demoA 1 2 = .ok (some a) := ⟨_, by
    unfold Areas.sdq
    rw [hyp_of _ (by simp [demoA, Container.flat])]
    dsimp only
    rw [if_neg (by simp [demoA, Grid.ny])]⟩
  obtain ⟨a', h1, h2⟩ := C113_sdq C113_demo (by norm_num) ha
  exact ⟨a, a', ha, h1, h2⟩

example : Rz [some (0 : ℚ), some 2, some 1, some 4] 2 = .ok (5 / 2) ∧
    ∃ a', Rz [some (1 / 10 : ℚ), some 2, some 1, some 4] 2 = .ok a' ∧ |a' - 5 / 2| ≤ 2 * (1 / 10) := by
  have h : Rz [some (0 : ℚ), some 2, some 1, some 4] 2 = .ok (5 / 2) := by decide +kernel
  refine ⟨h, ?_⟩
  have hn : NearProfile (1 / 10 : ℚ) [some 0, some 2, some 1, some 4] [some (1 / 10), some 2, some 1, some 4] :=
    .cons (.measured (by rw [abs_le]; constructor <;> norm_num)) (.cons (.measured (by simp)) (.cons (.measured (by simp))
      (.cons (.measured (by simp)) .nil)))
  exact (C113_sections hn 2).2.2 _ h

end Surfalize.Props
