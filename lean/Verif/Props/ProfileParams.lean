import Verif.Props.HeightParams
import Verif.Props.Placement

/-!
# C100 — height parameters of profiles follow the heights and do not depend on the direction of reading
-/
set_option linter.unusedSectionVars false
namespace Surfalize.Props
open Surfalize Container BaseOps HeightParams Spec

namespace ProfileParams

theorem guarded_map {β : Type} (f f' : List ℝ → Except Err β) (φ : ℝ → ℝ) (p : List (Option ℝ))
    (h : ∀ l : List ℝ, l ≠ [] → f (l.map φ) = f' l) : guarded f (p.map (Option.map φ)) = guarded f' p := by
  by_cases h1 : none ∈ p
  · have hm : hasMissing (C := List) p = true := (mem_none_iff_hasMissing (C := List) p).2 h1
    have hm' : hasMissing (C := List) (p.map (Option.map φ)) = true :=
      (mem_none_iff_hasMissing (C := List) _).2 (List.mem_map.2 ⟨none, h1, rfl⟩)
    unfold guarded noNonmeasured
    rw [if_pos hm, if_pos hm']
  · have h1' : none ∉ p.map (Option.map φ) := by
      intro hc
      obtain ⟨z, hz, e⟩ := List.mem_map.1 hc
      cases z with
      | none => exact h1 hz
      | some z => cases e
    by_cases h0 : p = []
    · subst h0; rfl
    · rw [guarded_of f h1' (by simpa using h0), guarded_of f' h1 h0, measured_map_map, h _ (measured_ne_nil h1 h0)]

theorem guarded_perm {β : Type} (f : List ℝ → Except Err β) {p p' : List (Option ℝ)} (hp : p.Perm p')
    (h : f (measured p) = f (measured p')) : guarded f p = guarded f p' := by
  by_cases h1 : none ∈ p
  · unfold guarded noNonmeasured
    rw [if_pos ((mem_none_iff_hasMissing (C := List) p).2 h1), if_pos ((mem_none_iff_hasMissing (C := List) p').2 (hp.mem_iff.1 h1))]
  · by_cases h0 : p = []
    · subst h0; rw [hp.nil_eq]
    · rw [guarded_of f h1 h0, guarded_of f (fun hc => h1 (hp.mem_iff.2 hc)) (fun hc => h0 (by subst hc; exact hp.eq_nil)), h]

theorem guarded_bind {β γ : Type} (f : List ℝ → Except Err β) (k : β → γ) (p : List (Option ℝ)) :
    (guarded f p).map k = guarded (fun l => (f l).map k) p := by
  unfold guarded noNonmeasured
  dsimp only
  split
  · rfl
  · split <;> rfl

theorem arraySplitAux_map {α β : Type} (f : α → β) (q : Nat) : ∀ (k r : Nat) (l : List α),
    arraySplitAux (l.map f) q k r = (arraySplitAux l q k r).map (List.map f)
  | 0, _, _ => rfl
  | k + 1, r, l => by
    simp only [arraySplitAux, List.map_cons, List.map_take]
    rw [← List.map_drop, arraySplitAux_map f q k]

theorem sectioned_affine {l : List ℝ} (hl : l ≠ []) (a b : ℝ) (n : Int) :
    sectionedData (l.map fun z => a * z + b) n = (sectionedData l n).map (List.map (List.map fun z => a * z)) := by
  have hm : mean (l.map fun z => a * z + b) = a * mean l + b := by
    have := mean_map_add_const (l := l.map fun z => a * z) (by simpa using hl) b
    rw [List.map_map] at this
    rw [mean_map_const_mul] at this
    exact this
  unfold sectionedData
  rw [List.length_map]
  by_cases h1 : n < 1
  · rw [if_pos h1, if_pos h1]; rfl
  rw [if_neg h1, if_neg h1]
  by_cases h2 : n > (l.length : Int)
  · rw [if_pos h2, if_pos h2]; rfl
  rw [if_neg h2, if_neg h2]
  show Except.ok _ = Except.ok _
  congr 1
  unfold arraySplit
  rw [← arraySplitAux_map, hm, List.length_map, List.length_map, List.length_map, List.map_map, List.map_map]
  congr 1
  apply List.map_congr_left
  intro z _
  simp only [Function.comp_apply]
  ring

theorem section_ne {l : List ℝ} {n : Int} {ss : List (List ℝ)} (h : sectionedData l n = .ok ss) : ∀ s ∈ ss, s ≠ [] := by
  by_cases hn : 1 ≤ n ∧ n ≤ l.length
  · obtain ⟨ss', h1, _, _, h4, _⟩ := (C18_sections l n).1 hn
    rw [h] at h1
    obtain rfl := Except.ok.inj h1
    exact h4
  · rw [(C18_sections l n).2 hn] at h; cases h

/-- a parameter that is the mean of a function over the sections -/
theorem sections_mean {l : List ℝ} (hl : l ≠ []) (a b : ℝ) (n : Int) (F G : List ℝ → ℝ) (c : ℝ)
    (h : ∀ s : List ℝ, s ≠ [] → F (s.map fun z => a * z) = c * G s) :
    (sectionedData (l.map fun z => a * z + b) n).map (fun ss => mean (ss.map F))
      = (((sectionedData l n).map fun ss => mean (ss.map G))).map fun x => c * x := by
  rw [sectioned_affine hl]
  cases hs : sectionedData l n with
  | error e => rfl
  | ok ss =>
    show Except.ok _ = Except.ok _
    dsimp only
    congr 1
    rw [← mean_map_const_mul, List.map_map, List.map_map]
    congr 1
    apply List.map_congr_left
    intro s hsm
    exact h s (section_ne hs s hsm)

theorem chunks (q : Nat) : ∀ (k : Nat) {α : Type} (l : List α),
    arraySplitAux l q k 0 = (List.range k).map fun i => (l.drop (q * i)).take q
  | 0, _, _ => rfl
  | k + 1, α, l => by
    rw [List.range_succ_eq_map, List.map_cons, List.map_map]
    simp only [arraySplitAux, Nat.zero_sub, if_true, Nat.mul_zero, List.drop_zero, chunks q k]
    congr 1
    apply List.map_congr_left
    intro i _
    simp only [Function.comp_apply, List.drop_drop]
    congr 2
    rw [Nat.mul_succ, Nat.add_comm]

theorem arraySplit_reverse {α : Type} (l : List α) (n : Nat) (h : n ∣ l.length) (hn : 0 < n) :
    arraySplit l.reverse n = ((arraySplit l n).map List.reverse).reverse := by
  obtain ⟨q, hq⟩ := h
  have h1 : l.length / n = q := by rw [hq, Nat.mul_div_cancel_left _ hn]
  have h2 : l.length % n = 0 := by rw [hq, Nat.mul_mod_right]
  unfold arraySplit
  rw [List.length_reverse, h1, h2, chunks, chunks, List.map_map, ← List.map_reverse]
  apply List.ext_getElem
  · simp
  · intro i hi hi'
    have hin : i < n := by simpa using hi
    simp only [List.getElem_map, List.getElem_reverse, List.getElem_range, List.length_range, Function.comp_apply]
    have e1 : n - 1 - i + 1 + i = n := by omega
    have hlen : l.length = q * (n - 1 - i) + q + q * i := by
      rw [hq, ← Nat.mul_add_one, ← Nat.mul_add, e1, Nat.mul_comm]
    rw [List.drop_reverse, List.take_reverse, List.length_take]
    congr 1
    rw [show l.length - q * i = q * (n - 1 - i) + q by omega]
    rw [show min (q * (n - 1 - i) + q) l.length - q = q * (n - 1 - i) by omega, List.drop_take]
    congr 1
    omega

theorem sectioned_reverse (l : List ℝ) (n : Int) (h : n ∣ l.length) :
    sectionedData l.reverse n = (sectionedData l n).map fun ss => (ss.map List.reverse).reverse := by
  have hm : mean l.reverse = mean l := mean_perm (List.reverse_perm l)
  unfold sectionedData
  rw [List.length_reverse, hm]
  by_cases h1 : n < 1
  · rw [if_pos h1, if_pos h1]; rfl
  rw [if_neg h1, if_neg h1]
  by_cases h2 : n > (l.length : Int)
  · rw [if_pos h2, if_pos h2]; rfl
  rw [if_neg h2, if_neg h2]
  show Except.ok _ = Except.ok _
  rw [List.map_reverse, arraySplit_reverse]
  · rw [List.length_map]
    have : ((n.toNat : Int)) ∣ (l.length : Int) := by rw [Int.toNat_of_nonneg (by omega)]; exact h
    exact_mod_cast this
  · omega

theorem sections_mean_reverse (l : List ℝ) (n : Int) (hn : n ∣ l.length) (F : List ℝ → ℝ)
    (h : ∀ s : List ℝ, F s.reverse = F s) :
    (sectionedData l.reverse n).map (fun ss => mean (ss.map F)) = (sectionedData l n).map fun ss => mean (ss.map F) := by
  rw [sectioned_reverse l n hn]
  cases hs : sectionedData l n with
  | error e => rfl
  | ok ss =>
    show Except.ok _ = Except.ok _
    dsimp only
    congr 1
    rw [List.map_reverse, mean_perm (List.reverse_perm _), List.map_map]
    congr 1
    apply List.map_congr_left
    intro s _
    exact h s

theorem ra_eq (l : List ℝ) : raOf l = (l.map fun z => |z - mu l|).sum / l.length := by
  rw [raOf, List.map_map]; rfl
theorem rq_eq (l : List ℝ) : rqOf l = Real.sqrt (moment 2 l) := by rw [rqOf, List.map_map]; rfl
theorem rsk_eq (l : List ℝ) :
    divNaN (((l.map fun z => z - mean l).map fun z => z ^ 3).sum / (l.length : ℝ)) (rqOf l ^ 3)
      = divNaN (moment 3 l) (Real.sqrt (moment 2 l) ^ 3) := by rw [rq_eq, List.map_map]; rfl
theorem rku_eq (l : List ℝ) :
    divNaN (((l.map fun z => z - mean l).map fun z => z ^ 4).sum / (l.length : ℝ)) (rqOf l ^ 4)
      = divNaN (moment 4 l) (Real.sqrt (moment 2 l) ^ 4) := by rw [rq_eq, List.map_map]; rfl

theorem split_affine (l : List ℝ) (a b : ℝ) : (l.map fun z => a * z + b) = (l.map fun z => a * z).map fun z => z + b := by
  rw [List.map_map]; rfl

theorem ra_affine {l : List ℝ} (hl : l ≠ []) (a b : ℝ) : raOf (l.map fun z => a * z + b) = |a| * raOf l := by
  rw [ra_eq, ra_eq, split_affine]
  have h1 := sa_shift (l := l.map fun z => a * z) (by simpa using hl) b
  have h2 := sa_scale l a
  rw [h1, h2, List.length_map, List.length_map, mul_div_assoc]

theorem moment_affine {l : List ℝ} (hl : l ≠ []) (a b : ℝ) (k : Nat) :
    moment k (l.map fun z => a * z + b) = a ^ k * moment k l := by
  rw [split_affine, moment_shift (by simpa using hl), moment_scale]

theorem rq_affine {l : List ℝ} (hl : l ≠ []) (a b : ℝ) : rqOf (l.map fun z => a * z + b) = |a| * rqOf l := by
  rw [rq_eq, rq_eq, moment_affine hl, Real.sqrt_mul (sq_nonneg a), Real.sqrt_sq_eq_abs]

theorem neg_list (l : List ℝ) (b : ℝ) : (l.map fun z => b - z) = l.map fun z => (-1) * z + b :=
  List.map_congr_left fun z _ => by ring

end ProfileParams
open ProfileParams

/-- **C100** (datum and unit). Multiplying the heights by `a > 0` and adding `b` multiplies `Ra, Rq, Rp, Rv, Rz, Rt` by
`a` and keeps `Rsk` and `Rku`, for any number of sections; what fails, fails in the same way. -/
theorem C100_affine (p : List (Option ℝ)) (a b : ℝ) (ha : 0 < a) (n : Int) :
    let p' := p.map (Option.map fun z => a * z + b)
    Ra p' = (Ra p).map (fun x => a * x) ∧ Rq p' = (Rq p).map (fun x => a * x) ∧
    Rp p' n = (Rp p n).map (fun x => a * x) ∧ Rv p' n = (Rv p n).map (fun x => a * x) ∧
    Rz p' n = (Rz p n).map (fun x => a * x) ∧ Rt p' = (Rt p).map (fun x => a * x) ∧
    Rsk p' = Rsk p ∧ Rku p' = Rku p := by
  intro p'
  have abs : |a| = a := abs_of_pos ha
  refine ⟨?_, ?_, ?_, ?_, ?_, ?_, ?_, ?_⟩
  · unfold Ra
    rw [guarded_bind]
    exact guarded_map _ _ _ p fun l hl => by rw [ra_affine hl, abs]; rfl
  · unfold Rq
    rw [guarded_bind]
    exact guarded_map _ _ _ p fun l hl => by rw [rq_affine hl, abs]; rfl
  · unfold Rp
    rw [guarded_bind]
    exact guarded_map _ _ _ p fun l hl => sections_mean hl a b n _ _ a fun s hs => maxL_scale hs ha
  · unfold Rv
    rw [guarded_bind]
    exact guarded_map _ _ _ p fun l hl => sections_mean hl a b n _ _ a fun s hs => by
      rw [minL_scale hs ha, abs_mul, abs]
  · unfold Rz
    rw [guarded_bind]
    exact guarded_map _ _ _ p fun l hl => sections_mean hl a b n _ _ a fun s hs => by
      rw [minL_scale hs ha, maxL_scale hs ha, mul_sub]
  · unfold Rt
    rw [guarded_bind]
    refine guarded_map _ _ _ p fun l hl => ?_
    show Except.ok _ = Except.ok _
    rw [rtOf, rtOf, split_affine, maxL_shift (by simpa using hl), minL_shift (by simpa using hl), maxL_scale hl ha, minL_scale hl ha]
    congr 1
    ring
  · unfold Rsk
    refine guarded_map _ _ _ p fun l hl => ?_
    rw [rsk_eq, rsk_eq, moment_affine hl, moment_affine hl, Real.sqrt_mul (sq_nonneg a), Real.sqrt_sq ha.le, mul_pow,
      divNaN_scale (pow_ne_zero 3 ha.ne')]
  · unfold Rku
    refine guarded_map _ _ _ p fun l hl => ?_
    rw [rku_eq, rku_eq, moment_affine hl, moment_affine hl, Real.sqrt_mul (sq_nonneg a), Real.sqrt_sq ha.le, mul_pow,
      divNaN_scale (pow_ne_zero 4 ha.ne')]

/-- **C100** (inversion). Inverting a profile (heights `b - z`, as `invert()` does with `b` the sum of the extreme
heights) keeps `Ra, Rq, Rz, Rt, Rku` and negates `Rsk`. -/
theorem C100_inverted (p : List (Option ℝ)) (b : ℝ) (n : Int) :
    let p' := p.map (Option.map fun z => b - z)
    Ra p' = Ra p ∧ Rq p' = Rq p ∧ Rz p' n = Rz p n ∧ Rt p' = Rt p ∧
    Rsk p' = (Rsk p).map (Option.map fun x => -x) ∧ Rku p' = Rku p := by
  intro p'
  refine ⟨?_, ?_, ?_, ?_, ?_, ?_⟩
  · refine guarded_map _ _ _ p fun l hl => ?_
    rw [neg_list, ra_affine hl]; norm_num
  · refine guarded_map _ _ _ p fun l hl => ?_
    rw [neg_list, rq_affine hl]; norm_num
  · refine guarded_map _ _ _ p fun l hl => ?_
    rw [neg_list]
    have := sections_mean hl (-1) b n (fun s => maxL s - minL s) (fun s => maxL s - minL s) 1 fun s hs => by
      rw [minL_neg hs, maxL_neg hs]; ring
    unfold rzOf
    rw [this]
    cases sectionedData l n with
    | error e => rfl
    | ok ss => show Except.ok _ = Except.ok _; simp
  · refine guarded_map _ _ _ p fun l hl => ?_
    show Except.ok _ = Except.ok _
    rw [neg_list, rtOf, rtOf, split_affine, maxL_shift (by simpa using hl), minL_shift (by simpa using hl), maxL_neg hl, minL_neg hl]
    congr 1
    ring
  · unfold Rsk
    rw [guarded_bind]
    refine guarded_map _ _ _ p fun l hl => ?_
    show Except.ok _ = Except.ok _
    rw [neg_list, rsk_eq, rsk_eq, moment_affine hl, moment_affine hl, ← divNaN_neg,
      show (-1 : ℝ) ^ 3 * moment 3 l = -moment 3 l by ring, show (-1 : ℝ) ^ 2 * moment 2 l = moment 2 l by ring]
  · unfold Rku
    refine guarded_map _ _ _ p fun l hl => ?_
    rw [neg_list, rku_eq, rku_eq, moment_affine hl, moment_affine hl,
      show (-1 : ℝ) ^ 4 * moment 4 l = moment 4 l by ring, show (-1 : ℝ) ^ 2 * moment 2 l = moment 2 l by ring]

/-- **C100** (inversion, peaks and pits), for profiles each of whose sections has a point not above the mean line:
inversion turns the pits into peaks. -/
theorem C100_exchange_partial (p : List (Option ℝ)) (b : ℝ) (n : Int)
    (h : ∀ ss, sectionedData (measured p) n = .ok ss → ∀ s ∈ ss, ∃ x ∈ s, x ≤ 0) :
    Rp (p.map (Option.map fun z => b - z)) n = Rv p n := by
  by_cases h1 : none ∈ p
  · unfold Rp Rv guarded noNonmeasured
    rw [if_pos ((mem_none_iff_hasMissing (C := List) p).2 h1),
      if_pos ((mem_none_iff_hasMissing (C := List) _).2 (List.mem_map.2 ⟨none, h1, rfl⟩))]
  · by_cases h0 : p = []
    · subst h0; rfl
    · have h1' : none ∉ p.map (Option.map fun z => b - z) := by
        intro hc
        obtain ⟨z, hz, e⟩ := List.mem_map.1 hc
        cases z with
        | none => exact h1 hz
        | some z => cases e
      have hl := measured_ne_nil h1 h0
      unfold Rp Rv
      rw [guarded_of _ h1' (by simpa using h0), guarded_of _ h1 h0, measured_map_map, neg_list]
      unfold rpOf rvOf
      rw [sectioned_affine hl]
      cases hs : sectionedData (measured p) n with
      | error e => rfl
      | ok ss =>
        show Except.ok _ = Except.ok _
        dsimp only
        congr 2
        rw [List.map_map]
        apply List.map_congr_left
        intro s hsm
        have hne := section_ne hs s hsm
        simp only [Function.comp_apply]
        rw [maxL_neg hne, abs_of_nonpos]
        obtain ⟨x, hx, hx0⟩ := h ss hs s hsm
        exact le_trans ((minL_spec hne).2 x hx) hx0

/-- **C100** (inversion, one section). Over the entire evaluation length inversion always exchanges `Rp` and `Rv`. -/
theorem C100_exchange_one_section (p : List (Option ℝ)) (b : ℝ) :
    Rp (p.map (Option.map fun z => b - z)) 1 = Rv p 1 := by
  apply C100_exchange_partial
  intro ss hs s hsm
  have hne := section_ne hs s hsm
  by_cases hl : measured p = []
  · rw [hl] at hs; cases hs
  have hlen : 1 ≤ (measured p).length := List.length_pos_of_ne_nil hl
  have hs' : sectionedData (measured p) 1 = .ok [(measured p).map fun z => z - mean (measured p)] := by
    unfold sectionedData
    rw [if_neg (by omega), if_neg (by omega)]
    simp only [Int.toNat_one, arraySplit, arraySplitAux, Nat.div_one, Nat.mod_one, if_true, List.take_length]
  rw [hs'] at hs
  obtain rfl := Except.ok.inj hs
  obtain rfl := List.mem_singleton.1 hsm
  refine ⟨minL (measured p) - mean (measured p), List.mem_map.2 ⟨_, (minL_spec hl).1, rfl⟩, ?_⟩
  have := le_mean hl (minL_spec hl).2
  linarith

/-- **C100** fails for more sections: `Rv` counts the lowest point of a section that lies above the mean line as a pit,
so that it is not `Rp` of the inverted profile. -/
theorem C100_exchange_fails :
    Rv [some (9 : ℚ), some 10, some (-9), some (-10)] 2 = .ok (19 / 2) ∧
    Rp [some (-9 : ℚ), some (-10), some 9, some 10] 2 = .ok (1 / 2) := by decide +kernel

/-- **C100** (direction). `Ra, Rq, Rt, Rsk, Rku` and `Rdq` of a profile read backwards are those of the profile; so are
`Rp, Rv, Rz` when the sections are equally long. -/
theorem C100_reversed_partial (p : List (Option ℝ)) (step : ℝ) (n : Int) :
    Ra p.reverse = Ra p ∧ Rq p.reverse = Rq p ∧ Rt p.reverse = Rt p ∧ Rsk p.reverse = Rsk p ∧ Rku p.reverse = Rku p ∧
    Areas.rdq p.reverse step = Areas.rdq p step ∧
    (n ∣ p.length → Rp p.reverse n = Rp p n ∧ Rv p.reverse n = Rv p n ∧ Rz p.reverse n = Rz p n) := by
  have hp : p.reverse.Perm p := List.reverse_perm p
  have hm : (measured p.reverse).Perm (measured p) := hp.filterMap id
  have hmr : measured p.reverse = (measured p).reverse := by simp [measured, List.filterMap_reverse]
  have hlen : ∀ h : none ∉ p, (measured p).length = p.length := by
    intro h
    conv_rhs => rw [eq_map_some_of_no_none p h]
    rw [List.length_map]
  have hmean : mean (measured p.reverse) = mean (measured p) := mean_perm hm
  have hmap : ∀ f : ℝ → ℝ, ((measured p.reverse).map f).sum = ((measured p).map f).sum := fun f => (hm.map f).sum_eq
  have hrq : rqOf (measured p.reverse) = rqOf (measured p) := by rw [rq_eq, rq_eq, moment_perm hm]
  refine ⟨?_, ?_, ?_, ?_, ?_, ?_, ?_⟩
  · refine guarded_perm _ hp ?_
    show Except.ok _ = Except.ok _
    rw [ra_eq, ra_eq, ← mu_eq, ← mu_eq, hmean, hm.length_eq, hmap]
  · exact guarded_perm _ hp (by rw [hrq])
  · refine guarded_perm _ hp ?_
    rw [rtOf, rtOf, maxL_perm hm, minL_perm hm]
  · refine guarded_perm _ hp ?_
    rw [rsk_eq, rsk_eq, moment_perm hm, moment_perm hm]
  · refine guarded_perm _ hp ?_
    rw [rku_eq, rku_eq, moment_perm hm, moment_perm hm]
  · unfold Areas.rdq noNonmeasured
    have hmm : hasMissing (C := List) p.reverse = hasMissing (C := List) p := by
      rw [Bool.eq_iff_iff, mem_none_iff_hasMissing, mem_none_iff_hasMissing]
      exact hp.mem_iff
    rw [hmm]
    split
    · rfl
    · dsimp only
      rw [List.length_reverse]
      split
      · rfl
      · congr 4
        refine Placement.sum_reverse p.length (fun i => ((p[i]?).getD none).getD 0) (fun i => ((p.reverse[i]?).getD none).getD 0) step ?_
        intro j hj
        rw [List.getElem?_reverse hj]
  · intro hn
    have key : ∀ F : List ℝ → ℝ, (∀ s, F s.reverse = F s) →
        guarded (fun l => (sectionedData l n).map fun ss => mean (ss.map F)) p.reverse
          = guarded (fun l => (sectionedData l n).map fun ss => mean (ss.map F)) p := by
      intro F hF
      by_cases h1 : none ∈ p
      · unfold guarded noNonmeasured
        rw [if_pos ((mem_none_iff_hasMissing (C := List) p).2 h1),
          if_pos ((mem_none_iff_hasMissing (C := List) p.reverse).2 (hp.mem_iff.2 h1))]
      · refine guarded_perm _ hp ?_
        rw [hmr]
        exact sections_mean_reverse _ n (by rw [hlen h1]; exact hn) F hF
    refine ⟨key maxL fun s => maxL_perm (List.reverse_perm s), key (fun s => |minL s|) fun s => ?_,
      key (fun s => maxL s - minL s) fun s => ?_⟩
    · rw [minL_perm (List.reverse_perm s)]
    · rw [minL_perm (List.reverse_perm s), maxL_perm (List.reverse_perm s)]

/-- **C100** fails for sections of unequal length: the longer ones are at the beginning, whatever the direction. -/
theorem C100_direction_matters :
    Rz [some (0 : ℚ), some 0, some 4] 2 = .ok 0 ∧ Rz [some (4 : ℚ), some 0, some 0] 2 = .ok 2 := by decide +kernel

/-- Non-vacuity: the parameters of a profile of six points in two sections are numbers. -/
example : Rz [some (1 : ℚ), some 3, some 2, some 0, some 5, some 4] 2 = .ok (7 / 2) ∧
    Rp [some (1 : ℚ), some 3, some 2, some 0, some 5, some 4] 2 = .ok (3 / 2) := by decide +kernel

end Surfalize.Props
