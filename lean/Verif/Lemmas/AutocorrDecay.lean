import Verif.Lemmas.Autocorr
import Verif.Props.Interp
import Verif.Lemmas.AbbottMore

/-! Lemmas about the decay lengths. -/
set_option linter.unusedSectionVars false
namespace Surfalize.Autocorr
open Surfalize BaseOps Finset Container Spec

section Edge
variable (A : Grid (Option ℝ)) (t : ℝ)

/-- inside the array -/
def Inside (p : Nat × Nat) : Prop := p.1 < A.ny ∧ p.2 < A.nx
/-- above the threshold -/
def Mask (p : Nat × Nat) : Prop := Inside A p ∧ A.val p.1 p.2 > t

theorem mem_edgeIdx (p : Nat × Nat) : p ∈ edgeIdx A t ↔
    Inside A p ∧ ¬ Region (Mask A t) (centerIdx A) p ∧ ∃ q, (Inside A q ∧ Region (Mask A t) (centerIdx A) q) ∧ Adj4 q p := by
  unfold edgeIdx
  rw [List.mem_filter, mem_pixels]
  simp only [decide_eq_true_eq]
  unfold Xor
  constructor
  · rintro ⟨hin, h⟩
    rcases h with ⟨h1, h2⟩ | ⟨h1, h2⟩
    · exact absurd ⟨hin, Or.inl h1⟩ h2
    · refine ⟨hin, fun h => h2 ⟨hin, h⟩, ?_⟩
      rcases h1.2 with h | h
      · exact absurd h h2
      · exact h
  · rintro ⟨hin, h1, h2⟩
    exact ⟨hin, Or.inr ⟨⟨hin, Or.inr h2⟩, fun h => h1 h.2⟩⟩

/-- when the centre is above the threshold, the edge lies at or below it -/
theorem edge_below {p : Nat × Nat} (hc : Mask A t (centerIdx A)) (hp : p ∈ edgeIdx A t) :
    Inside A p ∧ A.val p.1 p.2 ≤ t := by
  obtain ⟨hin, hr, q, ⟨hq, hqr⟩, hadj⟩ := (mem_edgeIdx A t p).1 hp
  refine ⟨hin, ?_⟩
  by_contra hgt
  apply hr
  rcases hqr with ⟨_, hqr⟩ | ⟨h, _⟩
  · exact Or.inl ⟨hc, hqr.tail ⟨hadj, hin, lt_of_not_ge hgt⟩⟩
  · exact absurd hc h

theorem region_mask {p : Nat × Nat} (hc : Mask A t (centerIdx A)) (h : Region (Mask A t) (centerIdx A) p) : Mask A t p := by
  rcases h with ⟨_, h⟩ | ⟨h, _⟩
  · rcases Relation.ReflTransGen.cases_tail h with h | ⟨q, _, _, h⟩
    · exact h ▸ hc
    · exact h
  · exact absurd hc h

/-- walking towards the centre, one meets the edge no farther out -/
theorem exists_edge (sx sy : ℝ) (hc : Mask A t (centerIdx A)) : ∀ (n : Nat) (p : Nat × Nat), Inside A p →
    ((p.1 : Int) - (centerIdx A).1).natAbs + ((p.2 : Int) - (centerIdx A).2).natAbs = n →
    ¬ Region (Mask A t) (centerIdx A) p → ∃ e ∈ edgeIdx A t, lagLength A sx sy e ≤ lagLength A sx sy p
  | 0, p, _, hn, hr => by
    exfalso
    apply hr
    have : p = centerIdx A := by ext <;> omega
    rw [this]
    exact Or.inl ⟨hc, Relation.ReflTransGen.refl⟩
  | n + 1, p, hin, hn, hr => by
    have hcin := hc.1
    unfold Inside at hcin hin
    have : ∃ q : Nat × Nat, Inside A q ∧ Adj4 q p ∧
        ((q.1 : Int) - (centerIdx A).1).natAbs + ((q.2 : Int) - (centerIdx A).2).natAbs = n ∧
        ((q.1 : ℝ) - (centerIdx A).1) ^ 2 ≤ ((p.1 : ℝ) - (centerIdx A).1) ^ 2 ∧
        ((q.2 : ℝ) - (centerIdx A).2) ^ 2 ≤ ((p.2 : ℝ) - (centerIdx A).2) ^ 2 := by
      rcases lt_trichotomy p.1 (centerIdx A).1 with h | h | h
      · refine ⟨(p.1 + 1, p.2), ⟨by show p.1 + 1 < A.ny; omega, hin.2⟩, Or.inr ⟨rfl, Or.inr rfl⟩, by dsimp only; omega, ?_, le_rfl⟩
        have h' : (p.1 : ℝ) + 1 ≤ (centerIdx A).1 := by exact_mod_cast h
        push_cast
        nlinarith
      · rcases lt_or_ge p.2 (centerIdx A).2 with h2 | h2
        · refine ⟨(p.1, p.2 + 1), ⟨hin.1, by show p.2 + 1 < A.nx; omega⟩, Or.inl ⟨rfl, Or.inr rfl⟩, by dsimp only; omega, le_rfl, ?_⟩
          have h' : (p.2 : ℝ) + 1 ≤ (centerIdx A).2 := by exact_mod_cast h2
          push_cast
          nlinarith
        · have h3 : (centerIdx A).2 < p.2 := by omega
          refine ⟨(p.1, p.2 - 1), ⟨hin.1, by show p.2 - 1 < A.nx; omega⟩, Or.inl ⟨rfl, Or.inl (by show p.2 - 1 + 1 = p.2; omega)⟩,
            by dsimp only; omega, le_rfl, ?_⟩
          have h' : ((centerIdx A).2 : ℝ) + 1 ≤ p.2 := by exact_mod_cast h3
          rw [Nat.cast_sub (by omega)]
          push_cast
          nlinarith
      · refine ⟨(p.1 - 1, p.2), ⟨by show p.1 - 1 < A.ny; omega, hin.2⟩, Or.inr ⟨rfl, Or.inl (by show p.1 - 1 + 1 = p.1; omega)⟩,
          by dsimp only; omega, ?_, le_rfl⟩
        have h' : ((centerIdx A).1 : ℝ) + 1 ≤ p.1 := by exact_mod_cast h
        rw [Nat.cast_sub (by omega)]
        push_cast
        nlinarith
    obtain ⟨q, hqin, hadj, hqn, hd1, hd2⟩ := this
    by_cases hqr : Region (Mask A t) (centerIdx A) q
    · exact ⟨p, (mem_edgeIdx A t p).2 ⟨hin, hr, q, ⟨hqin, hqr⟩, hadj⟩, le_rfl⟩
    · obtain ⟨e, he, hle⟩ := exists_edge sx sy hc n q hqin hqn hqr
      refine ⟨e, he, hle.trans ?_⟩
      unfold lagLength
      apply Real.sqrt_le_sqrt
      rw [mul_pow, mul_pow, mul_pow, mul_pow]
      have := mul_le_mul_of_nonneg_right hd1 (sq_nonneg sy)
      have := mul_le_mul_of_nonneg_right hd2 (sq_nonneg sx)
      linarith

end Edge

/-- the chosen edge point has the extremal distance -/
theorem pickEdge_mem (A : Grid (Option ℝ)) (edge : List (Nat × Nat)) (sel : List Nat) (hne : sel ≠ []) :
    ∃ i ∈ sel, pickEdge A edge sel = edge.getD i (0, 0) := by
  unfold pickEdge
  set all := sel.map fun i => edge.getD i (0, 0) with hall
  have h0 : (all.map fun p => A.val p.1 p.2) ≠ [] := by simp [hall, hne]
  have hlt := argmin_lt h0
  rw [List.length_map] at hlt
  rw [getD_of_lt _ hlt]
  have hmem : ∀ x ∈ all, ∃ i ∈ sel, edge.getD i (0, 0) = x := fun x hx => List.mem_map.1 (hall ▸ hx)
  obtain ⟨i, hi, e⟩ := hmem _ (List.getElem_mem hlt)
  exact ⟨i, hi, e.symm⟩

theorem decay_bounds {line : LineInterp} (hl : ∀ A p, (line A p).length = 1000) (A : Grid (Option ℝ)) (sx sy t : ℝ)
    (p : Nat × Nat) : 0 ≤ decayAlong line A sx sy t p ∧ decayAlong line A sx sy t p ≤ lagLength A sx sy p := by
  have h0 : 0 ≤ lagLength A sx sy p := Real.sqrt_nonneg _
  have hk := argclosest_lt (x := t) (l := line A p) (by intro h; have := hl A p; rw [h] at this; simp at this)
  rw [hl] at hk
  have hk' : ((argclosest t (line A p) : Nat) : ℝ) ≤ 999 := by exact_mod_cast Nat.le_of_lt_succ hk
  have hk0 : (0 : ℝ) ≤ (argclosest t (line A p) : Nat) := Nat.cast_nonneg _
  unfold decayAlong
  constructor
  · positivity
  · rw [div_le_iff₀ (by norm_num)]
    exact mul_le_mul_of_nonneg_left hk' h0

theorem decayLengths_ok {line : LineInterp} (A : Grid (Option ℝ)) (sx sy s : ℝ)
    (hne : edgeIdx A (s * A.val (centerIdx A).1 (centerIdx A).2) ≠ []) :
    ∃ pmin pmax, pmin ∈ edgeIdx A (s * A.val (centerIdx A).1 (centerIdx A).2) ∧
      pmax ∈ edgeIdx A (s * A.val (centerIdx A).1 (centerIdx A).2) ∧
      (∀ q ∈ edgeIdx A (s * A.val (centerIdx A).1 (centerIdx A).2), lagLength A sx sy pmin ≤ lagLength A sx sy q) ∧
      (∀ q ∈ edgeIdx A (s * A.val (centerIdx A).1 (centerIdx A).2), lagLength A sx sy q ≤ lagLength A sx sy pmax) ∧
      decayLengths line A sx sy s = .ok (decayAlong line A sx sy (s * A.val (centerIdx A).1 (centerIdx A).2) pmin,
        decayAlong line A sx sy (s * A.val (centerIdx A).1 (centerIdx A).2) pmax) := by
  set t := s * A.val (centerIdx A).1 (centerIdx A).2 with ht
  set edge := edgeIdx A t with hedge
  set ds := edge.map fun p => some (lagLength A sx sy p) with hds
  have h1 : none ∉ ds := by simp [hds]
  have h2 : ds ≠ [] := by simp [hds, hne]
  obtain ⟨⟨imax, hmax, _, hmaxne, hmaxs⟩, imin, hmin, _, hminne, hmins⟩ := Props.C47_positions_partial ds h1 h2
  obtain ⟨i, hi, ei⟩ := pickEdge_mem A edge imin hminne
  obtain ⟨j, hj, ej⟩ := pickEdge_mem A edge imax hmaxne
  obtain ⟨m, hm, hms⟩ := (hmins i).1 hi
  obtain ⟨M, hM, hMs⟩ := (hmaxs j).1 hj
  have key : ∀ (k : Nat) (v : ℝ), ds[k]? = some (some v) → edge.getD k (0, 0) ∈ edge ∧ lagLength A sx sy (edge.getD k (0, 0)) = v := by
    intro k v hk
    have hk' : k < edge.length := by
      have := (List.getElem?_eq_some_iff.1 hk).1
      simpa [hds] using this
    rw [getD_of_lt _ hk']
    refine ⟨List.getElem_mem hk', ?_⟩
    rw [hds, List.getElem?_map, List.getElem?_eq_getElem hk'] at hk
    simpa using hk
  obtain ⟨ki, vi⟩ := key i m hm
  obtain ⟨kj, vj⟩ := key j M hM
  refine ⟨edge.getD i (0, 0), edge.getD j (0, 0), ki, kj, ?_, ?_, ?_⟩
  · intro q hq
    rw [vi]
    exact hms _ (List.mem_map.2 ⟨q, hq, rfl⟩)
  · intro q hq
    rw [vj]
    exact hMs _ (List.mem_map.2 ⟨q, hq, rfl⟩)
  · unfold decayLengths
    simp only [← ht, ← hedge, ← hds, hmin, hmax, ei, ej]

/-! ### scaling -/

theorem val_scale {K : Type} [Field K] (c : K) (A : Grid (Option K)) (i j : Nat) :
    (Container.map (Option.map fun z => c * z) A).val i j = c * A.val i j := by
  unfold Grid.val
  rw [get_map]
  cases A.get i j <;> simp

theorem argmin_scale {K : Type} [Field K] [LinearOrder K] [IsStrictOrderedRing K] {c : K} (hc : 0 < c) (l : List K) :
    argmin (l.map fun z => c * z) = argmin l := by
  rcases eq_or_ne l [] with rfl | hne
  · rfl
  have hi := argmin_lt hne
  have hj := argmin_lt (l := l.map fun z => c * z) (by simpa using hne)
  have hj' : argmin (l.map fun z => c * z) < l.length := by simpa using hj
  by_contra hcon
  rcases Nat.lt_or_gt_of_ne hcon with h | h
  · have h1 := argmin_lt_of_lt h hi
    have h2 := argmin_le (l := l.map fun z => c * z) rfl hj (j := argmin l) (by simpa using hi)
    rw [List.getElem_map, List.getElem_map] at h2
    have := le_of_mul_le_mul_left h2 hc
    exact absurd h1 (not_lt.2 this)
  · have h1 := argmin_lt_of_lt h hj
    have h2 := argmin_le rfl hi hj'
    rw [List.getElem_map, List.getElem_map] at h1
    exact absurd h1 (not_lt.2 (mul_le_mul_of_nonneg_left h2 hc.le))

theorem edgeIdx_scale {c : ℝ} (hc : 0 < c) (A : Grid (Option ℝ)) (t : ℝ) :
    edgeIdx (Container.map (Option.map fun z => c * z) A) (c * t) = edgeIdx A t := by
  have e : ∀ p : Nat × Nat, ((Container.map (Option.map fun z => c * z) A).val p.1 p.2 > c * t) = (A.val p.1 p.2 > t) := by
    intro p
    rw [val_scale]
    exact propext (mul_lt_mul_iff_right₀ hc)
  have hin : Inside (Container.map (Option.map fun z => c * z) A) = Inside A := by
    funext p; unfold Inside; rw [map_ny, map_nx]
  have hm : Mask (Container.map (Option.map fun z => c * z) A) (c * t) = Mask A t := by
    funext p; unfold Mask; rw [hin, e]
  have hci : centerIdx (Container.map (Option.map fun z => c * z) A) = centerIdx A := by
    unfold centerIdx; rw [map_ny, map_nx]
  have hmem : ∀ p, p ∈ edgeIdx (Container.map (Option.map fun z => c * z) A) (c * t) ↔ p ∈ edgeIdx A t := by
    intro p; rw [mem_edgeIdx, mem_edgeIdx, hin, hm, hci]
  unfold edgeIdx at hmem ⊢
  simp only [List.mem_filter] at hmem
  rw [show pixels (Container.map (Option.map fun z => c * z) A).ny (Container.map (Option.map fun z => c * z) A).nx
    = pixels A.ny A.nx by rw [map_ny, map_nx]] at hmem ⊢
  apply List.filter_congr
  intro p hp
  rw [Bool.eq_iff_iff]
  have := hmem p
  simp only [hp, true_and] at this
  exact this

theorem pickEdge_scale {c : ℝ} (hc : 0 < c) (A : Grid (Option ℝ)) (edge : List (Nat × Nat)) (sel : List Nat) :
    pickEdge (Container.map (Option.map fun z => c * z) A) edge sel = pickEdge A edge sel := by
  unfold pickEdge
  simp only [val_scale]
  have := argmin_scale hc ((sel.map fun i => edge.getD i (0, 0)).map fun p => A.val p.1 p.2)
  rw [List.map_map] at this
  simp only [Function.comp_def] at this
  rw [this]

theorem decayLengths_scale {line : LineInterp}
    (hl : ∀ (c : ℝ), 0 < c → ∀ (A : Grid (Option ℝ)) (p : Nat × Nat),
      line (Container.map (Option.map fun z => c * z) A) p = (line A p).map fun z => c * z)
    {c : ℝ} (hc : 0 < c) (A : Grid (Option ℝ)) (sx sy s : ℝ) :
    decayLengths line (Container.map (Option.map fun z => c * z) A) sx sy s = decayLengths line A sx sy s := by
  have hci : centerIdx (Container.map (Option.map fun z => c * z) A) = centerIdx A := by
    unfold centerIdx; rw [map_ny, map_nx]
  have hlag : ∀ p, lagLength (Container.map (Option.map fun z => c * z) A) sx sy p = lagLength A sx sy p := by
    intro p; unfold lagLength; rw [hci]
  have hdec : ∀ t p, decayAlong line (Container.map (Option.map fun z => c * z) A) sx sy (c * t) p
      = decayAlong line A sx sy t p := by
    intro t p
    unfold decayAlong
    rw [hlag, hl c hc]
    have := Abbott.argclosest_affine hc 0 t (line A p)
    simp only [add_zero] at this
    rw [this]
  unfold decayLengths
  simp only [hci, val_scale]
  rw [mul_left_comm s c]
  simp only [edgeIdx_scale hc, hlag, hdec, pickEdge_scale hc]

theorem acf_affine {g : Grid (Option ℝ)} (hg : g.WF) (hf : none ∉ flat g) (a b : ℝ) :
    ∃ A, acf g = .ok A ∧ acf (Container.map (Option.map fun z => a * z + b) g)
      = .ok (Container.map (Option.map fun z => a ^ 2 * z) A) := by
  obtain ⟨A, e1, hA, e3, e4, e5⟩ := acf_ok hg hf
  set g' := Container.map (Option.map fun z => a * z + b) g with hg'
  have w' : g'.WF := map_wf _ hg
  have f' : none ∉ flat g' := by
    rw [hg', Container.flat_map, List.mem_map]
    rintro ⟨z, hz, e⟩
    cases z with
    | none => exact hf hz
    | some z => simp at e
  have ny' : g'.ny = g.ny := map_ny _ _
  have nx' : g'.nx = g.nx := map_nx _ _
  obtain ⟨B, b1, hB, b3, b4, b5⟩ := acf_ok w' f'
  refine ⟨A, e1, ?_⟩
  rw [b1]
  congr 1
  rw [ny'] at b3 b5
  rw [nx'] at b4 b5
  have hv : ∀ i < g.ny, ∀ j < g.nx, g'.val i j = a * g.val i j + b := by
    intro i hi j hj
    unfold Grid.val
    rw [hg', get_map, get_eq_some_val hg hf hi hj]; rfl
  have hauto : ∀ dy dx : Int, |dy| < g.ny → |dx| < g.nx →
      autocov g.ny g.nx g'.val dy dx = a ^ 2 * autocov g.ny g.nx g.val dy dx := by
    intro dy dx hdy hdx
    have hy : 0 < g.ny := by have := abs_nonneg dy; omega
    have hx : 0 < g.nx := by have := abs_nonneg dx; omega
    have hm : meanHeight g.ny g.nx g'.val = a * meanHeight g.ny g.nx g.val + b := by
      unfold meanHeight
      rw [sum_congr rfl fun i hi => sum_congr rfl fun j hj => hv i (mem_range.1 hi) j (mem_range.1 hj)]
      simp only [sum_add_distrib, sum_const, card_range, nsmul_eq_mul, ← mul_sum]
      have : (g.ny : ℝ) ≠ 0 := by positivity
      have : (g.nx : ℝ) ≠ 0 := by positivity
      field_simp
    unfold autocov lagSum
    rw [hm, ← mul_div_assoc, mul_sum]
    congr 1
    apply sum_congr rfl
    intro pq hpq
    obtain ⟨⟨p1, p2⟩, p3, p4⟩ := mem_lagPairs hpq
    rw [hv _ p1 _ p2, hv _ p3 _ p4]
    ring
  apply grid_ext_get hB (map_wf _ hA)
  · rw [b3, map_ny, e3]
  · rw [b4, map_nx, e4]
  · intro i hi j hj
    rw [get_map]
    rw [b3] at hi
    rw [b4] at hj
    have l1 : |(i : Int) - (g.ny - 1)| < g.ny := abs_lt.2 ⟨by omega, by omega⟩
    have l2 : |(j : Int) - (g.nx - 1)| < g.nx := abs_lt.2 ⟨by omega, by omega⟩
    have l3 : ((g.ny : Int) - 1 + ((i : Int) - (g.ny - 1))).toNat = i := by omega
    have l4 : ((g.nx : Int) - 1 + ((j : Int) - (g.nx - 1))).toNat = j := by omega
    have x := b5 _ _ l1 l2
    have y := e5 _ _ l1 l2
    rw [l3, l4] at x y
    rw [x, y, hauto _ _ l1 l2]; rfl

end Surfalize.Autocorr
