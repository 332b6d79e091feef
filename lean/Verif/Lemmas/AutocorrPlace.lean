import Verif.Spec.AutocorrPlace
import Verif.Lemmas.AutocorrDecay

/-! Lemmas about autocorrelations of moved samples. -/
set_option linter.unusedSectionVars false
namespace Surfalize.Autocorr
open Surfalize BaseOps Finset Container Spec

/-! ### The autocorrelation of a moved sample -/

section Move
variable {K : Type} [Field K]

/-- `φ` moves the pixels of an `ny × nx` array onto those of an `ny' × nx'` array, `ψ` moves them back. -/
structure Moves (ny nx ny' nx' : Nat) (φ ψ : Nat × Nat → Nat × Nat) : Prop where
  fwd : ∀ p, p.1 < ny → p.2 < nx → (φ p).1 < ny' ∧ (φ p).2 < nx'
  back : ∀ p, p.1 < ny' → p.2 < nx' → (ψ p).1 < ny ∧ (ψ p).2 < nx
  left : ∀ p, p.1 < ny → p.2 < nx → ψ (φ p) = p
  right : ∀ p, p.1 < ny' → p.2 < nx' → φ (ψ p) = p

variable {ny nx ny' nx' : Nat} {φ ψ : Nat × Nat → Nat × Nat}

theorem meanHeight_move (hm : Moves ny nx ny' nx' φ ψ) {h h' : Nat → Nat → K} (hh : ∀ p, p.1 < ny → p.2 < nx → h' (φ p).1 (φ p).2 = h p.1 p.2)
    (hs : ny' * nx' = ny * nx) : meanHeight ny' nx' h' = meanHeight ny nx h := by
  unfold meanHeight
  have e1 : ∑ i ∈ range ny', ∑ j ∈ range nx', h' i j = ∑ p ∈ range ny' ×ˢ range nx', h' p.1 p.2 := (sum_product' _ _ _).symm
  have e2 : ∑ i ∈ range ny, ∑ j ∈ range nx, h i j = ∑ p ∈ range ny ×ˢ range nx, h p.1 p.2 := (sum_product' _ _ _).symm
  rw [e1, e2, ← Nat.cast_mul, ← Nat.cast_mul, hs]
  congr 1
  refine sum_nbij' ψ φ ?_ ?_ ?_ ?_ ?_
  · intro p hp; simp only [mem_product, mem_range] at hp ⊢; exact hm.back p hp.1 hp.2
  · intro p hp; simp only [mem_product, mem_range] at hp ⊢; exact hm.fwd p hp.1 hp.2
  · intro p hp; simp only [mem_product, mem_range] at hp; exact hm.right p hp.1 hp.2
  · intro p hp; simp only [mem_product, mem_range] at hp; exact hm.left p hp.1 hp.2
  · intro p hp
    simp only [mem_product, mem_range] at hp
    have := hh (ψ p) (hm.back p hp.1 hp.2).1 (hm.back p hp.1 hp.2).2
    rw [hm.right p hp.1 hp.2] at this
    exact this

theorem autocov_move (hm : Moves ny nx ny' nx' φ ψ) {h h' : Nat → Nat → K} (hh : ∀ p, p.1 < ny → p.2 < nx → h' (φ p).1 (φ p).2 = h p.1 p.2)
    (hs : ny' * nx' = ny * nx) {dy dx ey ex : Int} (hl : ∀ p q, p.1 < ny → p.2 < nx → q.1 < ny → q.2 < nx →
      (((q.1 : Int) = p.1 + dy ∧ (q.2 : Int) = p.2 + dx) ↔ ((φ q).1 : Int) = (φ p).1 + ey ∧ ((φ q).2 : Int) = (φ p).2 + ex)) :
    autocov ny' nx' h' ey ex = autocov ny nx h dy dx := by
  have hi : ∀ a ∈ lagPairs ny nx dy dx, (φ a.1, φ a.2) ∈ lagPairs ny' nx' ey ex := by
    intro a ha
    simp only [lagPairs, mem_filter, mem_product, mem_range] at ha ⊢
    obtain ⟨⟨⟨a1, a2⟩, a3, a4⟩, a5⟩ := ha
    exact ⟨⟨hm.fwd _ a1 a2, hm.fwd _ a3 a4⟩, (hl _ _ a1 a2 a3 a4).1 a5⟩
  have hj : ∀ a ∈ lagPairs ny' nx' ey ex, (ψ a.1, ψ a.2) ∈ lagPairs ny nx dy dx := by
    intro a ha
    simp only [lagPairs, mem_filter, mem_product, mem_range] at ha ⊢
    obtain ⟨⟨⟨a1, a2⟩, a3, a4⟩, a5⟩ := ha
    obtain ⟨b1, b2⟩ := hm.back _ a1 a2
    obtain ⟨b3, b4⟩ := hm.back _ a3 a4
    refine ⟨⟨⟨b1, b2⟩, b3, b4⟩, (hl _ _ b1 b2 b3 b4).2 ?_⟩
    rw [hm.right _ a1 a2, hm.right _ a3 a4]
    exact a5
  have hl1 : ∀ a ∈ lagPairs ny nx dy dx, (ψ (φ a.1, φ a.2).1, ψ (φ a.1, φ a.2).2) = a := by
    intro a ha
    simp only [lagPairs, mem_filter, mem_product, mem_range] at ha
    obtain ⟨⟨⟨a1, a2⟩, a3, a4⟩, a5⟩ := ha
    rw [hm.left _ a1 a2, hm.left _ a3 a4]
  have hr1 : ∀ a ∈ lagPairs ny' nx' ey ex, (φ (ψ a.1, ψ a.2).1, φ (ψ a.1, ψ a.2).2) = a := by
    intro a ha
    simp only [lagPairs, mem_filter, mem_product, mem_range] at ha
    obtain ⟨⟨⟨a1, a2⟩, a3, a4⟩, a5⟩ := ha
    rw [hm.right _ a1 a2, hm.right _ a3 a4]
  unfold autocov
  rw [meanHeight_move hm hh hs]
  congr 1
  · symm
    unfold lagSum
    refine sum_nbij' (fun a => (φ a.1, φ a.2)) (fun a => (ψ a.1, ψ a.2)) hi hj hl1 hr1 ?_
    intro a ha
    simp only [lagPairs, mem_filter, mem_product, mem_range] at ha
    obtain ⟨⟨⟨a1, a2⟩, a3, a4⟩, a5⟩ := ha
    rw [hh _ a1 a2, hh _ a3 a4]
  · congr 1
    symm
    exact card_nbij' (fun a => (φ a.1, φ a.2)) (fun a => (ψ a.1, ψ a.2)) hi hj hl1 hr1

end Move

theorem moves_mirror (ny nx : Nat) : Moves ny nx ny nx (fun p => (p.1, nx - 1 - p.2)) (fun p => (p.1, nx - 1 - p.2)) := by
  refine ⟨?_, ?_, ?_, ?_⟩ <;> intro p h1 h2 <;> [skip; skip; ext; ext] <;> simp only <;> omega

theorem moves_flip (ny nx : Nat) : Moves ny nx ny nx (fun p => (ny - 1 - p.1, p.2)) (fun p => (ny - 1 - p.1, p.2)) := by
  refine ⟨?_, ?_, ?_, ?_⟩ <;> intro p h1 h2 <;> [skip; skip; ext; ext] <;> simp only <;> omega

theorem moves_turn (ny nx : Nat) : Moves ny nx ny nx (fun p => (ny - 1 - p.1, nx - 1 - p.2)) (fun p => (ny - 1 - p.1, nx - 1 - p.2)) := by
  refine ⟨?_, ?_, ?_, ?_⟩ <;> intro p h1 h2 <;> [skip; skip; ext; ext] <;> simp only <;> omega

theorem moves_transpose (ny nx : Nat) : Moves ny nx nx ny (fun p => (p.2, p.1)) (fun p => (p.2, p.1)) :=
  ⟨fun _ h1 h2 => ⟨h2, h1⟩, fun _ h1 h2 => ⟨h2, h1⟩, fun _ _ _ => rfl, fun _ _ _ => rfl⟩

/-! ### The arrays of moved samples -/

theorem acf_get {g A : Grid (Option ℝ)} (hg : g.WF) (hf : none ∉ flat g) (h : acf g = .ok A) :
    A.WF ∧ A.ny = 2 * g.ny - 1 ∧ A.nx = 2 * g.nx - 1 ∧ ∀ i < A.ny, ∀ j < A.nx,
      A.get i j = some (autocov g.ny g.nx g.val ((i : Int) - (g.ny - 1)) ((j : Int) - (g.nx - 1))) := by
  obtain ⟨B, h1, h2, h3, h4, h5⟩ := acf_ok hg hf
  rw [h] at h1
  obtain rfl := Except.ok.inj h1
  refine ⟨h2, h3, h4, fun i hi j hj => ?_⟩
  have := h5 ((i : Int) - (g.ny - 1)) ((j : Int) - (g.nx - 1)) (abs_lt.2 ⟨by omega, by omega⟩) (abs_lt.2 ⟨by omega, by omega⟩)
  rw [show ((g.ny : Int) - 1 + ((i : Int) - (g.ny - 1))).toNat = i by omega,
    show ((g.nx : Int) - 1 + ((j : Int) - (g.nx - 1))).toNat = j by omega] at this
  exact this

theorem acf_mirror {g g' A A' : Grid (Option ℝ)} (hg : g.WF) (hf : none ∉ flat g) (hf' : none ∉ flat g') (h : IsMirror g g')
    (hA : acf g = .ok A) (hA' : acf g' = .ok A') : IsMirror A A' := by
  obtain ⟨w, n1, n2, hget⟩ := h
  obtain ⟨a1, a2, a3, a4⟩ := acf_get hg hf hA
  obtain ⟨b1, b2, b3, b4⟩ := acf_get w hf' hA'
  refine ⟨b1, by omega, by omega, fun i hi j hj => ?_⟩
  rw [b4 i (by omega) j (by omega), a4 i hi (A.nx - 1 - j) (by omega), n1, n2]
  congr 1
  refine autocov_move (moves_mirror g.ny g.nx) ?_ rfl ?_
  · intro p h1 h2
    unfold Grid.val
    dsimp only
    rw [hget p.1 h1 (g.nx - 1 - p.2) (by omega), show g.nx - 1 - (g.nx - 1 - p.2) = p.2 by omega]
  · intro p q h1 h2 h3 h4
    dsimp only
    omega

theorem acf_flip {g g' A A' : Grid (Option ℝ)} (hg : g.WF) (hf : none ∉ flat g) (hf' : none ∉ flat g') (h : IsFlip g g')
    (hA : acf g = .ok A) (hA' : acf g' = .ok A') : IsFlip A A' := by
  obtain ⟨w, n1, n2, hget⟩ := h
  obtain ⟨a1, a2, a3, a4⟩ := acf_get hg hf hA
  obtain ⟨b1, b2, b3, b4⟩ := acf_get w hf' hA'
  refine ⟨b1, by omega, by omega, fun i hi j hj => ?_⟩
  rw [b4 i (by omega) j (by omega), a4 (A.ny - 1 - i) (by omega) j hj, n1, n2]
  congr 1
  refine autocov_move (moves_flip g.ny g.nx) ?_ rfl ?_
  · intro p h1 h2
    unfold Grid.val
    dsimp only
    rw [hget (g.ny - 1 - p.1) (by omega) p.2 h2, show g.ny - 1 - (g.ny - 1 - p.1) = p.1 by omega]
  · intro p q h1 h2 h3 h4
    dsimp only
    omega

theorem acf_transpose {g g' A A' : Grid (Option ℝ)} (hg : g.WF) (hf : none ∉ flat g) (hf' : none ∉ flat g') (h : IsTranspose g g')
    (hA : acf g = .ok A) (hA' : acf g' = .ok A') : IsTranspose A A' := by
  obtain ⟨w, n1, n2, hget⟩ := h
  obtain ⟨a1, a2, a3, a4⟩ := acf_get hg hf hA
  obtain ⟨b1, b2, b3, b4⟩ := acf_get w hf' hA'
  refine ⟨b1, by omega, by omega, fun i hi j hj => ?_⟩
  rw [b4 i (by omega) j (by omega), a4 j hj i hi, n1, n2]
  congr 1
  refine autocov_move (moves_transpose g.ny g.nx) ?_ (Nat.mul_comm _ _) ?_
  · intro p h1 h2
    unfold Grid.val
    dsimp only
    rw [hget p.2 h2 p.1 h1]
  · intro p q h1 h2 h3 h4
    dsimp only
    omega

/-- Turning the sample by 180 degrees leaves the whole array as it was. -/
theorem acf_turn {g g' : Grid (Option ℝ)} (hg : g.WF) (hf : none ∉ flat g) (hf' : none ∉ flat g') (h : IsTurn g g') : acf g' = acf g := by
  obtain ⟨w, n1, n2, hget⟩ := h
  obtain ⟨A, hA, -⟩ := acf_ok hg hf
  obtain ⟨A', hA', -⟩ := acf_ok w hf'
  obtain ⟨a1, a2, a3, a4⟩ := acf_get hg hf hA
  obtain ⟨b1, b2, b3, b4⟩ := acf_get w hf' hA'
  rw [hA, hA']
  congr 1
  apply grid_ext_get b1 a1 (by omega) (by omega)
  intro i hi j hj
  rw [b4 i hi j hj, a4 i (by omega) j (by omega), n1, n2]
  congr 1
  have := autocov_neg g (dy := (i : Int) - (g.ny - 1)) (dx := (j : Int) - (g.nx - 1)) (abs_lt.2 ⟨by omega, by omega⟩) (abs_lt.2 ⟨by omega, by omega⟩)
  rw [← this]
  refine autocov_move (moves_turn g.ny g.nx) ?_ rfl ?_
  · intro p h1 h2
    unfold Grid.val
    dsimp only
    rw [hget (g.ny - 1 - p.1) (by omega) (g.nx - 1 - p.2) (by omega), show g.ny - 1 - (g.ny - 1 - p.1) = p.1 by omega,
      show g.nx - 1 - (g.nx - 1 - p.2) = p.2 by omega]
  · intro p q h1 h2 h3 h4
    dsimp only
    omega

/-! ### Decay lengths of corresponding arrays -/

/-- `τ` moves the indices of `A` onto those of `B` (and `σ` back) and keeps values, centre, neighbours and lengths. -/
structure Iso (A B : Grid (Option ℝ)) (sx sy sx' sy' : ℝ) (τ σ : Nat × Nat → Nat × Nat) : Prop where
  fwd : ∀ p, Inside A p → Inside B (τ p)
  back : ∀ p, Inside B p → Inside A (σ p)
  left : ∀ p, Inside A p → σ (τ p) = p
  right : ∀ p, Inside B p → τ (σ p) = p
  val : ∀ p, Inside A p → B.val (τ p).1 (τ p).2 = A.val p.1 p.2
  cin : Inside A (centerIdx A)
  cen : τ (centerIdx A) = centerIdx B
  adj : ∀ p q, Inside A p → Inside A q → (Adj4 (τ p) (τ q) ↔ Adj4 p q)
  lag : ∀ p, Inside A p → lagLength B sx' sy' (τ p) = lagLength A sx sy p

section Iso
variable {A B : Grid (Option ℝ)} {sx sy sx' sy' : ℝ} {τ σ : Nat × Nat → Nat × Nat}

theorem Iso.symm (h : Iso A B sx sy sx' sy' τ σ) : Iso B A sx' sy' sx sy σ τ where
  fwd := h.back
  back := h.fwd
  left := h.right
  right := h.left
  val p hp := by rw [← h.val _ (h.back p hp), h.right p hp]
  cin := h.cen ▸ h.fwd _ h.cin
  cen := by rw [← h.cen, h.left _ h.cin]
  adj p q hp hq := by rw [← h.adj _ _ (h.back p hp) (h.back q hq), h.right p hp, h.right q hq]
  lag p hp := by rw [← h.lag _ (h.back p hp), h.right p hp]

theorem Iso.mask (h : Iso A B sx sy sx' sy' τ σ) (t : ℝ) {p : Nat × Nat} (hp : Inside A p) : Mask B t (τ p) ↔ Mask A t p := by
  unfold Mask
  rw [h.val p hp]
  exact ⟨fun x => ⟨hp, x.2⟩, fun x => ⟨h.fwd p hp, x.2⟩⟩

theorem Iso.path (h : Iso A B sx sy sx' sy' τ σ) (t : ℝ) {p : Nat × Nat}
    (hp : Relation.ReflTransGen (fun a b => Adj4 a b ∧ Mask A t b) (centerIdx A) p) :
    Inside A p ∧ Relation.ReflTransGen (fun a b => Adj4 a b ∧ Mask B t b) (centerIdx B) (τ p) := by
  induction hp with
  | refl => exact ⟨h.cin, h.cen ▸ Relation.ReflTransGen.refl⟩
  | tail _ hb ih =>
    obtain ⟨i1, i2⟩ := ih
    exact ⟨hb.2.1, i2.tail ⟨(h.adj _ _ i1 hb.2.1).2 hb.1, (h.mask t hb.2.1).2 hb.2⟩⟩

theorem Iso.region_fwd (h : Iso A B sx sy sx' sy' τ σ) (t : ℝ) {p : Nat × Nat} (hp : Inside A p)
    (hr : Region (Mask A t) (centerIdx A) p) : Region (Mask B t) (centerIdx B) (τ p) := by
  rcases hr with ⟨h1, h2⟩ | ⟨h1, h2⟩
  · exact Or.inl ⟨h.cen ▸ (h.mask t h.cin).2 h1, (h.path t h2).2⟩
  · exact Or.inr ⟨fun x => h1 ((h.mask t h.cin).1 (h.cen ▸ x)), fun x => h2 ((h.mask t hp).1 x)⟩

theorem Iso.region (h : Iso A B sx sy sx' sy' τ σ) (t : ℝ) {p : Nat × Nat} (hp : Inside A p) :
    Region (Mask B t) (centerIdx B) (τ p) ↔ Region (Mask A t) (centerIdx A) p := by
  refine ⟨fun hr => ?_, h.region_fwd t hp⟩
  have := h.symm.region_fwd t (h.fwd p hp) hr
  rwa [h.left p hp] at this

theorem Iso.edge (h : Iso A B sx sy sx' sy' τ σ) (t : ℝ) {p : Nat × Nat} (he : p ∈ edgeIdx A t) : τ p ∈ edgeIdx B t := by
  rw [mem_edgeIdx] at he ⊢
  obtain ⟨hin, hr, q, ⟨hq, hqr⟩, ha⟩ := he
  exact ⟨h.fwd p hin, fun x => hr ((h.region t hin).1 x), τ q, ⟨h.fwd q hq, (h.region t hq).2 hqr⟩, (h.adj q p hq hin).2 ha⟩

end Iso

/-- Among the selected edge points the chosen one has the smallest value. -/
theorem pickEdge_le (A : Grid (Option ℝ)) (edge : List (Nat × Nat)) (sel : List Nat) (hne : sel ≠ []) :
    ∃ i ∈ sel, pickEdge A edge sel = edge.getD i (0, 0) ∧
      ∀ j ∈ sel, A.val (pickEdge A edge sel).1 (pickEdge A edge sel).2 ≤ A.val (edge.getD j (0, 0)).1 (edge.getD j (0, 0)).2 := by
  obtain ⟨i, hi, e⟩ := pickEdge_mem A edge sel hne
  refine ⟨i, hi, e, fun j hj => ?_⟩
  unfold pickEdge
  set all := sel.map fun i => edge.getD i (0, 0) with hall
  have h0 : (all.map fun p => A.val p.1 p.2) ≠ [] := by simp [hall, hne]
  have hlt := argmin_lt h0
  have hlt' := hlt
  rw [List.length_map] at hlt'
  have hj' : edge.getD j (0, 0) ∈ all := hall ▸ List.mem_map_of_mem hj
  clear_value all
  obtain ⟨k, hk, ek⟩ := List.getElem_of_mem hj'
  have := argmin_le rfl hlt (j := k) (by simpa using hk)
  simp only [List.getElem_map] at this
  rw [getD_of_lt _ hlt']
  rw [ek] at this
  exact this

theorem decayLengths_picks {line : LineInterp} (A : Grid (Option ℝ)) (sx sy s : ℝ)
    {E : List (Nat × Nat)} (hE : E = edgeIdx A (s * A.val (centerIdx A).1 (centerIdx A).2)) (hne : E ≠ []) :
    ∃ pmin pmax, pmin ∈ E ∧ pmax ∈ E ∧
      (∀ q ∈ E, lagLength A sx sy pmin ≤ lagLength A sx sy q) ∧ (∀ q ∈ E, lagLength A sx sy q ≤ lagLength A sx sy pmax) ∧
      (∀ q ∈ E, lagLength A sx sy q = lagLength A sx sy pmin → A.val pmin.1 pmin.2 ≤ A.val q.1 q.2) ∧
      (∀ q ∈ E, lagLength A sx sy q = lagLength A sx sy pmax → A.val pmax.1 pmax.2 ≤ A.val q.1 q.2) ∧
      decayLengths line A sx sy s = .ok (decayAlong line A sx sy (s * A.val (centerIdx A).1 (centerIdx A).2) pmin,
        decayAlong line A sx sy (s * A.val (centerIdx A).1 (centerIdx A).2) pmax) := by
  subst hE
  set t := s * A.val (centerIdx A).1 (centerIdx A).2 with ht
  set edge := edgeIdx A t with hedge
  set ds := edge.map fun p => some (lagLength A sx sy p) with hds
  have h1 : none ∉ ds := by simp [hds]
  have h2 : ds ≠ [] := by simp [hds, hne]
  obtain ⟨⟨imax, hmax, _, hmaxne, hmaxs⟩, imin, hmin, _, hminne, hmins⟩ := Props.C47_positions_partial ds h1 h2
  obtain ⟨i, hi, ei, vi'⟩ := pickEdge_le A edge imin hminne
  obtain ⟨j, hj, ej, vj'⟩ := pickEdge_le A edge imax hmaxne
  obtain ⟨m, hm, hms⟩ := (hmins i).1 hi
  obtain ⟨M, hM, hMs⟩ := (hmaxs j).1 hj
  have key : ∀ (k : Nat) (v : ℝ), ds[k]? = some (some v) → edge.getD k (0, 0) ∈ edge ∧ lagLength A sx sy (edge.getD k (0, 0)) = v := by
    intro k v hk
    have hk' : k < edge.length := by
      have := (List.getElem?_eq_some_iff.1 hk).1
      simpa [hds] using this
    rw [getD_of_lt _ hk']
    refine ⟨List.getElem_mem hk', ?_⟩
    rw [hds, List.getElem?_map, List.getElem?_eq_getElem hk'] at hk
    simpa using hk
  have key2 : ∀ q ∈ edge, ∃ k, edge.getD k (0, 0) = q ∧ ds[k]? = some (some (lagLength A sx sy q)) := by
    intro q hq
    obtain ⟨k, hk, rfl⟩ := List.getElem_of_mem hq
    refine ⟨k, getD_of_lt _ hk _, ?_⟩
    rw [hds, List.getElem?_map, List.getElem?_eq_getElem hk]
    rfl
  obtain ⟨ki, li⟩ := key i m hm
  obtain ⟨kj, lj⟩ := key j M hM
  refine ⟨edge.getD i (0, 0), edge.getD j (0, 0), ki, kj, ?_, ?_, ?_, ?_, ?_⟩
  · intro q hq
    rw [li]
    exact hms _ (List.mem_map.2 ⟨q, hq, rfl⟩)
  · intro q hq
    rw [lj]
    exact hMs _ (List.mem_map.2 ⟨q, hq, rfl⟩)
  · intro q hq hl
    obtain ⟨k, ek, hk⟩ := key2 q hq
    rw [hl, li] at hk
    have := vi' k ((hmins k).2 ⟨m, hk, hms⟩)
    rw [ei, ek] at this
    exact this
  · intro q hq hl
    obtain ⟨k, ek, hk⟩ := key2 q hq
    rw [hl, lj] at hk
    have := vj' k ((hmaxs k).2 ⟨M, hk, hMs⟩)
    rw [ej, ek] at this
    exact this
  · unfold decayLengths
    simp only [← ht, ← hedge, ← hds, hmin, hmax, ei, ej]

theorem decayLengths_noEdge {line : LineInterp} (A : Grid (Option ℝ)) (sx sy s : ℝ)
    (h : edgeIdx A (s * A.val (centerIdx A).1 (centerIdx A).2) = []) : decayLengths line A sx sy s = .error .valueError := by
  unfold decayLengths
  simp only [h, List.map_nil]
  rfl

/-- Corresponding arrays have the same decay lengths, when points with the same length and value also have the same line. -/
theorem decayLengths_iso {line : LineInterp} {A B : Grid (Option ℝ)} {sx sy sx' sy' : ℝ} {τ σ : Nat × Nat → Nat × Nat}
    (h : Iso A B sx sy sx' sy' τ σ) (hl : ∀ p, Inside A p → line B (τ p) = line A p)
    (ht : ∀ p q, Inside A p → Inside A q → lagLength A sx sy p = lagLength A sx sy q → A.val p.1 p.2 = A.val q.1 q.2 →
      line A p = line A q) (s : ℝ) : decayLengths line B sx' sy' s = decayLengths line A sx sy s := by
  have hth : s * B.val (centerIdx B).1 (centerIdx B).2 = s * A.val (centerIdx A).1 (centerIdx A).2 := by
    rw [← h.cen, h.val _ h.cin]
  set t := s * A.val (centerIdx A).1 (centerIdx A).2 with htd
  have hback : ∀ q ∈ edgeIdx B t, σ q ∈ edgeIdx A t := fun q hq => h.symm.edge t hq
  have hfwd : ∀ q ∈ edgeIdx A t, τ q ∈ edgeIdx B t := fun q hq => h.edge t hq
  have hinA : ∀ q ∈ edgeIdx A t, Inside A q := fun q hq => ((mem_edgeIdx A t q).1 hq).1
  have hinB : ∀ q ∈ edgeIdx B t, Inside B q := fun q hq => ((mem_edgeIdx B t q).1 hq).1
  rcases eq_or_ne (edgeIdx A t) [] with hemp | hne
  · have hempB : edgeIdx B t = [] := by
      rw [List.eq_nil_iff_forall_not_mem]
      intro q hq
      have := hback q hq
      rw [hemp] at this
      exact List.not_mem_nil this
    rw [decayLengths_noEdge A _ _ _ hemp, decayLengths_noEdge B _ _ _ (hth.symm ▸ hempB)]
  · have hneB : edgeIdx B t ≠ [] := by
      obtain ⟨q, hq⟩ := List.exists_mem_of_ne_nil _ hne
      exact List.ne_nil_of_mem (hfwd q hq)
    obtain ⟨p, P, a1, a2, a3, a4, a5, a6, a7⟩ := decayLengths_picks (line := line) A sx sy s (E := edgeIdx A t) rfl hne
    obtain ⟨q, Q, b1, b2, b3, b4, b5, b6, b7⟩ := decayLengths_picks (line := line) B sx' sy' s (E := edgeIdx B t) (by rw [hth]) hneB
    have hlag : ∀ x ∈ edgeIdx B t, lagLength A sx sy (σ x) = lagLength B sx' sy' x := by
      intro x hx
      rw [← h.lag _ (hinA _ (hback x hx)), h.right _ (hinB x hx)]
    have hlag2 : ∀ x ∈ edgeIdx A t, lagLength B sx' sy' (τ x) = lagLength A sx sy x := fun x hx => h.lag _ (hinA x hx)
    have hv2 : ∀ x ∈ edgeIdx A t, B.val (τ x).1 (τ x).2 = A.val x.1 x.2 := fun x hx => h.val _ (hinA x hx)
    have hv : ∀ x ∈ edgeIdx B t, A.val (σ x).1 (σ x).2 = B.val x.1 x.2 := by
      intro x hx
      rw [← h.val _ (hinA _ (hback x hx)), h.right _ (hinB x hx)]
    have hdec : ∀ x ∈ edgeIdx A t, ∀ y ∈ edgeIdx B t, lagLength B sx' sy' y = lagLength A sx sy x → B.val y.1 y.2 = A.val x.1 x.2 →
        decayAlong line B sx' sy' t y = decayAlong line A sx sy t x := by
      intro x hx y hy e1 e2
      unfold decayAlong
      have e3 : line B y = line A x := by
        have := hl _ (hinA _ (hback y hy))
        rw [h.right _ (hinB y hy)] at this
        rw [this]
        exact ht _ _ (hinA _ (hback y hy)) (hinA x hx) (by rw [hlag y hy, e1]) (by rw [hv y hy, e2])
      rw [e1, e3]
    rw [a7, b7, hth]
    have l1 : lagLength B sx' sy' q = lagLength A sx sy p :=
      le_antisymm (hlag2 p a1 ▸ b3 _ (hfwd p a1)) (hlag q b1 ▸ a3 _ (hback q b1))
    have l2 : lagLength B sx' sy' Q = lagLength A sx sy P :=
      le_antisymm (hlag Q b2 ▸ a4 _ (hback Q b2)) (hlag2 P a2 ▸ b4 _ (hfwd P a2))
    have v1 : B.val q.1 q.2 = A.val p.1 p.2 :=
      le_antisymm (hv2 p a1 ▸ b5 _ (hfwd p a1) (by rw [hlag2 p a1, l1])) (hv q b1 ▸ a5 _ (hback q b1) (by rw [hlag q b1, l1]))
    have v2 : B.val Q.1 Q.2 = A.val P.1 P.2 :=
      le_antisymm (hv2 P a2 ▸ b6 _ (hfwd P a2) (by rw [hlag2 P a2, l2])) (hv Q b2 ▸ a6 _ (hback Q b2) (by rw [hlag Q b2, l2]))
    rw [hdec p a1 q b1 l1 v1, hdec P a2 Q b2 l2 v2]

end Surfalize.Autocorr
