import Verif.Lemmas.Detrend
import Mathlib.Tactic.NormNum

/-!
# C27, C28 — levelling and polynomial detrending

`lstsq` stands for the numerical least squares solver (`np.linalg.lstsq` for surfaces, the solver inside
`np.polynomial.polynomial.polyfit` for profiles); the theorems hold for every solver that returns some minimiser
(`IsLstsq`), and `C27_solver_exists` shows that this assumption can be met.
-/
set_option linter.unusedSectionVars false
namespace Surfalize.Props
open Surfalize Detrend Spec

variable {K : Type} [Field K] [LinearOrder K] [IsStrictOrderedRing K]

/-- The assumption `IsLstsq` is satisfiable (over every ordered field). -/
theorem C27_solver_exists : ∃ lstsq : Lstsq K, IsLstsq lstsq := exists_lstsq

/-- `detrend_polynomial` succeeds exactly on surfaces with at least two rows and columns (or degree 0 and at least
one point). -/
theorem C27_defined (lstsq : Lstsq K) (d : Nat) (g : Grid (Option K)) :
    (∃ r t, detrend2 lstsq d g = .ok (r, t)) ↔ (2 ≤ g.ny ∧ 2 ≤ g.nx) ∨ (0 < g.ny ∧ 0 < g.nx ∧ d = 0) :=
  ⟨fun ⟨_, _, h⟩ => detrend2_shape h, detrend2_ok lstsq d g⟩

/-- **C27** (surfaces). The two returned surfaces have the shape of the original; at every pixel the trend is a
number `τ` and the detrended height is the original minus `τ` (non-measured stays non-measured); the trend is a
polynomial of total degree at most `d` in the pixel indices; and no such polynomial leaves a smaller sum of squared
residuals over the measured points. -/
theorem C27_surface {lstsq : Lstsq K} (hl : IsLstsq lstsq) (d : Nat) (g r t : Grid (Option K))
    (h : detrend2 lstsq d g = .ok (r, t)) :
    r.WF ∧ t.WF ∧ r.ny = g.ny ∧ r.nx = g.nx ∧ t.ny = g.ny ∧ t.nx = g.nx ∧
    ∃ c : Nat → Nat → K,
      (∀ i < g.ny, ∀ j < g.nx, t.get i j = some (poly2 d c j i) ∧
        r.get i j = (g.get i j).map fun z => z - poly2 d c j i) ∧
      ∀ c' : Nat → Nat → K, sumSq2 g (fun i j => poly2 d c j i) ≤ sumSq2 g (fun i j => poly2 d c' j i) := by
  obtain ⟨f, hf, mf, rfl, rfl⟩ := detrend2_core hl h
  obtain ⟨c, hc⟩ := (mem_polySpace_iff _ _ _ _).1 hf
  refine ⟨ofFn_wf _ _ _, ofFn_wf _ _ _, ofFn_ny _ _ _, rfl, ofFn_ny _ _ _, rfl, c, ?_, ?_⟩
  · intro i hi j hj
    rw [get_ofFn _ hi hj, get_ofFn _ hi hj, hc]
    exact ⟨rfl, rfl⟩
  · intro c'
    rw [sumSq2_eq, sumSq2_eq]
    have e : f = fun p : Nat × Nat => poly2 d c p.2 p.1 := funext hc
    rw [e] at mf
    exact mf _ ((mem_polySpace_iff _ _ _ _).2 ⟨c', fun _ => rfl⟩)

/-- **C27** (level). `level()` subtracts a plane `c₀₀ + c₁₀ x + c₀₁ y`, the least squares one. -/
theorem C27_level {lstsq : Lstsq K} (hl : IsLstsq lstsq) (g r t : Grid (Option K))
    (h : level2 lstsq g = .ok (r, t)) :
    ∃ a b c : K, (∀ i < g.ny, ∀ j < g.nx, t.get i j = some (a * j + b * i + c) ∧
        r.get i j = (g.get i j).map fun z => z - (a * j + b * i + c)) ∧
      ∀ a' b' c' : K, sumSq2 g (fun i j => a * j + b * i + c) ≤ sumSq2 g (fun i j => a' * j + b' * i + c') := by
  obtain ⟨_, _, _, _, _, _, c, hc, hm⟩ := C27_surface hl 1 g r t h
  have e : ∀ (c : Nat → Nat → K) (x y : K), poly2 1 c x y = c 1 0 * x + c 0 1 * y + c 0 0 := by
    intro c x y
    simp [poly2, Finset.sum_range_succ]
    ring
  refine ⟨c 1 0, c 0 1, c 0 0, ?_, ?_⟩
  · intro i hi j hj
    have := hc i hi j hj
    rw [e] at this
    exact this
  · intro a' b' c'
    have := hm (fun a b => if a = 1 then a' else if b = 1 then b' else c')
    simpa only [e, if_true, zero_ne_one, if_false] using this

/-- **C27** (profiles). The same for profiles with at least two points. -/
theorem C27_profile {lstsq : Lstsq K} (hl : IsLstsq lstsq) (d : Nat) (p r t : List (Option K)) (hn : 2 ≤ p.length)
    (h : detrend1 lstsq d p = .ok (r, t)) :
    r.length = p.length ∧ t.length = p.length ∧
    ∃ c : Nat → K,
      (∀ k < p.length, t[k]? = some (some (poly1 d c k)) ∧
        r[k]? = some (((p[k]?).getD none).map fun z => z - poly1 d c k)) ∧
      ∀ c' : Nat → K, sumSq1 p (fun k => poly1 d c k) ≤ sumSq1 p (fun k => poly1 d c' k) := by
  obtain ⟨f, hf, mf, rfl, rfl⟩ := detrend1_core hl hn h
  obtain ⟨c, hc⟩ := (mem_poly1_iff _ _ _).1 hf
  refine ⟨by simp, by simp, c, ?_, ?_⟩
  · intro k hk
    simp only [List.getElem?_map, List.getElem?_range hk, Option.map_some, hc, at1, and_self]
  · intro c'
    rw [sumSq1_eq, sumSq1_eq]
    have e : f = fun k : Nat => poly1 d c k := funext hc
    rw [e] at mf
    exact mf _ ((mem_poly1_iff _ _ _).2 ⟨c', fun _ => rfl⟩)

/-- **C27** (level, profiles). Levelling a profile subtracts the line with the least sum of squared distances. -/
theorem C27_level_profile {lstsq : Lstsq K} (hl : IsLstsq lstsq) (p r t : List (Option K)) (hn : 2 ≤ p.length)
    (h : level1 lstsq p = .ok (r, t)) :
    r.length = p.length ∧ t.length = p.length ∧ ∃ a b : K,
      (∀ k < p.length, t[k]? = some (some (a * k + b)) ∧
        r[k]? = some (((p[k]?).getD none).map fun z => z - (a * k + b))) ∧
      ∀ a' b' : K, sumSq1 p (fun k => a * k + b) ≤ sumSq1 p (fun k => a' * k + b') := by
  obtain ⟨h1, h2, c, hc, hm⟩ := C27_profile hl 1 p r t hn h
  have e : ∀ (c : Nat → K) (x : K), poly1 1 c x = c 1 * x + c 0 := by
    intro c x
    simp [poly1, Finset.sum_range_succ]
    ring
  refine ⟨h1, h2, c 1, c 0, ?_, ?_⟩
  · intro k hk
    have := hc k hk
    rw [e] at this
    exact this
  · intro a' b'
    have := hm (fun a => if a = 1 then a' else b')
    simpa only [e, if_true, zero_ne_one, if_false] using this

/-- **C28** (blind to polynomials, surfaces). If `g'` is `g` plus a polynomial of total degree at most `d` of the
pixel indices, both detrend to the same surface — even when different solvers are used. -/
theorem C28_blind {lstsq lstsq' : Lstsq K} (hl : IsLstsq lstsq) (hl' : IsLstsq lstsq') (d : Nat)
    (g g' r t : Grid (Option K)) (c : Nat → Nat → K) (h : detrend2 lstsq d g = .ok (r, t))
    (hny : g'.ny = g.ny) (hnx : g'.nx = g.nx)
    (hg : ∀ i < g.ny, ∀ j < g.nx, g'.get i j = (g.get i j).map fun z => z + poly2 d c j i) :
    ∃ t', detrend2 lstsq' d g' = .ok (r, t') := by
  have hs := detrend2_shape h
  rw [← hny, ← hnx] at hs
  obtain ⟨r', t', h'⟩ := detrend2_ok lstsq' d g' hs
  have := detrend2_unique hl hl' h h' hny hnx (fun p => poly2 d c p.2 p.1)
    ((mem_polySpace_iff _ _ _ _).2 ⟨c, fun _ => rfl⟩) hg
  rw [this] at h'
  exact ⟨t', h'⟩

/-- **C28** (idempotent, surfaces). Detrending the detrended surface returns it unchanged, with a trend that is 0 at
every measured point. -/
theorem C28_idempotent {lstsq : Lstsq K} (hl : IsLstsq lstsq) (d : Nat) (g r t : Grid (Option K))
    (h : detrend2 lstsq d g = .ok (r, t)) :
    ∃ t', detrend2 lstsq d r = .ok (r, t') ∧
      ∀ i < r.ny, ∀ j < r.nx, r.get i j ≠ none → t'.get i j = some 0 := by
  obtain ⟨hrw, _, hny, hnx, _, _, c, hc, _⟩ := C27_surface hl d g r t h
  have hc' : ∀ x y : K, poly2 d (fun a b => - c a b) x y = - poly2 d c x y := by
    intro x y
    simp only [poly2, neg_mul, Finset.sum_neg_distrib]
  obtain ⟨t', ht'⟩ := C28_blind hl hl d g r r t (fun a b => - c a b) h hny hnx (by
    intro i hi j hj
    rw [(hc i hi j hj).2, hc']
    simp only [sub_eq_add_neg])
  refine ⟨t', ht', ?_⟩
  intro i hi j hj hne
  obtain ⟨_, _, _, _, _, _, c2, hc2, _⟩ := C27_surface hl d r r t' ht'
  obtain ⟨h1, h2⟩ := hc2 i hi j hj
  rw [h1]
  cases hz : r.get i j with
  | none => exact absurd hz hne
  | some z =>
    rw [hz] at h2
    simp only [Option.map_some, Option.some.injEq] at h2 ⊢
    linarith

/-- **C28** (zero mean, surfaces). The measured detrended heights sum to 0. -/
theorem C28_mean_zero {lstsq : Lstsq K} (hl : IsLstsq lstsq) (d : Nat) (g r t : Grid (Option K))
    (h : detrend2 lstsq d g = .ok (r, t)) :
    (measured (Container.flat r)).sum = 0 ∧ mean (measured (Container.flat r)) = 0 := by
  obtain ⟨f, hf, mf, rfl, rfl⟩ := detrend2_core hl h
  have hz := minimiser_sum_zero _ (one_mem_poly _ _ _) (validPixels g) hf mf
  rw [mean, flat_detrended, hz]
  simp

/-- **C28** for profiles with at least two points. -/
theorem C28_profile {lstsq lstsq' : Lstsq K} (hl : IsLstsq lstsq) (hl' : IsLstsq lstsq') (d : Nat)
    (p p' r t : List (Option K)) (c : Nat → K) (hn : 2 ≤ p.length) (h : detrend1 lstsq d p = .ok (r, t))
    (hlen : p'.length = p.length)
    (hg : ∀ k < p.length, (p'[k]?).getD none = ((p[k]?).getD none).map fun z => z + poly1 d c k) :
    (∃ t', detrend1 lstsq' d p' = .ok (r, t')) ∧ (∃ t', detrend1 lstsq d r = .ok (r, t')) ∧
      mean (measured r) = 0 := by
  have ok : ∀ (l : Lstsq K) (q : List (Option K)) (F : Nat → K), q.length = p.length →
      (∀ k < p.length, at1 q k = (at1 p k).map fun z => z + F k) → ∃ r t, detrend1 l d q = .ok (r, t) := by
    intro l q F hq hF
    unfold detrend1
    rw [if_neg]
    · exact ⟨_, _, rfl⟩
    · intro hc
      unfold detrend1 at h
      split at h
      · cases h
      rename_i hne
      obtain ⟨z, hz⟩ := List.exists_mem_of_ne_nil _ hne
      rw [mem_measured] at hz
      obtain ⟨k, hk, e⟩ := List.mem_iff_getElem.1 hz
      have h1 := hF k hk
      have h2 : at1 p k = some z := by simp [at1, hk, e]
      rw [h2] at h1
      have : some (z + F k) ∈ q := by
        have hkq : k < q.length := hq ▸ hk
        have h3 : at1 q k = q[k] := by simp [at1, hkq]
        rw [h3] at h1
        have h4 := List.getElem_mem hkq
        rw [h1] at h4
        exact h4
      rw [← mem_measured, hc] at this
      cases this
  obtain ⟨r', t', h'⟩ := ok lstsq' p' (fun k => poly1 d c k) hlen hg
  have e1 := detrend1_unique hl hl' h h' hn hlen _ ((mem_poly1_iff _ _ _).2 ⟨c, fun _ => rfl⟩) hg
  obtain ⟨f, hf, mf, hr, _⟩ := detrend1_core hl hn h
  have hrl : r.length = p.length := by rw [hr]; simp
  have hr2 : ∀ k < p.length, at1 r k = (at1 p k).map fun z => z + (-f) k := by
    intro k hk
    rw [hr, at1_map _ _ hk]
    simp only [Pi.neg_apply, sub_eq_add_neg]
  obtain ⟨r2, t2, h2⟩ := ok lstsq r (-f) hrl hr2
  have e2 := detrend1_unique hl hl h h2 hn hrl _ (Submodule.neg_mem _ hf) hr2
  refine ⟨⟨t', e1 ▸ h'⟩, ⟨t2, ?_⟩, ?_⟩
  · rw [e2] at h2; exact h2
  · have hz := minimiser_sum_zero _ (one_mem_poly _ _ _) (validPoints p) hf mf
    rw [mean, hr, measured_detrended1, hz]
    simp

/-- The hypotheses are met: a 2×2 surface with a non-measured point, levelled by any solver, is the zero surface
(three points lie on a plane) with the non-measured point kept. -/
example {lstsq : Lstsq ℚ} (hl : IsLstsq lstsq) :
    ∃ t, level2 lstsq { rows := [[some 1, some 3], [some 4, none]], nx := 2 }
      = .ok ({ rows := [[some 0, some 0], [some 0, none]], nx := 2 }, t) := by
  have h0 : ∃ r t, detrend2 lstsq 1 { rows := [[some 0, some 0], [some 0, none]], nx := 2 } = .ok (r, t) :=
    detrend2_ok _ _ _ (Or.inl ⟨by decide, by decide⟩)
  obtain ⟨r, t, h0⟩ := h0
  have hr : r = { rows := [[some 0, some 0], [some 0, none]], nx := 2 } := by
    obtain ⟨hw, _, hny, hnx, _, _, c, hc, hm⟩ := C27_surface hl 1 _ r t h0
    have hz := hm (fun _ _ => 0)
    have e : ∀ (c : Nat → Nat → ℚ) (x y : ℚ), poly2 1 c x y = c 1 0 * x + c 0 1 * y + c 0 0 := by
      intro c x y
      simp [poly2, Finset.sum_range_succ]
      ring
    simp only [e] at hz hc
    have eny : Grid.ny ({ rows := [[some 0, some 0], [some 0, none]], nx := 2 } : Grid (Option ℚ)) = 2 := rfl
    simp only [sumSq2, eny, Finset.sum_range_succ, Finset.sum_range_zero] at hz
    simp [Grid.get, sqDiff] at hz
    have p0 : c 0 0 = 0 := by nlinarith [sq_nonneg (c 0 0), sq_nonneg (c 1 0 + c 0 0), sq_nonneg (c 0 1 + c 0 0)]
    have p1 : c 1 0 = 0 := by
      rw [p0] at hz; nlinarith [sq_nonneg (c 1 0), sq_nonneg (c 0 1)]
    have p2 : c 0 1 = 0 := by
      rw [p0, p1] at hz; nlinarith [sq_nonneg (c 0 1)]
    refine grid_ext_get hw (by decide) hny hnx ?_
    intro i hi j hj
    rw [(hc i (hny ▸ hi) j (by rw [hnx] at hj; exact hj)).2, p0, p1, p2]
    cases Grid.get { rows := [[some (0:ℚ), some 0], [some 0, none]], nx := 2 } i j <;> simp
  subst hr
  have := C28_blind hl hl 1 { rows := [[some 0, some 0], [some 0, none]], nx := 2 }
    { rows := [[some 1, some 3], [some 4, none]], nx := 2 } _ t
    (fun a b => if a = 1 then 2 else if b = 1 then 3 else 1) h0 rfl rfl (by
      intro i hi j hj
      have hi' : i < 2 := hi
      have hj' : j < 2 := hj
      have : i = 0 ∨ i = 1 := by omega
      have : j = 0 ∨ j = 1 := by omega
      rcases ‹i = 0 ∨ i = 1› with rfl | rfl <;> rcases ‹j = 0 ∨ j = 1› with rfl | rfl <;>
        simp [Grid.get, poly2, Finset.sum_range_succ] <;> norm_num)
  exact this

end Surfalize.Props
