import Verif.Spec.Lying
import Verif.Lemmas.GridFn
import Verif.Lemmas.Num
import Verif.Lemmas.HeightParams
import Verif.Lemmas.Detrend
import Verif.Model.Gauss
import Verif.Model.FillRotate
import Verif.Lemmas.Geometry

/-!
# Lemmas for C118
-/
set_option linter.unusedSectionVars false
namespace Surfalize.Lying
open Surfalize LyingSpec Container BaseOps

section
variable {K : Type} {m : Move} {g g' : Grid (Option K)}

theorem pixels_nodup (ny nx : Nat) : (pixels ny nx).Nodup := by
  unfold pixels
  rw [List.nodup_flatMap]
  refine ⟨fun i _ => List.Nodup.map (fun a b h => by simpa using h) List.nodup_range, ?_⟩
  refine List.Pairwise.imp (R := fun a b => a ≠ b) (fun {a b} hab => ?_) List.nodup_range
  simp only [Function.onFun]
  intro p h1 h2
  simp only [List.mem_map] at h1 h2
  obtain ⟨_, _, rfl⟩ := h1
  obtain ⟨_, _, h⟩ := h2
  simp only [Prod.mk.injEq] at h
  exact hab h.1.symm

theorem source_lt (h : Laid m g g') {i j : Nat} (hi : i < g'.ny) (hj : j < g'.nx) :
    (m.source g.ny g.nx i j).1 < g.ny ∧ (m.source g.ny g.nx i j).2 < g.nx := by
  have hs := h.size
  cases m <;> simp only [Move.size, Move.source, Prod.mk.injEq, if_true, reduceCtorEq, if_false] at hs ⊢ <;> omega

/-- The move back. -/
theorem source_back (h : Laid m g g') {i j : Nat} (hi : i < g.ny) (hj : j < g.nx) :
    (m.source g'.ny g'.nx i j).1 < g'.ny ∧ (m.source g'.ny g'.nx i j).2 < g'.nx ∧
      m.source g.ny g.nx (m.source g'.ny g'.nx i j).1 (m.source g'.ny g'.nx i j).2 = (i, j) := by
  have hs := h.size
  cases m <;> simp only [Move.size, Move.source, Prod.mk.injEq, if_true, reduceCtorEq, if_false, true_and, and_true] at hs ⊢ <;>
    refine ⟨?_, ?_⟩ <;> omega

theorem laid_symm (h : Laid m g g') : Laid m g' g := by
  refine ⟨h.wf', h.wf, ?_, fun i hi j hj => ?_⟩
  · have hs := h.size
    cases m <;> simp only [Move.size, Prod.mk.injEq, if_true, reduceCtorEq, if_false] at hs ⊢ <;> omega
  · obtain ⟨h1, h2, h3⟩ := source_back h hi hj
    rw [h.points _ h1 _ h2, h3]

theorem pixels_perm (h : Laid m g g') :
    ((pixels g'.ny g'.nx).map fun p => m.source g.ny g.nx p.1 p.2).Perm (pixels g.ny g.nx) := by
  refine (List.perm_ext_iff_of_nodup (List.Nodup.map_on ?_ (pixels_nodup _ _)) (pixels_nodup _ _)).2 fun q => ?_
  · rintro ⟨i, j⟩ hp ⟨k, l⟩ hq e
    rw [mem_pixels] at hp hq
    have hs := h.size
    cases m <;> simp only [Move.size, Move.source, Prod.mk.injEq, if_true, reduceCtorEq, if_false] at hs hp hq e ⊢ <;> omega
  · rw [List.mem_map, mem_pixels]
    constructor
    · rintro ⟨⟨i, j⟩, hp, rfl⟩
      rw [mem_pixels] at hp
      exact source_lt h hp.1 hp.2
    · rintro ⟨h1, h2⟩
      obtain ⟨a, b, c⟩ := source_back h h1 h2
      exact ⟨_, mem_pixels.2 ⟨a, b⟩, c⟩

theorem flat_perm (h : Laid m g g') : (flat g').Perm (flat g) := by
  rw [flat_eq_pixels h.wf, flat_eq_pixels h.wf']
  have e : (pixels g'.ny g'.nx).map (fun p => g'.get p.1 p.2) =
      ((pixels g'.ny g'.nx).map fun p => m.source g.ny g.nx p.1 p.2).map fun p => g.get p.1 p.2 := by
    rw [List.map_map]
    refine List.map_congr_left fun p hp => ?_
    rw [mem_pixels] at hp
    exact h.points _ hp.1 _ hp.2
  rw [e]
  exact (pixels_perm h).map _

theorem get_mapf {α β : Type} (f : Option α → Option β) {g : Grid (Option α)} (hg : g.WF) {i j : Nat} (hi : i < g.ny) (hj : j < g.nx) :
    (Container.map f g).get i j = f (g.get i j) := by
  have hi' : i < g.rows.length := hi
  have hl : g.rows[i].length = g.nx := hg _ (List.getElem_mem hi')
  show ((((g.rows.map (List.map f))[i]?).bind fun r => r[j]?).getD none) = _
  unfold Grid.get
  rw [List.getElem?_map, List.getElem?_eq_getElem hi']
  simp [List.getElem?_eq_getElem (hl ▸ hj : j < g.rows[i].length)]

theorem laid_map {L : Type} (f : Option K → Option L) (h : Laid m g g') : Laid m (Container.map f g) (Container.map f g') := by
  refine ⟨map_wf f h.wf, map_wf f h.wf', by rw [map_ny, map_ny, map_nx, map_nx]; exact h.size, fun i hi j hj => ?_⟩
  rw [map_ny] at hi
  rw [map_nx] at hj
  obtain ⟨h1, h2⟩ := source_lt h hi hj
  rw [map_ny, map_nx, get_mapf f h.wf' hi hj, get_mapf f h.wf h1 h2, h.points i hi j hj]

theorem laid_ofFn {L : Type} (h : Laid m g g') {f f' : Nat → Nat → Option L}
    (hf : ∀ i < g'.ny, ∀ j < g'.nx, f' i j = f (m.source g.ny g.nx i j).1 (m.source g.ny g.nx i j).2) :
    Laid m (Grid.ofFn g.ny g.nx f) (Grid.ofFn g'.ny g'.nx f') := by
  refine ⟨ofFn_wf _ _ _, ofFn_wf _ _ _, by rw [ofFn_ny, ofFn_ny, ofFn_nx, ofFn_nx]; exact h.size, fun i hi j hj => ?_⟩
  rw [ofFn_ny] at hi
  rw [ofFn_nx] at hj
  obtain ⟨h1, h2⟩ := source_lt h hi hj
  rw [ofFn_ny, ofFn_nx, get_ofFn _ hi hj, get_ofFn _ h1 h2, hf i hi j hj]

theorem measured_perm {l l' : List (Option K)} (h : l.Perm l') : (measured l).Perm (measured l') := h.filterMap _

theorem hasMissing_eq (h : Laid m g g') : hasMissing g' = hasMissing g := by
  rw [Bool.eq_iff_iff]
  simp only [hasMissing, List.any_eq_true]
  exact ⟨fun ⟨z, hz, h1⟩ => ⟨z, (flat_perm h).mem_iff.1 hz, h1⟩, fun ⟨z, hz, h1⟩ => ⟨z, (flat_perm h).mem_iff.2 hz, h1⟩⟩

end

section Detrending
open Detrend Spec
variable {K : Type} [Field K] [LinearOrder K] [IsStrictOrderedRing K] {m : Move} {g g' : Grid (Option K)}

theorem validPixels_perm (h : Laid m g g') :
    ((validPixels g').map fun q => (m.source g.ny g.nx q.1.1 q.1.2, q.2)).Perm (validPixels g) := by
  have e : (validPixels g').map (fun q => (m.source g.ny g.nx q.1.1 q.1.2, q.2)) =
      ((pixels g'.ny g'.nx).map fun p => m.source g.ny g.nx p.1 p.2).filterMap fun p => (g.get p.1 p.2).map fun z => (p, z) := by
    unfold validPixels
    rw [List.map_filterMap, List.filterMap_map]
    refine List.filterMap_congr fun p hp => ?_
    rw [mem_pixels] at hp
    rw [h.points _ hp.1 _ hp.2]
    simp only [Function.comp]
    cases g.get (m.source g.ny g.nx p.1 p.2).1 (m.source g.ny g.nx p.1 p.2).2 <;> rfl
  rw [e]
  exact (pixels_perm h).filterMap _

theorem sse_perm {ι : Type} {v v' : List (ι × K)} (h : v.Perm v') (f : ι → K) : sse v f = sse v' f :=
  (h.map _).sum_eq

/-- A trend seen after the move is a trend. -/
theorem move_trend (h : Laid m g g') {d : Nat} {f : Nat × Nat → K} (hf : f ∈ pixPoly d) :
    ∃ φ ∈ pixPoly (K := K) d, ∀ i < g'.ny, ∀ j < g'.nx, φ (i, j) = f (m.source g.ny g.nx i j) := by
  obtain ⟨c, hc⟩ := (mem_polySpace_iff _ _ _ _).1 hf
  have hs := h.size
  cases m with
  | mirror =>
    simp only [Move.size, Prod.mk.injEq, reduceCtorEq, if_false] at hs
    refine ⟨fun p => poly2 d c (-1 * (p.2 : K) + ((g.nx : K) - 1)) (p.1 : K), ?_, fun i hi j hj => ?_⟩
    · refine polySpace_le (u := fun p : Nat × Nat => (p.2 : K)) (v := fun p : Nat × Nat => (p.1 : K))
        (affine_left _ _ (-1) ((g.nx : K) - 1)) (v' := fun p : Nat × Nat => (p.1 : K)) ?_ d ((mem_polySpace_iff _ _ _ _).2 ⟨c, fun p => rfl⟩)
      have := affine_right (fun p : Nat × Nat => (p.2 : K)) (fun p : Nat × Nat => (p.1 : K)) 1 0
      simpa using this
    · rw [hc]
      simp only [Move.source]
      have e : ((g.nx - 1 - j : Nat) : K) = -1 * (j : K) + ((g.nx : K) - 1) := by
        have : g.nx - 1 - j + j + 1 = g.nx := by omega
        have e := congrArg (fun n : Nat => (n : K)) this
        push_cast at e
        linarith
      rw [e]
  | flip =>
    simp only [Move.size, Prod.mk.injEq, reduceCtorEq, if_false] at hs
    refine ⟨fun p => poly2 d c (p.2 : K) (-1 * (p.1 : K) + ((g.ny : K) - 1)), ?_, fun i hi j hj => ?_⟩
    · refine polySpace_le (u := fun p : Nat × Nat => (p.2 : K)) (v := fun p : Nat × Nat => (p.1 : K))
        (u' := fun p : Nat × Nat => (p.2 : K)) ?_ (affine_right _ _ (-1) ((g.ny : K) - 1)) d ((mem_polySpace_iff _ _ _ _).2 ⟨c, fun p => rfl⟩)
      have := affine_left (fun p : Nat × Nat => (p.2 : K)) (fun p : Nat × Nat => (p.1 : K)) 1 0
      simpa using this
    · rw [hc]
      simp only [Move.source]
      have e : ((g.ny - 1 - i : Nat) : K) = -1 * (i : K) + ((g.ny : K) - 1) := by
        have : g.ny - 1 - i + i + 1 = g.ny := by omega
        have e := congrArg (fun n : Nat => (n : K)) this
        push_cast at e
        linarith
      rw [e]
  | transpose =>
    refine ⟨fun p => poly2 d c (p.1 : K) (p.2 : K), ?_, fun i hi j hj => ?_⟩
    · refine polySpace_le (u := fun p : Nat × Nat => (p.2 : K)) (v := fun p : Nat × Nat => (p.1 : K))
        (u' := fun p : Nat × Nat => (p.1 : K)) (v' := fun p : Nat × Nat => (p.2 : K)) ?_ ?_ d ((mem_polySpace_iff _ _ _ _).2 ⟨c, fun p => rfl⟩)
      · have := affine_right (fun p : Nat × Nat => (p.2 : K)) (fun p : Nat × Nat => (p.1 : K)) 1 0
        simpa using this
      · have := affine_left (fun p : Nat × Nat => (p.2 : K)) (fun p : Nat × Nat => (p.1 : K)) 1 0
        simpa using this
    · rw [hc]; rfl

theorem sse_move (h : Laid m g g') {φ f : Nat × Nat → K} (hφ : ∀ i < g'.ny, ∀ j < g'.nx, φ (i, j) = f (m.source g.ny g.nx i j)) :
    sse (validPixels g') φ = sse (validPixels g) f := by
  rw [← sse_perm (validPixels_perm h)]
  unfold sse
  rw [List.map_map]
  congr 1
  refine List.map_congr_left fun q hq => ?_
  obtain ⟨p, hp, hq⟩ := List.mem_filterMap.1 hq
  rw [mem_pixels] at hp
  cases hz : g'.get p.1 p.2 with
  | none => rw [hz] at hq; cases hq
  | some z =>
    rw [hz] at hq
    simp only [Option.map_some, Option.some.injEq] at hq
    subst hq
    simp only [Function.comp]
    rw [← hφ p.1 hp.1 p.2 hp.2]

/-- Trends of the two placements agree at the measured points. -/
theorem trend_move (h : Laid m g g') {d : Nat} {f f' : Nat × Nat → K} (hf : f ∈ pixPoly d) (hf' : f' ∈ pixPoly d)
    (mf : ∀ φ ∈ pixPoly d, sse (validPixels g) f ≤ sse (validPixels g) φ) (mf' : ∀ φ ∈ pixPoly d, sse (validPixels g') f' ≤ sse (validPixels g') φ) :
    ∀ q ∈ validPixels g', f' q.1 = f (m.source g.ny g.nx q.1.1 q.1.2) := by
  obtain ⟨φ, hφ, e⟩ := move_trend h hf
  intro q hq
  have key := minimiser_unique (pixPoly d) (validPixels g') hf' hφ mf' (fun ψ hψ => by
    obtain ⟨χ, hχ, e'⟩ := move_trend (laid_symm h) hψ
    have e1 := sse_move (laid_symm h) e'
    rw [sse_move h e, ← e1]
    exact mf χ hχ) q hq
  rw [key]
  obtain ⟨p, hp, hq⟩ := List.mem_filterMap.1 hq
  rw [mem_pixels] at hp
  cases hz : g'.get p.1 p.2 with
  | none => rw [hz] at hq; cases hq
  | some z =>
    rw [hz] at hq
    simp only [Option.map_some, Option.some.injEq] at hq
    subst hq
    exact e p.1 hp.1 p.2 hp.2

end Detrending

section Smoothing
open Gauss

theorem ext_rev (mode : End) (n : Nat) (hn : 0 < n) (k : Int) :
    ext mode n ((n : Int) - 1 - k) = (ext mode n k).map fun j => n - 1 - j := by
  have div : ∀ (p : Int), 0 < p → ∃ r q : Int, k % p = r ∧ 0 ≤ r ∧ r < p ∧ k = p * q + r := fun p hp =>
    ⟨k % p, k / p, rfl, Int.emod_nonneg _ (by omega), Int.emod_lt_of_pos _ hp, (Int.mul_ediv_add_emod k p).symm⟩
  have modq : ∀ (p q s : Int), 0 ≤ s → s < p → (p * q + s) % p = s := fun p q s h0 h1 => by
    rw [Int.mul_add_emod_self_left, Int.emod_eq_of_lt h0 h1]
  unfold ext
  cases mode with
  | reflect =>
    obtain ⟨r, q, h1, h2, h3, h4⟩ := div (2 * n) (by omega)
    simp only [h1, Option.map_some]
    by_cases hr : r < n
    · have e : ((n : Int) - 1 - k) % (2 * n) = n - 1 - r := by
        rw [show (n : Int) - 1 - k = 2 * n * (-q) + (n - 1 - r) by rw [h4]; ring]
        exact modq _ _ _ (by omega) (by omega)
      rw [e, if_pos hr, if_pos (by omega)]
      congr 1; omega
    · have e : ((n : Int) - 1 - k) % (2 * n) = 3 * n - 1 - r := by
        rw [show (n : Int) - 1 - k = 2 * n * (-q - 1) + (3 * n - 1 - r) by rw [h4]; ring]
        exact modq _ _ _ (by omega) (by omega)
      rw [e, if_neg hr, if_neg (by omega)]
      congr 1; omega
  | constant =>
    simp only
    by_cases h : 0 ≤ k ∧ k < n
    · rw [if_pos h, if_pos (by omega)]
      simp only [Option.map_some]
      congr 1; omega
    · rw [if_neg h, if_neg (by omega)]
      rfl
  | nearest =>
    simp only [Option.map_some]
    congr 1
    split_ifs <;> omega
  | mirror =>
    simp only [Option.map_some]
    by_cases hn1 : n ≤ 1
    · rw [if_pos hn1, if_pos hn1]
      congr 1; omega
    · rw [if_neg hn1, if_neg hn1]
      obtain ⟨r, q, h1, h2, h3, h4⟩ := div (2 * n - 2) (by omega)
      simp only [h1]
      by_cases hr : r < n
      · have e : ((n : Int) - 1 - k) % (2 * n - 2) = n - 1 - r := by
          rw [show (n : Int) - 1 - k = (2 * n - 2) * (-q) + (n - 1 - r) by rw [h4]; ring]
          exact modq _ _ _ (by omega) (by omega)
        rw [e, if_pos hr, if_pos (by omega)]
        congr 1; omega
      · have e : ((n : Int) - 1 - k) % (2 * n - 2) = 3 * n - 3 - r := by
          rw [show (n : Int) - 1 - k = (2 * n - 2) * (-q - 1) + (3 * n - 3 - r) by rw [h4]; ring]
          exact modq _ _ _ (by omega) (by omega)
        rw [e, if_neg hr]
        by_cases h5 : 3 * (n : Int) - 3 - r < n
        · rw [if_pos h5]; congr 1; omega
        · rw [if_neg h5]; congr 1; omega
  | wrap =>
    obtain ⟨r, q, h1, h2, h3, h4⟩ := div n (by omega)
    simp only [h1, Option.map_some]
    have e : ((n : Int) - 1 - k) % n = n - 1 - r := by
      rw [show (n : Int) - 1 - k = n * (-q) + (n - 1 - r) by rw [h4]; ring]
      exact modq _ _ _ (by omega) (by omega)
    rw [e]
    congr 1; omega

theorem ext_lt {mode : End} {n : Nat} (hn : 0 < n) {k : Int} {j : Nat} (h : ext mode n k = some j) : j < n := by
  unfold ext at h
  cases mode with
  | reflect =>
    have h0 := Int.emod_nonneg k (show (2 * n : Int) ≠ 0 by omega)
    have h1 := Int.emod_lt_of_pos k (show 0 < (2 * n : Int) by omega)
    simp only [Option.some.injEq] at h
    split_ifs at h <;> omega
  | constant =>
    simp only at h
    split_ifs at h with hk
    simp only [Option.some.injEq] at h
    omega
  | nearest =>
    simp only [Option.some.injEq] at h
    split_ifs at h <;> omega
  | mirror =>
    simp only [Option.some.injEq] at h
    split_ifs at h with h1 h2
    · omega
    · have h0 := Int.emod_nonneg k (show (2 * n - 2 : Int) ≠ 0 by omega)
      omega
    · have h0 := Int.emod_nonneg k (show (2 * n - 2 : Int) ≠ 0 by omega)
      have h1 := Int.emod_lt_of_pos k (show 0 < (2 * n - 2 : Int) by omega)
      omega
  | wrap =>
    have h0 := Int.emod_nonneg k (show (n : Int) ≠ 0 by omega)
    have h1 := Int.emod_lt_of_pos k (show 0 < (n : Int) by omega)
    simp only [Option.some.injEq] at h
    omega

theorem pick_rev (mode : End) {n : Nat} (hn : 0 < n) {z z' : Nat → ℝ} (hz : ∀ j < n, z' j = z (n - 1 - j)) (k : Int) :
    pick mode n z' k = pick mode n z ((n : Int) - 1 - k) := by
  unfold pick
  rw [ext_rev mode n hn k]
  cases h : ext mode n k with
  | none => rfl
  | some j => exact hz j (ext_lt hn h)

theorem phi_neg (σ : ℝ) (m : Int) : phi σ (-m) = phi σ m := by unfold phi; congr 2; push_cast; ring

theorem weight_neg (σ : ℝ) (m : Int) : weight σ (-m) = weight σ m := by unfold weight; rw [phi_neg]

/-- Smoothing an axis read backwards. -/
theorem axis_rev (mode : End) (σ : ℝ) {n : Nat} {z z' : Nat → ℝ} (hz : ∀ j < n, z' j = z (n - 1 - j)) {i : Nat} (hi : i < n) :
    axis mode σ n z' i = axis mode σ n z (n - 1 - i) := by
  unfold axis
  split
  · have e : ∀ F : Int → ℝ, ∑ m ∈ Finset.Icc (-(radius σ : Int)) (radius σ), F m = ∑ m ∈ Finset.Icc (-(radius σ : Int)) (radius σ), F (-m) := by
      intro F
      refine Finset.sum_nbij' (fun m => -m) (fun m => -m) ?_ ?_ ?_ ?_ ?_ <;> intros <;> simp_all [Finset.mem_Icc] <;> omega
    rw [e]
    refine Finset.sum_congr rfl fun m _ => ?_
    rw [weight_neg, pick_rev mode (by omega) hz]
    congr 2
    omega
  · exact hz i hi

theorem axis_cong (mode : End) (σ : ℝ) {n : Nat} {z z' : Nat → ℝ} (hz : ∀ j < n, z' j = z j) {i : Nat} (hi : i < n) :
    axis mode σ n z' i = axis mode σ n z i := by
  unfold axis
  split
  · refine Finset.sum_congr rfl fun m _ => ?_
    congr 1
    unfold pick
    cases h : ext mode n (i + m) with
    | none => rfl
    | some j => exact hz j (ext_lt (by omega) h)
  · exact hz i hi

theorem pick_sum (mode : End) (n : Nat) {ι : Type} (s : Finset ι) (w : ι → ℝ) (F : ι → Nat → ℝ) (k : Int) :
    pick mode n (fun i => ∑ m ∈ s, w m * F m i) k = ∑ m ∈ s, w m * pick mode n (F m) k := by
  unfold pick
  cases ext mode n k with
  | none => simp
  | some j => rfl

theorem pick_swap (mode : End) (n n' : Nat) (F : Nat → Nat → ℝ) (a b : Int) :
    pick mode n (fun i => pick mode n' (F i) b) a = pick mode n' (fun j => pick mode n (fun i => F i j) a) b := by
  unfold pick
  cases ext mode n a <;> cases ext mode n' b <;> rfl

/-- The order in which the axes are smoothed does not matter. -/
theorem axis_comm (mode : End) (σ σ' : ℝ) (n n' : Nat) (F : Nat → Nat → ℝ) (i j : Nat) :
    axis mode σ n (fun k => axis mode σ' n' (F k) j) i = axis mode σ' n' (fun l => axis mode σ n (fun k => F k l) i) j := by
  unfold axis
  by_cases h : 1 / 10 ^ 15 < σ
  · by_cases h' : 1 / 10 ^ 15 < σ'
    · simp only [if_pos h, if_pos h', pick_sum, Finset.mul_sum]
      rw [Finset.sum_comm]
      refine Finset.sum_congr rfl fun m _ => Finset.sum_congr rfl fun l _ => ?_
      rw [pick_swap]
      ring
    · simp only [if_pos h, if_neg h']
  · by_cases h' : 1 / 10 ^ 15 < σ'
    · simp only [if_neg h, if_pos h']
    · simp only [if_neg h, if_neg h']

end Smoothing

section Blocks
open Spec
variable {K : Type} {m : Move} {g g' r r' : Grid (Option K)}

theorem block_get {y0 x0 ny nx : Nat} (h : IsBlock g r y0 x0 ny nx) {i j : Nat} (hi : i < ny) (hj : j < nx) :
    r.get i j = g.get (y0 + i) (x0 + j) := by
  have := h.points i hi j hj
  unfold at? at this
  unfold Grid.get
  rw [this]

/-- Blocks of the two placements that correspond. -/
theorem laid_block (h : Laid m g g') {y0 x0 ny nx y0' x0' ny' nx' : Nat} (b : IsBlock g r y0 x0 ny nx) (b' : IsBlock g' r' y0' x0' ny' nx')
    (hs : (ny', nx') = m.size ny nx)
    (hc : match m with
      | .mirror => y0' = y0 ∧ x0' + nx + x0 = g.nx
      | .flip => y0' + ny + y0 = g.ny ∧ x0' = x0
      | .transpose => y0' = x0 ∧ x0' = y0) : Laid m r r' := by
  have hg := h.size
  refine ⟨b.wf, b'.wf, by rw [b.shape.1, b.shape.2, b'.shape.1, b'.shape.2]; exact hs, fun i hi j hj => ?_⟩
  rw [b'.shape.1] at hi
  rw [b'.shape.2] at hj
  have i1 := b.inside
  have i2 := b'.inside
  rw [block_get b' hi hj, h.points _ (by omega) _ (by omega), b.shape.1, b.shape.2]
  cases m <;> simp only [Move.size, Move.source, Prod.mk.injEq, if_true, reduceCtorEq, if_false] at hs hg hc ⊢
  · rw [block_get b (by omega) (by omega)]
    congr 1 <;> omega
  · rw [block_get b (by omega) (by omega)]
    congr 1 <;> omega
  · rw [block_get b (by omega) (by omega)]
    congr 1 <;> omega

end Blocks

section Filling
open Spec FillRotate
variable {K : Type} {m : Move} {g g' : Grid (Option K)}

theorem dist_move (h : Laid m g g') {p q : Nat × Nat} (hp : p.1 < g'.ny ∧ p.2 < g'.nx) (hq : q.1 < g'.ny ∧ q.2 < g'.nx) :
    dist2 (m.source g.ny g.nx p.1 p.2) (m.source g.ny g.nx q.1 q.2) = dist2 p q := by
  have hs := h.size
  unfold dist2 Nat.dist
  cases m <;> simp only [Move.size, Move.source, Prod.mk.injEq, if_true, reduceCtorEq, if_false] at hs ⊢
  · rw [show g.nx - 1 - p.2 - (g.nx - 1 - q.2) + (g.nx - 1 - q.2 - (g.nx - 1 - p.2)) = p.2 - q.2 + (q.2 - p.2) by omega]
  · rw [show g.ny - 1 - p.1 - (g.ny - 1 - q.1) + (g.ny - 1 - q.1 - (g.ny - 1 - p.1)) = p.1 - q.1 + (q.1 - p.1) by omega]
  · omega

theorem mem_points2 {p : Nat × Nat} {z : K} : (p, z) ∈ points2 g ↔ p.1 < g.ny ∧ p.2 < g.nx ∧ g.get p.1 p.2 = some z := by
  unfold points2
  rw [List.mem_filterMap]
  constructor
  · rintro ⟨q, hq, e⟩
    rw [mem_pixels] at hq
    cases hz : g.get q.1 q.2 with
    | none => rw [hz] at e; cases e
    | some w =>
      rw [hz] at e
      simp only [Option.map_some, Option.some.injEq, Prod.mk.injEq] at e
      obtain ⟨rfl, rfl⟩ := e
      exact ⟨hq.1, hq.2, hz⟩
  · rintro ⟨h1, h2, h3⟩
    exact ⟨p, mem_pixels.2 ⟨h1, h2⟩, by rw [h3]; rfl⟩

end Filling

end Surfalize.Lying
