import Verif.Lemmas.Spline
import Verif.Props.AutocorrPlace
/-!
# C75 and C108 for the interpolation the program uses: the cubic spline through the autocorrelation
-/
set_option linter.unusedSectionVars false
namespace Surfalize.Props
open Surfalize Autocorr BaseOps Finset Container Spec Placement Spline SplineSpec

/-- The coefficients of a spline are determined by the values. -/
theorem spline_coef {coef : Prefilter} (hc : Interpolates coef) {A : Grid (Option ℝ)} {c : Nat → Nat → ℝ}
    (h : ∀ i < A.ny, ∀ j < A.nx, at2 A.ny A.nx c i j = A.val i j) {i j : Nat} (hi : i < A.ny) (hj : j < A.nx) : coef A i j = c i j :=
  at2_inj (fun i hi j hj => by rw [hc.value A i hi j hj, h i hi j hj]) i hi j hj

private theorem cast_opposite {n i : Nat} (hi : i < n) : ((n - 1 - i : Nat) : ℝ) = (n : ℝ) - 1 - i := by
  have : (n - 1 - i) + i + 1 = n := by omega
  have := congrArg (Nat.cast (R := ℝ)) this
  push_cast at this ⊢
  linarith

private theorem centre_half {n : Nat} (h : n % 2 = 1) : (n : ℝ) = 2 * ((n / 2 : Nat) : ℝ) + 1 := by
  have : n = 2 * (n / 2) + 1 := by omega
  exact_mod_cast this

/-- **C108** (the spline): the cubic spline along a line from the centre sees a mirrored or transposed array as the mirrored or transposed line, so the
hypothesis of C108 holds for the interpolation the program uses. -/
theorem C108_spline_moves {coef : Prefilter} (hc : Interpolates coef) : LineMoves (splineLine coef) := by
  refine ⟨fun A B h1 h2 h i hi j hj => ?_, fun A B h1 h2 h i hi j hj => ?_, fun A B h1 h2 h i hi j hj => ?_⟩
  · obtain ⟨w, ny, nx, hget⟩ := h
    have hco : ∀ i < A.ny, ∀ j < A.nx, coef B i j = coef A i (A.nx - 1 - j) := fun i hi j hj => by
      refine spline_coef hc (c := fun i j => coef A i (A.nx - 1 - j)) (fun i hi j hj => ?_) (by omega) (by omega)
      rw [ny] at hi
      rw [nx] at hj
      rw [ny, nx, at2_mirror (by omega), ← cast_opposite hj, hc.value A i hi _ (by omega)]
      unfold Grid.val
      rw [hget i hi j hj]
    unfold splineLine centerIdx
    rw [ny, nx]
    refine List.map_congr_left fun k _ => ?_
    dsimp only
    rw [at2_congr (by omega) (by omega) hco, at2_mirror (by omega), cast_opposite hj]
    congr 1
    have := centre_half h2
    rw [this]
    ring
  · obtain ⟨w, ny, nx, hget⟩ := h
    have hco : ∀ i < A.ny, ∀ j < A.nx, coef B i j = coef A (A.ny - 1 - i) j := fun i hi j hj => by
      refine spline_coef hc (c := fun i j => coef A (A.ny - 1 - i) j) (fun i hi j hj => ?_) (by omega) (by omega)
      rw [ny] at hi
      rw [nx] at hj
      rw [ny, nx, at2_flip (by omega), ← cast_opposite hi, hc.value A _ (by omega) j hj]
      unfold Grid.val
      rw [hget i hi j hj]
    unfold splineLine centerIdx
    rw [ny, nx]
    refine List.map_congr_left fun k _ => ?_
    dsimp only
    rw [at2_congr (by omega) (by omega) hco, at2_flip (by omega), cast_opposite hi]
    congr 1
    have := centre_half h1
    rw [this]
    ring
  · obtain ⟨w, ny, nx, hget⟩ := h
    have hco : ∀ i < A.nx, ∀ j < A.ny, coef B i j = coef A j i := fun i hi j hj => by
      refine spline_coef hc (c := fun i j => coef A j i) (fun i hi j hj => ?_) (by omega) (by omega)
      rw [ny] at hi
      rw [nx] at hj
      rw [ny, nx, at2_transpose, hc.value A j hj i hi]
      unfold Grid.val
      rw [hget i hi j hj]
    unfold splineLine centerIdx
    rw [ny, nx]
    refine List.map_congr_left fun k _ => ?_
    dsimp only
    rw [at2_congr (by omega) (by omega) hco, at2_transpose]

/-- **C108** for the cubic spline: Sal and Str of a mirrored or transposed sample without ties are those of the sample. -/
theorem C108_spline_partial {coef : Prefilter} (hc : Interpolates coef) (g g' : Grid (Option ℝ)) (hg : g.WF) (hy : 0 < g.ny) (hx : 0 < g.nx) (sx sy s : ℝ) (ht : NoTies g sx sy) :
    (IsMirror g g' ∨ IsFlip g g' → sal (splineLine coef) g' sx sy s = sal (splineLine coef) g sx sy s ∧ str (splineLine coef) g' sx sy s = str (splineLine coef) g sx sy s) ∧
    (IsTranspose g g' → sal (splineLine coef) g' sy sx s = sal (splineLine coef) g sx sy s ∧ str (splineLine coef) g' sy sx s = str (splineLine coef) g sx sy s) := by
  have hm := C108_spline_moves hc
  refine ⟨?_, fun h => C108_transpose_partial _ hm g g' hg hy hx h sx sy s ht⟩
  rintro (h | h)
  · exact C108_mirror_partial _ hm g g' hg hy hx h sx sy s ht
  · exact C108_flip_partial _ hm g g' hg hy hx h sx sy s ht

example : ∃ coef, Interpolates coef := exists_interpolates

/-- **C75** (the spline): the hypotheses of C75 hold for the interpolation the program uses. -/
theorem C75_spline {coef : Prefilter} (hc : Interpolates coef) : LineLength (splineLine coef) ∧ LineHomogeneous (splineLine coef) := by
  refine ⟨fun A p => by unfold splineLine; simp, fun c _ A p => ?_⟩
  have hny : (Container.map (Option.map fun z => c * z) A).ny = A.ny := by simp [Container.map, Grid.ny]
  have hnx : (Container.map (Option.map fun z => c * z) A).nx = A.nx := rfl
  have hco : coef (Container.map (Option.map fun z => c * z) A) = fun i j => c * coef A i j := by
    funext i j
    by_cases h : i < A.ny ∧ j < A.nx
    · refine spline_coef hc (c := fun i j => c * coef A i j) (fun i hi j hj => ?_) (by rw [hny]; exact h.1) h.2
      rw [hny] at hi ⊢
      rw [hnx] at hj ⊢
      have : at2 A.ny A.nx (fun i j => c * coef A i j) i j = c * at2 A.ny A.nx (coef A) i j := by
        unfold at2
        rw [← at1_smul]
        congr 1
        funext i
        exact at1_smul _ _ _ _
      rw [this, hc.value A i hi j hj, val_scale]
    · rw [hc.shape _ _ _ (by rw [hny, hnx]; omega), hc.shape _ _ _ (by omega), mul_zero]
  unfold splineLine centerIdx
  rw [hco, hny, hnx, List.map_map]
  refine List.map_congr_left fun k _ => ?_
  unfold at2
  show _ = c * _
  rw [← at1_smul]
  congr 1
  funext i
  exact at1_smul _ _ _ _

end Surfalize.Props
