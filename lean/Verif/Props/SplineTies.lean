import Verif.Props.Spline
/-!
# C108 fails for samples with ties: mirroring a sample of 2 × 3 heights changes its Str

Two lags of the same length, `(-1, -1)` and `(-1, 1)`, have the same autocorrelation; the program takes the one that comes first in the array, and the
spline along the line to it crosses the threshold at another place than the spline along the line to the other one.
-/
set_option linter.unusedSectionVars false
namespace Surfalize.Props.Ties
open Surfalize Autocorr BaseOps Finset Container Spec Placement Spline SplineSpec

theorem argmin_cast (l : List ℚ) : argmin (l.map fun z : ℚ => (z : ℝ)) = argmin l := by
  unfold argmin
  have e : (l.map fun z : ℚ => (z : ℝ)).min? = l.min?.map fun z : ℚ => (z : ℝ) := by
    cases h : l.min? with
    | none => rw [List.min?_eq_none_iff] at h; subst h; rfl
    | some m =>
      obtain ⟨h1, h2⟩ := min?_spec.1 h
      refine min?_spec.2 ⟨List.mem_map.2 ⟨m, h1, rfl⟩, fun x hx => ?_⟩
      obtain ⟨y, hy, rfl⟩ := List.mem_map.1 hx
      show (m : ℝ) ≤ y
      exact_mod_cast h2 y hy
  rw [e]
  cases l.min? with
  | none => rfl
  | some m =>
    show List.idxOf _ _ = List.idxOf _ _
    unfold List.idxOf
    rw [List.findIdx_map]
    congr 1
    funext z
    simp

theorem argclosest_cast (x : ℚ) (l : List ℚ) : argclosest (x : ℝ) (l.map fun z : ℚ => (z : ℝ)) = argclosest x l := by
  unfold argclosest
  rw [← argmin_cast, List.map_map, List.map_map]
  congr 1
  refine List.map_congr_left fun z _ => ?_
  simp

/-- The spline between two points. -/
def rowV {K : Type} [Field K] (t : K) (c0 c1 c2 c3 : K) : K :=
  (2 / 3 - t ^ 2 + t ^ 3 / 2) * c0 + (2 / 3 - (1 - t) ^ 2 + (1 - t) ^ 3 / 2) * c1 + (1 - t) ^ 3 / 6 * c2 + t ^ 3 / 6 * c3

theorem rowV_cast (t a b c d : ℚ) : ((rowV t a b c d : ℚ) : ℝ) = rowV (t : ℝ) a b c d := by unfold rowV; push_cast; rfl

theorem bs0 {t : ℝ} (h0 : 0 ≤ t) (h1 : t ≤ 1) : bspline t = 2 / 3 - t ^ 2 + t ^ 3 / 2 := by
  unfold bspline
  rw [abs_of_nonneg h0]
  split_ifs with a b
  · rfl
  · have : t = 1 := by linarith
    subst this; norm_num
  · linarith
theorem bs1 {t : ℝ} (h0 : 0 ≤ t) (h1 : t ≤ 1) : bspline (1 + t) = (1 - t) ^ 3 / 6 := by
  unfold bspline
  rw [abs_of_nonneg (by linarith)]
  split_ifs with a b
  · linarith
  · ring
  · have : t = 1 := by linarith
    subst this; norm_num

theorem bs_terms {t : ℝ} (h0 : 0 ≤ t) (h1 : t ≤ 1) (x : ℝ) :
    (x = t ∨ x = -t → bspline x = 2 / 3 - t ^ 2 + t ^ 3 / 2) ∧ (x = 1 - t ∨ x = -(1 - t) → bspline x = 2 / 3 - (1 - t) ^ 2 + (1 - t) ^ 3 / 2) ∧
    (x = 1 + t ∨ x = -(1 + t) → bspline x = (1 - t) ^ 3 / 6) ∧ (x = 2 - t ∨ x = -(2 - t) → bspline x = t ^ 3 / 6) ∧ (2 ≤ x ∨ x ≤ -2 → bspline x = 0) := by
  refine ⟨?_, ?_, ?_, ?_, ?_⟩
  · rintro (rfl | rfl)
    · exact bs0 h0 h1
    · rw [bspline_neg]; exact bs0 h0 h1
  · rintro (rfl | rfl)
    · exact bs0 (by linarith) (by linarith)
    · rw [bspline_neg]; exact bs0 (by linarith) (by linarith)
  · rintro (rfl | rfl)
    · exact bs1 h0 h1
    · rw [bspline_neg]; exact bs1 h0 h1
  · have : bspline (2 - t) = t ^ 3 / 6 := by
      rw [show 2 - t = 1 + (1 - t) by ring, bs1 (by linarith) (by linarith)]; ring
    rintro (rfl | rfl)
    · exact this
    · rw [bspline_neg]; exact this
  · intro h
    apply bspline_far
    rw [le_abs]
    rcases h with h | h
    · exact .inl h
    · exact .inr (by linarith)

theorem at1_three {t : ℝ} (h0 : 0 ≤ t) (h1 : t ≤ 1) (c : Nat → ℝ) : at1 3 c (1 - t) = rowV t (c 1) (c 0) (c 2) (c 1) := by
  have B := bs_terms h0 h1
  unfold at1 rowV
  simp only [sum_range_succ, sum_range_zero, show Spline.fold 3 0 = 1 from rfl, show Spline.fold 3 1 = 0 from rfl, show Spline.fold 3 2 = 1 from rfl,
    show Spline.fold 3 3 = 2 from rfl, show Spline.fold 3 4 = 1 from rfl]
  rw [(B _).2.2.2.1 (.inl (by push_cast; ring)), (B _).2.1 (.inl (by push_cast; ring)), (B _).1 (.inr (by push_cast; ring)), (B _).2.2.1 (.inr (by push_cast; ring)),
    (B _).2.2.2.2 (.inr (by push_cast; linarith))]
  ring

theorem at1_five {t : ℝ} (h0 : 0 ≤ t) (h1 : t ≤ 1) (c : Nat → ℝ) : at1 5 c (2 - t) = rowV t (c 2) (c 1) (c 3) (c 0) := by
  have B := bs_terms h0 h1
  unfold at1 rowV
  simp only [sum_range_succ, sum_range_zero, show Spline.fold 5 0 = 1 from rfl, show Spline.fold 5 1 = 0 from rfl, show Spline.fold 5 2 = 1 from rfl,
    show Spline.fold 5 3 = 2 from rfl, show Spline.fold 5 4 = 3 from rfl, show Spline.fold 5 5 = 4 from rfl, show Spline.fold 5 6 = 3 from rfl]
  rw [(B _).2.2.2.2 (.inl (by push_cast; linarith)), (B _).2.2.2.1 (.inl (by push_cast; ring)), (B _).2.1 (.inl (by push_cast; ring)), (B _).1 (.inr (by push_cast; ring)), (B _).2.2.1 (.inr (by push_cast; ring)),
    (B _).2.2.2.2 (.inr (by push_cast; linarith)), (B _).2.2.2.2 (.inr (by push_cast; linarith))]
  ring

theorem at1_five' {t : ℝ} (h0 : 0 ≤ t) (h1 : t ≤ 1) (c : Nat → ℝ) : at1 5 c (2 + t) = rowV t (c 2) (c 3) (c 1) (c 4) := by
  have := at1_mirror (n := 5) (by norm_num) c (2 - t)
  rw [at1_five h0 h1] at this
  rw [show (2 : ℝ) + t = ((5 : Nat) : ℝ) - 1 - (2 - t) by push_cast; ring, ← this]

/-- Six heights. -/
def tied : Grid (Option ℝ) := ⟨[[some (-2), some 0, some 0], [some (-1), some 0, some 1]], 3⟩
/-- The same, mirrored left and right. -/
def tiedMirrored : Grid (Option ℝ) := ⟨[[some 0, some 0, some (-2)], [some 1, some 0, some (-1)]], 3⟩

def tiedQ (i j : Nat) : ℚ := ((([[-2, 0, 0], [-1, 0, 1]] : List (List ℚ)).getD i []).getD j 0)
def corrQ (i j : Nat) : ℚ :=
  ((([[-20/9, -1/18, 5/9, -1/18, -2/9], [-13/18, -1/18, 8/9, -1/18, -13/18], [-2/9, -1/18, 5/9, -1/18, -20/9]] : List (List ℚ)).getD i []).getD j 0)
def coefQ (i j : Nat) : ℚ :=
  ((([[-2759/504, 323/252, 1/72, -1/252, -167/504], [-1/36, -11/18, 77/36, -11/18, -1/36], [-167/504, -1/252, 1/72, 323/252, -2759/504]] : List (List ℚ)).getD i []).getD j 0)

theorem autocov_cast (ny nx : Nat) (h : Nat → Nat → ℚ) (dy dx : Int) : autocov ny nx (fun i j => (h i j : ℝ)) dy dx = ((autocov ny nx h dy dx : ℚ) : ℝ) := by
  unfold autocov lagSum meanHeight
  push_cast
  rfl

theorem tied_val : tied.val = fun i j => (tiedQ i j : ℝ) := by
  funext i j
  rcases i with _ | _ | i <;> rcases j with _ | _ | _ | j <;> simp [tied, tiedQ, Grid.val, Grid.get]

theorem tied_corr : ∀ i < 3, ∀ j < 5, autocov 2 3 tiedQ ((i : Nat) - 1 : Int) ((j : Nat) - 2 : Int) = corrQ i j := by decide +kernel

theorem tied_acf : ∃ A, acf tied = .ok A ∧ A.ny = 3 ∧ A.nx = 5 ∧ ∀ i < 3, ∀ j < 5, A.val i j = (corrQ i j : ℝ) := by
  have hw : tied.WF := by intro r hr; simp [tied] at hr; rcases hr with rfl | rfl <;> rfl
  have hf : none ∉ flat tied := by simp [tied, flat]
  obtain ⟨A, hA, -⟩ := acf_ok hw hf
  obtain ⟨-, a2, a3, a4⟩ := acf_get hw hf hA
  change A.ny = 3 at a2
  change A.nx = 5 at a3
  refine ⟨A, hA, a2, a3, fun i hi j hj => ?_⟩
  unfold Grid.val
  rw [a4 i (by omega) j (by omega), Option.getD_some, tied_val]
  rw [← tied_corr i hi j hj, ← autocov_cast]
  rfl

theorem tied_edges {A : Grid (Option ℝ)} (hy : A.ny = 3) (hx : A.nx = 5) (hv : ∀ i < 3, ∀ j < 5, A.val i j > 8 / 45 ↔ j = 2) :
    edgeIdx A (8 / 45) = [(0, 1), (0, 3), (1, 1), (1, 3), (2, 1), (2, 3)] := by
  have hc : centerIdx A = (1, 2) := by unfold centerIdx; rw [hy, hx]
  have hm : ∀ p, Mask A (8 / 45) p ↔ p.1 < 3 ∧ p.2 = 2 := by
    rintro ⟨i, j⟩
    unfold Mask Inside
    rw [hy, hx]
    dsimp only
    constructor
    · rintro ⟨⟨h1, h2⟩, h3⟩; exact ⟨h1, (hv i h1 j h2).1 h3⟩
    · rintro ⟨h1, rfl⟩; exact ⟨⟨h1, by omega⟩, (hv i h1 2 (by omega)).2 rfl⟩
  have hmc : Mask A (8 / 45) (centerIdx A) := by rw [hm, hc]; decide
  have hr : ∀ p, Region (Mask A (8 / 45)) (centerIdx A) p ↔ p.1 < 3 ∧ p.2 = 2 := by
    intro p
    constructor
    · intro h; exact (hm p).1 (region_mask A _ hmc h)
    · rintro ⟨h1, h2⟩
      refine .inl ⟨hmc, ?_⟩
      obtain ⟨i, j⟩ := p
      dsimp only at h1 h2
      subst h2
      by_cases h : i = 1
      · subst h; rw [hc]
      · refine Relation.ReflTransGen.single ⟨?_, (hm _).2 ⟨h1, rfl⟩⟩
        rw [hc]
        exact .inr ⟨rfl, by dsimp only; omega⟩
  have key : ∀ p, p ∈ edgeIdx A (8 / 45) ↔ Inside A p ∧ (p.2 = 1 ∨ p.2 = 3) := by
    rintro ⟨i, j⟩
    rw [mem_edgeIdx]
    unfold Inside
    rw [hy, hx, hr]
    constructor
    · rintro ⟨h1, h2, ⟨q1, q2⟩, ⟨-, h3⟩, h4⟩
      rw [hr] at h3
      unfold Adj4 at h4
      dsimp only at *
      omega
    · rintro ⟨h1, h2⟩
      refine ⟨h1, by dsimp only at *; omega, (i, 2), ⟨⟨h1.1, by omega⟩, (hr _).2 ⟨h1.1, rfl⟩⟩, .inl ?_⟩
      dsimp only at *
      omega
  have hpix : pixels 3 5 = [(0, 0), (0, 1), (0, 2), (0, 3), (0, 4), (1, 0), (1, 1), (1, 2), (1, 3), (1, 4), (2, 0), (2, 1), (2, 2), (2, 3), (2, 4)] := rfl
  have e : edgeIdx A (8 / 45) = (pixels 3 5).filter fun p => decide (p.2 = 1 ∨ p.2 = 3) := by
    unfold edgeIdx at key ⊢
    rw [hy, hx] at key ⊢
    refine List.filter_congr fun p hp => ?_
    have := key p
    rw [List.mem_filter] at this
    have hin : Inside A p := by unfold Inside; rw [hy, hx]; exact mem_pixels.1 hp
    rw [Bool.eq_iff_iff, decide_eq_true_eq (p := p.2 = 1 ∨ p.2 = 3)]
    tauto
  rw [e, hpix]
  decide

theorem tied_decay (line : LineInterp) {A : Grid (Option ℝ)} (hy : A.ny = 3) (hx : A.nx = 5) (hv : ∀ i < 3, ∀ j < 5, A.val i j > 8 / 45 ↔ j = 2)
    (hc : A.val 1 2 = 8 / 9) (h1 : A.val 1 3 = A.val 1 1) (h2 : A.val 0 3 = A.val 0 1) (h3 : A.val 2 1 = A.val 0 1) (h4 : A.val 2 3 = A.val 0 1) :
    decayLengths line A 1 1 (1 / 5) = .ok ((argclosest (8 / 45) (line A (1, 1)) : ℝ) / 999, Real.sqrt 2 * (argclosest (8 / 45) (line A (0, 1)) : ℝ) / 999) := by
  have hcen : centerIdx A = (1, 2) := by unfold centerIdx; rw [hy, hx]
  have ht : (1 / 5 : ℝ) * A.val (centerIdx A).1 (centerIdx A).2 = 8 / 45 := by rw [hcen, hc]; norm_num
  have hl : ∀ i j : Nat, lagLength A 1 1 (i, j) = Real.sqrt (((i : ℝ) - 1) ^ 2 + ((j : ℝ) - 2) ^ 2) := fun i j => by
    unfold lagLength; rw [hcen]; simp
  have l1 : lagLength A 1 1 (1, 1) = 1 := by rw [hl]; norm_num
  have l2 : lagLength A 1 1 (1, 3) = 1 := by rw [hl]; norm_num
  have l3 : lagLength A 1 1 (0, 1) = Real.sqrt 2 := by rw [hl]; norm_num
  have l4 : lagLength A 1 1 (0, 3) = Real.sqrt 2 := by rw [hl]; norm_num
  have l5 : lagLength A 1 1 (2, 1) = Real.sqrt 2 := by rw [hl]; norm_num
  have l6 : lagLength A 1 1 (2, 3) = Real.sqrt 2 := by rw [hl]; norm_num
  have hs : 1 < Real.sqrt 2 := by rw [Real.lt_sqrt] <;> norm_num
  unfold decayLengths
  dsimp only
  rw [ht, tied_edges hy hx hv]
  simp only [List.map_cons, List.map_nil, l1, l2, l3, l4, l5, l6]
  generalize Real.sqrt 2 = r at hs l3
  have m1 : Interp.argminAll [some r, some r, some 1, some 1, some r, some r] = .ok [2, 3] := by
    have : propmin [some r, some r, some 1, some 1, some r, some r] = some 1 := by
      unfold propmin
      rw [if_neg (by simp)]
      refine min?_spec.2 ⟨by simp [measured], fun x hx => ?_⟩
      simp [measured] at hx
      rcases hx with h | h | h <;> rw [h] <;> linarith
    unfold Interp.argminAll
    rw [if_neg (by simp), this]
    simp [Interp.whereEq, List.range_succ, hs.ne']
  have m2 : Interp.argmaxAll [some r, some r, some 1, some 1, some r, some r] = .ok [0, 1, 4, 5] := by
    have : propmax [some r, some r, some 1, some 1, some r, some r] = some r := by
      unfold propmax
      rw [if_neg (by simp)]
      refine max?_spec.2 ⟨by simp [measured], fun x hx => ?_⟩
      simp [measured] at hx
      rcases hx with h | h | h <;> rw [h] <;> linarith
    unfold Interp.argmaxAll
    rw [if_neg (by simp), this]
    simp [Interp.whereEq, List.range_succ, hs.ne]
  rw [m1, m2]
  have p1 : pickEdge A [(0, 1), (0, 3), (1, 1), (1, 3), (2, 1), (2, 3)] [2, 3] = (1, 1) := by
    unfold pickEdge
    simp [h1, argmin, List.min?]
  have p2 : pickEdge A [(0, 1), (0, 3), (1, 1), (1, 3), (2, 1), (2, 3)] [0, 1, 4, 5] = (0, 1) := by
    unfold pickEdge
    simp [h2, h3, h4, argmin, List.min?]
  dsimp only
  rw [p1, p2]
  unfold decayAlong
  rw [l1, l3, one_mul]

/-- The values at the points from the coefficients. -/
def nodeQ (i j : Nat) : ℚ :=
  let r : Nat → ℚ := fun i => (coefQ i (Spline.fold 5 j) + 4 * coefQ i j + coefQ i (Spline.fold 5 (j + 2))) / 6
  (r (Spline.fold 3 i) + 4 * r i + r (Spline.fold 3 (i + 2))) / 6

theorem node_corr : ∀ i < 3, ∀ j < 5, nodeQ i j = corrQ i j := by decide +kernel

theorem tied_coef {coef : Prefilter} (hc : Interpolates coef) {A : Grid (Option ℝ)} (hy : A.ny = 3) (hx : A.nx = 5)
    (hv : ∀ i < 3, ∀ j < 5, A.val i j = (corrQ i j : ℝ)) : ∀ i < 3, ∀ j < 5, coef A i j = (coefQ i j : ℝ) := by
  intro i hi j hj
  refine spline_coef hc (c := fun i j => (coefQ i j : ℝ)) (fun i hi j hj => ?_) (by omega) (by omega)
  rw [hy] at hi
  rw [hx] at hj
  rw [hv i hi j hj, ← node_corr i hi j hj, hy, hx]
  unfold at2
  rw [at1_node hi, at1_node hj, at1_node hj, at1_node hj]
  unfold nodeQ
  push_cast
  rfl

/-- The spline from the centre to the upper left, to the upper right, to the left and to the right, as rational numbers. -/
def upLeft (t : ℚ) : ℚ := let r := fun i => rowV t (coefQ i 2) (coefQ i 1) (coefQ i 3) (coefQ i 0)
  rowV t (r 1) (r 0) (r 2) (r 1)
def upRight (t : ℚ) : ℚ := let r := fun i => rowV t (coefQ i 2) (coefQ i 3) (coefQ i 1) (coefQ i 4)
  rowV t (r 1) (r 0) (r 2) (r 1)
def left (t : ℚ) : ℚ := let r := fun i => rowV t (coefQ i 2) (coefQ i 1) (coefQ i 3) (coefQ i 0)
  rowV 0 (r 1) (r 0) (r 2) (r 1)
def right (t : ℚ) : ℚ := let r := fun i => rowV t (coefQ i 2) (coefQ i 3) (coefQ i 1) (coefQ i 4)
  rowV 0 (r 1) (r 0) (r 2) (r 1)

set_option maxRecDepth 20000 in
theorem upLeft_index : argclosest (8 / 45) ((List.range 1000).map fun k : Nat => upLeft (k / 999)) = 878 := by decide +kernel
set_option maxRecDepth 20000 in
theorem upRight_index : argclosest (8 / 45) ((List.range 1000).map fun k : Nat => upRight (k / 999)) = 671 := by decide +kernel
set_option maxRecDepth 20000 in
theorem left_index : argclosest (8 / 45) ((List.range 1000).map fun k : Nat => left (k / 999)) = 814 := by decide +kernel
set_option maxRecDepth 20000 in
theorem right_index : argclosest (8 / 45) ((List.range 1000).map fun k : Nat => right (k / 999)) = 814 := by decide +kernel

theorem tied_lines {coef : Prefilter} (hc : Interpolates coef) {A : Grid (Option ℝ)} (hy : A.ny = 3) (hx : A.nx = 5)
    (hv : ∀ i < 3, ∀ j < 5, A.val i j = (corrQ i j : ℝ)) :
    argclosest (8 / 45) (splineLine coef A (0, 1)) = 878 ∧ argclosest (8 / 45) (splineLine coef A (0, 3)) = 671 ∧
    argclosest (8 / 45) (splineLine coef A (1, 1)) = 814 ∧ argclosest (8 / 45) (splineLine coef A (1, 3)) = 814 := by
  have hcen : centerIdx A = (1, 2) := by unfold centerIdx; rw [hy, hx]
  have hco := tied_coef hc hy hx hv
  have step : ∀ (p : Nat × Nat) (f : ℚ → ℚ) (n : Nat), argclosest (8 / 45) ((List.range 1000).map fun k : Nat => f (k / 999)) = n →
      (∀ t : ℚ, 0 ≤ t → t ≤ 1 → at2 3 5 (fun i j => (coefQ i j : ℝ)) (1 + t * ((p.1 : ℝ) - 1)) (2 + t * ((p.2 : ℝ) - 2)) = (f t : ℝ)) →
      argclosest (8 / 45) (splineLine coef A p) = n := by
    intro p f n hn hf
    have hl : splineLine coef A p = ((List.range 1000).map fun k : Nat => f (k / 999)).map fun z : ℚ => (z : ℝ) := by
      unfold splineLine
      rw [hcen, hy, hx, List.map_map]
      refine List.map_congr_left fun k hk => ?_
      have hk : k ≤ 999 := by have := List.mem_range.1 hk; omega
      have hk' : (k : ℚ) ≤ 999 := by exact_mod_cast hk
      have e := hf (k / 999) (div_nonneg (Nat.cast_nonneg k) (by norm_num)) ((div_le_one (by norm_num)).2 hk')
      show at2 _ _ _ _ _ = ((f (k / 999) : ℚ) : ℝ)
      rw [at2_congr (by norm_num) (by norm_num) hco, ← e]
      exact congrArg₂ (at2 3 5 fun i j => (coefQ i j : ℝ)) (by push_cast; ring) (by push_cast; ring)
    rw [hl, show (8 / 45 : ℝ) = ((8 / 45 : ℚ) : ℝ) by norm_num, argclosest_cast, hn]
  have cst : ∀ t : ℚ, 0 ≤ t → t ≤ 1 → (0 : ℝ) ≤ (t : ℝ) ∧ (t : ℝ) ≤ 1 := fun t h0 h1 => ⟨by exact_mod_cast h0, by exact_mod_cast h1⟩
  refine ⟨step _ _ _ upLeft_index fun t h0 h1 => ?_, step _ _ _ upRight_index fun t h0 h1 => ?_, step _ _ _ left_index fun t h0 h1 => ?_, step _ _ _ right_index fun t h0 h1 => ?_⟩
  · obtain ⟨g0, g1⟩ := cst t h0 h1
    unfold at2 upLeft
    rw [show (1 : ℝ) + t * (((0 : Nat) : ℝ) - 1) = 1 - t by push_cast; ring, show (2 : ℝ) + t * (((1 : Nat) : ℝ) - 2) = 2 - t by push_cast; ring,
      at1_three g0 g1, at1_five g0 g1, at1_five g0 g1, at1_five g0 g1]
    simp only [rowV_cast]
  · obtain ⟨g0, g1⟩ := cst t h0 h1
    unfold at2 upRight
    rw [show (1 : ℝ) + t * (((0 : Nat) : ℝ) - 1) = 1 - t by push_cast; ring, show (2 : ℝ) + t * (((3 : Nat) : ℝ) - 2) = 2 + t by push_cast; ring,
      at1_three g0 g1, at1_five' g0 g1, at1_five' g0 g1, at1_five' g0 g1]
    simp only [rowV_cast]
  · obtain ⟨g0, g1⟩ := cst t h0 h1
    unfold at2 left
    rw [show (1 : ℝ) + t * (((1 : Nat) : ℝ) - 1) = 1 - 0 by push_cast; ring, show (2 : ℝ) + t * (((1 : Nat) : ℝ) - 2) = 2 - t by push_cast; ring,
      at1_three le_rfl zero_le_one, at1_five g0 g1, at1_five g0 g1, at1_five g0 g1]
    simp only [rowV_cast, Rat.cast_zero]
  · obtain ⟨g0, g1⟩ := cst t h0 h1
    unfold at2 right
    rw [show (1 : ℝ) + t * (((1 : Nat) : ℝ) - 1) = 1 - 0 by push_cast; ring, show (2 : ℝ) + t * (((3 : Nat) : ℝ) - 2) = 2 + t by push_cast; ring,
      at1_three le_rfl zero_le_one, at1_five' g0 g1, at1_five' g0 g1, at1_five' g0 g1]
    simp only [rowV_cast, Rat.cast_zero]

theorem isMirror_tied : IsMirror tied tiedMirrored := by
  refine ⟨by intro r hr; simp [tiedMirrored] at hr; rcases hr with rfl | rfl <;> rfl, rfl, rfl, fun i hi j hj => ?_⟩
  change i < 2 at hi
  change j < 3 at hj
  interval_cases i <;> interval_cases j <;> rfl

theorem tied_mirrored_acf {A : Grid (Option ℝ)} (h : acf tied = .ok A) : ∃ B, acf tiedMirrored = .ok B ∧ IsMirror A B := by
  have hw : tied.WF := by intro r hr; simp [tied] at hr; rcases hr with rfl | rfl <;> rfl
  have hf : none ∉ flat tied := by simp [tied, flat]
  have hf' : none ∉ flat tiedMirrored := by simp [tiedMirrored, flat]
  obtain ⟨B, hB, -⟩ := acf_ok isMirror_tied.1 hf'
  exact ⟨B, hB, acf_mirror hw hf hf' isMirror_tied h hB⟩

end Surfalize.Props.Ties

namespace Surfalize.Props
open Surfalize Autocorr BaseOps Finset Container Spec Placement Spline SplineSpec Ties

/-- **C108** (violated, ties): Str (with the default threshold) of the heights -2, 0, 0; -1, 0, 1 with unit steps is not the Str of the same heights mirrored left and right,
for the cubic spline the program interpolates with. -/
theorem C108_ties_violated {coef : Prefilter} (hc : Interpolates coef) : ∃ a b : ℝ,
    IsMirror ⟨[[some (-2), some 0, some 0], [some (-1), some 0, some 1]], 3⟩ ⟨[[some 0, some 0, some (-2)], [some 1, some 0, some (-1)]], 3⟩ ∧
    str (splineLine coef) ⟨[[some (-2), some 0, some 0], [some (-1), some 0, some 1]], 3⟩ 1 1 (1 / 5) = .ok (some a) ∧ str (splineLine coef) ⟨[[some 0, some 0, some (-2)], [some 1, some 0, some (-1)]], 3⟩ 1 1 (1 / 5) = .ok (some b) ∧ a ≠ b := by
  change ∃ a b : ℝ, IsMirror tied tiedMirrored ∧ str (splineLine coef) tied 1 1 (1 / 5) = .ok (some a) ∧
    str (splineLine coef) tiedMirrored 1 1 (1 / 5) = .ok (some b) ∧ a ≠ b
  obtain ⟨A, hA, hy, hx, hv⟩ := tied_acf
  obtain ⟨B, hB, hm⟩ := tied_mirrored_acf hA
  obtain ⟨a1, a2, a3, a4⟩ := tied_lines hc hy hx hv
  have hval : ∀ i < 3, ∀ j < 5, B.val i j = A.val i (4 - j) := fun i hi j hj => by
    unfold Grid.val
    rw [hm.2.2.2 i (by omega) j (by omega), hx]
  have hgt : ∀ i < 3, ∀ j < 5, A.val i j > 8 / 45 ↔ j = 2 := fun i hi j hj => by
    rw [hv i hi j hj]
    have : ∀ i < 3, ∀ j < 5, corrQ i j > 8 / 45 ↔ j = 2 := by decide +kernel
    rw [← this i hi j hj]
    rw [gt_iff_lt, gt_iff_lt, show (8 / 45 : ℝ) = ((8 / 45 : ℚ) : ℝ) by norm_num]
    exact_mod_cast Iff.rfl
  have hmir := (C108_spline_moves hc).mirror A B (by omega) (by omega) hm
  have b1 : splineLine coef B (0, 1) = splineLine coef A (0, 3) := by
    have := hmir 0 (by omega) 3 (by omega); rwa [hx] at this
  have b2 : splineLine coef B (1, 1) = splineLine coef A (1, 3) := by
    have := hmir 1 (by omega) 3 (by omega); rwa [hx] at this
  have dA := tied_decay (splineLine coef) hy hx hgt (by rw [hv 1 (by decide) 2 (by decide)]; norm_num [corrQ])
    (by rw [hv 1 (by decide) 3 (by decide), hv 1 (by decide) 1 (by decide)]; rfl) (by rw [hv 0 (by decide) 3 (by decide), hv 0 (by decide) 1 (by decide)]; rfl)
    (by rw [hv 2 (by decide) 1 (by decide), hv 0 (by decide) 1 (by decide)]; rfl) (by rw [hv 2 (by decide) 3 (by decide), hv 0 (by decide) 1 (by decide)]; rfl)
  have hB' : ∀ i < 3, ∀ j < 5, B.val i j = (corrQ i (4 - j) : ℝ) := fun i hi j hj => by rw [hval i hi j hj, hv i hi _ (by omega)]
  have dB := tied_decay (splineLine coef) (A := B) (by rw [hm.2.1, hy]) (by rw [hm.2.2.1, hx])
    (fun i hi j hj => by rw [hval i hi j hj, hgt i hi _ (by omega)]; omega) (by rw [hB' 1 (by decide) 2 (by decide)]; norm_num [corrQ])
    (by rw [hB' 1 (by decide) 3 (by decide), hB' 1 (by decide) 1 (by decide)]; rfl) (by rw [hB' 0 (by decide) 3 (by decide), hB' 0 (by decide) 1 (by decide)]; rfl)
    (by rw [hB' 2 (by decide) 1 (by decide), hB' 0 (by decide) 1 (by decide)]; rfl) (by rw [hB' 2 (by decide) 3 (by decide), hB' 0 (by decide) 1 (by decide)]; rfl)
  rw [b1, b2, a2, a4] at dB
  rw [a1, a3] at dA
  have hs : 0 < Real.sqrt 2 := by positivity
  refine ⟨((814 : Nat) : ℝ) / 999 / (Real.sqrt 2 * ((878 : Nat) : ℝ) / 999), ((814 : Nat) : ℝ) / 999 / (Real.sqrt 2 * ((671 : Nat) : ℝ) / 999), isMirror_tied, ?_, ?_, ?_⟩
  · unfold str
    rw [hA]
    show (decayLengths _ A 1 1 (1 / 5)).map _ = _
    rw [dA]
    show Except.ok (if _ then none else some _) = _
    rw [if_neg (by push_cast; positivity)]
  · unfold str
    rw [hB]
    show (decayLengths _ B 1 1 (1 / 5)).map _ = _
    rw [dB]
    show Except.ok (if _ then none else some _) = _
    rw [if_neg (by push_cast; positivity)]
  · intro h
    push_cast at h
    field_simp at h
    norm_num at h

/-- There is such a spline filter. -/
example : ∃ coef, Interpolates coef := exists_interpolates

end Surfalize.Props
