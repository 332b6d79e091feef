import Verif.Spec.Spline
import Mathlib.Tactic.Linarith
import Mathlib.Tactic.FieldSimp
import Mathlib.Algebra.BigOperators.Intervals
import Mathlib.LinearAlgebra.FiniteDimensional.Basic
/-! Lemmas about cubic splines. -/
namespace Surfalize.Spline
open Surfalize Finset SplineSpec

theorem bspline_neg (t : ℝ) : bspline (-t) = bspline t := by unfold bspline; rw [abs_neg]
theorem bspline_zero : bspline 0 = 2 / 3 := by unfold bspline; norm_num
theorem bspline_one : bspline 1 = 1 / 6 := by unfold bspline; norm_num
theorem bspline_far {t : ℝ} (h : 2 ≤ |t|) : bspline t = 0 := by
  unfold bspline; rw [if_neg (by linarith), if_neg (by linarith)]

theorem fold_lt {n k : Nat} (hn : 0 < n) (hk : k < n + 2) : fold n k < n := by unfold fold; split_ifs <;> omega
theorem fold_mid {n i : Nat} (hi : i < n) : fold n (i + 1) = i := by
  unfold fold
  by_cases h1 : n = 1
  · rw [if_pos h1]; omega
  · rw [if_neg h1, if_neg (by omega), if_neg (by omega)]; omega
theorem fold_reflect {n k : Nat} (hn : 0 < n) (hk : k < n + 2) : fold n (n + 1 - k) = n - 1 - fold n k := by
  unfold fold; split_ifs <;> omega

theorem at1_congr {n : Nat} (hn : 0 < n) {c d : Nat → ℝ} (h : ∀ i < n, c i = d i) (y : ℝ) : at1 n c y = at1 n d y := by
  unfold at1
  refine sum_congr rfl fun k hk => ?_
  rw [h _ (fold_lt hn (mem_range.1 hk))]

theorem at1_sub (n : Nat) (c d : Nat → ℝ) (y : ℝ) : at1 n (fun i => c i - d i) y = at1 n c y - at1 n d y := by
  unfold at1
  rw [← sum_sub_distrib]
  exact sum_congr rfl fun k _ => by ring

theorem at1_smul (n : Nat) (a : ℝ) (c : Nat → ℝ) (y : ℝ) : at1 n (fun i => a * c i) y = a * at1 n c y := by
  unfold at1
  rw [mul_sum]
  exact sum_congr rfl fun k _ => by ring

/-- At a point of the axis only the coefficients of the point and of its neighbours count. -/
theorem at1_node {n i : Nat} (hi : i < n) (c : Nat → ℝ) : at1 n c i = (c (fold n i) + 4 * c i + c (fold n (i + 2))) / 6 := by
  unfold at1
  have hz : ∀ k ∈ range (n + 2), k ∉ ({i, i + 1, i + 2} : Finset Nat) → bspline ((i : ℝ) - ((k : ℝ) - 1)) * c (fold n k) = 0 := by
    intro k _ hk
    simp only [mem_insert, mem_singleton, not_or] at hk
    rw [bspline_far, zero_mul]
    have : (2 : ℤ) ≤ |(i : ℤ) - ((k : ℤ) - 1)| := by rw [le_abs]; omega
    exact_mod_cast this
  have hs : ({i, i + 1, i + 2} : Finset Nat) ⊆ range (n + 2) := by
    intro k hk
    simp only [mem_insert, mem_singleton] at hk
    rw [mem_range]; omega
  rw [← sum_subset hs hz, sum_insert (by simp), sum_insert (by simp), sum_singleton, fold_mid hi]
  have e0 : (i : ℝ) - ((i : ℝ) - 1) = 1 := by ring
  have e1 : (i : ℝ) - (((i + 1 : Nat) : ℝ) - 1) = 0 := by push_cast; ring
  have e2 : (i : ℝ) - (((i + 2 : Nat) : ℝ) - 1) = -1 := by push_cast; ring
  rw [e0, e1, e2, bspline_neg, bspline_one, bspline_zero]
  ring

/-- A spline that is zero at the points of the axis has no coefficients. -/
theorem at1_zero {n : Nat} {c : Nat → ℝ} (h : ∀ i < n, at1 n c i = 0) : ∀ i < n, c i = 0 := by
  intro i hi
  obtain ⟨m, hm, hmax⟩ := exists_max_image (range n) (fun i => |c i|) ⟨i, mem_range.2 hi⟩
  rw [mem_range] at hm
  have e := h m hm
  rw [at1_node hm] at e
  have a := hmax (fold n m) (mem_range.2 (fold_lt (by omega) (by omega)))
  have b := hmax (fold n (m + 2)) (mem_range.2 (fold_lt (by omega) (by omega)))
  have z := hmax i (mem_range.2 hi)
  rw [abs_le] at a b
  have : |c m| ≤ 0 := by
    rcases abs_cases (c m) with ⟨h1, h2⟩ | ⟨h1, h2⟩ <;> linarith
  exact abs_nonpos_iff.1 (by linarith)

theorem at1_inj {n : Nat} {c d : Nat → ℝ} (h : ∀ i < n, at1 n c i = at1 n d i) : ∀ i < n, c i = d i := fun i hi => by
  have := at1_zero (n := n) (c := fun i => c i - d i) (fun i hi => by rw [at1_sub, h i hi, sub_self]) i hi
  linarith

theorem at2_congr {ny nx : Nat} (hy : 0 < ny) (hx : 0 < nx) {c d : Nat → Nat → ℝ} (h : ∀ i < ny, ∀ j < nx, c i j = d i j) (y x : ℝ) :
    at2 ny nx c y x = at2 ny nx d y x := at1_congr hy (fun i hi => at1_congr hx (h i hi) x) y

/-- The coefficients of a spline are determined by its values at the points of the array. -/
theorem at2_inj {ny nx : Nat} {c d : Nat → Nat → ℝ} (h : ∀ i < ny, ∀ j < nx, at2 ny nx c i j = at2 ny nx d i j) :
    ∀ i < ny, ∀ j < nx, c i j = d i j := fun i hi =>
  at1_inj fun j hj => at1_inj (n := ny) (c := fun i => at1 nx (c i) j) (d := fun i => at1 nx (d i) j) (fun i hi => h i hi j hj) i hi

theorem at1_mirror {n : Nat} (hn : 0 < n) (c : Nat → ℝ) (y : ℝ) : at1 n (fun i => c (n - 1 - i)) y = at1 n c ((n : ℝ) - 1 - y) := by
  unfold at1
  rw [← sum_range_reflect]
  refine sum_congr rfl fun k hk => ?_
  have hk := mem_range.1 hk
  rw [show n + 2 - 1 - k = n + 1 - k by omega, fold_reflect hn hk]
  dsimp only
  have hf := fold_lt hn hk
  rw [show n - 1 - (n - 1 - fold n k) = fold n k by omega, ← bspline_neg]
  congr 2
  rw [Nat.cast_sub (by omega)]
  push_cast
  ring

theorem at2_mirror {ny nx : Nat} (hx : 0 < nx) (c : Nat → Nat → ℝ) (y x : ℝ) :
    at2 ny nx (fun i j => c i (nx - 1 - j)) y x = at2 ny nx c y ((nx : ℝ) - 1 - x) := by
  unfold at2
  congr 1
  funext i
  exact at1_mirror hx (c i) x

theorem at2_flip {ny nx : Nat} (hy : 0 < ny) (c : Nat → Nat → ℝ) (y x : ℝ) :
    at2 ny nx (fun i j => c (ny - 1 - i) j) y x = at2 ny nx c ((ny : ℝ) - 1 - y) x :=
  at1_mirror hy (fun i => at1 nx (c i) x) y

theorem at2_transpose (ny nx : Nat) (c : Nat → Nat → ℝ) (y x : ℝ) : at2 nx ny (fun i j => c j i) x y = at2 ny nx c y x := by
  unfold at2 at1
  simp only [mul_sum]
  rw [sum_comm]
  exact sum_congr rfl fun k _ => sum_congr rfl fun l _ => by ring

/-! ### Coefficients exist -/

theorem exists_at1 (n : Nat) (f : Nat → ℝ) : ∃ c : Nat → ℝ, ∀ i < n, at1 n c i = f i := by
  rcases Nat.eq_zero_or_pos n with rfl | hn
  · exact ⟨f, fun i hi => absurd hi (by omega)⟩
  · let ex : (Fin n → ℝ) → Nat → ℝ := fun v i => if h : i < n then v ⟨i, h⟩ else 0
    have hex : ∀ v (i : Fin n), ex v i = v i := fun v i => dif_pos i.2
    let T : (Fin n → ℝ) →ₗ[ℝ] (Fin n → ℝ) :=
      { toFun := fun v i => at1 n (ex v) (i : Nat)
        map_add' := fun v w => by
          funext i
          show at1 n (ex (v + w)) _ = at1 n (ex v) _ + at1 n (ex w) _
          have : at1 n (ex (v + w)) (i : Nat) - at1 n (ex v) (i : Nat) = at1 n (ex w) (i : Nat) := by
            rw [← at1_sub]
            refine at1_congr hn (fun k hk => ?_) _
            rw [hex _ ⟨k, hk⟩, hex _ ⟨k, hk⟩, hex _ ⟨k, hk⟩, Pi.add_apply]
            ring
          linarith
        map_smul' := fun a v => by
          funext i
          show at1 n (ex (a • v)) _ = a * at1 n (ex v) _
          rw [← at1_smul]
          refine at1_congr hn (fun k hk => ?_) _
          rw [hex _ ⟨k, hk⟩, hex _ ⟨k, hk⟩]
          rfl }
    have hT : Function.Injective T := by
      intro v w h
      funext i
      have := at1_inj (n := n) (c := ex v) (d := ex w) (fun k hk => congrFun h ⟨k, hk⟩) i i.2
      rwa [hex, hex] at this
    obtain ⟨v, hv⟩ := LinearMap.injective_iff_surjective.1 hT (fun i => f i)
    exact ⟨ex v, fun i hi => congrFun hv ⟨i, hi⟩⟩

theorem exists_at2 (ny nx : Nat) (f : Nat → Nat → ℝ) : ∃ c : Nat → Nat → ℝ, ∀ i < ny, ∀ j < nx, at2 ny nx c i j = f i j := by
  choose d hd using fun j => exists_at1 ny fun i => f i j
  choose c hc using fun i => exists_at1 nx fun j => d j i
  refine ⟨c, fun i hi j hj => ?_⟩
  rw [← hd j i hi]
  exact at1_congr (by omega) (fun k _ => hc k j hj) _

/-- There is a spline filter. -/
theorem exists_interpolates : ∃ coef, Interpolates coef := by
  choose c h using fun A : Grid (Option ℝ) => exists_at2 A.ny A.nx A.val
  refine ⟨fun A i j => if i < A.ny ∧ j < A.nx then c A i j else 0, fun A i j hij => if_neg (by omega), fun A i hi j hj => ?_⟩
  rw [← h A i hi j hj]
  exact at2_congr (by omega) (by omega) (fun i hi j hj => if_pos ⟨hi, hj⟩) _ _

end Surfalize.Spline
