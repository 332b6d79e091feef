import Verif.Model.Autocorr
import Verif.Spec.Autocorr
import Verif.Lemmas.GridFn
import Verif.Lemmas.Detrend
import Verif.Lemmas.HeightParams
import Mathlib.Algebra.Order.BigOperators.Group.Finset
import Mathlib.Algebra.BigOperators.Field
import Mathlib.Data.Int.Interval
import Mathlib.Tactic.Linarith
import Mathlib.Tactic.Ring

/-! Lemmas about the autocorrelation. -/
set_option linter.unusedSectionVars false
namespace Surfalize.Autocorr
open Surfalize BaseOps Finset Container Spec

variable {K : Type} [Field K] [LinearOrder K] [IsStrictOrderedRing K]

/-- a sum over the pairs, as a double sum over pixels -/
theorem sum_lagPairs (ny nx : Nat) (dy dx : Int) (F : (Nat × Nat) → (Nat × Nat) → K) :
    ∑ pq ∈ lagPairs ny nx dy dx, F pq.1 pq.2
      = ∑ p ∈ range ny ×ˢ range nx, ∑ q ∈ range ny ×ˢ range nx,
          if (q.1 : Int) = p.1 + dy ∧ (q.2 : Int) = p.2 + dx then F p q else 0 := by
  unfold lagPairs
  rw [sum_filter, sum_product]

theorem lagPairs_swap (ny nx : Nat) (dy dx : Int) (F : (Nat × Nat) → (Nat × Nat) → K) :
    ∑ pq ∈ lagPairs ny nx (-dy) (-dx), F pq.1 pq.2 = ∑ pq ∈ lagPairs ny nx dy dx, F pq.2 pq.1 := by
  rw [sum_lagPairs ny nx (-dy) (-dx) F, sum_lagPairs ny nx dy dx (fun p q => F q p), sum_comm]
  apply sum_congr rfl; intro p _
  apply sum_congr rfl; intro q _
  have : ((p.1 : Int) = q.1 + -dy ∧ (p.2 : Int) = q.2 + -dx) ↔ ((q.1 : Int) = p.1 + dy ∧ (q.2 : Int) = p.2 + dx) := by
    constructor <;> rintro ⟨a, b⟩ <;> constructor <;> omega
  simp only [this]

theorem lagSum_neg (ny nx : Nat) (h : Nat → Nat → K) (m : K) (dy dx : Int) :
    lagSum ny nx h m (-dy) (-dx) = lagSum ny nx h m dy dx := by
  unfold lagSum
  rw [lagPairs_swap ny nx dy dx (fun p q => (h p.1 p.2 - m) * (h q.1 q.2 - m))]
  apply sum_congr rfl; intro x _; ring

/-- one point `q` at most for every `p` -/
theorem sum_first_le (ny nx : Nat) (dy dx : Int) (F : Nat × Nat → K) (hF : ∀ p, 0 ≤ F p) :
    ∑ pq ∈ lagPairs ny nx dy dx, F pq.1 ≤ ∑ p ∈ range ny ×ˢ range nx, F p := by
  rw [sum_lagPairs ny nx dy dx (fun p _ => F p)]
  apply sum_le_sum
  intro p _
  by_cases hq : ∃ q : Nat × Nat, (q.1 : Int) = p.1 + dy ∧ (q.2 : Int) = p.2 + dx
  · obtain ⟨q0, h0⟩ := hq
    have e : ∀ q : Nat × Nat, ((q.1 : Int) = p.1 + dy ∧ (q.2 : Int) = p.2 + dx) ↔ q = q0 := by
      intro q
      constructor
      · rintro ⟨a, b⟩; ext <;> omega
      · rintro rfl; exact h0
    simp only [e]
    rw [sum_ite_eq' (range ny ×ˢ range nx) q0 fun _ => F p]
    split
    · exact le_rfl
    · exact hF p
  · have : ∀ q : Nat × Nat, ¬ ((q.1 : Int) = p.1 + dy ∧ (q.2 : Int) = p.2 + dx) := fun q hq' => hq ⟨q, hq'⟩
    simp only [this, if_false, sum_const_zero]
    exact hF p

theorem sum_second_le (ny nx : Nat) (dy dx : Int) (F : Nat × Nat → K) (hF : ∀ p, 0 ≤ F p) :
    ∑ pq ∈ lagPairs ny nx dy dx, F pq.2 ≤ ∑ p ∈ range ny ×ˢ range nx, F p := by
  have := sum_first_le ny nx (-dy) (-dx) F hF
  rwa [lagPairs_swap ny nx dy dx (fun p _ => F p)] at this

theorem lagSum_zero (ny nx : Nat) (h : Nat → Nat → K) (m : K) :
    lagSum ny nx h m 0 0 = ∑ p ∈ range ny ×ˢ range nx, (h p.1 p.2 - m) ^ 2 := by
  unfold lagSum
  rw [sum_lagPairs ny nx 0 0 (fun p q => (h p.1 p.2 - m) * (h q.1 q.2 - m))]
  apply sum_congr rfl; intro p hp
  have e : ∀ q : Nat × Nat, ((q.1 : Int) = p.1 + 0 ∧ (q.2 : Int) = p.2 + 0) ↔ q = p := by
    intro q
    constructor
    · rintro ⟨a, b⟩; ext <;> omega
    · rintro rfl; simp
  simp only [e]
  rw [sum_ite_eq' (range ny ×ˢ range nx) p, if_pos hp]
  ring

/-- Cauchy–Schwarz -/
theorem abs_lagSum_le (ny nx : Nat) (h : Nat → Nat → K) (m : K) (dy dx : Int) :
    |lagSum ny nx h m dy dx| ≤ lagSum ny nx h m 0 0 := by
  rw [lagSum_zero]
  have h1 := sum_first_le ny nx dy dx (fun p => (h p.1 p.2 - m) ^ 2) (fun _ => sq_nonneg _)
  have h2 := sum_second_le ny nx dy dx (fun p => (h p.1 p.2 - m) ^ 2) (fun _ => sq_nonneg _)
  have a1 : lagSum ny nx h m dy dx
      ≤ ∑ pq ∈ lagPairs ny nx dy dx, ((h pq.1.1 pq.1.2 - m) ^ 2 + (h pq.2.1 pq.2.2 - m) ^ 2) / 2 := by
    apply sum_le_sum; intro x _
    nlinarith [sq_nonneg ((h x.1.1 x.1.2 - m) - (h x.2.1 x.2.2 - m))]
  have a2 : - ∑ pq ∈ lagPairs ny nx dy dx, ((h pq.1.1 pq.1.2 - m) ^ 2 + (h pq.2.1 pq.2.2 - m) ^ 2) / 2
      ≤ lagSum ny nx h m dy dx := by
    rw [← sum_neg_distrib]
    apply sum_le_sum; intro x _
    nlinarith [sq_nonneg ((h x.1.1 x.1.2 - m) + (h x.2.1 x.2.2 - m))]
  rw [← sum_div, sum_add_distrib] at a1 a2
  rw [abs_le]
  constructor <;> linarith

/-- counting along one axis -/
theorem card_axis (n : Nat) (d : Int) (hd : |d| < n) :
    (((range n ×ˢ range n).filter fun ij => (ij.2 : Int) = ij.1 + d).card : Int) = n - |d| := by
  rcases le_total 0 d with h0 | h0
  · rw [abs_of_nonneg h0] at hd ⊢
    have : ((range n ×ˢ range n).filter fun ij => (ij.2 : Int) = ij.1 + d)
        = (range (n - d.toNat)).image fun i => (i, i + d.toNat) := by
      ext ⟨i, j⟩
      simp only [mem_filter, mem_product, mem_range, mem_image, Prod.mk.injEq]
      constructor
      · rintro ⟨⟨hi, hj⟩, he⟩; exact ⟨i, by omega, rfl, by omega⟩
      · rintro ⟨a, ha, rfl, rfl⟩; refine ⟨⟨?_, ?_⟩, ?_⟩ <;> omega
    rw [this, card_image_of_injective _ (fun a b hab => by simp only [Prod.mk.injEq] at hab; omega), card_range]; omega
  · rw [abs_of_nonpos h0] at hd ⊢
    have : ((range n ×ˢ range n).filter fun ij => (ij.2 : Int) = ij.1 + d)
        = (range (n - (-d).toNat)).image fun j => (j + (-d).toNat, j) := by
      ext ⟨i, j⟩
      simp only [mem_filter, mem_product, mem_range, mem_image, Prod.mk.injEq]
      constructor
      · rintro ⟨⟨hi, hj⟩, he⟩; exact ⟨j, by omega, by omega, rfl⟩
      · rintro ⟨a, ha, rfl, rfl⟩; refine ⟨⟨?_, ?_⟩, ?_⟩ <;> omega
    rw [this, card_image_of_injective _ (fun a b hab => by simp only [Prod.mk.injEq] at hab; omega), card_range]; omega

theorem card_lagPairs (ny nx : Nat) (dy dx : Int) (hy : |dy| < ny) (hx : |dx| < nx) :
    ((lagPairs ny nx dy dx).card : Int) = (ny - |dy|) * (nx - |dx|) := by
  rw [← card_axis ny dy hy, ← card_axis nx dx hx, ← Nat.cast_mul, ← card_product, Nat.cast_inj]
  apply card_bij (fun pq _ => ((pq.1.1, pq.2.1), (pq.1.2, pq.2.2)))
  · rintro ⟨⟨i, j⟩, ⟨k, l⟩⟩ h
    simp only [lagPairs, mem_filter, mem_product, mem_range] at h ⊢
    omega
  · rintro ⟨⟨i, j⟩, ⟨k, l⟩⟩ _ ⟨⟨i', j'⟩, ⟨k', l'⟩⟩ _ h
    simp only [Prod.mk.injEq] at h ⊢
    omega
  · rintro ⟨⟨i, k⟩, ⟨j, l⟩⟩ h
    refine ⟨((i, j), (k, l)), ?_, rfl⟩
    simp only [lagPairs, mem_filter, mem_product, mem_range] at h ⊢
    omega

/-- the convolution with the point-reflected copy sums over the pairs -/
theorem conv_eq (ny nx : Nat) (h : Nat → Nat → K) (dy dx : Int) (hy : |dy| < ny) (hx : |dx| < nx) :
    conv2Full ny nx h (fun i j => h (ny - 1 - i) (nx - 1 - j)) ((ny : Int) - 1 + dy).toNat ((nx : Int) - 1 + dx).toNat
      = ∑ pq ∈ lagPairs ny nx dy dx, h pq.1.1 pq.1.2 * h pq.2.1 pq.2.2 := by
  have hsw := lagPairs_swap ny nx dy dx (fun p q => h p.1 p.2 * h q.1 q.2)
  have : ∑ pq ∈ lagPairs ny nx dy dx, h pq.1.1 pq.1.2 * h pq.2.1 pq.2.2
      = ∑ pq ∈ lagPairs ny nx (-dy) (-dx), h pq.1.1 pq.1.2 * h pq.2.1 pq.2.2 := by
    rw [hsw]; apply sum_congr rfl; intro x _; ring
  rw [this, sum_lagPairs ny nx (-dy) (-dx) (fun p q => h p.1 p.2 * h q.1 q.2)]
  unfold conv2Full
  rw [← sum_product (s := range ny) (t := range nx) (f := fun p => if p.1 ≤ ((ny : Int) - 1 + dy).toNat ∧ ((ny : Int) - 1 + dy).toNat - p.1 < ny
      ∧ p.2 ≤ ((nx : Int) - 1 + dx).toNat ∧ ((nx : Int) - 1 + dx).toNat - p.2 < nx then
      h p.1 p.2 * h (ny - 1 - (((ny : Int) - 1 + dy).toNat - p.1)) (nx - 1 - (((nx : Int) - 1 + dx).toNat - p.2)) else 0)]
  apply sum_congr rfl
  rintro ⟨i, j⟩ hp
  simp only [mem_product, mem_range] at hp
  obtain ⟨hi, hj⟩ := hp
  have ay := abs_lt.1 hy
  have ax := abs_lt.1 hx
  dsimp only
  split
  · rename_i hc
    have e : ∀ q : Nat × Nat, ((q.1 : Int) = i + -dy ∧ (q.2 : Int) = j + -dx)
        ↔ q = (ny - 1 - (((ny : Int) - 1 + dy).toNat - i), nx - 1 - (((nx : Int) - 1 + dx).toNat - j)) := by
      rintro ⟨k, l⟩
      simp only [Prod.mk.injEq]
      constructor
      · rintro ⟨a, b⟩; constructor <;> omega
      · rintro ⟨rfl, rfl⟩; constructor <;> omega
    simp only [e]
    rw [sum_ite_eq', if_pos]
    simp only [mem_product, mem_range]
    constructor <;> omega
  · rename_i hc
    symm
    apply sum_eq_zero
    rintro ⟨k, l⟩ hq
    simp only [mem_product, mem_range] at hq
    rw [if_neg]
    rintro ⟨a, b⟩
    apply hc
    dsimp only at a b
    refine ⟨?_, ?_, ?_, ?_⟩ <;> omega

theorem overlap_eq (ny nx : Nat) (dy dx : Int) (hy : |dy| < ny) (hx : |dx| < nx) :
    overlapCount ny nx ((ny : Int) - 1 + dy).toNat ((nx : Int) - 1 + dx).toNat = (ny - |dy|) * (nx - |dx|) := by
  have ay := abs_lt.1 hy
  have ax := abs_lt.1 hx
  unfold overlapCount
  rw [Int.toNat_of_nonneg (by omega), Int.toNat_of_nonneg (by omega)]
  congr 3 <;> ring

theorem center_val {g : Grid (Option K)} (hg : g.WF) (hf : none ∉ flat g) {i j : Nat} (hi : i < g.ny) (hj : j < g.nx) :
    (center g).val i j = g.val i j - meanHeight g.ny g.nx g.val := by
  have hne : flat g ≠ [] := fun h => by have := get_mem hg hi hj; rw [h] at this; simp at this
  have hne' := HeightParams.measured_ne_nil hf hne
  have e : (center g) = Container.map (Option.map fun z => z - mean (measured (flat g))) g := by
    unfold center
    apply Container.map_congr
    intro z _
    rw [nanmean, if_neg hne']
    cases z <;> simp [osub]
  rw [e, Grid.val, get_map, get_eq_some_val hg hf hi hj]
  simp only [Option.map_some, Option.getD_some]
  congr 1
  have hm : measured (flat g) = (pixels g.ny g.nx).map fun p => g.val p.1 p.2 := by
    rw [flat_eq_pixels hg]
    have : ((pixels g.ny g.nx).map fun p => g.get p.1 p.2)
        = ((pixels g.ny g.nx).map fun p => g.val p.1 p.2).map some := by
      rw [List.map_map]
      apply List.map_congr_left
      intro p hp
      exact get_eq_some_val hg hf (mem_pixels.1 hp).1 (mem_pixels.1 hp).2
    rw [this, measured_some]
  unfold mean meanHeight
  rw [hm, Detrend.sum_pixels]
  congr 1
  rw [List.length_map]
  simp [pixels, List.length_flatMap]

theorem mem_lagPairs {ny nx : Nat} {dy dx : Int} {pq : (Nat × Nat) × (Nat × Nat)} (h : pq ∈ lagPairs ny nx dy dx) :
    (pq.1.1 < ny ∧ pq.1.2 < nx) ∧ (pq.2.1 < ny ∧ pq.2.2 < nx) := by
  simp only [lagPairs, mem_filter, mem_product, mem_range] at h
  exact h.1

theorem acf_ok {g : Grid (Option K)} (hg : g.WF) (hf : none ∉ flat g) :
    ∃ A, acf g = .ok A ∧ A.WF ∧ A.ny = 2 * g.ny - 1 ∧ A.nx = 2 * g.nx - 1 ∧
      ∀ dy dx : Int, |dy| < g.ny → |dx| < g.nx →
        A.get ((g.ny : Int) - 1 + dy).toNat ((g.nx : Int) - 1 + dx).toNat = some (autocov g.ny g.nx g.val dy dx) := by
  have hm : ¬ hasMissing g = true := fun h => hf ((HeightParams.mem_none_iff_hasMissing g).1 h)
  have e1 : (center g).ny = g.ny := map_ny _ _
  have e2 : (center g).nx = g.nx := map_nx _ _
  refine ⟨_, by unfold acf; rw [if_neg hm], ofFn_wf _ _ _, by rw [ofFn_ny, e1], by rw [ofFn_nx, e2], ?_⟩
  intro dy dx hy hx
  have ay := abs_lt.1 hy
  have ax := abs_lt.1 hx
  rw [e1, e2, get_ofFn _ (by omega) (by omega), conv_eq _ _ _ dy dx hy hx, overlap_eq _ _ dy dx hy hx,
    ← card_lagPairs _ _ dy dx hy hx]
  unfold autocov lagSum
  rw [Int.cast_natCast]
  congr 2
  apply sum_congr rfl
  intro pq hpq
  obtain ⟨⟨a, b⟩, c, d⟩ := mem_lagPairs hpq
  rw [center_val hg hf a b, center_val hg hf c d]

theorem autocov_neg (g : Grid (Option K)) {dy dx : Int} (hy : |dy| < g.ny) (hx : |dx| < g.nx) :
    autocov g.ny g.nx g.val (-dy) (-dx) = autocov g.ny g.nx g.val dy dx := by
  unfold autocov
  rw [lagSum_neg]
  congr 1
  have h1 := card_lagPairs g.ny g.nx (-dy) (-dx) (by rwa [abs_neg]) (by rwa [abs_neg])
  have h2 := card_lagPairs g.ny g.nx dy dx hy hx
  rw [abs_neg, abs_neg, ← h2] at h1
  rw [Nat.cast_inj.1 h1]

/-- all pairs of pixels, sorted by their lag -/
theorem sum_all_lags (ny nx : Nat) (h : Nat → Nat → K) (m : K) :
    ∑ dy ∈ Finset.Ioo (-(ny : Int)) ny, ∑ dx ∈ Finset.Ioo (-(nx : Int)) nx, lagSum ny nx h m dy dx
      = (∑ p ∈ range ny ×ˢ range nx, (h p.1 p.2 - m)) ^ 2 := by
  have e : ∀ dy dx : Int, lagSum ny nx h m dy dx
      = ∑ p ∈ range ny ×ˢ range nx, ∑ q ∈ range ny ×ˢ range nx,
          if (q.1 : Int) = p.1 + dy ∧ (q.2 : Int) = p.2 + dx then (h p.1 p.2 - m) * (h q.1 q.2 - m) else 0 :=
    fun dy dx => sum_lagPairs ny nx dy dx (fun p q => (h p.1 p.2 - m) * (h q.1 q.2 - m))
  simp only [e]
  rw [sq, sum_mul_sum, ← sum_product', sum_comm]
  apply sum_congr rfl
  intro p hp
  rw [sum_comm]
  apply sum_congr rfl
  intro q hq
  simp only [mem_product, mem_range] at hp hq
  have : ∀ d : Int × Int, ((q.1 : Int) = p.1 + d.1 ∧ (q.2 : Int) = p.2 + d.2)
      ↔ d = ((q.1 : Int) - p.1, (q.2 : Int) - p.2) := by
    rintro ⟨a, b⟩
    simp only [Prod.mk.injEq]
    constructor <;> rintro ⟨c, d⟩ <;> constructor <;> omega
  simp only [this]
  rw [sum_ite_eq', if_pos]
  simp only [mem_product, mem_Ioo]
  refine ⟨⟨?_, ?_⟩, ?_, ?_⟩ <;> omega

end Surfalize.Autocorr
