import Verif.Model.Fourier
import Verif.Spec.Fourier
import Verif.Lemmas.GridFn
import Verif.Lemmas.Detrend
import Verif.Lemmas.HeightParams
import Verif.Lemmas.Py
import Mathlib.Algebra.Ring.GeomSum
import Mathlib.Algebra.BigOperators.Field
import Mathlib.Tactic.LinearCombination
import Mathlib.Tactic.FieldSimp
import Mathlib.Tactic.Linarith
import Mathlib.Tactic.Ring

/-! Lemmas about the discrete Fourier transform. -/
set_option linter.unusedSectionVars false
namespace Surfalize.Fourier
open Surfalize BaseOps Finset Container Spec

/-- the character `exp(2πi·k·j/n)` -/
noncomputable def E (n : Nat) (k j : Int) : ℂ := Complex.exp (2 * Real.pi * Complex.I * ((k : ℂ) * j / n))

theorem E_add (n : Nat) (k l j : Int) : E n (k + l) j = E n k j * E n l j := by
  unfold E
  rw [← Complex.exp_add]
  congr 1
  push_cast
  ring

theorem E_comm (n : Nat) (k j : Int) : E n k j = E n j k := by
  unfold E
  congr 1
  ring

theorem E_conj (n : Nat) (k j : Int) : (starRingEnd ℂ) (E n k j) = E n (-k) j := by
  unfold E
  rw [← Complex.exp_conj]
  congr 1
  simp [map_ofNat]
  ring

theorem E_pow (n : Nat) (k : Int) (j : Nat) : E n k j = E n k 1 ^ j := by
  unfold E
  rw [← Complex.exp_nat_mul]
  congr 1
  push_cast
  ring

/-- orthogonality of the characters -/
theorem sum_E (n : Nat) (hn : 0 < n) (k : Int) :
    ∑ j ∈ range n, E n k j = if (n : Int) ∣ k then (n : ℂ) else 0 := by
  have hn' : (n : ℂ) ≠ 0 := by exact_mod_cast hn.ne'
  simp only [E_pow]
  have hpi : (2 * Real.pi * Complex.I : ℂ) ≠ 0 := by
    simp [Real.pi_ne_zero, Complex.I_ne_zero]
  split
  · rename_i h
    obtain ⟨m, rfl⟩ := h
    have : E n ((n : Int) * m) 1 = 1 := by
      unfold E
      rw [Complex.exp_eq_one_iff]
      refine ⟨m, ?_⟩
      push_cast
      field_simp
    simp [this]
  · rename_i h
    have hz : E n k 1 ≠ 1 := by
      intro he
      unfold E at he
      rw [Complex.exp_eq_one_iff] at he
      obtain ⟨m, hm⟩ := he
      apply h
      have h2 : (k : ℂ) * (1 : Int) / n = m := by
        have : (2 * Real.pi * Complex.I : ℂ) * ((k : ℂ) * (1 : Int) / n) = (2 * Real.pi * Complex.I) * m := by
          rw [hm]; ring
        exact mul_left_cancel₀ hpi this
      have h3 : (k : ℂ) = n * m := by
        field_simp at h2
        simpa using h2
      exact ⟨m, by exact_mod_cast h3⟩
    have hp : E n k 1 ^ n = 1 := by
      rw [← E_pow]
      unfold E
      rw [Complex.exp_eq_one_iff]
      refine ⟨k, ?_⟩
      push_cast
      field_simp
    have := mul_geom_sum (E n k 1) n
    rw [hp, sub_self] at this
    rcases mul_eq_zero.1 this with h | h
    · exact absurd (sub_eq_zero.1 h) hz
    · exact h

theorem fft2_E (N M : Nat) (d : Nat → Nat → ℝ) (u v : Nat) :
    fft2 N M d u v = ∑ i ∈ range N, ∑ j ∈ range M, (d i j : ℂ) * (E N (-(u : Int)) i * E M (-(v : Int)) j) := by
  unfold fft2 E
  apply sum_congr rfl; intro i _
  apply sum_congr rfl; intro j _
  rw [← Complex.exp_add]
  congr 2
  push_cast
  ring

/-- Parseval's identity -/
theorem parseval (N M : Nat) (hN : 0 < N) (hM : 0 < M) (d : Nat → Nat → ℝ) :
    ∑ u ∈ range N, ∑ v ∈ range M, ‖fft2 N M d u v‖ ^ 2 = (N : ℝ) * M * ∑ i ∈ range N, ∑ j ∈ range M, d i j ^ 2 := by
  have hc : ((∑ u ∈ range N, ∑ v ∈ range M, ‖fft2 N M d u v‖ ^ 2 : ℝ) : ℂ)
      = ((N : ℝ) * M * ∑ i ∈ range N, ∑ j ∈ range M, d i j ^ 2 : ℝ) := by
    push_cast
    have e : ∀ u v : Nat, ((‖fft2 N M d u v‖ : ℝ) : ℂ) ^ 2
        = ∑ i ∈ range N, ∑ j ∈ range M, ∑ k ∈ range N, ∑ l ∈ range M, (d i j : ℂ) * d k l *
            (E N ((k : Int) - i) u * E M ((l : Int) - j) v) := by
      intro u v
      rw [← Complex.mul_conj', fft2_E]
      simp only [map_sum, sum_mul]
      apply sum_congr rfl; intro i _
      apply sum_congr rfl; intro j _
      rw [mul_sum]
      apply sum_congr rfl; intro k _
      rw [mul_sum]
      apply sum_congr rfl; intro l _
      rw [map_mul, map_mul, E_conj, E_conj, Complex.conj_ofReal, neg_neg, neg_neg]
      rw [sub_eq_add_neg, sub_eq_add_neg, E_add, E_add]
      have a : E N (-(u : Int)) i = E N (-(i : Int)) u := by
        unfold E; congr 1; push_cast; ring
      have b : E M (-(v : Int)) j = E M (-(j : Int)) v := by
        unfold E; congr 1; push_cast; ring
      rw [a, b, E_comm N u k, E_comm M v l]
      ring
    simp only [e]
    have swap : ∑ u ∈ range N, ∑ v ∈ range M, ∑ i ∈ range N, ∑ j ∈ range M, ∑ k ∈ range N, ∑ l ∈ range M,
          (d i j : ℂ) * d k l * (E N ((k : Int) - i) u * E M ((l : Int) - j) v)
        = ∑ i ∈ range N, ∑ j ∈ range M, ∑ k ∈ range N, ∑ l ∈ range M, (d i j : ℂ) * d k l *
            ((∑ u ∈ range N, E N ((k : Int) - i) u) * ∑ v ∈ range M, E M ((l : Int) - j) v) := by
      have r2 : ∀ (Q : Finset Nat) (F : Nat → Nat → Nat → ℂ),
          ∑ u ∈ range N, ∑ v ∈ range M, ∑ q ∈ Q, F u v q = ∑ q ∈ Q, ∑ u ∈ range N, ∑ v ∈ range M, F u v q := by
        intro Q F
        calc _ = ∑ u ∈ range N, ∑ q ∈ Q, ∑ v ∈ range M, F u v q := sum_congr rfl fun _ _ => sum_comm
          _ = _ := sum_comm
      rw [r2]; apply sum_congr rfl; intro i _
      rw [r2]; apply sum_congr rfl; intro j _
      rw [r2]; apply sum_congr rfl; intro k _
      rw [r2]; apply sum_congr rfl; intro l _
      rw [sum_mul_sum, mul_sum]
      apply sum_congr rfl; intro u _
      rw [mul_sum]
    rw [swap]
    simp only [sum_E N hN, sum_E M hM]
    rw [mul_sum]
    apply sum_congr rfl; intro i hi
    rw [mul_sum]
    apply sum_congr rfl; intro j hj
    have hki : ∀ k ∈ range N, ((N : Int) ∣ (k : Int) - i) ↔ k = i := by
      intro k hk
      rw [mem_range] at hi hk
      constructor
      · intro h
        have := Int.eq_zero_of_abs_lt_dvd h (abs_lt.2 ⟨by omega, by omega⟩)
        omega
      · rintro rfl; simp
    have hlj : ∀ l ∈ range M, ((M : Int) ∣ (l : Int) - j) ↔ l = j := by
      intro l hl
      rw [mem_range] at hj hl
      constructor
      · intro h
        have := Int.eq_zero_of_abs_lt_dvd h (abs_lt.2 ⟨by omega, by omega⟩)
        omega
      · rintro rfl; simp
    rw [sum_eq_single_of_mem i hi]
    · rw [sum_eq_single_of_mem j hj]
      · rw [if_pos ((hki i hi).2 rfl), if_pos ((hlj j hj).2 rfl)]; ring
      · intro l hl hne
        rw [if_neg (fun h => hne ((hlj l hl).1 h))]; ring
    · intro k hk hne
      apply sum_eq_zero; intro l _
      rw [if_neg (fun h => hne ((hki k hk).1 h))]; ring
  exact_mod_cast hc

/-! ### frequencies -/

theorem pixels_eq (N M : Nat) (hM : 0 < M) : pixels N M = (List.range (N * M)).map fun k => (k / M, k % M) := by
  induction N with
  | zero => simp [pixels]
  | succ N ih =>
    have h1 : pixels (N + 1) M = pixels N M ++ (List.range M).map fun j => (N, j) := by
      simp [pixels, List.range_succ, List.flatMap_append]
    rw [h1, ih, Nat.succ_mul, List.range_add, List.map_append, List.map_map]
    congr 1
    apply List.map_congr_left
    intro j hj
    rw [List.mem_range] at hj
    simp only [Function.comp, Prod.mk.injEq]
    constructor
    · rw [Nat.mul_comm, Nat.mul_add_div hM, Nat.div_eq_of_lt hj, Nat.add_zero]
    · rw [Nat.mul_comm, Nat.mul_add_mod, Nat.mod_eq_of_lt hj]

theorem shiftIdx_eq {n k : Nat} (hk : k < n) :
    shiftIdx n k = if k < n / 2 then k + (n - n / 2) else k - n / 2 := by
  unfold shiftIdx
  split
  · exact Nat.mod_eq_of_lt (by omega)
  · have : k + (n - n / 2) = (k - n / 2) + n := by omega
    rw [this, Nat.add_mod_right, Nat.mod_eq_of_lt (by omega)]

/-- the shifted frequencies ascend from `-(n//2)` -/
theorem fftfreq_shift {n k : Nat} (hk : k < n) {L : ℝ} (hL : L ≠ 0) :
    fftfreq n (L / n) (shiftIdx n k) = (((k : Int) - (n / 2 : Nat) : Int) : ℝ) / L := by
  have hn : (n : ℝ) ≠ 0 := by exact_mod_cast (by omega : n ≠ 0)
  have h2 : (1 : ℝ) / (n * (L / n)) = 1 / L := by congr 1; field_simp
  have hr : (((k : Int) - (n / 2 : Nat) : Int) : ℝ) = (k : ℝ) - ((n / 2 : Nat) : ℝ) := by
    rw [Int.cast_sub, Int.cast_natCast, Int.cast_natCast]
  unfold fftfreq
  rw [h2, shiftIdx_eq hk, hr]
  by_cases h : k < n / 2
  · rw [if_pos h, if_neg (by omega)]
    rw [Nat.cast_add, Nat.cast_sub (show n / 2 ≤ n by omega)]
    ring
  · rw [if_neg h, if_pos (by omega), Nat.cast_sub (by omega)]
    ring

/-- a shifted index is congruent to its frequency -/
theorem shift_dvd {n k : Nat} (hk : k < n) (f : Int) (hf : 2 * |f| < n) :
    (n : Int) ∣ f - shiftIdx n k ↔ (k : Int) - (n / 2 : Nat) = f := by
  have hf' := abs_lt.1 (show |f| < n by have := abs_nonneg f; omega)
  have hle : -(n : Int) < 2 * f ∧ 2 * f < n := by
    rcases abs_cases f with ⟨h, _⟩ | ⟨h, _⟩ <;> omega
  rw [shiftIdx_eq hk]
  by_cases h : k < n / 2
  · rw [if_pos h]
    have e : f - ((k + (n - n / 2) : Nat) : Int) = (f - ((k : Int) - (n / 2 : Nat))) + (n : Int) * (-1) := by omega
    rw [e, dvd_add_left (Dvd.intro _ rfl)]
    constructor
    · intro hd
      have := Int.eq_zero_of_abs_lt_dvd hd (abs_lt.2 ⟨by omega, by omega⟩)
      omega
    · intro he; rw [he]; simp
  · rw [if_neg h]
    have e : f - ((k - n / 2 : Nat) : Int) = f - ((k : Int) - (n / 2 : Nat)) := by omega
    rw [e]
    constructor
    · intro hd
      have := Int.eq_zero_of_abs_lt_dvd hd (abs_lt.2 ⟨by omega, by omega⟩)
      omega
    · intro he; rw [he]; simp

/-- the frequency of a flat index of the shifted array -/
theorem freqOf_eq (g : Grid (Option ℝ)) {W H : ℝ} (hW : W ≠ 0) (hH : H ≠ 0) {idx : Nat} (h : idx < g.ny * g.nx) :
    freqOf g W H idx = ((((idx % g.nx : Nat) : Int) - (g.nx / 2 : Nat) : Int) / W,
      (((idx / g.nx : Nat) : Int) - (g.ny / 2 : Nat) : Int) / H) := by
  have hM : 0 < g.nx := Nat.pos_of_ne_zero (by rintro h0; rw [h0] at h; simp at h)
  unfold freqOf
  rw [fftfreq_shift (Nat.mod_lt _ hM) hW, fftfreq_shift (Nat.div_lt_of_lt_mul (by rwa [Nat.mul_comm])) hH]

theorem shiftedFlat_length (g : Grid (Option ℝ)) : (shiftedFlat g).length = g.ny * g.nx := by
  unfold shiftedFlat
  rw [List.length_map]
  simp [pixels, List.length_flatMap]

theorem shiftedFlat_get (g : Grid (Option ℝ)) {idx : Nat} (h : idx < g.ny * g.nx) :
    (shiftedFlat g).getD idx 0 = amplitude g (shiftIdx g.ny (idx / g.nx)) (shiftIdx g.nx (idx % g.nx)) := by
  have hM : 0 < g.nx := Nat.pos_of_ne_zero (by rintro h0; rw [h0] at h; simp at h)
  unfold shiftedFlat
  rw [pixels_eq _ _ hM, List.map_map, getD_of_lt _ (by simpa using h), List.getElem_map, List.getElem_range]
  rfl

/-- two different points have different frequencies -/
theorem freqOf_ne (g : Grid (Option ℝ)) {W H : ℝ} (hW : W ≠ 0) (hH : H ≠ 0) {i j : Nat} (hi : i < g.ny * g.nx)
    (hj : j < g.ny * g.nx) (hne : i ≠ j) : freqOf g W H i ≠ freqOf g W H j := by
  rw [freqOf_eq g hW hH hi, freqOf_eq g hW hH hj]
  intro h
  simp only [Prod.mk.injEq] at h
  obtain ⟨h1, h2⟩ := h
  rw [div_left_inj' hW, Int.cast_inj] at h1
  rw [div_left_inj' hH, Int.cast_inj] at h2
  apply hne
  rw [← Nat.div_add_mod i g.nx, ← Nat.div_add_mod j g.nx]
  have e1 : i % g.nx = j % g.nx := by omega
  have e2 : i / g.nx = j / g.nx := by omega
  rw [e1, e2]

theorem E_period (n : Nat) (hn : 0 < n) (k m : Int) (j : Int) : E n (k + n * m) j = E n k j := by
  have hn' : (n : ℂ) ≠ 0 := by exact_mod_cast hn.ne'
  have : E n (n * m) j = 1 := by
    unfold E
    rw [Complex.exp_eq_one_iff]
    refine ⟨m * j, ?_⟩
    push_cast
    field_simp
  rw [E_add, this, mul_one]

theorem E_shift {n k : Nat} (hk : k < n) (i : Int) : E n (-(shiftIdx n k : Int)) i = E n (-((k : Int) - (n / 2 : Nat))) i := by
  have hn : 0 < n := by omega
  rw [shiftIdx_eq hk]
  by_cases h : k < n / 2
  · rw [if_pos h]
    have : (-((k + (n - n / 2) : Nat) : Int)) = -((k : Int) - (n / 2 : Nat)) + n * (-1) := by omega
    rw [this, E_period n hn]
  · rw [if_neg h]
    congr 1
    omega

/-- the heights in row-major order -/
theorem measured_pixels {g : Grid (Option ℝ)} (hg : g.WF) (hf : none ∉ flat g) :
    measured (flat g) = (pixels g.ny g.nx).map fun p => g.val p.1 p.2 := by
  rw [flat_eq_pixels hg]
  have : ((pixels g.ny g.nx).map fun p => g.get p.1 p.2)
      = ((pixels g.ny g.nx).map fun p => g.val p.1 p.2).map some := by
    rw [List.map_map]
    apply List.map_congr_left
    intro p hp
    exact get_eq_some_val hg hf (mem_pixels.1 hp).1 (mem_pixels.1 hp).2
  rw [this, measured_some]

theorem centred_eq {g : Grid (Option ℝ)} (hg : g.WF) (hf : none ∉ flat g) (i j : Nat) :
    centred g i j = g.val i j - (∑ a ∈ range g.ny, ∑ b ∈ range g.nx, g.val a b) / (g.ny * g.nx) := by
  unfold centred mean
  rw [measured_pixels hg hf, Detrend.sum_pixels, List.length_map]
  congr 2
  simp [pixels, List.length_flatMap]

theorem amplitude_shift {g : Grid (Option ℝ)} (hg : g.WF) (hf : none ∉ flat g) {a b : Nat} (ha : a < g.ny) (hb : b < g.nx) :
    amplitude g (shiftIdx g.ny a) (shiftIdx g.nx b)
      = ‖component g.ny g.nx g.val ((a : Int) - (g.ny / 2 : Nat), (b : Int) - (g.nx / 2 : Nat))‖ := by
  unfold amplitude component
  rw [fft2_E]
  congr 1
  apply sum_congr rfl; intro i _
  apply sum_congr rfl; intro j _
  rw [centred_eq hg hf, E_shift ha, E_shift hb]
  congr 1
  unfold E
  rw [← Complex.exp_add]
  congr 1
  push_cast
  ring

/-- the frequency of a flat index -/
def kOf (g : Grid (Option ℝ)) (idx : Nat) : Int × Int :=
  (((idx / g.nx : Nat) : Int) - (g.ny / 2 : Nat), ((idx % g.nx : Nat) : Int) - (g.nx / 2 : Nat))

theorem idx_bounds {g : Grid (Option ℝ)} {idx : Nat} (h : idx < g.ny * g.nx) : idx / g.nx < g.ny ∧ idx % g.nx < g.nx := by
  have hM : 0 < g.nx := Nat.pos_of_ne_zero (by rintro h0; rw [h0] at h; simp at h)
  exact ⟨Nat.div_lt_of_lt_mul (by rwa [Nat.mul_comm]), Nat.mod_lt _ hM⟩

theorem shiftedFlat_k {g : Grid (Option ℝ)} (hg : g.WF) (hf : none ∉ flat g) {idx : Nat} (h : idx < g.ny * g.nx) :
    (shiftedFlat g).getD idx 0 = ‖component g.ny g.nx g.val (kOf g idx)‖ := by
  rw [shiftedFlat_get g h, amplitude_shift hg hf (idx_bounds h).1 (idx_bounds h).2]
  rfl

theorem kOf_rep {g : Grid (Option ℝ)} {idx : Nat} (h : idx < g.ny * g.nx) : Representable g.ny g.nx (kOf g idx) := by
  obtain ⟨h1, h2⟩ := idx_bounds h
  unfold Representable kOf
  dsimp only
  generalize idx / g.nx = a at *
  generalize idx % g.nx = b at *
  refine ⟨?_, ?_, ?_, ?_⟩ <;> omega

/-- every representable frequency has an index -/
theorem exists_idx (g : Grid (Option ℝ)) {k : Int × Int} (h : Representable g.ny g.nx k) :
    ∃ idx, idx < g.ny * g.nx ∧ kOf g idx = k := by
  obtain ⟨h1, h2, h3, h4⟩ := h
  obtain ⟨a, ha⟩ := Int.eq_ofNat_of_zero_le (show 0 ≤ k.1 + (g.ny / 2 : Nat) by omega)
  obtain ⟨b, hb⟩ := Int.eq_ofNat_of_zero_le (show 0 ≤ k.2 + (g.nx / 2 : Nat) by omega)
  have ha' : a < g.ny := by omega
  have hb' : b < g.nx := by omega
  refine ⟨g.nx * a + b, ?_, ?_⟩
  · calc g.nx * a + b < g.nx * a + g.nx := by omega
      _ = (a + 1) * g.nx := by ring
      _ ≤ g.ny * g.nx := Nat.mul_le_mul_right _ ha'
  · unfold kOf
    rw [Nat.mul_add_div (by omega), Nat.div_eq_of_lt hb', Nat.mul_add_mod, Nat.mod_eq_of_lt hb']
    ext <;> dsimp only <;> omega

theorem kOf_inj {g : Grid (Option ℝ)} {i j : Nat} (h : kOf g i = kOf g j) : i = j := by
  unfold kOf at h
  simp only [Prod.mk.injEq] at h
  rw [← Nat.div_add_mod i g.nx, ← Nat.div_add_mod j g.nx]
  have e1 : i % g.nx = j % g.nx := by omega
  have e2 : i / g.nx = j / g.nx := by omega
  rw [e1, e2]

theorem freqOf_k (g : Grid (Option ℝ)) {W H : ℝ} (hW : W ≠ 0) (hH : H ≠ 0) {idx : Nat} (h : idx < g.ny * g.nx) :
    freqOf g W H idx = (((kOf g idx).2 : ℝ) / W, ((kOf g idx).1 : ℝ) / H) := freqOf_eq g hW hH h

/-! ### gratings -/

theorem cos_E (N M : Nat) (ky kx : Int) (φ : ℝ) (i j : Nat) :
    ((Real.cos (2 * Real.pi * ((ky : ℝ) * i / N + (kx : ℝ) * j / M) + φ) : ℝ) : ℂ)
      = (Complex.exp (φ * Complex.I) * (E N ky i * E M kx j)
        + Complex.exp (-(φ * Complex.I)) * (E N (-ky) i * E M (-kx) j)) / 2 := by
  rw [Complex.ofReal_cos, Complex.cos]
  unfold E
  rw [← Complex.exp_add, ← Complex.exp_add, ← Complex.exp_add, ← Complex.exp_add]
  congr 3 <;> · push_cast; ring

theorem sum_EE (N M : Nat) (hN : 0 < N) (hM : 0 < M) (k l : Int) :
    ∑ i ∈ range N, ∑ j ∈ range M, E N k i * E M l j
      = if (N : Int) ∣ k ∧ (M : Int) ∣ l then (N : ℂ) * M else 0 := by
  rw [← sum_mul_sum, sum_E N hN, sum_E M hM]
  by_cases h1 : (N : Int) ∣ k <;> by_cases h2 : (M : Int) ∣ l <;> simp [h1, h2]

/-- the transform of a cosine -/
theorem fft2_cos (N M : Nat) (hN : 0 < N) (hM : 0 < M) (a φ : ℝ) (ky kx : Int) (d : Nat → Nat → ℝ)
    (hd : ∀ i < N, ∀ j < M, d i j = a * Real.cos (2 * Real.pi * ((ky : ℝ) * i / N + (kx : ℝ) * j / M) + φ)) (u v : Nat) :
    fft2 N M d u v = (a : ℂ) / 2 * (Complex.exp (φ * Complex.I)
        * (if (N : Int) ∣ ky - u ∧ (M : Int) ∣ kx - v then (N : ℂ) * M else 0)
      + Complex.exp (-(φ * Complex.I)) * (if (N : Int) ∣ -ky - u ∧ (M : Int) ∣ -kx - v then (N : ℂ) * M else 0)) := by
  rw [fft2_E, ← sum_EE N M hN hM, ← sum_EE N M hN hM]
  simp only [mul_sum, ← sum_add_distrib]
  apply sum_congr rfl; intro i hi
  apply sum_congr rfl; intro j hj
  rw [hd i (mem_range.1 hi) j (mem_range.1 hj), Complex.ofReal_mul, cos_E]
  simp only [sub_eq_add_neg, E_add]
  ring

theorem grating_pos {g : Grid (Option ℝ)} {c a φ : ℝ} {ky kx : Int} (h : Grating g c a φ ky kx) : 0 < g.ny ∧ 0 < g.nx := by
  have h1 := h.nyquist_y
  have h2 := h.nyquist_x
  have := abs_nonneg ky
  have := abs_nonneg kx
  constructor <;> omega

theorem grating_full {g : Grid (Option ℝ)} {c a φ : ℝ} {ky kx : Int} (h : Grating g c a φ ky kx) : none ∉ flat g := by
  intro hn
  obtain ⟨i, hi, j, hj, e⟩ := mem_flat_get h.wf hn
  rw [h.heights i hi j hj] at e
  simp at e

theorem zero_of_dvd {n : Nat} {k : Int} (hk : 2 * |k| < n) (hd : (n : Int) ∣ 2 * k) : k = 0 := by
  have := Int.eq_zero_of_abs_lt_dvd hd (by rw [abs_mul]; simpa using hk)
  omega

/-- the mean of the grating is its offset -/
theorem grating_centred {g : Grid (Option ℝ)} {c a φ : ℝ} {ky kx : Int} (h : Grating g c a φ ky kx) :
    ∀ i < g.ny, ∀ j < g.nx, centred g i j
      = a * Real.cos (2 * Real.pi * ((ky : ℝ) * i / g.ny + (kx : ℝ) * j / g.nx) + φ) := by
  obtain ⟨hN, hM⟩ := grating_pos h
  have hv : ∀ i < g.ny, ∀ j < g.nx, g.val i j
      = c + a * Real.cos (2 * Real.pi * ((ky : ℝ) * i / g.ny + (kx : ℝ) * j / g.nx) + φ) := by
    intro i hi j hj
    rw [Grid.val, h.heights i hi j hj]; rfl
  have hm : measured (flat g) = (pixels g.ny g.nx).map fun p => g.val p.1 p.2 := by
    rw [flat_eq_pixels h.wf]
    have : ((pixels g.ny g.nx).map fun p => g.get p.1 p.2)
        = ((pixels g.ny g.nx).map fun p => g.val p.1 p.2).map some := by
      rw [List.map_map]
      apply List.map_congr_left
      intro p hp
      exact get_eq_some_val h.wf (grating_full h) (mem_pixels.1 hp).1 (mem_pixels.1 hp).2
    rw [this, measured_some]
  have hcos : ∑ i ∈ range g.ny, ∑ j ∈ range g.nx,
      Real.cos (2 * Real.pi * ((ky : ℝ) * i / g.ny + (kx : ℝ) * j / g.nx) + φ) = 0 := by
    have hc : ((∑ i ∈ range g.ny, ∑ j ∈ range g.nx,
        Real.cos (2 * Real.pi * ((ky : ℝ) * i / g.ny + (kx : ℝ) * j / g.nx) + φ) : ℝ) : ℂ) = 0 := by
      have e : ∑ i ∈ range g.ny, ∑ j ∈ range g.nx, (Complex.exp (φ * Complex.I) * (E g.ny ky i * E g.nx kx j)
          + Complex.exp (-(φ * Complex.I)) * (E g.ny (-ky) i * E g.nx (-kx) j)) / 2
          = (Complex.exp (φ * Complex.I) * (∑ i ∈ range g.ny, ∑ j ∈ range g.nx, E g.ny ky i * E g.nx kx j)
            + Complex.exp (-(φ * Complex.I)) * ∑ i ∈ range g.ny, ∑ j ∈ range g.nx, E g.ny (-ky) i * E g.nx (-kx) j) / 2 := by
        simp only [mul_sum, ← sum_add_distrib, sum_div]
      simp only [Complex.ofReal_sum, cos_E]
      rw [e, sum_EE _ _ hN hM, sum_EE _ _ hN hM, if_neg, if_neg]
      · simp
      · rintro ⟨d1, d2⟩
        have z1 := zero_of_dvd h.nyquist_y (Dvd.dvd.mul_left ((dvd_neg).1 d1) 2)
        have z2 := zero_of_dvd h.nyquist_x (Dvd.dvd.mul_left ((dvd_neg).1 d2) 2)
        rcases h.nonzero with hz | hz <;> contradiction
      · rintro ⟨d1, d2⟩
        have z1 := zero_of_dvd h.nyquist_y (Dvd.dvd.mul_left d1 2)
        have z2 := zero_of_dvd h.nyquist_x (Dvd.dvd.mul_left d2 2)
        rcases h.nonzero with hz | hz <;> contradiction
    exact_mod_cast hc
  have hmean : mean (measured (flat g)) = c := by
    unfold mean
    rw [hm, Detrend.sum_pixels, List.length_map]
    rw [sum_congr rfl fun i hi => sum_congr rfl fun j hj => hv i (mem_range.1 hi) j (mem_range.1 hj)]
    simp only [sum_add_distrib, ← mul_sum, hcos, sum_const, card_range, nsmul_eq_mul]
    have : ((pixels g.ny g.nx).length : ℝ) = (g.ny : ℝ) * g.nx := by simp [pixels, List.length_flatMap]
    rw [this]
    have h1 : (g.ny : ℝ) ≠ 0 := by positivity
    have h2 : (g.nx : ℝ) ≠ 0 := by positivity
    field_simp
    ring
  intro i hi j hj
  unfold centred
  rw [hmean, hv i hi j hj]
  ring

/-- the spectrum of a grating has exactly two points -/
theorem grating_amplitude {g : Grid (Option ℝ)} {c a φ : ℝ} {ky kx : Int} (h : Grating g c a φ ky kx) (u v : Nat) :
    amplitude g u v = if ((g.ny : Int) ∣ ky - u ∧ (g.nx : Int) ∣ kx - v) ∨ ((g.ny : Int) ∣ -ky - u ∧ (g.nx : Int) ∣ -kx - v)
      then |a| / 2 * (g.ny * g.nx) else 0 := by
  obtain ⟨hN, hM⟩ := grating_pos h
  unfold amplitude
  rw [fft2_cos _ _ hN hM a φ ky kx _ (grating_centred h) u v]
  have hex : ¬ (((g.ny : Int) ∣ ky - u ∧ (g.nx : Int) ∣ kx - v) ∧ ((g.ny : Int) ∣ -ky - u ∧ (g.nx : Int) ∣ -kx - v)) := by
    rintro ⟨⟨a1, a2⟩, b1, b2⟩
    have d1 : (g.ny : Int) ∣ 2 * ky := by have := dvd_sub a1 b1; ring_nf at this ⊢; exact this
    have d2 : (g.nx : Int) ∣ 2 * kx := by have := dvd_sub a2 b2; ring_nf at this ⊢; exact this
    have z1 := zero_of_dvd h.nyquist_y d1
    have z2 := zero_of_dvd h.nyquist_x d2
    rcases h.nonzero with hz | hz <;> contradiction
  have n1 : ‖Complex.exp (φ * Complex.I)‖ = 1 := Complex.norm_exp_ofReal_mul_I φ
  have n2 : ‖Complex.exp (-(φ * Complex.I))‖ = 1 := by
    have := Complex.norm_exp_ofReal_mul_I (-φ)
    rwa [Complex.ofReal_neg, neg_mul] at this
  have na : ‖(a : ℂ) / 2‖ = |a| / 2 := by rw [norm_div, Complex.norm_real, Real.norm_eq_abs]; norm_num
  have nn : ‖(g.ny : ℂ) * g.nx‖ = (g.ny : ℝ) * g.nx := by simp
  by_cases p1 : (g.ny : Int) ∣ ky - u ∧ (g.nx : Int) ∣ kx - v
  · have p2 : ¬ ((g.ny : Int) ∣ -ky - u ∧ (g.nx : Int) ∣ -kx - v) := fun p2 => hex ⟨p1, p2⟩
    rw [if_pos p1, if_neg p2, if_pos (Or.inl p1), mul_zero, add_zero, norm_mul, norm_mul, n1, na, nn, one_mul]
  · by_cases p2 : (g.ny : Int) ∣ -ky - u ∧ (g.nx : Int) ∣ -kx - v
    · rw [if_neg p1, if_pos p2, if_pos (Or.inr p2), mul_zero, zero_add, norm_mul, norm_mul, n2, na, nn, one_mul]
    · rw [if_neg p1, if_neg p2, if_neg (by tauto), mul_zero, mul_zero, add_zero, mul_zero, norm_zero]

end Surfalize.Fourier
