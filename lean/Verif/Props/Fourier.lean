import Verif.Lemmas.Fourier
import Verif.Lemmas.Stepheight
import Mathlib.Tactic.NormNum
import Mathlib.Tactic.Positivity

/-!
# C43, C44 — spectral period, orientation, angular spectrum
-/
set_option linter.unusedSectionVars false
namespace Surfalize.Props
open Surfalize BaseOps Finset Container Spec Fourier

/-- Sorting the indices by value is possible, so `IsArgsort` is satisfiable. -/
theorem C43_argsort_exists : ∃ argsort : List ℝ → List Nat, IsArgsort argsort := by
  refine ⟨fun l => (List.range l.length).insertionSort fun i j => l.getD i 0 ≤ l.getD j 0, fun l => ⟨List.perm_insertionSort _ _, ?_⟩⟩
  have : Std.Total (fun i j : Nat => l.getD i 0 ≤ l.getD j 0) := ⟨fun i j => le_total _ _⟩
  have : IsTrans Nat (fun i j : Nat => l.getD i 0 ≤ l.getD j 0) := ⟨fun _ _ _ h1 h2 => le_trans h1 h2⟩
  exact List.pairwise_insertionSort _ _

/-- the two largest entries -/
theorem top_two {argsort : List ℝ → List Nat} (hs : IsArgsort argsort) (l : List ℝ) (hl : 2 ≤ l.length) :
    ∃ i0 i1 r, (argsort l).reverse = i0 :: i1 :: r ∧ i0 < l.length ∧ i1 < l.length ∧ i0 ≠ i1 ∧
      (∀ k < l.length, l.getD k 0 ≤ l.getD i0 0) ∧ (∀ k < l.length, k ≠ i0 → l.getD k 0 ≤ l.getD i1 0) := by
  obtain ⟨hp, hw⟩ := hs l
  have hp' : (argsort l).reverse.Perm (List.range l.length) := (List.reverse_perm _).trans hp
  have hw' : (argsort l).reverse.Pairwise fun i j => l.getD j 0 ≤ l.getD i 0 := List.pairwise_reverse.2 hw
  have hlen := hp'.length_eq
  rw [List.length_range] at hlen
  match hr : (argsort l).reverse with
  | [] => rw [hr] at hlen; simp at hlen; omega
  | [_] => rw [hr] at hlen; simp at hlen; omega
  | i0 :: i1 :: r =>
    rw [hr] at hp' hw'
    have hnd : (i0 :: i1 :: r).Nodup := hp'.nodup_iff.2 List.nodup_range
    have hmem : ∀ k, k < l.length ↔ k ∈ i0 :: i1 :: r := fun k => by
      rw [hp'.mem_iff, List.mem_range]
    rw [List.pairwise_cons, List.pairwise_cons] at hw'
    refine ⟨i0, i1, r, rfl, (hmem i0).2 (by simp), (hmem i1).2 (by simp), ?_, ?_, ?_⟩
    · intro h; rw [h] at hnd; simp at hnd
    · intro k hk
      rcases List.mem_cons.1 ((hmem k).1 hk) with rfl | h
      · exact le_rfl
      · exact hw'.1 k h
    · intro k hk hne
      rcases List.mem_cons.1 ((hmem k).1 hk) with rfl | h
      · exact absurd rfl hne
      · rcases List.mem_cons.1 h with rfl | h
        · exact le_rfl
        · exact hw'.2.1 k h

/-- `k0` is a frequency of largest amplitude, `k1` one of largest amplitude among the others. -/
def DominantPair (g : Grid (Option ℝ)) (k0 k1 : Int × Int) : Prop :=
  Representable g.ny g.nx k0 ∧ Representable g.ny g.nx k1 ∧ k0 ≠ k1 ∧
    (∀ k, Representable g.ny g.nx k → ‖component g.ny g.nx g.val k‖ ≤ ‖component g.ny g.nx g.val k0‖) ∧
    (∀ k, Representable g.ny g.nx k → k ≠ k0 → ‖component g.ny g.nx g.val k‖ ≤ ‖component g.ny g.nx g.val k1‖)

/-- `dx`, `dy` of the two dominant peaks exist, are not both 0, and `dx ≥ 0`. -/
theorem peak_ok {argsort : List ℝ → List Nat} (hs : IsArgsort argsort) (g : Grid (Option ℝ)) (hg : g.WF) (hf : none ∉ flat g)
    (h2 : 2 ≤ g.ny * g.nx) {W H : ℝ} (hW : W ≠ 0) (hH : H ≠ 0) :
    ∃ k0 k1 : Int × Int, DominantPair g k0 k1 ∧
      ∃ dx dy, peakDxDy argsort g W H = .ok (dx, dy) ∧ 0 ≤ dx ∧ ¬ (dx = 0 ∧ dy = 0) ∧
        ((dx = k1.2 / W - k0.2 / W ∧ dy = k0.1 / H - k1.1 / H) ∨
         (dx = k0.2 / W - k1.2 / W ∧ dy = k1.1 / H - k0.1 / H)) := by
  have hm : ¬ hasMissing g = true := fun h => hf ((HeightParams.mem_none_iff_hasMissing g).1 h)
  obtain ⟨i0, i1, r, e, l0, l1, hne, t0, t1⟩ := top_two hs (shiftedFlat g) (by rw [shiftedFlat_length]; exact h2)
  rw [shiftedFlat_length] at l0 l1 t0 t1
  have hd : DominantPair g (kOf g i0) (kOf g i1) := by
    refine ⟨kOf_rep l0, kOf_rep l1, fun h => hne (kOf_inj h), ?_, ?_⟩
    · intro k hk
      obtain ⟨i, hi, rfl⟩ := exists_idx g hk
      rw [← shiftedFlat_k hg hf hi, ← shiftedFlat_k hg hf l0]
      exact t0 i hi
    · intro k hk hkne
      obtain ⟨i, hi, rfl⟩ := exists_idx g hk
      rw [← shiftedFlat_k hg hf hi, ← shiftedFlat_k hg hf l1]
      exact t1 i hi (fun h => hkne (by rw [h]))
  refine ⟨kOf g i0, kOf g i1, hd, ?_⟩
  have hfne := freqOf_ne g hW hH l0 l1 hne
  have hnz : ¬ (W = 0 ∨ H = 0) := by tauto
  unfold peakDxDy
  rw [if_neg hm, if_neg hnz, e]
  dsimp only
  rw [freqOf_k g hW hH l0, freqOf_k g hW hH l1] at hfne ⊢
  by_cases hgt : ((kOf g i0).2 : ℝ) / W > (kOf g i1).2 / W
  · simp only [if_pos hgt]
    refine ⟨_, _, rfl, by linarith, ?_, Or.inr ⟨rfl, rfl⟩⟩
    rintro ⟨a, _⟩; linarith
  · simp only [if_neg hgt]
    refine ⟨_, _, rfl, by linarith, ?_, Or.inl ⟨rfl, rfl⟩⟩
    rintro ⟨a, b⟩
    exact hfne (Prod.ext (by linarith) (by linarith))

/-- `1/p²` of a possibly infinite period. -/
noncomputable def invSq : Option ℝ → ℝ
  | none => 0
  | some p => 1 / p ^ 2

/-- **C43**. For every fully measured surface with at least two points, every extent and every way of breaking ties
between equal amplitudes: the period `p` is a positive number, the periods along the axes satisfy
`1/p² = 1/px² + 1/py²` (an infinite one contributing 0), the orientation `θ` lies in `(-90, 90]`, and the direction
`(-sin θ, -cos θ)` (x to the right, y downwards; the vertical axis turned by `θ`) is perpendicular to the wave
vector, the difference of the two dominant spectral peaks. -/
theorem C43_consistent {argsort : List ℝ → List Nat} (hs : IsArgsort argsort) (g : Grid (Option ℝ)) (hg : g.WF) (hf : none ∉ flat g)
    (h2 : 2 ≤ g.ny * g.nx) {W H : ℝ} (hW : W ≠ 0) (hH : H ≠ 0) :
    ∃ p px py θ, period argsort g W H = .ok (some p) ∧ periodXY argsort g W H = .ok (px, py) ∧
      orientation argsort g W H = .ok θ ∧ 0 < p ∧ 1 / p ^ 2 = invSq px + invSq py ∧ (∀ x ∈ px, 0 < x) ∧ (∀ y ∈ py, 0 < y) ∧
      -90 < θ ∧ θ ≤ 90 ∧
      ∃ k0 k1 : Int × Int, DominantPair g k0 k1 ∧
        -Real.sin (θ * Real.pi / 180) * (((k1.2 - k0.2 : Int) : ℝ) / W)
          - Real.cos (θ * Real.pi / 180) * (((k1.1 - k0.1 : Int) : ℝ) / H) = 0 := by
  obtain ⟨k0, k1, hd, dx, dy, e, hdx, hnz, hor⟩ := peak_ok hs g hg hf h2 hW hH
  have hpos : 0 < dx ^ 2 + dy ^ 2 := by
    rcases eq_or_ne dx 0 with h | h
    · have : dy ≠ 0 := fun h' => hnz ⟨h, h'⟩
      positivity
    · positivity
  have hsq : 0 < Real.sqrt (dx ^ 2 + dy ^ 2) := Real.sqrt_pos.2 hpos
  refine ⟨2 / Real.sqrt (dx ^ 2 + dy ^ 2), if dx = 0 then none else some |2 / dx|, if dy = 0 then none else some |2 / dy|,
    if dx = 0 then 90 else if dy = 0 then 0 else Real.arctan (dy / dx) * 180 / Real.pi, ?_, ?_, ?_, by positivity, ?_, ?_, ?_, ?_, ?_, ?_⟩
  · unfold period; rw [e]; show Except.ok _ = _; dsimp only; rw [if_neg hsq.ne']
  · unfold periodXY; rw [e]; rfl
  · unfold orientation; rw [e]; rfl
  · rw [div_pow, Real.sq_sqrt hpos.le]
    have a : invSq (if dx = 0 then none else some |2 / dx|) = dx ^ 2 / 4 := by
      split
      · rename_i h; rw [h]; norm_num [invSq]
      · rename_i h; simp only [invSq]; rw [sq_abs, div_pow]; field_simp; norm_num
    have b : invSq (if dy = 0 then none else some |2 / dy|) = dy ^ 2 / 4 := by
      split
      · rename_i h; rw [h]; norm_num [invSq]
      · rename_i h; simp only [invSq]; rw [sq_abs, div_pow]; field_simp; norm_num
    rw [a, b]; field_simp; norm_num
  · intro x hx
    split at hx
    · simp at hx
    · rename_i h; obtain rfl := Option.some.inj hx; exact abs_pos.2 (div_ne_zero two_ne_zero h)
  · intro x hx
    split at hx
    · simp at hx
    · rename_i h; obtain rfl := Option.some.inj hx; exact abs_pos.2 (div_ne_zero two_ne_zero h)
  · split
    · norm_num
    · split
      · norm_num
      · have := Real.neg_pi_div_two_lt_arctan (dy / dx)
        rw [lt_div_iff₀ Real.pi_pos]; linarith
  · split
    · norm_num
    · split
      · norm_num
      · have := Real.arctan_lt_pi_div_two (dy / dx)
        rw [div_le_iff₀ Real.pi_pos]; linarith
  · refine ⟨k0, k1, hd, ?_⟩
    have key : ∀ θ, θ = (if dx = 0 then (90 : ℝ) else if dy = 0 then 0 else Real.arctan (dy / dx) * 180 / Real.pi) →
        Real.sin (θ * Real.pi / 180) * dx = Real.cos (θ * Real.pi / 180) * dy := by
      intro θ hθ
      split at hθ
      · rename_i h
        have : θ * Real.pi / 180 = Real.pi / 2 := by rw [hθ]; ring
        rw [this, Real.cos_pi_div_two, h]; ring
      · split at hθ
        · rename_i h; rw [hθ, h]; simp
        · rename_i h _
          have : θ * Real.pi / 180 = Real.arctan (dy / dx) := by
            rw [hθ]; have := Real.pi_ne_zero; field_simp
          rw [this]
          have hc := (Real.cos_arctan_pos (dy / dx)).ne'
          have ht := Real.tan_arctan (dy / dx)
          rw [Real.tan_eq_sin_div_cos, div_eq_div_iff hc h] at ht
          linarith
    have hk := key _ rfl
    rcases hor with ⟨a, b⟩ | ⟨a, b⟩
    · rw [show ((k1.2 - k0.2 : Int) : ℝ) / W = dx by rw [a]; push_cast; ring,
        show ((k1.1 - k0.1 : Int) : ℝ) / H = -dy by rw [b]; push_cast; ring]
      linarith
    · rw [show ((k1.2 - k0.2 : Int) : ℝ) / W = -dx by rw [a]; push_cast; ring,
        show ((k1.1 - k0.1 : Int) : ℝ) / H = dy by rw [b]; push_cast; ring]
      linarith

/-- **C43** (error cases). A single point has no period; missing points raise ValueError. -/
theorem C43_errors {argsort : List ℝ → List Nat} (hs : IsArgsort argsort) (g : Grid (Option ℝ)) (W H : ℝ) :
    (none ∈ flat g → period argsort g W H = .error .valueError) ∧
    (none ∉ flat g → W ≠ 0 → H ≠ 0 → g.ny * g.nx ≤ 1 → period argsort g W H = .error .indexError) := by
  constructor
  · intro h
    unfold period peakDxDy
    rw [if_pos ((HeightParams.mem_none_iff_hasMissing g).2 h)]; rfl
  · intro hf hW hH h1
    have hm : ¬ hasMissing g = true := fun h => hf ((HeightParams.mem_none_iff_hasMissing g).1 h)
    have hnz : ¬ (W = 0 ∨ H = 0) := by tauto
    unfold period peakDxDy
    rw [if_neg hm, if_neg hnz]
    have hlen := ((List.reverse_perm _).trans (hs (shiftedFlat g)).1).length_eq
    rw [List.length_range, shiftedFlat_length] at hlen
    match hr : (argsort (shiftedFlat g)).reverse with
    | [] => rfl
    | [_] => rfl
    | _ :: _ :: _ => rw [hr] at hlen; simp at hlen; omega

/-! ### Gratings -/

/-- the spectrum of a grating in terms of frequencies -/
theorem grating_component {g : Grid (Option ℝ)} {c a φ : ℝ} {ky kx : Int} (h : Grating g c a φ ky kx) {k : Int × Int}
    (hk : Representable g.ny g.nx k) :
    ‖component g.ny g.nx g.val k‖ = if k = (ky, kx) ∨ k = (-ky, -kx) then |a| / 2 * (g.ny * g.nx) else 0 := by
  obtain ⟨idx, hi, rfl⟩ := exists_idx g hk
  obtain ⟨b1, b2⟩ := idx_bounds hi
  rw [← shiftedFlat_k h.wf (grating_full h) hi, shiftedFlat_get g hi, grating_amplitude h]
  have e1 := shift_dvd b1 ky h.nyquist_y
  have e2 := shift_dvd b2 kx h.nyquist_x
  have e3 := shift_dvd b1 (-ky) (by rw [abs_neg]; exact h.nyquist_y)
  have e4 := shift_dvd b2 (-kx) (by rw [abs_neg]; exact h.nyquist_x)
  simp only [e1, e2, e3, e4]
  unfold kOf
  simp only [Prod.mk.injEq]

/-- the dominant pair of a grating is the grating's frequency and its opposite -/
theorem grating_pair {g : Grid (Option ℝ)} {c a φ : ℝ} {ky kx : Int} (h : Grating g c a φ ky kx) {k0 k1 : Int × Int}
    (hd : DominantPair g k0 k1) : (k0 = (ky, kx) ∧ k1 = (-ky, -kx)) ∨ (k0 = (-ky, -kx) ∧ k1 = (ky, kx)) := by
  obtain ⟨r0, r1, hne, t0, t1⟩ := hd
  obtain ⟨hN, hM⟩ := grating_pos h
  have hA : 0 < |a| / 2 * ((g.ny : ℝ) * g.nx) := by
    have := abs_pos.2 h.contrast
    have : (0 : ℝ) < g.ny := by exact_mod_cast hN
    have : (0 : ℝ) < g.nx := by exact_mod_cast hM
    positivity
  have ay := h.nyquist_y
  have ax := h.nyquist_x
  have rp : Representable g.ny g.nx (ky, kx) := by
    unfold Representable
    rcases abs_cases ky with ⟨h1, _⟩ | ⟨h1, _⟩ <;> rcases abs_cases kx with ⟨h2, _⟩ | ⟨h2, _⟩ <;> dsimp only <;>
      refine ⟨?_, ?_, ?_, ?_⟩ <;> omega
  have rm : Representable g.ny g.nx (-ky, -kx) := by
    unfold Representable
    rcases abs_cases ky with ⟨h1, _⟩ | ⟨h1, _⟩ <;> rcases abs_cases kx with ⟨h2, _⟩ | ⟨h2, _⟩ <;> dsimp only <;>
      refine ⟨?_, ?_, ?_, ?_⟩ <;> omega
  have hpm : (ky, kx) ≠ (-ky, -kx) := by
    intro he
    simp only [Prod.mk.injEq] at he
    rcases h.nonzero with hz | hz <;> omega
  have vp := grating_component h rp
  have vm := grating_component h rm
  rw [if_pos (Or.inl rfl)] at vp
  rw [if_pos (Or.inr rfl)] at vm
  have m0 : k0 = (ky, kx) ∨ k0 = (-ky, -kx) := by
    by_contra hc
    have := t0 _ rp
    rw [vp, grating_component h r0, if_neg hc] at this
    linarith
  have m1 : k1 = (ky, kx) ∨ k1 = (-ky, -kx) := by
    by_contra hc
    have hz := grating_component h r1
    rw [if_neg hc] at hz
    rcases m0 with h0 | h0
    · have := t1 _ rm (by rw [h0]; exact fun h => hpm h.symm)
      rw [vm, hz] at this; linarith
    · have := t1 _ rp (by rw [h0]; exact hpm)
      rw [vp, hz] at this; linarith
  rcases m0 with h0 | h0 <;> rcases m1 with h1 | h1
  · exact absurd (h0.trans h1.symm) hne
  · exact Or.inl ⟨h0, h1⟩
  · exact Or.inr ⟨h0, h1⟩
  · exact absurd (h0.trans h1.symm) hne

/-- **C76** (proved part). For every cosine grating sampled with more than two points per period, whatever its
offset, amplitude, phase and direction, the spectral period is exactly `1/√((kx/W)² + (ky/H)²)`, the periods along the
axes are `W/|kx|` and `H/|ky|`, Ssw equals the period, and the orientation is perpendicular to the wave vector
`(kx/W, ky/H)`, where `W`, `H` are the extents `width_um`, `height_um`. The property asks for the true period, which
is this expression with `nx·step` and `ny·step` for the extents; see `C76_period_too_small`. -/
theorem C76_grating_partial {argsort : List ℝ → List Nat} (hs : IsArgsort argsort) {g : Grid (Option ℝ)} {c a φ : ℝ}
    {ky kx : Int} (h : Grating g c a φ ky kx) {W H : ℝ} (hW : 0 < W) (hH : 0 < H) :
    period argsort g W H = .ok (some (1 / Real.sqrt ((kx / W) ^ 2 + (ky / H) ^ 2))) ∧
    dominantWavelength g W H = .ok (some (1 / Real.sqrt ((kx / W) ^ 2 + (ky / H) ^ 2))) ∧
    periodXY argsort g W H = .ok (if kx = 0 then none else some (W / |(kx : ℝ)|), if ky = 0 then none else some (H / |(ky : ℝ)|)) ∧
    ∃ θ, orientation argsort g W H = .ok θ ∧ -90 < θ ∧ θ ≤ 90 ∧
      -Real.sin (θ * Real.pi / 180) * (kx / W) - Real.cos (θ * Real.pi / 180) * (ky / H) = 0 := by
  have hf := grating_full h
  obtain ⟨hN, hM⟩ := grating_pos h
  have hge : 2 ≤ g.ny * g.nx := by
    have ay := h.nyquist_y
    have ax := h.nyquist_x
    rcases h.nonzero with hz | hz
    · have := abs_pos.2 hz
      calc 2 ≤ g.ny := by omega
        _ = g.ny * 1 := (Nat.mul_one _).symm
        _ ≤ g.ny * g.nx := Nat.mul_le_mul_left _ hM
    · have := abs_pos.2 hz
      calc 2 ≤ g.nx := by omega
        _ = 1 * g.nx := (Nat.one_mul _).symm
        _ ≤ g.ny * g.nx := Nat.mul_le_mul_right _ hN
  obtain ⟨k0, k1, hd, dx, dy, e, hdx, hnz, hor⟩ := peak_ok hs g h.wf hf hge hW.ne' hH.ne'
  have hσ : ∃ σ : ℝ, (σ = 1 ∨ σ = -1) ∧ dx = σ * (2 * (kx / W)) ∧ dy = -σ * (2 * (ky / H)) := by
    rcases grating_pair h hd with ⟨rfl, rfl⟩ | ⟨rfl, rfl⟩ <;> rcases hor with ⟨h1, h2⟩ | ⟨h1, h2⟩
    · exact ⟨-1, Or.inr rfl, by rw [h1]; push_cast; ring, by rw [h2]; push_cast; ring⟩
    · exact ⟨1, Or.inl rfl, by rw [h1]; push_cast; ring, by rw [h2]; push_cast; ring⟩
    · exact ⟨1, Or.inl rfl, by rw [h1]; push_cast; ring, by rw [h2]; push_cast; ring⟩
    · exact ⟨-1, Or.inr rfl, by rw [h1]; push_cast; ring, by rw [h2]; push_cast; ring⟩
  obtain ⟨σ, hσ1, hx, hy⟩ := hσ
  have hσ2 : σ ^ 2 = 1 := by rcases hσ1 with rfl | rfl <;> norm_num
  have hσa : |σ| = 1 := by rcases hσ1 with rfl | rfl <;> norm_num
  have hpos : 0 < (kx / W) ^ 2 + (ky / H) ^ 2 := by
    rcases h.nonzero with hz | hz
    · have : (ky : ℝ) ≠ 0 := by exact_mod_cast hz
      positivity
    · have : (kx : ℝ) ≠ 0 := by exact_mod_cast hz
      positivity
  have hsq : Real.sqrt (dx ^ 2 + dy ^ 2) = 2 * Real.sqrt ((kx / W) ^ 2 + (ky / H) ^ 2) := by
    have : dx ^ 2 + dy ^ 2 = 2 ^ 2 * ((kx / W) ^ 2 + (ky / H) ^ 2) := by
      rw [hx, hy]; linear_combination (4 * ((kx / W) ^ 2 + (ky / H) ^ 2)) * hσ2
    rw [this, Real.sqrt_mul (by norm_num), Real.sqrt_sq (by norm_num)]
  have hspos : 0 < Real.sqrt ((kx / W) ^ 2 + (ky / H) ^ 2) := Real.sqrt_pos.2 hpos
  have hσne : σ ≠ 0 := by rcases hσ1 with rfl | rfl <;> norm_num
  have hx0 : dx = 0 ↔ kx = 0 := by
    rw [hx]
    constructor
    · intro h0
      have : (kx : ℝ) / W = 0 := by
        rcases mul_eq_zero.1 h0 with h | h
        · exact absurd h hσne
        · linarith
      rcases div_eq_zero_iff.1 this with h | h
      · exact_mod_cast h
      · exact absurd h hW.ne'
    · rintro rfl; simp
  have hy0 : dy = 0 ↔ ky = 0 := by
    rw [hy]
    constructor
    · intro h0
      have : (ky : ℝ) / H = 0 := by
        rcases mul_eq_zero.1 h0 with h | h
        · exact absurd (neg_eq_zero.1 h) hσne
        · linarith
      rcases div_eq_zero_iff.1 this with h | h
      · exact_mod_cast h
      · exact absurd h hH.ne'
    · rintro rfl; simp
  refine ⟨?_, ?_, ?_, ?_⟩
  · unfold period
    rw [e]
    show Except.ok _ = _
    dsimp only
    rw [hsq, if_neg (by positivity)]
    congr 2
    field_simp
  · have hm : ¬ hasMissing g = true := fun hh => hf ((HeightParams.mem_none_iff_hasMissing g).1 hh)
    have hnz' : ¬ (W = 0 ∨ H = 0) := by
      rintro (h | h)
      · exact hW.ne' h
      · exact hH.ne' h
    have hlen := shiftedFlat_length g
    have hne : shiftedFlat g ≠ [] := by
      intro h0; rw [h0] at hlen; simp at hlen; rcases hlen with h | h <;> omega
    unfold dominantWavelength
    rw [if_neg hm, if_neg hnz', if_neg hne]
    dsimp only
    have hlt := Stepheight.argmax_lt hne
    have hge' := fun j (hj : j < (shiftedFlat g).length) => Stepheight.argmax_ge hne hj
    rw [hlen] at hlt
    have hmax : ∀ k, Representable g.ny g.nx k →
        ‖component g.ny g.nx g.val k‖ ≤ ‖component g.ny g.nx g.val (kOf g (argmax (shiftedFlat g)))‖ := by
      intro k hk
      obtain ⟨i, hi, rfl⟩ := exists_idx g hk
      rw [← shiftedFlat_k h.wf hf hi, ← shiftedFlat_k h.wf hf hlt, getD_of_lt _ (by rw [hlen]; exact hi),
        getD_of_lt _ (by rw [hlen]; exact hlt)]
      exact hge' i (by rw [hlen]; exact hi)
    have hk : kOf g (argmax (shiftedFlat g)) = (ky, kx) ∨ kOf g (argmax (shiftedFlat g)) = (-ky, -kx) := by
      obtain ⟨r0, r1, hne01, t0, t1⟩ := hd
      by_contra hc
      have hz := grating_component h (kOf_rep hlt)
      rw [if_neg hc] at hz
      have h0 := hmax _ r0
      have hv : ‖component g.ny g.nx g.val k0‖ = |a| / 2 * (g.ny * g.nx) := by
        rw [grating_component h r0, if_pos]
        rcases grating_pair h ⟨r0, r1, hne01, t0, t1⟩ with ⟨h, _⟩ | ⟨h, _⟩
        · exact Or.inl h
        · exact Or.inr h
      have := abs_pos.2 h.contrast
      have : (0 : ℝ) < g.ny := by exact_mod_cast hN
      have : (0 : ℝ) < g.nx := by exact_mod_cast hM
      have : 0 < |a| / 2 * ((g.ny : ℝ) * g.nx) := by positivity
      rw [hv, hz] at h0
      linarith
    rw [freqOf_k g hW.ne' hH.ne' hlt]
    have : Real.sqrt (((kOf g (argmax (shiftedFlat g))).2 / W : ℝ) ^ 2 + ((kOf g (argmax (shiftedFlat g))).1 / H : ℝ) ^ 2)
        = Real.sqrt ((kx / W) ^ 2 + (ky / H) ^ 2) := by
      rcases hk with hk | hk <;> rw [hk]
      dsimp only
      push_cast
      congr 1
      ring
    rw [this, if_neg hspos.ne']
  · unfold periodXY
    rw [e]
    show Except.ok _ = _
    dsimp only
    simp only [hx0, hy0]
    congr 2
    · split
      · rfl
      · rename_i hz
        have : (kx : ℝ) ≠ 0 := by exact_mod_cast hz
        congr 1
        rw [hx, abs_div, abs_mul, hσa, abs_mul, abs_div, abs_of_pos hW]
        have := abs_pos.2 this
        norm_num
        field_simp
    · split
      · rfl
      · rename_i hz
        have : (ky : ℝ) ≠ 0 := by exact_mod_cast hz
        congr 1
        rw [hy, abs_div, abs_mul, abs_neg, hσa, abs_mul, abs_div, abs_of_pos hH]
        have := abs_pos.2 this
        norm_num
        field_simp
  · obtain ⟨_, _, _, θ, _, _, ho, _, _, _, _, h1, h2, k0', k1', hd', hperp⟩ := C43_consistent hs g h.wf hf hge hW.ne' hH.ne'
    refine ⟨θ, ho, h1, h2, ?_⟩
    rcases grating_pair h hd' with ⟨rfl, rfl⟩ | ⟨rfl, rfl⟩
    · push_cast at hperp
      have e1 : (-(kx : ℝ) - kx) / W = -2 * (kx / W) := by ring
      have e2 : (-(ky : ℝ) - ky) / H = -2 * (ky / H) := by ring
      rw [e1, e2] at hperp
      linarith
    · push_cast at hperp
      have e1 : ((kx : ℝ) - -kx) / W = 2 * (kx / W) := by ring
      have e2 : ((ky : ℝ) - -ky) / H = 2 * (ky / H) := by ring
      rw [e1, e2] at hperp
      linarith

/-- The extent of a surface of `nx` columns is `(nx-1)·step` (surface.py:143), so the period reported for a grating
with `kx` periods over the `nx` columns is `(nx-1)/nx` times its true period `nx·step/kx`, always too small. -/
theorem C76_period_too_small {argsort : List ℝ → List Nat} (hs : IsArgsort argsort) {g : Grid (Option ℝ)} {c a φ : ℝ}
    {kx : Int} (h : Grating g c a φ 0 kx) (hk : 0 < kx) {stepX H : ℝ} (hx : 0 < stepX) (hH : 0 < H) :
    ∃ p, period argsort g (((g.nx : ℝ) - 1) * stepX) H = .ok (some p) ∧
      p = ((g.nx : ℝ) - 1) / g.nx * (g.nx * stepX / kx) ∧ p < g.nx * stepX / kx := by
  have ax := h.nyquist_x
  rw [abs_of_pos hk] at ax
  have hM : (1 : ℝ) < g.nx := by exact_mod_cast (by omega : 1 < g.nx)
  have hW : 0 < ((g.nx : ℝ) - 1) * stepX := mul_pos (by linarith) hx
  have hk' : (0 : ℝ) < kx := by exact_mod_cast hk
  have hp := (C76_grating_partial hs h hW hH).1
  have e : (1 : ℝ) / Real.sqrt ((kx / (((g.nx : ℝ) - 1) * stepX)) ^ 2 + (((0 : Int) : ℝ) / H) ^ 2)
      = ((g.nx : ℝ) - 1) / g.nx * (g.nx * stepX / kx) := by
    rw [Int.cast_zero, zero_div, zero_pow two_ne_zero, add_zero, Real.sqrt_sq (by positivity)]
    have : (0 : ℝ) < g.nx := by linarith
    have : (0 : ℝ) < (g.nx : ℝ) - 1 := by linarith
    field_simp
  refine ⟨_, hp, e, ?_⟩
  rw [e]
  have h1 : ((g.nx : ℝ) - 1) / g.nx < 1 := by rw [div_lt_one (by linarith)]; linarith
  have h2 : 0 < (g.nx : ℝ) * stepX / kx := by
    have : (0 : ℝ) < g.nx := by linarith
    positivity
  calc _ < 1 * (g.nx * stepX / kx) := mul_lt_mul_of_pos_right h1 h2
    _ = _ := one_mul _

example : ∃ g : Grid (Option ℝ), Grating g 1 2 0 0 1 ∧ none ∉ flat g ∧ 2 ≤ g.ny * g.nx := by
  have hg : Grating (Grid.ofFn 3 4 fun i j => some (1 + 2 * Real.cos
    (2 * Real.pi * (((0 : Int) : ℝ) * i / 3 + ((1 : Int) : ℝ) * j / 4) + 0))) 1 2 0 0 1 := by
    refine ⟨ofFn_wf _ _ _, ?_, two_ne_zero, Or.inr one_ne_zero, ?_, ?_⟩
    · intro i hi j hj
      rw [ofFn_ny] at hi ⊢
      rw [ofFn_nx] at hj ⊢
      rw [get_ofFn _ hi hj]
      norm_num
    · rw [ofFn_ny]; norm_num
    · rw [ofFn_nx]; norm_num
  refine ⟨_, hg, grating_full hg, ?_⟩
  rw [ofFn_ny, ofFn_nx]; norm_num

end Surfalize.Props
