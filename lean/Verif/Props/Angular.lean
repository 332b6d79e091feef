import Verif.Lemmas.Angular
import Verif.Props.Fourier

/-! # The angular spectrum and the texture direction (C44) -/
set_option linter.unusedSectionVars false
namespace Surfalize.Props
open Surfalize BaseOps Finset Container Spec Fourier

/-- **C44**, the bins. For every fully measured surface with nonzero extents and every positive angular resolution the
angles are the multiples of the step in `[0, 180)`, and the value of bin `k` is the total power (or amplitude) of
exactly those spectral components whose direction lies in `[k·step, (k+1)·step)`. Every component has a direction and
is counted in exactly one bin. -/
theorem C44_bins (g : Grid (Option ℝ)) (hg : g.WF) (hf : none ∉ flat g) (hN : 0 < g.ny) (hM : 0 < g.nx) {W H step : ℝ}
    (hW : W ≠ 0) (hH : H ≠ 0) (hs : 0 < step) (squared : Bool) :
    ∃ ang spec, angularSpectrum g W H step squared = .ok (ang, spec) ∧ spec.length = ang.length ∧
      (∀ k : Nat, (k : ℝ) * step < 180 ↔ k < ang.length) ∧
      (∀ k < ang.length, ang.getD k 0 = k * step ∧
        spec.getD k 0 = sector g.ny g.nx g.val W H (if squared then 2 else 1) (k * step) ((k + 1) * step)) ∧
      ∀ f ∈ freqs g.ny g.nx, ∃! k, k < ang.length ∧ ∃ θ, IsDirection W H f θ ∧ k * step ≤ θ ∧ θ < (k + 1) * step := by
  have hm : ¬ hasMissing g = true := fun hh => hf ((HeightParams.mem_none_iff_hasMissing g).1 hh)
  have hwh : ¬ (W = 0 ∨ H = 0) := by simp [hW, hH]
  unfold angularSpectrum
  rw [if_neg hm, if_neg hwh, if_neg hs.ne', if_neg (not_lt.2 hs.le)]
  refine ⟨_, _, rfl, ?_, ?_, ?_, ?_⟩
  · simp
  · intro k
    rw [angles_length, Nat.lt_ceil, lt_div_iff₀ hs]
  · intro k hk
    constructor
    · rw [getD_of_lt _ hk]; simp [angles]
    · rw [getD_of_lt _ (by simpa using hk), List.getElem_map, List.getElem_range, sum_filter_map]
      unfold sector
      classical
      rw [sum_filter, ← sum_freqs]
      congr 1
      apply List.map_congr_left
      intro p _
      rw [theta_eq hN hM]
      have hd := dirOf_spec W H (signedFreq g.ny p.1, signedFreq g.nx p.2)
      have hb := binIdx_iff hs hd.1 hd.2.1 k
      have hw : (if squared = true then amplitude g p.1 p.2 ^ 2 else amplitude g p.1 p.2)
          = ‖component g.ny g.nx g.val (signedFreq g.ny p.1, signedFreq g.nx p.2)‖ ^ (if squared = true then 2 else 1) := by
        rw [amplitude_signed hg hf hN hM]
        cases squared <;> simp
      rw [hw]
      have hiff : binIdx step (dirOf W H (signedFreq g.ny p.1, signedFreq g.nx p.2)) = k ↔
          ∃ θ, IsDirection W H (signedFreq g.ny p.1, signedFreq g.nx p.2) θ ∧ k * step ≤ θ ∧ θ < (k + 1) * step := by
        rw [hb]
        constructor
        · intro h; exact ⟨_, hd, h⟩
        · rintro ⟨θ, hθ, h⟩
          rwa [direction_unique hW hH hd hθ]
      simp only [hiff]
  · intro f _
    have hd := dirOf_spec W H f
    refine ⟨binIdx step (dirOf W H f), ⟨?_, _, hd, (binIdx_iff hs hd.1 hd.2.1 _).1 rfl⟩, ?_⟩
    · rw [angles_length]
      exact bin_lt hs hd.2.1 ((binIdx_iff hs hd.1 hd.2.1 _).1 rfl).1
    · rintro k ⟨_, θ, hθ, h⟩
      rw [← direction_unique hW hH hd hθ] at h
      exact ((binIdx_iff hs hd.1 hd.2.1 k).2 h).symm

/-- the sectors of a partition add up to the whole spectrum -/
theorem sector_sum (N M : Nat) (h : Nat → Nat → ℝ) {W H step : ℝ} (e n : Nat)
    (hp : ∀ f ∈ freqs N M, ∃! k, k < n ∧ ∃ θ, IsDirection W H f θ ∧ (k : ℝ) * step ≤ θ ∧ θ < (k + 1) * step) :
    ∑ k ∈ range n, sector N M h W H e (k * step) ((k + 1) * step) = ∑ f ∈ freqs N M, ‖component N M h f‖ ^ e := by
  classical
  unfold sector
  simp only [sum_filter]
  rw [sum_comm]
  apply sum_congr rfl
  intro f hf
  obtain ⟨k, ⟨hk, h1⟩, hu⟩ := hp f hf
  rw [sum_eq_single_of_mem k (mem_range.2 hk), if_pos h1]
  intro j hj hne
  rw [if_neg]
  intro hc
  exact hne (hu j ⟨mem_range.1 hj, hc⟩)

/-- **C44**, conservation. The values of the bins add up to the total power (or amplitude) of the spectrum, whatever the
resolution; the total power is `N·M` times the sum of the squared deviations of the heights from their mean (hence
`(N·M)²·Sq²`), and the component of frequency zero does not contribute. -/
theorem C44_power (g : Grid (Option ℝ)) (hg : g.WF) (hf : none ∉ flat g) (hN : 0 < g.ny) (hM : 0 < g.nx) {W H step : ℝ}
    (hW : W ≠ 0) (hH : H ≠ 0) (hs : 0 < step) (squared : Bool) {ang spec : List ℝ}
    (h : angularSpectrum g W H step squared = .ok (ang, spec)) :
    (squared = true → spec.sum = (g.ny * g.nx) * ∑ i ∈ range g.ny, ∑ j ∈ range g.nx,
      (g.val i j - (∑ a ∈ range g.ny, ∑ b ∈ range g.nx, g.val a b) / (g.ny * g.nx)) ^ 2) ∧
    (squared = false → spec.sum = ∑ f ∈ freqs g.ny g.nx, ‖component g.ny g.nx g.val f‖) ∧
    component g.ny g.nx g.val (0, 0) = 0 := by
  obtain ⟨ang', spec', e, hl, -, hv, hp⟩ := C44_bins g hg hf hN hM hW hH hs squared
  rw [h] at e
  simp only [Except.ok.injEq, Prod.mk.injEq] at e
  obtain ⟨rfl, rfl⟩ := e
  have hsum : spec.sum = ∑ f ∈ freqs g.ny g.nx, ‖component g.ny g.nx g.val f‖ ^ (if squared = true then 2 else 1) := by
    rw [← sector_sum g.ny g.nx g.val _ _ hp]
    have : spec = (List.range ang.length).map fun k : Nat =>
        sector g.ny g.nx g.val W H (if squared then 2 else 1) (k * step) ((k + 1) * step) := by
      apply List.ext_getElem
      · simp [hl]
      · intro k h1 h2
        rw [List.getElem_map, List.getElem_range, ← (hv k (by omega)).2, getD_of_lt _ h1]
    rw [this, Detrend.sum_range_map]
  refine ⟨?_, ?_, ?_⟩
  · intro hq
    rw [hsum, hq]
    simp only [if_true]
    rw [← sum_freqs, Detrend.sum_pixels]
    have e1 : ∑ i ∈ range g.ny, ∑ j ∈ range g.nx,
        ‖component g.ny g.nx g.val (signedFreq g.ny i, signedFreq g.nx j)‖ ^ 2
        = ∑ i ∈ range g.ny, ∑ j ∈ range g.nx, ‖fft2 g.ny g.nx (centred g) i j‖ ^ 2 := by
      apply sum_congr rfl; intro i _
      apply sum_congr rfl; intro j _
      rw [← amplitude_signed hg hf hN hM]
      rfl
    rw [e1, parseval _ _ hN hM]
    congr 1
    apply sum_congr rfl; intro i _
    apply sum_congr rfl; intro j _
    rw [centred_eq hg hf]
  · intro hq
    rw [hsum, hq]
    simp
  · unfold component
    have h1 : (g.ny : ℝ) ≠ 0 := by exact_mod_cast hN.ne'
    have h2 : (g.nx : ℝ) ≠ 0 := by exact_mod_cast hM.ne'
    simp only [Int.cast_zero, zero_mul, zero_div, add_zero, mul_zero, Complex.exp_zero, mul_one]
    rw [← Complex.ofReal_zero]
    simp only [← Complex.ofReal_sum]
    congr 1
    simp only [sum_sub_distrib, sum_const, card_range, nsmul_eq_mul]
    field_simp
    ring

/-- **C44**, invalid calls: missing points, a vanishing extent and a non-positive resolution raise. -/
theorem C44_errors (g : Grid (Option ℝ)) {W H step : ℝ} (squared : Bool) :
    (none ∈ flat g → angularSpectrum g W H step squared = .error .valueError ∧ std g W H step = .error .valueError) ∧
    (none ∉ flat g → W = 0 ∨ H = 0 ∨ step = 0 →
      angularSpectrum g W H step squared = .error .zeroDivision ∧ std g W H step = .error .zeroDivision) ∧
    (none ∉ flat g → W ≠ 0 → H ≠ 0 → step < 0 →
      angularSpectrum g W H step squared = .error .valueError ∧ std g W H step = .error .valueError) := by
  unfold Fourier.std angularSpectrum
  refine ⟨?_, ?_, ?_⟩
  · intro h
    simp only [if_pos ((HeightParams.mem_none_iff_hasMissing g).2 h)]
    exact ⟨trivial, rfl⟩
  · intro hf h
    have hm : ¬ hasMissing g = true := fun hh => hf ((HeightParams.mem_none_iff_hasMissing g).1 hh)
    simp only [if_neg hm]
    by_cases hwh : W = 0 ∨ H = 0
    · simp only [if_pos hwh]; exact ⟨trivial, rfl⟩
    · have : step = 0 := by tauto
      simp only [if_neg hwh, if_pos this]; exact ⟨trivial, rfl⟩
  · intro hf hW hH h
    have hm : ¬ hasMissing g = true := fun hh => hf ((HeightParams.mem_none_iff_hasMissing g).1 hh)
    have hwh : ¬ (W = 0 ∨ H = 0) := by simp [hW, hH]
    simp only [if_neg hm, if_neg hwh, if_neg h.ne, if_pos h]
    exact ⟨trivial, rfl⟩

/-- **C44**, the texture direction. `Std` is a multiple of the resolution in `[0, 180)` whose sector holds at least as
much power as any other sector. -/
theorem C44_std (g : Grid (Option ℝ)) (hg : g.WF) (hf : none ∉ flat g) (hN : 0 < g.ny) (hM : 0 < g.nx) {W H step : ℝ}
    (hW : W ≠ 0) (hH : H ≠ 0) (hs : 0 < step) :
    ∃ k : Nat, std g W H step = .ok (k * step) ∧ (k : ℝ) * step < 180 ∧
      ∀ j : Nat, (j : ℝ) * step < 180 → sector g.ny g.nx g.val W H 2 (j * step) ((j + 1) * step)
        ≤ sector g.ny g.nx g.val W H 2 (k * step) ((k + 1) * step) := by
  obtain ⟨ang, spec, e, hl, hlt, hv, -⟩ := C44_bins g hg hf hN hM hW hH hs true
  have hne : spec ≠ [] := by
    intro h0
    rw [h0] at hl
    have := (hlt 0).1 (by simp)
    rw [← hl] at this
    simp at this
  have hk := Stepheight.argmax_lt hne
  refine ⟨argmax spec, ?_, (hlt _).2 (by omega), ?_⟩
  · unfold Fourier.std
    rw [e]
    show Except.ok (ang.getD (argmax spec) 0) = _
    rw [(hv _ (by omega)).1]
  · intro j hj
    have hj' := (hlt j).1 hj
    have h1 := (hv j hj').2
    have h2 := (hv (argmax spec) (by omega)).2
    simp only [if_true] at h1 h2
    rw [← h1, ← h2, getD_of_lt _ (by omega), getD_of_lt _ hk]
    exact Stepheight.argmax_ge hne (by omega)

/-- **C44** for gratings: the texture direction of a cosine grating is the direction of its wave vector, rounded down to
the resolution, whatever its amplitude, offset and phase. -/
theorem C44_grating {g : Grid (Option ℝ)} {c a φ : ℝ} {ky kx : Int} (h : Grating g c a φ ky kx) {W H step : ℝ}
    (hW : W ≠ 0) (hH : H ≠ 0) (hs : 0 < step) :
    ∃ s θ, std g W H step = .ok s ∧ IsDirection W H (ky, kx) θ ∧ s ≤ θ ∧ θ < s + step := by
  obtain ⟨hN, hM⟩ := grating_pos h
  have hf := grating_full h
  obtain ⟨k, e, hk, hmax⟩ := C44_std g h.wf hf hN hM hW hH hs
  have hd := dirOf_spec W H (ky, kx)
  set θ := dirOf W H (ky, kx)
  refine ⟨_, θ, e, hd, ?_⟩
  obtain ⟨b1, b2⟩ := (binIdx_iff hs hd.1 hd.2.1 (binIdx step θ)).1 rfl
  have hj := hmax (binIdx step θ) (by linarith [hd.2.1])
  have ay := h.nyquist_y
  have ax := h.nyquist_x
  have hA : 0 < |a| / 2 * ((g.ny : ℝ) * g.nx) := by
    have := abs_pos.2 h.contrast
    have : (0 : ℝ) < g.ny := by exact_mod_cast hN
    have : (0 : ℝ) < g.nx := by exact_mod_cast hM
    positivity
  have rp : Representable g.ny g.nx (ky, kx) := by
    unfold Representable
    rcases abs_cases ky with ⟨h1, _⟩ | ⟨h1, _⟩ <;> rcases abs_cases kx with ⟨h2, _⟩ | ⟨h2, _⟩ <;> dsimp only <;>
      refine ⟨?_, ?_, ?_, ?_⟩ <;> omega
  have mp : ∀ f, f ∈ freqs g.ny g.nx ↔ Representable g.ny g.nx f := by
    intro f
    unfold freqs Representable
    simp only [mem_product, mem_Ico]
    tauto
  classical
  have hpos : 0 < sector g.ny g.nx g.val W H 2 (binIdx step θ * step) ((binIdx step θ + 1) * step) := by
    unfold sector
    apply sum_pos'
    · intro i _; positivity
    · refine ⟨(ky, kx), ?_, ?_⟩
      · rw [mem_filter]
        exact ⟨(mp _).2 rp, θ, hd, b1, b2⟩
      · rw [grating_component h rp, if_pos (Or.inl rfl)]; positivity
  have hk0 : 0 < sector g.ny g.nx g.val W H 2 (k * step) ((k + 1) * step) := lt_of_lt_of_le hpos hj
  unfold sector at hk0
  obtain ⟨f, hfm, hf0⟩ := exists_lt_of_sum_lt (f := fun _ => (0 : ℝ)) (by simpa using hk0)
  rw [mem_filter] at hfm
  obtain ⟨hfr, θ', hθ', h1, h2⟩ := hfm
  have hfe : f = (ky, kx) ∨ f = (-ky, -kx) := by
    by_contra hc
    rw [grating_component h ((mp f).1 hfr), if_neg hc] at hf0
    simp at hf0
  have hθ : IsDirection W H (ky, kx) θ' := by
    rcases hfe with rfl | rfl
    · exact hθ'
    · obtain ⟨i1, i2, i3, i4⟩ := hθ'
      refine ⟨i1, i2, ?_, ?_⟩
      · push_cast at i3
        dsimp only at i3 ⊢
        linear_combination -i3
      · intro hz
        simp only [Prod.mk.injEq] at hz
        apply i4
        rw [hz.1, hz.2]; simp
  rw [direction_unique hW hH hd hθ]
  exact ⟨h1, by linarith⟩

example : ∃ g : Grid (Option ℝ), Grating g 1 2 0 0 1 ∧ g.WF ∧ none ∉ flat g ∧ 0 < g.ny ∧ 0 < g.nx := by
  have hg : Grating (Grid.ofFn 3 4 fun i j => some (1 + 2 * Real.cos
    (2 * Real.pi * (((0 : Int) : ℝ) * i / 3 + ((1 : Int) : ℝ) * j / 4) + 0))) 1 2 0 0 1 := by
    refine ⟨ofFn_wf _ _ _, ?_, two_ne_zero, Or.inr one_ne_zero, ?_, ?_⟩
    · intro i hi j hj
      rw [ofFn_ny] at hi ⊢
      rw [ofFn_nx] at hj ⊢
      rw [get_ofFn _ hi hj]
      norm_num
    · rw [ofFn_ny]; norm_num
    · rw [ofFn_nx]; norm_num
  exact ⟨_, hg, hg.wf, grating_full hg, grating_pos hg⟩

end Surfalize.Props
