import Verif.Props.Fourier
import Verif.Lemmas.Spectrum
import Verif.Spec.Spectrum

/-!
# C97 — the spectral parameters measure the strongest wave
-/
set_option linter.unusedSectionVars false
namespace Surfalize.Props
open Surfalize BaseOps Finset Container Spec Fourier

theorem dominated_full {g : Grid (Option ℝ)} {ky kx : Int} (h : Dominated g ky kx) : none ∉ flat g := by
  intro hn
  obtain ⟨i, hi, j, hj, e⟩ := mem_flat_get h.wf hn
  obtain ⟨z, hz⟩ := h.full i hi j hj
  rw [hz] at e
  simp at e

theorem dominated_pos {g : Grid (Option ℝ)} {ky kx : Int} (h : Dominated g ky kx) : 0 < g.ny ∧ 0 < g.nx := by
  have h1 := h.nyquist_y
  have h2 := h.nyquist_x
  have := abs_nonneg ky
  have := abs_nonneg kx
  constructor <;> omega

theorem rep_of_nyquist {N M : Nat} {ky kx : Int} (ay : 2 * |ky| < N) (ax : 2 * |kx| < M) :
    Representable N M (ky, kx) ∧ Representable N M (-ky, -kx) := by
  unfold Representable
  rcases abs_cases ky with ⟨h1, _⟩ | ⟨h1, _⟩ <;> rcases abs_cases kx with ⟨h2, _⟩ | ⟨h2, _⟩ <;> dsimp only <;>
    refine ⟨⟨?_, ?_, ?_, ?_⟩, ?_, ?_, ?_, ?_⟩ <;> omega

theorem dominated_rep {g : Grid (Option ℝ)} {ky kx : Int} (h : Dominated g ky kx) :
    Representable g.ny g.nx (ky, kx) ∧ Representable g.ny g.nx (-ky, -kx) := rep_of_nyquist h.nyquist_y h.nyquist_x

/-- the two largest spectral points are the strongest wave and its opposite -/
theorem dominated_pair {g : Grid (Option ℝ)} {ky kx : Int} (h : Dominated g ky kx) {k0 k1 : Int × Int}
    (hd : DominantPair g k0 k1) : (k0 = (ky, kx) ∧ k1 = (-ky, -kx)) ∨ (k0 = (-ky, -kx) ∧ k1 = (ky, kx)) := by
  obtain ⟨r0, r1, hne, t0, t1⟩ := hd
  obtain ⟨rp, rm⟩ := dominated_rep h
  have hpm : (ky, kx) ≠ (-ky, -kx) := by
    intro he
    simp only [Prod.mk.injEq] at he
    rcases h.nonzero with hz | hz <;> omega
  have vm := component_neg g.ny g.nx g.val (ky, kx)
  dsimp only at vm
  have m0 : k0 = (ky, kx) ∨ k0 = (-ky, -kx) := by
    by_contra hc
    rw [not_or] at hc
    have := t0 _ rp
    have := h.strongest _ r0 hc.1 hc.2
    linarith
  have m1 : k1 = (ky, kx) ∨ k1 = (-ky, -kx) := by
    by_contra hc
    rw [not_or] at hc
    have hz := h.strongest _ r1 hc.1 hc.2
    rcases m0 with h0 | h0
    · have := t1 _ rm (by rw [h0]; exact fun h => hpm h.symm)
      linarith
    · have := t1 _ rp (by rw [h0]; exact hpm)
      linarith
  rcases m0 with h0 | h0 <;> rcases m1 with h1 | h1
  · exact absurd (h0.trans h1.symm) hne
  · exact Or.inl ⟨h0, h1⟩
  · exact Or.inr ⟨h0, h1⟩
  · exact absurd (h0.trans h1.symm) hne

/-- **C97** (what is measured). For every surface with a strongest wave and positive extents `W`, `H`: the period and
Ssw are the wavelength `1/√((kx/W)² + (ky/H)²)` of that wave, the periods along the axes are `W/|kx|` and `H/|ky|`
(infinite for a wave along the other axis), and the orientation is the angle between its wave vector and the x-axis,
counted the other way round (90 for a wave in y), however ties between the other waves are broken. -/
theorem C97_dominant_wave {argsort : List ℝ → List Nat} (hs : IsArgsort argsort) {g : Grid (Option ℝ)}
    {ky kx : Int} (h : Dominated g ky kx) {W H : ℝ} (hW : 0 < W) (hH : 0 < H) :
    period argsort g W H = .ok (some (1 / Real.sqrt ((kx / W) ^ 2 + (ky / H) ^ 2))) ∧
    dominantWavelength g W H = .ok (some (1 / Real.sqrt ((kx / W) ^ 2 + (ky / H) ^ 2))) ∧
    periodXY argsort g W H = .ok (if kx = 0 then none else some (W / |(kx : ℝ)|), if ky = 0 then none else some (H / |(ky : ℝ)|)) ∧
    orientation argsort g W H = .ok (if kx = 0 then 90 else if ky = 0 then 0
      else -(Real.arctan ((ky / H) / (kx / W)) * 180 / Real.pi)) := by
  have hf := dominated_full h
  obtain ⟨hN, hM⟩ := dominated_pos h
  have hge : 2 ≤ g.ny * g.nx := by
    have ay := h.nyquist_y
    have ax := h.nyquist_x
    rcases h.nonzero with hz | hz
    · have := abs_pos.2 hz
      calc 2 ≤ g.ny := by omega
        _ = g.ny * 1 := (Nat.mul_one _).symm
        _ ≤ g.ny * g.nx := Nat.mul_le_mul_left _ hM
    · have := abs_pos.2 hz
      calc 2 ≤ g.nx := by omega
        _ = 1 * g.nx := (Nat.one_mul _).symm
        _ ≤ g.ny * g.nx := Nat.mul_le_mul_right _ hN
  obtain ⟨k0, k1, hd, dx, dy, e, hdx, hnz, hor⟩ := peak_ok hs g h.wf hf hge hW.ne' hH.ne'
  have hσ : ∃ σ : ℝ, (σ = 1 ∨ σ = -1) ∧ dx = σ * (2 * (kx / W)) ∧ dy = -σ * (2 * (ky / H)) := by
    rcases dominated_pair h hd with ⟨rfl, rfl⟩ | ⟨rfl, rfl⟩ <;> rcases hor with ⟨h1, h2⟩ | ⟨h1, h2⟩
    · exact ⟨-1, Or.inr rfl, by rw [h1]; push_cast; ring, by rw [h2]; push_cast; ring⟩
    · exact ⟨1, Or.inl rfl, by rw [h1]; push_cast; ring, by rw [h2]; push_cast; ring⟩
    · exact ⟨1, Or.inl rfl, by rw [h1]; push_cast; ring, by rw [h2]; push_cast; ring⟩
    · exact ⟨-1, Or.inr rfl, by rw [h1]; push_cast; ring, by rw [h2]; push_cast; ring⟩
  obtain ⟨σ, hσ1, hx, hy⟩ := hσ
  have hσ2 : σ ^ 2 = 1 := by rcases hσ1 with rfl | rfl <;> norm_num
  have hσa : |σ| = 1 := by rcases hσ1 with rfl | rfl <;> norm_num
  have hpos : 0 < (kx / W) ^ 2 + (ky / H) ^ 2 := by
    rcases h.nonzero with hz | hz
    · have : (ky : ℝ) ≠ 0 := by exact_mod_cast hz
      positivity
    · have : (kx : ℝ) ≠ 0 := by exact_mod_cast hz
      positivity
  have hsq : Real.sqrt (dx ^ 2 + dy ^ 2) = 2 * Real.sqrt ((kx / W) ^ 2 + (ky / H) ^ 2) := by
    have : dx ^ 2 + dy ^ 2 = 2 ^ 2 * ((kx / W) ^ 2 + (ky / H) ^ 2) := by
      rw [hx, hy]; linear_combination (4 * ((kx / W) ^ 2 + (ky / H) ^ 2)) * hσ2
    rw [this, Real.sqrt_mul (by norm_num), Real.sqrt_sq (by norm_num)]
  have hspos : 0 < Real.sqrt ((kx / W) ^ 2 + (ky / H) ^ 2) := Real.sqrt_pos.2 hpos
  have hσne : σ ≠ 0 := by rcases hσ1 with rfl | rfl <;> norm_num
  have hx0 : dx = 0 ↔ kx = 0 := by
    rw [hx]
    constructor
    · intro h0
      have : (kx : ℝ) / W = 0 := by
        rcases mul_eq_zero.1 h0 with h | h
        · exact absurd h hσne
        · linarith
      rcases div_eq_zero_iff.1 this with h | h
      · exact_mod_cast h
      · exact absurd h hW.ne'
    · rintro rfl; simp
  have hy0 : dy = 0 ↔ ky = 0 := by
    rw [hy]
    constructor
    · intro h0
      have : (ky : ℝ) / H = 0 := by
        rcases mul_eq_zero.1 h0 with h | h
        · exact absurd (neg_eq_zero.1 h) hσne
        · linarith
      rcases div_eq_zero_iff.1 this with h | h
      · exact_mod_cast h
      · exact absurd h hH.ne'
    · rintro rfl; simp
  refine ⟨?_, ?_, ?_, ?_⟩
  · unfold period
    rw [e]
    show Except.ok _ = _
    dsimp only
    rw [hsq, if_neg (by positivity)]
    congr 2
    field_simp
  · have hm : ¬ hasMissing g = true := fun hh => hf ((HeightParams.mem_none_iff_hasMissing g).1 hh)
    have hnz' : ¬ (W = 0 ∨ H = 0) := by
      rintro (h | h)
      · exact hW.ne' h
      · exact hH.ne' h
    have hlen := shiftedFlat_length g
    have hne : shiftedFlat g ≠ [] := by
      intro h0; rw [h0] at hlen; simp at hlen; rcases hlen with h | h <;> omega
    unfold dominantWavelength
    rw [if_neg hm, if_neg hnz', if_neg hne]
    dsimp only
    have hlt := Stepheight.argmax_lt hne
    have hge' := fun j (hj : j < (shiftedFlat g).length) => Stepheight.argmax_ge hne hj
    rw [hlen] at hlt
    have hmax : ∀ k, Representable g.ny g.nx k →
        ‖component g.ny g.nx g.val k‖ ≤ ‖component g.ny g.nx g.val (kOf g (argmax (shiftedFlat g)))‖ := by
      intro k hk
      obtain ⟨i, hi, rfl⟩ := exists_idx g hk
      rw [← shiftedFlat_k h.wf hf hi, ← shiftedFlat_k h.wf hf hlt, getD_of_lt _ (by rw [hlen]; exact hi),
        getD_of_lt _ (by rw [hlen]; exact hlt)]
      exact hge' i (by rw [hlen]; exact hi)
    have hk : kOf g (argmax (shiftedFlat g)) = (ky, kx) ∨ kOf g (argmax (shiftedFlat g)) = (-ky, -kx) := by
      by_contra hc
      rw [not_or] at hc
      have := h.strongest _ (kOf_rep hlt) hc.1 hc.2
      have := hmax _ (dominated_rep h).1
      linarith
    rw [freqOf_k g hW.ne' hH.ne' hlt]
    have : Real.sqrt (((kOf g (argmax (shiftedFlat g))).2 / W : ℝ) ^ 2 + ((kOf g (argmax (shiftedFlat g))).1 / H : ℝ) ^ 2)
        = Real.sqrt ((kx / W) ^ 2 + (ky / H) ^ 2) := by
      rcases hk with hk | hk <;> rw [hk]
      dsimp only
      push_cast
      congr 1
      ring
    rw [this, if_neg hspos.ne']
  · unfold periodXY
    rw [e]
    show Except.ok _ = _
    dsimp only
    simp only [hx0, hy0]
    congr 2
    · split
      · rfl
      · rename_i hz
        have : (kx : ℝ) ≠ 0 := by exact_mod_cast hz
        congr 1
        rw [hx, abs_div, abs_mul, hσa, abs_mul, abs_div, abs_of_pos hW]
        have := abs_pos.2 this
        norm_num
        field_simp
    · split
      · rfl
      · rename_i hz
        have : (ky : ℝ) ≠ 0 := by exact_mod_cast hz
        congr 1
        rw [hy, abs_div, abs_mul, abs_neg, hσa, abs_mul, abs_div, abs_of_pos hH]
        have := abs_pos.2 this
        norm_num
        field_simp
  · unfold orientation
    rw [e]
    show Except.ok _ = _
    dsimp only
    simp only [hx0, hy0]
    congr 1
    by_cases hz : kx = 0
    · rw [if_pos hz, if_pos hz]
    · rw [if_neg hz, if_neg hz]
      have hz : (kx : ℝ) ≠ 0 := by exact_mod_cast hz
      congr 1
      rw [← neg_div, ← neg_mul, ← Real.arctan_neg]
      congr 3
      rw [hx, hy]
      field_simp

/-! ### Noise -/

theorem noisy_dominated {g : Grid (Option ℝ)} {c a φ : ℝ} {ky kx : Int} {e : Nat → Nat → ℝ}
    (h : NoisyGrating g c a φ ky kx e) : Dominated g ky kx := by
  have hN : 0 < g.ny := by have := h.nyquist_y; have := abs_nonneg ky; omega
  have hM : 0 < g.nx := by have := h.nyquist_x; have := abs_nonneg kx; omega
  have hNM : (0 : ℝ) < (g.ny : ℝ) * g.nx := by
    have : (0 : ℝ) < g.ny := by exact_mod_cast hN
    have : (0 : ℝ) < g.nx := by exact_mod_cast hM
    positivity
  -- the pure grating
  let p : Nat → Nat → ℝ := fun i j => c + a * Real.cos (2 * Real.pi * ((ky : ℝ) * i / g.ny + (kx : ℝ) * j / g.nx) + φ)
  let gp : Grid (Option ℝ) := Grid.ofFn g.ny g.nx fun i j => some (p i j)
  have hS := h.small
  set r : ℝ := Real.sqrt ((∑ i ∈ range g.ny, ∑ j ∈ range g.nx, e i j ^ 2) / (g.ny * g.nx)) with hr
  have hs0 : 0 ≤ (∑ i ∈ range g.ny, ∑ j ∈ range g.nx, e i j ^ 2) / ((g.ny : ℝ) * g.nx) :=
    div_nonneg (sum_nonneg fun _ _ => sum_nonneg fun _ _ => sq_nonneg _) hNM.le
  have hr0 : 0 ≤ r := Real.sqrt_nonneg _
  have hr2 : r ^ 2 = (∑ i ∈ range g.ny, ∑ j ∈ range g.nx, e i j ^ 2) / (g.ny * g.nx) := Real.sq_sqrt hs0
  have hra : r < |a| / 4 := by
    rw [← hr2] at hS
    have := sq_lt_sq.1 hS
    rw [abs_of_nonneg hr0, abs_div] at this
    simpa using this
  have ha : a ≠ 0 := by
    rintro rfl
    rw [abs_zero] at hra
    linarith
  have hgp : Grating gp c a φ ky kx := by
    refine ⟨ofFn_wf _ _ _, ?_, ha, h.nonzero, ?_, ?_⟩
    · intro i hi j hj
      rw [ofFn_ny] at hi ⊢
      rw [ofFn_nx] at hj ⊢
      rw [get_ofFn _ hi hj]
    · rw [ofFn_ny]; exact h.nyquist_y
    · rw [ofFn_nx]; exact h.nyquist_x
  have hcomp : ∀ k, Representable g.ny g.nx k → k ≠ (0, 0) →
      component g.ny g.nx g.val k = component gp.ny gp.nx gp.val k + raw g.ny g.nx e k := by
    intro k hk h0
    rw [show gp.ny = g.ny from ofFn_ny _ _ _, show gp.nx = g.nx from rfl, component_eq_raw hN hM _ hk h0,
      component_eq_raw hN hM _ hk h0]
    unfold raw
    rw [← sum_add_distrib]
    apply sum_congr rfl; intro i hi
    rw [← sum_add_distrib]
    apply sum_congr rfl; intro j hj
    have hi := mem_range.1 hi
    have hj := mem_range.1 hj
    have e1 : g.val i j = p i j + e i j := by rw [Grid.val, h.heights i hi j hj]; rfl
    have e2 : gp.val i j = p i j := by rw [Grid.val, get_ofFn _ hi hj]; rfl
    rw [e1, e2]
    push_cast
    ring
  have hraw : ∀ k, ‖raw g.ny g.nx e k‖ ≤ g.ny * g.nx * r := fun k =>
    raw_le _ _ _ _ hr0 (by rw [hr2]; field_simp; exact le_rfl)
  obtain ⟨rp, _⟩ := rep_of_nyquist h.nyquist_y h.nyquist_x
  have hne0 : ((ky, kx) : Int × Int) ≠ (0, 0) := by
    intro h0
    simp only [Prod.mk.injEq] at h0
    rcases h.nonzero with hz | hz
    · exact hz h0.1
    · exact hz h0.2
  have hrep : ∀ k, Representable g.ny g.nx k → Representable gp.ny gp.nx k := fun k hk => by
    rw [show gp.ny = g.ny from ofFn_ny _ _ _]; exact hk
  have hstrong : (g.ny : ℝ) * g.nx * (|a| / 4) < ‖component g.ny g.nx g.val (ky, kx)‖ := by
    rw [hcomp _ rp hne0]
    have h1 := grating_component hgp (hrep _ rp)
    rw [if_pos (Or.inl rfl), show gp.ny = g.ny from ofFn_ny _ _ _, show gp.nx = g.nx from rfl] at h1
    have h2 := norm_sub_norm_le (component g.ny g.nx gp.val (ky, kx)) (-raw g.ny g.nx e (ky, kx))
    rw [sub_neg_eq_add, norm_neg, h1] at h2
    have h3 := hraw (ky, kx)
    have : (g.ny : ℝ) * g.nx * r < g.ny * g.nx * (|a| / 4) := mul_lt_mul_of_pos_left hra hNM
    rw [show gp.ny = g.ny from ofFn_ny _ _ _, show gp.nx = g.nx from rfl]
    linarith
  refine ⟨h.wf, fun i hi j hj => ⟨_, h.heights i hi j hj⟩, h.nonzero, h.nyquist_y, h.nyquist_x, ?_⟩
  intro k hk hk1 hk2
  refine lt_of_le_of_lt ?_ hstrong
  by_cases h0 : k = (0, 0)
  · rw [h0, component_zero hN hM, norm_zero]
    have := abs_nonneg a
    positivity
  · rw [hcomp _ hk h0]
    have h1 := grating_component hgp (hrep _ hk)
    rw [if_neg (by tauto)] at h1
    have h2 := norm_add_le (component gp.ny gp.nx gp.val k) (raw g.ny g.nx e k)
    have h3 := hraw k
    have : (g.ny : ℝ) * g.nx * r ≤ g.ny * g.nx * (|a| / 4) := mul_le_mul_of_nonneg_left hra.le hNM.le
    linarith

/-- **C97** (noise). For every cosine grating of amplitude `a` with any deviation added whose root mean square is below
`|a|/4`, periods, Ssw and orientation are those of the grating, exactly. -/
theorem C97_noise {argsort : List ℝ → List Nat} (hs : IsArgsort argsort) {g : Grid (Option ℝ)} {c a φ : ℝ}
    {ky kx : Int} {e : Nat → Nat → ℝ} (h : NoisyGrating g c a φ ky kx e) {W H : ℝ} (hW : 0 < W) (hH : 0 < H) :
    period argsort g W H = .ok (some (1 / Real.sqrt ((kx / W) ^ 2 + (ky / H) ^ 2))) ∧
    dominantWavelength g W H = .ok (some (1 / Real.sqrt ((kx / W) ^ 2 + (ky / H) ^ 2))) ∧
    periodXY argsort g W H = .ok (if kx = 0 then none else some (W / |(kx : ℝ)|), if ky = 0 then none else some (H / |(ky : ℝ)|)) ∧
    orientation argsort g W H = .ok (if kx = 0 then 90 else if ky = 0 then 0
      else -(Real.arctan ((ky / H) / (kx / W)) * 180 / Real.pi)) :=
  C97_dominant_wave hs (noisy_dominated h) hW hH

/-- A noisy grating, a checkerboard of height 1/100 added to a grating of amplitude 2. -/
example : ∃ (g : Grid (Option ℝ)) (e : Nat → Nat → ℝ), NoisyGrating g 1 2 0 1 (-1) e ∧ e 0 0 = 1 / 100 ∧ e 0 1 = -1 / 100 := by
  let e : Nat → Nat → ℝ := fun i j => if (i + j) % 2 = 0 then 1 / 100 else -1 / 100
  refine ⟨Grid.ofFn 3 4 fun i j => some (1 + 2 * Real.cos
    (2 * Real.pi * (((1 : Int) : ℝ) * i / 3 + ((-1 : Int) : ℝ) * j / 4) + 0) + e i j), e, ⟨ofFn_wf _ _ _, ?_, Or.inl one_ne_zero, ?_, ?_, ?_⟩,
    by norm_num [e], by norm_num [e]⟩
  · intro i hi j hj
    rw [ofFn_ny] at hi ⊢
    rw [ofFn_nx] at hj ⊢
    rw [get_ofFn _ hi hj]
    norm_num
  · rw [ofFn_ny]; norm_num
  · rw [ofFn_nx]; norm_num
  · rw [ofFn_ny, ofFn_nx]
    simp only [e, sum_range_succ, sum_range_zero]
    norm_num

/-! ### Affine maps, mirror images, transposition -/

theorem val_affine {g g' : Grid (Option ℝ)} {a b : ℝ} (h : IsAffine g g' a b) (hf : ∀ i < g.ny, ∀ j < g.nx, ∃ z, g.get i j = some z)
    : ∀ i < g.ny, ∀ j < g.nx, g'.val i j = a * g.val i j + b := by
  intro i hi j hj
  obtain ⟨z, hz⟩ := hf i hi j hj
  rw [Grid.val, Grid.val, h.2.2.2 i hi j hj, hz]
  rfl

/-- **C97** (units and datum). Multiplying all heights by a number other than 0 (also a negative one) and shifting them
keeps the strongest wave. -/
theorem dominated_affine {g g' : Grid (Option ℝ)} {ky kx : Int} (h : Dominated g ky kx) {a b : ℝ} (ha : a ≠ 0)
    (hg : IsAffine g g' a b) : Dominated g' ky kx := by
  have hv := val_affine hg h.full
  obtain ⟨w, hy, hx, hh⟩ := hg
  refine ⟨w, ?_, h.nonzero, by rw [hy]; exact h.nyquist_y, by rw [hx]; exact h.nyquist_x, ?_⟩
  · intro i hi j hj
    rw [hy] at hi; rw [hx] at hj
    obtain ⟨z, hz⟩ := h.full i hi j hj
    exact ⟨a * z + b, by rw [hh i hi j hj, hz]; rfl⟩
  · intro k hk h1 h2
    rw [hy, hx] at hk ⊢
    rw [component_congr hv, component_congr hv, component_affine, component_affine, norm_mul, norm_mul]
    refine mul_lt_mul_of_pos_left (h.strongest k hk h1 h2) (norm_pos_iff.2 ?_)
    exact_mod_cast ha

theorem component_period {N M : Nat} (hM : 0 < M) (h : Nat → Nat → ℝ) (k : Int × Int) (m : Int) :
    component N M h (k.1, k.2 + M * m) = component N M h k := by
  rw [component_E, component_E]
  apply sum_congr rfl; intro i _
  apply sum_congr rfl; intro j _
  dsimp only
  rw [show -(k.2 + M * m) = -k.2 + M * (-m) by ring, E_period M hM]

/-- the mirror image has the mirrored strongest wave -/
theorem dominated_mirror {g g' : Grid (Option ℝ)} {ky kx : Int} (h : Dominated g ky kx) (hg : IsMirror g g') :
    Dominated g' ky (-kx) := by
  obtain ⟨hN, hM⟩ := dominated_pos h
  obtain ⟨w, hy, hx, hh⟩ := hg
  have hv : ∀ i < g.ny, ∀ j < g.nx, g'.val i j = g.val i (g.nx - 1 - j) := by
    intro i hi j hj
    rw [Grid.val, Grid.val, hh i hi j hj]
  refine ⟨w, ?_, ?_, by rw [hy]; exact h.nyquist_y, by rw [hx, abs_neg]; exact h.nyquist_x, ?_⟩
  · intro i hi j hj
    rw [hy] at hi; rw [hx] at hj
    rw [hh i hi j hj]
    exact h.full i hi _ (by omega)
  · rcases h.nonzero with hz | hz
    · exact Or.inl hz
    · exact Or.inr (by omega)
  · intro k hk h1 h2
    rw [hy, hx] at hk ⊢
    rw [component_congr hv, component_congr hv, component_mirror g.ny g.nx g.val k, component_mirror g.ny g.nx g.val (ky, -kx)]
    dsimp only
    rw [neg_neg]
    obtain ⟨r1, r2, r3, r4⟩ := hk
    have ax := h.nyquist_x
    rcases abs_cases kx with ⟨a1, _⟩ | ⟨a1, _⟩
    all_goals
      by_cases hn : -k.2 < g.nx - (g.nx / 2 : Nat)
      · refine h.strongest _ ⟨r1, r2, ?_, hn⟩ ?_ ?_
        · dsimp only; omega
        · intro hc
          apply h1
          simp only [Prod.mk.injEq] at hc
          exact Prod.ext hc.1 (by dsimp only; omega)
        · intro hc
          apply h2
          simp only [Prod.mk.injEq] at hc
          exact Prod.ext hc.1 (by dsimp only; omega)
      · have e := component_period (N := g.ny) hM g.val (k.1, -k.2) (-1)
        dsimp only at e
        rw [← e]
        refine h.strongest _ ⟨r1, r2, ?_, ?_⟩ ?_ ?_
        · dsimp only; omega
        · dsimp only; omega
        · intro hc
          simp only [Prod.mk.injEq] at hc
          omega
        · intro hc
          simp only [Prod.mk.injEq] at hc
          omega

theorem dominated_transpose {g g' : Grid (Option ℝ)} {ky kx : Int} (h : Dominated g ky kx) (hg : IsTranspose g g') :
    Dominated g' kx ky := by
  obtain ⟨w, hy, hx, hh⟩ := hg
  have hv : ∀ i < g.nx, ∀ j < g.ny, g'.val i j = g.val j i := by
    intro i hi j hj
    rw [Grid.val, Grid.val, hh i hi j hj]
  refine ⟨w, ?_, h.nonzero.symm, by rw [hy]; exact h.nyquist_x, by rw [hx]; exact h.nyquist_y, ?_⟩
  · intro i hi j hj
    rw [hy] at hi; rw [hx] at hj
    rw [hh i hi j hj]
    exact h.full j hj i hi
  · intro k hk h1 h2
    rw [hy, hx] at hk ⊢
    rw [component_congr hv, component_congr hv, component_transpose g.ny g.nx g.val (k.2, k.1),
      component_transpose g.ny g.nx g.val (ky, kx)]
    refine h.strongest _ ⟨hk.2.2.1, hk.2.2.2, hk.1, hk.2.1⟩ ?_ ?_
    · intro hc
      apply h1
      simp only [Prod.mk.injEq] at hc
      exact Prod.ext hc.2 hc.1
    · intro hc
      apply h2
      simp only [Prod.mk.injEq] at hc
      exact Prod.ext hc.2 hc.1

/-- **C97** (mirror images). Mirroring a surface with a strongest wave left and right leaves periods and Ssw as they are
and changes the sign of the orientation (90 degrees stays 90 degrees). -/
theorem C97_mirror {argsort : List ℝ → List Nat} (hs : IsArgsort argsort) {g g' : Grid (Option ℝ)} {ky kx : Int}
    (h : Dominated g ky kx) (hg : IsMirror g g') {W H : ℝ} (hW : 0 < W) (hH : 0 < H) :
    period argsort g' W H = period argsort g W H ∧ dominantWavelength g' W H = dominantWavelength g W H ∧
    periodXY argsort g' W H = periodXY argsort g W H ∧
    ∃ θ, orientation argsort g W H = .ok θ ∧ orientation argsort g' W H = .ok (if θ = 90 then 90 else -θ) := by
  obtain ⟨p1, p2, p3, p4⟩ := C97_dominant_wave hs h hW hH
  obtain ⟨q1, q2, q3, q4⟩ := C97_dominant_wave hs (dominated_mirror h hg) hW hH
  refine ⟨?_, ?_, ?_, _, p4, ?_⟩
  · rw [p1, q1]; push_cast; rw [neg_div, neg_sq]
  · rw [p2, q2]; push_cast; rw [neg_div, neg_sq]
  · rw [p3, q3]; push_cast; rw [abs_neg]; simp
  · rw [q4]
    congr 1
    by_cases hx : kx = 0
    · simp [hx]
    · by_cases hy : ky = 0
      · simp [hx, hy]
      · have hlt : -(Real.arctan ((ky / H) / (kx / W)) * 180 / Real.pi) < 90 := by
          have h1 := Real.neg_pi_div_two_lt_arctan ((ky / H) / (kx / W))
          have hp := Real.pi_pos
          rw [← neg_div, div_lt_iff₀ hp]
          linarith
        rw [if_neg (by simpa using hx), if_neg hy, if_neg hx, if_neg hy, if_neg hlt.ne]
        push_cast
        rw [neg_div, div_neg, Real.arctan_neg]
        ring

/-- **C97** (transposition). Exchanging rows and columns, and with them width and height, leaves period and Ssw as they
are, exchanges the periods along the axes, and reflects the orientation `θ` at the diagonal: 0 and 90 are exchanged,
other orientations become `90 - θ` or `-90 - θ`, whichever has the sign of `θ`. -/
theorem C97_transpose {argsort : List ℝ → List Nat} (hs : IsArgsort argsort) {g g' : Grid (Option ℝ)} {ky kx : Int}
    (h : Dominated g ky kx) (hg : IsTranspose g g') {W H : ℝ} (hW : 0 < W) (hH : 0 < H) :
    period argsort g' H W = period argsort g W H ∧ dominantWavelength g' H W = dominantWavelength g W H ∧
    (∃ px py, periodXY argsort g W H = .ok (px, py) ∧ periodXY argsort g' H W = .ok (py, px)) ∧
    ∃ θ, orientation argsort g W H = .ok θ ∧
      orientation argsort g' H W = .ok (if 0 ≤ θ then 90 - θ else -90 - θ) := by
  obtain ⟨p1, p2, p3, p4⟩ := C97_dominant_wave hs h hW hH
  obtain ⟨q1, q2, q3, q4⟩ := C97_dominant_wave hs (dominated_transpose h hg) hH hW
  refine ⟨?_, ?_, ⟨_, _, p3, q3⟩, _, p4, ?_⟩
  · rw [p1, q1, add_comm]
  · rw [p2, q2, add_comm]
  · rw [q4]
    congr 1
    by_cases hx : kx = 0
    · have hy : ky ≠ 0 := by rcases h.nonzero with hz | hz <;> tauto
      simp [hx, hy]
    · by_cases hy : ky = 0
      · simp [hx, hy]
      · rw [if_neg hx, if_neg hy, if_neg hx, if_neg hy]
        have hx' : (kx : ℝ) ≠ 0 := by exact_mod_cast hx
        have hy' : (ky : ℝ) ≠ 0 := by exact_mod_cast hy
        have hinv : (kx : ℝ) / W / (ky / H) = ((ky / H) / (kx / W))⁻¹ := by rw [inv_div]
        rw [hinv]
        have hr : (ky : ℝ) / H / (kx / W) ≠ 0 := by positivity
        have hp := Real.pi_pos
        rcases lt_or_gt_of_ne hr with hlt | hgt
        · have h1 : Real.arctan ((ky : ℝ) / H / (kx / W)) < 0 := by rw [← Real.arctan_zero]; exact Real.arctan_strictMono hlt
          rw [Real.arctan_inv_of_neg hlt, if_pos]
          · field_simp; ring
          · rw [← neg_div, ← neg_mul]
            apply div_nonneg _ hp.le
            linarith
        · have h1 : 0 < Real.arctan ((ky : ℝ) / H / (kx / W)) := by rw [← Real.arctan_zero]; exact Real.arctan_strictMono hgt
          rw [Real.arctan_inv_of_pos hgt, if_neg]
          · field_simp; ring
          · rw [not_le, neg_lt_zero]
            positivity

example (g : Grid (Option ℝ)) : IsMirror g (Grid.ofFn g.ny g.nx fun i j => g.get i (g.nx - 1 - j)) ∧
    IsTranspose g (Grid.ofFn g.nx g.ny fun i j => g.get j i) := by
  refine ⟨⟨ofFn_wf _ _ _, ofFn_ny _ _ _, rfl, fun i hi j hj => get_ofFn _ hi hj⟩,
    ⟨ofFn_wf _ _ _, ofFn_ny _ _ _, rfl, fun i hi j hj => get_ofFn _ hi hj⟩⟩

/-! ### Vertical shift and scale, without a strongest wave -/

theorem hasMissing_affine {g g' : Grid (Option ℝ)} {a b : ℝ} (hw : g.WF) (hg : IsAffine g g' a b) :
    hasMissing g' = hasMissing g := by
  obtain ⟨w, hy, hx, hh⟩ := hg
  rw [Bool.eq_iff_iff, HeightParams.mem_none_iff_hasMissing, HeightParams.mem_none_iff_hasMissing]
  constructor
  · intro hn
    obtain ⟨i, hi, j, hj, e⟩ := mem_flat_get w hn
    rw [hy] at hi; rw [hx] at hj
    rw [hh i hi j hj, Option.map_eq_none_iff] at e
    rw [← e]
    exact get_mem hw hi hj
  · intro hn
    obtain ⟨i, hi, j, hj, e⟩ := mem_flat_get hw hn
    have := get_mem w (i := i) (j := j) (by rw [hy]; exact hi) (by rw [hx]; exact hj)
    rw [hh i hi j hj, e] at this
    exact this

theorem amplitude_affine {g g' : Grid (Option ℝ)} {a b : ℝ} (hw : g.WF) (hf : none ∉ flat g) (hg : IsAffine g g' a b) (u v : Nat) :
    amplitude g' u v = |a| * amplitude g u v := by
  have hf' : none ∉ flat g' := fun hn => hf ((HeightParams.mem_none_iff_hasMissing g).1
    (hasMissing_affine hw hg ▸ (HeightParams.mem_none_iff_hasMissing g').2 hn))
  have hv := val_affine hg fun i hi j hj => ⟨_, get_eq_some_val hw hf hi hj⟩
  obtain ⟨w, hy, hx, hh⟩ := hg
  unfold amplitude
  have e : fft2 g'.ny g'.nx (centred g') u v = (a : ℂ) * fft2 g.ny g.nx (centred g) u v := by
    rw [hy, hx]
    rcases Nat.eq_zero_or_pos g.ny with h0 | hN
    · simp [fft2, h0]
    rcases Nat.eq_zero_or_pos g.nx with h0 | hM
    · simp [fft2, h0]
    unfold fft2
    rw [mul_sum]
    apply sum_congr rfl; intro i hi
    rw [mul_sum]
    apply sum_congr rfl; intro j hj
    have hm : (∑ p ∈ range g'.ny, ∑ q ∈ range g'.nx, g'.val p q) / ((g'.ny : ℝ) * g'.nx) = a * hmean g.ny g.nx g.val + b := by
      rw [hy, hx, ← hmean_affine hN hM]
      exact hmean_congr hv
    rw [centred_eq w hf', centred_eq hw hf, hm, hv i (mem_range.1 hi) j (mem_range.1 hj)]
    unfold hmean
    push_cast
    ring
  rw [e, norm_mul, Complex.norm_real, Real.norm_eq_abs]

theorem shiftedFlat_affine {g g' : Grid (Option ℝ)} {a b : ℝ} (hw : g.WF) (hf : none ∉ flat g) (hg : IsAffine g g' a b) :
    shiftedFlat g' = (shiftedFlat g).map fun z => |a| * z := by
  unfold shiftedFlat
  rw [hg.2.1, hg.2.2.1, List.map_map]
  apply List.map_congr_left
  intro p _
  exact amplitude_affine hw hf hg _ _

theorem hasMissing_false {g : Grid (Option ℝ)} (h : ¬ hasMissing g = true) : none ∉ flat g := fun hn =>
  h ((HeightParams.mem_none_iff_hasMissing g).2 hn)

theorem freqOf_affine {g g' : Grid (Option ℝ)} {a b : ℝ} (hg : IsAffine g g' a b) (W H : ℝ) (idx : Nat) :
    freqOf g' W H idx = freqOf g W H idx := by
  unfold freqOf
  rw [hg.2.1, hg.2.2.1]

theorem theta_affine {g g' : Grid (Option ℝ)} {a b : ℝ} (hg : IsAffine g g' a b) (W H : ℝ) (u v : Nat) :
    theta g' W H u v = theta g W H u v := by
  unfold theta
  rw [hg.2.1, hg.2.2.1]

/-- **C97** (units and datum). For every surface, with or without missing points: multiplying all heights by the same
number other than 0, also a negative one, and shifting them changes none of period, periods along the axes,
orientation, Ssw and Std, not even whether they raise; the angular amplitudes are multiplied by the absolute value of
that number and the angular powers by its square. -/
theorem C97_affine {argsort : List ℝ → List Nat} (hs : ScaleFree argsort) {g g' : Grid (Option ℝ)} (hw : g.WF) {a b : ℝ}
    (ha : a ≠ 0) (hg : IsAffine g g' a b) (W H step : ℝ) :
    period argsort g' W H = period argsort g W H ∧ periodXY argsort g' W H = periodXY argsort g W H ∧
    orientation argsort g' W H = orientation argsort g W H ∧ dominantWavelength g' W H = dominantWavelength g W H ∧
    Fourier.std g' W H step = Fourier.std g W H step ∧
    angularSpectrum g' W H step false = (angularSpectrum g W H step false).map (fun s => (s.1, s.2.map fun z => |a| * z)) ∧
    angularSpectrum g' W H step true = (angularSpectrum g W H step true).map (fun s => (s.1, s.2.map fun z => a ^ 2 * z)) := by
  have hap : 0 < |a| := abs_pos.2 ha
  have hmi := hasMissing_affine hw hg
  have hpk : peakDxDy argsort g' W H = peakDxDy argsort g W H := by
    unfold peakDxDy
    rw [hmi]
    by_cases hm : hasMissing g = true
    · rw [if_pos hm, if_pos hm]
    · rw [if_neg hm, if_neg hm, shiftedFlat_affine hw (hasMissing_false hm) hg, hs _ hap]
      simp only [freqOf_affine hg]
  have hsp : ∀ sq : Bool, angularSpectrum g' W H step sq = (angularSpectrum g W H step sq).map
      (fun s => (s.1, s.2.map fun z => (if sq then a ^ 2 else |a|) * z)) := by
    intro sq
    unfold angularSpectrum
    rw [hmi]
    by_cases hm : hasMissing g = true
    · rw [if_pos hm, if_pos hm]; rfl
    rw [if_neg hm, if_neg hm]
    split
    · rfl
    split
    · rfl
    split
    · rfl
    show Except.ok _ = Except.ok _
    congr 1
    refine Prod.ext rfl ?_
    dsimp only
    rw [List.map_map]
    apply List.map_congr_left
    intro k _
    dsimp only [Function.comp]
    rw [← List.sum_map_mul_left, hg.2.1, hg.2.2.1]
    simp only [theta_affine hg]
    congr 1
    apply List.map_congr_left
    intro p _
    rw [amplitude_affine hw (hasMissing_false hm) hg]
    cases sq
    · simp
    · simp only [if_true]
      rw [mul_pow, sq_abs]
  refine ⟨by unfold period; rw [hpk], by unfold periodXY; rw [hpk], by unfold orientation; rw [hpk], ?_, ?_, ?_, ?_⟩
  · unfold dominantWavelength
    rw [hmi]
    by_cases hm : hasMissing g = true
    · rw [if_pos hm, if_pos hm]
    · rw [if_neg hm, if_neg hm, shiftedFlat_affine hw (hasMissing_false hm) hg, Stepheight.argmax_scale _ hap]
      simp only [freqOf_affine hg, List.map_eq_nil_iff]
  · unfold Fourier.std
    rw [hsp]
    cases hx : angularSpectrum g W H step true with
    | error e => rfl
    | ok s =>
      show Except.ok _ = Except.ok _
      simp only [if_true]
      rw [Stepheight.argmax_scale s.2 (sq_pos_of_ne_zero ha)]
  · simpa using hsp false
  · simpa using hsp true

/-- Sorting by insertion is an `argsort` that depends on comparisons only. -/
theorem C97_argsort_exists : ∃ argsort : List ℝ → List Nat, IsArgsort argsort ∧ ScaleFree argsort := by
  refine ⟨fun l => (List.range l.length).insertionSort fun i j => l.getD i 0 ≤ l.getD j 0, fun l => ⟨List.perm_insertionSort _ _, ?_⟩, ?_⟩
  · have : Std.Total (fun i j : Nat => l.getD i 0 ≤ l.getD j 0) := ⟨fun i j => le_total _ _⟩
    have : IsTrans Nat (fun i j : Nat => l.getD i 0 ≤ l.getD j 0) := ⟨fun _ _ _ h1 h2 => le_trans h1 h2⟩
    exact List.pairwise_insertionSort _ _
  · intro c hc l
    have e : (fun i j : Nat => (l.map fun z => c * z).getD i 0 ≤ (l.map fun z => c * z).getD j 0)
        = fun i j : Nat => l.getD i 0 ≤ l.getD j 0 := by
      have : ∀ i, (l.map fun z => c * z).getD i 0 = c * l.getD i 0 := by
        intro i
        simp only [List.getD_eq_getElem?_getD, List.getElem?_map]
        cases l[i]? <;> simp
      funext i j
      rw [this, this]
      exact propext (mul_le_mul_iff_right₀ hc)
    simp only [e, List.length_map]

example : IsAffine ⟨[[some (1 : ℝ), none], [some 3, some 4]], 2⟩ ⟨[[some (-1 : ℝ), none], [some (-5), some (-7)]], 2⟩ (-2) 1 := by
  refine ⟨by intro r hr; simp at hr; rcases hr with rfl | rfl <;> rfl, rfl, rfl, ?_⟩
  intro i hi j hj
  have hi : i < 2 := hi
  have hj : j < 2 := hj
  rcases (by omega : i = 0 ∨ i = 1) with rfl | rfl <;> rcases (by omega : j = 0 ∨ j = 1) with rfl | rfl <;>
    simp [Grid.get] <;> norm_num

end Surfalize.Props
