import Verif.Lemmas.Orientation
import Verif.Props.Fourier
/-!
# C88: the refined orientation
-/
set_option linter.unusedSectionVars false
namespace Surfalize
/-! ### Specification -/
namespace Spec

/-- `n` samples of a sinusoid with amplitude `a`, period `P` (in points), offsets `x0` and `y0`. -/
noncomputable def samples (n : Nat) (a P x0 y0 : ℝ) : List ℝ :=
  (List.range n).map fun j : Nat => a * Real.sin (2 * Real.pi * ((j : ℝ) - x0) / P) + y0

/-- What is asked of the curve fitting: samples of a sinusoid with period `P` and offset `y0` give back this sinusoid,
whatever its amplitude and phase and whatever the first guess. -/
def Recovers (fit : List ℝ → ℝ × ℝ × ℝ × ℝ → Except Err (ℝ × ℝ × ℝ × ℝ)) (P y0 : ℝ) : Prop :=
  ∀ (n : Nat) (a x0 : ℝ) (guess : ℝ × ℝ × ℝ × ℝ), 2 ≤ n → a ≠ 0 → ∃ a' x0',
    fit (samples n a P x0 y0) guess = .ok (a', P, x0', y0) ∧
    ∀ x : ℝ, a' * Real.sin (2 * Real.pi * (x - x0') / P) = a * Real.sin (2 * Real.pi * (x - x0) / P)

/-- The direction at `θ` degrees to the columns, counted towards rising columns with rising rows, along which a wave
with `fx` periods per unit length along the rows and `fy` along the columns does not change. -/
def Along (θ fx fy : ℝ) : Prop :=
  Real.sin (θ * Real.pi / 180) * fx + Real.cos (θ * Real.pi / 180) * fy = 0

/-- The distance of the profiles that are sampled along a texture: a tenth of its period of `n / k` points. -/
def distance (n k : Nat) : Nat := n / k / 10

end Spec

namespace Props
open Spec Fourier Orientation Sinusoid Container BaseOps

/-- There is such a fit. -/
theorem C88_recovers_exists {P : ℝ} (hP : 2 < P) (y0 : ℝ) : ∃ fit, Recovers fit P y0 := by
  classical
  refine ⟨fun l _ => if h : ∃ q : ℝ × ℝ, q.1 ≠ 0 ∧ l = samples l.length q.1 P q.2 y0 then
    .ok (h.choose.1, P, h.choose.2, y0) else .error .fitting, ?_⟩
  intro n a x0 guess hn ha
  have hlen : (samples n a P x0 y0).length = n := by simp [samples]
  have hex : ∃ q : ℝ × ℝ, q.1 ≠ 0 ∧ samples n a P x0 y0 = samples (samples n a P x0 y0).length q.1 P q.2 y0 :=
    ⟨(a, x0), ha, by rw [hlen]⟩
  refine ⟨hex.choose.1, hex.choose.2, dif_pos hex, ?_⟩
  have hq := hex.choose_spec.2
  generalize hex.choose = q at hq
  rw [hlen] at hq
  have hj : ∀ j : Nat, j < n → q.1 * Real.sin (2 * Real.pi * ((j : ℝ) - q.2) / P) =
      a * Real.sin (2 * Real.pi * ((j : ℝ) - x0) / P) := by
    intro j hj
    have := congrArg (fun l => l.getD j 0) hq
    simp only [samples, List.getD_eq_getElem?_getD, List.getElem?_map, List.getElem?_range hj, Option.map_some,
      Option.getD_some] at this
    linarith
  have expand : ∀ (A y x : ℝ), A * Real.sin (2 * Real.pi * (x - y) / P) =
      A * Real.cos (2 * Real.pi * y / P) * Real.sin (2 * Real.pi * x / P)
        - A * Real.sin (2 * Real.pi * y / P) * Real.cos (2 * Real.pi * x / P) := by
    intro A y x
    have e : 2 * Real.pi * (x - y) / P = 2 * Real.pi * x / P - 2 * Real.pi * y / P := by ring
    rw [e, Real.sin_sub]; ring
  have h0 := hj 0 (by omega)
  have h1 := hj 1 (by omega)
  rw [expand, expand] at h0 h1
  simp only [Nat.cast_zero, Nat.cast_one, mul_zero, zero_div, Real.sin_zero, Real.cos_zero, mul_one, zero_sub, neg_inj] at h0 h1
  have hs : Real.sin (2 * Real.pi / P) ≠ 0 := by
    apply ne_of_gt
    apply Real.sin_pos_of_pos_of_lt_pi
    · have := Real.pi_pos
      positivity
    · rw [div_lt_iff₀ (by linarith)]
      nlinarith [Real.pi_pos]
  have hc : q.1 * Real.cos (2 * Real.pi * q.2 / P) = a * Real.cos (2 * Real.pi * x0 / P) := by
    rw [h0] at h1
    exact mul_right_cancel₀ hs (by linarith)
  intro x
  rw [expand, expand, h0, hc]

/-! ### sampling profiles -/

private theorem pyInt_div (m n : Nat) : pyInt ((m : ℝ) / (n : ℝ)) = ((m / n : Nat) : Int) := by
  rcases Nat.eq_zero_or_pos n with rfl | hn
  · rw [Nat.cast_zero, div_zero, Nat.div_zero]
    exact_mod_cast pyInt_natCast (K := ℝ) 0
  · rw [pyInt_eq_iff (by positivity)]
    have hn' : (0 : ℝ) < n := by exact_mod_cast hn
    rw [le_div_iff₀ hn', div_lt_iff₀ hn']
    have h1 : m / n * n ≤ m := Nat.div_mul_le_self m n
    have h2 : m < (m / n + 1) * n := by
      have := Nat.lt_div_mul_add (a := m) hn
      rw [Nat.add_mul, one_mul]; omega
    exact ⟨by exact_mod_cast h1, by exact_mod_cast h2⟩

private theorem positions_eq (fit : Fit) {p step : ℝ} {N : Nat} (hN : ⌊p / step⌋ = (N : Int)) (hp : 0 ≤ p / step)
    (hk : 0 < N / 10) (size : Nat) (profile : Nat → List ℝ) {x : Nat → Option ℝ}
    (hx : ∀ i, i < size / (N / 10) → i * (N / 10) < size → extremum fit N (profile (i * (N / 10))) = .ok (x i)) :
    positions fit (some p) step size profile = .ok (((N / 10 : Nat) : Int), (List.range (size / (N / 10))).map x) := by
  have hd : pyInt (((N : Int) : ℝ) * (1 / 10)) = ((N / 10 : Nat) : Int) := by
    have := pyInt_div N 10
    rw [← this]; congr 1; push_cast; ring
  unfold positions periodPx
  dsimp only
  rw [pyInt_nonneg hp, hN]
  simp only [Except.bind]
  rw [hd, if_neg (by omega)]
  have hn : pyInt ((size : ℝ) / (((N / 10 : Nat) : Int) : ℝ)) = ((size / (N / 10) : Nat) : Int) := by
    rw [Int.cast_natCast]; exact pyInt_div size (N / 10)
  rw [hn, if_neg (not_lt.2 (Int.natCast_nonneg _)), Int.toNat_natCast, mapM_ok_of (g := x)]
  · rfl
  · intro i hi
    rw [List.mem_range] at hi
    have hlt : i * (N / 10) < size := by
      have h1 : (i + 1) * (N / 10) ≤ size / (N / 10) * (N / 10) := Nat.mul_le_mul_right _ hi
      have h2 := Nat.div_mul_le_self size (N / 10)
      rw [Nat.add_mul, one_mul] at h1
      omega
    have e : (i : Int) * ((N / 10 : Nat) : Int) = ((i * (N / 10) : Nat) : Int) := by push_cast; rfl
    rw [e, if_neg (by omega), if_neg (by omega), Int.toNat_natCast]
    exact hx i hi hlt

/-- Profiles of a texture whose phase drifts by `s` points from profile to profile. -/
private theorem positions_texture {fit : Fit} {P y0 : ℝ} (hfit : Recovers fit P y0) (hP : 0 < P) {p step : ℝ} {N : Nat}
    (hN : ⌊p / step⌋ = (N : Int)) (hp : 0 ≤ p / step) (hk : 0 < N / 10) {size L : Nat} (hL : 2 ≤ L)
    {profile : Nat → List ℝ} {a x0 s : ℝ} (ha : a ≠ 0)
    (hprof : ∀ r < size, profile r = samples L a P (x0 + s * r) y0) :
    positions fit (some p) step size profile = .ok (((N / 10 : Nat) : Int), (List.range (size / (N / 10))).map fun i : Nat =>
      some (wrap (P / 2) (x0 + P / 4 + s * (N / 10 : Nat) * i))) := by
  apply positions_eq fit hN hp hk
  intro i _ hlt
  rw [hprof _ hlt]
  unfold extremum
  dsimp only
  obtain ⟨a', x', h1, h2⟩ := hfit L a (x0 + s * ((i * (N / 10) : Nat) : ℝ)) _ hL ha
  rw [h1]
  simp only [Except.map]
  have hper : (ofPopt (a', P, x', y0)).period = P := by
    unfold ofPopt; dsimp only; split <;> rfl
  rw [hper, if_neg hP.ne', firstExtremum_of_eq (a := a) (X := x0 + s * ((i * (N / 10) : Nat) : ℝ)) hP ha]
  · congr 3; push_cast; ring
  · intro x
    unfold sinusoid
    have e : ∀ y : ℝ, (x - y) / P * 2 * Real.pi = 2 * Real.pi * (x - y) / P := by intro y; ring
    rw [e, e, h2 x]

/-- The slope that is found: the drift of the texture. -/
private theorem slope_texture {P E s : ℝ} (hP : 0 < P) {k n : Nat} (hn : 5 ≤ n) (hd : 10 * (|s| * k) ≤ P)
    (hw : P ≤ 2 * (|s| * k * ((n : ℝ) - 1))) :
    slope ((List.range n).map fun i : Nat => some (wrap (P / 2) (E + s * k * i))) = .ok (some (s * k)) := by
  obtain ⟨m, rfl⟩ : ∃ m, n = m + 1 := ⟨n - 1, by omega⟩
  have habs : |s * (k : ℝ)| = |s| * k := by rw [abs_mul, Nat.abs_cast]
  rw [slope_wrap (by positivity) (by rw [habs]; linarith) (by omega), if_neg]
  intro he
  have a1 := Int.floor_le ((E + s * k * m) / (P / 2))
  have a2 := Int.lt_floor_add_one ((E + s * k * m) / (P / 2))
  have b1 := Int.floor_le (E / (P / 2))
  have b2 := Int.lt_floor_add_one (E / (P / 2))
  rw [he] at a1 a2
  have e : (E + s * k * m) / (P / 2) = E / (P / 2) + s * k * m / (P / 2) := by ring
  rw [e] at a1 a2
  have h1 : |s * k * m / (P / 2)| < 1 := by rw [abs_lt]; constructor <;> linarith
  rw [abs_div, abs_mul, habs, Nat.abs_cast, abs_of_pos (show 0 < P / 2 by positivity), div_lt_one (by positivity)] at h1
  push_cast at hw
  rw [add_sub_cancel_right] at hw
  linarith

/-! ### gratings -/

private theorem row_samples {g : Grid (Option ℝ)} {c a φ : ℝ} {ky kx : Int} (h : Grating g c a φ ky kx) (hk : kx ≠ 0) :
    ∃ x0, ∀ i < g.ny, (List.range g.nx).map (fun j => g.val i j) =
      samples g.nx a ((g.nx : ℝ) / |(kx : ℝ)|) (x0 + -((ky : ℝ) * g.nx) / (kx * g.ny) * i) c := by
  have hpi := Real.pi_ne_zero
  obtain ⟨hN, hM⟩ := grating_pos h
  have hN' : (g.ny : ℝ) ≠ 0 := by exact_mod_cast hN.ne'
  have hM' : (g.nx : ℝ) ≠ 0 := by exact_mod_cast hM.ne'
  have hk' : (kx : ℝ) ≠ 0 := by exact_mod_cast hk
  rcases lt_or_gt_of_ne hk with hneg | hpos
  · refine ⟨-((g.nx : ℝ) / |(kx : ℝ)|) * (-φ / (2 * Real.pi) + 1 / 4), fun i hi => List.map_congr_left fun j hj => ?_⟩
    rw [List.mem_range] at hj
    have e : g.val i j = c + a * Real.cos (2 * Real.pi * ((ky : ℝ) * i / g.ny + (kx : ℝ) * j / g.nx) + φ) := by
      unfold Grid.val; rw [h.heights i hi j hj]; rfl
    rw [e, abs_of_neg (by exact_mod_cast hneg), ← Real.cos_neg, ← Real.sin_add_pi_div_two]
    rw [add_comm]
    congr 3
    field_simp
    ring
  · refine ⟨-((g.nx : ℝ) / |(kx : ℝ)|) * (φ / (2 * Real.pi) + 1 / 4), fun i hi => List.map_congr_left fun j hj => ?_⟩
    rw [List.mem_range] at hj
    have e : g.val i j = c + a * Real.cos (2 * Real.pi * ((ky : ℝ) * i / g.ny + (kx : ℝ) * j / g.nx) + φ) := by
      unfold Grid.val; rw [h.heights i hi j hj]; rfl
    rw [e, abs_of_pos (by exact_mod_cast hpos), ← Real.sin_add_pi_div_two]
    rw [add_comm]
    congr 3
    field_simp
    ring

private theorem col_samples {g : Grid (Option ℝ)} {c a φ : ℝ} {ky kx : Int} (h : Grating g c a φ ky kx) (hk : ky ≠ 0) :
    ∃ x0, ∀ j < g.nx, (List.range g.ny).map (fun i => g.val i j) =
      samples g.ny a ((g.ny : ℝ) / |(ky : ℝ)|) (x0 + -((kx : ℝ) * g.ny) / (ky * g.nx) * j) c := by
  have hpi := Real.pi_ne_zero
  obtain ⟨hN, hM⟩ := grating_pos h
  have hN' : (g.ny : ℝ) ≠ 0 := by exact_mod_cast hN.ne'
  have hM' : (g.nx : ℝ) ≠ 0 := by exact_mod_cast hM.ne'
  have hk' : (ky : ℝ) ≠ 0 := by exact_mod_cast hk
  rcases lt_or_gt_of_ne hk with hneg | hpos
  · refine ⟨-((g.ny : ℝ) / |(ky : ℝ)|) * (-φ / (2 * Real.pi) + 1 / 4), fun j hj => List.map_congr_left fun i hi => ?_⟩
    rw [List.mem_range] at hi
    have e : g.val i j = c + a * Real.cos (2 * Real.pi * ((ky : ℝ) * i / g.ny + (kx : ℝ) * j / g.nx) + φ) := by
      unfold Grid.val; rw [h.heights i hi j hj]; rfl
    rw [e, abs_of_neg (by exact_mod_cast hneg), ← Real.cos_neg, ← Real.sin_add_pi_div_two]
    rw [add_comm]
    congr 3
    field_simp
    ring
  · refine ⟨-((g.ny : ℝ) / |(ky : ℝ)|) * (φ / (2 * Real.pi) + 1 / 4), fun j hj => List.map_congr_left fun i hi => ?_⟩
    rw [List.mem_range] at hi
    have e : g.val i j = c + a * Real.cos (2 * Real.pi * ((ky : ℝ) * i / g.ny + (kx : ℝ) * j / g.nx) + φ) := by
      unfold Grid.val; rw [h.heights i hi j hj]; rfl
    rw [e, abs_of_pos (by exact_mod_cast hpos), ← Real.sin_add_pi_div_two]
    rw [add_comm]
    congr 3
    field_simp
    ring

private theorem natAbs_cast (k : Int) : ((k.natAbs : Nat) : ℝ) = |(k : ℝ)| := by
  rw [← Int.cast_natCast, Int.natCast_natAbs, Int.cast_abs]

/-- the period along an axis in points -/
private theorem floor_period {n : Nat} (hn : 1 ≤ n) (k : Int) {step : ℝ} (hs : 0 < step) :
    ⌊((n : ℝ) - 1) * step / |(k : ℝ)| / step⌋ = (((n - 1) / k.natAbs : Nat) : Int) ∧
      0 ≤ ((n : ℝ) - 1) * step / |(k : ℝ)| / step := by
  have e : ((n : ℝ) - 1) * step / |(k : ℝ)| / step = ((n - 1 : Nat) : ℝ) / ((k.natAbs : Nat) : ℝ) := by
    rw [natAbs_cast, Nat.cast_sub hn, Nat.cast_one, div_div, mul_comm (|(k : ℝ)|) step, mul_comm ((n : ℝ) - 1) step,
      mul_div_mul_left _ _ hs.ne']
  rw [e]
  have h0 : (0 : ℝ) ≤ ((n - 1 : Nat) : ℝ) / ((k.natAbs : Nat) : ℝ) := by positivity
  exact ⟨by rw [← pyInt_nonneg h0, pyInt_div], h0⟩

private theorem deg (x : ℝ) : x * 180 / Real.pi * Real.pi / 180 = x := by
  have := Real.pi_ne_zero
  field_simp

private theorem ne_zero_of_wave {n k m : Nat} {q : Int} (hn : 0 < n) (hw : n ≤ 2 * q.natAbs * k * m) : q ≠ 0 := by
  rintro rfl
  simp at hw
  omega

/-- The conditions on the drift, in numbers of points. -/
private theorem drift_bounds {n m k : Nat} {q : Int} {P M : ℝ} (hM : 0 < n) (hP : 0 ≤ P) (h1 : 10 * q.natAbs * k ≤ n)
    (h2 : n ≤ 2 * q.natAbs * k * (m - 1)) (hm : 1 ≤ m) (hs : M = P * |(q : ℝ)| / n) :
    10 * (M * k) ≤ P ∧ P ≤ 2 * (M * k * ((m : ℝ) - 1)) := by
  have hn : (0 : ℝ) < n := by exact_mod_cast hM
  have a1 : (10 : ℝ) * |(q : ℝ)| * k ≤ n := by rw [← natAbs_cast]; exact_mod_cast h1
  have a2 : (n : ℝ) ≤ 2 * |(q : ℝ)| * k * ((m : ℝ) - 1) := by
    rw [← natAbs_cast, show ((m : ℝ) - 1) = ((m - 1 : Nat) : ℝ) by rw [Nat.cast_sub hm]; simp]
    exact_mod_cast h2
  subst hs
  constructor
  · have e : 10 * (P * |(q : ℝ)| / n * k) = P * (10 * |(q : ℝ)| * k) / n := by ring
    rw [e, div_le_iff₀ hn]
    exact mul_le_mul_of_nonneg_left a1 hP
  · have e : 2 * (P * |(q : ℝ)| / n * k * ((m : ℝ) - 1)) = P * (2 * |(q : ℝ)| * k * ((m : ℝ) - 1)) / n := by ring
    rw [e, le_div_iff₀ hn]
    exact mul_le_mul_of_nonneg_left a2 hP

private theorem not_missing {g : Grid (Option ℝ)} {c a φ : ℝ} {ky kx : Int} (h : Grating g c a φ ky kx) :
    ¬ hasMissing g = true := fun h' => grating_full h ((HeightParams.mem_none_iff_hasMissing g).1 h')

/-- **C88**, textures that run along the columns: the direction found is the one of the lines of the grating counted in
points. -/
theorem C88_rows {argsort : Argsort} (hs : IsArgsort argsort) {g : Grid (Option ℝ)} {c a φ : ℝ} {ky kx : Int}
    (h : Grating g c a φ ky kx) {fit : Fit} (hfit : Recovers fit ((g.nx : ℝ) / |(kx : ℝ)|) c) {stepX stepY : ℝ}
    (hx : 0 < stepX) (hy : 0 < stepY)
    (hv : ((g.nx : ℝ) - 1) * stepX * |(ky : ℝ)| < ((g.ny : ℝ) - 1) * stepY * |(kx : ℝ)|) {k : Nat}
    (hk : k = distance (g.nx - 1) kx.natAbs) (hk0 : 0 < k) (hn : 5 ≤ g.ny / k) (hd : 10 * ky.natAbs * k ≤ g.ny)
    (hw : g.ny ≤ 2 * ky.natAbs * k * (g.ny / k - 1)) :
    ∃ θ, Orientation.orientation argsort fit "fft_refined" g (((g.nx : ℝ) - 1) * stepX) (((g.ny : ℝ) - 1) * stepY) stepX
        stepY = .ok (some θ) ∧ -90 < θ ∧ θ < 90 ∧
      Real.sin (θ * Real.pi / 180) * (kx / g.nx) + Real.cos (θ * Real.pi / 180) * (ky / g.ny) = 0 := by
  obtain ⟨hN, hM⟩ := grating_pos h
  have hky : ky ≠ 0 := ne_zero_of_wave hN hw
  have hN' : (0 : ℝ) < g.ny := by exact_mod_cast hN
  have hM' : (0 : ℝ) < g.nx := by exact_mod_cast hM
  have hky' : 0 < |(ky : ℝ)| := abs_pos.2 (by exact_mod_cast hky)
  have hN1 : (1 : ℝ) < g.ny := by
    have : 1 < g.ny := by have := h.nyquist_y; have := abs_pos.2 hky; omega
    exact_mod_cast this
  have hkx : kx ≠ 0 := by
    rintro rfl
    have : (1 : ℝ) ≤ g.nx := by exact_mod_cast hM
    rw [Int.cast_zero, abs_zero, mul_zero] at hv
    have : 0 ≤ ((g.nx : ℝ) - 1) * stepX * |(ky : ℝ)| := by
      apply mul_nonneg (mul_nonneg (by linarith) hx.le) hky'.le
    linarith
  have hkx' : 0 < |(kx : ℝ)| := abs_pos.2 (by exact_mod_cast hkx)
  have hM1 : (1 : ℝ) < g.nx := by
    have : 1 < g.nx := by have := h.nyquist_x; have := abs_pos.2 hkx; omega
    exact_mod_cast this
  have hW : 0 < ((g.nx : ℝ) - 1) * stepX := mul_pos (by linarith) hx
  have hH : 0 < ((g.ny : ℝ) - 1) * stepY := mul_pos (by linarith) hy
  have hp := (C76_grating_partial hs h hW hH).2.2.1
  rw [if_neg hkx, if_neg hky] at hp
  have hlt : ltPeriod (some (((g.nx : ℝ) - 1) * stepX / |(kx : ℝ)|)) (some (((g.ny : ℝ) - 1) * stepY / |(ky : ℝ)|)) := by
    show _ < _
    rw [div_lt_div_iff₀ hkx' hky']
    exact hv
  have hnlt : ¬ ltPeriod (some (((g.ny : ℝ) - 1) * stepY / |(ky : ℝ)|)) (some (((g.nx : ℝ) - 1) * stepX / |(kx : ℝ)|)) :=
    fun h' => lt_asymm hlt h'
  obtain ⟨x0, hprof⟩ := row_samples h hkx
  have hP : 0 < (g.nx : ℝ) / |(kx : ℝ)| := by positivity
  obtain ⟨f1, f2⟩ := floor_period (n := g.nx) hM kx hx
  have hkd : k = (g.nx - 1) / kx.natAbs / 10 := hk
  have hpos := positions_texture hfit hP f1 f2 (hkd ▸ hk0) (size := g.ny) (L := g.nx)
    (by have := h.nyquist_x; have := abs_pos.2 hkx; omega) (a := a) h.contrast hprof
  rw [← hkd] at hpos
  have habs : |-((ky : ℝ) * g.nx) / (kx * g.ny)| = (g.nx : ℝ) / |(kx : ℝ)| * |(ky : ℝ)| / g.ny := by
    rw [abs_div, abs_neg, abs_mul, abs_mul, Nat.abs_cast, Nat.abs_cast]
    field_simp
  obtain ⟨d1, d2⟩ := drift_bounds (m := g.ny / k) hN hP.le hd hw (by omega) habs
  have hsl := slope_texture (E := x0 + (g.nx : ℝ) / |(kx : ℝ)| / 4) hP hn d1 d2
  refine ⟨Real.arctan (-((ky : ℝ) * g.nx) / (kx * g.ny)) * 180 / Real.pi, ?_, ?_, ?_, ?_⟩
  · unfold Orientation.orientation
    rw [if_neg (not_missing h), if_pos rfl]
    unfold refined
    rw [hp]
    show refinedOf _ _ _ _ _ _ = _
    unfold refinedOf
    rw [if_pos hlt, hpos]
    simp only [Except.bind]
    rw [hsl]
    simp only [Except.map, angle, Option.map_some]
    rw [if_neg hnlt]
    have hk' : (k : ℝ) ≠ 0 := by exact_mod_cast hk0.ne'
    rw [Int.cast_natCast, mul_div_cancel_right₀ _ hk']
  · have := Real.neg_pi_div_two_lt_arctan (-((ky : ℝ) * g.nx) / (kx * g.ny))
    rw [lt_div_iff₀ Real.pi_pos]
    linarith
  · have := Real.arctan_lt_pi_div_two (-((ky : ℝ) * g.nx) / (kx * g.ny))
    rw [div_lt_iff₀ Real.pi_pos]
    linarith
  · rw [deg]
    have hc := Real.cos_arctan_pos (-((ky : ℝ) * g.nx) / (kx * g.ny))
    have ht := Real.tan_arctan (-((ky : ℝ) * g.nx) / (kx * g.ny))
    rw [Real.tan_eq_sin_div_cos, div_eq_iff hc.ne'] at ht
    rw [ht]
    have : (kx : ℝ) ≠ 0 := by exact_mod_cast hkx
    field_simp
    ring

/-- **C88**, textures that run along the rows. -/
theorem C88_columns {argsort : Argsort} (hs : IsArgsort argsort) {g : Grid (Option ℝ)} {c a φ : ℝ} {ky kx : Int}
    (h : Grating g c a φ ky kx) {fit : Fit} (hfit : Recovers fit ((g.ny : ℝ) / |(ky : ℝ)|) c) {stepX stepY : ℝ}
    (hx : 0 < stepX) (hy : 0 < stepY)
    (hv : ((g.ny : ℝ) - 1) * stepY * |(kx : ℝ)| < ((g.nx : ℝ) - 1) * stepX * |(ky : ℝ)|) {k : Nat}
    (hk : k = distance (g.ny - 1) ky.natAbs) (hk0 : 0 < k) (hn : 5 ≤ g.nx / k) (hd : 10 * kx.natAbs * k ≤ g.nx)
    (hw : g.nx ≤ 2 * kx.natAbs * k * (g.nx / k - 1)) :
    ∃ θ, Orientation.orientation argsort fit "fft_refined" g (((g.nx : ℝ) - 1) * stepX) (((g.ny : ℝ) - 1) * stepY) stepX
        stepY = .ok (some θ) ∧ -90 < θ ∧ θ < 90 ∧
      Real.sin (θ * Real.pi / 180) * (kx / g.nx) + Real.cos (θ * Real.pi / 180) * (ky / g.ny) = 0 := by
  obtain ⟨hN, hM⟩ := grating_pos h
  have hkx : kx ≠ 0 := ne_zero_of_wave hM hw
  have hN' : (0 : ℝ) < g.ny := by exact_mod_cast hN
  have hM' : (0 : ℝ) < g.nx := by exact_mod_cast hM
  have hkx' : 0 < |(kx : ℝ)| := abs_pos.2 (by exact_mod_cast hkx)
  have hM1 : (1 : ℝ) < g.nx := by
    have : 1 < g.nx := by have := h.nyquist_x; have := abs_pos.2 hkx; omega
    exact_mod_cast this
  have hky : ky ≠ 0 := by
    rintro rfl
    have : (1 : ℝ) ≤ g.ny := by exact_mod_cast hN
    rw [Int.cast_zero, abs_zero, mul_zero] at hv
    have : 0 ≤ ((g.ny : ℝ) - 1) * stepY * |(kx : ℝ)| := by
      apply mul_nonneg (mul_nonneg (by linarith) hy.le) hkx'.le
    linarith
  have hky' : 0 < |(ky : ℝ)| := abs_pos.2 (by exact_mod_cast hky)
  have hN1 : (1 : ℝ) < g.ny := by
    have : 1 < g.ny := by have := h.nyquist_y; have := abs_pos.2 hky; omega
    exact_mod_cast this
  have hW : 0 < ((g.nx : ℝ) - 1) * stepX := mul_pos (by linarith) hx
  have hH : 0 < ((g.ny : ℝ) - 1) * stepY := mul_pos (by linarith) hy
  have hp := (C76_grating_partial hs h hW hH).2.2.1
  rw [if_neg hkx, if_neg hky] at hp
  have hlt : ltPeriod (some (((g.ny : ℝ) - 1) * stepY / |(ky : ℝ)|)) (some (((g.nx : ℝ) - 1) * stepX / |(kx : ℝ)|)) := by
    show _ < _
    rw [div_lt_div_iff₀ hky' hkx']
    exact hv
  have hnlt : ¬ ltPeriod (some (((g.nx : ℝ) - 1) * stepX / |(kx : ℝ)|)) (some (((g.ny : ℝ) - 1) * stepY / |(ky : ℝ)|)) :=
    fun h' => lt_asymm hlt h'
  obtain ⟨x0, hprof⟩ := col_samples h hky
  have hP : 0 < (g.ny : ℝ) / |(ky : ℝ)| := by positivity
  obtain ⟨f1, f2⟩ := floor_period (n := g.ny) hN ky hy
  have hkd : k = (g.ny - 1) / ky.natAbs / 10 := hk
  have hpos := positions_texture hfit hP f1 f2 (hkd ▸ hk0) (size := g.nx) (L := g.ny)
    (by have := h.nyquist_y; have := abs_pos.2 hky; omega) (a := a) h.contrast hprof
  rw [← hkd] at hpos
  have habs : |-((kx : ℝ) * g.ny) / (ky * g.nx)| = (g.ny : ℝ) / |(ky : ℝ)| * |(kx : ℝ)| / g.nx := by
    rw [abs_div, abs_neg, abs_mul, abs_mul, Nat.abs_cast, Nat.abs_cast]
    field_simp
  obtain ⟨d1, d2⟩ := drift_bounds (m := g.nx / k) hM hP.le hd hw (by omega) habs
  have hsl := slope_texture (E := x0 + (g.ny : ℝ) / |(ky : ℝ)| / 4) hP hn d1 d2
  set s := -((kx : ℝ) * g.ny) / (ky * g.nx) with hsdef
  have hkxr : (kx : ℝ) ≠ 0 := by exact_mod_cast hkx
  have hkyr : (ky : ℝ) ≠ 0 := by exact_mod_cast hky
  have hs0 : s ≠ 0 := by
    rw [hsdef]
    exact div_ne_zero (neg_ne_zero.2 (mul_ne_zero hkxr hN'.ne')) (mul_ne_zero hkyr hM'.ne')
  have hval : Orientation.orientation argsort fit "fft_refined" g (((g.nx : ℝ) - 1) * stepX) (((g.ny : ℝ) - 1) * stepY)
      stepX stepY = .ok (some (sign (Real.arctan s * 180 / Real.pi) * 90 - Real.arctan s * 180 / Real.pi)) := by
    unfold Orientation.orientation
    rw [if_neg (not_missing h), if_pos rfl]
    unfold refined
    rw [hp]
    show refinedOf _ _ _ _ _ _ = _
    unfold refinedOf
    rw [if_neg hnlt, hpos]
    simp only [Except.bind]
    rw [hsl]
    simp only [Except.map, angle, Option.map_some]
    rw [if_pos hlt]
    have hk' : (k : ℝ) ≠ 0 := by exact_mod_cast hk0.ne'
    rw [Int.cast_natCast, mul_div_cancel_right₀ _ hk']
  have hdir : Real.cos (Real.arctan s) * (kx / g.nx) + Real.sin (Real.arctan s) * (ky / g.ny) = 0 := by
    have hc := Real.cos_arctan_pos s
    have ht := Real.tan_arctan s
    rw [Real.tan_eq_sin_div_cos, div_eq_iff hc.ne'] at ht
    rw [ht, hsdef]
    field_simp
    ring
  have hpi := Real.pi_pos
  refine ⟨_, hval, ?_⟩
  rcases lt_or_gt_of_ne hs0 with hneg | hpos'
  · have ha : Real.arctan s < 0 := by rw [← Real.arctan_zero]; exact Real.arctan_strictMono hneg
    have hb := Real.neg_pi_div_two_lt_arctan s
    have hd0 : Real.arctan s * 180 / Real.pi < 0 := div_neg_of_neg_of_pos (by linarith) hpi
    have hd1 : -90 < Real.arctan s * 180 / Real.pi := by rw [lt_div_iff₀ hpi]; linarith
    have hsg : sign (Real.arctan s * 180 / Real.pi) = -1 := by unfold sign; rw [if_pos hd0]
    rw [hsg]
    refine ⟨by linarith, by linarith, ?_⟩
    have e : (-1 * 90 - Real.arctan s * 180 / Real.pi) * Real.pi / 180 = -(Real.arctan s + Real.pi / 2) := by
      field_simp; ring
    rw [e, Real.sin_neg, Real.cos_neg, Real.sin_add_pi_div_two, Real.cos_add_pi_div_two]
    linarith
  · have ha : 0 < Real.arctan s := by rw [← Real.arctan_zero]; exact Real.arctan_strictMono hpos'
    have hb := Real.arctan_lt_pi_div_two s
    have hd0 : 0 < Real.arctan s * 180 / Real.pi := by positivity
    have hd1 : Real.arctan s * 180 / Real.pi < 90 := by rw [div_lt_iff₀ hpi]; linarith
    have hsg : sign (Real.arctan s * 180 / Real.pi) = 1 := by unfold sign; rw [if_neg (by linarith), if_pos hd0]
    rw [hsg]
    refine ⟨by linarith, by linarith, ?_⟩
    have e : (1 * 90 - Real.arctan s * 180 / Real.pi) * Real.pi / 180 = Real.pi / 2 - Real.arctan s := by
      field_simp; ring
    rw [e, Real.sin_pi_div_two_sub, Real.cos_pi_div_two_sub]
    linarith

private theorem distance_bound {n m kx ky k : Nat} (hk : k = distance (n - 1) kx)
    (hv : (n - 1) * ky < (m - 1) * kx) : 10 * ky * k ≤ m := by
  have h1 : k * 10 ≤ (n - 1) / kx := by rw [hk]; exact Nat.div_mul_le_self _ _
  have hkx : 0 < kx := by
    rcases Nat.eq_zero_or_pos kx with rfl | h
    · simp at hv
    · exact h
  have h2 : k * 10 * kx ≤ n - 1 := le_trans (Nat.mul_le_mul_right _ h1) (Nat.div_mul_le_self _ _)
  have h3 : k * 10 * kx * ky < (m - 1) * kx := lt_of_le_of_lt (Nat.mul_le_mul_right _ h2) hv
  have h4 : 10 * ky * k * kx < (m - 1) * kx := by
    calc 10 * ky * k * kx = k * 10 * kx * ky := by ring
      _ < _ := h3
  have := lt_of_mul_lt_mul_right h4 (Nat.zero_le _)
  omega

private theorem cast_lt {n m : Nat} (hn : 1 ≤ n) (hm : 1 ≤ m) {p q : Int} (h : (n - 1) * p.natAbs < (m - 1) * q.natAbs) {step : ℝ}
    (hs : 0 < step) : ((n : ℝ) - 1) * step * |(p : ℝ)| < ((m : ℝ) - 1) * step * |(q : ℝ)| := by
  have h' : (((n - 1 : Nat) : ℝ)) * ((p.natAbs : Nat) : ℝ) < ((m - 1 : Nat) : ℝ) * ((q.natAbs : Nat) : ℝ) := by
    exact_mod_cast h
  rw [natAbs_cast, natAbs_cast, Nat.cast_sub hn, Nat.cast_sub hm, Nat.cast_one] at h'
  have := mul_lt_mul_of_pos_right h' hs
  calc ((n : ℝ) - 1) * step * |(p : ℝ)| = ((n : ℝ) - 1) * |(p : ℝ)| * step := by ring
    _ < ((m : ℝ) - 1) * |(q : ℝ)| * step := this
    _ = _ := by ring

private theorem along_scale {θ fx fy s : ℝ} (h : Real.sin (θ * Real.pi / 180) * fx + Real.cos (θ * Real.pi / 180) * fy = 0) :
    Along θ (fx / s) (fy / s) := by
  unfold Along
  have e : Real.sin (θ * Real.pi / 180) * (fx / s) + Real.cos (θ * Real.pi / 180) * (fy / s) =
      (Real.sin (θ * Real.pi / 180) * fx + Real.cos (θ * Real.pi / 180) * fy) / s := by ring
  rw [e, h, zero_div]

/-- **C88** (partial). On square points the refined orientation of a grating is its exact direction, for any amplitude,
offset and phase: the waves have `kx / (nx·step)` and `ky / (ny·step)` periods per unit length, and the angle found
follows their lines. Asked for: at least five sampled profiles, a drift of at least half a period over them, a period
of at least ten points, different periods along the axes, and an ideal fit. Missing from the full property: rectangular
points (`C88_rectangular_violated`), textures parallel to an axis (`C88_parallel_violated`), short periods
(`C88_short_violated`). -/
theorem C88_square_partial {argsort : Argsort} (hs : IsArgsort argsort) {g : Grid (Option ℝ)} {c a φ : ℝ} {ky kx : Int}
    (h : Grating g c a φ ky kx) {fit : Fit} {step : ℝ} (hstep : 0 < step)
    (hcase :
      ((g.nx - 1) * ky.natAbs < (g.ny - 1) * kx.natAbs ∧ Recovers fit ((g.nx : ℝ) / |(kx : ℝ)|) c ∧
        ∃ k, k = distance (g.nx - 1) kx.natAbs ∧ 0 < k ∧ 5 ≤ g.ny / k ∧ g.ny ≤ 2 * ky.natAbs * k * (g.ny / k - 1)) ∨
      ((g.ny - 1) * kx.natAbs < (g.nx - 1) * ky.natAbs ∧ Recovers fit ((g.ny : ℝ) / |(ky : ℝ)|) c ∧
        ∃ k, k = distance (g.ny - 1) ky.natAbs ∧ 0 < k ∧ 5 ≤ g.nx / k ∧ g.nx ≤ 2 * kx.natAbs * k * (g.nx / k - 1))) :
    ∃ θ, Orientation.orientation argsort fit "fft_refined" g (((g.nx : ℝ) - 1) * step) (((g.ny : ℝ) - 1) * step) step step
        = .ok (some θ) ∧ -90 < θ ∧ θ < 90 ∧ Along θ (kx / (g.nx * step)) (ky / (g.ny * step)) := by
  obtain ⟨hN, hM⟩ := grating_pos h
  rcases hcase with ⟨hv, hfit, k, hk, hk0, hn, hw⟩ | ⟨hv, hfit, k, hk, hk0, hn, hw⟩
  · obtain ⟨θ, h1, h2, h3, h4⟩ := C88_rows hs h hfit hstep hstep (cast_lt hM hN hv hstep) hk hk0 hn
      (distance_bound hk hv) hw
    exact ⟨θ, h1, h2, h3, by rw [← div_div, ← div_div]; exact along_scale h4⟩
  · obtain ⟨θ, h1, h2, h3, h4⟩ := C88_columns hs h hfit hstep hstep (cast_lt hN hM hv hstep) hk hk0 hn
      (distance_bound hk hv) hw
    exact ⟨θ, h1, h2, h3, by rw [← div_div, ← div_div]; exact along_scale h4⟩

/-- **C88** fails on rectangular points: the angle is the one counted in points, never the one of the surface. -/
theorem C88_rectangular_violated {argsort : Argsort} (hs : IsArgsort argsort) {g : Grid (Option ℝ)} {c a φ : ℝ} {ky kx : Int}
    (h : Grating g c a φ ky kx) {fit : Fit} (hfit : Recovers fit ((g.nx : ℝ) / |(kx : ℝ)|) c) {stepX stepY : ℝ}
    (hx : 0 < stepX) (hy : 0 < stepY) (hne : stepX ≠ stepY)
    (hv : ((g.nx : ℝ) - 1) * stepX * |(ky : ℝ)| < ((g.ny : ℝ) - 1) * stepY * |(kx : ℝ)|) {k : Nat}
    (hk : k = distance (g.nx - 1) kx.natAbs) (hk0 : 0 < k) (hn : 5 ≤ g.ny / k) (hd : 10 * ky.natAbs * k ≤ g.ny)
    (hw : g.ny ≤ 2 * ky.natAbs * k * (g.ny / k - 1)) :
    ∃ θ, Orientation.orientation argsort fit "fft_refined" g (((g.nx : ℝ) - 1) * stepX) (((g.ny : ℝ) - 1) * stepY) stepX
        stepY = .ok (some θ) ∧ ¬ Along θ (kx / (g.nx * stepX)) (ky / (g.ny * stepY)) := by
  obtain ⟨θ, h1, h2, h3, h4⟩ := C88_rows hs h hfit hx hy hv hk hk0 hn hd hw
  refine ⟨θ, h1, fun ha => ?_⟩
  obtain ⟨hN, hM⟩ := grating_pos h
  have hky : (ky : ℝ) ≠ 0 := by exact_mod_cast ne_zero_of_wave hN hw
  have hN' : (g.ny : ℝ) ≠ 0 := by exact_mod_cast hN.ne'
  have hM' : (g.nx : ℝ) ≠ 0 := by exact_mod_cast hM.ne'
  have hc : 0 < Real.cos (θ * Real.pi / 180) := by
    have := Real.pi_pos
    apply Real.cos_pos_of_mem_Ioo
    constructor
    · nlinarith
    · nlinarith
  unfold Along at ha
  have e : Real.cos (θ * Real.pi / 180) * (ky / g.ny) * (stepX - stepY) = 0 := by
    have e1 : Real.sin (θ * Real.pi / 180) * (kx / (g.nx * stepX)) = Real.sin (θ * Real.pi / 180) * (kx / g.nx) / stepX := by
      field_simp
    have e2 : Real.cos (θ * Real.pi / 180) * (ky / (g.ny * stepY)) = Real.cos (θ * Real.pi / 180) * (ky / g.ny) / stepY := by
      field_simp
    rw [e1, e2] at ha
    have e3 : Real.sin (θ * Real.pi / 180) * (kx / g.nx) = -(Real.cos (θ * Real.pi / 180) * (ky / g.ny)) := by linarith
    rw [e3] at ha
    generalize Real.cos (θ * Real.pi / 180) * (ky / g.ny) = z at ha ⊢
    field_simp at ha
    linarith
  rcases mul_eq_zero.1 e with e | e
  · rcases mul_eq_zero.1 e with e | e
    · exact hc.ne' e
    · exact div_ne_zero hky hN' e
  · exact hne (by linarith)

/-- Profiles with their extremum at the same place have no slope. -/
private theorem slope_const {n : Nat} (hn : 2 ≤ n) (x : Option ℝ) :
    slope ((List.range n).map fun _ => x) = .ok none := by
  unfold slope
  rw [if_neg (by simp; omega)]
  cases x with
  | none =>
    rw [if_pos]
    rw [List.mem_map]
    exact ⟨0, List.mem_range.2 (by omega), rfl⟩
  | some x =>
    rw [if_neg (by simp)]
    have e : ((List.range (n)).map fun _ => some x).filterMap id = (List.range (n)).map fun _ => x := by
      rw [List.filterMap_map]; simp
    simp only [e, diffs_map_range, sub_self]
    have hmed : ∀ n, median ((List.range n).map fun _ => (0 : ℝ)) = 0 := by
      intro n
      rcases Nat.eq_zero_or_pos n with rfl | hn
      · simp [median, sortAsc]
      · apply median_majority
        rw [List.map_const', List.count_replicate_self, List.length_replicate]
        simp; omega
    rw [hmed]
    have htop : (((List.range (n - 1)).map fun _ => (0 : ℝ)).map fun x => |x - 0|).max?.getD 0 = 0 := by
      obtain ⟨t, ht⟩ := exists_max? (l := ((List.range (n - 1)).map fun _ => (0 : ℝ)).map fun x => |x - 0|)
        (by simp; omega)
      rw [ht, Option.getD_some]
      have := (max?_spec.1 ht).1
      simp at this
      exact this.2
    rw [htop, if_pos (.inl rfl)]

/-- **C88** fails for textures that are parallel to the columns: all profiles are the same, and whatever is fitted to
them, the refined method (the default) returns NaN, while the other one returns 0. -/
theorem C88_parallel_violated {argsort : Argsort} (hs : IsArgsort argsort) {g : Grid (Option ℝ)} {c a φ : ℝ} {kx : Int}
    (h : Grating g c a φ 0 kx) {fit : Fit} (hfit : ∀ l guess, ∃ popt, fit l guess = .ok popt) {stepX stepY : ℝ}
    (hx : 0 < stepX) (hy : 0 < stepY) (h2 : 2 ≤ g.ny) {k : Nat} (hk : k = distance (g.nx - 1) kx.natAbs) (hk0 : 0 < k)
    (hn : 2 ≤ g.ny / k) :
    Orientation.orientation argsort fit "fft_refined" g (((g.nx : ℝ) - 1) * stepX) (((g.ny : ℝ) - 1) * stepY) stepX stepY
      = .ok none ∧
    Orientation.orientation argsort fit "fft" g (((g.nx : ℝ) - 1) * stepX) (((g.ny : ℝ) - 1) * stepY) stepX stepY
      = .ok (some 0) := by
  obtain ⟨hN, hM⟩ := grating_pos h
  have hkx : kx ≠ 0 := h.nonzero.resolve_left fun e => e rfl
  have hM1 : (1 : ℝ) < g.nx := by
    have : 1 < g.nx := by have := h.nyquist_x; have := abs_pos.2 hkx; omega
    exact_mod_cast this
  have hN1 : (1 : ℝ) < g.ny := by exact_mod_cast h2
  have hW : 0 < ((g.nx : ℝ) - 1) * stepX := mul_pos (by linarith) hx
  have hH : 0 < ((g.ny : ℝ) - 1) * stepY := mul_pos (by linarith) hy
  obtain ⟨-, -, hp, θ, o1, o2, o3, o4⟩ := C76_grating_partial hs h hW hH
  constructor
  · rw [if_neg hkx, if_pos rfl] at hp
    have hrow : ∀ r < g.ny, (List.range g.nx).map (fun j => g.val r j) = (List.range g.nx).map fun j => g.val 0 j := by
      intro r hr
      apply List.map_congr_left
      intro j hj
      rw [List.mem_range] at hj
      unfold Grid.val
      rw [h.heights r hr j hj, h.heights 0 hN j hj]
      simp
    obtain ⟨f1, f2⟩ := floor_period (n := g.nx) hM kx hx
    have hkd : k = (g.nx - 1) / kx.natAbs / 10 := hk
    obtain ⟨x, hxx⟩ : ∃ x, extremum fit (((g.nx - 1) / kx.natAbs : Nat) : Int) ((List.range g.nx).map fun j => g.val 0 j) = .ok x := by
      unfold extremum
      dsimp only
      obtain ⟨popt, hpo⟩ := hfit ((List.range g.nx).map fun j => g.val 0 j) ((((List.range g.nx).map fun j => g.val 0 j).max?.getD 0 - ((List.range g.nx).map fun j => g.val 0 j).min?.getD 0) / 2, ((((g.nx - 1) / kx.natAbs : Nat) : Int) : ℝ), 0, mean ((List.range g.nx).map fun j => g.val 0 j))
      rw [hpo]
      exact ⟨_, rfl⟩
    have hpos := positions_eq fit f1 f2 (hkd ▸ hk0) g.ny (fun i => (List.range g.nx).map fun j => g.val i j) (x := fun _ => x)
      (fun i _ hlt => by rw [hrow _ hlt]; exact hxx)
    rw [← hkd] at hpos
    have hsl := slope_const (by omega : 2 ≤ g.ny / k) x
    unfold Orientation.orientation
    rw [if_neg (not_missing h), if_pos rfl]
    unfold refined
    rw [hp]
    show refinedOf _ _ _ _ _ _ = _
    unfold refinedOf
    rw [if_pos (show ltPeriod (some _) none from trivial), hpos]
    simp only [Except.bind]
    rw [hsl]
    rfl
  · have hθ : θ = 0 := by
      rw [Int.cast_zero, zero_div, mul_zero, sub_zero, neg_mul, neg_eq_zero] at o4
      have hsin : Real.sin (θ * Real.pi / 180) = 0 := by
        refine (mul_eq_zero.1 o4).resolve_right (div_ne_zero ?_ hW.ne')
        exact_mod_cast hkx
      have hpi := Real.pi_pos
      have := (Real.sin_eq_zero_iff_of_lt_of_lt (by nlinarith) (by nlinarith)).1 hsin
      have h1 : θ * Real.pi = 0 := by linarith
      exact (mul_eq_zero.1 h1).resolve_right hpi.ne'
    unfold Orientation.orientation
    rw [if_neg (not_missing h), if_neg (by decide), if_pos rfl, o1, hθ]
    rfl

/-- **C88** fails for textures that are parallel to the rows, too: the period along the rows is infinite, so that
columns are taken for profiles; they are all the same, and the refined method returns NaN, while the other one returns 90. -/
theorem C88_parallel_rows_violated {argsort : Argsort} (hs : IsArgsort argsort) {g : Grid (Option ℝ)} {c a φ : ℝ}
    {ky : Int} (h : Grating g c a φ ky 0) {fit : Fit} (hfit : ∀ l guess, ∃ popt, fit l guess = .ok popt)
    {stepX stepY : ℝ} (hx : 0 < stepX) (hy : 0 < stepY) (h2 : 2 ≤ g.nx) {k : Nat}
    (hk : k = distance (g.ny - 1) ky.natAbs) (hk0 : 0 < k) (hn : 2 ≤ g.nx / k) :
    Orientation.orientation argsort fit "fft_refined" g (((g.nx : ℝ) - 1) * stepX) (((g.ny : ℝ) - 1) * stepY) stepX stepY
      = .ok none ∧
    Orientation.orientation argsort fit "fft" g (((g.nx : ℝ) - 1) * stepX) (((g.ny : ℝ) - 1) * stepY) stepX stepY
      = .ok (some 90) := by
  obtain ⟨hN, hM⟩ := grating_pos h
  have hky : ky ≠ 0 := h.nonzero.resolve_right fun e => e rfl
  have hN1 : (1 : ℝ) < g.ny := by
    have : 1 < g.ny := by have := h.nyquist_y; have := abs_pos.2 hky; omega
    exact_mod_cast this
  have hM1 : (1 : ℝ) < g.nx := by exact_mod_cast h2
  have hW : 0 < ((g.nx : ℝ) - 1) * stepX := mul_pos (by linarith) hx
  have hH : 0 < ((g.ny : ℝ) - 1) * stepY := mul_pos (by linarith) hy
  obtain ⟨-, -, hp, θ, o1, o2, o3, o4⟩ := C76_grating_partial hs h hW hH
  constructor
  · rw [if_neg hky, if_pos rfl] at hp
    have hcol : ∀ r < g.nx, (List.range g.ny).map (fun i => g.val i r) = (List.range g.ny).map fun i => g.val i 0 := by
      intro r hr
      apply List.map_congr_left
      intro i hi
      rw [List.mem_range] at hi
      unfold Grid.val
      rw [h.heights i hi r hr, h.heights i hi 0 hM]
      simp
    obtain ⟨f1, f2⟩ := floor_period (n := g.ny) hN ky hy
    have hkd : k = (g.ny - 1) / ky.natAbs / 10 := hk
    obtain ⟨x, hxx⟩ : ∃ x, extremum fit (((g.ny - 1) / ky.natAbs : Nat) : Int) ((List.range g.ny).map fun i => g.val i 0) = .ok x := by
      unfold extremum
      dsimp only
      obtain ⟨popt, hpo⟩ := hfit ((List.range g.ny).map fun i => g.val i 0) ((((List.range g.ny).map fun i => g.val i 0).max?.getD 0 - ((List.range g.ny).map fun i => g.val i 0).min?.getD 0) / 2, ((((g.ny - 1) / ky.natAbs : Nat) : Int) : ℝ), 0, mean ((List.range g.ny).map fun i => g.val i 0))
      rw [hpo]
      exact ⟨_, rfl⟩
    have hpos := positions_eq fit f1 f2 (hkd ▸ hk0) g.nx (fun j => (List.range g.ny).map fun i => g.val i j) (x := fun _ => x)
      (fun i _ hlt => by rw [hcol _ hlt]; exact hxx)
    rw [← hkd] at hpos
    have hsl := slope_const (by omega : 2 ≤ g.nx / k) x
    unfold Orientation.orientation
    rw [if_neg (not_missing h), if_pos rfl]
    unfold refined
    rw [hp]
    show refinedOf _ _ _ _ _ _ = _
    unfold refinedOf
    rw [if_neg (show ¬ ltPeriod none (some _) from id), hpos]
    simp only [Except.bind]
    rw [hsl]
    rfl
  · have hθ : θ = 90 := by
      rw [Int.cast_zero, zero_div, mul_zero, zero_sub, neg_eq_zero] at o4
      have hcos : Real.cos (θ * Real.pi / 180) = 0 := by
        refine (mul_eq_zero.1 o4).resolve_right (div_ne_zero ?_ hH.ne')
        exact_mod_cast hky
      have hpi := Real.pi_pos
      by_contra hne
      have l2 : θ < 90 := lt_of_le_of_ne o3 hne
      exact (Real.cos_pos_of_mem_Ioo ⟨by nlinarith, by nlinarith⟩).ne' hcos
    unfold Orientation.orientation
    rw [if_neg (not_missing h), if_neg (by decide), if_pos rfl, o1, hθ]
    rfl

/-- **C88** fails for short periods: below ten points the refined method divides by zero. -/
theorem C88_short_violated {argsort : Argsort} (hs : IsArgsort argsort) {g : Grid (Option ℝ)} {c a φ : ℝ} {ky kx : Int}
    (h : Grating g c a φ ky kx) (fit : Fit) {step : ℝ} (hstep : 0 < step) (h2 : 2 ≤ g.ny)
    (hv : (g.nx - 1) * ky.natAbs < (g.ny - 1) * kx.natAbs) (hshort : g.nx - 1 < 10 * kx.natAbs) :
    Orientation.orientation argsort fit "fft_refined" g (((g.nx : ℝ) - 1) * step) (((g.ny : ℝ) - 1) * step) step step
      = .error .zeroDivision := by
  obtain ⟨hN, hM⟩ := grating_pos h
  have hkx : kx ≠ 0 := by rintro rfl; simp at hv
  have hM1 : (1 : ℝ) < g.nx := by
    have : 1 < g.nx := by have := h.nyquist_x; have := abs_pos.2 hkx; omega
    exact_mod_cast this
  have hN1 : (1 : ℝ) < g.ny := by exact_mod_cast h2
  have hW : 0 < ((g.nx : ℝ) - 1) * step := mul_pos (by linarith) hstep
  have hH : 0 < ((g.ny : ℝ) - 1) * step := mul_pos (by linarith) hstep
  have hp := (C76_grating_partial hs h hW hH).2.2.1
  rw [if_neg hkx] at hp
  obtain ⟨f1, f2⟩ := floor_period (n := g.nx) hM kx hstep
  have hlt : ltPeriod (some (((g.nx : ℝ) - 1) * step / |(kx : ℝ)|))
      (if ky = 0 then none else some (((g.ny : ℝ) - 1) * step / |(ky : ℝ)|)) := by
    by_cases hky : ky = 0
    · rw [if_pos hky]; trivial
    · rw [if_neg hky]
      show _ < _
      rw [div_lt_div_iff₀ (abs_pos.2 (by exact_mod_cast hkx)) (abs_pos.2 (by exact_mod_cast hky))]
      exact cast_lt hM hN hv hstep
  unfold Orientation.orientation
  rw [if_neg (not_missing h), if_pos rfl]
  unfold refined
  rw [hp]
  show refinedOf _ _ _ _ _ _ = _
  unfold refinedOf
  rw [if_pos hlt]
  unfold positions periodPx
  dsimp only
  rw [pyInt_nonneg f2, f1]
  simp only [Except.bind]
  have hd : pyInt (((((g.nx - 1) / kx.natAbs : Nat) : Int) : ℝ) * (1 / 10)) = 0 := by
    have h0 := pyInt_div ((g.nx - 1) / kx.natAbs) 10
    have hz : (g.nx - 1) / kx.natAbs / 10 = 0 := by
      rw [Nat.div_div_eq_div_mul]
      apply Nat.div_eq_of_lt
      rw [Nat.mul_comm]; exact hshort
    rw [hz] at h0
    have e : ((((g.nx - 1) / kx.natAbs : Nat) : Int) : ℝ) * (1 / 10) = (((g.nx - 1) / kx.natAbs : Nat) : ℝ) / ((10 : Nat) : ℝ) := by
      rw [Int.cast_natCast, Nat.cast_ofNat]; ring
    rw [e, h0]; rfl
  rw [if_pos hd]

/-- **C88**: profiles are only sampled inside the surface: an IndexError can only come from the fit. -/
theorem C88_inside (fit : Fit) (hfit : ∀ l guess, fit l guess ≠ .error .indexError) (p : Option ℝ) (step : ℝ) (size : Nat)
    (profile : Nat → List ℝ) : positions fit p step size profile ≠ .error .indexError := by
  unfold positions periodPx
  cases p with
  | none => simp [Except.bind]
  | some p =>
    simp only [Except.bind]
    split
    · simp
    · rename_i hd
      split
      · simp
      · rename_i hn
        intro he
        have hmap : ((List.range (pyInt ((size : ℝ) / (pyInt ((pyInt (p / step) : ℝ) * (1 / 10)) : ℝ))).toNat).mapM fun i : Nat =>
            if (i : Int) * pyInt ((pyInt (p / step) : ℝ) * (1 / 10)) < -(size : Int) ∨
                (size : Int) ≤ (i : Int) * pyInt ((pyInt (p / step) : ℝ) * (1 / 10)) then (.error .indexError : Except Err (Option ℝ))
            else extremum fit (pyInt (p / step)) (profile (if (i : Int) * pyInt ((pyInt (p / step) : ℝ) * (1 / 10)) < 0
              then (i : Int) * pyInt ((pyInt (p / step) : ℝ) * (1 / 10)) + size
              else (i : Int) * pyInt ((pyInt (p / step) : ℝ) * (1 / 10))).toNat)) = .error .indexError := by
          generalize (List.mapM (m := Except Err) _ _) = z at he ⊢
          cases z with
          | error e => simpa [Except.map] using he
          | ok x => simp [Except.map] at he
        generalize pyInt ((pyInt (p / step) : ℝ) * (1 / 10)) = dist at *
        have key : ∀ l : List Nat, (∀ i ∈ l, (i : Int) < pyInt ((size : ℝ) / dist)) →
            (l.mapM fun i : Nat =>
            if (i : Int) * dist < -(size : Int) ∨ (size : Int) ≤ (i : Int) * dist then (.error .indexError : Except Err (Option ℝ))
            else extremum fit (pyInt (p / step)) (profile (if (i : Int) * dist < 0
              then (i : Int) * dist + size else (i : Int) * dist).toNat)) ≠ .error .indexError := by
          intro l
          induction l with
          | nil => intro _; simp [pure, Except.pure]
          | cons i l ih =>
            intro hl
            have hi := hl i (by simp)
            have hpos : 0 < dist := by
              by_contra hneg
              push Not at hneg
              have hle : (size : ℝ) / dist ≤ 0 := div_nonpos_of_nonneg_of_nonpos (by positivity) (by exact_mod_cast hneg)
              have : pyInt ((size : ℝ) / dist) ≤ 0 := by
                unfold pyInt
                split
                · rename_i h0
                  have : (size : ℝ) / dist = 0 := le_antisymm hle h0
                  rw [this]; simp
                · rw [Int.ceil_le]; exact_mod_cast hle
              omega
            have hposr : (0 : ℝ) < dist := by exact_mod_cast hpos
            have h0 : 0 ≤ (size : ℝ) / dist := by positivity
            have hlt : (i : Int) * dist < size := by
              have hf : ((i : Int) + 1 : Int) ≤ ⌊(size : ℝ) / dist⌋ := by rw [← pyInt_nonneg h0]; omega
              rw [Int.le_floor, le_div_iff₀ hposr] at hf
              have : (((i : Int) + 1 : Int) : ℝ) * dist ≤ (size : Int) := by exact_mod_cast hf
              have h' : ((i : Int) + 1) * dist ≤ size := by exact_mod_cast this
              rw [add_mul, one_mul] at h'
              omega
            have hge : 0 ≤ (i : Int) * dist := mul_nonneg (by omega) hpos.le
            rw [List.mapM_cons, if_neg (by omega), if_neg (by omega)]
            have hex : extremum fit (pyInt (p / step)) (profile ((i : Int) * dist).toNat) ≠ .error .indexError := by
              unfold extremum
              dsimp only
              intro h
              have := hfit (profile ((i : Int) * dist).toNat)
              generalize hz : fit _ _ = z at h
              cases z with
              | error e =>
                simp only [Except.map, Except.error.injEq] at h
                subst h
                exact this _ hz
              | ok v => simp [Except.map] at h
            cases hv : extremum fit (pyInt (p / step)) (profile ((i : Int) * dist).toNat) with
            | error e =>
              simp only [bind, Except.bind]
              intro h; rw [hv] at hex; exact hex (congrArg Except.error (Except.error.inj h))
            | ok v =>
              simp only [bind, Except.bind]
              have := ih fun j hj => hl j (by simp [hj])
              generalize (List.mapM (m := Except Err) _ _) = z at this ⊢
              cases z with
              | error e => simpa using this
              | ok x => simp [pure, Except.pure]
        refine key _ ?_ hmap
        intro i hi
        rw [List.mem_range] at hi
        omega

/-- **C88**: an unknown method, or missing points, raise ValueError whatever the heights. -/
theorem C88_rejects (argsort : Argsort) (fit : Fit) (method : String) (g : Grid (Option ℝ)) (W H stepX stepY : ℝ) 
    (h : none ∈ flat g ∨ method ≠ "fft_refined" ∧ method ≠ "fft") :
    Orientation.orientation argsort fit method g W H stepX stepY = .error .valueError := by
  unfold Orientation.orientation
  rcases h with h | ⟨h1, h2⟩
  · rw [if_pos ((HeightParams.mem_none_iff_hasMissing g).2 h)]
  · rw [if_neg h1, if_neg h2, ite_self]

/-! Concrete cases: gratings of 100 × 100 points. -/

private noncomputable def demoGrid (ky kx : Int) : Grid (Option ℝ) :=
  Grid.ofFn 100 100 fun i j => some (1 + 2 * Real.cos (2 * Real.pi * ((ky : ℝ) * i / (100 : Nat) + (kx : ℝ) * j / (100 : Nat)) + 0))

private theorem demo_ny (ky kx : Int) : (demoGrid ky kx).ny = 100 := ofFn_ny _ _ _

private theorem demo_nx (ky kx : Int) : (demoGrid ky kx).nx = 100 := ofFn_nx _ _ _

private theorem demo_grating {ky kx : Int} (h0 : ky ≠ 0 ∨ kx ≠ 0) (hy : 2 * |ky| < 100) (hx : 2 * |kx| < 100) :
    Grating (demoGrid ky kx) 1 2 0 ky kx := by
  refine ⟨ofFn_wf _ _ _, ?_, two_ne_zero, h0, by rw [demo_ny]; exact_mod_cast hy, by rw [demo_nx]; exact_mod_cast hx⟩
  intro i hi j hj
  rw [demo_ny] at hi ⊢
  rw [demo_nx] at hj ⊢
  unfold demoGrid
  rw [get_ofFn _ hi hj]

/-- The premises of `C88_square_partial` (and of `C88_rows`) hold: four periods along the rows, two along the columns. -/
example {argsort : Argsort} (hs : IsArgsort argsort) : ∃ fit θ,
    Orientation.orientation argsort fit "fft_refined" (demoGrid 2 4) ((((demoGrid 2 4).nx : ℝ) - 1) * 1)
      ((((demoGrid 2 4).ny : ℝ) - 1) * 1) 1 1 = .ok (some θ) ∧
    Along θ ((4 : Int) / ((demoGrid 2 4).nx * 1)) ((2 : Int) / ((demoGrid 2 4).ny * 1)) := by
  obtain ⟨fit, hfit⟩ := C88_recovers_exists (P := ((demoGrid 2 4).nx : ℝ) / |((4 : Int) : ℝ)|)
    (by rw [demo_nx]; norm_num) 1
  obtain ⟨θ, h1, -, -, h2⟩ := C88_square_partial hs (demo_grating (ky := 2) (kx := 4) (by decide) (by decide) (by decide))
    (fit := fit) (step := 1) one_pos (.inl ⟨by rw [demo_nx, demo_ny]; decide, hfit, 2, by rw [demo_nx]; decide, by decide,
      by rw [demo_ny]; decide, by rw [demo_ny]; decide⟩)
  exact ⟨fit, θ, h1, h2⟩

/-- The same with the axes exchanged (`C88_columns`). -/
example {argsort : Argsort} (hs : IsArgsort argsort) : ∃ fit θ,
    Orientation.orientation argsort fit "fft_refined" (demoGrid 4 (-2)) ((((demoGrid 4 (-2)).nx : ℝ) - 1) * 1)
      ((((demoGrid 4 (-2)).ny : ℝ) - 1) * 1) 1 1 = .ok (some θ) ∧
    Along θ ((-2 : Int) / ((demoGrid 4 (-2)).nx * 1)) ((4 : Int) / ((demoGrid 4 (-2)).ny * 1)) := by
  obtain ⟨fit, hfit⟩ := C88_recovers_exists (P := ((demoGrid 4 (-2)).ny : ℝ) / |((4 : Int) : ℝ)|)
    (by rw [demo_ny]; norm_num) 1
  obtain ⟨θ, h1, -, -, h2⟩ := C88_square_partial hs (demo_grating (ky := 4) (kx := -2) (by decide) (by decide) (by decide))
    (fit := fit) (step := 1) one_pos (.inr ⟨by rw [demo_nx, demo_ny]; decide, hfit, 2, by rw [demo_ny]; decide, by decide,
      by rw [demo_nx]; decide, by rw [demo_nx]; decide⟩)
  exact ⟨fit, θ, h1, h2⟩

/-- The premises of `C88_rectangular_violated` hold. -/
example {argsort : Argsort} (hs : IsArgsort argsort) : ∃ fit θ,
    Orientation.orientation argsort fit "fft_refined" (demoGrid 2 4) ((((demoGrid 2 4).nx : ℝ) - 1) * 1)
      ((((demoGrid 2 4).ny : ℝ) - 1) * 2) 1 2 = .ok (some θ) ∧
    ¬ Along θ ((4 : Int) / ((demoGrid 2 4).nx * 1)) ((2 : Int) / ((demoGrid 2 4).ny * 2)) := by
  obtain ⟨fit, hfit⟩ := C88_recovers_exists (P := ((demoGrid 2 4).nx : ℝ) / |((4 : Int) : ℝ)|)
    (by rw [demo_nx]; norm_num) 1
  obtain ⟨θ, h1, h2⟩ := C88_rectangular_violated hs (demo_grating (ky := 2) (kx := 4) (by decide) (by decide) (by decide))
    hfit (stepX := 1) (stepY := 2) one_pos two_pos (by norm_num) (by rw [demo_nx, demo_ny]; norm_num) (k := 2)
    (by rw [demo_nx]; decide) (by decide) (by rw [demo_ny]; decide) (by rw [demo_ny]; decide) (by rw [demo_ny]; decide)
  exact ⟨fit, θ, h1, h2⟩

/-- The premises of `C88_parallel_violated` hold, for any fit that does not raise. -/
example {argsort : Argsort} (hs : IsArgsort argsort) :
    Orientation.orientation argsort (fun _ _ => .ok (1, 25, 0, 1)) "fft_refined" (demoGrid 0 4)
      ((((demoGrid 0 4).nx : ℝ) - 1) * 1) ((((demoGrid 0 4).ny : ℝ) - 1) * 1) 1 1 = .ok none :=
  (C88_parallel_violated hs (demo_grating (ky := 0) (kx := 4) (by decide) (by decide) (by decide))
    (fun _ _ => ⟨_, rfl⟩) one_pos one_pos (by rw [demo_ny]; decide) (k := 2) (by rw [demo_nx]; decide) (by decide)
    (by rw [demo_ny]; decide)).1

/-- The premises of `C88_parallel_rows_violated` hold, for any fit that does not raise. -/
example {argsort : Argsort} (hs : IsArgsort argsort) :
    Orientation.orientation argsort (fun _ _ => .ok (1, 25, 0, 1)) "fft_refined" (demoGrid 4 0)
      ((((demoGrid 4 0).nx : ℝ) - 1) * 1) ((((demoGrid 4 0).ny : ℝ) - 1) * 1) 1 1 = .ok none :=
  (C88_parallel_rows_violated hs (demo_grating (ky := 4) (kx := 0) (by decide) (by decide) (by decide))
    (fun _ _ => ⟨_, rfl⟩) one_pos one_pos (by rw [demo_nx]; decide) (k := 2) (by rw [demo_ny]; decide) (by decide)
    (by rw [demo_nx]; decide)).1

/-- The premises of `C88_short_violated` hold: twenty periods over 100 points. -/
example {argsort : Argsort} (hs : IsArgsort argsort) (fit : Fit) :
    Orientation.orientation argsort fit "fft_refined" (demoGrid 5 20)
      ((((demoGrid 5 20).nx : ℝ) - 1) * 1) ((((demoGrid 5 20).ny : ℝ) - 1) * 1) 1 1 = .error .zeroDivision :=
  C88_short_violated hs (demo_grating (ky := 5) (kx := 20) (by decide) (by decide) (by decide)) fit one_pos
    (by rw [demo_ny]; decide) (by rw [demo_nx, demo_ny]; decide) (by rw [demo_nx]; decide)

end Props
end Surfalize
