import Verif.Props.Spectrum
import Verif.Props.DepthWindow
import Verif.Props.Depth
import Verif.Lemmas.SquareWave

/-!
# C115 — square gratings: period, orientation and depth
-/
set_option linter.unusedSectionVars false
namespace Surfalize.Props
open Surfalize BaseOps Finset Container Spec Fourier Depth DepthSpec

theorem square_dominated {g : Grid (Option ℝ)} {lo hi : ℝ} {m k : Nat} {s : Int} (h : SquareGrating g lo hi m k s) :
    Dominated g 0 k := by
  have hM : 0 < g.nx := by rw [h.columns]; have := h.plateau; have := h.periods; positivity
  have hkn : 2 * (k : Int) < g.nx := by
    rw [h.columns]
    have h1 := h.plateau
    have h2 := h.periods
    have : 2 * k < 2 * m * k := by nlinarith
    exact_mod_cast this
  have hraw : ∀ q : Int × Int, raw g.ny g.nx g.val q = (∑ i ∈ range g.ny, E g.ny (-q.1) i) * T g.nx (square lo hi m s) q.2 := by
    intro q
    unfold raw T
    rw [sum_mul]
    apply sum_congr rfl; intro i hi
    rw [mul_sum]
    apply sum_congr rfl; intro j hj
    rw [Grid.val, h.heights i (mem_range.1 hi) j (mem_range.1 hj)]
    simp only [Option.getD_some]
    ring
  have hnorm : ∀ q : Int × Int, Representable g.ny g.nx q → q ≠ (0, 0) →
      ‖component g.ny g.nx g.val q‖ = if q.1 = 0 then g.ny * ‖T g.nx (square lo hi m s) q.2‖ else 0 := by
    intro q hq h0
    rw [component_eq_raw h.rows hM _ hq h0, hraw, sum_E _ h.rows]
    have hd : ((g.ny : Int) ∣ -q.1) ↔ q.1 = 0 := by
      constructor
      · exact rep_dvd hq.1 hq.2.1
      · intro he; rw [he]; simp
    by_cases hz : q.1 = 0
    · rw [if_pos (hd.2 hz), if_pos hz, norm_mul, Complex.norm_natCast]
    · rw [if_neg (fun hc => hz (hd.1 hc)), if_neg hz, zero_mul, norm_zero]
  obtain ⟨hpos, hlt⟩ := T_square (m := m) h.contrast (by have := h.plateau; omega) h.periods s
  rw [← h.columns] at hpos hlt
  have hNy : (0 : ℝ) < g.ny := by exact_mod_cast h.rows
  have hk0 : (k : Int) ≠ 0 := by have := h.periods; omega
  have hrep : Representable g.ny g.nx (0, (k : Int)) :=
    (rep_of_nyquist (by simpa using h.rows) (by rw [Nat.abs_cast]; exact hkn)).1
  refine ⟨h.wf, fun i hi j hj => ⟨_, h.heights i hi j hj⟩, Or.inr hk0, by simpa using h.rows, by rw [Nat.abs_cast]; exact hkn, ?_⟩
  intro q hq h1 h2
  have hs := hnorm _ hrep (by simp only [ne_eq, Prod.mk.injEq, true_and]; exact hk0)
  simp only [if_true] at hs
  rw [hs]
  by_cases h0 : q = (0, 0)
  · rw [h0, component_zero h.rows hM, norm_zero]; positivity
  rw [hnorm q hq h0]
  split
  · rename_i hz
    apply mul_lt_mul_of_pos_left _ hNy
    obtain ⟨q1, q2⟩ := q
    simp only at hz
    subst hz
    simp only [ne_eq, Prod.mk.injEq, true_and, neg_zero] at h0 h1 h2
    apply hlt _ h0 h1 h2
    obtain ⟨-, -, r3, r4⟩ := hq
    dsimp only at r3 r4
    rcases abs_choice q2 with he | he <;> omega
  · positivity

/-- **C115** (square gratings). Period, Ssw and orientation of a square grating are those of a wave: `k` periods over the
width `W`, 0° for grooves along y. -/
theorem C115_square_period {argsort : List ℝ → List Nat} (hs : IsArgsort argsort) {g : Grid (Option ℝ)} {lo hi : ℝ} {m k : Nat}
    {s : Int} (h : SquareGrating g lo hi m k s) {W H : ℝ} (hW : 0 < W) (hH : 0 < H) :
    period argsort g W H = .ok (some (W / k)) ∧ dominantWavelength g W H = .ok (some (W / k)) ∧
    periodXY argsort g W H = .ok (some (W / k), none) ∧ orientation argsort g W H = .ok 0 := by
  have hk := h.periods
  have hk' : (0 : ℝ) < k := by exact_mod_cast hk
  obtain ⟨h1, h2, h3, h4⟩ := C97_dominant_wave hs (square_dominated h) hW hH
  have e : (1 : ℝ) / Real.sqrt ((((k : Int) : ℝ) / W) ^ 2 + (((0 : Int) : ℝ) / H) ^ 2) = W / k := by
    rw [Int.cast_zero, zero_div, zero_pow two_ne_zero, add_zero, Real.sqrt_sq (by positivity)]
    push_cast
    rw [one_div_div]
  have hk0 : (k : Int) ≠ 0 := by omega
  rw [e] at h1 h2
  refine ⟨h1, h2, ?_, ?_⟩
  · rw [h3, if_neg hk0, if_pos rfl]
    simp
  · rw [h4, if_neg hk0, if_pos rfl]

/-- The fitted curve passes its mean level between the last point of one plateau and the first of the next (at position `s`
or any number of plateaus away), as the curve of least squares does. -/
def CrossesAt (m : Nat) (s : Int) (x0 : ℝ) : Prop := ∃ t : Int, (s : ℝ) - 1 ≤ x0 + t * m ∧ x0 + t * m ≤ s

theorem median_all {l : List ℝ} (hne : l ≠ []) {z : ℝ} (h : ∀ x ∈ l, x = z) : median l = z :=
  le_antisymm (Stepheight.median_le hne fun x hx => (h x hx).le) (median_ge hne fun x hx => (h x hx).ge)

theorem int_center {m : Nat} {s c N : Int} {x : ℝ} (h1 : (s : ℝ) - 1 + (m : ℝ) / 2 + N ≤ x) (h2 : x ≤ s + (m : ℝ) / 2 + N)
    (c1 : (c : ℝ) ≤ x) (c2 : x < c + 1) : s - 1 + (m / 2 : Nat) + N ≤ c ∧ c ≤ s + (m / 2 : Nat) + N := by
  have a1 : ((2 * s - 2 + m + 2 * N : Int) : ℝ) < ((2 * c + 2 : Int) : ℝ) := by push_cast; linarith
  have a2 : ((2 * c : Int) : ℝ) ≤ ((2 * s + m + 2 * N : Int) : ℝ) := by push_cast; linarith
  have a1' := Int.cast_lt.1 a1
  have a2' := Int.cast_le.1 a2
  constructor <;> omega

/-- the extrema of the fitted curve lie in the middle of the plateaus, one after the other -/
theorem square_extremum {lo hi : ℝ} {m : Nat} (hm : 2 ≤ m) {s : Int} {S : Sinusoid.Sinus} (hp : S.period = 2 * m)
    (hx : CrossesAt m s S.x0) {sw : ℝ} (hsw : 0 ≤ sw) (hsw' : (m : ℝ) * sw < (m / 2 : Nat)) {n : Nat} :
    ∃ (fe w : Int) (q : Int), 0 ≤ fe ∧ fe < m ∧ 0 ≤ w ∧ w + 1 ≤ (m / 2 : Nat) ∧ ∀ j : Nat,
      extremumHeight S sw ((List.range n).map fun x : Nat => square lo hi m s x) j =
        if 0 ≤ fe + j * m - w ∧ fe + j * m + w < n then some (if ((j : Int) - q) % 2 = 0 then hi else lo) else none := by
  have hm0 : (0 : ℝ) < m := by exact_mod_cast (by omega : 0 < m)
  obtain ⟨t, t1, t2⟩ := hx
  set f := S.firstExtremum with hf
  obtain ⟨q0, hq0⟩ : ∃ q0 : Int, f = S.x0 + m / 2 - q0 * m ∧ 0 ≤ f ∧ f < m := by
    have hf0 : f = S.x0 + m / 2 - ⌊(S.x0 + m / 2) / m⌋ * m := by
      rw [hf]; unfold Sinusoid.Sinus.firstExtremum
      simp only [hp]
      rw [show (2 * (m : ℝ)) / 2 = m by ring, show S.x0 + 2 * (m : ℝ) / 4 = S.x0 + m / 2 by ring]
      ring
    refine ⟨⌊(S.x0 + m / 2) / m⌋, hf0, ?_, ?_⟩
    · rw [hf0, sub_nonneg]
      have := Int.floor_le ((S.x0 + m / 2) / m)
      rwa [le_div_iff₀ hm0] at this
    · rw [hf0]
      have := Int.lt_floor_add_one ((S.x0 + m / 2) / m)
      rw [div_lt_iff₀ hm0] at this
      linarith
  obtain ⟨hq0, f0, f1⟩ := hq0
  have b1 := Int.floor_le f
  have b2 := Int.lt_floor_add_one f
  have b3 : 0 ≤ ⌊f⌋ := Int.floor_nonneg.2 f0
  have b4 : ⌊f⌋ < m := by rw [Int.floor_lt]; exact_mod_cast f1
  have hms : 0 ≤ (m : ℝ) * sw := by positivity
  have w1 := Int.floor_le ((m : ℝ) * sw)
  have w2 := Int.lt_floor_add_one ((m : ℝ) * sw)
  have w3 : 0 ≤ ⌊(m : ℝ) * sw⌋ := Int.floor_nonneg.2 hms
  have w4 : ⌊(m : ℝ) * sw⌋ < (m / 2 : Nat) := by rw [Int.floor_lt]; exact_mod_cast hsw'
  set w := ⌊(m : ℝ) * sw⌋ with hw
  refine ⟨⌊f⌋, w, q0 + t, b3, b4, w3, by omega, ?_⟩
  intro j
  have hidx : S.firstExtremum + (j : ℝ) * (S.period / 2) = f + j * m := by rw [hp, ← hf]; ring
  have hpos : 0 ≤ f + (j : ℝ) * m := by positivity
  have hc : IsTrunc (S.firstExtremum + (j : ℝ) * (S.period / 2)) (⌊f⌋ + j * m) := by
    rw [hidx]
    refine ⟨fun _ => ⟨?_, ?_⟩, fun hneg => absurd hneg (not_lt.2 hpos)⟩ <;> push_cast <;> linarith
  have hw' : IsTrunc (S.period * sw / 2) w := by
    rw [hp, show 2 * (m : ℝ) * sw / 2 = m * sw by ring]
    exact ⟨fun _ => ⟨w1, w2⟩, fun hneg => absurd hneg (not_lt.2 hms)⟩
  rw [C78_window S sw _ j _ w hc hw' (by rw [hp]; positivity)]
  unfold windowAt
  simp only [List.length_map, List.length_range]
  by_cases hin : 0 ≤ ⌊f⌋ + (j : Int) * m - w ∧ ⌊f⌋ + (j : Int) * m + w < n
  swap
  · rw [if_neg hin, if_neg hin]; rfl
  rw [if_pos hin, if_pos hin, Option.map_some]
  congr 1
  set c := ⌊f⌋ + (j : Int) * m with hcdef
  obtain ⟨i1, i2⟩ := hin
  have hN := int_center (m := m) (s := s) (c := c) (N := ((j : Int) - (q0 + t)) * m) (x := f + j * m)
    (by push_cast; rw [hq0]; linarith) (by push_cast; rw [hq0]; linarith) (by rw [hcdef]; push_cast; linarith)
    (by rw [hcdef]; push_cast; linarith)
  apply median_all
  · intro hnil
    have := congrArg List.length hnil
    simp at this
    omega
  · intro z hz
    rw [List.mem_map] at hz
    obtain ⟨u, hu, rfl⟩ := hz
    rw [List.mem_range] at hu
    obtain ⟨y, hy⟩ : ∃ y : Nat, (c - w).toNat + u = y := ⟨_, rfl⟩
    have hyn : y < n := by omega
    rw [hy, getD_of_lt _ (by simpa using hyn), List.getElem_map, List.getElem_range]
    have hy1 : c - w ≤ (y : Int) := by omega
    have hy2 : (y : Int) ≤ c + w := by omega
    have hr1 := Int.emod_nonneg ((j : Int) - (q0 + t)) (show (2 : Int) ≠ 0 by norm_num)
    have hr2 := Int.emod_lt_of_pos ((j : Int) - (q0 + t)) (show (0 : Int) < 2 by norm_num)
    have hr3 := Int.emod_add_mul_ediv ((j : Int) - (q0 + t)) 2
    generalize hr : ((j : Int) - (q0 + t)) % 2 = r at *
    generalize he : ((j : Int) - (q0 + t)) / 2 = e at *
    rw [← hr3] at hN
    unfold square
    have hNe : (r + 2 * e) * (m : Int) = r * m + 2 * m * e := by ring
    rw [hNe] at hN
    rw [show (y : Int) - s = ((y : Int) - s - (2 * m * e)) + 2 * m * e by ring, Int.add_mul_emod_self_left]
    generalize 2 * (m : Int) * e = M at *
    obtain rfl | rfl : r = 0 ∨ r = 1 := by omega
    · rw [Int.emod_eq_of_lt (by omega) (by omega), if_pos (by omega), if_pos rfl]
    · rw [Int.emod_eq_of_lt (by omega) (by omega), if_neg (by omega), if_neg (by norm_num)]

theorem square_depthLine {lo hi : ℝ} {m k : Nat} (hm : 2 ≤ m) (hk : 2 ≤ k) {s : Int} {fit : Fit} {pp : ℝ} {a x0 y0 : ℝ}
    (hfit : fit ((List.range (2 * m * k)).map fun x : Nat => square lo hi m s x)
      (p0 ((List.range (2 * m * k)).map fun x : Nat => square lo hi m s x) pp) = .ok (a, 2 * m, x0, y0))
    (hx : CrossesAt m s x0) {sw : ℝ} (hsw : 0 ≤ sw) (hsw' : (m : ℝ) * sw < (m / 2 : Nat)) :
    ∃ v, depthLine fit pp sw k ((List.range (2 * m * k)).map fun x : Nat => square lo hi m s x) = .ok v ∧
      (∀ z, some z ∈ v → z = |hi - lo|) ∧ some |hi - lo| ∈ v := by
  have hm0 : (0 : ℝ) < m := by exact_mod_cast (by omega : 0 < m)
  have hS : (Sinusoid.ofPopt (a, 2 * (m : ℝ), x0, y0)).period = 2 * m ∧
      CrossesAt m s (Sinusoid.ofPopt (a, 2 * (m : ℝ), x0, y0)).x0 := by
    unfold Sinusoid.ofPopt
    dsimp only
    split
    · refine ⟨rfl, ?_⟩
      obtain ⟨t, t1, t2⟩ := hx
      refine ⟨t + 1, ?_, ?_⟩ <;> dsimp only <;> push_cast <;> linarith
    · exact ⟨rfl, hx⟩
  obtain ⟨hper, hcr⟩ := hS
  obtain ⟨fe, w, q, f0, f1, w0, w1, hex⟩ := square_extremum (lo := lo) (hi := hi) hm hper hcr hsw hsw' (n := 2 * m * k)
  unfold depthLine
  rw [hfit]
  dsimp only [Except.bind]
  rw [if_neg (by rw [hper]; intro hc; linarith [hc.1])]
  have hval : ∀ j : Nat, 0 ≤ fe + (2 * j : Nat) * m - w → fe + (2 * j + 1 : Nat) * m + w < (2 * m * k : Nat) →
      (osub (extremumHeight (Sinusoid.ofPopt (a, 2 * (m : ℝ), x0, y0)) sw ((List.range (2 * m * k)).map fun x : Nat => square lo hi m s x) (2 * j))
        (extremumHeight (Sinusoid.ofPopt (a, 2 * (m : ℝ), x0, y0)) sw ((List.range (2 * m * k)).map fun x : Nat => square lo hi m s x) (2 * j + 1))).map
        (fun x => |x|) = some |hi - lo| := by
    intro j h1 h2
    have e : ((2 * j + 1 : Nat) : Int) * m = (2 * j : Nat) * m + m := by push_cast; ring
    have c1 : 0 ≤ fe + ((2 * j : Nat) : Int) * m - w ∧ fe + ((2 * j : Nat) : Int) * m + w < (2 * m * k : Nat) := ⟨h1, by omega⟩
    have c2 : 0 ≤ fe + ((2 * j + 1 : Nat) : Int) * m - w ∧ fe + ((2 * j + 1 : Nat) : Int) * m + w < (2 * m * k : Nat) := ⟨by omega, h2⟩
    rw [hex (2 * j), if_pos c1, hex (2 * j + 1), if_pos c2]
    have hpar : (((2 * j : Nat) : Int) - q) % 2 = 0 ∧ ¬ (((2 * j + 1 : Nat) : Int) - q) % 2 = 0 ∨
        ¬ (((2 * j : Nat) : Int) - q) % 2 = 0 ∧ (((2 * j + 1 : Nat) : Int) - q) % 2 = 0 := by omega
    rcases hpar with ⟨p1, p2⟩ | ⟨p1, p2⟩
    · rw [if_pos p1, if_neg p2]; simp [osub]
    · rw [if_neg p1, if_pos p2]; simp [osub, abs_sub_comm]
  refine ⟨_, rfl, ?_, ?_⟩
  · intro z hz
    rw [List.mem_map] at hz
    obtain ⟨j, -, hj⟩ := hz
    by_cases h1 : 0 ≤ fe + (2 * j : Nat) * m - w
    · by_cases h2 : fe + (2 * j + 1 : Nat) * m + w < (2 * m * k : Nat)
      · rw [hval j h1 h2] at hj
        exact (Option.some.inj hj).symm
      · rw [hex (2 * j + 1), if_neg (by tauto)] at hj
        cases extremumHeight (Sinusoid.ofPopt (a, 2 * (m : ℝ), x0, y0)) sw ((List.range (2 * m * k)).map fun x : Nat => square lo hi m s x) (2 * j) <;>
          simp [osub] at hj
    · rw [hex (2 * j), if_neg (by tauto)] at hj
      simp [osub] at hj
  · have hL : (4 : Int) * m ≤ (2 * m * k : Nat) := by
      push_cast
      nlinarith
    rw [List.mem_map]
    by_cases hw : w ≤ fe
    · refine ⟨0, List.mem_range.2 (by omega), hval 0 ?_ ?_⟩
      · push_cast; omega
      · push_cast; push_cast at hL; omega
    · refine ⟨1, List.mem_range.2 (by omega), hval 1 ?_ ?_⟩
      · push_cast; omega
      · push_cast; push_cast at hL; omega

theorem mean_all {l : List ℝ} (hne : l ≠ []) {z : ℝ} (h : ∀ x ∈ l, x = z) : Surfalize.mean l = z :=
  le_antisymm (HeightParams.mean_le hne fun x hx => (h x hx).le) (HeightParams.le_mean hne fun x hx => (h x hx).ge)

theorem std_all {l : List ℝ} (hne : l ≠ []) {z : ℝ} (h : ∀ x ∈ l, x = z) : BaseOps.std l = 0 := by
  unfold BaseOps.std variance
  rw [mean_all hne h, mean_all (z := 0)]
  · exact Real.sqrt_zero
  · simpa using hne
  · intro x hx
    rw [List.mem_map] at hx
    obtain ⟨y, hy, rfl⟩ := hx
    rw [h y hy]; simp

/-- **C115** (depth of a square grating). For every square grating with at least two periods, every number of profiles that
can be evaluated (C69) and every sampling width below half a period, the depth is exactly the difference of the two heights
and its standard deviation is 0, provided the fits give the period and pass their mean level at the edges. -/
theorem C115_square_depth {argsort : List ℝ → List Nat} (hs : IsArgsort argsort) {g : Grid (Option ℝ)} {lo hi : ℝ} {m k : Nat}
    {s : Int} (h : SquareGrating g lo hi m k s) (hk : 2 ≤ k) (hy : 2 ≤ g.ny) {stepX stepY : ℝ} (sx : 0 < stepX) (sy : 0 < stepY)
    {fit : Fit} (hfit : ∀ p0, ∃ a x0 y0, fit ((List.range g.nx).map fun x : Nat => square lo hi m s x) p0 = .ok (a, 2 * m, x0, y0) ∧
      CrossesAt m s x0)
    {sw : ℝ} (hsw : 0 ≤ sw) (hsw' : (m : ℝ) * sw < (m / 2 : Nat)) {n : Nat} (hn : 2 ≤ n) (hn' : n ≤ g.ny) (hd : ¬ (n - 1) ∣ g.ny) :
    depth argsort fit g stepX stepY n sw = .ok (some |hi - lo|, some 0) := by
  have hm := h.plateau
  have hkr : (0 : ℝ) < k := by exact_mod_cast (by omega : 0 < k)
  have hx2 : 2 ≤ g.nx := by rw [h.columns]; nlinarith
  have hnx : (2 : ℝ) ≤ g.nx := by exact_mod_cast hx2
  have hny : (2 : ℝ) ≤ g.ny := by exact_mod_cast hy
  have hW : 0 < ((g.nx : ℝ) - 1) * stepX := mul_pos (by linarith) sx
  have hH : 0 < ((g.ny : ℝ) - 1) * stepY := mul_pos (by linarith) sy
  obtain ⟨-, -, e1, e2⟩ := C115_square_period hs h hW hH
  have hf := dominated_full (square_dominated h)
  have hmiss : ¬ hasMissing g = true := fun hh => hf ((HeightParams.mem_none_iff_hasMissing g).1 hh)
  have hrow : ∀ r < g.ny, rowOf g r = (List.range g.nx).map fun x : Nat => square lo hi m s x := by
    intro r hr
    unfold rowOf
    apply List.map_congr_left
    intro j hj
    rw [Grid.val, h.heights r hr j (List.mem_range.1 hj)]
    rfl
  have hint : (pyInt (((g.nx : ℝ) - 1) * stepX / (((g.nx : ℝ) - 1) * stepX / k))).toNat = k := by
    rw [div_div_cancel₀ hW.ne']
    unfold pyInt
    rw [if_pos hkr.le, Int.floor_natCast]
    simp
  have hline : ∀ i < n, ∃ v, depthLine fit (((g.nx : ℝ) - 1) * stepX / k / stepX) sw k (rowOf g (profileIndex g.ny n i)) = .ok v ∧
      (∀ z, some z ∈ v → z = |hi - lo|) ∧ some |hi - lo| ∈ v := by
    intro i hi
    have hr := (profileIndex_bound hn h.rows).2 hd i hi
    rw [hrow _ hr]
    obtain ⟨a, x0, y0, hf1, hf2⟩ := hfit (p0 ((List.range g.nx).map fun x : Nat => square lo _ m s x) (((g.nx : ℝ) - 1) * stepX / k / stepX))
    rw [h.columns] at hf1 ⊢
    exact square_depthLine hm hk hf1 hf2 hsw hsw'
  have hmap : ∃ ls, (List.range n).mapM (m := Except Err) (fun i => if g.ny ≤ profileIndex g.ny n i then .error .indexError
      else depthLine fit (((g.nx : ℝ) - 1) * stepX / k / stepX) sw k (rowOf g (profileIndex g.ny n i))) = .ok ls := by
    apply mapM_exists
    intro i hi
    have hi := List.mem_range.1 hi
    have hr := (profileIndex_bound hn h.rows).2 hd i hi
    obtain ⟨v, hv, -⟩ := hline i hi
    exact ⟨v, by rw [if_neg (by omega), hv]⟩
  obtain ⟨ls, hls⟩ := hmap
  have hres : ∀ x ∈ measured ls.flatten, x = |hi - lo| := by
    intro x hx
    rw [mem_measured, List.mem_flatten] at hx
    obtain ⟨v, hv, hxv⟩ := hx
    obtain ⟨i, hi, e⟩ := mapM_ok_mem hls v hv
    have hi := List.mem_range.1 hi
    have hr := (profileIndex_bound hn h.rows).2 hd i hi
    obtain ⟨v', hv', h1, -⟩ := hline i hi
    rw [if_neg (by omega), hv', Except.ok.injEq] at e
    subst e
    exact h1 x hxv
  have hne : measured ls.flatten ≠ [] := by
    obtain ⟨v, hv, e⟩ := mapM_get hls (k := 0) (a := 0) (by rw [List.getElem?_range (by omega)])
    have hr := (profileIndex_bound hn h.rows).2 hd 0 (by omega)
    obtain ⟨v', hv', -, h2⟩ := hline 0 (by omega)
    rw [if_neg (by omega), hv', Except.ok.injEq] at e
    subst e
    apply List.ne_nil_of_mem (a := |hi - lo|)
    rw [mem_measured, List.mem_flatten]
    exact ⟨_, List.mem_of_getElem? hv, h2⟩
  unfold depth
  rw [if_neg hmiss]
  simp only [e1, e2, Except.bind]
  have hv : decide ((-45 : ℝ) < 0 ∧ (0 : ℝ) < 45) = true := by norm_num
  simp only [hv, if_true]
  rw [if_neg (by omega), if_neg (by omega), hint, if_neg (not_lt.2 (by positivity))]
  simp only [Int.toNat_natCast]
  rw [hls]
  simp only [Except.map]
  rw [if_neg hne, mean_all hne hres, std_all hne hres]

/-- The aspect ratio of a square grating is its height over its period. -/
theorem C115_square_aspect_ratio {argsort : List ℝ → List Nat} (hs : IsArgsort argsort) {g : Grid (Option ℝ)} {lo hi : ℝ} {m k : Nat}
    {s : Int} (h : SquareGrating g lo hi m k s) (hk : 2 ≤ k) (hy : 30 ≤ g.ny) (hd : ¬ 29 ∣ g.ny) {stepX stepY : ℝ} (sx : 0 < stepX)
    (sy : 0 < stepY) {fit : Fit}
    (hfit : ∀ p0, ∃ a x0 y0, fit ((List.range g.nx).map fun x : Nat => square lo hi m s x) p0 = .ok (a, 2 * m, x0, y0) ∧
      CrossesAt m s x0) :
    aspectRatio argsort fit g stepX stepY = .ok (some (|hi - lo| / (((g.nx : ℝ) - 1) * stepX / k))) := by
  have hm := h.plateau
  have hmr : (2 : ℝ) ≤ m := by exact_mod_cast hm
  have hx2 : 2 ≤ g.nx := by rw [h.columns]; nlinarith
  have hnx : (2 : ℝ) ≤ g.nx := by exact_mod_cast hx2
  have hny : (30 : ℝ) ≤ g.ny := by exact_mod_cast hy
  have hsw : (m : ℝ) * (1 / 5) < ((m / 2 : Nat) : ℝ) := by
    have h1 : (m : ℝ) ≤ 2 * ((m / 2 : Nat) : ℝ) + 1 := by exact_mod_cast (by omega : m ≤ 2 * (m / 2) + 1)
    linarith
  have := C115_square_depth hs h hk (by omega) sx sy hfit (sw := 1 / 5) (by norm_num) hsw (n := 30) (by norm_num) hy hd
  exact C78_aspect_ratio argsort fit g stepX stepY _ _ _ this
    (C115_square_period hs h (mul_pos (by linarith) sx) (mul_pos (by linarith) sy)).1

/-- A square grating and a fit as required. -/
example : ∃ (g : Grid (Option ℝ)) (fit : Fit), SquareGrating g 1 4 3 2 1 ∧ g.ny = 31 ∧ ∀ p0, ∃ a x0 y0,
    fit ((List.range g.nx).map fun x : Nat => square 1 4 3 1 x) p0 = .ok (a, 2 * (3 : Nat), x0, y0) ∧ CrossesAt 3 1 x0 := by
  refine ⟨Grid.ofFn 31 12 fun _ j => some (square 1 4 3 1 j), fun _ _ => .ok (2, 6, 1 / 2, 5 / 2), ⟨ofFn_wf _ _ _, ?_, ?_, ?_, ?_, ?_, ?_⟩,
    ofFn_ny _ _ _, ?_⟩
  · rw [ofFn_ny]; norm_num
  · rw [ofFn_nx]
  · intro i hi j hj
    rw [ofFn_ny] at hi
    rw [ofFn_nx] at hj
    rw [get_ofFn _ hi hj]
  · norm_num
  · norm_num
  · norm_num
  · intro _
    refine ⟨2, 1 / 2, 5 / 2, by norm_num, 0, ?_, ?_⟩ <;> norm_num

/-! ### gratings along y -/

theorem square_dominatedY {g : Grid (Option ℝ)} {lo hi : ℝ} {m k : Nat} {s : Int} (h : SquareGratingY g lo hi m k s) :
    Dominated g k 0 := by
  have hM : 0 < g.ny := by rw [h.rows]; have := h.plateau; have := h.periods; positivity
  have hkn : 2 * (k : Int) < g.ny := by
    rw [h.rows]
    have h1 := h.plateau
    have h2 := h.periods
    have : 2 * k < 2 * m * k := by nlinarith
    exact_mod_cast this
  have hraw : ∀ q : Int × Int, raw g.ny g.nx g.val q = T g.ny (square lo hi m s) q.1 * (∑ j ∈ range g.nx, E g.nx (-q.2) j) := by
    intro q
    unfold raw T
    rw [sum_mul]
    apply sum_congr rfl; intro i hi
    rw [mul_sum]
    apply sum_congr rfl; intro j hj
    rw [Grid.val, h.heights i (mem_range.1 hi) j (mem_range.1 hj)]
    simp only [Option.getD_some]
    ring
  have hnorm : ∀ q : Int × Int, Representable g.ny g.nx q → q ≠ (0, 0) →
      ‖component g.ny g.nx g.val q‖ = if q.2 = 0 then g.nx * ‖T g.ny (square lo hi m s) q.1‖ else 0 := by
    intro q hq h0
    rw [component_eq_raw hM h.columns _ hq h0, hraw, sum_E _ h.columns]
    have hd : ((g.nx : Int) ∣ -q.2) ↔ q.2 = 0 := by
      constructor
      · exact rep_dvd hq.2.2.1 hq.2.2.2
      · intro he; rw [he]; simp
    by_cases hz : q.2 = 0
    · rw [if_pos (hd.2 hz), if_pos hz, norm_mul, Complex.norm_natCast, mul_comm]
    · rw [if_neg (fun hc => hz (hd.1 hc)), if_neg hz, mul_zero, norm_zero]
  obtain ⟨hpos, hlt⟩ := T_square (m := m) h.contrast (by have := h.plateau; omega) h.periods s
  rw [← h.rows] at hpos hlt
  have hNy : (0 : ℝ) < g.nx := by exact_mod_cast h.columns
  have hk0 : (k : Int) ≠ 0 := by have := h.periods; omega
  have hrep : Representable g.ny g.nx ((k : Int), 0) :=
    (rep_of_nyquist (by rw [Nat.abs_cast]; exact hkn) (by simpa using h.columns)).1
  refine ⟨h.wf, fun i hi j hj => ⟨_, h.heights i hi j hj⟩, Or.inl hk0, by rw [Nat.abs_cast]; exact hkn, by simpa using h.columns, ?_⟩
  intro q hq h1 h2
  have hs := hnorm _ hrep (by simp only [ne_eq, Prod.mk.injEq, and_true]; exact hk0)
  simp only [if_true] at hs
  rw [hs]
  by_cases h0 : q = (0, 0)
  · rw [h0, component_zero hM h.columns, norm_zero]; positivity
  rw [hnorm q hq h0]
  split
  · rename_i hz
    apply mul_lt_mul_of_pos_left _ hNy
    obtain ⟨q1, q2⟩ := q
    simp only at hz
    subst hz
    simp only [ne_eq, Prod.mk.injEq, and_true, neg_zero] at h0 h1 h2
    apply hlt _ h0 h1 h2
    obtain ⟨r3, r4, -, -⟩ := hq
    dsimp only at r3 r4
    rcases abs_choice q1 with he | he <;> omega
  · positivity

/-- The same for a profile along y: `k` periods over the height `H`, 90°. -/
theorem C115_square_period_y {argsort : List ℝ → List Nat} (hs : IsArgsort argsort) {g : Grid (Option ℝ)} {lo hi : ℝ} {m k : Nat}
    {s : Int} (h : SquareGratingY g lo hi m k s) {W H : ℝ} (hW : 0 < W) (hH : 0 < H) :
    period argsort g W H = .ok (some (H / k)) ∧ dominantWavelength g W H = .ok (some (H / k)) ∧
    periodXY argsort g W H = .ok (none, some (H / k)) ∧ orientation argsort g W H = .ok 90 := by
  have hk := h.periods
  have hk' : (0 : ℝ) < k := by exact_mod_cast hk
  obtain ⟨h1, h2, h3, h4⟩ := C97_dominant_wave hs (square_dominatedY h) hW hH
  have e : (1 : ℝ) / Real.sqrt ((((0 : Int) : ℝ) / W) ^ 2 + (((k : Int) : ℝ) / H) ^ 2) = H / k := by
    rw [Int.cast_zero, zero_div, zero_pow two_ne_zero, zero_add, Real.sqrt_sq (by positivity)]
    push_cast
    rw [one_div_div]
  have hk0 : (k : Int) ≠ 0 := by omega
  rw [e] at h1 h2
  refine ⟨h1, h2, ?_, ?_⟩
  · rw [h3, if_pos rfl, if_neg hk0]
    simp
  · rw [h4, if_pos rfl]

/-- The depth of a square grating along y. -/
theorem C115_square_depth_y {argsort : List ℝ → List Nat} (hs : IsArgsort argsort) {g : Grid (Option ℝ)} {lo hi : ℝ} {m k : Nat}
    {s : Int} (h : SquareGratingY g lo hi m k s) (hk : 2 ≤ k) (hy : 2 ≤ g.nx) {stepX stepY : ℝ} (sx : 0 < stepX) (sy : 0 < stepY)
    {fit : Fit} (hfit : ∀ p0, ∃ a x0 y0, fit ((List.range g.ny).map fun x : Nat => square lo hi m s x) p0 = .ok (a, 2 * m, x0, y0) ∧
      CrossesAt m s x0)
    {sw : ℝ} (hsw : 0 ≤ sw) (hsw' : (m : ℝ) * sw < (m / 2 : Nat)) {n : Nat} (hn : 2 ≤ n) (hn' : n ≤ g.nx) (hd : ¬ (n - 1) ∣ g.nx) :
    depth argsort fit g stepX stepY n sw = .ok (some |hi - lo|, some 0) := by
  have hm := h.plateau
  have hkr : (0 : ℝ) < k := by exact_mod_cast (by omega : 0 < k)
  have hx2 : 2 ≤ g.ny := by rw [h.rows]; nlinarith
  have hnx : (2 : ℝ) ≤ g.ny := by exact_mod_cast hx2
  have hny : (2 : ℝ) ≤ g.nx := by exact_mod_cast hy
  have hH : 0 < ((g.ny : ℝ) - 1) * stepY := mul_pos (by linarith) sy
  have hW : 0 < ((g.nx : ℝ) - 1) * stepX := mul_pos (by linarith) sx
  obtain ⟨-, -, e1, e2⟩ := C115_square_period_y hs h hW hH
  have hf := dominated_full (square_dominatedY h)
  have hmiss : ¬ hasMissing g = true := fun hh => hf ((HeightParams.mem_none_iff_hasMissing g).1 hh)
  have hrow : ∀ r < g.nx, colOf g r = (List.range g.ny).map fun x : Nat => square lo hi m s x := by
    intro r hr
    unfold colOf
    apply List.map_congr_left
    intro j hj
    rw [Grid.val, h.heights j (List.mem_range.1 hj) r hr]
    rfl
  have hint : (pyInt (((g.ny : ℝ) - 1) * stepY / (((g.ny : ℝ) - 1) * stepY / k))).toNat = k := by
    rw [div_div_cancel₀ hH.ne']
    unfold pyInt
    rw [if_pos hkr.le, Int.floor_natCast]
    simp
  have hline : ∀ i < n, ∃ v, depthLine fit (((g.ny : ℝ) - 1) * stepY / k / stepY) sw k (colOf g (profileIndex g.nx n i)) = .ok v ∧
      (∀ z, some z ∈ v → z = |hi - lo|) ∧ some |hi - lo| ∈ v := by
    intro i hi
    have hr := (profileIndex_bound hn h.columns).2 hd i hi
    rw [hrow _ hr]
    obtain ⟨a, x0, y0, hf1, hf2⟩ := hfit (p0 ((List.range g.ny).map fun x : Nat => square lo _ m s x) (((g.ny : ℝ) - 1) * stepY / k / stepY))
    rw [h.rows] at hf1 ⊢
    exact square_depthLine hm hk hf1 hf2 hsw hsw'
  have hmap : ∃ ls, (List.range n).mapM (m := Except Err) (fun i => if g.nx ≤ profileIndex g.nx n i then .error .indexError
      else depthLine fit (((g.ny : ℝ) - 1) * stepY / k / stepY) sw k (colOf g (profileIndex g.nx n i))) = .ok ls := by
    apply mapM_exists
    intro i hi
    have hi := List.mem_range.1 hi
    have hr := (profileIndex_bound hn h.columns).2 hd i hi
    obtain ⟨v, hv, -⟩ := hline i hi
    exact ⟨v, by rw [if_neg (by omega), hv]⟩
  obtain ⟨ls, hls⟩ := hmap
  have hres : ∀ x ∈ measured ls.flatten, x = |hi - lo| := by
    intro x hx
    rw [mem_measured, List.mem_flatten] at hx
    obtain ⟨v, hv, hxv⟩ := hx
    obtain ⟨i, hi, e⟩ := mapM_ok_mem hls v hv
    have hi := List.mem_range.1 hi
    have hr := (profileIndex_bound hn h.columns).2 hd i hi
    obtain ⟨v', hv', h1, -⟩ := hline i hi
    rw [if_neg (by omega), hv', Except.ok.injEq] at e
    subst e
    exact h1 x hxv
  have hne : measured ls.flatten ≠ [] := by
    obtain ⟨v, hv, e⟩ := mapM_get hls (k := 0) (a := 0) (by rw [List.getElem?_range (by omega)])
    have hr := (profileIndex_bound hn h.columns).2 hd 0 (by omega)
    obtain ⟨v', hv', -, h2⟩ := hline 0 (by omega)
    rw [if_neg (by omega), hv', Except.ok.injEq] at e
    subst e
    apply List.ne_nil_of_mem (a := |hi - lo|)
    rw [mem_measured, List.mem_flatten]
    exact ⟨_, List.mem_of_getElem? hv, h2⟩
  unfold depth
  rw [if_neg hmiss]
  simp only [e1, e2, Except.bind]
  have hv : decide ((-45 : ℝ) < 90 ∧ (90 : ℝ) < 45) = false := by norm_num
  simp only [hv, Bool.false_eq_true, if_false]
  rw [if_neg (by omega), if_neg (by omega), hint, if_neg (not_lt.2 (by positivity))]
  simp only [Int.toNat_natCast]
  rw [hls]
  simp only [Except.map]
  rw [if_neg hne, mean_all hne hres, std_all hne hres]


example : ∃ (g : Grid (Option ℝ)) (fit : Fit), SquareGratingY g 1 4 3 2 1 ∧ g.nx = 31 ∧ ∀ p0, ∃ a x0 y0,
    fit ((List.range g.ny).map fun x : Nat => square 1 4 3 1 x) p0 = .ok (a, 2 * (3 : Nat), x0, y0) ∧ CrossesAt 3 1 x0 := by
  refine ⟨Grid.ofFn 12 31 fun i _ => some (square 1 4 3 1 i), fun _ _ => .ok (2, 6, 1 / 2, 5 / 2), ⟨ofFn_wf _ _ _, ?_, ?_, ?_, ?_, ?_, ?_⟩,
    ofFn_nx _ _ _, ?_⟩
  · rw [ofFn_nx]; norm_num
  · rw [ofFn_ny]
  · intro i hi j hj
    rw [ofFn_ny] at hi
    rw [ofFn_nx] at hj
    rw [get_ofFn _ hi hj]
  · norm_num
  · norm_num
  · norm_num
  · intro _
    refine ⟨2, 1 / 2, 5 / 2, by norm_num, 0, ?_, ?_⟩ <;> norm_num

end Surfalize.Props
