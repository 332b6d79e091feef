import Verif.Props.SquareGrating
import Mathlib.Tactic.IntervalCases

/-!
# C115 — the depth of a sinusoidal texture
-/
set_option linter.unusedSectionVars false
namespace Surfalize.Props
open Surfalize BaseOps Finset Container Spec Fourier Depth DepthSpec

/-- what the depth is the mean of -/
theorem depth_mem {argsort : List ℝ → List Nat} {fit : Fit} {g : Grid (Option ℝ)} {stepX stepY sw : ℝ}
    {n : Int} {m s : ℝ} (h : depth argsort fit g stepX stepY n sw = .ok (some m, some s)) :
    ∃ θ l, orientation argsort g (((g.nx : ℝ) - 1) * stepX) (((g.ny : ℝ) - 1) * stepY) = .ok θ ∧ l ≠ [] ∧ m = Surfalize.mean l ∧
      s = BaseOps.std l ∧ ∀ x ∈ l, ∃ r pp k v, r < (if -45 < θ ∧ θ < 45 then g.ny else g.nx) ∧
        depthLine fit pp sw k (if -45 < θ ∧ θ < 45 then rowOf g r else colOf g r) = .ok v ∧ some x ∈ v := by
  unfold depth at h
  split at h
  · simp at h
  rename_i hm
  have hf : none ∉ flat g := fun hn => hm ((HeightParams.mem_none_iff_hasMissing g).2 hn)
  dsimp only at h
  set W := ((g.nx : ℝ) - 1) * stepX
  set H := ((g.ny : ℝ) - 1) * stepY
  cases ho : orientation argsort g W H with
  | error e => rw [ho] at h; simp [Except.bind] at h
  | ok θ =>
  rw [ho] at h
  dsimp only [Except.bind] at h
  by_cases c1 : n > ((if decide (-45 < θ ∧ θ < 45) = true then g.ny else g.nx : Nat) : Int)
  · rw [if_pos c1] at h; simp at h
  rw [if_neg c1] at h
  cases hp : periodXY argsort g W H with
  | error e => rw [hp] at h; simp at h
  | ok pxy =>
  rw [hp] at h
  dsimp only at h
  generalize hpe : (if decide (-45 < θ ∧ θ < 45) = true then pxy.1 else pxy.2) = op at h
  cases op with
  | none => simp at h
  | some p =>
  dsimp only at h
  by_cases c2 : n = 1
  · rw [if_pos c2] at h; simp at h
  rw [if_neg c2] at h
  by_cases c3 : n * (((pyInt ((if decide (-45 < θ ∧ θ < 45) = true then W else H) / p)).toNat : Nat) : Int) < 0
  · rw [if_pos c3] at h; simp at h
  rw [if_neg c3] at h
  generalize hml : (List.range n.toNat).mapM (m := Except Err) _ = ml at h
  cases ml with
  | error e => simp [Except.map] at h
  | ok ls =>
  simp only [Except.map, Except.ok.injEq] at h
  split at h
  · simp at h
  rename_i hne
  simp only [Prod.mk.injEq, Option.some.injEq] at h
  obtain ⟨rfl, rfl⟩ := h
  refine ⟨θ, _, rfl, hne, rfl, rfl, ?_⟩
  intro x hx
  rw [mem_measured] at hx
  obtain ⟨l, hl, hxl⟩ := List.mem_flatten.1 hx
  obtain ⟨i, hi, hv⟩ := mapM_ok_mem hml l hl
  simp only [decide_eq_true_eq] at hv
  by_cases hlt : (if -45 < θ ∧ θ < 45 then g.ny else g.nx) ≤ profileIndex (if -45 < θ ∧ θ < 45 then g.ny else g.nx) n.toNat i
  · rw [if_pos hlt] at hv; simp at hv
  rw [if_neg hlt] at hv
  exact ⟨_, _, _, _, not_le.1 hlt, hv, hxl⟩

/-- The fit is exact: the curve `a·sin(2π(x-x0)/p) + y0` passes through every point of the profile. -/
def ExactFit (line : List ℝ) (a p x0 y0 : ℝ) : Prop :=
  ∀ x (hx : x < line.length), line[x] = a * Real.sin (2 * Real.pi * ((x : ℝ) - x0) / p) + y0

theorem median_range {l : List ℝ} (hne : l ≠ []) {a b : ℝ} (h : ∀ x ∈ l, a ≤ x ∧ x ≤ b) : a ≤ median l ∧ median l ≤ b :=
  ⟨median_ge hne fun x hx => (h x hx).1, Stepheight.median_le hne fun x hx => (h x hx).2⟩

theorem cos_ge {t r : ℝ} (h : |t| ≤ r) (hr : r ≤ Real.pi) : Real.cos r ≤ Real.cos t := by
  rw [← Real.cos_abs t]
  exact Real.cos_le_cos_of_nonneg_of_le_pi (abs_nonneg _) hr h

/-- the height found at an extremum of an exactly fitted profile -/
theorem wave_extremum {line : List ℝ} {a p x0 y0 : ℝ} (hp : 0 < p) (hfit : ExactFit line a p x0 y0) {sw : ℝ} (hsw : 0 ≤ sw)
    (hr : Real.pi * sw + 2 * Real.pi / p ≤ Real.pi) :
    ∃ q : Int, ∀ (j : Nat) z, extremumHeight (Sinusoid.ofPopt (a, p, x0, y0)) sw line j = some z →
      |a| * Real.cos (Real.pi * sw + 2 * Real.pi / p) ≤ (if ((j : Int) - q) % 2 = 0 then z - y0 else y0 - z) ∧
      (if ((j : Int) - q) % 2 = 0 then z - y0 else y0 - z) ≤ |a| := by
  obtain ⟨n1, n2, n3⟩ := C45_normalised a p x0 y0 hp.ne'
  have hy0 : (Sinusoid.ofPopt (a, p, x0, y0)).y0 = y0 := by unfold Sinusoid.ofPopt; dsimp only; split <;> rfl
  have hev : ∀ x, (Sinusoid.ofPopt (a, p, x0, y0)).eval x = |a| * Real.sin (2 * Real.pi * (x - (Sinusoid.ofPopt (a, p, x0, y0)).x0) / p) + y0 := by
    intro x
    unfold Sinusoid.Sinus.eval Sinusoid.sinusoid
    rw [n1, n2, hy0]
    congr 2
    congr 1
    ring
  generalize hSdef : Sinusoid.ofPopt (a, p, x0, y0) = S at *
  set f := S.firstExtremum with hf
  have hf0 : f = S.x0 + p / 4 - ⌊(S.x0 + p / 4) / (p / 2)⌋ * (p / 2) := by
    rw [hf]; unfold Sinusoid.Sinus.firstExtremum
    simp only [n2]
    ring
  have fnn : 0 ≤ f := by
    rw [hf0, sub_nonneg]
    have := Int.floor_le ((S.x0 + p / 4) / (p / 2))
    rwa [le_div_iff₀ (by positivity)] at this
  generalize ⌊(S.x0 + p / 4) / (p / 2)⌋ = q at hf0
  refine ⟨q, ?_⟩
  intro j z hz
  have hidx : S.firstExtremum + (j : ℝ) * (S.period / 2) = f + j * (p / 2) := by rw [n2]
  have hpos : 0 ≤ f + (j : ℝ) * (p / 2) := by positivity
  have hc : IsTrunc (S.firstExtremum + (j : ℝ) * (S.period / 2)) ⌊f + j * (p / 2)⌋ := by
    rw [hidx]
    exact ⟨fun _ => ⟨Int.floor_le _, Int.lt_floor_add_one _⟩, fun hneg => absurd hneg (not_lt.2 hpos)⟩
  have hms : 0 ≤ p * sw / 2 := by positivity
  have hw' : IsTrunc (S.period * sw / 2) ⌊p * sw / 2⌋ := by
    rw [n2]
    exact ⟨fun _ => ⟨Int.floor_le _, Int.lt_floor_add_one _⟩, fun hneg => absurd hneg (not_lt.2 hms)⟩
  rw [C78_window S sw _ j _ _ hc hw' (by rw [n2]; positivity)] at hz
  have c1 := Int.floor_le (f + j * (p / 2))
  have c2 := Int.lt_floor_add_one (f + j * (p / 2))
  have w1 := Int.floor_le (p * sw / 2)
  have w0 : 0 ≤ ⌊p * sw / 2⌋ := Int.floor_nonneg.2 hms
  generalize ⌊f + j * (p / 2)⌋ = c at *
  generalize ⌊p * sw / 2⌋ = w at *
  unfold windowAt at hz
  split at hz
  swap
  · simp at hz
  rename_i hin
  rw [Option.map_some, Option.some.injEq] at hz
  subst hz
  have hwin : ∀ y ∈ (List.range (2 * w + 1).toNat).map (fun t => line.getD ((c - w).toNat + t) 0),
      |a| * Real.cos (Real.pi * sw + 2 * Real.pi / p) ≤ (if ((j : Int) - q) % 2 = 0 then y - y0 else y0 - y) ∧
      (if ((j : Int) - q) % 2 = 0 then y - y0 else y0 - y) ≤ |a| := by
    intro y hy
    rw [List.mem_map] at hy
    obtain ⟨u, hu, rfl⟩ := hy
    rw [List.mem_range] at hu
    obtain ⟨x, hx⟩ : ∃ x : Nat, (c - w).toNat + u = x := ⟨_, rfl⟩
    have hxn : x < line.length := by omega
    have hx1 : c - w ≤ (x : Int) := by omega
    have hx2 : (x : Int) ≤ c + w := by omega
    have hx1' : (c : ℝ) - w ≤ x := by exact_mod_cast hx1
    have hx2' : (x : ℝ) ≤ c + w := by exact_mod_cast hx2
    rw [hx, getD_of_lt _ hxn, hfit x hxn, ← n3, hev]
    set d : ℝ := x - (f + j * (p / 2)) with hd
    have hdw : |d| ≤ p * sw / 2 + 1 := by rw [abs_le]; constructor <;> linarith
    have harg : 2 * Real.pi * ((x : ℝ) - S.x0) / p = 2 * Real.pi * d / p + Real.pi / 2 + (((j : Int) - q : Int) : ℝ) * Real.pi := by
      rw [hd, hf0]; push_cast; field_simp; ring
    have hcos : Real.cos (Real.pi * sw + 2 * Real.pi / p) ≤ Real.cos (2 * Real.pi * d / p) := by
      apply cos_ge _ hr
      rw [abs_div, abs_mul, abs_of_pos hp, abs_of_pos (by have := Real.pi_pos; positivity), div_le_iff₀ hp]
      have : (Real.pi * sw + 2 * Real.pi / p) * p = 2 * Real.pi * (p * sw / 2 + 1) := by field_simp
      rw [this]
      exact mul_le_mul_of_nonneg_left hdw (by have := Real.pi_pos; positivity)
    have hcos1 := Real.cos_le_one (2 * Real.pi * d / p)
    have ha := abs_nonneg a
    have hsin : Real.sin (2 * Real.pi * ((x : ℝ) - S.x0) / p) =
        if ((j : Int) - q) % 2 = 0 then Real.cos (2 * Real.pi * d / p) else -Real.cos (2 * Real.pi * d / p) := by
      rw [harg]
      have hr3 := Int.emod_add_mul_ediv ((j : Int) - q) 2
      have hr1 : ((j : Int) - q) % 2 = 0 ∨ ((j : Int) - q) % 2 = 1 := by omega
      generalize ((j : Int) - q) / 2 = e at hr3
      rcases hr1 with h0 | h0
      · rw [if_pos h0]
        rw [h0] at hr3
        rw [← hr3, show (((0 + 2 * e : Int)) : ℝ) * Real.pi = (e : ℝ) * (2 * Real.pi) by push_cast; ring, Real.sin_add_int_mul_two_pi,
          Real.sin_add_pi_div_two]
      · rw [if_neg (by omega)]
        rw [h0] at hr3
        rw [← hr3, show 2 * Real.pi * d / p + Real.pi / 2 + (((1 + 2 * e : Int)) : ℝ) * Real.pi
          = 2 * Real.pi * d / p + Real.pi / 2 + Real.pi + (e : ℝ) * (2 * Real.pi) by push_cast; ring, Real.sin_add_int_mul_two_pi,
          Real.sin_add_pi, Real.sin_add_pi_div_two]
    rw [hsin]
    have b1 := mul_le_mul_of_nonneg_left hcos ha
    have b2 := mul_le_mul_of_nonneg_left hcos1 ha
    split
    · constructor <;> linarith
    · constructor <;> linarith
  have hne : (List.range (2 * w + 1).toNat).map (fun t => line.getD ((c - w).toNat + t) 0) ≠ [] := by
    intro hnil
    have := congrArg List.length hnil
    simp at this
    omega
  by_cases hpar : ((j : Int) - q) % 2 = 0
  · simp only [if_pos hpar] at hwin ⊢
    have := median_range hne (a := |a| * Real.cos (Real.pi * sw + 2 * Real.pi / p) + y0) (b := |a| + y0) fun y hy =>
      ⟨by linarith [(hwin y hy).1], by linarith [(hwin y hy).2]⟩
    constructor <;> linarith [this.1, this.2]
  · simp only [if_neg hpar] at hwin ⊢
    have := median_range hne (a := y0 - |a|) (b := y0 - |a| * Real.cos (Real.pi * sw + 2 * Real.pi / p)) fun y hy =>
      ⟨by linarith [(hwin y hy).2], by linarith [(hwin y hy).1]⟩
    constructor <;> linarith [this.1, this.2]

/-- **C115** (depth of a sinusoidal texture). If every sampled profile is a sine wave of amplitude `A` and period `p` (in
points) and the fits find it, then the depth lies between `2A·cos(π·sampling_width + 2π/p)` and `2A`: for fine sampling and a
narrow window it is the peak-to-valley height `2A` of the wave, and it never exceeds it. -/
theorem C115_wave_depth {argsort : List ℝ → List Nat} {fit : Fit} {g : Grid (Option ℝ)} {stepX stepY sw : ℝ}
    {n : Int} {m s A p : ℝ} (hp : 0 < p) (hsw : 0 ≤ sw) (hr : Real.pi * sw + 2 * Real.pi / p ≤ Real.pi)
    (hfit : ∀ θ, orientation argsort g (((g.nx : ℝ) - 1) * stepX) (((g.ny : ℝ) - 1) * stepY) = .ok θ →
      ∀ line, (if -45 < θ ∧ θ < 45 then ∃ r < g.ny, line = rowOf g r else ∃ r < g.nx, line = colOf g r) →
      ∀ p0, ∃ a x0 y0, fit line p0 = .ok (a, p, x0, y0) ∧ |a| = A ∧ ExactFit line a p x0 y0)
    (h : depth argsort fit g stepX stepY n sw = .ok (some m, some s)) :
    2 * A * Real.cos (Real.pi * sw + 2 * Real.pi / p) ≤ m ∧ m ≤ 2 * A := by
  obtain ⟨θ, l, hθ, hne, rfl, rfl, hl⟩ := depth_mem h
  have key : ∀ x ∈ l, 2 * A * Real.cos (Real.pi * sw + 2 * Real.pi / p) ≤ x ∧ x ≤ 2 * A := by
    intro x hx
    obtain ⟨r, pp, k, v, hr', hv, hxv⟩ := hl x hx
    obtain ⟨a, x0, y0, hf, ha, hex⟩ := hfit θ hθ (if -45 < θ ∧ θ < 45 then rowOf g r else colOf g r) (by
      by_cases hc : -45 < θ ∧ θ < 45
      · simp only [if_pos hc] at hr' ⊢; exact ⟨r, hr', rfl⟩
      · simp only [if_neg hc] at hr' ⊢; exact ⟨r, hr', rfl⟩)
      (p0 (if -45 < θ ∧ θ < 45 then rowOf g r else colOf g r) pp)
    obtain ⟨-, popt, hpo, S, rfl, hS⟩ := C78_interval hv
    rw [hf, Except.ok.injEq] at hpo
    subst hpo
    obtain ⟨j, hj, hjv⟩ := List.mem_iff_getElem.1 hxv
    have hjn : j < k := by rw [← (C78_interval hv).1]; exact hj
    obtain ⟨z0, z1, e0, e1, rfl⟩ := (hS j hjn x).1 (by rw [List.getElem?_eq_getElem hj, hjv])
    obtain ⟨q, hq⟩ := wave_extremum hp hex hsw hr
    have b0 := hq _ _ e0
    have b1 := hq _ _ e1
    rw [ha] at b0 b1
    have hA : 0 ≤ A := by rw [← ha]; exact abs_nonneg _
    have hpar : (((2 * j : Nat) : Int) - q) % 2 = 0 ∧ ¬ (((2 * j + 1 : Nat) : Int) - q) % 2 = 0 ∨
        ¬ (((2 * j : Nat) : Int) - q) % 2 = 0 ∧ (((2 * j + 1 : Nat) : Int) - q) % 2 = 0 := by omega
    have hAC : -A ≤ A * Real.cos (Real.pi * sw + 2 * Real.pi / p) := by
      have := mul_le_mul_of_nonneg_left (Real.neg_one_le_cos (Real.pi * sw + 2 * Real.pi / p)) hA
      linarith
    generalize Real.cos (Real.pi * sw + 2 * Real.pi / p) = C at b0 b1 hAC ⊢
    rcases hpar with ⟨p1, p2⟩ | ⟨p1, p2⟩
    · rw [if_pos p1] at b0
      rw [if_neg p2] at b1
      exact ⟨le_trans (by linarith [b0.1, b1.1]) (le_abs_self _), abs_le.2 ⟨by linarith [b0.1, b1.1, b0.2, b1.2], by linarith [b0.1, b1.1, b0.2, b1.2]⟩⟩
    · rw [if_neg p1] at b0
      rw [if_pos p2] at b1
      exact ⟨le_trans (by linarith [b0.1, b1.1]) (neg_le_abs _), abs_le.2 ⟨by linarith [b0.1, b1.1, b0.2, b1.2], by linarith [b0.1, b1.1, b0.2, b1.2]⟩⟩
  exact ⟨HeightParams.le_mean hne fun x hx => (key x hx).1, HeightParams.mean_le hne fun x hx => (key x hx).2⟩

/-- The hypotheses are met: the heights 3, 3, 1, 1, … are a sine wave of amplitude √2 and period 4. -/
example : ∃ (argsort : List ℝ → List Nat) (fit : Fit) (g : Grid (Option ℝ)),
    (∀ θ, orientation argsort g (((g.nx : ℝ) - 1) * 1) (((g.ny : ℝ) - 1) * 1) = .ok θ →
      ∀ line, (if -45 < θ ∧ θ < 45 then ∃ r < g.ny, line = rowOf g r else ∃ r < g.nx, line = colOf g r) →
      ∀ p0, ∃ a x0 y0, fit line p0 = .ok (a, 4, x0, y0) ∧ |a| = Real.sqrt 2 ∧ ExactFit line a 4 x0 y0) ∧
    Real.pi * (1 / 5) + 2 * Real.pi / 4 ≤ Real.pi ∧ depth argsort fit g 1 1 3 (1 / 5) = .ok (some 2, some 0) := by
  obtain ⟨argsort, hs⟩ := C43_argsort_exists
  let g : Grid (Option ℝ) := Grid.ofFn 3 8 fun _ j => some (square 1 3 2 0 j)
  let fit : Fit := fun _ _ => .ok (Real.sqrt 2, 4, -(1 / 2), 2)
  have ny3 : g.ny = 3 := ofFn_ny _ _ _
  have nx8 : g.nx = 8 := ofFn_nx _ _ _
  have hg : SquareGrating g 1 3 2 2 0 := by
    refine ⟨ofFn_wf _ _ _, by omega, by omega, ?_, by norm_num, le_rfl, by norm_num⟩
    intro i hi j hj
    rw [ny3] at hi
    rw [nx8] at hj
    exact get_ofFn _ hi hj
  refine ⟨argsort, fit, g, ?_, by linarith [Real.pi_pos], ?_⟩
  · intro θ hθ line hline p0
    have h0 := (C115_square_period hs hg (W := ((g.nx : ℝ) - 1) * 1) (H := ((g.ny : ℝ) - 1) * 1) (by rw [nx8]; norm_num)
      (by rw [ny3]; norm_num)).2.2.2
    rw [hθ, Except.ok.injEq] at h0
    rw [h0, if_pos (by norm_num)] at hline
    obtain ⟨r, hr, rfl⟩ := hline
    refine ⟨Real.sqrt 2, -(1 / 2), 2, rfl, abs_of_nonneg (Real.sqrt_nonneg 2), ?_⟩
    intro x hx
    have hxn : x < g.nx := by simpa [rowOf] using hx
    have hrow : (rowOf g r)[x]'hx = square 1 3 2 0 x := by
      simp only [rowOf, List.getElem_map, List.getElem_range]
      rw [Grid.val, hg.heights r hr x hxn]
      rfl
    have hx8 : x < 8 := by omega
    have hq : Real.sqrt 2 * (Real.sqrt 2 / 2) = 1 := by
      have := Real.mul_self_sqrt (show (0 : ℝ) ≤ 2 by norm_num)
      linarith
    have s0 : Real.sin (Real.pi / 4) = Real.sqrt 2 / 2 := Real.sin_pi_div_four
    have s1 : Real.sin (Real.pi / 4 + Real.pi / 2) = Real.sqrt 2 / 2 := by rw [Real.sin_add_pi_div_two, Real.cos_pi_div_four]
    have harg : 2 * Real.pi * ((x : ℝ) - -(1 / 2)) / 4 = Real.pi / 4 + x * (Real.pi / 2) := by ring
    rw [hrow, harg]
    unfold square
    clear hrow harg hx hxn
    interval_cases x
    · rw [show Real.pi / 4 + ((0 : Nat) : ℝ) * (Real.pi / 2) = Real.pi / 4 by norm_num, s0, hq]; norm_num
    · rw [show Real.pi / 4 + ((1 : Nat) : ℝ) * (Real.pi / 2) = Real.pi / 4 + Real.pi / 2 by norm_num, s1, hq]; norm_num
    · rw [show Real.pi / 4 + ((2 : Nat) : ℝ) * (Real.pi / 2) = Real.pi / 4 + Real.pi by push_cast; ring, Real.sin_add_pi, s0, mul_neg, hq]
      norm_num
    · rw [show Real.pi / 4 + ((3 : Nat) : ℝ) * (Real.pi / 2) = Real.pi / 4 + Real.pi / 2 + Real.pi by push_cast; ring, Real.sin_add_pi,
        s1, mul_neg, hq]
      norm_num
    · rw [show Real.pi / 4 + ((4 : Nat) : ℝ) * (Real.pi / 2) = Real.pi / 4 + 2 * Real.pi by push_cast; ring, Real.sin_add_two_pi, s0, hq]
      norm_num
    · rw [show Real.pi / 4 + ((5 : Nat) : ℝ) * (Real.pi / 2) = Real.pi / 4 + Real.pi / 2 + 2 * Real.pi by push_cast; ring,
        Real.sin_add_two_pi, s1, hq]
      norm_num
    · rw [show Real.pi / 4 + ((6 : Nat) : ℝ) * (Real.pi / 2) = Real.pi / 4 + Real.pi + 2 * Real.pi by push_cast; ring,
        Real.sin_add_two_pi, Real.sin_add_pi, s0, mul_neg, hq]
      norm_num
    · rw [show Real.pi / 4 + ((7 : Nat) : ℝ) * (Real.pi / 2) = Real.pi / 4 + Real.pi / 2 + Real.pi + 2 * Real.pi by push_cast; ring,
        Real.sin_add_two_pi, Real.sin_add_pi, s1, mul_neg, hq]
      norm_num
  · have := C115_square_depth hs hg le_rfl (by omega) (stepX := 1) (stepY := 1) one_pos one_pos (fit := fit)
      (fun _ => ⟨Real.sqrt 2, -(1 / 2), 2, by norm_num [fit], 0, by norm_num, by norm_num⟩) (sw := 1 / 5) (by norm_num) (by norm_num)
      (n := 3) (by norm_num) (by omega) (by rw [ny3]; norm_num)
    norm_num at this
    exact this

end Surfalize.Props
