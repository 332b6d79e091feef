import Verif.Lemmas.Gauss
import Mathlib.Analysis.SpecialFunctions.Gaussian.PoissonSummation
import Mathlib.Analysis.Complex.ExponentialBounds
import Mathlib.Analysis.Real.Pi.Bounds
import Mathlib.Analysis.SpecialFunctions.Trigonometric.DerivHyp
import Mathlib.Algebra.BigOperators.Group.Finset.Interval
/-!
# What the sampled, truncated Gaussian kernel lets pass of a wave
-/
set_option linter.unusedSectionVars false
namespace Surfalize.Gauss
open Surfalize Finset

/-! ## Sums dominated by a geometric series -/

theorem geo_summable {f : ℕ → ℝ} {C y : ℝ} (h0 : 0 ≤ y) (h1 : y < 1) (h : ∀ k, |f k| ≤ C * y ^ k) : Summable f :=
  Summable.of_norm_bounded ((summable_geometric_of_lt_one h0 h1).mul_left C) h

theorem geo_tsum {f : ℕ → ℝ} {C y : ℝ} (h0 : 0 ≤ y) (h1 : y < 1) (h : ∀ k, |f k| ≤ C * y ^ k) :
    |∑' k, f k| ≤ C / (1 - y) := by
  have hs := (summable_geometric_of_lt_one h0 h1).mul_left C
  have : ‖∑' k, f k‖ ≤ ∑' k, C * y ^ k := tsum_of_norm_bounded (f := f) hs.hasSum h
  rwa [tsum_mul_left, tsum_geometric_of_lt_one h0 h1, ← div_eq_mul_inv] at this

/-! ## The infinite kernel -/

theorem exp_neg_lt_one {x : ℝ} (h : 0 < x) : Real.exp (-x) < 1 := by rw [Real.exp_lt_one_iff]; linarith

theorem phi_le_geo {σ : ℝ} (hσ : 0 < σ) (k : ℕ) : phi σ ((k : Int) + 1) ≤ 1 * Real.exp (-(1 / (2 * σ ^ 2))) ^ k := by
  unfold phi
  rw [one_mul, ← Real.exp_nat_mul]
  refine Real.exp_le_exp.2 ?_
  have h2 : 0 < 1 / (2 * σ ^ 2) := by positivity
  have e : -(1 / 2) / (σ * σ) * (((k : Int) + 1 : Int) : ℝ) ^ 2 = -(1 / (2 * σ ^ 2)) * ((k : ℝ) + 1) ^ 2 := by
    push_cast; field_simp
  rw [e]
  have h0 : (0 : ℝ) ≤ k := Nat.cast_nonneg k
  have : (k : ℝ) ≤ ((k : ℝ) + 1) ^ 2 := by nlinarith
  nlinarith

/-- A summand of the (infinite) kernel with a wave of `θ` waves per point. -/
noncomputable def term (σ θ : ℝ) (m : Int) : ℝ := phi σ m * Real.cos (2 * Real.pi * θ * m)

theorem term_even (σ θ : ℝ) : Function.Even (term σ θ) := by
  intro m
  unfold term
  rw [phi_neg]
  push_cast
  rw [show 2 * Real.pi * θ * (-(m : ℝ)) = -(2 * Real.pi * θ * m) by ring, Real.cos_neg]

theorem term_abs (σ θ : ℝ) (m : Int) : |term σ θ m| ≤ phi σ m := by
  unfold term
  rw [abs_mul, abs_of_pos (phi_pos σ m)]
  exact mul_le_of_le_one_right (phi_pos σ m).le (Real.abs_cos_le_one _)

theorem phi_summable {σ : ℝ} (hσ : 0 < σ) : Summable (phi σ) := by
  have h2 : 0 < 1 / (2 * σ ^ 2) := by positivity
  have key : Summable fun k : ℕ => phi σ ((k : Int) + 1) :=
    geo_summable (Real.exp_pos _).le (exp_neg_lt_one h2) fun k => by rw [abs_of_pos (phi_pos _ _)]; exact phi_le_geo hσ k
  exact Summable.of_add_one_of_neg_add_one key (by simpa only [phi_neg] using key)

theorem term_summable {σ : ℝ} (hσ : 0 < σ) (θ : ℝ) : Summable (term σ θ) :=
  Summable.of_norm_bounded (phi_summable hσ) (term_abs σ θ)

/-- Poisson summation: the wave seen by the sampled kernel is the wave seen by the continuous one with all its aliases. -/
theorem poisson {σ : ℝ} (hσ : 0 < σ) (θ : ℝ) :
    ∑' m : Int, term σ θ m
      = σ * Real.sqrt (2 * Real.pi) * ∑' n : Int, Real.exp (-(2 * Real.pi ^ 2 * σ ^ 2 * ((n : ℝ) + θ) ^ 2)) := by
  have hp := Real.pi_pos
  set a : ℝ := 1 / (2 * Real.pi * σ ^ 2) with ha
  have hapos : 0 < a := by positivity
  have P := Complex.tsum_exp_neg_quadratic (a := (a : ℂ)) (by simpa using hapos) (-(Complex.I * θ))
  have e1 : ∀ m : Int, (Complex.exp (-Real.pi * a * m ^ 2 + 2 * Real.pi * (-(Complex.I * θ)) * m)).re = term σ θ m := by
    intro m
    have : (-Real.pi * a * m ^ 2 + 2 * Real.pi * (-(Complex.I * θ)) * m : ℂ)
        = ((-(1 / 2) / (σ * σ) * (m : ℝ) ^ 2 : ℝ) : ℂ) + ((-(2 * Real.pi * θ * m) : ℝ) : ℂ) * Complex.I := by
      rw [ha]; push_cast
      have : (Real.pi : ℂ) ≠ 0 := by exact_mod_cast hp.ne'
      have : (σ : ℂ) ≠ 0 := by exact_mod_cast hσ.ne'
      field_simp
    rw [this, Complex.exp_add, ← Complex.ofReal_exp, Complex.re_ofReal_mul, Complex.exp_ofReal_mul_I_re, Real.cos_neg]
    rfl
  have e2 : ∀ n : Int, Complex.exp (-Real.pi / a * (n + Complex.I * (-(Complex.I * θ))) ^ 2)
      = ((Real.exp (-(2 * Real.pi ^ 2 * σ ^ 2 * ((n : ℝ) + θ) ^ 2)) : ℝ) : ℂ) := by
    intro n
    rw [Complex.ofReal_exp]
    congr 1
    rw [ha]; push_cast
    have : (Real.pi : ℂ) ≠ 0 := by exact_mod_cast hp.ne'
    have : (σ : ℂ) ≠ 0 := by exact_mod_cast hσ.ne'
    have i2 : Complex.I * -(Complex.I * (θ : ℂ)) = θ := by rw [mul_neg, ← mul_assoc, Complex.I_mul_I]; ring
    rw [i2]
    field_simp
  have e3 : (1 / (a : ℂ) ^ (1 / 2 : ℂ)) = ((σ * Real.sqrt (2 * Real.pi) : ℝ) : ℂ) := by
    have : (a : ℂ) ^ (1 / 2 : ℂ) = ((a ^ (1 / 2 : ℝ) : ℝ) : ℂ) := by
      rw [Complex.ofReal_cpow hapos.le]; norm_num
    rw [this, ← Real.sqrt_eq_rpow]
    have : Real.sqrt a = 1 / (σ * Real.sqrt (2 * Real.pi)) := by
      rw [ha, show 1 / (2 * Real.pi * σ ^ 2) = (1 / (σ * Real.sqrt (2 * Real.pi))) ^ 2 by
        rw [div_pow, mul_pow, Real.sq_sqrt (by positivity)]; ring]
      exact Real.sqrt_sq (by positivity)
    rw [this, ← Complex.ofReal_one, ← Complex.ofReal_div]
    congr 1
    have : Real.sqrt (2 * Real.pi) ≠ 0 := by positivity
    field_simp
  simp_rw [e2] at P
  rw [e3, ← Complex.ofReal_tsum, ← Complex.ofReal_mul] at P
  have P' := congrArg Complex.re P
  rw [Complex.ofReal_re, Complex.re_tsum] at P'
  · simp_rw [e1] at P'
    exact P'
  · refine Summable.of_norm_bounded (phi_summable hσ) fun m => ?_
    rw [Complex.norm_exp]
    unfold phi
    refine Real.exp_le_exp.2 (le_of_eq ?_)
    have : (-Real.pi * a * m ^ 2 + 2 * Real.pi * (-(Complex.I * θ)) * m : ℂ)
        = ((-(1 / 2) / (σ * σ) * (m : ℝ) ^ 2 : ℝ) : ℂ) + ((-(2 * Real.pi * θ * m) : ℝ) : ℂ) * Complex.I := by
      rw [ha]; push_cast
      have : (Real.pi : ℂ) ≠ 0 := by exact_mod_cast hp.ne'
      have : (σ : ℂ) ≠ 0 := by exact_mod_cast hσ.ne'
      field_simp
    rw [this, Complex.add_re, Complex.ofReal_re, Complex.re_ofReal_mul, Complex.I_re, mul_zero, add_zero]

theorem alias_term {β θ : ℝ} (hβ : 0 < β) (h0 : 0 ≤ θ) (h1 : θ ≤ 1 / 2) (k : ℕ) :
    Real.exp (-(β * ((((k : Int) + 1 : Int) : ℝ) + θ) ^ 2)) ≤ Real.exp (-(β * (1 - θ) ^ 2)) * Real.exp (-(2 * β)) ^ k ∧
    Real.exp (-(β * (((-((k : Int) + 1) : Int) : ℝ) + θ) ^ 2)) ≤ Real.exp (-(β * (1 - θ) ^ 2)) * Real.exp (-(2 * β)) ^ k := by
  rw [← Real.exp_nat_mul, ← Real.exp_add]
  have hk : (0 : ℝ) ≤ k := Nat.cast_nonneg k
  have hkk : (k : ℝ) ≤ (k : ℝ) ^ 2 := by
    rcases Nat.eq_zero_or_pos k with rfl | h
    · simp
    · have : (1 : ℝ) ≤ k := by exact_mod_cast h
      nlinarith
  have e1 : (1 - θ) ^ 2 + 2 * k ≤ ((k : ℝ) + 1 - θ) ^ 2 := by nlinarith
  have e2 : (1 - θ) ^ 2 + 2 * k ≤ ((k : ℝ) + 1 + θ) ^ 2 := by nlinarith
  constructor
  · refine Real.exp_le_exp.2 ?_
    push_cast
    nlinarith
  · refine Real.exp_le_exp.2 ?_
    push_cast
    have : (-1 + -(k : ℝ) + θ) ^ 2 = ((k : ℝ) + 1 - θ) ^ 2 := by ring
    have : (-((k : ℝ) + 1) + θ) ^ 2 = ((k : ℝ) + 1 - θ) ^ 2 := by ring
    nlinarith

/-- The aliases of a wave of at most half a wave per point. -/
theorem alias_sum {β θ : ℝ} (hβ : Real.log 2 ≤ β) (h0 : 0 ≤ θ) (h1 : θ ≤ 1 / 2) :
    Real.exp (-(β * θ ^ 2)) ≤ ∑' n : Int, Real.exp (-(β * ((n : ℝ) + θ) ^ 2)) ∧
    ∑' n : Int, Real.exp (-(β * ((n : ℝ) + θ) ^ 2)) ≤ Real.exp (-(β * θ ^ 2)) + 3 * Real.exp (-(β * (1 - θ) ^ 2)) := by
  have hl := Real.log_pos one_lt_two
  have hβ0 : 0 < β := by linarith
  have hy : Real.exp (-(2 * β)) ≤ 1 / 4 := by
    have : Real.exp (-(2 * β)) ≤ Real.exp (-(2 * Real.log 2)) := Real.exp_le_exp.2 (by linarith)
    refine this.trans (le_of_eq ?_)
    rw [show -(2 * Real.log 2) = Real.log ((2 : ℝ) ^ 2)⁻¹ by rw [Real.log_inv, Real.log_pow]; push_cast; ring,
      Real.exp_log (by norm_num)]
    norm_num
  have hy0 := (Real.exp_pos (-(2 * β))).le
  have hy1 : Real.exp (-(2 * β)) < 1 := by linarith
  set C := Real.exp (-(β * (1 - θ) ^ 2)) with hC
  have hCpos : 0 < C := Real.exp_pos _
  set f : Int → ℝ := fun n => Real.exp (-(β * ((n : ℝ) + θ) ^ 2)) with hf
  have b1 : ∀ k : ℕ, |f ((k : Int) + 1)| ≤ C * Real.exp (-(2 * β)) ^ k := fun k => by
    rw [abs_of_pos (Real.exp_pos _)]; exact (alias_term hβ0 h0 h1 k).1
  have b2 : ∀ k : ℕ, |f (-((k : Int) + 1))| ≤ C * Real.exp (-(2 * β)) ^ k := fun k => by
    rw [abs_of_pos (Real.exp_pos _)]; exact (alias_term hβ0 h0 h1 k).2
  have e := tsum_of_add_one_of_neg_add_one (f := f) (geo_summable hy0 hy1 b1) (geo_summable hy0 hy1 b2)
  have t1 := geo_tsum hy0 hy1 b1
  have t2 := geo_tsum hy0 hy1 b2
  have n1 : 0 ≤ ∑' k : ℕ, f ((k : Int) + 1) := tsum_nonneg fun _ => (Real.exp_pos _).le
  have n2 : 0 ≤ ∑' k : ℕ, f (-((k : Int) + 1)) := tsum_nonneg fun _ => (Real.exp_pos _).le
  have f0 : f 0 = Real.exp (-(β * θ ^ 2)) := by simp [hf]
  have hC3 : C / (1 - Real.exp (-(2 * β))) ≤ 3 / 2 * C := by
    rw [div_le_iff₀ (by linarith)]
    nlinarith
  have a1 := le_abs_self (∑' k : ℕ, f ((k : Int) + 1))
  have a2 := le_abs_self (∑' k : ℕ, f (-((k : Int) + 1)))
  rw [e, f0]
  constructor <;> linarith

theorem even_tail {f : Int → ℝ} (he : Function.Even f) (hs : Summable f) (R : Nat) :
    ∑' m, f m = ∑ m ∈ Icc (-(R : Int)) R, f m + 2 * ∑' k : ℕ, f ((R : Int) + 1 + k) := by
  have h1 : Summable fun k : ℕ => f ((k : Int) + 1) :=
    hs.comp_injective (i := fun k : ℕ => (k : Int) + 1) fun a b h => by
      have : (a : Int) + 1 = b + 1 := h
      omega
  have h2 : Summable fun k : ℕ => f (-((k : Int) + 1)) := by simpa only [he _] using h1
  rw [tsum_of_add_one_of_neg_add_one h1 h2, sum_Icc_of_even_eq_range he]
  simp only [he _]
  have e := h1.sum_add_tsum_nat_add R
  rw [sum_range_succ' (fun m : ℕ => f (m : Int))]
  have e' : ∑' k : ℕ, f ((R : Int) + 1 + k) = ∑' k : ℕ, f (((k + R : ℕ) : Int) + 1) :=
    tsum_congr fun k => by congr 1; push_cast; ring
  rw [e', ← e]
  push_cast
  simp only [two_smul]
  ring

theorem tail_bound {σ : ℝ} (hσ : 0 < σ) {f : Int → ℝ} (h : ∀ m, |f m| ≤ phi σ m) :
    |∑' k : ℕ, f ((radius σ : Int) + 1 + k)| ≤ σ / 10000 := by
  set u := 2 / σ with hu
  have hu0 : 0 < u := by positivity
  have hr : 4 * σ + 1 / 2 < (radius σ : ℝ) + 1 := Nat.lt_floor_add_one _
  have key : ∀ k : ℕ, |f ((radius σ : Int) + 1 + k)| ≤ (Real.exp (-8) * Real.exp (-u)) * Real.exp (-(2 * u)) ^ k := by
    intro k
    refine (h _).trans ?_
    unfold phi
    rw [← Real.exp_nat_mul, ← Real.exp_add, ← Real.exp_add]
    refine Real.exp_le_exp.2 ?_
    have hk : (0 : ℝ) ≤ k := Nat.cast_nonneg k
    push_cast
    have hx : 4 * σ + (1 / 2 + k) ≤ (radius σ : ℝ) + 1 + k := by linarith
    have hsq : 16 * σ ^ 2 + 8 * σ * (1 / 2 + k) ≤ ((radius σ : ℝ) + 1 + k) ^ 2 := by nlinarith
    have e : -8 + -u + (k : ℝ) * -(2 * u) = -(1 / 2) / (σ * σ) * (16 * σ ^ 2 + 8 * σ * (1 / 2 + k)) := by
      rw [hu]; field_simp; ring
    rw [e]
    have hneg : -(1 / 2) / (σ * σ) ≤ 0 := by
      rw [neg_div]; exact neg_nonpos.2 (by positivity)
    exact mul_le_mul_of_nonpos_left hsq hneg
  have t := geo_tsum (Real.exp_pos _).le (exp_neg_lt_one (by linarith : 0 < 2 * u)) key
  refine t.trans ?_
  have hd : 0 < 1 - Real.exp (-(2 * u)) := by have := exp_neg_lt_one (by linarith : 0 < 2 * u); linarith
  rw [div_le_iff₀ hd]
  -- 1 - e^{-2u} = e^{-u} (e^u - e^{-u}) ≥ e^{-u} 2 u
  have hsinh : u ≤ Real.sinh u := Real.self_le_sinh_iff.2 hu0.le
  rw [Real.sinh_eq] at hsinh
  have e1 : 1 - Real.exp (-(2 * u)) = Real.exp (-u) * (Real.exp u - Real.exp (-u)) := by
    rw [mul_sub, ← Real.exp_add, ← Real.exp_add]
    simp; ring_nf
  have e8 : Real.exp (-8) ≤ 4 / 10000 := by
    have h1 : (2.7 : ℝ) ≤ Real.exp 1 := by have := Real.exp_one_gt_d9; linarith
    have h8 : Real.exp 8 = Real.exp 1 ^ 8 := by rw [← Real.exp_nat_mul]; norm_num
    have : (2500 : ℝ) ≤ Real.exp 8 := by
      rw [h8]
      calc (2500 : ℝ) ≤ 2.7 ^ 8 := by norm_num
        _ ≤ Real.exp 1 ^ 8 := pow_le_pow_left₀ (by norm_num) h1 8
    rw [Real.exp_neg, inv_le_comm₀ (Real.exp_pos _) (by norm_num)]
    linarith
  rw [e1]
  have hpu := Real.exp_pos (-u)
  have : 2 * u ≤ Real.exp u - Real.exp (-u) := by linarith
  have hσu : σ * u = 2 := by rw [hu]; field_simp
  calc Real.exp (-8) * Real.exp (-u) ≤ 4 / 10000 * Real.exp (-u) := by nlinarith
    _ = σ / 10000 * (Real.exp (-u) * (2 * u)) := by
        have : σ / 10000 * (Real.exp (-u) * (2 * u)) = (σ * u) * 2 / 10000 * Real.exp (-u) := by ring
        rw [this, hσu]; ring
    _ ≤ σ / 10000 * (Real.exp (-u) * (Real.exp u - Real.exp (-u))) := by
        refine mul_le_mul_of_nonneg_left (mul_le_mul_of_nonneg_left this hpu.le) (by positivity)

/-- What the truncated and normalised kernel lets pass of a wave of `θ` waves per point. -/
noncomputable def gain (σ θ : ℝ) : ℝ := ∑ m ∈ Icc (-(radius σ : Int)) (radius σ), weight σ m * Real.cos (2 * Real.pi * θ * m)

theorem gain_le_one (σ θ : ℝ) : gain σ θ ≤ 1 := by
  rw [← weight_sum σ]
  exact sum_le_sum fun m _ => mul_le_of_le_one_right (weight_pos σ m).le (Real.cos_le_one _)

theorem ratio_near {K X Y g q FA FS : ℝ} (hK : 0 < K) (hg : 0 < g) (g1 : g ≤ 1) (hq : 0 < q) (A1 : g ≤ X) (A2 : X ≤ g + 3 * q)
    (S1 : 1 ≤ Y) (S2 : Y ≤ 1 + 3 * q) (ha : K * X - K / 10000 ≤ FA) (ha' : FA ≤ K * X + K / 10000)
    (hs : K * Y - K / 10000 ≤ FS) (hs' : FS ≤ K * Y + K / 10000) :
    g - (3 * q + 1 / 5000) ≤ FA / FS ∧ (g + (3 * q + 1 / 5000) < 1 → FA / FS ≤ g + (3 * q + 1 / 5000)) := by
  have XK1 : K * X ≤ K * (g + 3 * q) := mul_le_mul_of_nonneg_left A2 hK.le
  have XK2 : K * g ≤ K * X := mul_le_mul_of_nonneg_left A1 hK.le
  have YK1 : K * 1 ≤ K * Y := mul_le_mul_of_nonneg_left S1 hK.le
  have YK2 : K * Y ≤ K * (1 + 3 * q) := mul_le_mul_of_nonneg_left S2 hK.le
  have hl : K * (1 - 1 / 10000) ≤ FS := by linarith
  have hu : FS ≤ K * (1 + 3 * q + 1 / 10000) := by linarith
  have hal : K * (g - 1 / 10000) ≤ FA := by linarith
  have hau : FA ≤ K * (g + 3 * q + 1 / 10000) := by linarith
  clear ha ha' hs hs' XK1 XK2 YK1 YK2 A1 A2 S1 S2
  have FSpos : 0 < FS := by linarith
  constructor
  · rw [le_div_iff₀ FSpos]
    rcases le_or_gt 0 (g - (3 * q + 1 / 5000)) with hd | hd
    · have e1 := mul_le_mul_of_nonneg_left hu hd
      have e2 : (g - (3 * q + 1 / 5000)) * (1 + 3 * q + 1 / 10000) ≤ g - 1 / 10000 := by
        have := mul_le_mul_of_nonneg_right g1 (by linarith : 0 ≤ 3 * q + 1 / 10000)
        have : 0 ≤ (3 * q + 1 / 5000) * (3 * q + 1 / 10000) := by positivity
        nlinarith
      have e3 := mul_le_mul_of_nonneg_left e2 hK.le
      calc _ ≤ _ := e1
        _ = K * ((g - (3 * q + 1 / 5000)) * (1 + 3 * q + 1 / 10000)) := by ring
        _ ≤ _ := e3
        _ ≤ _ := hal
    · have e1 := mul_le_mul_of_nonpos_left hl hd.le
      have e2 : (g - (3 * q + 1 / 5000)) * (1 - 1 / 10000) ≤ g - 1 / 10000 := by linarith
      have e3 := mul_le_mul_of_nonneg_left e2 hK.le
      calc _ ≤ _ := e1
        _ = K * ((g - (3 * q + 1 / 5000)) * (1 - 1 / 10000)) := by ring
        _ ≤ _ := e3
        _ ≤ _ := hal
  · intro hd
    rw [div_le_iff₀ FSpos]
    have e1 := mul_le_mul_of_nonneg_left hl (by linarith : 0 ≤ g + (3 * q + 1 / 5000))
    have e2 : g + 3 * q + 1 / 10000 ≤ (g + (3 * q + 1 / 5000)) * (1 - 1 / 10000) := by linarith
    have e3 := mul_le_mul_of_nonneg_left e2 hK.le
    calc _ ≤ _ := hau
      _ ≤ _ := e3
      _ = (g + (3 * q + 1 / 5000)) * (K * (1 - 1 / 10000)) := by ring
      _ ≤ _ := e1

theorem gain_near {σ θ : ℝ} (hσ : 0 < σ) (hβ : Real.log 2 ≤ 2 * Real.pi ^ 2 * σ ^ 2) (h0 : 0 ≤ θ) (h1 : θ ≤ 1 / 2) :
    |gain σ θ - Real.exp (-(2 * Real.pi ^ 2 * σ ^ 2 * θ ^ 2))|
      ≤ 3 * Real.exp (-(2 * Real.pi ^ 2 * σ ^ 2 * (1 - θ) ^ 2)) + 1 / 5000 := by
  set β := 2 * Real.pi ^ 2 * σ ^ 2 with hβd
  have hβ0 : 0 < β := lt_of_lt_of_le (Real.log_pos one_lt_two) hβ
  set K := σ * Real.sqrt (2 * Real.pi) with hK
  have hK2 : 2 * σ ≤ K := by
    have : 2 ≤ Real.sqrt (2 * Real.pi) := Real.le_sqrt_of_sq_le (by have := Real.pi_gt_three; nlinarith)
    rw [hK]; nlinarith
  have hKpos : 0 < K := by linarith
  -- the infinite sums
  have pA := poisson hσ θ
  have pS := poisson hσ 0
  obtain ⟨A1, A2⟩ := alias_sum hβ h0 h1
  obtain ⟨S1, S2⟩ := alias_sum hβ le_rfl (by norm_num : (0 : ℝ) ≤ 1 / 2)
  set X := ∑' n : Int, Real.exp (-(β * ((n : ℝ) + θ) ^ 2)) with hX
  set Y := ∑' n : Int, Real.exp (-(β * ((n : ℝ) + 0) ^ 2)) with hY
  set g := Real.exp (-(β * θ ^ 2)) with hg
  set q := Real.exp (-(β * (1 - θ) ^ 2)) with hq
  have g1 : g ≤ 1 := Real.exp_le_one_iff.2 (by have : 0 ≤ β * θ ^ 2 := by positivity
                                               linarith)
  have gpos : 0 < g := Real.exp_pos _
  have qpos : 0 < q := Real.exp_pos _
  have S1' : 1 ≤ Y := by simpa using S1
  have S2' : Y ≤ 1 + 3 * q := by
    have h9 : (1 - θ) ^ 2 ≤ 1 := by nlinarith
    have : Real.exp (-(β * (1 - 0) ^ 2)) ≤ q := Real.exp_le_exp.2 (by nlinarith)
    have : Real.exp (-(β * 0 ^ 2)) = 1 := by simp
    linarith
  -- the truncation
  have tA := even_tail (term_even σ θ) (term_summable hσ θ) (radius σ)
  have tS := even_tail (term_even σ 0) (term_summable hσ 0) (radius σ)
  have bA := tail_bound hσ (term_abs σ θ)
  have bS := tail_bound hσ (term_abs σ 0)
  set a := ∑' k : ℕ, term σ θ ((radius σ : Int) + 1 + k)
  set s := ∑' k : ℕ, term σ 0 ((radius σ : Int) + 1 + k)
  set FA := ∑ m ∈ Icc (-(radius σ : Int)) (radius σ), term σ θ m with hFA
  set FS := ∑ m ∈ Icc (-(radius σ : Int)) (radius σ), term σ 0 m with hFS
  have eFS : FS = ∑ m ∈ Icc (-(radius σ : Int)) (radius σ), phi σ m := by
    rw [hFS]; refine sum_congr rfl fun m _ => ?_
    simp [term]
  have eG : gain σ θ = FA / FS := by
    rw [eFS, hFA, sum_div]
    refine sum_congr rfl fun m _ => ?_
    unfold weight term; ring
  have hFA' : FA = K * X - 2 * a := by linarith
  have hFS' : FS = K * Y - 2 * s := by linarith
  obtain ⟨bA1, bA2⟩ := abs_le.1 bA
  obtain ⟨bS1, bS2⟩ := abs_le.1 bS
  have hKY : K ≤ K * Y := by nlinarith
  have FSpos : 0 < FS := by rw [hFS']; linarith
  have sσ : σ ≤ K / 2 := by linarith
  have h2s : K * Y - K / 10000 ≤ FS := by rw [hFS']; linarith
  have h2s' : FS ≤ K * Y + K / 10000 := by rw [hFS']; linarith
  have h2a : K * X - K / 10000 ≤ FA := by rw [hFA']; linarith
  have h2a' : FA ≤ K * X + K / 10000 := by rw [hFA']; linarith
  have R := ratio_near hKpos gpos g1 qpos A1 A2 S1' S2' h2a h2a' h2s h2s'
  rw [abs_le]
  refine ⟨by rw [eG]; linarith [R.1], ?_⟩
  rcases le_or_gt 1 (g + (3 * q + 1 / 5000)) with hd | hd
  · have := gain_le_one σ θ
    linarith
  · rw [eG]; linarith [R.2 hd]

/-! ## Waves are passed on with their shape -/

/-- The wave `cos (2π θ (k + 1/2))`, even about both ends of an axis of `n` points if `2 n θ` is whole. -/
noncomputable def wave (θ : ℝ) (k : Int) : ℝ := Real.cos (2 * Real.pi * θ * (k + 1 / 2))

theorem pick_reflect_wave {n : Nat} (hn : 0 < n) (q : Nat) (k : Int) :
    pick .reflect n (fun j => wave ((q : ℝ) / (2 * n)) j) k = wave ((q : ℝ) / (2 * n)) k := by
  have hn' : (n : ℝ) ≠ 0 := by positivity
  have hd := Int.mul_ediv_add_emod k (2 * n)
  have h0 := Int.emod_nonneg k (show (2 * (n : Int)) ≠ 0 by omega)
  have h1 := Int.emod_lt_of_pos k (show 0 < (2 * (n : Int)) by omega)
  generalize k % (2 * n) = r at *
  generalize k / (2 * n) = t at *
  have e1 : wave ((q : ℝ) / (2 * n)) k = wave ((q : ℝ) / (2 * n)) r := by
    unfold wave
    rw [← hd]
    push_cast
    rw [show 2 * Real.pi * ((q : ℝ) / (2 * n)) * (2 * n * t + r + 1 / 2)
      = 2 * Real.pi * ((q : ℝ) / (2 * n)) * (r + 1 / 2) + ((q * t : Int) : ℝ) * (2 * Real.pi) by push_cast; field_simp; ring]
    exact Real.cos_add_int_mul_two_pi _ _
  rw [e1]
  have hk : k % (2 * n) = r := emod_of hd.symm h0 h1
  unfold pick ext
  dsimp only
  rw [hk]
  split_ifs with hr
  · rw [show (((r.toNat : Nat) : Int)) = r by omega]
  · rw [show (((2 * (n : Int) - 1 - r).toNat : Nat) : Int) = 2 * n - 1 - r by omega]
    unfold wave
    push_cast
    rw [show 2 * Real.pi * ((q : ℝ) / (2 * n)) * (2 * n - 1 - r + 1 / 2)
      = (q : ℝ) * (2 * Real.pi) - 2 * Real.pi * ((q : ℝ) / (2 * n)) * (r + 1 / 2) by field_simp; ring]
    exact Real.cos_nat_mul_two_pi_sub _ _

theorem axis_wave {σ : ℝ} (hσ : 1 / 10 ^ 15 < σ) {n : Nat} (hn : 0 < n) (q : Nat) (i : Nat) :
    axis .reflect σ n (fun j => wave ((q : ℝ) / (2 * n)) j) i = gain σ ((q : ℝ) / (2 * n)) * wave ((q : ℝ) / (2 * n)) i := by
  unfold axis
  rw [if_pos hσ]
  simp only [pick_reflect_wave hn]
  generalize (q : ℝ) / (2 * n) = θ
  have e : ∀ m : Int, weight σ m * wave θ (i + m)
      = weight σ m * Real.cos (2 * Real.pi * θ * m) * wave θ i - weight σ m * Real.sin (2 * Real.pi * θ * m) * Real.sin (2 * Real.pi * θ * (i + 1 / 2)) := by
    intro m
    unfold wave
    push_cast
    rw [show 2 * Real.pi * θ * ((i : ℝ) + m + 1 / 2) = 2 * Real.pi * θ * (i + 1 / 2) + 2 * Real.pi * θ * m by ring, Real.cos_add]
    ring
  simp only [e]
  rw [sum_sub_distrib, ← sum_mul, ← sum_mul]
  have odd : ∑ m ∈ Icc (-(radius σ : Int)) (radius σ), weight σ m * Real.sin (2 * Real.pi * θ * m) = 0 := by
    have h := sum_symm (radius σ) fun m => weight σ m * Real.sin (2 * Real.pi * θ * m)
    have h' : ∀ m : Int, weight σ (-m) * Real.sin (2 * Real.pi * θ * ((-m : Int) : ℝ)) = -(weight σ m * Real.sin (2 * Real.pi * θ * m)) := by
      intro m
      rw [weight_neg]; push_cast
      rw [show 2 * Real.pi * θ * -(m : ℝ) = -(2 * Real.pi * θ * m) by ring, Real.sin_neg]; ring
    simp only [h'] at h
    rw [sum_neg_distrib] at h
    linarith
  rw [odd]
  unfold gain
  ring

end Surfalize.Gauss
