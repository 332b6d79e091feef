import Verif.Lemmas.AutocorrDecay
import Mathlib.Tactic.NormNum

/-!
# C42, C75 — autocorrelation, Sal and Str
-/
set_option linter.unusedSectionVars false
namespace Surfalize.Props
open Surfalize BaseOps Finset Container Spec Autocorr

section Generic
variable {K : Type} [Field K] [LinearOrder K] [IsStrictOrderedRing K]

/-- **C42** (meaning). The autocorrelation array of a fully measured `ny × nx` surface has shape `(2ny-1, 2nx-1)` and
holds at index `(ny-1+dy, nx-1+dx)` the mean product of the deviations from the mean height over all pairs of points
that lie the lag `(dy, dx)` apart; there are `(ny-|dy|)·(nx-|dx|)` such pairs. -/
theorem C42_mean_of_products (g : Grid (Option K)) (hg : g.WF) (hf : none ∉ flat g) :
    ∃ A, acf g = .ok A ∧ A.WF ∧ A.ny = 2 * g.ny - 1 ∧ A.nx = 2 * g.nx - 1 ∧
      ∀ dy dx : Int, |dy| < g.ny → |dx| < g.nx →
        A.get ((g.ny : Int) - 1 + dy).toNat ((g.nx : Int) - 1 + dx).toNat
          = some (autocov g.ny g.nx g.val dy dx) ∧
        ((lagPairs g.ny g.nx dy dx).card : Int) = (g.ny - |dy|) * (g.nx - |dx|) := by
  obtain ⟨A, h1, h2, h3, h4, h5⟩ := acf_ok hg hf
  exact ⟨A, h1, h2, h3, h4, fun dy dx hy hx => ⟨h5 dy dx hy hx, card_lagPairs _ _ dy dx hy hx⟩⟩

/-- **C42** (symmetry). Reversing the lag does not change the autocorrelation. -/
theorem C42_symmetric (g A : Grid (Option K)) (hg : g.WF) (hf : none ∉ flat g) (h : acf g = .ok A) (dy dx : Int)
    (hy : |dy| < g.ny) (hx : |dx| < g.nx) :
    A.get ((g.ny : Int) - 1 - dy).toNat ((g.nx : Int) - 1 - dx).toNat
      = A.get ((g.ny : Int) - 1 + dy).toNat ((g.nx : Int) - 1 + dx).toNat := by
  obtain ⟨B, h1, _, _, _, h5⟩ := acf_ok hg hf
  obtain rfl : A = B := by rw [h] at h1; exact Except.ok.inj h1
  have := h5 (-dy) (-dx) (by rwa [abs_neg]) (by rwa [abs_neg])
  rw [← sub_eq_add_neg, ← sub_eq_add_neg] at this
  rw [this, h5 dy dx hy hx, autocov_neg g hy hx]

/-- **C42** (maximum). Weighted with the number of overlapping points, no value exceeds the one at zero lag in
magnitude. -/
theorem C42_bound (g A : Grid (Option K)) (hg : g.WF) (hf : none ∉ flat g) (h : acf g = .ok A) (dy dx : Int)
    (hy : |dy| < g.ny) (hx : |dx| < g.nx) (v v0 : K)
    (hv : A.get ((g.ny : Int) - 1 + dy).toNat ((g.nx : Int) - 1 + dx).toNat = some v)
    (hv0 : A.get (g.ny - 1) (g.nx - 1) = some v0) :
    |v| * (((g.ny : Int) - |dy|) * (g.nx - |dx|) : Int) ≤ v0 * ((g.ny : K) * g.nx) := by
  obtain ⟨B, h1, _, _, _, h5⟩ := acf_ok hg hf
  obtain rfl : A = B := by rw [h] at h1; exact Except.ok.inj h1
  have hy0 : |(0 : Int)| < g.ny := by rw [abs_zero]; exact lt_of_le_of_lt (abs_nonneg dy) hy
  have hx0 : |(0 : Int)| < g.nx := by rw [abs_zero]; exact lt_of_le_of_lt (abs_nonneg dx) hx
  have e0 := h5 0 0 hy0 hx0
  have i1 : ((g.ny : Int) - 1 + 0).toNat = g.ny - 1 := by omega
  have i2 : ((g.nx : Int) - 1 + 0).toNat = g.nx - 1 := by omega
  rw [i1, i2, hv0] at e0
  have e := h5 dy dx hy hx
  rw [hv] at e
  have c := card_lagPairs _ _ dy dx hy hx
  have c0 := card_lagPairs _ _ 0 0 hy0 hx0
  rw [abs_zero, sub_zero, sub_zero] at c0
  rw [← c, Int.cast_natCast, Option.some.inj e, Option.some.inj e0]
  have hpos : ((lagPairs g.ny g.nx dy dx).card : K) ≠ 0 := by
    have : ((lagPairs g.ny g.nx dy dx).card : Int) ≠ 0 := by
      rw [c]
      have : 0 < (g.ny : Int) - |dy| := by omega
      have : 0 < (g.nx : Int) - |dx| := by omega
      positivity
    exact_mod_cast this
  have hpos0 : ((lagPairs g.ny g.nx 0 0).card : K) = (g.ny : K) * g.nx := by exact_mod_cast c0
  have hne0 : (g.ny : K) * g.nx ≠ 0 := by
    have a : (g.ny : K) ≠ 0 := by rw [abs_zero] at hy0; exact_mod_cast (by omega : g.ny ≠ 0)
    have b : (g.nx : K) ≠ 0 := by rw [abs_zero] at hx0; exact_mod_cast (by omega : g.nx ≠ 0)
    exact mul_ne_zero a b
  unfold autocov
  rw [hpos0, div_mul_cancel₀ _ hne0, abs_div, abs_of_nonneg (Nat.cast_nonneg (α := K) _), div_mul_cancel₀ _ hpos]
  exact abs_lagSum_le _ _ _ _ _ _

/-- **C42** (missing points). Data with a missing point raises ValueError. -/
theorem C42_missing (g : Grid (Option K)) (h : none ∈ flat g) : acf g = .error .valueError := by
  unfold acf
  rw [if_pos ((HeightParams.mem_none_iff_hasMissing g).2 h)]

end Generic

/-- Without the weights the value at zero lag need not be the largest: the unbiased estimator of the row
`3, -2, -2, -2, 3` is 6 at zero lag and 9 at the largest lag. -/
theorem C42_unweighted_exceeds :
    (acf (K := ℚ) { rows := [[some 3, some (-2), some (-2), some (-2), some 3]], nx := 5 }).map
      (fun A => (A.get 0 4, A.get 0 8)) = .ok (some 6, some 9) := by decide +kernel

/-- **C42** (zero lag). The centre of the autocorrelation array is the zero lag, and its value is `Sq²`. -/
theorem C42_zero_lag (g : Grid (Option ℝ)) (hg : g.WF) (hf : none ∉ flat g) (hy : 0 < g.ny) (hx : 0 < g.nx) :
    ∃ A p, acf g = .ok A ∧ HeightParams.heightParameters g = .ok p ∧ centerIdx A = (g.ny - 1, g.nx - 1) ∧
      A.get (centerIdx A).1 (centerIdx A).2 = some (p.sq ^ 2) := by
  obtain ⟨A, h1, _, h3, h4, h5⟩ := acf_ok hg hf
  have hne : flat g ≠ [] := fun h => by have := get_mem hg hy hx; rw [h] at this; simp at this
  have hc : centerIdx A = (g.ny - 1, g.nx - 1) := by
    unfold centerIdx; rw [h3, h4]; ext <;> dsimp only <;> omega
  refine ⟨A, _, h1, (HeightParams.heightParameters_ok_iff g _).2 ⟨hf, hne, rfl⟩, hc, ?_⟩
  have hy0 : |(0 : Int)| < g.ny := by rw [abs_zero]; omega
  have hx0 : |(0 : Int)| < g.nx := by rw [abs_zero]; omega
  have e0 := h5 0 0 hy0 hx0
  have i1 : ((g.ny : Int) - 1 + 0).toNat = g.ny - 1 := by omega
  have i2 : ((g.nx : Int) - 1 + 0).toNat = g.nx - 1 := by omega
  rw [i1, i2] at e0
  rw [hc, e0, HeightParams.paramsOf_sq, Real.sq_sqrt (HeightParams.moment_two_nonneg _)]
  congr 1
  have hm : measured (flat g) = (pixels g.ny g.nx).map fun p => g.val p.1 p.2 := by
    rw [flat_eq_pixels hg]
    have : ((pixels g.ny g.nx).map fun p => g.get p.1 p.2)
        = ((pixels g.ny g.nx).map fun p => g.val p.1 p.2).map some := by
      rw [List.map_map]
      apply List.map_congr_left
      intro p hp
      exact get_eq_some_val hg hf (mem_pixels.1 hp).1 (mem_pixels.1 hp).2
    rw [this, measured_some]
  have c0 := card_lagPairs _ _ 0 0 hy0 hx0
  rw [abs_zero, sub_zero, sub_zero] at c0
  have hlen : ((pixels g.ny g.nx).length : ℝ) = (g.ny : ℝ) * g.nx := by simp [pixels, List.length_flatMap]
  have hmu : mu (measured (flat g)) = meanHeight g.ny g.nx g.val := by
    unfold mu meanHeight
    rw [hm, Detrend.sum_pixels, List.length_map, hlen]
  unfold autocov moment
  rw [hmu, hm, List.map_map, List.length_map, hlen, lagSum_zero]
  congr 1
  · rw [sum_product, ← Detrend.sum_pixels g.ny g.nx (fun p => (g.val p.1 p.2 - meanHeight g.ny g.nx g.val) ^ 2)]
    rfl
  · exact_mod_cast c0

example : ∃ g : Grid (Option ℚ), g.WF ∧ none ∉ flat g ∧ 0 < g.ny ∧ 0 < g.nx ∧
    (acf g).map (fun A => A.get 1 2) = .ok (some (7 / 3)) :=
  ⟨{ rows := [[some 1, some 2, some 5], [some 0, some 2, some 2 ]], nx := 3 }, by decide +kernel⟩

/-! ### C75 -/

/-- `interpolate_line_on_2d_array(..., num_points=1000)` returns 1000 values. -/
def LineLength (line : LineInterp) : Prop := ∀ A p, (line A p).length = 1000

/-- index of the autocorrelation array ↔ lag -/
theorem lag_of_idx {ny nx : Nat} {p : Nat × Nat} (h : p.1 < 2 * ny - 1 ∧ p.2 < 2 * nx - 1) :
    |(p.1 : Int) - (ny - 1)| < ny ∧ |(p.2 : Int) - (nx - 1)| < nx ∧
      ((ny : Int) - 1 + ((p.1 : Int) - (ny - 1))).toNat = p.1 ∧ ((nx : Int) - 1 + ((p.2 : Int) - (nx - 1))).toNat = p.2 := by
  refine ⟨abs_lt.2 ⟨?_, ?_⟩, abs_lt.2 ⟨?_, ?_⟩, ?_, ?_⟩ <;> omega

/-- **C75** (Sal). For every fully measured surface that is not flat and every `0 ≤ s < 1`, Sal exists; it lies between
0 and the length of the shortest lag at which the autocorrelation is at most `s` times its value at the origin
(and such lags always exist). Str is a non-negative number, or undefined if the longest decay length is 0. -/
theorem C75_sal (line : LineInterp) (hl : LineLength line) (g : Grid (Option ℝ)) (hg : g.WF) (hf : none ∉ flat g)
    (hnc : ∃ i < g.ny, ∃ j < g.nx, ∃ k < g.ny, ∃ l < g.nx, g.get i j ≠ g.get k l) (sx sy s : ℝ) (h0 : 0 ≤ s) (h1 : s < 1) :
    ∃ d L, sal line g sx sy s = .ok d ∧
      IsLeast {r | ∃ dy dx : Int, Decayed g.ny g.nx g.val s dy dx ∧ r = Real.sqrt ((dy * sy) ^ 2 + (dx * sx) ^ 2)} L ∧
      0 ≤ d ∧ d ≤ L ∧ ∃ r, str line g sx sy s = .ok r ∧ ∀ x ∈ r, 0 ≤ x := by
  obtain ⟨A, e1, hA, e3, e4, e5⟩ := acf_ok hg hf
  obtain ⟨i, hi, j, hj, k, hk, l, hl', hne⟩ := hnc
  have hy : 0 < g.ny := by omega
  have hx : 0 < g.nx := by omega
  have hc : centerIdx A = (g.ny - 1, g.nx - 1) := by
    unfold centerIdx; rw [e3, e4]; ext <;> dsimp only <;> omega
  have hy0 : |(0 : Int)| < g.ny := by rw [abs_zero]; omega
  have hx0 : |(0 : Int)| < g.nx := by rw [abs_zero]; omega
  have e0 := e5 0 0 hy0 hx0
  have i1 : ((g.ny : Int) - 1 + 0).toNat = g.ny - 1 := by omega
  have i2 : ((g.nx : Int) - 1 + 0).toNat = g.nx - 1 := by omega
  rw [i1, i2] at e0
  have ev0 : A.val (centerIdx A).1 (centerIdx A).2 = autocov g.ny g.nx g.val 0 0 := by
    rw [hc, Grid.val, e0]; rfl
  have hval : ∀ p : Nat × Nat, Inside A p →
      A.val p.1 p.2 = autocov g.ny g.nx g.val ((p.1 : Int) - (g.ny - 1)) ((p.2 : Int) - (g.nx - 1)) := by
    intro p hp
    unfold Inside at hp
    rw [e3, e4] at hp
    obtain ⟨a, b, c, d⟩ := lag_of_idx hp
    have := e5 _ _ a b
    rw [c, d] at this
    rw [Grid.val, this]; rfl
  set m := meanHeight g.ny g.nx g.val with hm
  -- positive variance
  have hnum : 0 < lagSum g.ny g.nx g.val m 0 0 := by
    rw [lagSum_zero]
    apply lt_of_le_of_ne (sum_nonneg fun _ _ => sq_nonneg _)
    intro h
    have hz := (sum_eq_zero_iff_of_nonneg (fun _ _ => sq_nonneg _)).1 h.symm
    apply hne
    have z1 := hz (i, j) (by simp [hi, hj])
    have z2 := hz (k, l) (by simp [hk, hl'])
    rw [get_eq_some_val hg hf hi hj, get_eq_some_val hg hf hk hl']
    have a := pow_eq_zero_iff (two_ne_zero) |>.1 z1
    have b := pow_eq_zero_iff (two_ne_zero) |>.1 z2
    dsimp only at a b
    congr 1
    linarith
  have cpos : ∀ dy dx : Int, |dy| < g.ny → |dx| < g.nx → (0 : ℝ) < ((lagPairs g.ny g.nx dy dx).card : ℝ) := by
    intro dy dx a b
    have c := card_lagPairs g.ny g.nx dy dx a b
    have : (0 : Int) < ((lagPairs g.ny g.nx dy dx).card : Int) := by
      rw [c]
      have : 0 < (g.ny : Int) - |dy| := by omega
      have : 0 < (g.nx : Int) - |dx| := by omega
      positivity
    exact_mod_cast this
  have hv0 : 0 < autocov g.ny g.nx g.val 0 0 := div_pos hnum (cpos 0 0 hy0 hx0)
  -- a lag with negative correlation
  have hsum : ∑ p ∈ range g.ny ×ˢ range g.nx, (g.val p.1 p.2 - m) = 0 := by
    have hN : (g.ny : ℝ) * g.nx ≠ 0 := by positivity
    rw [sum_sub_distrib, sum_const, card_product, card_range, card_range, sum_product, nsmul_eq_mul, hm]
    unfold meanHeight
    push_cast
    rw [mul_div_cancel₀ _ hN, sub_self]
  have hneg : ∃ dy dx : Int, |dy| < g.ny ∧ |dx| < g.nx ∧ autocov g.ny g.nx g.val dy dx < 0 := by
    by_contra hcon
    push Not at hcon
    have hall := sum_all_lags g.ny g.nx g.val m
    rw [hsum] at hall
    have hnn : ∀ dy dx : Int, |dy| < g.ny → |dx| < g.nx → 0 ≤ lagSum g.ny g.nx g.val m dy dx := by
      intro dy dx a b
      have := hcon dy dx a b
      unfold autocov at this
      by_contra hlt
      exact absurd (div_neg_of_neg_of_pos (lt_of_not_ge hlt) (cpos dy dx a b)) (not_lt.2 this)
    have hle : lagSum g.ny g.nx g.val m 0 0
        ≤ ∑ dy ∈ Finset.Ioo (-(g.ny : Int)) g.ny, ∑ dx ∈ Finset.Ioo (-(g.nx : Int)) g.nx, lagSum g.ny g.nx g.val m dy dx := by
      have m0y : (0 : Int) ∈ Finset.Ioo (-(g.ny : Int)) g.ny := by rw [mem_Ioo]; omega
      have m0x : (0 : Int) ∈ Finset.Ioo (-(g.nx : Int)) g.nx := by rw [mem_Ioo]; omega
      refine le_trans ?_ (single_le_sum (f := fun dy => ∑ dx ∈ Finset.Ioo (-(g.nx : Int)) g.nx, lagSum g.ny g.nx g.val m dy dx)
        (fun dy hdy => sum_nonneg fun dx hdx => hnn dy dx (abs_lt.2 (mem_Ioo.1 hdy)) (abs_lt.2 (mem_Ioo.1 hdx))) m0y)
      exact single_le_sum (f := fun dx => lagSum g.ny g.nx g.val m 0 dx)
        (fun dx hdx => hnn 0 dx hy0 (abs_lt.2 (mem_Ioo.1 hdx))) m0x
    rw [hall] at hle
    norm_num at hle
    linarith
  set t := s * A.val (centerIdx A).1 (centerIdx A).2 with ht
  have ht0 : 0 ≤ t := by rw [ht, ev0]; exact mul_nonneg h0 hv0.le
  have hmask : Mask A t (centerIdx A) := by
    refine ⟨?_, ?_⟩
    · unfold Inside; rw [hc, e3, e4]; constructor <;> dsimp only <;> omega
    · rw [ht, ev0]; nlinarith
  have hlen : ∀ p : Nat × Nat, lagLength A sx sy p
      = Real.sqrt (((((p.1 : Int) - (g.ny - 1) : Int) : ℝ) * sy) ^ 2 + ((((p.2 : Int) - (g.nx - 1) : Int) : ℝ) * sx) ^ 2) := by
    intro p
    unfold lagLength
    rw [hc]
    push_cast [Nat.cast_sub (show 1 ≤ g.ny by omega), Nat.cast_sub (show 1 ≤ g.nx by omega)]
    rfl
  -- every decayed lag has an edge point no longer
  have hdom : ∀ dy dx : Int, Decayed g.ny g.nx g.val s dy dx → ∃ e ∈ edgeIdx A t,
      lagLength A sx sy e ≤ Real.sqrt ((dy * sy) ^ 2 + (dx * sx) ^ 2) := by
    rintro dy dx ⟨a, b, hle⟩
    have a' := abs_lt.1 a
    have b' := abs_lt.1 b
    let p : Nat × Nat := (((g.ny : Int) - 1 + dy).toNat, ((g.nx : Int) - 1 + dx).toNat)
    have p1 : (p.1 : Int) - (g.ny - 1) = dy := by
      show ((((g.ny : Int) - 1 + dy).toNat : Nat) : Int) - (g.ny - 1) = dy; omega
    have p2 : (p.2 : Int) - (g.nx - 1) = dx := by
      show ((((g.nx : Int) - 1 + dx).toNat : Nat) : Int) - (g.nx - 1) = dx; omega
    have hin : Inside A p := by unfold Inside; rw [e3, e4]; constructor <;> omega
    have hnr : ¬ Region (Mask A t) (centerIdx A) p := by
      intro hr
      have := (region_mask A t hmask hr).2
      rw [hval p hin, p1, p2, ht, ev0] at this
      linarith
    obtain ⟨e, he, hel⟩ := exists_edge A t sx sy hmask _ p hin rfl hnr
    refine ⟨e, he, ?_⟩
    rwa [hlen p, p1, p2] at hel
  obtain ⟨dy, dx, ny', nx', hlt⟩ := hneg
  have hdec : Decayed g.ny g.nx g.val s dy dx := ⟨ny', nx', by
    have : 0 ≤ s * autocov g.ny g.nx g.val 0 0 := mul_nonneg h0 hv0.le
    linarith⟩
  have hedge : edgeIdx A t ≠ [] := by
    obtain ⟨e, he, _⟩ := hdom dy dx hdec
    exact List.ne_nil_of_mem he
  obtain ⟨pmin, pmax, hmin, hmax, hmins, hmaxs, hd⟩ := decayLengths_ok (line := line) A sx sy s hedge
  have hb := decay_bounds hl A sx sy t pmin
  have hb' := decay_bounds hl A sx sy t pmax
  refine ⟨_, lagLength A sx sy pmin, ?_, ⟨?_, ?_⟩, hb.1, hb.2, ?_⟩
  · unfold sal
    rw [e1]
    show (decayLengths line A sx sy s).map Prod.fst = _
    rw [hd]; rfl
  · obtain ⟨hin, hle⟩ := edge_below A t hmask hmin
    refine ⟨(pmin.1 : Int) - (g.ny - 1), (pmin.2 : Int) - (g.nx - 1), ?_, hlen pmin⟩
    have hin' := hin
    unfold Inside at hin'
    rw [e3, e4] at hin'
    obtain ⟨a, b, _, _⟩ := lag_of_idx hin'
    refine ⟨a, b, ?_⟩
    rw [← hval pmin hin, ← ev0]
    exact hle
  · rintro r ⟨dy, dx, hdec, rfl⟩
    obtain ⟨e, he, hel⟩ := hdom dy dx hdec
    exact (hmins e he).trans hel
  · refine ⟨_, by unfold str; rw [e1]; show (decayLengths line A sx sy s).map _ = _; rw [hd]; rfl, ?_⟩
    intro x hx
    change x ∈ (if decayAlong line A sx sy t pmax = 0 then none
      else some (decayAlong line A sx sy t pmin / decayAlong line A sx sy t pmax)) at hx
    by_cases hz : decayAlong line A sx sy t pmax = 0
    · rw [if_pos hz] at hx; simp at hx
    · rw [if_neg hz] at hx
      obtain rfl := Option.some.inj hx
      exact div_nonneg hb.1 hb'.1

example : (∃ line : LineInterp, LineLength line) ∧ ∃ g : Grid (Option ℝ), g.WF ∧ none ∉ flat g ∧
    ∃ i < g.ny, ∃ j < g.nx, ∃ k < g.ny, ∃ l < g.nx, g.get i j ≠ g.get k l :=
  ⟨⟨fun _ _ => List.replicate 1000 0, fun _ _ => List.length_replicate⟩,
    { rows := [[some 1, some 2]], nx := 2 }, by intro r hr; simp at hr; simp [hr], by simp [flat],
    0, by simp [Grid.ny], 0, by simp, 0, by simp [Grid.ny], 1, by simp, by simp [Grid.get]⟩

/-- **C75** (flat surfaces). A surface whose heights are all equal has neither Sal nor Str: both raise ValueError. -/
theorem C75_flat (line : LineInterp) (g : Grid (Option ℝ)) (hg : g.WF) (hf : none ∉ flat g)
    (hy : 0 < g.ny) (hx : 0 < g.nx) (z : ℝ) (hz : ∀ i < g.ny, ∀ j < g.nx, g.get i j = some z) (sx sy s : ℝ) :
    sal line g sx sy s = .error .valueError ∧ str line g sx sy s = .error .valueError := by
  obtain ⟨A, e1, hA, e3, e4, e5⟩ := acf_ok hg hf
  have hzv : ∀ i < g.ny, ∀ j < g.nx, g.val i j = z := fun i hi j hj => by rw [Grid.val, hz i hi j hj]; rfl
  have hm : meanHeight g.ny g.nx g.val = z := by
    unfold meanHeight
    rw [sum_congr rfl fun i hi => sum_congr rfl fun j hj => hzv i (mem_range.1 hi) j (mem_range.1 hj)]
    simp only [sum_const, card_range, nsmul_eq_mul]
    have : (g.ny : ℝ) * g.nx ≠ 0 := by positivity
    rw [← mul_assoc, mul_comm, mul_div_assoc, div_self this, mul_one]
  have hauto : ∀ dy dx, autocov g.ny g.nx g.val dy dx = 0 := by
    intro dy dx
    unfold autocov lagSum
    rw [sum_eq_zero, zero_div]
    intro pq hpq
    obtain ⟨⟨a, b⟩, _, _⟩ := mem_lagPairs hpq
    rw [hm, hzv _ a _ b, sub_self, zero_mul]
  have hval : ∀ p : Nat × Nat, Inside A p → A.val p.1 p.2 = 0 := by
    intro p hp
    unfold Inside at hp
    rw [e3, e4] at hp
    obtain ⟨a, b, c, d⟩ := lag_of_idx hp
    have := e5 _ _ a b
    rw [c, d] at this
    rw [Grid.val, this, hauto]; rfl
  have hc : Inside A (centerIdx A) := by
    unfold Inside centerIdx; rw [e3, e4]; constructor <;> dsimp only <;> omega
  have hedge : edgeIdx A (s * A.val (centerIdx A).1 (centerIdx A).2) = [] := by
    rw [hval _ hc, mul_zero]
    have hmask : ∀ p, ¬ Mask A 0 p := fun p hp => by
      have := hp.2
      rw [hval p hp.1] at this
      exact lt_irrefl _ this
    rw [List.eq_nil_iff_forall_not_mem]
    intro p hp
    exact ((mem_edgeIdx A 0 p).1 hp).2.1 (Or.inr ⟨hmask _, hmask _⟩)
  have hd : decayLengths line A sx sy s = .error .valueError := by
    unfold decayLengths
    simp only [hedge, List.map_nil, Interp.argminAll, Interp.argmaxAll, if_true]
  unfold sal str
  rw [e1]
  constructor
  · show (decayLengths line A sx sy s).map _ = _; rw [hd]; rfl
  · show (decayLengths line A sx sy s).map _ = _; rw [hd]; rfl

/-- Cubic spline interpolation is linear in the interpolated array. -/
def LineHomogeneous (line : LineInterp) : Prop :=
  ∀ (c : ℝ), 0 < c → ∀ (A : Grid (Option ℝ)) (p : Nat × Nat),
    line (Container.map (Option.map fun z => c * z) A) p = (line A p).map fun z => c * z

/-- **C75** (units). Shifting all heights, or multiplying them by a non-zero number, changes neither Sal nor Str. -/
theorem C75_affine (line : LineInterp) (hl : LineHomogeneous line) (g : Grid (Option ℝ)) (hg : g.WF) (hf : none ∉ flat g)
    (a b : ℝ) (ha : a ≠ 0) (sx sy s : ℝ) :
    sal line (Container.map (Option.map fun z => a * z + b) g) sx sy s = sal line g sx sy s ∧
    str line (Container.map (Option.map fun z => a * z + b) g) sx sy s = str line g sx sy s := by
  obtain ⟨A, e, h⟩ := acf_affine hg hf a b
  unfold sal str
  rw [h, e]
  have hd := decayLengths_scale hl (sq_pos_of_ne_zero ha) A sx sy s
  constructor
  · show (decayLengths line _ sx sy s).map _ = (decayLengths line A sx sy s).map _
    rw [hd]
  · show (decayLengths line _ sx sy s).map _ = (decayLengths line A sx sy s).map _
    rw [hd]

example : ∃ line : LineInterp, LineHomogeneous line ∧ LineLength line :=
  ⟨fun A p => (List.range 1000).map fun k : Nat =>
      A.val (A.ny / 2) (A.nx / 2) * (1 - (k : ℝ) / 999) + A.val p.1 p.2 * ((k : ℝ) / 999), by
    intro c _ A p
    dsimp only
    rw [List.map_map, map_ny, map_nx]
    apply List.map_congr_left
    intro k _
    rw [val_scale, val_scale]
    simp only [Function.comp]
    ring, fun _ _ => by simp⟩

end Surfalize.Props
