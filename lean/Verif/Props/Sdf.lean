import Verif.Lemmas.Sdf
import Verif.Lemmas.SdfAscii
/-!
# C59: SDF files round-trip (binary); the ASCII variant cannot be read back
-/
set_option linter.unusedSectionVars false
namespace Surfalize
/-! ### Specification -/
namespace SdfSpec
variable {K : Type} [Field K] [LinearOrder K]

/-- `floor(log10(m))`, with an error of at most one. -/
def Log10 (log : K → Int) : Prop :=
  ∀ m : K, 0 < m → (10 : K) ^ (log m - 1) ≤ m ∧ m < (10 : K) ^ (log m + 2)

/-- Printable text without an asterisk, like the texts of numbers and dates. -/
abbrev Plain (s : List Char) : Prop := ∀ c ∈ s, 32 ≤ c.toNat ∧ c.toNat < 127 ∧ c ≠ '*'

end SdfSpec

set_option exponentiation.threshold 2000
namespace Props
open LayoutM LayoutSpec FileArr Sdf SdfSpec
variable {K : Type} [Field K] [LinearOrder K] [IsStrictOrderedRing K] [FloorRing K]

/-- There is such a logarithm: the exact one. -/
theorem exists_log10 : Log10 (fun m : K => Int.log 10 m) := by
  intro m hm
  have h1 := Int.zpow_log_le_self (b := 10) (r := m) (by norm_num) hm
  have h2 := Int.lt_zpow_succ_log_self (b := 10) (by norm_num) m
  push_cast at h1 h2
  dsimp only
  constructor
  · refine le_trans (zpow_le_zpow_right₀ (by norm_num) (by omega)) h1
  · refine lt_of_lt_of_le h2 (zpow_le_zpow_right₀ (by norm_num) (by omega))

theorem ten_le_two : (10 : K) ^ 300 ≤ 2 ^ 1000 := by
  have h : ((10 : K) ^ 3) ^ 100 ≤ ((2 : K) ^ 10) ^ 100 :=
    pow_le_pow_left₀ (by positivity) (by norm_num) 100
  rwa [← pow_mul, ← pow_mul] at h

theorem hundred_lt_threshold : (100 : K) < f64.threshold K := by
  unfold FFormat.threshold
  have h1 : (2 : K) ^ (f64.bias - (f64.mb : Int) - 1) = 2 ^ 970 := by
    rw [show f64.bias - (f64.mb : Int) - 1 = ((970 : Nat) : Int) by decide, zpow_natCast]
  have h2 : f64.mb = 52 := rfl
  have h3 : (1 : K) ≤ 2 ^ 970 := one_le_pow₀ (by norm_num)
  have h4 : (100 : K) < 2 ^ (52 + 2) - 1 := by norm_num
  rw [h1, h2]
  exact lt_of_lt_of_le h4 (le_mul_of_one_le_right (by linarith) h3)

/-- The largest absolute height. -/
theorem maxAbs_spec {g : Grid (Option K)} {m : Option K} (h : maxAbs g = .ok m) :
    (m = none → ∀ z, some z ∉ Container.flat g) ∧
    ∀ x, m = some x → (∃ z, some z ∈ Container.flat g ∧ |z| = x) ∧
      ∀ z, some z ∈ Container.flat g → |z| ≤ x := by
  unfold maxAbs at h
  split at h
  · cases h
  simp only [Except.ok.injEq] at h
  constructor
  · rintro rfl z hz
    rw [List.max?_eq_none_iff] at h
    have : z ∈ measured (Container.flat g) := mem_measured.2 hz
    rw [List.map_eq_nil_iff.1 h] at this
    cases this
  · rintro x rfl
    obtain ⟨h1, h2⟩ := max?_spec.1 h
    obtain ⟨z, hz, rfl⟩ := List.mem_map.1 h1
    exact ⟨⟨z, mem_measured.1 hz, rfl⟩, fun w hw => h2 _ (List.mem_map.2 ⟨w, mem_measured.2 hw, rfl⟩)⟩

/-- One height written with scale `f = 10^-k` and read back. -/
theorem sdf_height {k : Int} {m z y q : K} (hm : (10 : K) ^ (k - 1) ≤ m)
    (hmin : 1 / 10 ^ 290 ≤ m) (hup : m < (10 : K) ^ (k + 2))
    (hy : Nearest true (z * (10 : K) ^ (-k)) y)
    (hq : Nearest true (((10 : K) ^ 6)⁻¹ / (10 : K) ^ (-k)) q) :
    |y * q * 10 ^ 6 - z| ≤ |z| / 2 ^ 51 + m / 2 ^ 1070 := by
  have h10 : (0 : K) < 10 := by norm_num
  set p : K := (10 : K) ^ k with hp
  have hp0 : 0 < p := zpow_pos h10 k
  have hneg : (10 : K) ^ (-k) = p⁻¹ := by rw [zpow_neg]
  rw [hneg] at hy hq
  have hpm : p ≤ 10 * m := by
    have : (10 : K) ^ (k - 1) = p / 10 := by rw [zpow_sub₀ h10.ne', zpow_one]
    rw [this, div_le_iff₀ h10] at hm
    linarith
  have hmp : m < 100 * p := by
    have : (10 : K) ^ (k + 2) = 100 * p := by
      rw [zpow_add₀ h10.ne', mul_comm, ← hp]; norm_num
    linarith
  set t : K := ((10 : K) ^ 6)⁻¹ / p⁻¹ with ht
  have hte : t = p / 10 ^ 6 := by rw [ht]; field_simp
  have ht0 : 0 < t := by rw [hte]; positivity
  have htlow : 1 / 2 ^ 1022 ≤ |t| := by
    rw [abs_of_pos ht0, hte]
    have h1 : (1 : K) / 10 ^ 300 ≤ p / 10 ^ 6 := by
      have h2 : (1 : K) / 10 ^ 290 < 100 * p := lt_of_le_of_lt hmin hmp
      have h3 : (1 : K) / 10 ^ 300 = (1 / 10 ^ 290) / 10 ^ 10 := by
        rw [div_div, ← pow_add]
      have h4 : (0 : K) < 1 / 10 ^ 290 := by positivity
      generalize (1 : K) / 10 ^ 290 = v at h2 h3 h4
      rw [h3, div_le_div_iff₀ (by positivity) (by positivity)]
      nlinarith
    refine le_trans ?_ h1
    refine one_div_le_one_div_of_le (by positivity) (le_trans ten_le_two ?_)
    exact pow_le_pow_right₀ (by norm_num) (by norm_num)
  have hqe := nearest_rel hq htlow
  rw [abs_of_pos ht0] at hqe
  have hye : |y - z * p⁻¹| ≤ |z * p⁻¹| * (1 / 2 ^ 53) + 1 / 2 ^ 1075 := by
    refine le_trans (nearest_error_double hy) (max_le ?_ ?_)
    · have : (0 : K) ≤ 1 / 2 ^ 1075 := by positivity
      rw [mul_one_div]; linarith
    · have : (0 : K) ≤ |z * p⁻¹| * (1 / 2 ^ 53) := by positivity
      linarith
  have hpe := product_error (u := 1 / 2 ^ 53) (e := 1 / 2 ^ 1075) (by positivity) (by norm_num)
    (by positivity) ht0.le hye (by rw [mul_one_div]; exact hqe)
  have e1 : y * q * 10 ^ 6 - z = (y * q - z * p⁻¹ * t) * 10 ^ 6 := by
    rw [hte]; field_simp
  rw [e1, abs_mul, abs_of_pos (show (0 : K) < 10 ^ 6 by positivity)]
  refine le_trans (mul_le_mul_of_nonneg_right hpe (by positivity)) ?_
  rw [add_mul]
  refine add_le_add (le_of_eq ?_) ?_
  · rw [hte, abs_mul, abs_of_pos (inv_pos.2 hp0)]
    field_simp
    norm_num
  · rw [hte]
    have e2 : (2 : K) * (1 / 2 ^ 1075) * (p / 10 ^ 6) * 10 ^ 6 = p / 2 ^ 1074 := by
      have : (2 : K) ^ 1075 = 2 ^ 1074 * 2 := pow_succ 2 1074
      rw [this]
      have h0 : (2 : K) ^ 1074 ≠ 0 := by positivity
      generalize (2 : K) ^ 1074 = w at h0
      field_simp
    have e3 : m / 2 ^ 1070 = 16 * m / 2 ^ 1074 := by
      have : (2 : K) ^ 1074 = 2 ^ 1070 * 16 := by
        rw [show 1074 = 1070 + 4 by rfl, pow_add]; norm_num
      rw [this]
      have h0 : (2 : K) ^ 1070 ≠ 0 := by positivity
      generalize (2 : K) ^ 1070 = w at h0
      field_simp
    rw [e2, e3]
    have hm0 : 0 ≤ m := by linarith
    exact div_le_div_of_nonneg_right (by linarith) (by positivity)

/-- Saving as binary SDF and loading returns the same size, the same non-measured points, the steps
within double precision, zero heights exactly and every height within `|z| / 2^51` (two roundings to
double precision) up to `M / 2^1070`, where `M` bounds all heights. The largest height must not
be an underflowing number (below `10^-290` micrometres). Bytes `post` behind the file are ignored. -/
theorem C59_round_trip_partial {c : FloatCodec K} (hc : c.Nearest)
    (finish : List (List Char × List Char) → List Char → Except Err (Raw K)) (enc : Encoding)
    {log : K → Int} (hlog : Log10 log) {created modified : List Char}
    (h1 : (utf8 created).length ≤ 12) (h2 : (utf8 modified).length ≤ 12) (s : Raw K)
    (hwf : s.data.WF)
    (hmin : (∀ z, some z ∈ Container.flat s.data → z = 0) ∨
      ∃ z, some z ∈ Container.flat s.data ∧ 1 / 10 ^ 290 ≤ |z|)
    (b : Bytes) (hw : writeBinary c log created modified s = .ok b) (post : Bytes) :
    ∃ r : Raw K, readSdf finish enc ⟨b ++ post, 0⟩ = .ok r ∧ r.data.WF ∧
      r.data.ny = s.data.ny ∧ r.data.nx = s.data.nx ∧
      |r.stepX - s.stepX| ≤ max (|s.stepX| / 2 ^ 53) (10 ^ 6 / 2 ^ 1075) ∧
      |r.stepY - s.stepY| ≤ max (|s.stepY| / 2 ^ 53) (10 ^ 6 / 2 ^ 1075) ∧
      ∀ i j, i < s.data.ny → j < s.data.nx →
        (s.data.get i j = none → r.data.get i j = none) ∧
        ∀ z, s.data.get i j = some z → ∃ z', r.data.get i j = some z' ∧ (z = 0 → z' = 0) ∧
          ∀ M, (∀ w, some w ∈ Container.flat s.data → |w| ≤ M) →
            |z' - z| ≤ |z| / 2 ^ 51 + M / 2 ^ 1070 := by
  obtain ⟨m, scale, zs, lx, ly, hm, hsc, hr, hlx, hly, hz⟩ :=
    Sdf.read_written hc finish enc log h1 h2 s hwf b hw post
  refine ⟨_, hr, map_wf _ hwf, map_ny _ _, rfl, micro_error_double hlx, micro_error_double hly, ?_⟩
  intro i j hi hj
  rw [get_map_height hwf _ hi hj]
  obtain ⟨hm1, hm2⟩ := maxAbs_spec hm
  constructor
  · intro h
    have hst := decFloat_encFloat hc true (none : Option K)
    have hst' : decFloat K true (encFloat c true none) = none := hst
    have : scaleHeight scale (none : Option K) = none := by simp [scaleHeight]
    rw [h, this, hst']
    simp [height]
  · intro z h
    have hzm : some z ∈ Container.flat s.data := by rw [← h]; exact get_mem hwf hi hj
    cases m with
    | none => exact absurd hzm (hm1 rfl z)
    | some m =>
      obtain ⟨⟨w, hw1, hw2⟩, hmax⟩ := hm2 m rfl
      have hzm' := hmax z hzm
      rw [h]
      by_cases hm0 : m = 0
      · have hz0 : z = 0 := by
          rw [hm0] at hzm'
          exact abs_nonpos_iff.1 hzm'
        subst hz0
        have hs1 : scale = some 1 := by rw [← hsc]; simp [scaleFactor, hm0]
        obtain ⟨q, hq1, -⟩ := hz 1 hs1
        have hst := decFloat_encFloat hc true (some (0 : K))
        have hthr : |(0 : K)| < f64.threshold K := by
          rw [abs_zero]; exact lt_trans (by norm_num) hundred_lt_threshold
        obtain ⟨y, hy1, hy2⟩ := hst hthr
        have hy0 : y = 0 := nearest_exact hy2 (FFormat.repr_zero f64 (by decide))
        have hsh : scaleHeight scale (some (0 : K)) = some 0 := by rw [hs1]; simp [scaleHeight]
        refine ⟨0, ?_, fun _ => rfl, ?_⟩
        · rw [hsh, hy1, hy0, hq1]; simp [height]
        · intro M hM
          have : 0 ≤ M := le_trans (abs_nonneg _) (hM 0 hzm)
          simp only [sub_zero, abs_zero, zero_div, zero_add]
          positivity
      · have hmpos : 0 < m := by
          rcases lt_or_eq_of_le (show 0 ≤ m by rw [← hw2]; exact abs_nonneg _) with h | h
          · exact h
          · exact absurd h.symm hm0
        have hmm : 1 / 10 ^ 290 ≤ m := by
          rcases hmin with h0 | ⟨v, hv1, hv2⟩
          · exact absurd (by rw [← hw2, h0 w hw1, abs_zero]) hm0
          · exact le_trans hv2 (hmax v hv1)
        obtain ⟨hl1, hl2⟩ := hlog m hmpos
        have hs1 : scale = some ((10 : K) ^ (-log m)) := by rw [← hsc]; simp [scaleFactor, hm0]
        obtain ⟨q, hq1, hq2⟩ := hz _ hs1
        have hsh : scaleHeight scale (some z) = some (z * (10 : K) ^ (-log m)) := by
          rw [hs1]; simp [scaleHeight]
        have hst := decFloat_encFloat hc true (some (z * (10 : K) ^ (-log m)))
        have h10 : (0 : K) < 10 := by norm_num
        have hthr : |z * (10 : K) ^ (-log m)| < f64.threshold K := by
          refine lt_of_le_of_lt ?_ hundred_lt_threshold
          have hp : (0 : K) < (10 : K) ^ log m := zpow_pos h10 _
          rw [zpow_neg, abs_mul, abs_of_pos (inv_pos.2 hp), ← div_eq_mul_inv, div_le_iff₀ hp]
          have : (10 : K) ^ (log m + 2) = 100 * (10 : K) ^ log m := by
            rw [zpow_add₀ h10.ne', mul_comm]; norm_num
          linarith
        obtain ⟨y, hy1, hy2⟩ := hst hthr
        refine ⟨y * q * 10 ^ 6, ?_, ?_, ?_⟩
        · rw [hsh, hy1, hq1]; simp [height]
        · rintro rfl
          have hy0 : y = 0 := by
            rw [zero_mul] at hy2
            exact nearest_exact hy2 (FFormat.repr_zero f64 (by decide))
          rw [hy0]; ring
        · intro M hM
          refine le_trans (sdf_height hl1 hmm hl2 hy2 hq2) ?_
          have : m ≤ M := by rw [← hw2]; exact hM w hw1
          have h3 : m / 2 ^ 1070 ≤ M / 2 ^ 1070 := div_le_div_of_nonneg_right this (by positivity)
          linarith

/-- More than 65535 points in a direction cannot be saved. -/
theorem C59_too_large (c : FloatCodec K) (log : K → Int) (created modified : List Char) (s : Raw K)
    (h : 65535 < s.data.nx ∨ 65535 < s.data.ny) (hne : Container.flat s.data ≠ []) :
    writeBinary c log created modified s = .error .structError := by
  unfold writeBinary
  have hm : ∃ m, maxAbs s.data = .ok m := by
    unfold maxAbs; rw [if_neg hne]; exact ⟨_, rfl⟩
  obtain ⟨m, hm⟩ := hm
  rw [hm]
  dsimp only
  have hmin : intMin false 2 = 0 := by decide
  have hmax : intMax false 2 = 65535 := by decide
  set d := header created modified (scaleFactor log m) s with hd
  have key : write c d (layout K) = .error .structError := by
    by_cases hx : 65535 < s.data.nx
    · refine write_err_of (c := c) (L1 := [_, _, _])
        (e := .field "NumPoints" (.fixed (.int false false 2))) ?_
        (int_entry_err c (i := (s.data.nx : Int)) rfl (Or.inr (by rw [hmax]; exact_mod_cast hx))) _
      simp only [List.forall_mem_cons, List.not_mem_nil, false_imp_iff, implies_true, and_true]
      exact ⟨txt_entry_ok c rfl, txt_entry_ok c rfl, txt_entry_ok c rfl⟩
    · have hy := h.resolve_left hx
      refine write_err_of (c := c) (L1 := [_, _, _, _])
        (e := .field "NumProfiles" (.fixed (.int false false 2))) ?_
        (int_entry_err c (i := (s.data.ny : Int)) rfl (Or.inr (by rw [hmax]; exact_mod_cast hy))) _
      simp only [List.forall_mem_cons, List.not_mem_nil, false_imp_iff, implies_true, and_true]
      exact ⟨txt_entry_ok c rfl, txt_entry_ok c rfl, txt_entry_ok c rfl,
        int_entry_ok c (i := (s.data.nx : Int)) rfl (by rw [hmin]; omega) (by rw [hmax]; omega)⟩
  rw [key]

/-- A surface without points cannot be saved. -/
theorem C59_no_points (c : FloatCodec K) (log : K → Int) (created modified : List Char) (s : Raw K)
    (hne : Container.flat s.data = []) :
    writeBinary c log created modified s = .error .valueError := by
  unfold writeBinary maxAbs
  rw [if_pos hne]

/-- Saving succeeds for one to 65535 points per direction with heights up to `10^290` micrometres,
the largest not underflowing. -/
theorem C59_saves (c : FloatCodec K) {log : K → Int} (hlog : Log10 log)
    (created modified : List Char) (s : Raw K) (hne : Container.flat s.data ≠ [])
    (hnx : s.data.nx ≤ 65535) (hny : s.data.ny ≤ 65535)
    (hsx : |s.stepX / 10 ^ 6| < f64.threshold K) (hsy : |s.stepY / 10 ^ 6| < f64.threshold K)
    (hbig : ∀ z, some z ∈ Container.flat s.data → |z| ≤ 10 ^ 290) :
    ∃ b, writeBinary c log created modified s = .ok b := by
  have hthr : (100 : K) < f64.threshold K := hundred_lt_threshold
  have hbigthr : (10 : K) ^ 300 < f64.threshold K := by
    refine lt_of_le_of_lt ten_le_two ?_
    unfold FFormat.threshold
    have h1 : (2 : K) ^ (f64.bias - (f64.mb : Int) - 1) = 2 ^ 970 := by
      rw [show f64.bias - (f64.mb : Int) - 1 = ((970 : Nat) : Int) by decide, zpow_natCast]
    have h2 : f64.mb = 52 := rfl
    have h3 : (0 : K) < 2 ^ 970 := by positivity
    have h4 : (2 : K) ^ 30 < 2 ^ (52 + 2) - 1 := by norm_num
    rw [h1, h2, show 1000 = 30 + 970 by rfl, pow_add]
    exact mul_lt_mul_of_pos_right h4 h3
  unfold writeBinary
  have hm : ∃ m, maxAbs s.data = .ok m := by
    unfold maxAbs; rw [if_neg hne]; exact ⟨_, rfl⟩
  obtain ⟨m, hm⟩ := hm
  rw [hm]
  dsimp only
  obtain ⟨hm1, hm2⟩ := maxAbs_spec hm
  have hmin : intMin false 2 = 0 := by decide
  have hmax : intMax false 2 = 65535 := by decide
  have hmin1 : intMin false 1 = 0 := by decide
  have hmax1 : intMax false 1 = 255 := by decide
  have hz : ∃ b, (Entry.field "Zscale" (.fixed (.flt true false 1)) : Entry K).write c
      (header created modified (scaleFactor log m) s) = .ok b := by
    cases m with
    | none => exact nan_entry_ok c rfl
    | some m =>
      obtain ⟨⟨w, hw1, hw2⟩, -⟩ := hm2 m rfl
      by_cases hm0 : m = 0
      · refine num_entry_ok c (x := ((10 : K) ^ 6)⁻¹ / 1) ?_ ?_
        · simp [header, scaleFactor, hm0, List.lookup]
        · refine lt_of_le_of_lt ?_ hthr
          norm_num [abs_of_pos]
      · have hmpos : 0 < m := by
          rcases lt_or_eq_of_le (show 0 ≤ m by rw [← hw2]; exact abs_nonneg _) with h | h
          · exact h
          · exact absurd h.symm hm0
        obtain ⟨hl1, -⟩ := hlog m hmpos
        have h10 : (0 : K) < 10 := by norm_num
        refine num_entry_ok c (x := ((10 : K) ^ 6)⁻¹ / (10 : K) ^ (-log m)) ?_ ?_
        · simp [header, scaleFactor, hm0, List.lookup]
        · refine lt_of_le_of_lt ?_ hbigthr
          have hp : (0 : K) < (10 : K) ^ log m := zpow_pos h10 _
          have hpm : (10 : K) ^ log m ≤ 10 * m := by
            rw [zpow_sub₀ h10.ne', zpow_one, div_le_iff₀ h10] at hl1
            linarith
          have hmb : m ≤ 10 ^ 290 := by rw [← hw2]; exact hbig w hw1
          have e : ((10 : K) ^ 6)⁻¹ / (10 : K) ^ (-log m) = (10 : K) ^ log m / 10 ^ 6 := by
            rw [zpow_neg]; field_simp
          rw [e, abs_of_pos (by positivity), div_le_iff₀ (by positivity)]
          have e2 : (10 : K) ^ 300 = 10 ^ 290 * 10 ^ 10 := by rw [← pow_add]
          rw [e2]
          have h0 : (0 : K) < 10 ^ 290 := by positivity
          generalize (10 : K) ^ 290 = v at hmb h0
          nlinarith
  obtain ⟨b, hb⟩ := write_ok_of (c := c) (d := header created modified (scaleFactor log m) s)
    (L := layout K) (by
    simp only [layout, List.forall_mem_cons, List.not_mem_nil, false_imp_iff, implies_true,
      and_true]
    refine ⟨txt_entry_ok c rfl, txt_entry_ok c rfl, txt_entry_ok c rfl, ?_, ?_, ?_, ?_, hz, ?_, ?_,
      ?_, ?_⟩
    · exact int_entry_ok c (i := (s.data.nx : Int)) rfl (by rw [hmin]; omega) (by rw [hmax]; omega)
    · exact int_entry_ok c (i := (s.data.ny : Int)) rfl (by rw [hmin]; omega) (by rw [hmax]; omega)
    · exact num_entry_ok c (x := s.stepX * (10 ^ 6)⁻¹) rfl (by rw [← div_eq_mul_inv]; exact hsx)
    · exact num_entry_ok c (x := s.stepY * (10 ^ 6)⁻¹) rfl (by rw [← div_eq_mul_inv]; exact hsy)
    · refine fltint_entry_ok c (i := -1) rfl ?_
      refine lt_of_le_of_lt ?_ hthr
      norm_num
    · exact int_entry_ok c (i := 0) rfl (by rw [hmin1]) (by rw [hmax1]; omega)
    · exact int_entry_ok c (i := 7) rfl (by rw [hmin1]; omega) (by rw [hmax1]; omega)
    · exact int_entry_ok c (i := 0) rfl (by rw [hmin1]) (by rw [hmax1]; omega))
  rw [hb]
  exact ⟨_, rfl⟩

/-- The printed header is plain text. -/
theorem asciiFields_plain (P : Printer K) (hP : ∀ x, Plain (P.plain x)) {created modified : List Char}
    (h1 : Plain created) (h2 : Plain modified) (scale : Option K) (s : Raw K) :
    Plain ((asciiFields P created modified scale s).flatMap fun kv =>
      kv.1.toList ++ " = ".toList ++ kv.2 ++ crlfText) := by
    intro c hc
    obtain ⟨kv, hkv, hc⟩ := List.mem_flatMap.1 hc
    have hnat : ∀ n, Plain (natText n) := by
      intro n c hc
      have := isDigit_range (natText_digits n c hc)
      refine ⟨by omega, by omega, ?_⟩
      rintro rfl
      revert this; decide
    have hval : Plain kv.1.toList ∧ Plain kv.2 := by
      simp only [asciiFields, List.mem_cons, List.not_mem_nil, or_false] at hkv
      have lit : ∀ t : List Char, t.all (fun c => 32 ≤ c.toNat && c.toNat < 127 && c ≠ '*') →
          Plain t := by
        intro t ht c hc
        have := List.all_eq_true.1 ht c hc
        simpa [and_assoc] using this
      rcases hkv with rfl | rfl | rfl | rfl | rfl | rfl | rfl | rfl | rfl | rfl | rfl | rfl
      · exact ⟨lit "ManufacID".toList (by decide), lit _ (by decide)⟩
      · exact ⟨lit "CreateDate".toList (by decide), h1⟩
      · exact ⟨lit "ModDate".toList (by decide), h2⟩
      · exact ⟨lit "NumPoints".toList (by decide), hnat _⟩
      · exact ⟨lit "NumProfiles".toList (by decide), hnat _⟩
      · exact ⟨lit "Xscale".toList (by decide), hP _⟩
      · exact ⟨lit "Yscale".toList (by decide), hP _⟩
      · exact ⟨lit "Zscale".toList (by decide), hP _⟩
      · exact ⟨lit _ (by decide), lit _ (by decide)⟩
      · exact ⟨lit _ (by decide), lit _ (by decide)⟩
      · exact ⟨lit _ (by decide), lit _ (by decide)⟩
      · exact ⟨lit _ (by decide), lit _ (by decide)⟩
    simp only [List.mem_append] at hc
    rcases hc with ((hc | hc) | hc) | hc
    · exact hval.1 c hc
    · have : ∀ c ∈ " = ".toList, 32 ≤ c.toNat ∧ c.toNat < 127 ∧ c ≠ '*' := by decide
      exact this c hc
    · exact hval.2 c hc
    · have : ∀ c ∈ crlfText, 32 ≤ c.toNat ∧ c.toNat < 127 ∧ c ≠ '*' := by decide
      exact this c hc

theorem dataLines_ascii (P : Printer K) (hP : ∀ x, ∀ c ∈ P.fixed x, c.toNat < 128) (n : Nat) :
    ∀ (zs : List (Option K)) (i : Nat) (line : List (List Char)),
      (∀ t ∈ line, ∀ c ∈ t, c.toNat < 128) → ∀ c ∈ dataLines P n i line zs, c.toNat < 128 := by
  intro zs
  induction zs with
  | nil => intro i line _ c hc; simp [dataLines] at hc
  | cons z zs ih =>
    intro i line hline c hc
    unfold dataLines at hc
    have htx : ∀ c ∈ heightText P z, c.toNat < 128 := by
      cases z with
      | none => exact (show ∀ c ∈ ljust 12 "BAD".toList, c.toNat < 128 by decide)
      | some x => exact hP x
    have hl2 : ∀ t ∈ line ++ [heightText P z], ∀ c ∈ t, c.toNat < 128 := by
      intro t ht
      rcases List.mem_append.1 ht with h | h
      · exact hline t h
      · rw [List.mem_singleton] at h; subst h; exact htx
    split at hc
    · simp only [List.mem_append] at hc
      rcases hc with (hc | hc) | hc
      · have hint : ∀ L : List (List Char), (∀ t ∈ L, ∀ c ∈ t, c.toNat < 128) →
            ∀ c ∈ List.intercalate [' '] L, c.toNat < 128 := by
          intro L
          induction L with
          | nil => intro _ c hc; simp [List.intercalate] at hc
          | cons a L ihL =>
            intro h c hc
            cases L with
            | nil => exact h a (by simp) c (by simpa [List.intercalate] using hc)
            | cons b L =>
              have e : List.intercalate [' '] (a :: b :: L) =
                  a ++ ([' '] ++ List.intercalate [' '] (b :: L)) := by
                simp [List.intercalate]
              rw [e] at hc
              simp only [List.mem_append, List.mem_singleton] at hc
              rcases hc with hc | rfl | hc
              · exact h a (by simp) c hc
              · decide
              · exact ihL (fun t ht => h t (by simp [ht])) c hc
        exact hint _ hl2 c hc
      · rw [List.mem_singleton] at hc; subst hc; decide
      · exact ih _ _ (by simp) c hc
    · exact ih _ _ hl2 c hc

/-- The ASCII writer saves every surface with at least one point. -/
theorem C59_ascii_saves (P : Printer K) (hP : ∀ x, Plain (P.plain x)) (hF : ∀ x, Plain (P.fixed x))
    (log : K → Int) {created modified : List Char} (h1 : Plain created) (h2 : Plain modified)
    (s : Raw K) (hne : Container.flat s.data ≠ []) :
    ∃ b, writeAscii P log created modified s = .ok b := by
  unfold writeAscii
  have hm : ∃ m, maxAbs s.data = .ok m := by
    unfold maxAbs; rw [if_neg hne]; exact ⟨_, rfl⟩
  obtain ⟨m, hm⟩ := hm
  rw [hm]
  dsimp only
  unfold asciiBytes
  rw [if_pos]
  · exact ⟨_, rfl⟩
  rw [List.all_eq_true]
  intro c hc
  apply decide_eq_true
  simp only [List.mem_append] at hc
  have hh := asciiFields_plain P hP h1 h2 (scaleFactor log m) s
  rcases hc with ((((((hc | hc) | hc) | hc) | hc) | hc) | hc) | hc
  · exact (show ∀ c ∈ magicAscii, c.toNat < 128 by decide) c hc
  · exact (show ∀ c ∈ ['\n'], c.toNat < 128 by decide) c hc
  · have := hh c hc; omega
  · exact (show ∀ c ∈ ['*', '\n'], c.toNat < 128 by decide) c hc
  · exact dataLines_ascii P (fun x c hc => by have := hF x c hc; omega) _ _ _ _ (by simp) c hc
  · exact (show ∀ c ∈ ['*', '\n'], c.toNat < 128 by decide) c hc
  · exact (show ∀ c ∈ "<ExportedBy>Surfalize</ExportedBy>".toList, c.toNat < 128 by decide) c hc
  · exact (show ∀ c ∈ ['\n', '*', '\n'], c.toNat < 128 by decide) c hc

/-- What the ASCII writer produces, the reader rejects: the header is one line because the line end is
printed as the text of a bytes object. Holds for every surface, whatever the texts of the numbers,
as long as they are printable and hold no asterisk. -/
theorem C59_ascii_unreadable
    (finish : List (List Char × List Char) → List Char → Except Err (Raw K)) (enc : Encoding)
    (P : Printer K) (hP : ∀ x, Plain (P.plain x)) (log : K → Int) {created modified : List Char}
    (h1 : Plain created) (h2 : Plain modified) (s : Raw K) (b : Bytes)
    (hw : writeAscii P log created modified s = .ok b) :
    readSdf finish enc ⟨b, 0⟩ = .error .valueError := by
  unfold writeAscii at hw
  cases hm : maxAbs s.data with
  | error e => rw [hm] at hw; cases hw
  | ok m =>
    rw [hm] at hw
    dsimp only at hw
    set scale := scaleFactor log m
    set D := dataLines P (Container.flat s.data).length 0 []
      ((Container.flat s.data).map (scaleHeight scale))
    set F := asciiFields P created modified scale s with hF
    set H := F.flatMap fun kv => kv.1.toList ++ " = ".toList ++ kv.2 ++ crlfText with hH
    have hplain : Plain H := asciiFields_plain P hP h1 h2 scale s
    have hhead : ∃ T, H = 'M' :: T := ⟨_, rfl⟩
    obtain ⟨T, hT⟩ := hhead
    have hcount : 2 ≤ H.count '=' := by
      rw [hH, hF]
      simp only [asciiFields, List.flatMap_cons, List.count_append]
      have : (" = ".toList).count '=' = 1 := by decide
      simp only [this]
      omega
    unfold asciiBytes at hw
    split at hw
    swap
    · cases hw
    rename_i hasc
    simp only [Except.ok.injEq] at hw
    have hasc' := fun c hc => (of_decide_eq_true (List.all_eq_true.1 hasc c hc))
    have hsplit : ∃ rest, magicAscii ++ ['\n'] ++ H ++ ['*', '\n'] ++ D ++ ['*', '\n'] ++
        "<ExportedBy>Surfalize</ExportedBy>".toList ++ ['\n', '*', '\n'] =
        magicAscii ++ ('\n' :: ('M' :: T) ++ '*' :: rest) := by
      refine ⟨'\n' :: (D ++ ['*', '\n'] ++
        "<ExportedBy>Surfalize</ExportedBy>".toList ++ ['\n', '*', '\n']), ?_⟩
      rw [hT]; simp
    obtain ⟨rest, hrest⟩ := hsplit
    rw [hrest] at hw hasc'
    rw [List.map_append] at hw
    set A := magicAscii.map fun c => UInt8.ofNat c.toNat with hA
    have hA8 : A.length = 8 := by rw [hA]; decide
    have hAeq : A = utf8 magicAscii := by rw [hA]; decide
    subst hw
    set B := ('\n' :: ('M' :: T) ++ '*' :: rest).map fun c => UInt8.ofNat c.toNat with hB
    have hread : (Handle.mk (A ++ B) 0).read 8 = (A, ⟨A ++ B, 8⟩) := by
      simp [Handle.read, hA8]
    have hdrop : (A ++ B).drop 8 = B := List.drop_left' hA8
    unfold readSdf
    rw [hread]
    dsimp only
    rw [if_pos hAeq]
    have hBasc : ∀ c ∈ '\n' :: ('M' :: T) ++ '*' :: rest, c.toNat < 128 := fun c hc =>
      hasc' c (List.mem_append_right _ hc)
    refine readAscii_error finish (x := 'M') (hdr := T) (rest := rest) (by decide) ?_ ?_ ?_ ?_ ?_
    · intro y hy
      rw [hdrop] at hy
      obtain ⟨c, hc, rfl⟩ := List.mem_map.1 hy
      have := hBasc c hc
      rw [UInt8.lt_iff_toNat_lt, UInt8.toNat_ofNat']
      have e : (128 : UInt8).toNat = 128 := rfl
      rw [e]; omega
    · rw [hdrop, hB]; exact latin1_ascii hBasc
    · rw [← hT]; exact fun h => (hplain _ h).2.2 rfl
    · rw [← hT]
      intro c hc
      have := (hplain c hc).1
      by_contra hn
      simp only [Bool.not_eq_false, isLineBreak, Bool.or_eq_true, decide_eq_true_eq] at hn
      rcases hn with (((((rfl | rfl) | rfl) | rfl) | rfl) | rfl) | rfl <;> revert this <;> decide
    · rw [← hT]; exact hcount

/-! ### C67: what the stored items stand for -/

/-- A binary SDF file with 16-bit or 32-bit integers: a point is non-measured iff the file stores the
smallest integer of the type there, every other item is multiplied by the height scale. -/
theorem C67_sdf_integers
    (finish : List (List Char × List Char) → List Char → Except Err (Raw K)) (enc : Encoding)
    (buf : Bytes) (d : Dict K) (nx ny : Nat) (ty : Int) (w : Nat) (k sx sy : K)
    (hty : ty = 5 ∧ w = 2 ∨ ty = 6 ∧ w = 4)
    (hmagic : buf.take 8 = "bISO-1.0".toList.map fun c => UInt8.ofNat c.toNat)
    (hd : read enc ⟨buf, 8⟩ (layout K) = .ok (d, ⟨buf, 81⟩))
    (h1 : d "NumPoints" = some (.int nx)) (h2 : d "NumProfiles" = some (.int ny))
    (h3 : d "DataType" = some (.int ty)) (h4 : d "Zscale" = some (.num (.fin k)))
    (h5 : d "Xscale" = some (.num (.fin sx))) (h6 : d "Yscale" = some (.num (.fin sy)))
    (hlen : 81 + w * (nx * ny) ≤ buf.length) :
    ∃ r : Raw K, readSdf finish enc ⟨buf, 0⟩ = .ok r ∧ r.data.WF ∧ r.data.nx = nx ∧ r.data.ny = ny ∧
      r.stepX = sx * 10 ^ 6 ∧ r.stepY = sy * 10 ^ 6 ∧
      ∀ i j, i < ny → j < nx → ∀ raw,
        raw = bytesInt true false w ((buf.drop (81 + w * (i * nx + j))).take w) →
        (raw = intMin true w → r.data.get i j = none) ∧
        (raw ≠ intMin true w → r.data.get i j = some ((raw : K) * k * 10 ^ 6)) := by
  obtain ⟨t, ht, htw, hitem⟩ : ∃ t : DType, dtypeOf ty = some t ∧ t.size = w ∧ ∀ bs : Bytes,
      t.item K bs = if bytesInt true false w bs = intMin true w then none
        else some ((bytesInt true false w bs : Int) : K) := by
    rcases hty with ⟨rfl, rfl⟩ | ⟨rfl, rfl⟩
    · refine ⟨.int16, rfl, rfl, fun bs => ?_⟩
      have : intMin true 2 = -2 ^ 15 := by decide
      rw [this]; rfl
    · refine ⟨.int32, rfl, rfl, fun bs => ?_⟩
      have : intMin true 4 = -2 ^ 31 := by decide
      rw [this]; rfl
  have hwpos : 0 < w := by rcases hty with ⟨-, rfl⟩ | ⟨-, rfl⟩ <;> omega
  have hbuf8 : (8 : Nat) ≤ buf.length := by omega
  have hread : (Handle.mk buf 0).read 8 = (buf.take 8, ⟨buf, 8⟩) := by
    simp [Handle.read, List.length_take, hbuf8]
  have hutf : ("bISO-1.0".toList.map fun c => UInt8.ofNat c.toNat) = utf8 magicBinary := by decide
  have hn : t.size * (nx : Int).toNat * (ny : Int).toNat = w * (nx * ny) := by
    rw [htw]; simp only [Int.toNat_natCast]; ring
  have hd2 : ((Handle.mk buf 81).read (w * (nx * ny))).1 = (buf.drop 81).take (w * (nx * ny)) := rfl
  have hl2 : ((buf.drop 81).take (w * (nx * ny))).length = w * (nx * ny) := by
    simp only [List.length_take, List.length_drop]; omega
  have hfb : ∃ l, fromBuffer w (t.item K) ((buf.drop 81).take (w * (nx * ny))) = .ok l := by
    unfold fromBuffer
    rw [if_pos (by rw [hl2]; exact Nat.mul_mod_right _ _)]
    exact ⟨_, rfl⟩
  obtain ⟨l, hl⟩ := hfb
  obtain ⟨-, hll, hlg⟩ := fromBuffer_get hl
  rw [hl2, Nat.mul_div_cancel_left _ hwpos] at hll hlg
  have hre : ∃ g, reshape (l.map (height (some k))) ny nx = .ok g := by
    unfold reshape
    rw [if_pos ⟨by omega, by omega, by rw [List.length_map, hll]; push_cast; ring⟩]
    exact ⟨_, rfl⟩
  obtain ⟨g, hg⟩ := hre
  obtain ⟨hwf, hgy, hgx, -, hget⟩ := reshape_get hg
  simp only [Int.toNat_natCast] at hgy hgx
  refine ⟨⟨g, sx * 10 ^ 6, sy * 10 ^ 6⟩, ?_, hwf, hgx, hgy, rfl, rfl, ?_⟩
  · unfold readSdf
    rw [hread]
    dsimp only
    rw [hmagic, hutf, if_neg (by decide), if_pos rfl]
    unfold readBinary
    rw [hd]
    dsimp only
    simp only [getInt, getNum, h1, h2, h3, h4, h5, h6, toOpt, ht, hn, hd2, hl2]
    rw [if_neg (by simp), htw, hl]
    dsimp only
    rw [hg]
  · intro i j hi hj raw hraw
    have hk : i * nx + j < nx * ny := by
      calc i * nx + j < i * nx + nx := by omega
        _ = (i + 1) * nx := by ring
        _ ≤ ny * nx := Nat.mul_le_mul_right _ hi
        _ = nx * ny := by ring
    have hbytes : ((((buf.drop 81).take (w * (nx * ny))).drop ((i * nx + j) * w)).take w) =
        (buf.drop (81 + w * (i * nx + j))).take w := by
      rw [List.drop_take, List.take_take, List.drop_drop]
      have hb : (i * nx + j) * w + w ≤ w * (nx * ny) := by
        calc (i * nx + j) * w + w = w * (i * nx + j + 1) := by ring
          _ ≤ w * (nx * ny) := Nat.mul_le_mul_left _ hk
      congr 1
      · omega
      · congr 1; ring
    have h8 := hget i j (by omega) (by omega)
    rw [List.getElem?_map, hgx, hlg _ hk, hbytes, hitem, ← hraw] at h8
    have h9 : g.get i j = height (some k) (if raw = intMin true w then none else some (raw : K)) := by
      simp only [Grid.get]
      rw [h8]; rfl
    constructor
    · intro h
      rw [h9, if_pos h]; rfl
    · intro h
      rw [h9, if_neg h]; rfl

/-- A file written with doubles: items that are not finite numbers are non-measured points, all
others are multiplied by the height scale. -/
theorem C67_sdf_doubles
    (finish : List (List Char × List Char) → List Char → Except Err (Raw K)) (enc : Encoding)
    (buf : Bytes) (d : Dict K) (nx ny : Nat) (k sx sy : K)
    (hmagic : buf.take 8 = "bISO-1.0".toList.map fun c => UInt8.ofNat c.toNat)
    (hd : read enc ⟨buf, 8⟩ (layout K) = .ok (d, ⟨buf, 81⟩))
    (h1 : d "NumPoints" = some (.int nx)) (h2 : d "NumProfiles" = some (.int ny))
    (h3 : d "DataType" = some (.int 7)) (h4 : d "Zscale" = some (.num (.fin k)))
    (h5 : d "Xscale" = some (.num (.fin sx))) (h6 : d "Yscale" = some (.num (.fin sy)))
    (hlen : 81 + 8 * (nx * ny) ≤ buf.length) :
    ∃ r : Raw K, readSdf finish enc ⟨buf, 0⟩ = .ok r ∧ r.data.WF ∧ r.data.nx = nx ∧ r.data.ny = ny ∧
      r.stepX = sx * 10 ^ 6 ∧ r.stepY = sy * 10 ^ 6 ∧
      ∀ i j, i < ny → j < nx → ∀ raw : FVal K,
        raw = f64.val K (leNat ((buf.drop (81 + 8 * (i * nx + j))).take 8)) →
        (∀ x, raw = .fin x → r.data.get i j = some (x * k * 10 ^ 6)) ∧
        ((∀ x, raw ≠ .fin x) → r.data.get i j = none) := by
  have hbuf8 : (8 : Nat) ≤ buf.length := by omega
  have hread : (Handle.mk buf 0).read 8 = (buf.take 8, ⟨buf, 8⟩) := by
    simp [Handle.read, List.length_take, hbuf8]
  have hutf : ("bISO-1.0".toList.map fun c => UInt8.ofNat c.toNat) = utf8 magicBinary := by decide
  have hn : DType.double.size * (nx : Int).toNat * (ny : Int).toNat = 8 * (nx * ny) := by
    simp only [DType.size, Int.toNat_natCast]; ring
  have hd2 : ((Handle.mk buf 81).read (8 * (nx * ny))).1 = (buf.drop 81).take (8 * (nx * ny)) := rfl
  have hl2 : ((buf.drop 81).take (8 * (nx * ny))).length = 8 * (nx * ny) := by
    simp only [List.length_take, List.length_drop]; omega
  have hfb : ∃ l, fromBuffer 8 (DType.double.item K) ((buf.drop 81).take (8 * (nx * ny))) = .ok l := by
    unfold fromBuffer
    rw [if_pos (by rw [hl2]; exact Nat.mul_mod_right _ _)]
    exact ⟨_, rfl⟩
  obtain ⟨l, hl⟩ := hfb
  obtain ⟨-, hll, hlg⟩ := fromBuffer_get hl
  rw [hl2, Nat.mul_div_cancel_left _ (by omega)] at hll hlg
  have hre : ∃ g, reshape (l.map (height (some k))) ny nx = .ok g := by
    unfold reshape
    rw [if_pos ⟨by omega, by omega, by rw [List.length_map, hll]; push_cast; ring⟩]
    exact ⟨_, rfl⟩
  obtain ⟨g, hg⟩ := hre
  obtain ⟨hwf, hgy, hgx, -, hget⟩ := reshape_get hg
  simp only [Int.toNat_natCast] at hgy hgx
  refine ⟨⟨g, sx * 10 ^ 6, sy * 10 ^ 6⟩, ?_, hwf, hgx, hgy, rfl, rfl, ?_⟩
  · have h7 : dtypeOf 7 = some .double := rfl
    have h8 : DType.double.size = 8 := rfl
    unfold readSdf
    rw [hread]
    dsimp only
    rw [hmagic, hutf, if_neg (by decide), if_pos rfl]
    unfold readBinary
    rw [hd]
    dsimp only
    simp only [getInt, getNum, h1, h2, h3, h4, h5, h6, toOpt, h7, hn, hd2, hl2]
    rw [if_neg (by simp), h8, hl]
    dsimp only
    rw [hg]
  · intro i j hi hj raw hraw
    have hk : i * nx + j < nx * ny := by
      calc i * nx + j < i * nx + nx := by omega
        _ = (i + 1) * nx := by ring
        _ ≤ ny * nx := Nat.mul_le_mul_right _ hi
        _ = nx * ny := by ring
    have hbytes : ((((buf.drop 81).take (8 * (nx * ny))).drop ((i * nx + j) * 8)).take 8) =
        (buf.drop (81 + 8 * (i * nx + j))).take 8 := by
      rw [List.drop_take, List.take_take, List.drop_drop]
      congr 1
      · omega
      · congr 1; ring
    have h8 := hget i j (by omega) (by omega)
    rw [List.getElem?_map, hgx, hlg _ hk, hbytes] at h8
    have h9 : g.get i j = height (some k) (toOpt raw) := by
      simp only [Grid.get]
      rw [h8, hraw]; rfl
    constructor
    · rintro x rfl
      rw [h9]; rfl
    · intro h
      rw [h9]
      cases hr : raw with
      | fin x => exact absurd hr (h x)
      | inf n => rfl
      | nan => rfl

/-! ### Examples -/

/-- A surface with a missing point is saved as binary SDF and comes back. -/
example {c : FloatCodec ℚ} (hc : c.Nearest)
    (finish : List (List Char × List Char) → List Char → Except Err (Raw ℚ)) :
    ∃ b r, writeBinary c (fun m : ℚ => Int.log 10 m) "171120260815".toList "171120260815".toList
        ⟨⟨[[some 1, some (-2)], [none, some 3]], 2⟩, 1, 2⟩ = .ok b ∧
      readSdf finish .utf8 ⟨b, 0⟩ = .ok r ∧ r.data.get 1 0 = none ∧
      ∃ z, r.data.get 0 1 = some z ∧ |z - (-2)| ≤ 1 / 10 ^ 14 := by
  have h1 := one_lt_threshold (K := ℚ) true
  simp only [if_true] at h1
  obtain ⟨b, hb⟩ := C59_saves c (exists_log10 (K := ℚ)) "171120260815".toList "171120260815".toList
    ⟨⟨[[some 1, some (-2)], [none, some 3]], 2⟩, 1, 2⟩ (by decide) (by decide) (by decide)
    (lt_trans (by norm_num [abs_of_pos]) h1) (lt_trans (by norm_num [abs_of_pos]) h1) (by
      intro z hz
      have hz' : z = 1 ∨ z = -2 ∨ z = 3 := by simpa [Container.flat] using hz
      have : |z| ≤ 10 ^ 1 := by rcases hz' with rfl | rfl | rfl <;> norm_num
      exact le_trans this (pow_le_pow_right₀ (by norm_num) (by norm_num)))
  obtain ⟨r, hr, -, -, -, -, -, h⟩ := C59_round_trip_partial hc finish .utf8 (exists_log10 (K := ℚ))
    (by decide +kernel) (by decide +kernel) _ (by decide) (Or.inr ⟨1, by simp [Container.flat], by
      rw [abs_one, div_le_one (by positivity)]
      exact one_le_pow₀ (by norm_num)⟩) b hb []
  rw [List.append_nil] at hr
  refine ⟨b, r, hb, hr, (h 1 0 (by decide) (by decide)).1 rfl, ?_⟩
  obtain ⟨z, hz1, -, hz2⟩ := (h 0 1 (by decide) (by decide)).2 (-2) rfl
  refine ⟨z, hz1, le_trans (hz2 3 ?_) ?_⟩
  · intro w hw
    have hz' : w = 1 ∨ w = -2 ∨ w = 3 := by simpa [Container.flat] using hw
    rcases hz' with rfl | rfl | rfl <;> norm_num
  · have : (3 : ℚ) / 2 ^ 1070 ≤ 3 / 2 ^ 60 :=
      div_le_div_of_nonneg_left (by norm_num) (by positivity)
        (pow_le_pow_right₀ (by norm_num) (by norm_num))
    refine le_trans (add_le_add_right this _) ?_
    norm_num [abs_of_pos]

/-- The ASCII writer succeeds on a surface with a missing point (here with numbers printed as
"1.5"). -/
example : ∃ b, writeAscii ⟨fun _ => "1.5".toList, fun _ => "1.5000000000".toList⟩
    (fun m : ℚ => Int.log 10 m) "171120260815".toList "171120260815".toList
    ⟨⟨[[some 1, none]], 2⟩, 1, 2⟩ = .ok b :=
  C59_ascii_saves _ (fun _ => show Plain "1.5".toList by decide)
    (fun _ => show Plain "1.5000000000".toList by decide) _ (by decide) (by decide) _ (by decide)

/-- A header of a file with 16-bit integers, as `C67_sdf_integers` assumes it. -/
example {c : FloatCodec ℚ} (hc : c.Nearest) (dat : Bytes) (hdat : dat.length = 8) :
    ∃ (buf : Bytes) (d : Dict ℚ) (k sx sy : ℚ),
      buf.take 8 = ("bISO-1.0".toList.map fun c => UInt8.ofNat c.toNat) ∧
      read .utf8 ⟨buf, 8⟩ (layout ℚ) = .ok (d, ⟨buf, 81⟩) ∧
      d "NumPoints" = some (.int 2) ∧ d "NumProfiles" = some (.int 2) ∧
      d "DataType" = some (.int 5) ∧ d "Zscale" = some (.num (.fin k)) ∧
      d "Xscale" = some (.num (.fin sx)) ∧ d "Yscale" = some (.num (.fin sy)) ∧
      81 + 2 * (2 * 2) ≤ buf.length ∧ buf.drop 81 = dat := by
  have h1 := one_lt_threshold (K := ℚ) true
  set d0 : Dict ℚ := fun k => List.lookup k
    [("ManufacID", .str "x".toList), ("CreateDate", .str "171120260815".toList),
     ("ModDate", .str "171120260815".toList), ("NumPoints", .int 2), ("NumProfiles", .int 2),
     ("Xscale", .num (.fin (1/2))), ("Yscale", .num (.fin (1/2))), ("Zscale", .num (.fin (1/4))),
     ("Zresolution", .num (.fin (1/4))), ("Compression", .int 0), ("DataType", .int 5),
     ("CheckType", .int 0)] with hd0
  have hsm : ∀ x : ℚ, |x| ≤ 1 → |x| < FFormat.threshold ℚ (if true then f64 else f32) := fun x h =>
    lt_of_le_of_lt h h1
  obtain ⟨hdr, hw⟩ := write_ok_of (c := c) (d := d0) (L := layout ℚ) (by
    simp only [layout, List.forall_mem_cons, List.not_mem_nil, false_imp_iff, implies_true,
      and_true]
    refine ⟨txt_entry_ok c rfl, txt_entry_ok c rfl, txt_entry_ok c rfl, ?_, ?_, ?_, ?_, ?_, ?_, ?_,
      ?_, ?_⟩
    · exact int_entry_ok c (i := 2) rfl (by decide) (by decide)
    · exact int_entry_ok c (i := 2) rfl (by decide) (by decide)
    · exact num_entry_ok c (x := 1/2) rfl (hsm _ (by norm_num [abs_of_pos]))
    · exact num_entry_ok c (x := 1/2) rfl (hsm _ (by norm_num [abs_of_pos]))
    · exact num_entry_ok c (x := 1/4) rfl (hsm _ (by norm_num [abs_of_pos]))
    · exact num_entry_ok c (x := 1/4) rfl (hsm _ (by norm_num [abs_of_pos]))
    · exact int_entry_ok c (i := 0) rfl (by decide) (by decide)
    · exact int_entry_ok c (i := 5) rfl (by decide) (by decide)
    · exact int_entry_ok c (i := 0) rfl (by decide) (by decide))
  obtain ⟨hlen, d', hr, hb⟩ := header_back hc .utf8 wf_layout names_nodup (d := d0) (by
    simp only [layout, TextFits]
    exact ⟨⟨_, _, rfl, cutTo_self _ _ (by decide +kernel)⟩, ⟨_, _, rfl, cutTo_self _ _ (by decide +kernel)⟩,
      ⟨_, _, rfl, cutTo_self _ _ (by decide +kernel)⟩, trivial⟩) hw (utf8 magicBinary) dat
  rw [width_layout] at hlen
  have h8 : (utf8 magicBinary).length = 8 := by decide
  rw [h8, hlen] at hr
  have nums : ∀ name (x : ℚ), Entry.field name (.fixed (.flt true false 1)) ∈ layout ℚ →
      d0 name = some (.num (.fin x)) → ∃ y, d' name = some (.num (.fin y)) := by
    intro name x hm hx
    obtain ⟨v, v', e1, e2, e3⟩ := hb name _ hm
    rw [hx] at e1
    cases e1
    obtain ⟨y, rfl, -⟩ := e3
    exact ⟨y, e2⟩
  have ints : ∀ name (w : Nat) (i : Int), Entry.field name (.fixed (.int false false w)) ∈ layout ℚ →
      d0 name = some (.int i) → d' name = some (.int i) := by
    intro name w i hm hx
    obtain ⟨v, v', e1, e2, e3⟩ := hb name _ hm
    rw [hx] at e1
    cases e1
    have : v' = .int i := e3
    rw [e2, this]
  obtain ⟨k, hk⟩ := nums "Zscale" (1/4) (by simp [layout]) rfl
  obtain ⟨sx, hsx⟩ := nums "Xscale" (1/2) (by simp [layout]) rfl
  obtain ⟨sy, hsy⟩ := nums "Yscale" (1/2) (by simp [layout]) rfl
  refine ⟨utf8 magicBinary ++ hdr ++ dat, d', k, sx, sy, ?_, hr, ints _ 2 2 (by simp [layout]) rfl,
    ints _ 2 2 (by simp [layout]) rfl, ints _ 1 5 (by simp [layout]) rfl, hk, hsx, hsy, ?_, ?_⟩
  · rw [List.append_assoc, List.take_append_of_le_length (by rw [h8]),
      List.take_of_length_le (by rw [h8])]
    decide
  · simp only [List.length_append, h8, hlen, hdat]; omega
  · exact List.drop_left' (by rw [List.length_append, h8, hlen])

end Props
end Surfalize
