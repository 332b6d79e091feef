import Verif.Lemmas.Sur
/-!
# C58: SUR files preserve heights within one quantisation step
-/
set_option linter.unusedSectionVars false
namespace Surfalize
namespace Props
open LayoutM LayoutSpec FileArr Sur
variable {K : Type} [Field K] [LinearOrder K] [IsStrictOrderedRing K] [FloorRing K]

/-- Rounding error of single precision. -/
theorem nearest_error {x y : K} (h : Nearest false x y) :
    |y - x| ≤ max (|x| / 2 ^ 24) (1 / 2 ^ 150) := by
  obtain ⟨hx, -, hb⟩ := h
  obtain ⟨y', ⟨n, hn⟩, h2⟩ := FFormat.near_exists f32 (by decide) x hx
  refine le_trans (hb n y' hn) (le_trans h2 (le_of_eq ?_))
  have e1 : (2 : K) ^ (-(f32.mb : Int) - 1) = 1 / 2 ^ 24 := by
    rw [show -(f32.mb : Int) - 1 = -((24 : Nat) : Int) by decide, zpow_neg, zpow_natCast]; simp
  have e2 : (2 : K) ^ (-f32.bias - (f32.mb : Int)) = 1 / 2 ^ 150 := by
    rw [show -f32.bias - (f32.mb : Int) = -((150 : Nat) : Int) by decide, zpow_neg, zpow_natCast]
    simp
  rw [e1, e2]
  ring_nf

theorem nearest_exact {x y : K} (h : Nearest false x y) (hr : f32.Repr x) : y = x := by
  obtain ⟨n, hn⟩ := hr
  have := h.2.2 n x hn
  simp only [sub_self, abs_zero, abs_nonpos_iff] at this
  linarith

/-- `lo` is the lowest and `hi` the highest measured height of `g`. -/
def Extremes (g : Grid (Option K)) (lo hi : K) : Prop :=
  some lo ∈ Container.flat g ∧ some hi ∈ Container.flat g ∧
  ∀ z, some z ∈ Container.flat g → lo ≤ z ∧ z ≤ hi

theorem extremes_nanmin {g : Grid (Option K)} {lo hi : K} (h : Extremes g lo hi) :
    nanmin (Container.flat g) = some lo ∧ nanmax (Container.flat g) = some hi := by
  obtain ⟨h1, h2, h3⟩ := h
  constructor
  · exact min?_spec.2 ⟨mem_measured.2 h1, fun x hx => (h3 x (mem_measured.1 hx)).1⟩
  · exact max?_spec.2 ⟨mem_measured.2 h2, fun x hx => (h3 x (mem_measured.1 hx)).2⟩

/-- Point-wise form of `read_written`. -/
theorem sur_points {c : FloatCodec K} (hc : c.Nearest) {T : Units.Text}
    (hT : UnitsSpec.Faithful T) (enc : Encoding) (inflate : Bytes → Except Err Bytes)
    (deflate : Bytes → Bytes) (nanInt : Int)
    (hn : -(2 ^ 31) ≤ nanInt ∧ nanInt ≤ 2 ^ 31 - 1) (clock : Clock) (comment : List Char)
    (s : Raw K) (hwf : s.data.WF) (b : Bytes)
    (hw : writeSur c nanInt deflate clock false comment s = .ok b) (post : Bytes) :
    ∃ r sz oz, readSur T enc inflate ⟨b ++ post, 0⟩ = .ok r ∧ r.data.WF ∧ r.data.ny = s.data.ny ∧
      r.data.nx = s.data.nx ∧ Nearest false s.stepX r.stepX ∧ Nearest false s.stepY r.stepY ∧
      Rounds (spacingZ s.data) sz ∧ Rounds (offsetZ s.data) oz ∧
      ∀ i j, i < s.data.ny → j < s.data.nx →
        r.data.get i j = stored nanInt s.data sz oz (s.data.get i j) := by
  obtain ⟨sx, sy, sz, oz, h1, h2, h3, h4, h5⟩ :=
    read_written hc hT enc inflate deflate nanInt hn clock comment s hwf b hw post
  refine ⟨_, sz, oz, h1, map_wf _ hwf, map_ny _ _, rfl, h2, h3, h4, h5, ?_⟩
  intro i j hi hj
  have hg := ofFn_get hwf
  have hrow : i < s.data.rows.length := hi
  have hlen : (s.data.rows[i]).length = s.data.nx := hwf _ (List.getElem_mem hrow)
  simp only [Grid.get, Container.map, List.getElem?_map]
  rw [List.getElem?_eq_getElem hrow]
  simp only [Option.map_some, Option.bind_some, List.getElem?_map]
  rw [List.getElem?_eq_getElem (by rw [hlen]; exact hj)]
  simp

/-- Saving a surface that is not flat as (uncompressed) SUR and loading it: same size, same
mask, lateral steps rounded to single precision, and every height `z` comes back as a height
within one quantisation step plus the single-precision error of the stored step (at most 128
quantisation steps) plus the single-precision error of the stored midpoint. Bytes `post` behind the
file are ignored. -/
theorem C58_round_trip_partial {c : FloatCodec K} (hc : c.Nearest) {T : Units.Text}
    (hT : UnitsSpec.Faithful T) (enc : Encoding) (inflate : Bytes → Except Err Bytes)
    (deflate : Bytes → Bytes) (nanInt : Int)
    (hn : -(2 ^ 31) ≤ nanInt ∧ nanInt ≤ 2 ^ 31 - 1) (clock : Clock) (comment : List Char)
    (s : Raw K) (hwf : s.data.WF) (lo hi : K) (hex : Extremes s.data lo hi) (hlt : lo < hi)
    (b : Bytes) (hw : writeSur c nanInt deflate clock false comment s = .ok b) (post : Bytes) :
    ∃ r : Raw K, readSur T enc inflate ⟨b ++ post, 0⟩ = .ok r ∧ r.data.WF ∧ r.data.ny = s.data.ny ∧
      r.data.nx = s.data.nx ∧ Nearest false s.stepX r.stepX ∧ Nearest false s.stepY r.stepY ∧
      ∀ i j, i < s.data.ny → j < s.data.nx →
        (s.data.get i j = none → r.data.get i j = none) ∧
        ∀ z, s.data.get i j = some z → ∃ z', r.data.get i j = some z' ∧
          |z' - z| ≤ (hi - lo) / (2 ^ 32 - 4)
            + max (128 * ((hi - lo) / (2 ^ 32 - 4))) (1 / 2 ^ 119)
            + max (|(lo + hi) / 2| / 2 ^ 24) (1 / 2 ^ 150) := by
  obtain ⟨r, sz, oz, h1, h2, h3, h4, h5, h6, hsz, hoz, hget⟩ :=
    sur_points hc hT enc inflate deflate nanInt hn clock comment s hwf b hw post
  refine ⟨r, h1, h2, h3, h4, h5, h6, ?_⟩
  obtain ⟨hlo, hhi⟩ := extremes_nanmin hex
  have hD : (0 : K) < 2 ^ 32 - 4 := by norm_num
  have hpos : 0 < hi - lo := sub_pos.2 hlt
  have hrange : Sur.range s.data = some (hi - lo) := by simp [Sur.range, hlo, hhi, osub]
  have hsp : spacingZ s.data = some ((hi - lo) / (2 ^ 32 - 4)) := by
    simp only [spacingZ, hrange, Option.map_some, dataMax, dataMin]
    congr 2; push_cast; ring
  have hmid : offsetZ s.data = some ((lo + hi) / 2) := by
    simp only [offsetZ, hrange, hlo, Option.map_some, oadd, Option.bind_some]
    congr 1; ring
  rw [hsp] at hsz
  rw [hmid] at hoz
  obtain ⟨sz', rfl, hszn⟩ := hsz
  obtain ⟨oz', rfl, hozn⟩ := hoz
  have hse := nearest_error hszn
  have hoe := nearest_error hozn
  set st := (hi - lo) / (2 ^ 32 - 4) with hst
  have hstpos : 0 < st := div_pos hpos hD
  intro i j hi' hj'
  have hmem := get_mem hwf hi' hj'
  refine ⟨?_, ?_⟩
  · intro hz
    rw [hget i j hi' hj', hz]
    rw [hz] at hmem
    unfold stored
    rw [if_pos ⟨hmem, quantise_none nanInt s.data hmem⟩]
  · intro z hz
    rw [hz] at hmem
    obtain ⟨x, -, hq, hx, hq1, hq2⟩ := quantise_some nanInt s.data hlo hhi hlt hmem
    refine ⟨((quantise nanInt s.data (some z) : Int) : K) * sz' + oz', ?_, ?_⟩
    · rw [hget i j hi' hj', hz]
      unfold stored
      rw [if_neg (by rintro ⟨-, h⟩; omega)]
      simp [omul, oadd]
    · set q : K := ((quantise nanInt s.data (some z) : Int) : K) with hqdef
      have hqx : |q - x| < 1 := by rw [hqdef, hq]; exact (pyInt_trunc x).1
      have hzx : z = x * st + (lo + hi) / 2 := by
        rw [hx, hst]; field_simp; ring
      have hq1' : (-(2 ^ 31) : K) ≤ q := by
        have : ((dataMin : Int) : K) ≤ q := by rw [hqdef]; exact_mod_cast hq1
        refine le_trans ?_ this; simp only [dataMin]; push_cast; linarith
      have hq2' : q ≤ (2 ^ 31 : K) := by
        have : q ≤ ((dataMax : Int) : K) := by rw [hqdef]; exact_mod_cast hq2
        refine le_trans this ?_; simp only [dataMax]; push_cast; linarith
      have hqa : |q| ≤ 2 ^ 31 := abs_le.2 ⟨hq1', hq2'⟩
      have e : q * sz' + oz' - z = (q - x) * st + q * (sz' - st) + (oz' - (lo + hi) / 2) := by
        rw [hzx]; ring
      rw [e]
      have a1 : |(q - x) * st| ≤ st := by
        rw [abs_mul, abs_of_pos hstpos]
        calc |q - x| * st ≤ 1 * st := mul_le_mul_of_nonneg_right hqx.le hstpos.le
          _ = st := one_mul st
      have a2 : |q * (sz' - st)| ≤ max (128 * st) (1 / 2 ^ 119) := by
        rw [abs_mul]
        rw [abs_of_pos hstpos] at hse
        calc |q| * |sz' - st| ≤ 2 ^ 31 * max (st / 2 ^ 24) (1 / 2 ^ 150) :=
              mul_le_mul hqa hse (abs_nonneg _) (by positivity)
          _ = max (128 * st) (1 / 2 ^ 119) := by
              rw [mul_max_of_nonneg _ _ (by positivity)]
              congr 1
              · ring
              · norm_num
      calc |(q - x) * st + q * (sz' - st) + (oz' - (lo + hi) / 2)|
          ≤ |(q - x) * st| + |q * (sz' - st)| + |oz' - (lo + hi) / 2| := abs_add_three _ _ _
        _ ≤ _ := by linarith

/-- If the quantisation step and the midpoint are single-precision numbers, heights come back
within one quantisation step, the lowest and the highest exactly. -/
theorem C58_one_step_partial {c : FloatCodec K} (hc : c.Nearest) {T : Units.Text}
    (hT : UnitsSpec.Faithful T) (enc : Encoding) (inflate : Bytes → Except Err Bytes)
    (deflate : Bytes → Bytes) (nanInt : Int)
    (hn : -(2 ^ 31) ≤ nanInt ∧ nanInt ≤ 2 ^ 31 - 1) (clock : Clock) (comment : List Char)
    (s : Raw K) (hwf : s.data.WF) (lo hi : K) (hex : Extremes s.data lo hi) (hlt : lo < hi)
    (hrs : f32.Repr ((hi - lo) / (2 ^ 32 - 4))) (hrm : f32.Repr ((lo + hi) / 2))
    (b : Bytes) (hw : writeSur c nanInt deflate clock false comment s = .ok b) (post : Bytes) :
    ∃ r : Raw K, readSur T enc inflate ⟨b ++ post, 0⟩ = .ok r ∧
      ∀ i j, i < s.data.ny → j < s.data.nx → ∀ z, s.data.get i j = some z →
        ∃ z', r.data.get i j = some z' ∧ |z' - z| < (hi - lo) / (2 ^ 32 - 4) ∧
          (z = lo ∨ z = hi → z' = z) := by
  obtain ⟨r, sz, oz, h1, h2, h3, h4, h5, h6, hsz, hoz, hget⟩ :=
    sur_points hc hT enc inflate deflate nanInt hn clock comment s hwf b hw post
  refine ⟨r, h1, ?_⟩
  obtain ⟨hlo, hhi⟩ := extremes_nanmin hex
  have hD : (0 : K) < 2 ^ 32 - 4 := by norm_num
  have hpos : 0 < hi - lo := sub_pos.2 hlt
  have hrange : Sur.range s.data = some (hi - lo) := by simp [Sur.range, hlo, hhi, osub]
  have hsp : spacingZ s.data = some ((hi - lo) / (2 ^ 32 - 4)) := by
    simp only [spacingZ, hrange, Option.map_some, dataMax, dataMin]
    congr 2; push_cast; ring
  have hmid : offsetZ s.data = some ((lo + hi) / 2) := by
    simp only [offsetZ, hrange, hlo, Option.map_some, oadd, Option.bind_some]
    congr 1; ring
  rw [hsp] at hsz
  rw [hmid] at hoz
  obtain ⟨sz', rfl, hszn⟩ := hsz
  obtain ⟨oz', rfl, hozn⟩ := hoz
  rw [nearest_exact hszn hrs, nearest_exact hozn hrm] at hget
  set st := (hi - lo) / (2 ^ 32 - 4) with hst
  have hstpos : 0 < st := div_pos hpos hD
  intro i j hi' hj' z hz
  have hmem := get_mem hwf hi' hj'
  rw [hz] at hmem
  obtain ⟨x, -, hq, hx, hq1, hq2⟩ := quantise_some nanInt s.data hlo hhi hlt hmem
  have hzx : z = x * st + (lo + hi) / 2 := by
    rw [hx, hst]; field_simp; ring
  refine ⟨((quantise nanInt s.data (some z) : Int) : K) * st + (lo + hi) / 2, ?_, ?_, ?_⟩
  · rw [hget i j hi' hj', hz]
    unfold stored
    rw [if_neg (by rintro ⟨-, h⟩; omega)]
    simp [omul, oadd]
  · rw [hq]
    have hqx := (pyInt_trunc x).1
    have e : ((pyInt x : Int) : K) * st + (lo + hi) / 2 - z = (((pyInt x : Int) : K) - x) * st := by
      rw [hzx]; ring
    rw [e, abs_mul, abs_of_pos hstpos]
    calc |((pyInt x : Int) : K) - x| * st < 1 * st := mul_lt_mul_of_pos_right hqx hstpos
      _ = st := one_mul st
  · intro hor
    rw [hq]
    have hxi : ∃ n : Int, x = (n : K) := by
      rcases hor with h | h
      · exact ⟨-(2 ^ 31 - 2), by rw [hx, h]; push_cast; simp; norm_num⟩
      · exact ⟨2 ^ 31 - 2, by rw [hx, h, div_self hpos.ne']; push_cast; ring⟩
    obtain ⟨n, hxn⟩ := hxi
    rw [hzx, hxn, pyInt_intCast]

/-- Single-precision numbers above `2^23` are integers. -/
theorem f32_large_int {y : K} (h : f32.Repr y) (hy : (2 : K) ^ 23 < |y|) :
    ∃ n : Int, y = (n : K) := by
  obtain ⟨n, hn⟩ := h
  have hmag : ∀ e m : Nat, (2 : K) ^ 23 < |FFormat.magnitude K f32 e m| → m < 2 ^ 23 →
      ∃ k : Int, FFormat.magnitude K f32 e m = (k : K) := by
    intro e m hgt hm
    have h2 : (0 : K) < 2 := by norm_num
    have hbias : f32.bias = 127 := by decide
    have hmb : ((f32.mb : Nat) : Int) = 23 := rfl
    unfold FFormat.magnitude at hgt ⊢
    rw [hbias, hmb] at hgt ⊢
    by_cases he : e = 0
    · exfalso
      rw [if_pos he] at hgt
      rw [abs_of_nonneg (mul_nonneg (by positivity) (zpow_pos h2 _).le)] at hgt
      have h3 : (m : K) < 2 ^ 23 := by exact_mod_cast hm
      have h4 : (2 : K) ^ ((1 : Int) - 127 - 23) ≤ 1 :=
        zpow_le_one_of_nonpos₀ (by norm_num) (by norm_num)
      have h5 : (m : K) * (2 : K) ^ ((1 : Int) - 127 - 23) ≤ (m : K) * 1 :=
        mul_le_mul_of_nonneg_left h4 (by positivity)
      linarith
    · rw [if_neg he] at hgt ⊢
      by_cases h150 : 150 ≤ e
      · obtain ⟨t, rfl⟩ : ∃ t, e = 150 + t := ⟨e - 150, by omega⟩
        refine ⟨((2 ^ f32.mb + m : Nat) : Int) * 2 ^ t, ?_⟩
        rw [show ((150 + t : Nat) : Int) - 127 - 23 = (t : Int) by push_cast; ring, zpow_natCast]
        push_cast; rfl
      · exfalso
        rw [abs_of_nonneg (mul_nonneg (by positivity) (zpow_pos h2 _).le)] at hgt
        have h3 : ((2 ^ f32.mb + m : Nat) : K) < 2 ^ 24 := by
          have : 2 ^ f32.mb + m < 2 ^ 24 := by
            have : f32.mb = 23 := rfl
            rw [this]; omega
          exact_mod_cast this
        have h4 : (2 : K) ^ ((e : Int) - 127 - 23) ≤ (2 : K) ^ (-1 : Int) :=
          zpow_le_zpow_right₀ (by norm_num) (by omega)
        have h5 : ((2 ^ f32.mb + m : Nat) : K) * (2 : K) ^ ((e : Int) - 127 - 23) ≤
            2 ^ 24 * (2 : K) ^ (-1 : Int) :=
          mul_le_mul h3.le h4 (zpow_pos h2 _).le (by positivity)
        have h6 : (2 : K) ^ 24 * (2 : K) ^ (-1 : Int) = 2 ^ 23 := by norm_num
        linarith
  unfold FFormat.val at hn
  have hm : n % 2 ^ f32.mb < 2 ^ 23 := Nat.mod_lt _ (by decide)
  generalize n % 2 ^ f32.mb = m at hn hm
  generalize n / 2 ^ f32.mb % 2 ^ f32.eb = e at hn
  simp only at hn
  split at hn
  · split at hn <;> cases hn
  · injection hn with hn
    split at hn
    · rw [← hn, abs_neg] at hy
      obtain ⟨k, hk⟩ := hmag e m hy hm
      exact ⟨-k, by rw [← hn, hk]; push_cast; rfl⟩
    · rw [← hn] at hy
      obtain ⟨k, hk⟩ := hmag e m hy hm
      exact ⟨k, by rw [← hn, hk]⟩

/-- Two heights of sixteen million and sixteen million and one micrometres. -/
def highSurface : Raw ℚ := ⟨⟨[[some (2 ^ 24), some (2 ^ 24 + 1)]], 2⟩, 1, 1⟩

/-- The height precision of one quantisation step is not reached in general: the stored
midpoint has single precision, and for this surface one of the two heights comes back off by
almost half a micrometre, more than a thousand million quantisation steps. -/
theorem C58_not_one_step {c : FloatCodec ℚ} (hc : c.Nearest) {T : Units.Text}
    (hT : UnitsSpec.Faithful T) (enc : Encoding) (inflate : Bytes → Except Err Bytes)
    (deflate : Bytes → Bytes) (nanInt : Int)
    (hn : -(2 ^ 31) ≤ nanInt ∧ nanInt ≤ 2 ^ 31 - 1) (clock : Clock) (comment : List Char)
    (b : Bytes) (hw : writeSur c nanInt deflate clock false comment highSurface = .ok b) (post : Bytes) :
    ∃ (r : Raw ℚ) (z0 z1 : ℚ), readSur T enc inflate ⟨b ++ post, 0⟩ = .ok r ∧ r.data.get 0 0 = some z0 ∧
      r.data.get 0 1 = some z1 ∧ (2 / 5 < |z0 - 2 ^ 24| ∨ 2 / 5 < |z1 - (2 ^ 24 + 1)|) := by
  have hwf : highSurface.data.WF := by decide
  obtain ⟨r, sz, oz, h1, h2, h3, h4, h5, h6, hsz, hoz, hget⟩ :=
    sur_points hc hT enc inflate deflate nanInt hn clock comment highSurface hwf b hw post
  have hex : Extremes highSurface.data (2 ^ 24) (2 ^ 24 + 1) := by
    refine ⟨by simp [highSurface, Container.flat], by simp [highSurface, Container.flat], ?_⟩
    intro z hz
    have : z = 2 ^ 24 ∨ z = 2 ^ 24 + 1 := by
      simpa [highSurface, Container.flat] using hz
    rcases this with rfl | rfl <;> norm_num
  obtain ⟨hlo, hhi⟩ := extremes_nanmin hex
  have hrange : Sur.range highSurface.data = some 1 := by simp [Sur.range, hlo, hhi, osub]
  have hmid : offsetZ highSurface.data = some (2 ^ 24 + 1 / 2) := by
    simp [offsetZ, hrange, hlo, oadd]
  rw [hmid] at hoz
  obtain ⟨oz', rfl, hozn⟩ := hoz
  have hspz : ∃ x, spacingZ highSurface.data = some x := by
    simp [spacingZ, hrange]
  obtain ⟨x, hx⟩ := hspz
  rw [hx] at hsz
  obtain ⟨sz', rfl, -⟩ := hsz
  have hq0 : quantise nanInt highSurface.data (some (2 ^ 24)) = -(2 ^ 31 - 2) := by
    obtain ⟨x, -, hq, hx, -⟩ := quantise_some nanInt highSurface.data hlo hhi (by norm_num) hex.1
    rw [hq, hx]
    have : ((2 : ℚ) ^ 24 - 2 ^ 24) / (2 ^ 24 + 1 - 2 ^ 24) * (2 ^ 32 - 4) - (2 ^ 31 - 2) =
        ((-(2 ^ 31 - 2) : Int) : ℚ) := by norm_num
    rw [this, pyInt_intCast]
  have hq1 : quantise nanInt highSurface.data (some (2 ^ 24 + 1)) = 2 ^ 31 - 2 := by
    obtain ⟨x, -, hq, hx, -⟩ := quantise_some nanInt highSurface.data hlo hhi (by norm_num) hex.2.1
    rw [hq, hx]
    have : ((2 : ℚ) ^ 24 + 1 - 2 ^ 24) / (2 ^ 24 + 1 - 2 ^ 24) * (2 ^ 32 - 4) - (2 ^ 31 - 2) =
        ((2 ^ 31 - 2 : Int) : ℚ) := by norm_num
    rw [this, pyInt_intCast]
  have hg0 := hget 0 0 (by decide) (by decide)
  have hg1 := hget 0 1 (by decide) (by decide)
  have hs0 : highSurface.data.get 0 0 = some (2 ^ 24) := rfl
  have hs1 : highSurface.data.get 0 1 = some (2 ^ 24 + 1) := rfl
  rw [hs0] at hg0
  rw [hs1] at hg1
  unfold stored at hg0 hg1
  rw [hq0, if_neg (by decide)] at hg0
  rw [hq1, if_neg (by decide)] at hg1
  simp only [omul, oadd, Option.bind_some, Option.map_some] at hg0 hg1
  refine ⟨r, _, _, h1, hg0, hg1, ?_⟩
  -- the midpoint is off by at least 0.4
  have hoz4 : 2 / 5 < |oz' - (2 ^ 24 + 1 / 2)| := by
    by_contra hle
    push Not at hle
    rw [abs_le] at hle
    have hbig : (2 : ℚ) ^ 23 < |oz'| := by
      rw [abs_of_pos (by linarith)]
      norm_num at hle ⊢; linarith
    obtain ⟨n, rfl⟩ := f32_large_int hozn.2.1 hbig
    have l1 : ((2 ^ 24 : Int) : ℚ) < (n : ℚ) := by push_cast; linarith
    have l2 : (n : ℚ) < ((2 ^ 24 + 1 : Int) : ℚ) := by push_cast; linarith
    have l1' : (2 ^ 24 : Int) < n := by exact_mod_cast l1
    have l2' : n < (2 ^ 24 + 1 : Int) := by exact_mod_cast l2
    omega
  by_contra hno
  push Not at hno
  obtain ⟨ha, hb⟩ := hno
  push_cast at ha hb
  rw [abs_le] at ha hb
  rcases lt_abs.1 hoz4 with h | h
  · norm_num at h ha hb ⊢; linarith
  · norm_num at h ha hb ⊢; linarith

/-- A flat surface without missing points survives: every height comes back as the nearest
single-precision number. -/
theorem C58_flat {c : FloatCodec K} (hc : c.Nearest) {T : Units.Text}
    (hT : UnitsSpec.Faithful T) (enc : Encoding) (inflate : Bytes → Except Err Bytes)
    (deflate : Bytes → Bytes) (nanInt : Int)
    (hn : -(2 ^ 31) ≤ nanInt ∧ nanInt ≤ 2 ^ 31 - 1) (clock : Clock) (comment : List Char)
    (s : Raw K) (hwf : s.data.WF) (z : K) (hflat : ∀ p ∈ Container.flat s.data, p = some z)
    (b : Bytes) (hw : writeSur c nanInt deflate clock false comment s = .ok b) (post : Bytes) :
    ∃ (r : Raw K) (z' : K), readSur T enc inflate ⟨b ++ post, 0⟩ = .ok r ∧ r.data.ny = s.data.ny ∧
      r.data.nx = s.data.nx ∧ Nearest false z z' ∧
      ∀ i j, i < s.data.ny → j < s.data.nx → r.data.get i j = some z' := by
  obtain ⟨r, sz, oz, h1, h2, h3, h4, h5, h6, hsz, hoz, hget⟩ :=
    sur_points hc hT enc inflate deflate nanInt hn clock comment s hwf b hw post
  have hne : Container.flat s.data ≠ [] := by
    intro h; unfold writeSur at hw; rw [if_pos h] at hw; cases hw
  obtain ⟨p, hp⟩ := List.exists_mem_of_ne_nil _ hne
  have hpz := hflat p hp
  subst hpz
  have hex : Extremes s.data z z := ⟨hp, hp, fun x hx => by
    have := hflat _ hx
    injection this with this
    rw [this]; exact ⟨le_refl _, le_refl _⟩⟩
  obtain ⟨hlo, hhi⟩ := extremes_nanmin hex
  have hrange : Sur.range s.data = some 0 := by simp [Sur.range, hlo, hhi, osub]
  have hsp : spacingZ s.data = some 0 := by simp [spacingZ, hrange]
  have hmid : offsetZ s.data = some z := by simp [offsetZ, hrange, hlo, oadd]
  rw [hsp] at hsz
  rw [hmid] at hoz
  obtain ⟨sz', rfl, hszn⟩ := hsz
  obtain ⟨oz', rfl, hozn⟩ := hoz
  rw [nearest_exact hszn (FFormat.repr_zero f32 (by decide))] at hget
  refine ⟨r, oz', h1, h3, h4, hozn, ?_⟩
  intro i j hi hj
  rw [hget i j hi hj]
  unfold stored
  rw [if_neg (by rintro ⟨h, -⟩; have := hflat _ h; cases this)]
  simp [omul, oadd]

/-- A flat surface *with* missing points loses everything: every point comes back as not
measured. -/
theorem C58_flat_missing_lost {c : FloatCodec K} (hc : c.Nearest) {T : Units.Text}
    (hT : UnitsSpec.Faithful T) (enc : Encoding) (inflate : Bytes → Except Err Bytes)
    (deflate : Bytes → Bytes) (nanInt : Int)
    (hn : -(2 ^ 31) ≤ nanInt ∧ nanInt ≤ 2 ^ 31 - 1) (clock : Clock) (comment : List Char)
    (s : Raw K) (hwf : s.data.WF) (z : K)
    (hflat : ∀ p ∈ Container.flat s.data, p = none ∨ p = some z)
    (hmiss : none ∈ Container.flat s.data) (hz : some z ∈ Container.flat s.data)
    (b : Bytes) (hw : writeSur c nanInt deflate clock false comment s = .ok b) (post : Bytes) :
    ∃ r : Raw K, readSur T enc inflate ⟨b ++ post, 0⟩ = .ok r ∧
      ∀ i j, i < s.data.ny → j < s.data.nx → r.data.get i j = none := by
  obtain ⟨r, sz, oz, h1, h2, h3, h4, h5, h6, hsz, hoz, hget⟩ :=
    sur_points hc hT enc inflate deflate nanInt hn clock comment s hwf b hw post
  have hex : Extremes s.data z z := ⟨hz, hz, fun x hx => by
    rcases hflat _ hx with h | h
    · cases h
    · injection h with h
      rw [h]; exact ⟨le_refl _, le_refl _⟩⟩
  obtain ⟨hlo, hhi⟩ := extremes_nanmin hex
  have hrange : Sur.range s.data = some 0 := by simp [Sur.range, hlo, hhi, osub]
  refine ⟨r, h1, ?_⟩
  intro i j hi hj
  rw [hget i j hi hj]
  unfold stored
  have : scaled s.data (s.data.get i j) = none := by
    cases s.data.get i j <;> simp [scaled, hrange, hlo, osub]
  rw [if_pos ⟨hmiss, by simp [quantise, this, hmiss]⟩]

/-- A file saved with `compressed=True` can never be loaded: the header states a compressed
size of zero, which the reader rejects, whatever the surface and whatever zlib does. -/
theorem C58_compressed_unreadable {c : FloatCodec K} (hc : c.Nearest) (T : Units.Text)
    (enc : Encoding) (inflate : Bytes → Except Err Bytes)
    (deflate : Bytes → Bytes) (nanInt : Int) (clock : Clock) (comment : List Char) (s : Raw K)
    (b : Bytes) (hw : writeSur c nanInt deflate clock true comment s = .ok b) :
    readSur (K := K) T enc inflate ⟨b, 0⟩ = .error .corrupted := by
  unfold writeSur at hw
  by_cases hemp : Container.flat s.data = []
  · rw [if_pos hemp] at hw; cases hw
  rw [if_neg hemp] at hw
  cases hh : write c (header s clock true (utf8 comment).length) (layout K) with
  | error e => rw [hh] at hw; cases hw
  | ok hdr =>
    rw [hh] at hw
    simp only [if_true] at hw
    split at hw
    · cases hw
    rename_i hsize
    push Not at hsize
    simp only [Except.ok.injEq] at hw
    set raw := writeArray (intBytes false 4) ((Container.flat s.data).map (quantise nanInt s.data))
    subst hw
    obtain ⟨hl, d', hr, hb⟩ := header_checked hc enc s clock true (utf8 comment) hdr hh
      ((leBytes 4 1 ++ leBytes 4 raw.length ++ leBytes 4 (deflate raw).length) ++ deflate raw)
    have hcode : getStr d' "code" = .ok magicCompressed :=
      hb.str (n := 12) (by in_layout) rfl (by decide) (by intro c hc; cases hc; decide)
    have hbits : getInt d' "bits_per_point" = .ok 32 :=
      hb.int (sg := true) (w := 2) (by in_layout) rfl
    have hny : getInt d' "n_lines" = .ok s.data.ny :=
      hb.int (sg := true) (w := 4) (by in_layout) rfl
    have hnx : getInt d' "n_points_per_line" = .ok s.data.nx :=
      hb.int (sg := true) (w := 4) (by in_layout) rfl
    have htot : getInt d' "n_total_points" = .ok (s.data.nx * s.data.ny) :=
      hb.int (sg := true) (w := 4) (by in_layout) rfl
    have hcs : getInt d' "compressed_data_size" = .ok 0 :=
      hb.int (sg := false) (w := 4) (by in_layout) rfl
    have hu32 : ∀ (pre post : Bytes) (n : Nat), n < 2 ^ 32 →
        readU32 ⟨pre ++ leBytes 4 n ++ post, pre.length⟩ =
          .ok (n, ⟨pre ++ leBytes 4 n ++ post, pre.length + 4⟩) := by
      intro pre post n hn
      unfold readU32
      rw [read_at pre (leBytes 4 n) post 4 (by simp)]
      simp [leNat_leBytes 4 n hn]
    have hcomp : readCompressed inflate
        ⟨hdr ++ utf8 comment ++ ((leBytes 4 1 ++ leBytes 4 raw.length ++
          leBytes 4 (deflate raw).length) ++ deflate raw), (hdr ++ utf8 comment).length⟩ 0 =
        .error .corrupted := by
      unfold readCompressed
      have e1 : hdr ++ utf8 comment ++ ((leBytes 4 1 ++ leBytes 4 raw.length ++
          leBytes 4 (deflate raw).length) ++ deflate raw) =
          (hdr ++ utf8 comment) ++ leBytes 4 1 ++ (leBytes 4 raw.length ++
          leBytes 4 (deflate raw).length ++ deflate raw) := by simp
      have e2 : hdr ++ utf8 comment ++ ((leBytes 4 1 ++ leBytes 4 raw.length ++
          leBytes 4 (deflate raw).length) ++ deflate raw) =
          (hdr ++ utf8 comment ++ leBytes 4 1) ++ leBytes 4 raw.length ++
          (leBytes 4 (deflate raw).length ++ deflate raw) := by simp
      have e3 : hdr ++ utf8 comment ++ ((leBytes 4 1 ++ leBytes 4 raw.length ++
          leBytes 4 (deflate raw).length) ++ deflate raw) =
          (hdr ++ utf8 comment ++ leBytes 4 1 ++ leBytes 4 raw.length) ++
          leBytes 4 (deflate raw).length ++ deflate raw := by simp
      have r1 := hu32 (hdr ++ utf8 comment) (leBytes 4 raw.length ++
          leBytes 4 (deflate raw).length ++ deflate raw) 1 (by decide)
      have r2 := hu32 (hdr ++ utf8 comment ++ leBytes 4 1)
          (leBytes 4 (deflate raw).length ++ deflate raw) raw.length hsize.1
      have r3 := hu32 (hdr ++ utf8 comment ++ leBytes 4 1 ++ leBytes 4 raw.length) (deflate raw)
          (deflate raw).length hsize.2
      rw [← e1] at r1
      rw [← e2] at r2
      rw [← e3] at r3
      have l2 : (hdr ++ utf8 comment ++ leBytes 4 1).length = (hdr ++ utf8 comment).length + 4 := by
        simp only [List.length_append, leBytes_length]
      have l3 : (hdr ++ utf8 comment ++ leBytes 4 1 ++ leBytes 4 raw.length).length =
          (hdr ++ utf8 comment).length + 4 + 4 := by
        simp only [List.length_append, leBytes_length]
      rw [l2] at r2
      rw [l3] at r3
      rw [r1]
      simp only [readDirs, r2, r3]
      rw [if_pos]
      simp only [List.map_cons, List.map_nil, List.sum_cons, List.sum_nil]
      omega
    have hobj : readObject (K := K) enc inflate
        ⟨hdr ++ utf8 comment ++ ((leBytes 4 1 ++ leBytes 4 raw.length ++
          leBytes 4 (deflate raw).length) ++ deflate raw), 0⟩ = .error .corrupted := by
      unfold readObject
      rw [hr]
      simp only [hbits, hny, hnx, hcode, htot, hcs]
      have : itemSize 32 = .ok 4 := by decide
      have hne : ¬ magicCompressed = magicClassic := by decide
      simp only [this, hne, if_false, hcomp]
    unfold readSur
    have eb : hdr ++ utf8 comment ++ (leBytes 4 1 ++ leBytes 4 raw.length ++
          leBytes 4 (deflate raw).length) ++ deflate raw =
        hdr ++ utf8 comment ++ ((leBytes 4 1 ++ leBytes 4 raw.length ++
          leBytes 4 (deflate raw).length) ++ deflate raw) := by simp
    rw [eb, hobj]


/-! ### When saving succeeds -/

theorem write_ok_of {c : FloatCodec K} {d : Dict K} {L : List (Entry K)}
    (h : ∀ e ∈ L, ∃ b, e.write c d = .ok b) : ∃ b, write c d L = .ok b := by
  induction L with
  | nil => exact ⟨[], rfl⟩
  | cons e es ih =>
    obtain ⟨b1, h1⟩ := h e (by simp)
    obtain ⟨b2, h2⟩ := ih (fun x hx => h x (by simp [hx]))
    exact ⟨b1 ++ b2, by simp [write, h1, h2]⟩

theorem int_entry_ok (c : FloatCodec K) {d : Dict K} {n : String} {sg big : Bool} {w : Nat}
    {i : Int} (hd : d n = some (.int i)) (h1 : intMin sg w ≤ i) (h2 : i ≤ intMax sg w) :
    ∃ b, (Entry.field n (.fixed (.int sg big w)) : Entry K).write c d = .ok b :=
  ⟨_, by
    simp only [Entry.write, dict_at_some hd, encodeValue, Fmt.pack]
    rw [if_pos ⟨h1, h2⟩]⟩

theorem txt_entry_ok (c : FloatCodec K) {d : Dict K} {n : String} {k : Nat} {s : List Char}
    (hd : d n = some (.str s)) :
    ∃ b, (Entry.field n (.fixed (.str k)) : Entry K).write c d = .ok b :=
  ⟨_, by simp only [Entry.write, dict_at_some hd, encodeValue, Fmt.pack]; rfl⟩

theorem num_entry_ok (c : FloatCodec K) {d : Dict K} {n : String} {x : Option K}
    (hd : d n = some (numVal x)) (h : ∀ y, x = some y → |y| < f32.threshold K) :
    ∃ b, (Entry.field n (.fixed (.flt false false 1)) : Entry K).write c d = .ok b := by
  cases x with
  | none =>
    refine ⟨natBytes false (Fmt.fw false) (c.enc (Fmt.ff false) none), ?_⟩
    simp only [Entry.write, dict_at_some hd, encodeValue, numVal, Fmt.pack, Fmt.packFloat]
  | some y =>
    have hy : ¬ FFormat.threshold K (Fmt.ff false) ≤ |y| := not_le.2 (h y rfl)
    refine ⟨natBytes false (Fmt.fw false) (c.enc (Fmt.ff false) (some y)), ?_⟩
    simp only [Entry.write, dict_at_some hd, encodeValue, numVal, Fmt.pack, Fmt.packFloat]
    rw [if_neg hy]

theorem fltint_entry_ok (c : FloatCodec K) {d : Dict K} {n : String} {i : Int}
    (hd : d n = some (.int i)) (h : |(i : K)| < f32.threshold K) :
    ∃ b, (Entry.field n (.fixed (.flt false false 1)) : Entry K).write c d = .ok b := by
  have hy : ¬ FFormat.threshold K (Fmt.ff false) ≤ |(i : K)| := not_le.2 h
  refine ⟨natBytes false (Fmt.fw false) (c.enc (Fmt.ff false) (some (i : K))), ?_⟩
  simp only [Entry.write, dict_at_some hd, encodeValue, Fmt.pack, Fmt.packFloat]
  rw [if_neg hy]

theorem one_lt_threshold : (1 : K) < f32.threshold K := by
  unfold FFormat.threshold
  have h1 : (2 : K) ^ (f32.bias - (f32.mb : Int) - 1) = 2 ^ 103 := by
    rw [show f32.bias - (f32.mb : Int) - 1 = ((103 : Nat) : Int) by decide, zpow_natCast]
  have h2 : f32.mb = 23 := rfl
  rw [h1, h2]; norm_num

/-- Clock readings that fit the header. -/
def ClockOk (t : Clock) : Prop :=
  (∀ x ∈ [t.second, t.minute, t.hour, t.day, t.month, t.year, t.weekday],
    -(2 ^ 15) ≤ x ∧ x ≤ 2 ^ 15 - 1)

/-- Saving as uncompressed SUR succeeds for every non-empty surface with fewer than `2^31`
points, a comment of at most 32767 bytes and steps, height range and midpoint in the range of
single precision. -/
theorem C58_saves (c : FloatCodec K) (nanInt : Int) (deflate : Bytes → Bytes) (clock : Clock)
    (hclock : ClockOk clock) (comment : List Char) (hcomment : (utf8 comment).length ≤ 32767)
    (s : Raw K) (hne : Container.flat s.data ≠ [])
    (hsize : s.data.nx * s.data.ny < 2 ^ 31 ∧ s.data.nx < 2 ^ 31 ∧ s.data.ny < 2 ^ 31)
    (hsx : |s.stepX| < f32.threshold K) (hsy : |s.stepY| < f32.threshold K)
    (hsz : ∀ y, spacingZ s.data = some y → |y| < f32.threshold K)
    (hoz : ∀ y, offsetZ s.data = some y → |y| < f32.threshold K) :
    ∃ b, writeSur c nanInt deflate clock false comment s = .ok b := by
  have hthr : (0 : K) < f32.threshold K := lt_trans one_pos one_lt_threshold
  have h0 : |((0 : Int) : K)| < f32.threshold K := by simpa using hthr
  have h1 : |(1 : K)| < f32.threshold K := by simpa using one_lt_threshold (K := K)
  have hmin2 : intMin true 2 = -(2 ^ 15) := by decide
  have hmax2 : intMax true 2 = 2 ^ 15 - 1 := by decide
  have hmin4 : intMin true 4 = -(2 ^ 31) := by decide
  have hmax4 : intMax true 4 = 2 ^ 31 - 1 := by decide
  simp only [ClockOk, List.forall_mem_cons, List.not_mem_nil, false_imp_iff, implies_true,
    and_true, ← hmin2, ← hmax2] at hclock
  obtain ⟨c1, c2, c3, c4, c5, c6, c7⟩ := hclock
  obtain ⟨b, hb⟩ := write_ok_of (c := c)
    (d := header s clock false (utf8 comment).length) (L := layout K) (by
      simp only [layout, h16, i32, u32, flt, txt, List.forall_mem_cons, List.not_mem_nil,
        false_imp_iff, implies_true, and_true]
      repeat' apply And.intro
      all_goals first
        | exact txt_entry_ok c rfl
        | exact int_entry_ok c (i := 0) rfl (by decide) (by decide)
        | exact int_entry_ok c (i := 1) rfl (by decide) (by decide)
        | exact int_entry_ok c (i := 2) rfl (by decide) (by decide)
        | exact int_entry_ok c (i := 32) rfl (by decide) (by decide)
        | exact int_entry_ok c (i := dataMin) rfl (by decide) (by decide)
        | exact int_entry_ok c (i := dataMax) rfl (by decide) (by decide)
        | exact fltint_entry_ok c (i := 0) rfl h0
        | exact num_entry_ok c (x := some 1) rfl (by rintro y ⟨⟩; exact h1)
        | exact num_entry_ok c (x := some s.stepX) rfl (by rintro y ⟨⟩; exact hsx)
        | exact num_entry_ok c (x := some s.stepY) rfl (by rintro y ⟨⟩; exact hsy)
        | exact num_entry_ok c (x := spacingZ s.data) rfl hsz
        | exact num_entry_ok c (x := offsetZ s.data) rfl hoz
        | exact int_entry_ok c (i := clock.second) rfl c1.1 c1.2
        | exact int_entry_ok c (i := clock.minute) rfl c2.1 c2.2
        | exact int_entry_ok c (i := clock.hour) rfl c3.1 c3.2
        | exact int_entry_ok c (i := clock.day) rfl c4.1 c4.2
        | exact int_entry_ok c (i := clock.month) rfl c5.1 c5.2
        | exact int_entry_ok c (i := clock.year) rfl c6.1 c6.2
        | exact int_entry_ok c (i := clock.weekday) rfl c7.1 c7.2
        | exact int_entry_ok c (i := ((utf8 comment).length : Int)) rfl
            (by rw [hmin2]; omega) (by rw [hmax2]; omega)
        | exact int_entry_ok c (i := (s.data.nx : Int)) rfl
            (by rw [hmin4]; omega) (by rw [hmax4]; omega)
        | exact int_entry_ok c (i := (s.data.ny : Int)) rfl
            (by rw [hmin4]; omega) (by rw [hmax4]; omega)
        | exact int_entry_ok c (i := (s.data.nx * s.data.ny : Int)) rfl
            (by rw [hmin4]; have : (0 : Int) ≤ (s.data.nx * s.data.ny : Int) := by positivity
                omega)
            (by rw [hmax4]; have := hsize.1; zify at this; omega)
        | exact int_entry_ok c (i := if none ∈ Container.flat s.data then 1 else 0) rfl
            (by rw [hmin2]; split <;> omega) (by rw [hmax2]; split <;> omega)
        | exact ⟨_, rfl⟩)
  unfold writeSur
  rw [if_neg hne, hb]
  exact ⟨_, rfl⟩

/-! ### Examples -/

/-- A surface with three heights and a missing point whose step and midpoint are
single-precision numbers. -/
def demoSur : Raw ℚ :=
  ⟨⟨[[some (-(2 ^ 31 - 2)), some (1 / 3)], [none, some (2 ^ 31 - 2)]], 2⟩, 1 / 4, 1 / 2⟩

theorem demoSur_extremes : Extremes demoSur.data (-(2 ^ 31 - 2)) (2 ^ 31 - 2) := by
  refine ⟨by simp [demoSur, Container.flat], by simp [demoSur, Container.flat], ?_⟩
  intro z hz
  have : z = -(2 ^ 31 - 2) ∨ z = 1 / 3 ∨ z = 2 ^ 31 - 2 := by
    simpa [demoSur, Container.flat] using hz
  rcases this with rfl | rfl | rfl <;> norm_num

/-- The hypotheses of `C58_one_step_partial` are met, and saving succeeds. -/
example : f32.Repr (((2 ^ 31 - 2) - (-(2 ^ 31 - 2)) : ℚ) / (2 ^ 32 - 4)) ∧
    f32.Repr ((-(2 ^ 31 - 2) + (2 ^ 31 - 2) : ℚ) / 2) := by
  constructor
  · have : ((2 ^ 31 - 2) - (-(2 ^ 31 - 2)) : ℚ) / (2 ^ 32 - 4) = ((1 : Nat) : ℚ) := by norm_num
    rw [this]
    exact (FFormat.repr_nat f32 (by decide) (by decide) 1 (by decide)).1
  · have : ((-(2 ^ 31 - 2) + (2 ^ 31 - 2) : ℚ) / 2) = 0 := by norm_num
    rw [this]
    exact FFormat.repr_zero f32 (by decide)

example (c : FloatCodec ℚ) (deflate : Bytes → Bytes) :
    ∃ b, writeSur c 0 deflate ⟨1, 2, 3, 4, 5, 2024, 6⟩ false "µ".toList demoSur = .ok b := by
  obtain ⟨hlo, hhi⟩ := extremes_nanmin demoSur_extremes
  have hthr : (1 : ℚ) < f32.threshold ℚ := one_lt_threshold
  have hrange : Sur.range demoSur.data = some (2 ^ 32 - 4) := by
    simp only [Sur.range, hlo, hhi, osub, Option.bind_some, Option.map_some]; norm_num
  apply C58_saves
  · unfold ClockOk; decide
  · decide
  · simp [demoSur, Container.flat]
  · decide
  · show |(1 / 4 : ℚ)| < _
    rw [abs_of_pos (by norm_num)]; linarith
  · show |(1 / 2 : ℚ)| < _
    rw [abs_of_pos (by norm_num)]; linarith
  · intro y hy
    simp only [spacingZ, hrange, Option.map_some, dataMax, dataMin, Option.some.injEq] at hy
    have : y = 1 := by rw [← hy]; norm_num
    rw [this, abs_one]; exact hthr
  · intro y hy
    simp only [offsetZ, hrange, hlo, oadd, Option.bind_some, Option.map_some,
      Option.some.injEq] at hy
    have : y = 0 := by rw [← hy]; norm_num
    rw [this, abs_zero]; linarith

end Props
end Surfalize
