import Verif.Lemmas.Sflz
/-!
# C62: SFLZ files round-trip
-/
set_option linter.unusedSectionVars false
namespace Surfalize
/-! ### Specification -/
namespace SflzSpec
open Sflz

/-- The compression libraries give back what they were given. -/
structure Lossless (L : Codecs) : Prop where
  zlib : ∀ b, L.zlib.decompress (L.zlib.compress b) = .ok b
  lzma : ∀ b, L.lzma.decompress (L.lzma.compress b) = .ok b

/-- An image layer with an ASCII name that does not end in a blank or a NUL, of shape
`(height, width)` or `(height, width, k)` with `k > 1`, holding as many items as the shape says. -/
structure PlainLayer (l : Layer) : Prop where
  dtype : l.dtype ∈ dtypes
  ascii : ∀ c ∈ l.name, c.toNat < 128
  last : ∀ c, l.name.getLast? = some c → c ≠ ' ' ∧ c ≠ '\x00'
  third : ∀ k, l.third = some k → 1 < k
  bytes : l.bytes.length = l.height * l.width * l.third.getD 1 * l.dtype.size

end SflzSpec

namespace Props
open LayoutM LayoutSpec FileArr Sflz SflzSpec
variable {K : Type} [Field K] [LinearOrder K] [IsStrictOrderedRing K] [FloorRing K]

theorem _root_.Surfalize.SflzSpec.PlainLayer.good {l : Layer} (h : PlainLayer l) : l.Good := by
  refine ⟨h.dtype, ?_, h.last, h.third, h.bytes⟩
  rw [utf8_ascii _ h.ascii, List.length_map]

theorem item_float {c : FloatCodec K} (hc : c.Nearest) (nan : Int) {t : DType} (ht : t ∈ dtypes)
    (hk : t.kind = .float) (z : Option K) :
    StoredAs (t.size = 8) z (t.item K (encodeItem c nan t z)) := by
  have hsz : t.size = Fmt.fw (t.size = 8) := by
    have : ∀ t ∈ dtypes, t.kind = .float → t.size = Fmt.fw (t.size = 8) := by decide
    exact this t ht hk
  have hlt : c.enc (Fmt.ff (t.size = 8)) z < 256 ^ t.size := by
    have h1 := hc.lt (Fmt.ff (t.size = 8)) z
    rw [bits_fw, ← hsz] at h1
    exact h1
  unfold DType.item encodeItem
  rw [hk]
  dsimp only
  rw [bytesNat_natBytes _ _ _ hlt]
  cases z with
  | none => simp [StoredAs, hc.nan _ (ff_cases _), toOpt]
  | some x =>
    intro hx
    obtain ⟨y, hy, hb⟩ := hc.fin _ (ff_cases _) x hx
    exact ⟨y, by rw [hy]; rfl, hx, ⟨_, hy⟩, hb⟩

/-- Saving with a float dtype and loading returns the same size, the steps as doubles, the
same non-measured points, the heights rounded to the float type (exactly, if they are numbers of that
type), and, if saved and loaded, the same image layers in the same order. Bytes `post` behind the file
are ignored. -/
theorem C62_round_trip_partial {c : FloatCodec K} (hc : c.Nearest) {L : Codecs} (hL : Lossless L) (nan : Int)
    {comp : List Char} (save load : Bool) (numMeta : Nat) {t : DType} (ht : t ∈ dtypes)
    (hk : t.kind = .float) (s : Surf K) (hwf : s.raw.data.WF) (hl : ∀ l ∈ s.layers, PlainLayer l)
    (hnd : (s.layers.map Layer.name).Nodup) {b : Bytes}
    (hw : writeSflz c L nan comp save numMeta t s = .ok b) (post : Bytes) :
    ∃ r : Surf K, readSflz L load ⟨b ++ post, 0⟩ = .ok r ∧ r.raw.data.WF ∧
      r.raw.data.ny = s.raw.data.ny ∧ r.raw.data.nx = s.raw.data.nx ∧
      Nearest true s.raw.stepX r.raw.stepX ∧ Nearest true s.raw.stepY r.raw.stepY ∧
      r.layers = (if save ∧ load then s.layers else []) ∧
      ∀ i j, i < s.raw.data.ny → j < s.raw.data.nx →
        (s.raw.data.get i j = none → r.raw.data.get i j = none) ∧
        ∀ z, s.raw.data.get i j = some z →
          |z| < FFormat.threshold K (if t.size = 8 then f64 else f32) →
          ∃ z', r.raw.data.get i j = some z' ∧ Nearest (t.size = 8) z z' ∧
            (FFormat.Repr (if t.size = 8 then f64 else f32) z → z' = z) := by
  obtain ⟨sx, sy, lo', hi', hr, hsx, hsy, -⟩ := read_written hc hL.zlib hL.lzma nan save load numMeta ht
    s hwf (fun l h => (hl l h).good) hnd hw post
  refine ⟨_, hr, map_wf _ hwf, map_ny _ _, rfl, hsx, hsy, rfl, ?_⟩
  intro i j hi hj
  dsimp only
  rw [get_map_height hwf _ hi hj]
  simp only [back, if_pos hk]
  have hst := item_float hc nan ht hk (s.raw.data.get i j)
  constructor
  · intro h; rw [h] at hst ⊢; exact hst
  · intro z h hz
    rw [h] at hst ⊢
    have hz' : |z| < FFormat.threshold K (if decide (t.size = 8) = true then f64 else f32) := by
      simpa using hz
    obtain ⟨y, hy1, hy2⟩ := hst hz'
    refine ⟨y, hy1, hy2, fun hrep => ?_⟩
    exact nearest_exact hy2 (by by_cases h8 : t.size = 8 <;> simpa [Fmt.ff, h8, FFormat.Repr] using hrep)

theorem propmin_none {l : List (Option K)} (h : none ∈ l) : propmin l = none := by
  simp [propmin, h]
theorem propmax_none {l : List (Option K)} (h : none ∈ l) : propmax l = none := by
  simp [propmax, h]

theorem propmin_spec {l : List (Option K)} (h : none ∉ l) {x : K} (hx : some x ∈ l) :
    ∃ m, propmin l = some m ∧ some m ∈ l ∧ ∀ z, some z ∈ l → m ≤ z := by
  unfold propmin
  rw [if_neg h]
  obtain ⟨m, hm⟩ := exists_min? (l := measured l) (List.ne_nil_of_mem (mem_measured.2 hx))
  obtain ⟨h1, h2⟩ := min?_spec.1 hm
  exact ⟨m, hm, mem_measured.1 h1, fun z hz => h2 z (mem_measured.2 hz)⟩

theorem propmax_spec {l : List (Option K)} (h : none ∉ l) {x : K} (hx : some x ∈ l) :
    ∃ m, propmax l = some m ∧ some m ∈ l ∧ ∀ z, some z ∈ l → z ≤ m := by
  unfold propmax
  rw [if_neg h]
  obtain ⟨m, hm⟩ := exists_max? (l := measured l) (List.ne_nil_of_mem (mem_measured.2 hx))
  obtain ⟨h1, h2⟩ := max?_spec.1 hm
  exact ⟨m, hm, mem_measured.1 h1, fun z hz => h2 z (mem_measured.2 hz)⟩

/-- Saving with an integer dtype loses every height as soon as one point is not measured. -/
theorem C62_missing_lost {c : FloatCodec K} (hc : c.Nearest) {L : Codecs} (hL : Lossless L) (nan : Int)
    {comp : List Char} (save load : Bool) (numMeta : Nat) {t : DType} (ht : t ∈ dtypes)
    (hk : t.kind ≠ .float) (s : Surf K) (hwf : s.raw.data.WF) (hl : ∀ l ∈ s.layers, PlainLayer l)
    (hnd : (s.layers.map Layer.name).Nodup) (hmiss : none ∈ Container.flat s.raw.data) {b : Bytes}
    (hw : writeSflz c L nan comp save numMeta t s = .ok b) (post : Bytes) :
    ∃ r : Surf K, readSflz L load ⟨b ++ post, 0⟩ = .ok r ∧
      r.raw.data.ny = s.raw.data.ny ∧ r.raw.data.nx = s.raw.data.nx ∧
      ∀ i j, i < s.raw.data.ny → j < s.raw.data.nx → r.raw.data.get i j = none := by
  obtain ⟨sx, sy, lo', hi', hr, -, -, hlh⟩ := read_written hc hL.zlib hL.lzma nan save load numMeta ht
    s hwf (fun l h => (hl l h).good) hnd hw post
  refine ⟨_, hr, map_ny _ _, rfl, ?_⟩
  intro i j hi hj
  dsimp only
  rw [get_map_height hwf _ hi hj]
  have hlo : lo' = none := (hlh hk).1.1 (propmin_none hmiss)
  simp only [back, if_neg hk, hlo]
  unfold unscale
  split
  · rename_i h; cases h
  · rfl

/-- What is read back when nothing is missing and the heights are doubles. -/
theorem sflz_integers {c : FloatCodec K} (hc : c.Nearest) {L : Codecs} (hL : Lossless L) (nan : Int)
    {comp : List Char} (save load : Bool) (numMeta : Nat) {t : DType} (ht : t ∈ dtypes)
    (hk : t.kind ≠ .float) (s : Surf K) (hwf : s.raw.data.WF) (hl : ∀ l ∈ s.layers, PlainLayer l)
    (hnd : (s.layers.map Layer.name).Nodup) (hmiss : none ∉ Container.flat s.raw.data)
    (hrep : ∀ z, some z ∈ Container.flat s.raw.data → f64.Repr z) {b : Bytes}
    (hw : writeSflz c L nan comp save numMeta t s = .ok b) (post : Bytes) :
    ∃ (lo hi : K) (r : Surf K), readSflz L load ⟨b ++ post, 0⟩ = .ok r ∧ r.raw.data.WF ∧
      some lo ∈ Container.flat s.raw.data ∧ some hi ∈ Container.flat s.raw.data ∧
      (∀ z, some z ∈ Container.flat s.raw.data → lo ≤ z ∧ z ≤ hi) ∧
      r.raw.data.ny = s.raw.data.ny ∧ r.raw.data.nx = s.raw.data.nx ∧
      Nearest true s.raw.stepX r.raw.stepX ∧ Nearest true s.raw.stepY r.raw.stepY ∧
      r.layers = (if save ∧ load then s.layers else []) ∧
      ∀ i j, i < s.raw.data.ny → j < s.raw.data.nx →
        r.raw.data.get i j = unscale t (some lo) (some hi)
          (t.item K (encodeItem c nan t (scaled t (some lo) (some hi) (s.raw.data.get i j)))) := by
  obtain ⟨sx, sy, lo', hi', hr, hsx, hsy, hlh⟩ := read_written hc hL.zlib hL.lzma nan save load numMeta
    ht s hwf (fun l h => (hl l h).good) hnd hw post
  have hne : Container.flat s.raw.data ≠ [] := by
    intro h0
    unfold writeSflz at hw
    rw [if_pos ⟨by simpa using hk, h0⟩] at hw
    cases hw
  obtain ⟨z0, hz0⟩ : ∃ z0, some z0 ∈ Container.flat s.raw.data := by
    obtain ⟨x, l, hx⟩ := List.exists_cons_of_ne_nil hne
    cases x with
    | none => exact absurd (by rw [hx]; simp) hmiss
    | some z => exact ⟨z, by rw [hx]; simp⟩
  obtain ⟨lo, hlo1, hlo2, hlo3⟩ := propmin_spec hmiss hz0
  obtain ⟨hi, hhi1, hhi2, hhi3⟩ := propmax_spec hmiss hz0
  obtain ⟨w1, hw1, hn1⟩ := (hlh hk).1.2 lo hlo1
  obtain ⟨w2, hw2, hn2⟩ := (hlh hk).2.2 hi hhi1
  have e1 : w1 = lo := nearest_exact hn1 (hrep lo hlo2)
  have e2 : w2 = hi := nearest_exact hn2 (hrep hi hhi2)
  subst e1 e2
  refine ⟨w1, w2, _, hr, map_wf _ hwf, hlo2, hhi2, fun z hz => ⟨hlo3 z hz, hhi3 z hz⟩, map_ny _ _, rfl,
    hsx, hsy, rfl, ?_⟩
  intro i j hi hj
  dsimp only
  rw [get_map_height hwf _ hi hj]
  simp only [back, if_neg hk, hw1, hw2, hlo1, hhi1]

/-- Saving with an unsigned dtype of up to four bytes a surface without missing points whose heights
are doubles (eight bytes are left out because `2^64 - 1` is not a double): the size, the steps and the layers come back, and every height within one quantisation
step `(max - min) / (256^size - 1)`, rounded down; a flat surface comes back exactly. -/
theorem C62_unsigned_partial {c : FloatCodec K} (hc : c.Nearest) {L : Codecs} (hL : Lossless L) (nan : Int)
    {comp : List Char} (save load : Bool) (numMeta : Nat) {t : DType} (ht : t ∈ dtypes)
    (hk : t.kind = .unsigned) (_hsz : t.size ≤ 4) (s : Surf K) (hwf : s.raw.data.WF)
    (hl : ∀ l ∈ s.layers, PlainLayer l) (hnd : (s.layers.map Layer.name).Nodup)
    (hmiss : none ∉ Container.flat s.raw.data)
    (hrep : ∀ z, some z ∈ Container.flat s.raw.data → f64.Repr z) {b : Bytes}
    (hw : writeSflz c L nan comp save numMeta t s = .ok b) (post : Bytes) :
    ∃ (lo hi : K) (r : Surf K), readSflz L load ⟨b ++ post, 0⟩ = .ok r ∧ r.raw.data.WF ∧
      some lo ∈ Container.flat s.raw.data ∧ some hi ∈ Container.flat s.raw.data ∧
      (∀ z, some z ∈ Container.flat s.raw.data → lo ≤ z ∧ z ≤ hi) ∧
      r.raw.data.ny = s.raw.data.ny ∧ r.raw.data.nx = s.raw.data.nx ∧
      Nearest true s.raw.stepX r.raw.stepX ∧ Nearest true s.raw.stepY r.raw.stepY ∧
      r.layers = (if save ∧ load then s.layers else []) ∧
      ∀ i j z, i < s.raw.data.ny → j < s.raw.data.nx → s.raw.data.get i j = some z →
        ∃ z', r.raw.data.get i j = some z' ∧ lo ≤ z' ∧ z' ≤ z ∧
          z - z' ≤ (hi - lo) / (256 ^ t.size - 1) ∧ (lo = hi → z' = z) := by
  obtain ⟨lo, hi, r, h1, h2, h3, h4, h5, h6, h7, h8, h9, h10, h11⟩ := sflz_integers hc hL nan save load
    numMeta ht (by rw [hk]; decide) s hwf hl hnd hmiss hrep hw post
  refine ⟨lo, hi, r, h1, h2, h3, h4, h5, h6, h7, h8, h9, h10, ?_⟩
  intro i j z hi' hj hz
  have hzm : some z ∈ Container.flat s.raw.data := by rw [← hz]; exact get_mem hwf hi' hj
  obtain ⟨hlz, hzh⟩ := h5 z hzm
  have hpos := dtype_size_pos ht
  have hlo0 : t.lo = 0 := by unfold DType.lo intMin; rw [hk]; simp
  have hhi0 : t.hi = 256 ^ t.size - 1 := by unfold DType.hi intMax; rw [hk]; simp
  have hM : (1 : Int) ≤ 256 ^ t.size - 1 := by
    obtain ⟨k, hk2⟩ : ∃ k, t.size = k + 1 := ⟨t.size - 1, by omega⟩
    rw [hk2, pow_succ]
    have : (1 : Int) ≤ 256 ^ k := one_le_pow₀ (by norm_num)
    omega
  have hMK : (0 : K) < 256 ^ t.size - 1 := by
    have : ((0 : Int) : K) < ((256 ^ t.size - 1 : Int) : K) := Int.cast_lt.2 (by omega)
    simpa using this
  set M : K := 256 ^ t.size - 1 with hMdef
  have hcast : (((t.hi - t.lo : Int)) : K) = M := by rw [hhi0, hlo0, hMdef]; push_cast; ring
  have hitem : ∀ x : Option K, ∀ v : Int, (match x with
      | some x => pyInt x
      | none => nan) = v → t.item K (encodeItem c nan t x) =
        some ((bytesInt false t.big t.size (intBytes t.big t.size v) : Int) : K) := by
    intro x v hv
    subst hv
    cases x <;> simp [DType.item, encodeItem, hk]
  rw [h11 i j hi' hj, hz]
  by_cases hflat : hi = lo
  · have hzlo : z = lo := le_antisymm (by rw [← hflat]; exact hzh) hlz
    refine ⟨lo, ?_, le_refl _, hlz, ?_, fun _ => hzlo.symm⟩
    · have : scaled t (some lo) (some hi) (some z) = none := by simp [scaled, hflat]
      rw [this, hitem none nan rfl]
      simp [unscale, hflat]
    · rw [hzlo, hflat]; simp
  · have hd : 0 < hi - lo := by
      have : lo ≤ hi := le_trans hlz hzh
      rcases lt_or_eq_of_le this with h | h
      · linarith
      · exact absurd h.symm hflat
    set x : K := (z - lo) / (hi - lo) * M with hx
    have hsc : scaled t (some lo) (some hi) (some z) = some x := by
      simp only [scaled, if_neg hflat]; rw [hcast, hlo0]; simp [hx]
    have hx0 : 0 ≤ x := by
      rw [hx]; exact mul_nonneg (div_nonneg (by linarith) hd.le) hMK.le
    have hx1 : x ≤ M := by
      rw [hx]
      have : (z - lo) / (hi - lo) ≤ 1 := (div_le_one hd).2 (by linarith)
      calc _ ≤ 1 * M := mul_le_mul_of_nonneg_right this hMK.le
        _ = M := one_mul _
    have hpy : pyInt x = ⌊x⌋ := pyInt_nonneg hx0
    have hf0 : 0 ≤ ⌊x⌋ := Int.floor_nonneg.2 hx0
    have hf1 : ⌊x⌋ ≤ 256 ^ t.size - 1 := by
      have : ⌊x⌋ ≤ ⌊M⌋ := Int.floor_le_floor hx1
      have e : ⌊M⌋ = 256 ^ t.size - 1 := by
        have : M = ((256 ^ t.size - 1 : Int) : K) := by rw [hMdef]; push_cast; ring
        rw [this, Int.floor_intCast]
      omega
    have hrt : bytesInt false t.big t.size (intBytes t.big t.size ⌊x⌋) = ⌊x⌋ :=
      bytesInt_intBytes false t.big t.size _ hpos (by simp [intMin]; exact hf0)
        (by simp only [intMax]; simpa using hf1)
    rw [hsc, hitem (some x) ⌊x⌋ hpy, hrt]
    have hfl := Int.floor_le x
    have hfu := Int.lt_floor_add_one x
    have hf0K : (0 : K) ≤ (⌊x⌋ : K) := by exact_mod_cast hf0
    refine ⟨(⌊x⌋ : K) / M * (hi - lo) + lo, ?_, ?_, ?_, ?_, fun h => absurd h.symm hflat⟩
    · simp only [unscale]; rw [hcast, hlo0]; simp
    · have : 0 ≤ (⌊x⌋ : K) / M * (hi - lo) := mul_nonneg (div_nonneg hf0K hMK.le) hd.le
      linarith
    · have hzx : z = x / M * (hi - lo) + lo := by rw [hx]; field_simp; ring
      have : (⌊x⌋ : K) / M * (hi - lo) ≤ x / M * (hi - lo) :=
        mul_le_mul_of_nonneg_right (div_le_div_of_nonneg_right hfl hMK.le) hd.le
      linarith
    · have hzx : z = x / M * (hi - lo) + lo := by rw [hx]; field_simp; ring
      have e : z - ((⌊x⌋ : K) / M * (hi - lo) + lo) = (x - ⌊x⌋) * ((hi - lo) / M) := by
        rw [hzx]; field_simp; ring
      rw [e]
      calc (x - ⌊x⌋) * ((hi - lo) / M) ≤ 1 * ((hi - lo) / M) :=
            mul_le_mul_of_nonneg_right (by linarith) (div_nonneg hd.le hMK.le)
        _ = (hi - lo) / M := one_mul _

/-- With a signed dtype every height of a surface that is not flat comes back too low by more than the
whole height range: the writer adds the smallest integer, and the reader adds it again. -/
theorem C62_signed_wrong {c : FloatCodec K} (hc : c.Nearest) {L : Codecs} (hL : Lossless L) (nan : Int)
    {comp : List Char} (save load : Bool) (numMeta : Nat) {t : DType} (ht : t ∈ dtypes)
    (hk : t.kind = .signed) (s : Surf K) (hwf : s.raw.data.WF)
    (hl : ∀ l ∈ s.layers, PlainLayer l) (hnd : (s.layers.map Layer.name).Nodup)
    (hmiss : none ∉ Container.flat s.raw.data)
    (hrep : ∀ z, some z ∈ Container.flat s.raw.data → f64.Repr z)
    (hflat : ∃ z w, some z ∈ Container.flat s.raw.data ∧ some w ∈ Container.flat s.raw.data ∧ z ≠ w)
    {b : Bytes} (hw : writeSflz c L nan comp save numMeta t s = .ok b) (post : Bytes) :
    ∃ (lo hi : K) (r : Surf K), readSflz L load ⟨b ++ post, 0⟩ = .ok r ∧ lo < hi ∧
      some lo ∈ Container.flat s.raw.data ∧ some hi ∈ Container.flat s.raw.data ∧
      ∀ i j z, i < s.raw.data.ny → j < s.raw.data.nx → s.raw.data.get i j = some z →
        ∃ z', r.raw.data.get i j = some z' ∧ z' < z - (hi - lo) := by
  obtain ⟨lo, hi, r, h1, h2, h3, h4, h5, h6, h7, h8, h9, h10, h11⟩ := sflz_integers hc hL nan save load
    numMeta ht (by rw [hk]; decide) s hwf hl hnd hmiss hrep hw post
  have hlohi : lo < hi := by
    obtain ⟨z, w, hz, hw, hne⟩ := hflat
    have a := h5 z hz
    have b := h5 w hw
    by_contra hn
    push Not at hn
    exact hne (by linarith [le_antisymm (show z ≤ w by linarith [a.2, b.1]) (by linarith [a.1, b.2])])
  refine ⟨lo, hi, r, h1, hlohi, h3, h4, ?_⟩
  intro i j z hi' hj hz
  have hzm : some z ∈ Container.flat s.raw.data := by rw [← hz]; exact get_mem hwf hi' hj
  obtain ⟨hlz, hzh⟩ := h5 z hzm
  have hpos := dtype_size_pos ht
  obtain ⟨P, hP, hP1⟩ : ∃ P : Int, (256 : Int) ^ t.size = 2 * P ∧ 128 ≤ P := by
    obtain ⟨k, hk2⟩ : ∃ k, t.size = k + 1 := ⟨t.size - 1, by omega⟩
    have : (1 : Int) ≤ 256 ^ k := one_le_pow₀ (by norm_num)
    exact ⟨128 * 256 ^ k, by rw [hk2, pow_succ]; ring, by omega⟩
  have hlo0 : t.lo = -P := by unfold DType.lo intMin; rw [hk]; simp [hP]
  have hhi0 : t.hi = P - 1 := by unfold DType.hi intMax; rw [hk]; simp [hP]
  have hPK : (128 : K) ≤ P := by exact_mod_cast hP1
  set M : K := 2 * P - 1 with hMdef
  have hMK : 0 < M := by rw [hMdef]; linarith
  have hcast : (((t.hi - t.lo : Int)) : K) = M := by rw [hhi0, hlo0, hMdef]; push_cast; ring
  have hd : 0 < hi - lo := by linarith
  set x : K := (z - lo) / (hi - lo) * M - P with hx
  have hsc : scaled t (some lo) (some hi) (some z) = some x := by
    simp only [scaled, if_neg hlohi.ne']; rw [hcast, hlo0]; simp [hx, sub_eq_add_neg]
  have hu0 : 0 ≤ (z - lo) / (hi - lo) := div_nonneg (by linarith) hd.le
  have hu1 : (z - lo) / (hi - lo) ≤ 1 := (div_le_one hd).2 (by linarith)
  have hx0 : -(P : K) ≤ x := by
    have := mul_nonneg hu0 hMK.le
    rw [hx]; linarith
  have hx1 : x ≤ P - 1 := by
    have := mul_le_mul_of_nonneg_right hu1 hMK.le
    rw [hx]; linarith
  set q := pyInt x with hq
  have hqx : (q : K) < x + 1 := by
    rw [hq]; unfold pyInt
    split
    · exact lt_of_le_of_lt (Int.floor_le x) (by linarith)
    · exact Int.ceil_lt_add_one x
  have hqr : -P ≤ q ∧ q ≤ P - 1 := by
    rw [hq]; unfold pyInt
    split
    · rename_i h
      have : 0 ≤ ⌊x⌋ := Int.floor_nonneg.2 h
      have h2 : ⌊x⌋ ≤ ⌊((P - 1 : Int) : K)⌋ := Int.floor_le_floor (by push_cast; exact hx1)
      rw [Int.floor_intCast] at h2
      omega
    · have h2 : ⌈((-P : Int) : K)⌉ ≤ ⌈x⌉ := Int.ceil_le_ceil (by push_cast; exact hx0)
      have h3 : ⌈x⌉ ≤ ⌈((P - 1 : Int) : K)⌉ := Int.ceil_le_ceil (by push_cast; exact hx1)
      rw [Int.ceil_intCast] at h2 h3
      omega
  have hrt : bytesInt true t.big t.size (intBytes t.big t.size q) = q :=
    bytesInt_intBytes true t.big t.size _ hpos
      (by rw [show intMin true t.size = -P by simp [intMin, hP]]; exact hqr.1)
      (by rw [show intMax true t.size = P - 1 by simp [intMax, hP]]; exact hqr.2)
  have hitem : t.item K (encodeItem c nan t (some x)) = some (q : K) := by
    simp only [DType.item, encodeItem, hk, ← hq]
    simp [hrt]
  rw [h11 i j hi' hj, hz, hsc, hitem]
  refine ⟨((q : K) + -P) / M * (hi - lo) + lo, ?_, ?_⟩
  · simp only [unscale]; rw [hcast, hlo0]; simp
  · have hzx : z = (x + P) / M * (hi - lo) + lo := by rw [hx]; field_simp; ring
    have hq2 : ((q : K) + -P) / M < (x + P) / M - 1 := by
      rw [div_lt_iff₀ hMK, sub_mul, div_mul_cancel₀ _ hMK.ne', hMdef]
      linarith
    have := mul_lt_mul_of_pos_right hq2 hd
    rw [sub_mul, one_mul] at this
    linarith

/-- A layer that fits into its header is saved. -/
theorem writeLayer_ok (c : FloatCodec K) (cd : Codec) (l : Layer) (h1 : l.name.length ≤ 65535)
    (h2 : l.width < 2 ^ 32) (h3 : l.height < 2 ^ 32) (h4 : l.third.getD 1 ≤ 255)
    (h5 : (cd.compress l.bytes).length < 2 ^ 32) : ∃ b, writeLayer c cd l = .ok b := by
  unfold writeLayer
  dsimp only
  have m : ∀ w, intMin false w = 0 := fun w => by simp [intMin]
  have m1 : intMax false 1 = 255 := by decide
  have m2 : intMax false 2 = 65535 := by decide
  have m4 : intMax false 4 = 2 ^ 32 - 1 := by decide
  obtain ⟨b, hb⟩ := write_ok_of (c := c) (d := layerDict (K := K) l.name l.width l.height
    (l.third.getD 1) l.dtype (cd.compress l.bytes).length) (L := layerLayout K) (by
    simp only [layerLayout, List.forall_mem_cons, List.not_mem_nil, false_imp_iff, implies_true,
      and_true]
    refine ⟨int_entry_ok c (i := (l.name.length : Int)) rfl (by rw [m]; omega) (by rw [m2]; omega),
      ?_, int_entry_ok c (i := (l.width : Int)) rfl (by rw [m]; omega) (by rw [m4]; omega),
      int_entry_ok c (i := (l.height : Int)) rfl (by rw [m]; omega) (by rw [m4]; omega),
      int_entry_ok c (i := ((l.third.getD 1 : Nat) : Int)) rfl (by rw [m]; omega) (by rw [m1]; omega),
      txt_entry_ok c rfl,
      int_entry_ok c (i := ((cd.compress l.bytes).length : Int)) rfl (by rw [m]; omega)
        (by rw [m4]; omega)⟩
    simp only [Entry.write, previousFormat]
    rw [dict_at_some (v := .int l.name.length) rfl]
    dsimp only
    rw [if_pos (by omega)]
    dsimp only
    rw [dict_at_some (v := .str l.name) rfl]
    simp only [encodeValue, Fmt.pack]
    exact ⟨_, rfl⟩)
  rw [hb]
  exact ⟨_, rfl⟩

/-- The data of the file are the bytes of the heights passed through the library named: unchanged for 'none', zlib's for 'zlib', lzma's
for 'lzma'. The bytes compressed do not depend on the choice. -/
theorem C62_compressed (c : FloatCodec K) (L : Codecs) (nan : Int) (numMeta : Nat) (t : DType) (s : Surf K) (hwf : s.raw.data.WF) :
    ∃ raw : Bytes, raw.length = s.raw.data.ny * s.raw.data.nx * t.size ∧
      (∀ b, writeSflz c L nan "none".toList false numMeta t s = .ok b → ∃ pre, b = pre ++ raw) ∧
      (∀ b, writeSflz c L nan "zlib".toList false numMeta t s = .ok b → ∃ pre, b = pre ++ L.zlib.compress raw) ∧
      ∀ b, writeSflz c L nan "lzma".toList false numMeta t s = .ok b → ∃ pre, b = pre ++ L.lzma.compress raw := by
  set items := (if decide (t.kind ≠ .float) = true then (Container.flat s.raw.data).map
    (scaled t (propmin (Container.flat s.raw.data)) (propmax (Container.flat s.raw.data))) else Container.flat s.raw.data) with hit
  have key : ∀ comp b, writeSflz c L nan comp false numMeta t s = .ok b →
      ∃ pre, b = pre ++ (L.of comp).compress (writeArray (encodeItem c nan t) items) := by
    intro comp b h
    unfold writeSflz at h
    dsimp only at h
    split at h
    · cases h
    split at h
    · cases h
    split at h
    · cases h
    · rename_i top htop
      simp only [writeLayers, Bool.false_eq_true, if_false, List.append_nil, Except.ok.injEq] at h
      unfold writeLayer at htop
      dsimp only at htop
      split at htop
      · cases htop
      · cases htop
        subst h
        exact ⟨_, by simp only [← List.append_assoc, hit]; rfl⟩
  refine ⟨writeArray (encodeItem c nan t) items, ?_, fun b h => ?_, fun b h => ?_, fun b h => ?_⟩
  · rw [writeArray_length t.size _ items (fun x _ => encodeItem_length c nan t x), ← flat_length _ hwf, hit]
    split <;> simp
  · exact key _ _ h
  · exact key _ _ h
  · exact key _ _ h

/-- Saving succeeds with each of the three compressions for up to `2^32 - 1` points per direction, up
to 65534 saved layers and up to 65535 metadata entries, if every layer fits into the fields of its
header. -/
theorem C62_saves (c : FloatCodec K) (L : Codecs) (nan : Int) {comp : List Char}
    (hcomp : comp ∈ ["none".toList, "zlib".toList, "lzma".toList]) (save : Bool) {numMeta : Nat}
    (hmeta : numMeta ≤ 65535) {t : DType} (s : Surf K) (hwf : s.raw.data.WF)
    (hne : Container.flat s.raw.data ≠ [])
    (hnx : s.raw.data.nx < 2 ^ 32) (hny : s.raw.data.ny < 2 ^ 32)
    (hsize : ∀ b : Bytes, b.length = s.raw.data.ny * s.raw.data.nx * t.size →
      ((L.of comp).compress b).length < 2 ^ 32)
    (hsx : |s.raw.stepX| < f64.threshold K) (hsy : |s.raw.stepY| < f64.threshold K)
    (hz : ∀ z, some z ∈ Container.flat s.raw.data → |z| < f64.threshold K)
    (hnl : s.layers.length ≤ 65534)
    (hl : ∀ l ∈ s.layers, l.name.length ≤ 65535 ∧ l.width < 2 ^ 32 ∧ l.height < 2 ^ 32 ∧
      l.third.getD 1 ≤ 255 ∧ ((L.of comp).compress l.bytes).length < 2 ^ 32) :
    ∃ b, writeSflz c L nan comp save numMeta t s = .ok b := by
  unfold writeSflz
  dsimp only
  set isInt : Bool := decide (t.kind ≠ .float) with hisInt
  rw [if_neg (fun h => hne h.2)]
  set layers := if save then s.layers else [] with hlayers
  have hll : layers.length ≤ 65534 := by rw [hlayers]; split <;> simp [hnl]
  set lo := propmin (Container.flat s.raw.data) with hlo
  set hi := propmax (Container.flat s.raw.data) with hhi
  have hlo2 : ∀ x, lo = some x → |x| < f64.threshold K := by
    intro x hx
    rw [hlo] at hx; unfold propmin at hx
    split at hx
    · cases hx
    · exact hz x (mem_measured.1 (min?_spec.1 hx).1)
  have hhi2 : ∀ x, hi = some x → |x| < f64.threshold K := by
    intro x hx
    rw [hhi] at hx; unfold propmax at hx
    split at hx
    · cases hx
    · exact hz x (mem_measured.1 (max?_spec.1 hx).1)
  have m : ∀ w, intMin false w = 0 := fun w => by simp [intMin]
  have m2 : intMax false 2 = 65535 := by decide
  have hval : ∀ (k : String) (v : Option K), (∀ x, v = some x → |x| < f64.threshold K) →
      ∀ d : Dict K, d k = some (if isInt then .num (match v with
        | some x => .fin x
        | none => .nan) else .int 0) →
      ∃ b, (Entry.field k (.fixed (.flt true false 1)) : Entry K).write c d = .ok b := by
    intro k v hv d hd
    cases h2 : isInt with
    | true =>
      rw [h2] at hd
      simp only [if_true] at hd
      cases v with
      | none => exact nan_entry_ok c hd
      | some x => exact num_entry_ok c hd (hv x rfl)
    | false =>
      rw [h2] at hd
      simp only [Bool.false_eq_true, if_false] at hd
      refine fltint_entry_ok c hd ?_
      simpa using lt_trans one_pos (one_lt_threshold (K := K) true)
  obtain ⟨hdr, hh⟩ := write_ok_of (c := c) (d := header comp isInt lo hi (1 + layers.length) numMeta s)
    (L := layout K) (by
    simp only [layout, List.forall_mem_cons, List.not_mem_nil, false_imp_iff, implies_true,
      and_true]
    refine ⟨txt_entry_ok c rfl, num_entry_ok c (x := s.raw.stepX) rfl hsx,
      num_entry_ok c (x := s.raw.stepY) rfl hsy, ?_, hval _ lo hlo2 _ rfl, hval _ hi hhi2 _ rfl,
      int_entry_ok c (i := ((1 + layers.length : Nat) : Int)) rfl (by rw [m]; omega)
        (by rw [m2]; omega),
      int_entry_ok c (i := (numMeta : Int)) rfl (by rw [m]; omega) (by rw [m2]; omega), ?_⟩
    · simp only [Entry.write]
      rw [dict_at_some (v := .int (if isInt then 1 else 0)) rfl]
      simp only [encodeValue, Fmt.pack]
      exact ⟨_, rfl⟩
    · have : ∃ k : Int, compressionWrite (K := K) (.str comp) = .ok (.int k) ∧ 0 ≤ k ∧ k ≤ 2 := by
        simp only [List.mem_cons, List.not_mem_nil, or_false] at hcomp
        rcases hcomp with rfl | rfl | rfl
        · exact ⟨0, rfl, by omega, by omega⟩
        · exact ⟨1, rfl, by omega, by omega⟩
        · exact ⟨2, rfl, by omega, by omega⟩
      obtain ⟨k, hk, hk0, hk2⟩ := this
      simp only [Entry.write]
      rw [dict_at_some (v := .str comp) rfl]
      dsimp only
      rw [hk]
      simp only [Fmt.pack]
      have m1 : intMax false 1 = 255 := by decide
      rw [if_pos ⟨by rw [m]; exact hk0, by rw [m1]; omega⟩]
      exact ⟨_, rfl⟩)
  rw [hh]
  dsimp only
  set items := if isInt then (Container.flat s.raw.data).map (scaled t lo hi)
    else Container.flat s.raw.data with hitems
  have hil : items.length = s.raw.data.ny * s.raw.data.nx := by
    rw [hitems]; split
    · rw [List.length_map, flat_length _ hwf]
    · rw [flat_length _ hwf]
  have hal := writeArray_length t.size (encodeItem c nan t) items
    (fun x _ => encodeItem_length c nan t x)
  obtain ⟨bt, hbt⟩ := writeLayer_ok c (L.of comp) ⟨"topography".toList, t, s.raw.data.ny,
    s.raw.data.nx, none, writeArray (encodeItem c nan t) items⟩
    (show "topography".toList.length ≤ 65535 by decide) hnx hny (by simp)
    (hsize _ (by rw [hal, hil]))
  rw [hbt]
  dsimp only
  have hls : ∀ ls : List Layer, (∀ l ∈ ls, l ∈ s.layers) →
      ∃ b, writeLayers c (L.of comp) ls = .ok b := by
    intro ls
    induction ls with
    | nil => intro _; exact ⟨[], rfl⟩
    | cons l ls ih =>
      intro h
      obtain ⟨a1, a2, a3, a4, a5⟩ := hl l (h l (by simp))
      obtain ⟨b1, hb1⟩ := writeLayer_ok c (L.of comp) l a1 a2 a3 a4 a5
      obtain ⟨b2, hb2⟩ := ih (fun x hx => h x (by simp [hx]))
      exact ⟨b1 ++ b2, by simp [writeLayers, hb1, hb2]⟩
  obtain ⟨bl, hbl⟩ := hls layers (by rw [hlayers]; split <;> simp)
  rw [hbl]
  exact ⟨_, rfl⟩

/-- Layer names: a layer comes back under the name that is left of its name in as many bytes as it has
characters, without blanks and NULs at the end, provided no character is cut and these names differ.
Missing: other names, see below. -/
theorem C62_names_partial {c : FloatCodec K} (hc : c.Nearest) {L : Codecs} (hL : Lossless L) (nan : Int)
    {comp : List Char} (numMeta : Nat) {t : DType} (ht : t ∈ dtypes) (s : Surf K) (hwf : s.raw.data.WF)
    (nm : Layer → List Char) (hd : ∀ l ∈ s.layers, l.dtype ∈ dtypes)
    (hn : ∀ l ∈ s.layers, ∃ u, CutTo l.name.length l.name u ∧ Stripped u (nm l))
    (h3 : ∀ l ∈ s.layers, ∀ k, l.third = some k → 1 < k)
    (hb : ∀ l ∈ s.layers, l.bytes.length = l.height * l.width * l.third.getD 1 * l.dtype.size)
    (hnd : (s.layers.map nm).Nodup) {b : Bytes}
    (hw : writeSflz c L nan comp true numMeta t s = .ok b) (post : Bytes) :
    ∃ r : Surf K, readSflz L true ⟨b ++ post, 0⟩ = .ok r ∧ r.raw.data.ny = s.raw.data.ny ∧ r.raw.data.nx = s.raw.data.nx ∧
      r.layers = s.layers.map fun l => ⟨nm l, l.dtype, l.height, l.width, l.third, l.bytes⟩ := by
  obtain ⟨sx, sy, lo', hi', hr, -⟩ := read_written_as hc hL.zlib hL.lzma nan true true numMeta nm ht
    s hwf (fun l h => ⟨hd l h, hn l h, h3 l h, hb l h⟩) hnd hw post
  exact ⟨_, hr, map_ny _ _, rfl, rfl⟩

/-- **C62** (names that agree once they are cut and stripped): of the layers that come back under the same name only the last one comes back, so that fewer
layers are read than were written. -/
theorem C62_names_collide {c : FloatCodec K} (hc : c.Nearest) {L : Codecs} (hL : Lossless L) (nan : Int)
    {comp : List Char} (numMeta : Nat) {t : DType} (ht : t ∈ dtypes) (s : Surf K) (hwf : s.raw.data.WF)
    (nm : Layer → List Char) (hd : ∀ l ∈ s.layers, l.dtype ∈ dtypes)
    (hn : ∀ l ∈ s.layers, ∃ u, CutTo l.name.length l.name u ∧ Stripped u (nm l))
    (h3 : ∀ l ∈ s.layers, ∀ k, l.third = some k → 1 < k)
    (hb : ∀ l ∈ s.layers, l.bytes.length = l.height * l.width * l.third.getD 1 * l.dtype.size)
    {b : Bytes} (hw : writeSflz c L nan comp true numMeta t s = .ok b) (post : Bytes) :
    ∃ r : Surf K, readSflz L true ⟨b ++ post, 0⟩ = .ok r ∧ (r.layers.map Layer.name).Nodup ∧
      ∀ x, x ∈ r.layers ↔ ∃ p l q, s.layers = p ++ l :: q ∧ (∀ m ∈ q, nm m ≠ nm l) ∧ x = ⟨nm l, l.dtype, l.height, l.width, l.third, l.bytes⟩ := by
  obtain ⟨r, hr, hrl⟩ := read_written_put hc hL.zlib hL.lzma nan numMeta nm ht s hwf (fun l h => ⟨hd l h, hn l h, h3 l h, hb l h⟩) hw post
  obtain ⟨a1, a2⟩ := foldl_put_spec (s.layers.map fun l : Layer => { l with name := nm l })
  rw [← hrl] at a1 a2
  refine ⟨r, hr, a1, fun x => (a2 x).trans ?_⟩
  constructor
  · rintro ⟨p, q, e, hq⟩
    obtain ⟨p', q', e', rfl, e2⟩ := List.map_eq_append_iff.1 e
    obtain ⟨l, q'', rfl, rfl, rfl⟩ := List.map_eq_cons_iff.1 e2
    exact ⟨p', l, q'', e', fun m hm => hq _ (List.mem_map_of_mem hm), rfl⟩
  · rintro ⟨p, l, q, e, hq, rfl⟩
    refine ⟨p.map fun l : Layer => { l with name := nm l }, q.map fun l : Layer => { l with name := nm l }, by rw [e]; simp, fun m hm => ?_⟩
    obtain ⟨m', hm', rfl⟩ := List.mem_map.1 hm
    exact hq m' hm'

private def twoLayers : List Layer :=
  [⟨"rgb".toList, ⟨.unsigned, 1, false⟩, 1, 2, none, [1, 2]⟩, ⟨"rgb ".toList, ⟨.unsigned, 1, false⟩, 1, 2, none, [3, 4]⟩]

/-- Two layers, "rgb" and "rgb " with a blank: only the second one comes back, as "rgb". -/
example {c : FloatCodec ℚ} (hc : c.Nearest) {L : Codecs} (hL : Lossless L) (nan : Int) {comp : List Char} (numMeta : Nat) (raw : Raw ℚ) (hwf : raw.data.WF) {b : Bytes}
    (hw : writeSflz c L nan comp true numMeta ⟨.unsigned, 4, false⟩
      ⟨raw, twoLayers⟩ = .ok b) :
    ∃ r : Surf ℚ, readSflz L true ⟨b ++ [], 0⟩ = .ok r ∧ (r.layers.map Layer.name).Nodup ∧
      ∀ x, x ∈ r.layers ↔ x = ⟨"rgb".toList, ⟨.unsigned, 1, false⟩, 1, 2, none, [3, 4]⟩ := by
  obtain ⟨r, h1, h2, h3⟩ := C62_names_collide hc hL nan numMeta (t := ⟨.unsigned, 4, false⟩) (by decide) _ hwf (fun _ => "rgb".toList)
    (show ∀ l ∈ twoLayers, _ by decide) (by
      intro l hl
      refine ⟨l.name, cutTo_self _ _ ?_, ?_⟩
      · exact (show ∀ l ∈ twoLayers, (utf8 l.name).length ≤ l.name.length by decide +kernel) l hl
      · simp only [twoLayers, List.mem_cons, List.not_mem_nil, or_false] at hl
        rcases hl with rfl | rfl
        · exact ⟨⟨[], by simp, by simp⟩, by decide⟩
        · exact ⟨⟨[' '], by simp, rfl⟩, by decide⟩) (by
      intro l hl k hk
      simp only [twoLayers, List.mem_cons, List.not_mem_nil, or_false] at hl
      rcases hl with rfl | rfl <;> cases hk) (show ∀ l ∈ twoLayers, l.bytes.length = l.height * l.width * l.third.getD 1 * l.dtype.size by decide) hw []
  refine ⟨r, h1, h2, fun x => (h3 x).trans ?_⟩
  constructor
  · rintro ⟨p, l, q, e, hq, rfl⟩
    change twoLayers = _ at e
    unfold twoLayers at e
    match p, q, e, hq with
    | [], [], e, _ => simp at e
    | [], m :: q, _, hq => exact absurd rfl (hq m (by simp))
    | [a], [], e, _ =>
      obtain ⟨-, rfl⟩ : _ ∧ _ = l := by simpa using e
      rfl
    | [a], m :: q, e, _ => simp at e
    | a :: a' :: p, q, e, _ =>
      have := congrArg List.length e
      simp at this
  · rintro rfl
    exact ⟨[_], _, [], rfl, by simp, rfl⟩

/-- **C62** (the names of the formats): the three characters that stand in the file for each format: byte order (`|` for single bytes), letter (`u`, `i`, `f`) and size. -/
theorem C62_dtype_names : dtypes.map (fun t => (t.kind, t.size, t.big, t.str)) =
    [(.unsigned, 1, false, "|u1".toList), (.unsigned, 2, false, "<u2".toList), (.unsigned, 4, false, "<u4".toList), (.unsigned, 8, false, "<u8".toList),
     (.unsigned, 2, true, ">u2".toList), (.unsigned, 4, true, ">u4".toList), (.unsigned, 8, true, ">u8".toList),
     (.signed, 1, false, "|i1".toList), (.signed, 2, false, "<i2".toList), (.signed, 4, false, "<i4".toList), (.signed, 8, false, "<i8".toList),
     (.signed, 2, true, ">i2".toList), (.signed, 4, true, ">i4".toList), (.signed, 8, true, ">i8".toList),
     (.float, 4, false, "<f4".toList), (.float, 8, false, "<f8".toList), (.float, 4, true, ">f4".toList), (.float, 8, true, ">f8".toList)] := by decide +kernel

/-- **Violated** for names beyond ASCII: such a layer never comes back under its name. -/
theorem C62_name_violated {l : Layer} {u t : List Char} (hn : ∃ c ∈ l.name, 128 ≤ c.toNat)
    (h1 : CutTo l.name.length l.name u) (h2 : Stripped u t) : t ≠ l.name := by
  rintro rfl
  have hlong : l.name.length < (utf8 l.name).length := by
    obtain ⟨c, hc, h128⟩ := hn
    obtain ⟨p, q, e⟩ := List.append_of_mem hc
    have ec : utf8 (c :: q) = String.utf8EncodeChar c ++ utf8 q := by simp [utf8]
    rw [e, utf8_append, ec]
    have a1 := utf8_length_le p
    have a2 := utf8_length_le q
    have a3 : 2 ≤ (String.utf8EncodeChar c).length := by
      rw [String.length_utf8EncodeChar]
      unfold Char.utf8Size
      have hv : c.val.toNat = c.toNat := rfl
      dsimp only
      split
      · rename_i h7
        rw [UInt32.le_iff_toNat_le, hv] at h7
        have h127 : c.toNat ≤ 127 := h7
        omega
      · split
        · omega
        · split <;> omega
    simp only [List.length_append, List.length_cons]
    omega
  obtain ⟨⟨pad, -, e⟩, -⟩ := h2
  have hu : u = l.name := by
    obtain ⟨v, hv⟩ := h1.1
    have := congrArg List.length hv
    have := congrArg List.length e
    simp only [List.length_append] at *
    have hz : v = [] := List.length_eq_zero_iff.1 (by omega)
    rw [← hv, hz, List.append_nil]
  have := congrArg List.length h1.2
  rw [hu, List.length_take] at this
  omega

/-- A name that is cut inside a character cannot be read. -/
theorem readLayer_unreadable {c : FloatCodec K} (hc : c.Nearest) {cd : Codec} {l : Layer} (hcut : ¬ ∃ u, CutTo l.name.length l.name u)
    {b : Bytes} (hw : writeLayer c cd l = .ok b) (pre post : Bytes) :
    readLayer (K := K) cd ⟨pre ++ b ++ post, pre.length⟩ = .error .unicode := by
  unfold writeLayer at hw
  dsimp only at hw
  set data := cd.compress l.bytes with hdata
  set d0 : Dict K := layerDict (K := K) l.name l.width l.height (l.third.getD 1) l.dtype data.length with hd0
  cases hh : write c d0 (layerLayout K) with
  | error e => rw [hh] at hw; cases hw
  | ok hdr =>
    rw [hh] at hw
    simp only [Except.ok.injEq] at hw
    subst hw
    set e1 : Entry K := .field "name_length" (.fixed (.int false false 2)) with he1
    obtain ⟨es, hes⟩ : ∃ es, layerLayout K = e1 :: .field "name" (.fromPrevious "name_length") :: es := ⟨_, rfl⟩
    rw [hes, write] at hh
    cases h1 : e1.write c d0 with
    | error e => rw [h1] at hh; cases hh
    | ok b1 =>
      rw [h1] at hh
      dsimp only at hh
      obtain ⟨nb, hnb, hnl, -⟩ := C57_text_iff (K := K) c l.name.length l.name (pre ++ b1) []
      have h2 : (Entry.field "name" (.fromPrevious "name_length") : Entry K).write c d0 = .ok nb := by
        have p1 : d0.at "name_length" = .ok (.int l.name.length) := rfl
        have p2 : d0.at "name" = .ok (.str l.name) := rfl
        simp only [Entry.write, previousFormat, p1]
        rw [if_pos (by omega)]
        dsimp only
        rw [p2, Int.toNat_natCast]
        exact hnb
      rw [write, h2] at hh
      dsimp only at hh
      cases h3 : write c d0 es with
      | error e => rw [h3] at hh; cases hh
      | ok b3 =>
        rw [h3] at hh
        simp only [Except.ok.injEq] at hh
        subst hh
        obtain ⟨-, d', hr, hb⟩ := header_back hc .utf8 (L := [e1]) (by simp [he1, WellFormed]) (by simp [he1, names]) (d := d0)
          (by simp [he1, TextFits]) (b := b1) (by simp [write, h1]) pre (nb ++ b3 ++ data ++ post)
        have hd : d' "name_length" = some (.int l.name.length) := by
          have := hb.int (name := "name_length") (sg := false) (big := false) (w := 2) (by simp [he1]) (i := (l.name.length : Int)) rfl
          unfold getInt at this
          cases hx : d' "name_length" with
          | none => rw [hx] at this; cases this
          | some v =>
            rw [hx] at this
            cases v <;> simp at this
            rw [this]
        obtain ⟨nb', hnb', -, -, hbad⟩ := C57_text_iff (K := K) c l.name.length l.name (pre ++ b1) (b3 ++ data ++ post)
        rw [hnb] at hnb'
        injection hnb' with hnb'
        subst hnb'
        have hb2 := hbad hcut
        have ebuf : pre ++ (b1 ++ (nb ++ b3) ++ data) ++ post = pre ++ b1 ++ (nb ++ b3 ++ data ++ post) := by simp
        have ebuf2 : pre ++ b1 ++ nb ++ (b3 ++ data ++ post) = pre ++ b1 ++ (nb ++ b3 ++ data ++ post) := by simp
        rw [ebuf2, List.length_append] at hb2
        unfold readLayer
        rw [ebuf, hes]
        unfold LayoutM.read at hr ⊢
        unfold readGo at hr ⊢
        cases hx : e1.read .utf8 (fun _ => none) ⟨pre ++ b1 ++ (nb ++ b3 ++ data ++ post), pre.length⟩ with
        | error e => rw [hx] at hr; cases hr
        | ok q =>
          obtain ⟨d1, h1'⟩ := q
          rw [hx] at hr
          simp only [readGo, Except.ok.injEq, Prod.mk.injEq] at hr
          obtain ⟨rfl, rfl⟩ := hr
          dsimp only
          have p1 : d1.at "name_length" = .ok (.int l.name.length) := by unfold Dict.at; rw [hd]
          unfold readGo
          simp only [Entry.read, previousFormat, p1]
          rw [if_pos (by omega)]
          dsimp only
          rw [Int.toNat_natCast, hb2]

/-- **Violated** for names whose first `len(name)` bytes end inside a character: saving succeeds, and the
file cannot be read with its images. -/
theorem C62_name_unreadable {c : FloatCodec K} (hc : c.Nearest) {L : Codecs} (hL : Lossless L) (nan : Int)
    {comp : List Char} (numMeta : Nat) {t : DType} (ht : t ∈ dtypes) (s : Surf K) (hwf : s.raw.data.WF)
    {l : Layer} {ls : List Layer} (hs : s.layers = l :: ls) (hcut : ¬ ∃ u, CutTo l.name.length l.name u) {b : Bytes}
    (hw : writeSflz c L nan comp true numMeta t s = .ok b) (post : Bytes) :
    readSflz (K := K) L true ⟨b ++ post, 0⟩ = .error .unicode := by
  obtain ⟨sx, sy, lo', hi', X, bl, hwl, -, hr, -⟩ := read_written_raw hc hL.zlib hL.lzma nan true true numMeta ht s hwf hw post
  rw [if_pos rfl, hs, writeLayers] at hwl
  cases h1 : writeLayer c (L.of comp) l with
  | error e => rw [h1] at hwl; cases hwl
  | ok b1 =>
    rw [h1] at hwl
    dsimp only at hwl
    cases h2 : writeLayers c (L.of comp) ls with
    | error e => rw [h2] at hwl; cases hwl
    | ok b2 =>
      rw [h2] at hwl
      simp only [Except.ok.injEq] at hwl
      subst hwl
      have := readLayer_unreadable hc hcut h1 X (b2 ++ post)
      have e1 : X ++ (b1 ++ b2) ++ post = X ++ b1 ++ (b2 ++ post) := by simp
      rw [hr, if_pos rfl, if_pos rfl, hs, Nat.add_sub_cancel_left, List.length_cons, readLayers, e1, this]

/-- "µ" is one character of two bytes: a layer of that name is unreadable, "µm" comes back as "µ". -/
example : (¬ ∃ u, CutTo "µ".toList.length "µ".toList u) ∧ CutTo "µm".toList.length "µm".toList "µ".toList := by
  constructor
  · rintro ⟨u, h1, h2⟩
    rw [show (utf8 "µ".toList).take "µ".toList.length = [194] by decide +kernel] at h2
    have := utf8?_utf8 u
    rw [h2, show utf8? [194] = none by decide +kernel] at this
    cases this
  · exact ⟨by decide +kernel, by decide +kernel⟩

/-- Without points an integer dtype cannot be saved. -/
theorem C62_no_points (c : FloatCodec K) (L : Codecs) (nan : Int) (comp : List Char) (save : Bool)
    (numMeta : Nat) {t : DType} (hk : t.kind ≠ .float) (s : Surf K)
    (hne : Container.flat s.raw.data = []) :
    writeSflz c L nan comp save numMeta t s = .error .valueError := by
  unfold writeSflz
  rw [if_pos ⟨by simpa using hk, hne⟩]

/-! ### A case meeting the hypotheses -/

/-- Libraries that do not compress at all are lossless. -/
theorem sflz_plain_lossless : Lossless ⟨⟨id, .ok⟩, ⟨id, .ok⟩⟩ := ⟨fun _ => rfl, fun _ => rfl⟩

/-- A 2×2 surface with heights 0, 1, 2, 3 and a colour layer. -/
def sflzSample : Surf ℚ :=
  ⟨⟨⟨[[some 0, some 1], [some 2, some 3]], 2⟩, 1, 1⟩,
    [⟨"rgb".toList, ⟨.unsigned, 1, false⟩, 1, 2, some 3, [1, 2, 3, 4, 5, 6]⟩]⟩

example : ∃ (c : FloatCodec ℚ) (b : Bytes) (lo hi : ℚ) (r : Surf ℚ), c.Nearest ∧
    writeSflz c ⟨⟨id, .ok⟩, ⟨id, .ok⟩⟩ 0 "zlib".toList true 0 ⟨.unsigned, 4, false⟩ sflzSample = .ok b ∧
    readSflz ⟨⟨id, .ok⟩, ⟨id, .ok⟩⟩ true ⟨b, 0⟩ = .ok r ∧ r.layers = sflzSample.layers ∧
    some lo ∈ Container.flat sflzSample.raw.data ∧ some hi ∈ Container.flat sflzSample.raw.data ∧
    ∃ z', r.raw.data.get 1 0 = some z' ∧ z' ≤ 2 ∧ 2 - z' ≤ (hi - lo) / (256 ^ 4 - 1) := by
  obtain ⟨c, hc⟩ := FloatCodec.exists_nearest ℚ
  have hflat : Container.flat sflzSample.raw.data = [some 0, some 1, some 2, some 3] := rfl
  have hrep : ∀ z, some z ∈ Container.flat sflzSample.raw.data → f64.Repr z := by
    intro z hz
    rw [hflat] at hz
    have : ∃ n : Nat, n ≤ 3 ∧ z = n := by
      simp only [List.mem_cons, Option.some.injEq, List.not_mem_nil, or_false] at hz
      rcases hz with rfl | rfl | rfl | rfl
      · exact ⟨0, by omega, by norm_num⟩
      · exact ⟨1, by omega, by norm_num⟩
      · exact ⟨2, by omega, by norm_num⟩
      · exact ⟨3, by omega, by norm_num⟩
    obtain ⟨n, hn, rfl⟩ := this
    refine (FFormat.repr_nat (K := ℚ) f64 (by decide) (by decide) n ?_).1
    have : f64.mb = 52 := rfl
    rw [this]; omega
  have hthr : ∀ z : ℚ, |z| ≤ 3 → |z| < f64.threshold ℚ := by
    intro z hz
    refine lt_of_le_of_lt hz ?_
    unfold FFormat.threshold
    have h1 : (2 : ℚ) ^ (f64.bias - (f64.mb : Int) - 1) = 2 ^ 970 := by
      rw [show f64.bias - (f64.mb : Int) - 1 = ((970 : Nat) : Int) by decide, zpow_natCast]
    have h2 : f64.mb = 52 := rfl
    have h3 : (1 : ℚ) ≤ 2 ^ 970 := one_le_pow₀ (by norm_num)
    rw [h1, h2]
    have h4 : (3 : ℚ) < 2 ^ (52 + 2) - 1 := by norm_num
    exact lt_of_lt_of_le h4 (le_mul_of_one_le_right (by linarith) h3)
  have hwf : sflzSample.raw.data.WF := by
    intro r hr
    have : ∀ r ∈ sflzSample.raw.data.rows, r.length = 2 := by decide
    exact this r hr
  obtain ⟨b, hb⟩ := C62_saves (K := ℚ) c ⟨⟨id, .ok⟩, ⟨id, .ok⟩⟩ 0 (comp := "zlib".toList) (by decide) true
    (numMeta := 0) (by omega) (t := ⟨.unsigned, 4, false⟩) sflzSample hwf (by rw [hflat]; simp)
    (show (2 : Nat) < 2 ^ 32 by omega) (show (2 : Nat) < 2 ^ 32 by omega)
    (fun b hb => by
      have : b.length = 2 * 2 * 4 := hb
      show (id b).length < _
      simp [this])
    (hthr 1 (by norm_num)) (hthr 1 (by norm_num))
    (fun z hz => hthr z (by
      rw [hflat] at hz
      simp only [List.mem_cons, Option.some.injEq, List.not_mem_nil, or_false] at hz
      rcases hz with rfl | rfl | rfl | rfl <;> norm_num))
    (by decide) (by decide)
  obtain ⟨lo, hi, r, h1, -, h3, h4, -, -, -, -, -, h10, h11⟩ := C62_unsigned_partial hc sflz_plain_lossless 0
    true true 0 (t := ⟨.unsigned, 4, false⟩) (by decide) rfl (by decide) sflzSample hwf (by
      intro l hl
      have : l = ⟨"rgb".toList, ⟨.unsigned, 1, false⟩, 1, 2, some 3, [1, 2, 3, 4, 5, 6]⟩ := by
        simpa [sflzSample] using hl
      subst this
      exact ⟨by decide, by decide, (show ∀ c ∈ "rgb".toList.getLast?, c ≠ ' ' ∧ c ≠ '\x00' by decide),
        (by intro k hk; cases hk; omega), by decide⟩) (by decide) (by rw [hflat]; simp) hrep hb []
  rw [List.append_nil] at h1
  obtain ⟨z', hz1, -, hz2, hz3, -⟩ := h11 1 0 2 (by decide) (by decide) rfl
  exact ⟨c, b, lo, hi, r, hc, hb, h1, by simpa using h10, h3, h4, z', hz1, hz2, hz3⟩

end Props
end Surfalize
