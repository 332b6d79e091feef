import Verif.Model.Sur
import Verif.Lemmas.FileArray
import Verif.Lemmas.GridFn
import Verif.Lemmas.Num
import Verif.Lemmas.Py
import Verif.Props.Layout
import Verif.Props.Units
/-! # Lemmas for C58 -/
set_option linter.unusedSectionVars false
namespace Surfalize
namespace Sur
open LayoutM LayoutSpec FileArr Props
variable {K : Type} [Field K] [LinearOrder K] [IsStrictOrderedRing K]

theorem wf_layout : WellFormed [] (layout K) := by
  simp [layout, h16, i32, u32, flt, txt, WellFormed]

theorem names_nodup : (names (layout K)).Nodup := by
  have : names (layout K) = ["code", "format", "n_objects", "version_number", "studiable_type",
    "name_object", "name_operator", "p_size", "acquisition_type", "range_type",
    "non_measured_points", "absolute_z_axis", "gauge_resolution", "bits_per_point", "min_point",
    "max_point", "n_points_per_line", "n_lines", "n_total_points", "spacing_x", "spacing_y",
    "spacing_z", "name_x", "name_y", "name_z", "unit_step_x", "unit_step_y", "unit_step_z",
    "unit_x", "unit_y", "unit_z", "unit_ratio_x", "unit_ratio_y", "unit_ratio_z", "replica",
    "inverted", "leveled", "seconds", "minutes", "hours", "day", "month", "year", "week_day",
    "measurement_duration", "compressed_data_size", "length_comment", "length_private",
    "client_zone", "offset_x", "offset_y", "offset_z", "spacing_t", "offset_t", "name_t",
    "unit_step_t"] := rfl
  rw [this]
  decide +kernel

theorem width_layout (d : Dict K) : ((layout K).map (width d)).sum = 512 := by
  simp only [layout, h16, i32, u32, flt, txt, List.map_cons, List.map_nil, width, bytesOf,
    List.sum_cons, List.sum_nil, Nat.reduceMul, Nat.reduceAdd]

variable [FloorRing K]

theorem text_fits (s : Raw K) (clock : Clock) (compressed : Bool) (n : Nat) :
    TextFits (header s clock compressed n) (layout K) := by
  simp only [layout, h16, i32, u32, flt, txt, TextFits]
  refine ⟨⟨if compressed then magicCompressed else magicClassic, _, rfl, cutTo_self _ _ ?_⟩,
    ⟨_, _, rfl, cutTo_self _ _ (by decide)⟩, ⟨_, _, rfl, cutTo_self _ _ (by decide)⟩,
    ⟨_, _, rfl, cutTo_self _ _ (by decide)⟩, ⟨_, _, rfl, cutTo_self _ _ (by decide)⟩,
    ⟨_, _, rfl, cutTo_self _ _ (by decide)⟩, ⟨_, _, rfl, cutTo_self _ _ (by decide)⟩,
    ⟨_, _, rfl, cutTo_self _ _ (by decide)⟩, ⟨_, _, rfl, cutTo_self _ _ (by decide)⟩,
    ⟨_, _, rfl, cutTo_self _ _ (by decide)⟩, ⟨_, _, rfl, cutTo_self _ _ (by decide)⟩,
    ⟨_, _, rfl, cutTo_self _ _ (by decide)⟩, ⟨_, _, rfl, cutTo_self _ _ (by decide)⟩,
    ⟨_, _, rfl, cutTo_self _ _ (by decide)⟩, ⟨_, _, rfl, cutTo_self _ _ (by decide)⟩, trivial⟩
  cases compressed <;> decide


/-- A stored single-precision number and the number read. -/
def Rounds (x y : Option K) : Prop :=
  match x with
  | some x => ∃ y', y = some y' ∧ Nearest false x y'
  | none => y = none

/-- Everything the round trip of a header gives about a dictionary read back. -/
def BackFrom (d d' : Dict K) : Prop :=
  ∀ name fmt, Entry.field name fmt ∈ layout K →
    ∃ v v', d name = some v ∧ d' name = some v' ∧ ReadsBack d fmt v v'

theorem BackFrom.int {d d' : Dict K} (h : BackFrom d d') {name : String} {sg : Bool} {w : Nat}
    (hm : Entry.field name (.fixed (.int sg false w)) ∈ layout K) {i : Int}
    (hd : d name = some (.int i)) : getInt d' name = .ok i := by
  obtain ⟨v, v', h1, h2, h3⟩ := h name _ hm
  rw [hd] at h1
  cases h1
  have : v' = .int i := h3
  simp [getInt, h2, this]

theorem BackFrom.num {d d' : Dict K} (h : BackFrom d d') {name : String}
    (hm : Entry.field name (.fixed (.flt false false 1)) ∈ layout K) {x : Option K}
    (hd : d name = some (numVal x)) : ∃ y, getNum d' name = .ok y ∧ Rounds x y := by
  obtain ⟨v, v', h1, h2, h3⟩ := h name _ hm
  rw [hd] at h1
  cases h1
  cases x with
  | none =>
    have : v' = .num .nan := h3
    exact ⟨none, by simp [getNum, h2, this, toOpt], rfl⟩
  | some x =>
    obtain ⟨y, rfl, hy⟩ := h3
    exact ⟨some y, by simp [getNum, h2, toOpt], y, rfl, hy⟩

/-- A text that fits and has no trailing padding is read back unchanged. -/
theorem readsAs_text {n : Nat} {s : List Char} {v' : Val K} (hfit : (utf8 s).length ≤ n)
    (hend : ∀ c, s.getLast? = some c → c ≠ ' ' ∧ c ≠ '\x00')
    (h : ReadsAs (.str n) (.str s : Val K) v') : v' = .str s := by
  obtain ⟨u, t, ⟨-, hu⟩, ⟨⟨pad, hpad, hut⟩, -⟩, rfl⟩ := h
  rw [List.take_of_length_le hfit] at hu
  have hus : u = s := by
    have := congrArg utf8? hu
    rw [utf8?_utf8, utf8?_utf8] at this
    exact Option.some.inj this
  subst hus
  rcases List.eq_nil_or_concat pad with rfl | ⟨l, a, rfl⟩
  · rw [hut]; simp
  · exfalso
    have h1 := hend a (by rw [hut]; simp)
    have h2 := hpad a (by simp)
    rcases h2 with h2 | h2
    · exact h1.1 h2
    · exact h1.2 h2

theorem BackFrom.str {d d' : Dict K} (h : BackFrom d d') {name : String} {n : Nat}
    (hm : Entry.field name (.fixed (.str n)) ∈ layout K) {s : List Char}
    (hd : d name = some (.str s)) (hfit : (utf8 s).length ≤ n)
    (hend : ∀ c, s.getLast? = some c → c ≠ ' ' ∧ c ≠ '\x00') :
    getStr d' name = .ok s := by
  obtain ⟨v, v', h1, h2, h3⟩ := h name _ hm
  rw [hd] at h1
  cases h1
  have := readsAs_text hfit hend h3
  simp [getStr, h2, this]

/-- Closes membership in a concrete layout. -/
macro "in_layout" : tactic =>
  `(tactic| (unfold layout; repeat (first | exact List.Mem.head _ | apply List.Mem.tail)))

theorem header_read {c : FloatCodec K} (hc : c.Nearest) (enc : Encoding) (s : Raw K)
    (clock : Clock) (compressed : Bool) (n : Nat) (b : Bytes)
    (hw : write c (header s clock compressed n) (layout K) = .ok b) (post : Bytes) :
    b.length = 512 ∧ ∃ d', read enc ⟨b ++ post, 0⟩ (layout K) = .ok (d', ⟨b ++ post, 512⟩) ∧
      BackFrom (header s clock compressed n) d' := by
  obtain ⟨h1, d', h2, -, h3⟩ := C57_round_trip_partial hc enc (layout K) wf_layout names_nodup _
    (text_fits s clock compressed n) b hw [] post
  rw [width_layout] at h1
  refine ⟨h1, d', ?_, h3⟩
  simpa [h1] using h2

theorem header_checked {c : FloatCodec K} (hc : c.Nearest) (enc : Encoding) (s : Raw K)
    (clock : Clock) (compressed : Bool) (cm : Bytes) (b : Bytes)
    (hw : write c (header s clock compressed cm.length) (layout K) = .ok b) (post : Bytes) :
    b.length = 512 ∧ ∃ d', readHeader (K := K) enc ⟨b ++ cm ++ post, 0⟩ =
        .ok (d', ⟨b ++ cm ++ post, (b ++ cm).length⟩) ∧
      BackFrom (header s clock compressed cm.length) d' := by
  obtain ⟨hl, d', hr, hb⟩ := header_read hc enc s clock compressed cm.length b hw (cm ++ post)
  refine ⟨hl, d', ?_, hb⟩
  have hbuf : b ++ cm ++ post = b ++ (cm ++ post) := by simp
  have hcode : getStr d' "code" = .ok (if compressed then magicCompressed else magicClassic) :=
    hb.str (n := 12) (by in_layout) rfl (by cases compressed <;> decide)
      (by cases compressed <;> (intro c hc; cases hc; decide))
  have hver : getInt d' "version_number" = .ok 1 :=
    hb.int (sg := true) (w := 2) (by in_layout) rfl
  have hst : getInt d' "studiable_type" = .ok 2 :=
    hb.int (sg := true) (w := 2) (by in_layout) rfl
  have hac : getInt d' "acquisition_type" = .ok 0 :=
    hb.int (sg := true) (w := 2) (by in_layout) rfl
  have hlc : getInt d' "length_comment" = .ok cm.length :=
    hb.int (sg := true) (w := 2) (by in_layout) rfl
  have hlp : getInt d' "length_private" = .ok 0 :=
    hb.int (sg := true) (w := 2) (by in_layout) rfl
  unfold readHeader
  rw [hbuf, hr]
  simp only [hcode, hver, hst, hac, hlc, hlp]
  rw [if_neg (by cases compressed <;> simp), if_neg (by simp), if_neg (by simp),
    if_neg (by simp [headerSize])]
  congr 2
  have h3 : readN ⟨b ++ (cm ++ post), 512⟩ (cm.length : Int) =
      (cm, ⟨b ++ (cm ++ post), 512 + cm.length⟩) := by
    unfold readN
    rw [if_neg (by omega), Int.toNat_natCast, ← hl]
    have := read_at b cm post cm.length rfl
    rw [hbuf] at this
    exact this
  rw [h3]
  unfold readN
  rw [if_neg (by omega)]
  simp only [Handle.read, Int.toNat_zero, List.take_zero, List.length_nil, Nat.add_zero]
  rw [List.length_append, hl]


/-- The unit the writer stores converts to micrometres with factor one. -/
theorem unit_um {T : Units.Text} (hT : UnitsSpec.Faithful T) :
    Units.getUnitConversion (K := K) T ['µ', 'm'] "um".toList = .ok 1 := by
  have h := (C56_conversion_partial (K := K) hT ['µ', 'm'] "um".toList).1 (-6) (-6)
    ((C56_writings hT _).2.1 (Or.inl (by decide))).1
    ((C56_writings hT _).1 (-6) ⟨"um", .um, by decide, by decide⟩).2
  simpa using h

theorem pyInt_trunc (x : K) : |((pyInt x : Int) : K) - x| < 1 ∧ (0 ≤ x → 0 ≤ pyInt x ∧ ((pyInt x : Int) : K) ≤ x) ∧
    (x ≤ 0 → pyInt x ≤ 0 ∧ x ≤ ((pyInt x : Int) : K)) := by
  unfold pyInt
  by_cases h : 0 ≤ x
  · rw [if_pos h]
    have h1 := Int.floor_le x
    have h2 := Int.lt_floor_add_one x
    refine ⟨?_, fun _ => ⟨Int.floor_nonneg.2 h, h1⟩, fun h0 => ?_⟩
    · rw [abs_lt]; constructor <;> linarith
    · have : x = 0 := le_antisymm h0 h
      subst this; simp
  · rw [if_neg h]
    push Not at h
    have h1 := Int.le_ceil x
    have h2 := Int.ceil_lt_add_one x
    refine ⟨?_, fun h0 => absurd h0 (not_le.2 h), fun _ => ⟨?_, h1⟩⟩
    · rw [abs_lt]; constructor <;> linarith
    · exact Int.ceil_le.2 (by simpa using h.le)

theorem pyInt_between {x : K} {a b : Int} (ha : a ≤ 0) (hb : 0 ≤ b) (h1 : (a : K) ≤ x)
    (h2 : x ≤ (b : K)) : a ≤ pyInt x ∧ pyInt x ≤ b := by
  obtain ⟨-, hp, hn⟩ := pyInt_trunc x
  rcases le_total 0 x with h | h
  · obtain ⟨h3, h4⟩ := hp h
    refine ⟨by omega, ?_⟩
    have : ((pyInt x : Int) : K) ≤ (b : K) := h4.trans h2
    exact_mod_cast this
  · obtain ⟨h3, h4⟩ := hn h
    refine ⟨?_, by omega⟩
    have : (a : K) ≤ ((pyInt x : Int) : K) := h1.trans h4
    exact_mod_cast this

/-- The stored integer of a measured height of a surface that is not flat. -/
theorem quantise_some (nanInt : Int) (g : Grid (Option K)) {lo hi z : K}
    (hlo : nanmin (Container.flat g) = some lo) (hhi : nanmax (Container.flat g) = some hi)
    (hlt : lo < hi) (hz : some z ∈ Container.flat g) :
    ∃ x : K, scaled g (some z) = some x ∧ quantise nanInt g (some z) = pyInt x ∧
      x = (z - lo) / (hi - lo) * (2 ^ 32 - 4) - (2 ^ 31 - 2) ∧
      dataMin ≤ quantise nanInt g (some z) ∧ quantise nanInt g (some z) ≤ dataMax := by
  have hr : range g = some (hi - lo) := by simp [range, hlo, hhi, osub]
  have hne : hi - lo ≠ 0 := sub_ne_zero.2 hlt.ne'
  have hpos : 0 < hi - lo := sub_pos.2 hlt
  have hzm : z ∈ measured (Container.flat g) := mem_measured.2 hz
  have hz1 : lo ≤ z := (min?_spec.1 hlo).2 z hzm
  have hz2 : z ≤ hi := (max?_spec.1 hhi).2 z hzm
  have hs : scaled g (some z) =
      some ((z - lo) / (hi - lo) * (2 ^ 32 - 4) - (2 ^ 31 - 2)) := by
    simp only [scaled, hr, hlo, osub, Option.bind_some, Option.map_some]
    rw [if_neg hne]
    congr 1
    simp only [dataMax, dataMin]
    push_cast
    ring
  refine ⟨_, hs, ?_, rfl, ?_⟩
  · simp [quantise, hs]
  · have hq : quantise nanInt g (some z) =
        pyInt ((z - lo) / (hi - lo) * (2 ^ 32 - 4) - (2 ^ 31 - 2)) := by simp [quantise, hs]
    rw [hq]
    have h0 : 0 ≤ (z - lo) / (hi - lo) := div_nonneg (by linarith) hpos.le
    have h1 : (z - lo) / (hi - lo) ≤ 1 := (div_le_one hpos).2 (by linarith)
    apply pyInt_between (by decide) (by decide)
    · simp only [dataMin]; push_cast
      nlinarith
    · simp only [dataMax]; push_cast
      nlinarith

theorem quantise_none (nanInt : Int) (g : Grid (Option K)) (h : none ∈ Container.flat g) :
    quantise nanInt g none = dataMin - 2 := by
  simp [quantise, scaled, osub, h]

/-- Every stored integer fits into 32 bits. -/
theorem quantise_range (nanInt : Int) (hn : -(2 ^ 31) ≤ nanInt ∧ nanInt ≤ 2 ^ 31 - 1)
    (g : Grid (Option K)) (z : Option K) (hz : z ∈ Container.flat g) :
    -(2 ^ 31) ≤ quantise nanInt g z ∧ quantise nanInt g z ≤ 2 ^ 31 - 1 := by
  have hnone : scaled g z = none →
      -(2 ^ 31) ≤ quantise nanInt g z ∧ quantise nanInt g z ≤ 2 ^ 31 - 1 := by
    intro hs
    simp only [quantise, hs]
    split
    · simp only [dataMin]; omega
    · exact hn
  cases z with
  | none => exact hnone (by simp [scaled, osub])
  | some z =>
    have hm : z ∈ measured (Container.flat g) := mem_measured.2 hz
    have hne : measured (Container.flat g) ≠ [] := List.ne_nil_of_mem hm
    obtain ⟨lo, hlo⟩ := exists_min? hne
    obtain ⟨hi, hhi⟩ := exists_max? hne
    have hle : lo ≤ hi := le_trans ((min?_spec.1 hlo).2 z hm) ((max?_spec.1 hhi).2 z hm)
    rcases hle.lt_or_eq with hlt | heq
    · obtain ⟨x, -, -, -, h1, h2⟩ := quantise_some nanInt g hlo hhi hlt hz
      constructor
      · refine le_trans ?_ h1; decide
      · refine le_trans h2 ?_; decide
    · apply hnone
      have hr : range g = some 0 := by
        have h1 : nanmin (Container.flat g) = some lo := hlo
        have h2 : nanmax (Container.flat g) = some hi := hhi
        simp [range, h1, h2, osub, heq]
      have h1 : nanmin (Container.flat g) = some lo := hlo
      simp [scaled, hr, h1, osub]

/-- The integer and the value stored for a point. -/
def stored (nanInt : Int) (g : Grid (Option K)) (sz oz : Option K) (z : Option K) : Option K :=
  if none ∈ Container.flat g ∧ quantise nanInt g z = dataMin - 2 then none
  else oadd (omul (some ((quantise nanInt g z : Int) : K)) sz) oz

/-- What reading an uncompressed file gives, whatever follows it. -/
theorem read_written {c : FloatCodec K} (hc : c.Nearest) {T : Units.Text}
    (hT : UnitsSpec.Faithful T) (enc : Encoding) (inflate : Bytes → Except Err Bytes)
    (deflate : Bytes → Bytes) (nanInt : Int)
    (hn : -(2 ^ 31) ≤ nanInt ∧ nanInt ≤ 2 ^ 31 - 1) (clock : Clock) (comment : List Char)
    (s : Raw K) (hwf : s.data.WF) (b : Bytes)
    (hw : writeSur c nanInt deflate clock false comment s = .ok b) (post : Bytes) :
    ∃ sx sy sz oz, readSur T enc inflate ⟨b ++ post, 0⟩ =
        .ok ⟨Container.map (stored nanInt s.data sz oz) s.data, sx, sy⟩ ∧
      Nearest false s.stepX sx ∧ Nearest false s.stepY sy ∧
      Rounds (spacingZ s.data) sz ∧ Rounds (offsetZ s.data) oz := by
  unfold writeSur at hw
  by_cases hemp : Container.flat s.data = []
  · rw [if_pos hemp] at hw; cases hw
  rw [if_neg hemp] at hw
  cases hh : write c (header s clock false (utf8 comment).length) (layout K) with
  | error e => rw [hh] at hw; cases hw
  | ok hdr =>
    rw [hh] at hw
    simp only [Bool.false_eq_true, if_false, Except.ok.injEq] at hw
    subst hw
    set ints := (Container.flat s.data).map (quantise nanInt s.data) with hints
    obtain ⟨hl, d', hr, hb⟩ := header_checked hc enc s clock false (utf8 comment) hdr hh
      (writeArray (intBytes false 4) ints ++ post)
    rw [← List.append_assoc] at hr
    have hcode : getStr d' "code" = .ok magicClassic :=
      hb.str (n := 12) (by in_layout) rfl (by decide) (by intro c hc; cases hc; decide)
    have hst : getInt d' "studiable_type" = .ok 2 :=
      hb.int (sg := true) (w := 2) (by in_layout) rfl
    have hno : getInt d' "n_objects" = .ok 1 :=
      hb.int (sg := true) (w := 2) (by in_layout) rfl
    have hbits : getInt d' "bits_per_point" = .ok 32 :=
      hb.int (sg := true) (w := 2) (by in_layout) rfl
    have hny : getInt d' "n_lines" = .ok s.data.ny :=
      hb.int (sg := true) (w := 4) (by in_layout) rfl
    have hnx : getInt d' "n_points_per_line" = .ok s.data.nx :=
      hb.int (sg := true) (w := 4) (by in_layout) rfl
    have htot : getInt d' "n_total_points" = .ok (s.data.nx * s.data.ny) :=
      hb.int (sg := true) (w := 4) (by in_layout) rfl
    have hcs : getInt d' "compressed_data_size" = .ok 0 :=
      hb.int (sg := false) (w := 4) (by in_layout) rfl
    have hnm : getInt d' "non_measured_points" =
        .ok (if none ∈ Container.flat s.data then 1 else 0) :=
      hb.int (sg := true) (w := 2) (by in_layout) rfl
    have hmp : getInt d' "min_point" = .ok dataMin :=
      hb.int (sg := true) (w := 4) (by in_layout) rfl
    have huz : getStr d' "unit_step_z" = .ok ['µ', 'm'] :=
      hb.str (n := 16) (by in_layout) rfl (by decide) (by intro c hc; cases hc; decide)
    have hux : getStr d' "unit_step_x" = .ok ['µ', 'm'] :=
      hb.str (n := 16) (by in_layout) rfl (by decide) (by intro c hc; cases hc; decide)
    have huy : getStr d' "unit_step_y" = .ok ['µ', 'm'] :=
      hb.str (n := 16) (by in_layout) rfl (by decide) (by intro c hc; cases hc; decide)
    obtain ⟨sx, hsx, sx', rfl, hsx2⟩ := hb.num (name := "spacing_x") (by in_layout)
      (x := some s.stepX) rfl
    obtain ⟨sy, hsy, sy', rfl, hsy2⟩ := hb.num (name := "spacing_y") (by in_layout)
      (x := some s.stepY) rfl
    obtain ⟨sz, hsz, hsz2⟩ := hb.num (name := "spacing_z") (by in_layout)
      (x := spacingZ s.data) rfl
    obtain ⟨oz, hoz, hoz2⟩ := hb.num (name := "offset_z") (by in_layout)
      (x := offsetZ s.data) rfl
    refine ⟨sx', sy', sz, oz, ?_, hsx2, hsy2, hsz2, hoz2⟩
    have hlen : ints.length = s.data.ny * s.data.nx := by
      rw [hints, List.length_map, flat_length _ hwf]
    have hcount : (s.data.nx * s.data.ny : Int) = (ints.length : Int) := by
      rw [hlen]; push_cast; ring
    have harr : readArray 4 (bytesInt true false 4) (s.data.nx * s.data.ny : Int) 0
        ⟨hdr ++ utf8 comment ++ writeArray (intBytes false 4) ints ++ post, (hdr ++ utf8 comment).length⟩ =
        .ok (ints, ⟨hdr ++ utf8 comment ++ writeArray (intBytes false 4) ints ++ post,
          (hdr ++ utf8 comment).length + ints.length * 4⟩) := by
      have h1 := readArray_writeArray 4 (by decide) (intBytes false 4) (bytesInt true false 4) ints
        (by intro x _; simp) (hdr ++ utf8 comment) post (hdr ++ utf8 comment).length 0 rfl
      rw [hcount, h1]
      congr 2
      conv_rhs => rw [← List.map_id ints]
      apply List.map_congr_left
      intro x hx
      obtain ⟨z, hz, rfl⟩ := List.mem_map.1 hx
      have hq := quantise_range nanInt hn s.data z hz
      rw [bytesInt_intBytes true false 4 _ (by decide)]
      · rfl
      · refine le_trans (le_of_eq ?_) hq.1; decide
      · refine le_trans hq.2 (le_of_eq ?_); decide
    have hobj : readObject (K := K) enc inflate
        ⟨hdr ++ utf8 comment ++ writeArray (intBytes false 4) ints ++ post, 0⟩ =
        .ok (d', Container.map (quantise nanInt s.data) s.data) := by
      unfold readObject
      rw [hr]
      simp only [hbits, hny, hnx, hcode, htot, hcs]
      have : itemSize 32 = .ok 4 := by decide
      simp only [this, if_true, harr]
      rw [reshape_map _ hwf]
    unfold readSur
    rw [hobj]
    simp only [hno, hst]
    rw [if_neg (by decide), if_pos (Or.inl trivial)]
    unfold getSurface
    simp only [hnm, hmp, hsz, huz, hux, huy, hsx, hsy, hoz, unit_um hT]
    congr 1
    rw [Container.map_map]
    simp only [one_mul]
    congr 1
    apply Container.map_congr
    intro z _
    unfold stored
    have hiff : ((if none ∈ Container.flat s.data then (1 : Int) else 0) = 1 ∧
        quantise nanInt s.data z = dataMin - 2) ↔
        (none ∈ Container.flat s.data ∧ quantise nanInt s.data z = dataMin - 2) := by
      by_cases h : none ∈ Container.flat s.data <;> simp [h]
    by_cases hcond : none ∈ Container.flat s.data ∧ quantise nanInt s.data z = dataMin - 2
    · rw [if_pos hcond, if_pos (hiff.2 hcond)]
    · rw [if_neg hcond, if_neg (fun h => hcond (hiff.1 h))]
      cases sz <;> simp [omul]

end Sur
end Surfalize
