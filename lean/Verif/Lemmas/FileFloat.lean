import Verif.Lemmas.FileArray
import Verif.Lemmas.GridFn
import Verif.Props.Layout
/-! # Lemmas about float arrays and headers in files -/
set_option linter.unusedSectionVars false
namespace Surfalize
namespace FileArr
open LayoutM LayoutSpec Props
variable {K : Type} [Field K] [LinearOrder K] [IsStrictOrderedRing K]

@[simp] theorem encFloat_length (c : FloatCodec K) (d : Bool) (z : Option K) :
    (encFloat c d z).length = Fmt.fw d := by simp [encFloat]

theorem fw_pos (d : Bool) : 0 < Fmt.fw d := by cases d <;> decide

theorem ff_eq (d : Bool) : (if d then f64 else f32) = Fmt.ff d := rfl

/-- What a height stored as a float is read as. -/
def StoredAs (d : Bool) (z z' : Option K) : Prop :=
  match z with
  | none => z' = none
  | some x => |x| < FFormat.threshold K (if d then f64 else f32) →
      ∃ y, z' = some y ∧ Nearest d x y

theorem decFloat_encFloat {c : FloatCodec K} (hc : c.Nearest) (d : Bool) (z : Option K) :
    StoredAs d z (decFloat K d (encFloat c d z)) := by
  have hlt : c.enc (Fmt.ff d) z < 256 ^ Fmt.fw d := by rw [← bits_fw]; exact hc.lt _ _
  unfold decFloat encFloat
  rw [bytesNat_natBytes false _ _ hlt]
  cases z with
  | none => simp [StoredAs, hc.nan _ (ff_cases d), toOpt]
  | some x =>
    intro hx
    obtain ⟨y, hy, hb⟩ := hc.fin _ (ff_cases d) x hx
    exact ⟨y, by rw [hy]; rfl, hx, ⟨_, hy⟩, hb⟩

/-- An array of floats written and read back with everything that follows it. -/
theorem readArray_floats {c : FloatCodec K} (d : Bool) (l : List (Option K)) (pre post : Bytes)
    (p o : Nat) (hp : p + o = pre.length) :
    readArray (Fmt.fw d) (decFloat K d) (l.length : Int) o
        ⟨pre ++ writeArray (encFloat c d) l ++ post, p⟩ =
      .ok (l.map (fun x => decFloat K d (encFloat c d x)),
        ⟨pre ++ writeArray (encFloat c d) l ++ post, pre.length + l.length * Fmt.fw d⟩) :=
  readArray_writeArray _ (fw_pos d) _ _ l (fun x _ => encFloat_length c d x) pre post p o hp

/-- Reading an array to the end of the file. -/
theorem readArray_floats_all {c : FloatCodec K} (d : Bool) (l : List (Option K)) (pre : Bytes) :
    readArray (Fmt.fw d) (decFloat K d) (-1) 0 ⟨pre ++ writeArray (encFloat c d) l, pre.length⟩ =
      .ok (l.map (fun x => decFloat K d (encFloat c d x)),
        ⟨pre ++ writeArray (encFloat c d) l, pre.length + l.length * Fmt.fw d⟩) := by
  have h := fromBuffer_writeArray (Fmt.fw d) (fw_pos d) (encFloat c d) (decFloat K d) l
    (fun x _ => encFloat_length c d x)
  have hl := writeArray_length (Fmt.fw d) (encFloat c d) l (fun x _ => encFloat_length c d x)
  simp [readArray, Handle.skip, Handle.readAll, h, hl]

/-- A point of a mapped grid. -/
theorem get_map_lt {α β : Type} {g : Grid α} (hg : g.WF) (f : α → β) {i j : Nat} (hi : i < g.ny)
    (hj : j < g.nx) : ∃ x, g.rows[i]?.bind (·[j]?) = some x ∧
      (Container.map f g).rows[i]?.bind (·[j]?) = some (f x) := by
  have hrow : i < g.rows.length := hi
  have hlen : (g.rows[i]).length = g.nx := hg _ (List.getElem_mem hrow)
  refine ⟨g.rows[i][j]'(by rw [hlen]; exact hj), ?_, ?_⟩
  · rw [List.getElem?_eq_getElem hrow]
    simp [List.getElem?_eq_getElem (show j < g.rows[i].length by rw [hlen]; exact hj)]
  · simp only [Container.map, List.getElem?_map]
    rw [List.getElem?_eq_getElem hrow]
    simp only [Option.map_some, Option.bind_some, List.getElem?_map]
    rw [List.getElem?_eq_getElem (show j < g.rows[i].length by rw [hlen]; exact hj)]
    simp

/-- A point of a mapped grid of heights. -/
theorem get_map_height {g : Grid (Option K)} (hg : g.WF) (f : Option K → Option K) {i j : Nat}
    (hi : i < g.ny) (hj : j < g.nx) : (Container.map f g).get i j = f (g.get i j) := by
  obtain ⟨x, h1, h2⟩ := get_map_lt hg f hi hj
  simp only [Grid.get]
  rw [h1, h2]
  simp

/-- The dictionary `d'` holds what reading back `d` gives. -/
def Back (L : List (Entry K)) (d d' : Dict K) : Prop :=
  ∀ name fmt, Entry.field name fmt ∈ L →
    ∃ v v', d name = some v ∧ d' name = some v' ∧ ReadsBack d fmt v v'

theorem Back.int {L : List (Entry K)} {d d' : Dict K} (h : Back L d d') {name : String}
    {sg big : Bool} {w : Nat} (hm : Entry.field name (.fixed (.int sg big w)) ∈ L) {i : Int}
    (hd : d name = some (.int i)) : getInt d' name = .ok i := by
  obtain ⟨v, v', h1, h2, h3⟩ := h name _ hm
  rw [hd] at h1
  cases h1
  have : v' = .int i := h3
  simp [getInt, h2, this]

theorem Back.bool {L : List (Entry K)} {d d' : Dict K} (h : Back L d d') {name : String}
    (hm : Entry.field name (.fixed .bool) ∈ L) {i : Int}
    (hd : d name = some (.int i)) : getInt d' name = .ok (if i = 0 then 0 else 1) := by
  obtain ⟨v, v', h1, h2, h3⟩ := h name _ hm
  rw [hd] at h1
  cases h1
  have : v' = .int (if i = 0 then 0 else 1) := h3
  simp [getInt, h2, this]

theorem Back.num {L : List (Entry K)} {d d' : Dict K} (h : Back L d d') {name : String}
    {dbl big : Bool} (hm : Entry.field name (.fixed (.flt dbl big 1)) ∈ L) {x : K}
    (hd : d name = some (.num (.fin x))) :
    ∃ y, getNum d' name = .ok (some y) ∧ Nearest dbl x y := by
  obtain ⟨v, v', h1, h2, h3⟩ := h name _ hm
  rw [hd] at h1
  cases h1
  obtain ⟨y, rfl, hy⟩ := h3
  exact ⟨y, by simp [getNum, h2, toOpt], hy⟩

theorem Back.nan {L : List (Entry K)} {d d' : Dict K} (h : Back L d d') {name : String}
    {dbl big : Bool} (hm : Entry.field name (.fixed (.flt dbl big 1)) ∈ L)
    (hd : d name = some (.num .nan)) : getNum d' name = .ok none := by
  obtain ⟨v, v', h1, h2, h3⟩ := h name _ hm
  rw [hd] at h1
  cases h1
  have : v' = .num .nan := h3
  simp [getNum, h2, this, toOpt]

theorem Back.str {L : List (Entry K)} {d d' : Dict K} (h : Back L d d') {name : String} {n : Nat}
    (hm : Entry.field name (.fixed (.str n)) ∈ L) {s : List Char}
    (hd : d name = some (.str s)) :
    ∃ u t, CutTo n s u ∧ Stripped u t ∧ getStr d' name = .ok t := by
  obtain ⟨v, v', h1, h2, h3⟩ := h name _ hm
  rw [hd] at h1
  cases h1
  obtain ⟨u, t, hu, ht, rfl⟩ := h3
  exact ⟨u, t, hu, ht, by simp [getStr, h2]⟩

theorem Back.apply {L : List (Entry K)} {d d' : Dict K} (h : Back L d d') {name : String} {f : Fmt}
    {rd wr : Val K → Except Err (Val K)} (hm : Entry.field name (.apply f rd wr) ∈ L) {v : Val K}
    (hd : d name = some v) : d' name = some v := by
  obtain ⟨v1, v', h1, h2, h3⟩ := h name _ hm
  rw [hd] at h1
  cases h1
  have : v' = v := h3
  rw [h2, this]

theorem Back.prev {L : List (Entry K)} {d d' : Dict K} (h : Back L d d') {name p : String}
    (hm : Entry.field name (.fromPrevious p) ∈ L) {s : List Char} {n : Nat}
    (hp : d p = some (.int n)) (hd : d name = some (.str s)) :
    ∃ u t, CutTo n s u ∧ Stripped u t ∧ getStr d' name = .ok t := by
  obtain ⟨v, v', h1, h2, n', hn, h3⟩ := h name _ hm
  rw [hd] at h1
  cases h1
  rw [hp] at hn
  have hnn : n' = n := by simpa using hn.symm
  subst hnn
  obtain ⟨u, t, hu, ht, rfl⟩ := h3
  exact ⟨u, t, hu, ht, by simp [getStr, h2]⟩

/-- Text that fits and does not end in padding is read as it is. -/
theorem text_back {n : Nat} {s u t : List Char} (h1 : (utf8 s).length ≤ n) (hu : CutTo n s u)
    (ht : Stripped u t) (h2 : ∀ c, s.getLast? = some c → c ≠ ' ' ∧ c ≠ '\x00') : t = s := by
  have hus : u = s := by
    have := hu.2
    rw [List.take_of_length_le h1] at this
    have h3 := utf8?_utf8 u
    rw [this, utf8?_utf8] at h3
    exact (Option.some.inj h3).symm
  subst hus
  obtain ⟨⟨pad, hp1, hp2⟩, -⟩ := ht
  rcases List.eq_nil_or_concat pad with rfl | ⟨q, c, rfl⟩
  · simpa using hp2.symm
  · exfalso
    have hc := hp1 c (by simp)
    have := h2 c (by rw [hp2]; simp)
    rcases hc with rfl | rfl
    · exact this.1 rfl
    · exact this.2 rfl

/-- A written header, anywhere in a file. -/
theorem header_back {c : FloatCodec K} (hc : c.Nearest) (enc : Encoding) {L : List (Entry K)}
    (hwf : WellFormed [] L) (hnd : (names L).Nodup) {d : Dict K} (htf : TextFits d L) {b : Bytes}
    (hw : write c d L = .ok b) (pre post : Bytes) :
    b.length = (L.map (width d)).sum ∧
    ∃ d', read enc ⟨pre ++ b ++ post, pre.length⟩ L =
        .ok (d', ⟨pre ++ b ++ post, pre.length + b.length⟩) ∧ Back L d d' := by
  obtain ⟨h1, d', h2, -, h3⟩ := C57_round_trip_partial hc enc L hwf hnd d htf b hw pre post
  exact ⟨h1, d', h2, h3⟩

/-! ### When writing a header succeeds -/

theorem write_ok_of {c : FloatCodec K} {d : Dict K} {L : List (Entry K)}
    (h : ∀ e ∈ L, ∃ b, e.write c d = .ok b) : ∃ b, write c d L = .ok b := by
  induction L with
  | nil => exact ⟨[], rfl⟩
  | cons e es ih =>
    obtain ⟨b1, h1⟩ := h e (by simp)
    obtain ⟨b2, h2⟩ := ih (fun x hx => h x (by simp [hx]))
    exact ⟨b1 ++ b2, by simp [write, h1, h2]⟩

theorem write_err_of {c : FloatCodec K} {d : Dict K} {L1 : List (Entry K)} {e : Entry K} {x : Err}
    (h : ∀ e ∈ L1, ∃ b, e.write c d = .ok b) (he : e.write c d = .error x) (L2 : List (Entry K)) :
    write c d (L1 ++ e :: L2) = .error x := by
  induction L1 with
  | nil => simp [write, he]
  | cons e1 es ih =>
    obtain ⟨b1, h1⟩ := h e1 (by simp)
    have h2 := ih (fun x hx => h x (by simp [hx]))
    simp only [List.cons_append, write, h1, h2]

theorem int_entry_ok (c : FloatCodec K) {d : Dict K} {n : String} {sg big : Bool} {w : Nat}
    {i : Int} (hd : d n = some (.int i)) (h1 : intMin sg w ≤ i) (h2 : i ≤ intMax sg w) :
    ∃ b, (Entry.field n (.fixed (.int sg big w)) : Entry K).write c d = .ok b := by
  refine ⟨intBytes big w i, ?_⟩
  simp only [Entry.write, dict_at_some hd, encodeValue, Fmt.pack]
  rw [if_pos ⟨h1, h2⟩]

theorem int_entry_err (c : FloatCodec K) {d : Dict K} {n : String} {sg big : Bool} {w : Nat}
    {i : Int} (hd : d n = some (.int i)) (h : i < intMin sg w ∨ intMax sg w < i) :
    (Entry.field n (.fixed (.int sg big w)) : Entry K).write c d = .error .structError := by
  simp only [Entry.write, dict_at_some hd, encodeValue, Fmt.pack]
  rw [if_neg]
  rintro ⟨h1, h2⟩
  rcases h with h | h
  · exact absurd h1 (not_le.2 h)
  · exact absurd h2 (not_le.2 h)

theorem txt_entry_ok (c : FloatCodec K) {d : Dict K} {n : String} {k : Nat} {s : List Char}
    (hd : d n = some (.str s)) :
    ∃ b, (Entry.field n (.fixed (.str k)) : Entry K).write c d = .ok b :=
  ⟨_, by simp only [Entry.write, dict_at_some hd, encodeValue, Fmt.pack]; rfl⟩

theorem num_entry_ok (c : FloatCodec K) {d : Dict K} {n : String} {dbl big : Bool} {x : K}
    (hd : d n = some (.num (.fin x))) (h : |x| < FFormat.threshold K (if dbl then f64 else f32)) :
    ∃ b, (Entry.field n (.fixed (.flt dbl big 1)) : Entry K).write c d = .ok b := by
  have hy : ¬ FFormat.threshold K (Fmt.ff dbl) ≤ |x| := not_le.2 h
  refine ⟨natBytes big (Fmt.fw dbl) (c.enc (Fmt.ff dbl) (some x)), ?_⟩
  simp only [Entry.write, dict_at_some hd, encodeValue, Fmt.pack, Fmt.packFloat]
  rw [if_neg hy]

theorem nan_entry_ok (c : FloatCodec K) {d : Dict K} {n : String} {dbl big : Bool}
    (hd : d n = some (.num .nan)) :
    ∃ b, (Entry.field n (.fixed (.flt dbl big 1)) : Entry K).write c d = .ok b := by
  refine ⟨natBytes big (Fmt.fw dbl) (c.enc (Fmt.ff dbl) none), ?_⟩
  simp only [Entry.write, dict_at_some hd, encodeValue, Fmt.pack, Fmt.packFloat]

theorem fltint_entry_ok (c : FloatCodec K) {d : Dict K} {n : String} {dbl big : Bool} {i : Int}
    (hd : d n = some (.int i))
    (h : |(i : K)| < FFormat.threshold K (if dbl then f64 else f32)) :
    ∃ b, (Entry.field n (.fixed (.flt dbl big 1)) : Entry K).write c d = .ok b := by
  have hy : ¬ FFormat.threshold K (Fmt.ff dbl) ≤ |(i : K)| := not_le.2 h
  refine ⟨natBytes big (Fmt.fw dbl) (c.enc (Fmt.ff dbl) (some (i : K))), ?_⟩
  simp only [Entry.write, dict_at_some hd, encodeValue, Fmt.pack, Fmt.packFloat]
  rw [if_neg hy]

theorem one_lt_threshold (dbl : Bool) :
    (1 : K) < FFormat.threshold K (if dbl then f64 else f32) := by
  unfold FFormat.threshold
  cases dbl
  · simp only [Bool.false_eq_true, if_false]
    have h1 : (2 : K) ^ (f32.bias - (f32.mb : Int) - 1) = 2 ^ 103 := by
      rw [show f32.bias - (f32.mb : Int) - 1 = ((103 : Nat) : Int) by decide, zpow_natCast]
    have h2 : f32.mb = 23 := rfl
    rw [h1, h2]; norm_num
  · simp only [if_true]
    have h1 : (2 : K) ^ (f64.bias - (f64.mb : Int) - 1) = 2 ^ 970 := by
      rw [show f64.bias - (f64.mb : Int) - 1 = ((970 : Nat) : Int) by decide, zpow_natCast]
    have h2 : f64.mb = 52 := rfl
    have h3 : (1 : K) ≤ 2 ^ 970 := one_le_pow₀ (by norm_num)
    have h4 : (1 : K) < 2 ^ (52 + 2) - 1 := by norm_num
    rw [h1, h2]
    exact lt_of_lt_of_le h4 (le_mul_of_one_le_right (by linarith) h3)

/-! ### Rounding errors -/

theorem nearest_exact {dbl : Bool} {x y : K} (h : Nearest dbl x y)
    (hr : ∃ n, FFormat.val K (if dbl then f64 else f32) n = .fin x) : y = x := by
  obtain ⟨n, hn⟩ := hr
  have := h.2.2 n x hn
  simp only [sub_self, abs_zero, abs_nonpos_iff] at this
  linarith

variable [FloorRing K]

/-- Rounding error of single precision. -/
theorem nearest_error {x y : K} (h : Nearest false x y) :
    |y - x| ≤ max (|x| / 2 ^ 24) (1 / 2 ^ 150) := by
  obtain ⟨hx, -, hb⟩ := h
  obtain ⟨y', ⟨n, hn⟩, h2⟩ := FFormat.near_exists f32 (by decide) x hx
  refine le_trans (hb n y' hn) (le_trans h2 (le_of_eq ?_))
  have e1 : (2 : K) ^ (-(f32.mb : Int) - 1) = 1 / 2 ^ 24 := by
    rw [show -(f32.mb : Int) - 1 = -((24 : Nat) : Int) by decide, zpow_neg, zpow_natCast]; simp
  have e2 : (2 : K) ^ (-f32.bias - (f32.mb : Int)) = 1 / 2 ^ 150 := by
    rw [show -f32.bias - (f32.mb : Int) = -((150 : Nat) : Int) by decide, zpow_neg, zpow_natCast]
    simp
  rw [e1, e2]
  ring_nf

/-- Rounding error of double precision. -/
theorem nearest_error_double {x y : K} (h : Nearest true x y) :
    |y - x| ≤ max (|x| / 2 ^ 53) (1 / 2 ^ 1075) := by
  obtain ⟨hx, -, hb⟩ := h
  obtain ⟨y', ⟨n, hn⟩, h2⟩ := FFormat.near_exists f64 (by decide) x hx
  refine le_trans (hb n y' hn) (le_trans h2 (le_of_eq ?_))
  have e1 : (2 : K) ^ (-(f64.mb : Int) - 1) = 1 / 2 ^ 53 := by
    rw [show -(f64.mb : Int) - 1 = -((53 : Nat) : Int) by decide, zpow_neg, zpow_natCast]; simp
  have e2 : (2 : K) ^ (-f64.bias - (f64.mb : Int)) = 1 / 2 ^ 1075 := by
    rw [show -f64.bias - (f64.mb : Int) = -((1075 : Nat) : Int) by decide, zpow_neg, zpow_natCast]
    simp
  rw [e1, e2, mul_one_div]

/-- Scaling by 1e-6, rounding and scaling back: the error of single precision. -/
theorem micro_error {x y : K} (h : Nearest false (x * (10 ^ 6)⁻¹) y) :
    |y * 10 ^ 6 - x| ≤ max (|x| / 2 ^ 24) (10 ^ 6 / 2 ^ 150) := by
  have he := nearest_error h
  have hp : (0 : K) < 10 ^ 6 := by positivity
  have e : y * 10 ^ 6 - x = (y - x * (10 ^ 6)⁻¹) * 10 ^ 6 := by field_simp
  rw [e, abs_mul, abs_of_pos hp]
  refine le_trans (mul_le_mul_of_nonneg_right he hp.le) ?_
  rw [max_mul_of_nonneg _ _ hp.le]
  refine max_le_max (le_of_eq ?_) (le_of_eq ?_)
  · rw [abs_mul, abs_of_pos (inv_pos.2 hp)]; field_simp
  · ring

theorem micro_error_double {x y : K} (h : Nearest true (x * (10 ^ 6)⁻¹) y) :
    |y * 10 ^ 6 - x| ≤ max (|x| / 2 ^ 53) (10 ^ 6 / 2 ^ 1075) := by
  have he := nearest_error_double h
  have hp : (0 : K) < 10 ^ 6 := by positivity
  have e : y * 10 ^ 6 - x = (y - x * (10 ^ 6)⁻¹) * 10 ^ 6 := by field_simp
  rw [e, abs_mul, abs_of_pos hp]
  refine le_trans (mul_le_mul_of_nonneg_right he hp.le) ?_
  rw [max_mul_of_nonneg _ _ hp.le]
  generalize (2 : K) ^ 1075 = t
  refine max_le_max (le_of_eq ?_) (le_of_eq ?_)
  · rw [abs_mul, abs_of_pos (inv_pos.2 hp)]; field_simp
  · ring

end FileArr
end Surfalize
