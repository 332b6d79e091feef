import Verif.Lemmas.Gwy
import Verif.Lemmas.GwyChoice
import Verif.Props.Units
import Verif.Lemmas.FileFloat
/-!
# Properties of Gwyddion files (C64, C65)
-/
set_option linter.unusedSectionVars false
namespace Surfalize.Props
open Surfalize Gwy GwySpec FileArr LayoutM

variable {K : Type} [Field K] [LinearOrder K]

/-! ## C64: the reader ends -/

/-- **C64** for Gwyddion files. Parsing any bytes from any position ends, with a tree or an exception,
within one step more than there are bytes left; more steps change nothing. -/
theorem C64_gwy_tree (enc : Encoding) (h : Handle) (n : Nat) (hn : h.buf.length - h.pos + 1 ≤ n) :
    readObj enc n h ≠ .more ∧ readObj enc n h = parseTree enc h := by
  have h1 : parseTree enc h ≠ .more := by
    have := (reader_ends enc (h.buf.length - h.pos + 1)).1 h (by unfold Gwy.rem; omega)
    unfold parseTree
    intro he
    rw [he] at this
    exact this
  have h2 := readObj_steps enc h _ n hn h1
  exact ⟨by rw [h2]; exact h1, h2⟩

/-- **C64** for Gwyddion files. Reading any bytes ends with a surface or an exception. -/
theorem C64_gwy (T : Units.Text) (enc : Encoding) (order : List (List Char) → List (List Char))
    (bytes : Bytes) :
    (∃ raw : Raw K, readGwy T enc order ⟨bytes, 0⟩ = .done raw) ∨
      ∃ e, readGwy (K := K) T enc order ⟨bytes, 0⟩ = .fail e := by
  unfold readGwy
  split
  · exact .inr ⟨_, rfl⟩
  · have := (C64_gwy_tree enc ((⟨bytes, 0⟩ : Handle).read 4).2 _ (le_refl _)).1
    change parseTree enc _ ≠ .more at this
    cases hp : parseTree enc ((⟨bytes, 0⟩ : Handle).read 4).2 with
    | more => exact absurd hp this
    | fail e => exact .inr ⟨e, rfl⟩
    | done r =>
      rw [bind_done]
      cases fromTree (K := K) T order r.1 with
      | error e => exact .inr ⟨e, rfl⟩
      | ok raw => exact .inl ⟨raw, rfl⟩

/-! ## C65: the tree -/

/-- **C65** (where it holds: text of less than 4096 bytes). A container encoded in the format, wherever it is in a file, is decoded to the same tree, and
the reader stops just behind it. -/
theorem C65_round_trip_partial (enc : Encoding) (name : List Char) (fs : Fields) (hv : Valid (.obj name fs))
    (pre post : Bytes) :
    parseTree enc ⟨pre ++ encObj name fs ++ post, pre.length⟩ =
      .done ((name, fs), ⟨pre ++ encObj name fs ++ post, pre.length + (encObj name fs).length⟩) := by
  have h := readObj_here enc name fs hv ((encObj name fs ++ post).length + 1) pre post
    (by simp)
  unfold parseTree
  rw [show (⟨pre ++ encObj name fs ++ post, pre.length⟩ : Handle) = here pre (encObj name fs ++ post) by
    simp [here]]
  rw [show (here pre (encObj name fs ++ post)).buf.length - (here pre (encObj name fs ++ post)).pos + 1 =
    (encObj name fs ++ post).length + 1 by simp [here], h]
  simp [here]

private theorem get_put (n name : List Char) (v : GVal) : ∀ f : Fields,
    (f.put name v).get n = if name = n then some v else f.get n
  | .nil => by simp [Fields.put, Fields.get]
  | .cons m w rest => by
    rw [Fields.put]
    split
    · rename_i h
      subst h
      by_cases hn : m = n
      · simp [Fields.get, hn]
      · simp [Fields.get, hn]
    · rename_i h
      rw [Fields.get, get_put n name v rest, Fields.get]
      by_cases hm : m = n
      · subst hm
        rw [if_pos rfl, if_neg (Ne.symm h), if_pos rfl]
      · rw [if_neg hm, if_neg hm]

private theorem readLoop_loose (enc : Encoding) : ∀ (fs : Fields), Loose fs →
    ∀ (n : Nat) (pre rest : Bytes) (acc : Fields), (encFields fs).length + 3 ≤ n →
    ∃ out : Fields, readLoop enc n (pre.length + (encFields fs).length) acc (here pre (encFields fs ++ rest)) =
      .done (out, here (pre ++ encFields fs) rest) ∧ ∀ m, out.get m = (lastOf m fs).or (acc.get m)
  | .nil, _, n + 1, pre, rest, acc, _ => by
    refine ⟨acc, ?_, fun m => rfl⟩
    rw [readLoop, if_neg (by simp [here, encFields])]
    simp [encFields]
  | .cons name v fs, hv, n + 1, pre, rest, acc, hn => by
    obtain ⟨h1, h3, h4⟩ := hv
    have hlen : (encFields (.cons name v fs)).length =
        (encStr name).length + 1 + (encVal v).length + (encFields fs).length := by
      simp [encFields]; omega
    have hpos := encStr_length name
    obtain ⟨out, ho, hg⟩ := readLoop_loose enc fs h4 n
      (pre ++ encStr name ++ [UInt8.ofNat (letter v).toNat] ++ encVal v) rest (acc.put name v) (by omega)
    refine ⟨out, ?_, fun m => ?_⟩
    · rw [readLoop, if_pos (by simp only [here]; omega)]
      rw [show encFields (.cons name v fs) ++ rest = encStr name ++ ([UInt8.ofNat (letter v).toNat] ++
        (encVal v ++ (encFields fs ++ rest))) by simp only [encFields, List.append_assoc]]
      rw [readString_here enc name h1, lift_ok, bind_done, readLetter_here _ (letter_ascii v), lift_ok,
        bind_done]
      dsimp only
      rw [readValue_here enc v h3 n _ _ (by omega), bind_done]
      dsimp only
      rw [show pre.length + (encFields (.cons name v fs)).length =
        (pre ++ encStr name ++ [UInt8.ofNat (letter v).toNat] ++ encVal v).length +
          (encFields fs).length by simp only [List.length_append, List.length_singleton]; omega, ho]
      simp only [encFields, List.append_assoc]
    · rw [hg, get_put, lastOf]
      cases lastOf m fs with
      | some w => rfl
      | none =>
        by_cases hm : name = m
        · simp [hm]
        · simp [hm]

/-- A container that has several components of one name is read as well; the last of them counts. -/
theorem C65_repeated (enc : Encoding) (name : List Char) (fs : Fields) (hn : Text name)
    (hs : Size (encFields fs).length) (hf : Loose fs) (pre post : Bytes) :
    ∃ out : Fields, parseTree enc ⟨pre ++ encObj name fs ++ post, pre.length⟩ =
        .done ((name, out), ⟨pre ++ encObj name fs ++ post, pre.length + (encObj name fs).length⟩) ∧
      ∀ n, out.get n = lastOf n fs := by
  have hpos := encStr_length name
  obtain ⟨out, ho, hg⟩ := readLoop_loose enc fs hf ((encObj name fs ++ post).length)
    (pre ++ encStr name ++ encSize (encFields fs).length) post .nil (by
      have := encSize_length (encFields fs).length
      simp only [encObj, List.length_append]; omega)
  refine ⟨out, ?_, fun n => by rw [hg]; cases lastOf n fs <;> rfl⟩
  unfold parseTree
  rw [show (⟨pre ++ encObj name fs ++ post, pre.length⟩ : Handle) = here pre (encObj name fs ++ post) by
    simp [here]]
  rw [show (here pre (encObj name fs ++ post)).buf.length - (here pre (encObj name fs ++ post)).pos + 1 =
    (encObj name fs ++ post).length + 1 by simp [here], readObj]
  rw [show encObj name fs ++ post = encStr name ++ (encSize (encFields fs).length ++ (encFields fs ++ post)) by
    simp only [encObj, List.append_assoc]] at ho ⊢
  rw [readString_here enc name hn, lift_ok, bind_done, readSize_here _ hs, lift_ok, bind_done]
  rw [show ((here (pre ++ encStr name ++ encSize (encFields fs).length) (encFields fs ++ post)).pos +
    (encFields fs).length) = (pre ++ encStr name ++ encSize (encFields fs).length).length + (encFields fs).length from rfl,
    ho, bind_done]
  simp [here, encObj]

/-- Two components of one name. -/
example (enc : Encoding) : ∃ out : Fields, parseTree enc ⟨encObj ['A'] (.cons ['x'] (.int 1) (.cons ['x'] (.int 2) .nil)), 0⟩ =
    .done ((['A'], out), ⟨encObj ['A'] (.cons ['x'] (.int 1) (.cons ['x'] (.int 2) .nil)), 20⟩) ∧
    out.get ['x'] = some (.int 2) := by
  have ht : ∀ c : Char, c ∈ ['A', 'x'] → Text [c] := by
    intro c hc
    simp only [List.mem_cons, List.not_mem_nil, or_false] at hc
    rcases hc with rfl | rfl <;> exact ⟨by decide, by decide⟩
  have hi : ∀ i : Int, i ∈ [(1 : Int), 2] → Valid (.int i) := by
    intro i hi
    simp only [List.mem_cons, List.not_mem_nil, or_false] at hi
    simp only [Valid, Int']
    rcases hi with rfl | rfl <;> decide
  obtain ⟨out, h1, h2⟩ := C65_repeated enc ['A'] (.cons ['x'] (.int 1) (.cons ['x'] (.int 2) .nil)) (ht _ (by decide))
    (by unfold Size; decide +kernel)
    ⟨ht _ (by decide), hi _ (by decide), ht _ (by decide), hi _ (by decide), trivial⟩ [] []
  refine ⟨out, ?_, h2 ['x']⟩
  have hl : (encObj ['A'] (.cons ['x'] (.int 1) (.cons ['x'] (.int 2) .nil))).length = 20 := by decide +kernel
  simpa [hl] using h1

/-- **C65** (where it holds: text of less than 4096 bytes). The surface read from a file is the one its tree describes. -/
theorem C65_file_partial (T : Units.Text) (enc : Encoding) (order : List (List Char) → List (List Char))
    (name : List Char) (fs : Fields) (hv : Valid (.obj name fs)) (post : Bytes) :
    readGwy (K := K) T enc order ⟨utf8 "GWYP".toList ++ encObj name fs ++ post, 0⟩ =
      Run.lift (fromTree T order (name, fs)) := by
  have hl : (utf8 "GWYP".toList).length = 4 := by decide +kernel
  have hr : (⟨utf8 "GWYP".toList ++ encObj name fs ++ post, 0⟩ : Handle).read 4 =
      (utf8 "GWYP".toList, here (utf8 "GWYP".toList) (encObj name fs ++ post)) := by
    have := here_read [] (utf8 "GWYP".toList) (encObj name fs ++ post) 4 hl
    rw [← List.append_assoc] at this
    simpa [here] using this
  have ht := C65_round_trip_partial enc name fs hv (utf8 "GWYP".toList) post
  unfold readGwy
  rw [hr]
  rw [if_neg (by simp)]
  rw [show here (utf8 "GWYP".toList) (encObj name fs ++ post) =
    ⟨utf8 "GWYP".toList ++ encObj name fs ++ post, (utf8 "GWYP".toList).length⟩ by simp [here]]
  dsimp only
  rw [ht, bind_done]

/-- **C65** (violated for long text). A text of 4096 bytes or more is not decoded as itself, followed by
what comes after it. -/
theorem C65_long_text_lost (enc : Encoding) (s : List Char)
    (hl : 4096 ≤ (utf8 s).length) (pre post : Bytes) :
    readString enc ⟨pre ++ (encStr s ++ post), pre.length⟩ ≠
      .ok (s, ⟨pre ++ (encStr s ++ post), pre.length + (encStr s).length⟩) := by
  have hc : ∀ (n : Nat) (bs : Bytes), (cstring n bs).2 ≤ n := by
    intro n
    induction n with
    | zero => intro bs; simp [cstring]
    | succ n ih =>
      intro bs
      cases bs with
      | nil => simp [cstring]
      | cons b bs =>
        simp only [cstring]
        split
        · simp
        · simpa using ih bs
  intro h
  unfold readString at h
  dsimp only at h
  revert h
  cases decode enc (cstring 4096 ((pre ++ (encStr s ++ post)).drop pre.length)).1 with
  | error e => intro h; cases h
  | ok t =>
    intro h
    injection h with h
    injection h with h1 h2
    injection h2 with h3 h4
    have := hc 4096 ((pre ++ (encStr s ++ post)).drop pre.length)
    have h5 : (encStr s).length = (utf8 s).length + 1 := by simp [encStr]
    omega

/-! ## C65: the channel -/

/-- **C65**. The surface read does not depend on the order of the entries of the container, nor on the
order in which Python lists the set of its channels. -/
theorem C65_order_irrelevant (T : Units.Text) (order order' : List (List Char) → List (List Char))
    (ho : ListsSet order) (ho' : ListsSet order') (name : List Char) (f g : Fields)
    (hfg : ∀ key, f.get key = g.get key) (raw : Raw K) (h : fromTree T order (name, f) = .ok raw) :
    fromTree T order' (name, g) = .ok raw := by
  unfold fromTree at h ⊢
  dsimp only at h ⊢
  split at h
  · rename_i hn
    rw [if_pos hn]
    cases hk : guessHeight T f (order (layerKeys f)) with
    | error e => rw [hk] at h; cases h
    | ok k =>
      rw [hk] at h
      have hs : Same (order (layerKeys f)) (order' (layerKeys g)) := by
        refine ⟨(ho _).1, (ho' _).1, fun x => ?_⟩
        rw [(ho _).2, (ho' _).2, mem_layerKeys, mem_layerKeys, channel_agree hfg]
      have := guessHeight_same T f hs k hk
      rw [guessHeight_agree T hfg] at this
      rw [this]
      dsimp only at h ⊢
      rw [← readChannel_agree T hfg]
      exact h
  · cases h

/-- **C65**. The height channel: it has a known unit of length; its title speaks of heights if that of any
such channel does; it has the lowest number among those equal in this respect. -/
theorem C65_choice (T : Units.Text) (order : List (List Char) → List (List Char)) (ho : ListsSet order)
    (top : Fields) (hc : Canonical top) (k : List Char)
    (h : guessHeight T top (order (layerKeys top)) = .ok k) :
    Channel top k ∧ IsLength top k ∧ ∀ j, Channel top j → IsLength top j → j ≠ k →
      (Named T top j → Named T top k) ∧
        ((Named T top k → Named T top j) → digitsNat k ≤ digitsNat j) := by
  have hm : ∀ x, x ∈ order (layerKeys top) ↔ Channel top x := fun x => by
    rw [(ho _).2, mem_layerKeys]
  obtain ⟨h1, h2, h3⟩ := guessHeight_spec T top _ (fun x hx => hc x ((hm x).1 hx)) k h
  exact ⟨(hm k).1 h1, h2, fun j hj => h3 j ((hm j).2 hj)⟩

/-- **C65**. A channel is found if one has a known unit of length and all are well-formed: each has a data
field, its unit of height, if it has one, is a text, and it has a title. -/
theorem C65_found (T : Units.Text) (order : List (List Char) → List (List Char)) (ho : ListsSet order)
    (top : Fields)
    (hw : ∀ k, Channel top k → ∃ f, DataOf top k f ∧
      (f.get "si_unit_z".toList = none ∨ ∃ s, UnitOf f "si_unit_z" s) ∧
      ∃ t, top.get ("/".toList ++ k ++ "/data/title".toList) = some (.str t))
    (hk : ∃ k, Channel top k ∧ IsLength top k) :
    ∃ k, guessHeight T top (order (layerKeys top)) = .ok k := by
  have hm : ∀ x, x ∈ order (layerKeys top) ↔ Channel top x := fun x => by
    rw [(ho _).2, mem_layerKeys]
  apply guessHeight_found
  · intro x hx
    obtain ⟨f, h1, h2, -⟩ := hw x ((hm x).1 hx)
    unfold hasZUnit
    rw [(dataField_ok (top := top) (k := x) (r := "/data".toList)).2 h1]
    dsimp only
    rcases h2 with h2 | ⟨s, h2⟩
    · rw [if_neg (by rw [h2]; simp)]
      exact ⟨_, rfl⟩
    · split
      · rw [unitStr_ok.2 h2]
        exact ⟨_, rfl⟩
      · exact ⟨_, rfl⟩
  · intro x hx
    obtain ⟨f, -, -, t, h3⟩ := hw x ((hm x).1 hx)
    unfold namedHeight
    rw [channelKey_eq, at_ok.2 h3]
    exact ⟨_, rfl⟩
  · obtain ⟨k, h1, h2⟩ := hk
    exact ⟨k, (hm k).2 h1, h2⟩

private theorem fromTree_chosen (T : Units.Text) (order : List (List Char) → List (List Char)) (top : Fields)
    (k : List Char) (hk : guessHeight T top (order (layerKeys top)) = .ok k) :
    fromTree (K := K) T order ("GwyContainer".toList, top) = readChannel T top k := by
  generalize hn : "GwyContainer".toList = n
  unfold fromTree
  simp only [hn, if_true, hk]

/-- A height at the place `p` under a mask. -/
private def under (mask : Option (List Nat)) (p : Nat) (z : Option K) : Option K :=
  match mask with
  | none => z
  | some m =>
    match m[p]? with
    | some b => if f64.val K b = .fin 0 then z else none
    | none => none

private theorem numOf_number {v : GVal} {x : K} (h : IsNumber v x) : numOf v = .ok (some x) := by
  rcases h with ⟨b, rfl, e⟩ | ⟨i, rfl | rfl, rfl⟩ | ⟨rfl, rfl⟩ | ⟨rfl, rfl⟩
  · simp only [numOf, e, toOpt]
  · rfl
  · rfl
  · rfl
  · rfl

/-- **C65**. What is read from the channel chosen: heights and spacings in micrometres; points the mask of
the channel covers are not measured, the others have the height stored. -/
theorem C65_surface [IsStrictOrderedRing K] {T : Units.Text} (hT : UnitsSpec.Faithful T)
    (order : List (List Char) → List (List Char)) (top : Fields) (k : List Char)
    (hk : guessHeight T top (order (layerKeys top)) = .ok k) (f : Fields) (bits : List Nat)
    (sxy sz : List Char) (exy ez : Int) (vx vy : GVal) (lx ly : K) (nx ny : Nat)
    (mask : Option (List Nat))
    (h1 : DataOf top k f) (h2 : f.get "data".toList = some (.dbls bits))
    (h3 : UnitOf f "si_unit_xy" sxy) (h4 : UnitOf f "si_unit_z" sz)
    (h5 : FromUnit T sxy exy) (h6 : FromUnit T sz ez)
    (h7 : f.get "xreal".toList = some vx) (h8 : IsNumber vx lx)
    (h9 : f.get "yreal".toList = some vy) (h10 : IsNumber vy ly)
    (h11 : f.get "xres".toList = some (.int nx)) (h12 : f.get "yres".toList = some (.int ny))
    (h13 : 0 < nx) (h14 : 0 < ny) (h15 : bits.length = ny * nx)
    (h16 : match mask with
      | none => top.get ("/".toList ++ k ++ "/mask".toList) = none
      | some m => m.length = ny * nx ∧ ∃ g,
          top.get ("/".toList ++ k ++ "/mask".toList) = some (.obj "GwyDataField".toList g) ∧
          g.get "data".toList = some (.dbls m))
    (h17 : ∀ v, top.get ("/".toList ++ k ++ "/meta".toList) = some v →
      ∃ g, v = .obj "GwyContainer".toList g) :
    ∃ r : Raw K, fromTree T order ("GwyContainer".toList, top) = .ok r ∧ r.data.WF ∧
      r.data.nx = nx ∧ r.data.ny = ny ∧
      r.stepX = lx * 10 ^ (exy + 6) / nx ∧ r.stepY = ly * 10 ^ (exy + 6) / ny ∧
      ∀ i j, i < ny → j < nx →
        ((∃ m b, mask = some m ∧ m[i * nx + j]? = some b ∧ f64.val K b ≠ .fin 0) →
          r.data.get i j = none) ∧
        (¬ (∃ m b, mask = some m ∧ m[i * nx + j]? = some b ∧ f64.val K b ≠ .fin 0) →
          ∀ b, bits[i * nx + j]? = some b →
            (∀ z, f64.val K b = .fin z → r.data.get i j = some (z * 10 ^ (ez + 6))) ∧
            ((∀ z, f64.val K b ≠ .fin z) → r.data.get i j = none)) := by
  have hum : ToUnit T "um".toList (-6) :=
    .inl ⟨"um", .um, by decide, by decide⟩
  have cxy := (C56_conversion_partial (K := K) hT sxy "um".toList).1 exy (-6) h5 hum
  have cz := (C56_conversion_partial (K := K) hT sz "um".toList).1 ez (-6) h6 hum
  rw [sub_neg_eq_add] at cxy cz
  have e1 : f.use "data".toList dblsOf = .ok bits := by
    unfold Fields.use; rw [at_ok.2 h2]; rfl
  have e2 : factor (K := K) T f "si_unit_xy".toList = .ok ((10 : K) ^ (exy + 6)) := by
    unfold factor; rw [unitStr_ok.2 h3]; exact cxy
  have e3 : factor (K := K) T f "si_unit_z".toList = .ok ((10 : K) ^ (ez + 6)) := by
    unfold factor; rw [unitStr_ok.2 h4]; exact cz
  have e4 : f.use "xreal".toList numOf = .ok (some lx) := by
    unfold Fields.use; rw [at_ok.2 h7]
    exact numOf_number h8
  have e5 : f.use "yreal".toList numOf = .ok (some ly) := by
    unfold Fields.use; rw [at_ok.2 h9]
    exact numOf_number h10
  have e6 : f.use "xres".toList resOf = .ok (nx : Int) := by
    unfold Fields.use; rw [at_ok.2 h11]; rfl
  have e7 : f.use "yres".toList resOf = .ok (ny : Int) := by
    unfold Fields.use; rw [at_ok.2 h12]; rfl
  have e8 : maskOf top k = .ok mask := by
    unfold maskOf
    rw [channelKey_eq]
    cases mask with
    | none =>
      dsimp only at h16
      rw [h16]; rfl
    | some m =>
      obtain ⟨-, g, hg1, hg2⟩ := h16
      rw [if_pos (by rw [hg1]; rfl)]
      rw [(dataField_ok (top := top) (k := k) (r := "/mask".toList)).2 hg1]
      dsimp only
      unfold Fields.use
      rw [at_ok.2 hg2]
      rfl
  obtain ⟨mt, e9⟩ : ∃ g, metaOf top k = .ok g := by
    unfold metaOf
    rw [channelKey_eq]
    cases hm : top.get ("/".toList ++ k ++ "/meta".toList) with
    | none => exact ⟨_, rfl⟩
    | some v =>
      obtain ⟨g, rfl⟩ := h17 v hm
      exact ⟨g, gat_ok.2 rfl⟩
  -- the heights
  generalize hdata : (bits.map fun b => (toOpt (f64.val K b)).map (· * (10 : K) ^ (ez + 6))) = data
  have hdl : data.length = ny * nx := by rw [← hdata, List.length_map, h15]
  obtain ⟨l, hl1, hl2, hl3⟩ : ∃ l, masked data mask = .ok l ∧ l.length = ny * nx ∧
      ∀ p z, data[p]? = some z → l[p]? = some
        (under mask p z) := by
    cases mask with
    | none => exact ⟨data, rfl, hdl, fun p z hz => hz⟩
    | some m =>
      obtain ⟨hml, -⟩ := h16
      refine ⟨_, if_pos (by rw [hml, hdl]), ?_, ?_⟩
      · rw [List.length_zipWith, hdl, hml, Nat.min_self]
      · intro p z hz
        have hp : p < m.length := by
          have := (List.getElem?_eq_some_iff.1 hz).1
          omega
        rw [List.getElem?_zipWith, hz, under, List.getElem?_eq_getElem hp]
  obtain ⟨g, hg⟩ : ∃ g, reshape l (ny : Int) (nx : Int) = .ok g := by
    unfold reshape
    rw [if_pos ⟨by omega, by omega, by rw [hl2]; push_cast; rfl⟩]
    exact ⟨_, rfl⟩
  obtain ⟨g1, g2, g3, g4, g5⟩ := reshape_get hg
  simp only [Int.toNat_natCast] at g2 g3
  refine ⟨⟨g, lx / ((nx : Int) : K) * 10 ^ (exy + 6), ly / ((ny : Int) : K) * 10 ^ (exy + 6)⟩, ?_, g1, g3, g2,
    ?_, ?_, ?_⟩
  · rw [fromTree_chosen T order top k hk]
    unfold readChannel
    rw [(dataField_ok (top := top) (k := k) (r := "/data".toList)).2 h1]
    dsimp only
    rw [e1, e2, e3, e4, e5, e6, e7, e8, e9]
    dsimp only
    unfold assemble
    have hs : ∀ (x : K) (n : Nat), 0 < n → Gwy.stepOf (some x) (n : Int) ((10 : K) ^ (exy + 6)) =
        .ok (x / ((n : Int) : K) * 10 ^ (exy + 6)) := by
      intro x n hn
      unfold Gwy.stepOf
      rw [if_neg (by omega)]
    rw [hs lx nx h13, hs ly ny h14]
    dsimp only
    rw [hdata, hl1]
    dsimp only
    rw [hg]
  · dsimp only; rw [Int.cast_natCast, div_mul_eq_mul_div]
  · dsimp only; rw [Int.cast_natCast, div_mul_eq_mul_div]
  · intro i j hi hj
    have hp : i * nx + j < ny * nx := by
      calc i * nx + j < i * nx + nx := by omega
        _ = (i + 1) * nx := by ring
        _ ≤ ny * nx := Nat.mul_le_mul_right _ hi
    have hget : ∀ z, l[i * nx + j]? = some z → g.get i j = z := by
      intro z hz
      unfold Grid.get
      rw [g5 i j (by omega) (by omega), g3, hz]
      rfl
    obtain ⟨b, hb⟩ : ∃ b, bits[i * nx + j]? = some b :=
      ⟨_, List.getElem?_eq_getElem (by omega)⟩
    have hd : data[i * nx + j]? = some ((toOpt (f64.val K b)).map (· * (10 : K) ^ (ez + 6))) := by
      rw [← hdata, List.getElem?_map, hb]; rfl
    have hv := hget _ (hl3 _ _ hd)
    constructor
    · rintro ⟨m, c, rfl, hc, hne⟩
      rw [hv, under, hc]
      exact if_neg hne
    · intro hno b' hb'
      rw [hb] at hb'
      cases hb'
      have hv' : g.get i j = (toOpt (f64.val K b)).map (· * (10 : K) ^ (ez + 6)) := by
        rw [hv]
        cases mask with
        | none => rfl
        | some m =>
          dsimp only at h16
          rw [under, List.getElem?_eq_getElem (by omega : i * nx + j < m.length)]
          refine if_pos ?_
          by_contra hc
          exact hno ⟨m, _, rfl, List.getElem?_eq_getElem (by omega), hc⟩
      dsimp only
      rw [hv']
      constructor
      · intro z hz; rw [hz]; rfl
      · intro hz
        cases hf : f64.val K b with
        | fin z => exact absurd hf (hz z)
        | _ => rfl

/-! ## Cases -/

/-- Bits of the double 2. -/
private def two : Nat := 0x4000000000000000

/-- A data field of two by one points. -/
private def exField (unit : String) : Fields :=
  .cons "xres".toList (.int 2) <| .cons "yres".toList (.int 1) <|
  .cons "xreal".toList (.dbl two) <| .cons "yreal".toList (.dbl two) <|
  .cons "si_unit_xy".toList (.obj "GwySIUnit".toList (.cons "unitstr".toList (.str "m".toList) .nil)) <|
  .cons "si_unit_z".toList (.obj "GwySIUnit".toList (.cons "unitstr".toList (.str unit.toList) .nil)) <|
  .cons "data".toList (.dbls [two, 0]) .nil

/-- Three channels: a phase, and two heights of which the second one is called so. -/
private def exTop : Fields :=
  .cons "/0/data".toList (.obj "GwyDataField".toList (exField "deg")) <|
  .cons "/0/data/title".toList (.str "Phase".toList) <|
  .cons "/1/data".toList (.obj "GwyDataField".toList (exField "m")) <|
  .cons "/1/data/title".toList (.str "Amplitude".toList) <|
  .cons "/2/data".toList (.obj "GwyDataField".toList (exField "m")) <|
  .cons "/2/data/title".toList (.str "Height".toList) .nil

/-- A listing of sets. -/
private theorem dedup_lists : ListsSet List.dedup := fun l => ⟨List.nodup_dedup l, fun _ => List.mem_dedup⟩

/-- The container can be encoded. -/
example : Valid (.obj "GwyContainer".toList exTop) := by
  simp only [Valid, ValidFields, exTop, exField, Text, Size, Int', Fields.keys]
  repeat' apply And.intro
  all_goals decide +kernel

/-- The channel called after the height is chosen, whatever the lower case of characters outside ASCII. -/
example (T : Units.Text) : guessHeight T exTop ["1".toList, "0".toList, "2".toList] = .ok "2".toList := by
  rfl

/-- The surface read from it: two micrometres are two million. -/
example (T : Units.Text) (hT : UnitsSpec.Faithful T) :
    ∃ r : Raw ℚ, fromTree T List.dedup ("GwyContainer".toList, exTop) = .ok r ∧ r.stepX = 10 ^ 6 ∧
      r.data.get 0 0 = some (2 * 10 ^ 6) ∧ r.data.get 0 1 = some 0 := by
  have hg : guessHeight T exTop (layerKeys exTop).dedup = .ok "2".toList := by
    rw [show (layerKeys exTop).dedup = ["0".toList, "1".toList, "2".toList] by decide +kernel]
    rfl
  have hm : FromUnit T "m".toList 0 := .inl ⟨"m", .m, by decide, by decide⟩
  have h2 : f64.val ℚ two = .fin 2 := by decide +kernel
  have h0 : f64.val ℚ 0 = .fin 0 := by decide +kernel
  obtain ⟨r, h1, -, -, -, h5, -, h7⟩ := C65_surface (K := ℚ) hT List.dedup exTop "2".toList hg (exField "m") [two, 0]
    "m".toList "m".toList 0 0 (.dbl two) (.dbl two) 2 2 2 1 none rfl rfl ⟨_, rfl, rfl⟩ ⟨_, rfl, rfl⟩ hm hm rfl (.inl ⟨_, rfl, h2⟩) rfl (.inl ⟨_, rfl, h2⟩) rfl rfl
    (by omega) (by omega) rfl rfl (fun v hv => by cases hv)
  refine ⟨r, h1, ?_, ?_, ?_⟩
  · rw [h5]; norm_num
  · rw [((h7 0 0 (by omega) (by omega)).2 (by rintro ⟨m, b, hm, -⟩; cases hm) two rfl).1 2 h2]
    norm_num
  · rw [((h7 0 1 (by omega) (by omega)).2 (by rintro ⟨m, b, hm, -⟩; cases hm) 0 rfl).1 0 h0]
    norm_num

/-- Two channels numbered with leading zeros. -/
private def zeroTop : Fields :=
  .cons "/00/data".toList (.obj "GwyDataField".toList (exField "m")) <|
  .cons "/00/data/title".toList (.str "A".toList) <|
  .cons "/01/data".toList (.obj "GwyDataField".toList (exField "m")) <|
  .cons "/01/data/title".toList (.str "B".toList) .nil

/-- **C65** (violated for numbers with leading zeros). A file with two height channels whose numbers have
leading zeros cannot be read, although each of them alone could be. -/
theorem C65_leading_zeros_lost (T : Units.Text) :
    Valid (.obj "GwyContainer".toList zeroTop) ∧ IsLength zeroTop "00".toList ∧
    fromTree (K := K) T List.dedup ("GwyContainer".toList, zeroTop) = .error .keyError := by
  refine ⟨?_, ⟨exField "m", "m".toList, 0, rfl, ⟨_, rfl, rfl⟩, by decide⟩, ?_⟩
  · simp only [Valid, ValidFields, zeroTop, exField, Text, Size, Int', Fields.keys]
    repeat' apply And.intro
    all_goals decide +kernel
  · have hk : guessHeight T zeroTop (layerKeys zeroTop).dedup = .ok "0".toList := by
      rw [show (layerKeys zeroTop).dedup = ["00".toList, "01".toList] by decide +kernel]
      unfold guessHeight
      rw [show byUnit zeroTop ["00".toList, "01".toList] = .ok ["00".toList, "01".toList] from rfl]
      dsimp only
      rw [show byName T zeroTop ["00".toList, "01".toList] = .ok ["00".toList, "01".toList] from rfl]
      dsimp only
      unfold byNumber
      rw [show (["00".toList, "01".toList].map digitsNat).min? = some 0 by decide +kernel]
      dsimp only
      rw [natText]
      rfl
    rw [fromTree_chosen T _ zeroTop _ hk]
    unfold readChannel
    rw [show dataField zeroTop "0".toList "/data".toList = .error .keyError from rfl]

end Surfalize.Props
