import Verif.Model.Sflz
import Verif.Lemmas.FileFloat
import Verif.Lemmas.Py
import Verif.Lemmas.Num
/-! # Lemmas for C62 -/
set_option linter.unusedSectionVars false
namespace Surfalize
namespace Sflz
open LayoutM LayoutSpec FileArr Props
variable {K : Type} [Field K] [LinearOrder K] [IsStrictOrderedRing K]

theorem dtypeOf_str {t : DType} (h : t ∈ dtypes) : dtypeOf t.str = .ok t := by
  have : ∀ t ∈ dtypes, dtypes.find? (fun u => u.str = t.str) = some t := by decide
  unfold dtypeOf
  rw [this t h]

theorem dtype_str_fits {t : DType} (h : t ∈ dtypes) : (utf8 t.str).length ≤ 3 := by
  have : ∀ t ∈ dtypes, (utf8 t.str).length ≤ 3 := by decide +kernel
  exact this t h

theorem dtype_str_last {t : DType} (h : t ∈ dtypes) :
    ∀ c, t.str.getLast? = some c → c ≠ ' ' ∧ c ≠ '\x00' := by
  have : ∀ t ∈ dtypes, ∀ c ∈ t.str.getLast?, c ≠ ' ' ∧ c ≠ '\x00' := by decide
  exact fun c hc => this t h c hc

theorem dtype_size_pos {t : DType} (h : t ∈ dtypes) : 0 < t.size := by
  have : ∀ t ∈ dtypes, 0 < t.size := by decide
  exact this t h

theorem inverse_compression : Inverse (K := K) compressionRead compressionWrite := by
  intro v v' h
  cases v with
  | str s =>
    simp only [compressionWrite] at h
    split at h
    · rename_i hs; subst hs; cases h; exact ⟨⟨_, rfl⟩, rfl⟩
    split at h
    · rename_i hs; subst hs; cases h; exact ⟨⟨_, rfl⟩, rfl⟩
    split at h
    · rename_i hs; subst hs; cases h; exact ⟨⟨_, rfl⟩, rfl⟩
    · cases h
  | int i => cases h
  | num x => cases h
  | bytes b => cases h

theorem wf_layout : WellFormed [] (layout K) := by
  simp only [layout, WellFormed]
  refine ⟨by omega, by omega, ⟨_, _, _, rfl, by omega⟩, inverse_compression, trivial⟩

theorem names_nodup : (names (layout K)).Nodup := by
  have : names (layout K) = ["version", "step_x", "step_y", "scaled", "min_value", "max_value",
    "num_layers", "num_metadata", "compression_algorithm"] := rfl
  rw [this]; decide

theorem wf_layer : WellFormed [] (layerLayout K) := by simp [layerLayout, WellFormed]

theorem names_layer : (names (layerLayout K)).Nodup := by
  have : names (layerLayout K) = ["name_length", "name", "width", "height", "channels", "datatype",
    "size"] := rfl
  rw [this]; decide

/-- A compression that loses nothing. -/
def Codec.Lossless (cd : Codec) : Prop := ∀ b, cd.decompress (cd.compress b) = .ok b

/-- A layer the format can hold. -/
structure Layer.Good (l : Layer) : Prop where
  dtype : l.dtype ∈ dtypes
  name : (utf8 l.name).length = l.name.length
  last : ∀ c, l.name.getLast? = some c → c ≠ ' ' ∧ c ≠ '\x00'
  third : ∀ k, l.third = some k → 1 < k
  bytes : l.bytes.length = l.height * l.width * l.third.getD 1 * l.dtype.size

/-- The whole characters of a cut text are determined. -/
theorem cutTo_unique {n : Nat} {s u v : List Char} (h1 : CutTo n s u) (h2 : CutTo n s v) : u = v := by
  have h3 := utf8?_utf8 u
  rw [h1.2, ← h2.2, utf8?_utf8] at h3
  exact (Option.some.inj h3).symm

/-- The text without trailing blanks and NULs is determined. -/
theorem stripped_unique {s t v : List Char} (h1 : Stripped s t) (h2 : Stripped s v) : t = v := by
  have key : ∀ {t v : List Char}, Stripped s t → Stripped s v → t.length ≤ v.length := by
    intro t v h1 h2
    by_contra hc
    obtain ⟨⟨p1, hp1, e1⟩, l1⟩ := h1
    obtain ⟨⟨p2, hp2, e2⟩, l2⟩ := h2
    have hne : t ≠ [] := by
      intro h0
      rw [h0] at hc
      simp at hc
    have hlast := l1 _ (List.getLast?_eq_getLast_of_ne_nil hne)
    have hi : t.length - 1 < t.length := by omega
    have e : s[t.length - 1]? = some (t.getLast hne) := by
      rw [e1, List.getElem?_append_left hi, List.getLast_eq_getElem, List.getElem?_eq_getElem hi]
    rw [e2, List.getElem?_append_right (by omega)] at e
    rcases hp2 _ (List.mem_of_getElem? e) with h | h
    · exact hlast.1 h
    · exact hlast.2 h
  have hle := key h1 h2
  have hge := key h2 h1
  obtain ⟨⟨p1, -, e1⟩, -⟩ := h1
  obtain ⟨⟨p2, -, e2⟩, -⟩ := h2
  rw [e1] at e2
  exact (List.append_inj e2 (by omega)).1

/-- A layer that comes back under the name `t`: what is left of the name in as many bytes as it has
characters, without blanks and NULs at the end. -/
structure Layer.GoodAs (l : Layer) (t : List Char) : Prop where
  dtype : l.dtype ∈ dtypes
  name : ∃ u, CutTo l.name.length l.name u ∧ Stripped u t
  third : ∀ k, l.third = some k → 1 < k
  bytes : l.bytes.length = l.height * l.width * l.third.getD 1 * l.dtype.size

theorem Layer.Good.as {l : Layer} (h : l.Good) : l.GoodAs l.name :=
  ⟨h.dtype, ⟨l.name, cutTo_self _ _ (by rw [h.name]), ⟨⟨[], by simp, by simp⟩, h.last⟩⟩, h.third, h.bytes⟩

theorem readLayer_as {c : FloatCodec K} (hc : c.Nearest) {cd : Codec} (hcd : cd.Lossless)
    {l : Layer} {t : List Char} (hl : l.GoodAs t) {b : Bytes} (hw : writeLayer c cd l = .ok b) (pre post : Bytes) :
    readLayer (K := K) cd ⟨pre ++ b ++ post, pre.length⟩ =
      .ok ({ l with name := t }, ⟨pre ++ b ++ post, pre.length + b.length⟩) := by
  obtain ⟨u0, hu0, ht0⟩ := hl.name
  unfold writeLayer at hw
  dsimp only at hw
  set data := cd.compress l.bytes with hdata
  set d0 : Dict K := layerDict (K := K) l.name l.width l.height (l.third.getD 1) l.dtype data.length
    with hd0
  cases hh : write c d0 (layerLayout K) with
  | error e => rw [hh] at hw; cases hw
  | ok hdr =>
    rw [hh] at hw
    simp only [Except.ok.injEq] at hw
    subst hw
    obtain ⟨-, d', hr, hb⟩ := header_back hc .utf8 wf_layer names_layer (d := d0) (by
      simp only [layerLayout, TextFits]
      exact ⟨⟨_, u0, _, rfl, rfl, (by rw [Int.toNat_natCast]; exact hu0)⟩,
        ⟨_, _, rfl, cutTo_self _ _ (dtype_str_fits hl.dtype)⟩, trivial⟩) hh pre (data ++ post)
    have hbuf : pre ++ (hdr ++ data) ++ post = pre ++ hdr ++ (data ++ post) := by simp
    rw [hbuf]
    have hname : getStr d' "name" = .ok t := by
      obtain ⟨u, t', h1, h2, h3⟩ := hb.prev (name := "name") (p := "name_length") (n := l.name.length)
        (by simp [layerLayout]) rfl (s := l.name) rfl
      rw [cutTo_unique h1 hu0] at h2
      rw [h3, stripped_unique h2 ht0]
    have hty : getStr d' "datatype" = .ok l.dtype.str := by
      obtain ⟨u, t, h1, h2, h3⟩ := hb.str (name := "datatype") (n := 3) (by simp [layerLayout])
        (s := l.dtype.str) rfl
      rw [h3, text_back (dtype_str_fits hl.dtype) h1 h2 (dtype_str_last hl.dtype)]
    have hwd : getInt d' "width" = .ok (l.width : Int) :=
      hb.int (sg := false) (big := false) (w := 4) (by simp [layerLayout]) rfl
    have hht : getInt d' "height" = .ok (l.height : Int) :=
      hb.int (sg := false) (big := false) (w := 4) (by simp [layerLayout]) rfl
    have hch : getInt d' "channels" = .ok ((l.third.getD 1 : Nat) : Int) :=
      hb.int (sg := false) (big := false) (w := 1) (by simp [layerLayout]) rfl
    have hsz : getInt d' "size" = .ok (data.length : Int) :=
      hb.int (sg := false) (big := false) (w := 4) (by simp [layerLayout]) rfl
    have hrd : (Handle.mk (pre ++ hdr ++ (data ++ post)) (pre.length + hdr.length)).read data.length =
        (data, ⟨pre ++ hdr ++ (data ++ post), pre.length + (hdr ++ data).length⟩) := by
      have h1 := LayoutM.read_at (pre ++ hdr) data post data.length rfl
      rw [List.length_append] at h1
      rw [← List.append_assoc (pre ++ hdr) data post, h1]
      simp [List.length_append, Nat.add_assoc]
    unfold readLayer
    rw [hr]
    dsimp only
    rw [hname, hwd, hht, hch, hty, hsz]
    dsimp only
    rw [Int.toNat_natCast, hrd]
    dsimp only
    rw [hdata, hcd l.bytes]
    dsimp only
    rw [dtypeOf_str hl.dtype]
    dsimp only
    have hpos := dtype_size_pos hl.dtype
    have hlen := hl.bytes
    rw [if_neg (by rw [hlen]; simp)]
    have hdiv : l.bytes.length / l.dtype.size = l.height * l.width * l.third.getD 1 := by
      rw [hlen]; exact Nat.mul_div_cancel _ hpos
    rw [hdiv]
    cases h3 : l.third with
    | none =>
      rw [if_neg (by simp), if_pos (by simp)]
      simp only [Int.toNat_natCast]
    | some k =>
      have hk := hl.third k h3
      rw [if_pos (by simp only [Option.getD_some]; omega), if_pos (by simp)]
      simp only [Int.toNat_natCast, Option.getD_some]

theorem readLayer_at {c : FloatCodec K} (hc : c.Nearest) {cd : Codec} (hcd : cd.Lossless)
    {l : Layer} (hl : l.Good) {b : Bytes} (hw : writeLayer c cd l = .ok b) (pre post : Bytes) :
    readLayer (K := K) cd ⟨pre ++ b ++ post, pre.length⟩ =
      .ok (l, ⟨pre ++ b ++ post, pre.length + b.length⟩) := readLayer_as hc hcd hl.as hw pre post

theorem putLayer_new {v : Layer} {ls : List Layer} (h : v.name ∉ ls.map Layer.name) :
    putLayer v ls = ls ++ [v] := by
  induction ls with
  | nil => rfl
  | cons l ls ih =>
    simp only [List.map_cons, List.mem_cons, not_or] at h
    rw [putLayer, if_neg (fun e => h.1 e.symm), ih h.2]
    rfl

/-- The layers of a file one after the other into the dictionary. -/
theorem readLayers_put {c : FloatCodec K} (hc : c.Nearest) {cd : Codec} (hcd : cd.Lossless) (nm : Layer → List Char)
    (layers : List Layer) (hl : ∀ l ∈ layers, l.GoodAs (nm l)) :
    ∀ (done : List Layer) (b pre post : Bytes), writeLayers c cd layers = .ok b →
      readLayers K cd layers.length done ⟨pre ++ b ++ post, pre.length⟩ =
        .ok ((layers.map fun l : Layer => { l with name := nm l }).foldl (fun d v => putLayer v d) done) := by
  induction layers with
  | nil => intro done b pre post _; simp [readLayers]
  | cons l ls ih =>
    intro done b pre post hw
    rw [writeLayers] at hw
    cases h1 : writeLayer c cd l with
    | error e => rw [h1] at hw; cases hw
    | ok b1 =>
      rw [h1] at hw
      dsimp only at hw
      cases h2 : writeLayers c cd ls with
      | error e => rw [h2] at hw; cases hw
      | ok b2 =>
        rw [h2] at hw
        simp only [Except.ok.injEq] at hw
        subst hw
        have r1 := readLayer_as hc hcd (hl l (by simp)) h1 pre (b2 ++ post)
        have e1 : pre ++ (b1 ++ b2) ++ post = pre ++ b1 ++ (b2 ++ post) := by simp
        have r2 := ih (fun x hx => hl x (by simp [hx])) (putLayer { l with name := nm l } done) b2 (pre ++ b1) post h2
        have e2 : pre ++ b1 ++ b2 ++ post = pre ++ b1 ++ (b2 ++ post) := by simp
        rw [e2, List.length_append] at r2
        rw [List.length_cons, readLayers, e1, r1]
        exact r2

theorem foldl_put_new {vs : List Layer} : ∀ {done : List Layer}, ((done ++ vs).map Layer.name).Nodup →
    vs.foldl (fun d v => putLayer v d) done = done ++ vs := by
  induction vs with
  | nil => intro done _; simp
  | cons v vs ih =>
    intro done hnd
    rw [List.foldl_cons, putLayer_new, ih (by simpa using hnd)]
    · simp
    · intro hm
      rw [List.map_append, List.nodup_append] at hnd
      exact hnd.2.2 _ hm v.name (by simp) rfl

theorem readLayers_as {c : FloatCodec K} (hc : c.Nearest) {cd : Codec} (hcd : cd.Lossless) (nm : Layer → List Char)
    (layers : List Layer) (hl : ∀ l ∈ layers, l.GoodAs (nm l)) (done : List Layer) (b pre post : Bytes)
      (hnd : ((done ++ layers.map fun l : Layer => { l with name := nm l }).map Layer.name).Nodup) (hw : writeLayers c cd layers = .ok b) :
      readLayers K cd layers.length done ⟨pre ++ b ++ post, pre.length⟩ =
        .ok (done ++ layers.map fun l : Layer => { l with name := nm l }) := by
  rw [readLayers_put hc hcd nm layers hl done b pre post hw, foldl_put_new hnd]

theorem putLayer_names (v : Layer) (ls : List Layer) (h : (ls.map Layer.name).Nodup) :
    ((putLayer v ls).map Layer.name).Nodup ∧ ∀ l, l ∈ putLayer v ls ↔ l = v ∨ (l ∈ ls ∧ l.name ≠ v.name) := by
  induction ls with
  | nil => simp [putLayer]
  | cons a ls ih =>
    rw [List.map_cons, List.nodup_cons] at h
    obtain ⟨i1, i2⟩ := ih h.2
    rw [putLayer]
    by_cases e : a.name = v.name
    · rw [if_pos e]
      refine ⟨by rw [List.map_cons, List.nodup_cons, ← e]; exact h, fun l => ?_⟩
      simp only [List.mem_cons]
      constructor
      · rintro (h1 | h1)
        · exact .inl h1
        · exact .inr ⟨.inr h1, fun h2 => h.1 (by rw [e, ← h2]; exact List.mem_map_of_mem h1)⟩
      · rintro (h1 | ⟨rfl | h1, h2⟩)
        · exact .inl h1
        · exact absurd e h2
        · exact .inr h1
    · rw [if_neg e]
      refine ⟨?_, fun l => ?_⟩
      · rw [List.map_cons, List.nodup_cons]
        refine ⟨fun hm => ?_, i1⟩
        obtain ⟨l, hl, hl2⟩ := List.mem_map.1 hm
        rcases (i2 l).1 hl with rfl | ⟨h1, -⟩
        · exact e hl2.symm
        · exact h.1 (by rw [← hl2]; exact List.mem_map_of_mem h1)
      · simp only [List.mem_cons, i2]
        constructor
        · rintro (rfl | rfl | ⟨h1, h2⟩)
          · exact .inr ⟨.inl rfl, e⟩
          · exact .inl rfl
          · exact .inr ⟨.inr h1, h2⟩
        · rintro (rfl | ⟨rfl | h1, h2⟩)
          · exact .inr (.inl rfl)
          · exact .inl rfl
          · exact .inr (.inr ⟨h1, h2⟩)

/-- A dictionary holds the last value of each name. -/
theorem foldl_put_spec (vs : List Layer) : ((vs.foldl (fun d v => putLayer v d) []).map Layer.name).Nodup ∧
    ∀ l, l ∈ vs.foldl (fun d v => putLayer v d) [] ↔ ∃ p q, vs = p ++ l :: q ∧ ∀ m ∈ q, m.name ≠ l.name := by
  induction vs using List.reverseRecOn with
  | nil => simp
  | append_singleton vs v ih =>
    rw [List.foldl_append, List.foldl_cons, List.foldl_nil]
    obtain ⟨h1, h2⟩ := putLayer_names v _ ih.1
    refine ⟨h1, fun l => ?_⟩
    rw [h2]
    constructor
    · rintro (rfl | ⟨h, hne⟩)
      · exact ⟨vs, [], rfl, by simp⟩
      · obtain ⟨p, q, rfl, hq⟩ := (ih.2 l).1 h
        refine ⟨p, q ++ [v], by simp, fun m hm => ?_⟩
        rcases List.mem_append.1 hm with hm | hm
        · exact hq m hm
        · rw [List.mem_singleton.1 hm]; exact hne.symm
    · rintro ⟨p, q, e, hq⟩
      rcases List.eq_nil_or_concat q with rfl | ⟨q', z, rfl⟩
      · have := List.append_inj' e rfl
        exact .inl (List.cons.inj this.2).1.symm
      · rw [List.concat_eq_append] at e hq
        have e' : vs ++ [v] = (p ++ l :: q') ++ [z] := by simpa using e
        obtain ⟨rfl, hz⟩ := List.append_inj' e' rfl
        obtain rfl : v = z := (List.cons.inj hz).1
        refine .inr ⟨(ih.2 l).2 ⟨p, q', rfl, fun m hm => hq m (by simp [hm])⟩, (hq v (by simp)).symm⟩

@[simp] theorem encodeItem_length [FloorRing K] (c : FloatCodec K) (nan : Int) (t : DType)
    (x : Option K) : (encodeItem c nan t x).length = t.size := by
  unfold encodeItem
  split <;> simp

/-- What a height is read as. -/
def back [FloorRing K] (c : FloatCodec K) (nan : Int) (t : DType) (lo hi lo' hi' : Option K)
    (z : Option K) : Option K :=
  if t.kind = .float then t.item K (encodeItem c nan t z)
  else unscale t lo' hi' (t.item K (encodeItem c nan t (scaled t lo hi z)))

/-- What a stored minimum or maximum is read as. -/
def StoredOpt (x y : Option K) : Prop :=
  (x = none → y = none) ∧ ∀ v, x = some v → ∃ w, y = some w ∧ Nearest true v w

/-- Reading a written file up to the image layers: what is left to do is the loop over the image layers, at
the place where the writer put them. -/
theorem read_written_raw [FloorRing K] {c : FloatCodec K} (hc : c.Nearest) {L : Codecs}
    (h1 : L.zlib.Lossless) (h2 : L.lzma.Lossless) (nan : Int) {comp : List Char}
    (save load : Bool) (numMeta : Nat) {t : DType} (ht : t ∈ dtypes) (s : Surf K)
    (hwf : s.raw.data.WF)
    {b : Bytes} (hw : writeSflz c L nan comp save numMeta t s = .ok b) (post : Bytes) :
    ∃ sx sy lo' hi' X bl, writeLayers c (L.of comp) (if save then s.layers else []) = .ok bl ∧ b ++ post = X ++ bl ++ post ∧
      readSflz L load ⟨b ++ post, 0⟩ = (match readLayers K (L.of comp)
          ((if load then 1 + (if save then s.layers else []).length else 1) - 1) [] ⟨X ++ bl ++ post, X.length⟩ with
        | .error e => .error e
        | .ok layers => .ok ⟨⟨Container.map (back c nan t (propmin (Container.flat s.raw.data))
          (propmax (Container.flat s.raw.data)) lo' hi') s.raw.data, sx, sy⟩, layers⟩) ∧
      Nearest true s.raw.stepX sx ∧ Nearest true s.raw.stepY sy ∧
      (t.kind ≠ .float → StoredOpt (propmin (Container.flat s.raw.data)) lo' ∧
        StoredOpt (propmax (Container.flat s.raw.data)) hi') := by
  unfold writeSflz at hw
  dsimp only at hw
  set isInt : Bool := decide (t.kind ≠ .float) with hisInt
  set lo := propmin (Container.flat s.raw.data) with hlo
  set hi := propmax (Container.flat s.raw.data) with hhi
  set layers := if save then s.layers else [] with hlayers
  split at hw
  · cases hw
  set d0 : Dict K := header comp isInt lo hi (1 + layers.length) numMeta s with hd0
  cases hh : write c d0 (layout K) with
  | error e => rw [hh] at hw; cases hw
  | ok hdr =>
    rw [hh] at hw
    dsimp only at hw
    set cd := L.of comp with hcd
    have hloss : cd.Lossless := by
      rw [hcd]; unfold Codecs.of
      split
      · exact h1
      split
      · exact h2
      · exact fun b => rfl
    set items := if isInt then (Container.flat s.raw.data).map (scaled t lo hi)
      else Container.flat s.raw.data with hitems
    set top : Layer := ⟨"topography".toList, t, s.raw.data.ny, s.raw.data.nx, none,
      writeArray (encodeItem c nan t) items⟩ with htop
    cases hwt : writeLayer c cd top with
    | error e => rw [hwt] at hw; cases hw
    | ok bt =>
      rw [hwt] at hw
      dsimp only at hw
      cases hwl : writeLayers c cd layers with
      | error e => rw [hwl] at hw; cases hw
      | ok bl =>
        rw [hwl] at hw
        simp only [Except.ok.injEq] at hw
        subst hw
        set M := utf8 "SFLZ".toList with hM
        have hM4 : M.length = 4 := by rw [hM]; decide
        have hil : items.length = s.raw.data.ny * s.raw.data.nx := by
          rw [hitems]; split
          · rw [List.length_map, flat_length _ hwf]
          · rw [flat_length _ hwf]
        have hal : (writeArray (encodeItem c nan t) items).length = items.length * t.size :=
          writeArray_length t.size _ items (fun x _ => encodeItem_length c nan t x)
        have htg : top.Good := by
          refine Layer.Good.mk ht
            (show (utf8 "topography".toList).length = "topography".toList.length by decide +kernel)
            (fun c hc => (show ∀ c ∈ "topography".toList.getLast?, c ≠ ' ' ∧ c ≠ '\x00' by decide) c hc)
            (fun k hk => nomatch hk) ?_
          rw [htop]; simp only [Option.getD_none, Nat.mul_one]
          rw [hal, hil]
        obtain ⟨-, d', hr, hb⟩ := header_back hc .utf8 wf_layout names_nodup (d := d0) (by
          simp only [layout, TextFits]
          exact ⟨⟨_, _, rfl, cutTo_self _ _ (by decide +kernel)⟩, ⟨_, rfl⟩, trivial⟩) hh M (bt ++ bl ++ post)
        have rt := readLayer_at hc hloss htg hwt (M ++ hdr) (bl ++ post)
        set B := M ++ hdr ++ (bt ++ bl ++ post) with hB
        have eB : M ++ (hdr ++ (bt ++ bl)) ++ post = B := by rw [hB]; simp
        have eT : M ++ hdr ++ bt ++ (bl ++ post) = B := by rw [hB]; simp
        have eL : M ++ hdr ++ bt ++ bl ++ post = B := by rw [hB]; simp
        rw [eT] at rt
        have hcomp : getStr d' "compression_algorithm" = .ok comp := by
          have := hb.apply (name := "compression_algorithm") (f := .int false false 1)
            (rd := compressionRead) (wr := compressionWrite) (v := .str comp) (by simp [layout]) rfl
          simp [getStr, this]
        have hnl : getInt d' "num_layers" = .ok ((1 + layers.length : Nat) : Int) :=
          hb.int (sg := false) (big := false) (w := 2) (by simp [layout]) rfl
        have hsc : getInt d' "scaled" = .ok (if isInt then 1 else 0) := by
          have := hb.bool (name := "scaled") (by simp [layout]) (i := if isInt then 1 else 0) rfl
          rw [this]
          cases isInt <;> simp
        obtain ⟨sx, hsx1, hsx2⟩ := hb.num (name := "step_x") (dbl := true) (big := false)
          (x := s.raw.stepX) (by simp [layout]) rfl
        obtain ⟨sy, hsy1, hsy2⟩ := hb.num (name := "step_y") (dbl := true) (big := false)
          (x := s.raw.stepY) (by simp [layout]) rfl
        have hstore : ∀ (k : String) (v : Option K),
            Entry.field k (.fixed (.flt true false 1)) ∈ layout K →
            d0 k = some (if isInt then .num (match v with
              | some x => .fin x
              | none => .nan) else .int 0) →
            ∃ y, getNum d' k = .ok y ∧ (isInt = true → StoredOpt v y) := by
          intro k v hm hk
          cases hi2 : isInt with
          | true =>
            rw [hi2] at hk
            simp only [if_true] at hk
            cases v with
            | none =>
              exact ⟨none, hb.nan hm hk, fun _ => ⟨fun _ => rfl, fun v hv => by cases hv⟩⟩
            | some x =>
              obtain ⟨y, hy1, hy2⟩ := hb.num hm hk
              exact ⟨some y, hy1, fun _ => ⟨fun h => (by cases h), fun v hv => by
                cases hv; exact ⟨y, rfl, hy2⟩⟩⟩
          | false =>
            rw [hi2] at hk
            simp only [Bool.false_eq_true, if_false] at hk
            obtain ⟨v1, v', e1, e2, e3⟩ := hb k _ hm
            rw [hk] at e1
            cases e1
            obtain ⟨y, rfl, -⟩ := e3
            exact ⟨some y, by simp [getNum, e2, toOpt], fun h => by cases h⟩
        obtain ⟨lo', hlo1, hlo2⟩ := hstore "min_value" lo (by simp [layout]) rfl
        obtain ⟨hi', hhi1, hhi2⟩ := hstore "max_value" hi (by simp [layout]) rfl
        refine ⟨sx, sy, lo', hi', M ++ hdr ++ bt, bl, rfl, by rw [eL]; exact eB, ?_, hsx2, hsy2, fun hk => ⟨hlo2 (by rw [hisInt]; simpa using hk),
          hhi2 (by rw [hisInt]; simpa using hk)⟩⟩
        have hm4 : (Handle.mk B 0).read 4 = (M, ⟨B, 4⟩) := by
          have : B.take 4 = M := by
            rw [← eB, List.append_assoc, List.take_append_of_le_length (by rw [hM4]), List.take_of_length_le (by rw [hM4])]
          simp [Handle.read, this, hM4]
        unfold readSflz
        rw [eB, hm4]
        dsimp only
        rw [if_neg (fun h => h hM)]
        rw [hM4] at hr
        rw [hr]
        dsimp only
        rw [hcomp, hnl, hsc, hlo1, hhi1, hsx1, hsy1]
        dsimp only
        rw [Int.toNat_natCast, if_neg (by split <;> omega), ← hcd]
        rw [List.length_append, hM4] at rt
        rw [rt]
        dsimp only
        rw [if_neg (by rw [htop]; simp)]
        have hscal : ¬ ((if isInt = true then (1 : Int) else 0) ≠ 0 ∧ top.dtype.kind = .float) := by
          rintro ⟨ha, hb2⟩
          apply ha
          rw [if_neg]
          rw [hisInt]; simpa using hb2
        rw [if_neg hscal]
        have hfb := fromBuffer_writeArray t.size (dtype_size_pos ht) (encodeItem c nan t) (t.item K)
          items (fun x _ => encodeItem_length c nan t x)
        have etop : fromBuffer top.dtype.size (top.dtype.item K) top.bytes =
            .ok (items.map fun x => t.item K (encodeItem c nan t x)) := hfb
        rw [etop]
        dsimp only
        have hgrid : reshape (if (if isInt = true then (1 : Int) else 0) ≠ 0 then
            (items.map fun x => t.item K (encodeItem c nan t x)).map (unscale top.dtype lo' hi')
            else items.map fun x => t.item K (encodeItem c nan t x)) (top.height : Int) (top.width : Int) =
            .ok (Container.map (back c nan t lo hi lo' hi') s.raw.data) := by
          have hh1 : top.height = s.raw.data.ny := rfl
          have hh2 : top.width = s.raw.data.nx := rfl
          rw [hh1, hh2]
          cases hi2 : isInt with
          | true =>
            have hk : t.kind ≠ .float := by rw [hisInt] at hi2; simpa using hi2
            rw [if_pos (by simp), hitems, hi2]
            simp only [if_true, List.map_map]
            rw [reshape_map _ hwf]
            congr 1
            refine Container.map_congr _ _ _ fun z _ => ?_
            simp only [Function.comp, back, if_neg hk]
            rfl
          | false =>
            have hk : t.kind = .float := by rw [hisInt] at hi2; simpa using hi2
            rw [if_neg (by simp), hitems, hi2]
            simp only [Bool.false_eq_true, if_false]
            rw [reshape_map _ hwf]
            congr 1
            refine Container.map_congr _ _ _ fun z _ => ?_
            simp only [back, if_pos hk]
        rw [hgrid]
        dsimp only
        rw [eL]
        simp only [List.length_append, hM4]
        cases readLayers K cd ((if load = true then 1 + layers.length else 1) - 1) [] ⟨B, 4 + hdr.length + bt.length⟩ <;> rfl

theorem read_written_put [FloorRing K] {c : FloatCodec K} (hc : c.Nearest) {L : Codecs}
    (h1 : L.zlib.Lossless) (h2 : L.lzma.Lossless) (nan : Int) {comp : List Char}
    (numMeta : Nat) (nm : Layer → List Char) {t : DType} (ht : t ∈ dtypes) (s : Surf K)
    (hwf : s.raw.data.WF) (hl : ∀ l ∈ s.layers, l.GoodAs (nm l))
    {b : Bytes} (hw : writeSflz c L nan comp true numMeta t s = .ok b) (post : Bytes) :
    ∃ r : Surf K, readSflz L true ⟨b ++ post, 0⟩ = .ok r ∧
      r.layers = (s.layers.map fun l : Layer => { l with name := nm l }).foldl (fun d v => putLayer v d) [] := by
  obtain ⟨sx, sy, lo', hi', X, bl, hwl, -, hr, hrest⟩ := read_written_raw hc h1 h2 nan true true numMeta ht s hwf hw post
  have hloss : (L.of comp).Lossless := by
    unfold Codecs.of
    split
    · exact h1
    split
    · exact h2
    · exact fun b => rfl
  rw [if_pos rfl] at hwl hr
  rw [if_pos rfl, Nat.add_sub_cancel_left, readLayers_put hc hloss nm s.layers hl [] bl X post hwl] at hr
  exact ⟨_, hr, rfl⟩

theorem read_written_as [FloorRing K] {c : FloatCodec K} (hc : c.Nearest) {L : Codecs}
    (h1 : L.zlib.Lossless) (h2 : L.lzma.Lossless) (nan : Int) {comp : List Char}
    (save load : Bool) (numMeta : Nat) (nm : Layer → List Char) {t : DType} (ht : t ∈ dtypes) (s : Surf K)
    (hwf : s.raw.data.WF) (hl : ∀ l ∈ s.layers, l.GoodAs (nm l)) (hnd : (s.layers.map nm).Nodup)
    {b : Bytes} (hw : writeSflz c L nan comp save numMeta t s = .ok b) (post : Bytes) :
    ∃ sx sy lo' hi',
      readSflz L load ⟨b ++ post, 0⟩ = .ok
        ⟨⟨Container.map (back c nan t (propmin (Container.flat s.raw.data))
          (propmax (Container.flat s.raw.data)) lo' hi') s.raw.data, sx, sy⟩,
          if save ∧ load then s.layers.map (fun l : Layer => { l with name := nm l }) else []⟩ ∧
      Nearest true s.raw.stepX sx ∧ Nearest true s.raw.stepY sy ∧
      (t.kind ≠ .float → StoredOpt (propmin (Container.flat s.raw.data)) lo' ∧
        StoredOpt (propmax (Container.flat s.raw.data)) hi') := by
  obtain ⟨sx, sy, lo', hi', X, bl, hwl, -, hr, hrest⟩ := read_written_raw hc h1 h2 nan save load numMeta ht s hwf hw post
  have hloss : (L.of comp).Lossless := by
    unfold Codecs.of
    split
    · exact h1
    split
    · exact h2
    · exact fun b => rfl
  refine ⟨sx, sy, lo', hi', ?_, hrest⟩
  rw [hr]
  have hlast : readLayers K (L.of comp) ((if load = true then 1 + (if save = true then s.layers else []).length else 1) - 1) []
      ⟨X ++ bl ++ post, X.length⟩ = .ok (if save ∧ load then s.layers.map (fun l => { l with name := nm l }) else []) := by
    cases load with
    | true =>
      rw [if_pos rfl, Nat.add_sub_cancel_left]
      have rl := readLayers_as hc hloss nm (if save = true then s.layers else []) (by
        split
        · exact hl
        · simp) [] bl X post (by
        rw [List.nil_append, List.map_map]
        split
        · exact hnd
        · simp) hwl
      rw [rl]
      cases save <;> simp
    | false => simp [readLayers]
  rw [hlast]

theorem read_written [FloorRing K] {c : FloatCodec K} (hc : c.Nearest) {L : Codecs}
    (h1 : L.zlib.Lossless) (h2 : L.lzma.Lossless) (nan : Int) {comp : List Char}
    (save load : Bool) (numMeta : Nat) {t : DType} (ht : t ∈ dtypes) (s : Surf K)
    (hwf : s.raw.data.WF) (hl : ∀ l ∈ s.layers, l.Good) (hnd : (s.layers.map Layer.name).Nodup)
    {b : Bytes} (hw : writeSflz c L nan comp save numMeta t s = .ok b) (post : Bytes) :
    ∃ sx sy lo' hi',
      readSflz L load ⟨b ++ post, 0⟩ = .ok
        ⟨⟨Container.map (back c nan t (propmin (Container.flat s.raw.data))
          (propmax (Container.flat s.raw.data)) lo' hi') s.raw.data, sx, sy⟩,
          if save ∧ load then s.layers else []⟩ ∧
      Nearest true s.raw.stepX sx ∧ Nearest true s.raw.stepY sy ∧
      (t.kind ≠ .float → StoredOpt (propmin (Container.flat s.raw.data)) lo' ∧
        StoredOpt (propmax (Container.flat s.raw.data)) hi') := by
  have h := read_written_as hc h1 h2 nan save load numMeta Layer.name ht s hwf (fun l h => (hl l h).as) hnd hw post
  have e : (s.layers.map fun l : Layer => { l with name := Layer.name l }) = s.layers := List.map_id _
  rw [e] at h
  exact h

end Sflz
end Surfalize
