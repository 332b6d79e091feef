import Verif.Model.Al3d
import Verif.Lemmas.FileFloat
import Verif.Lemmas.Text
/-! # Lemmas for C60 -/
set_option linter.unusedSectionVars false
namespace Surfalize
namespace Al3d
open LayoutM LayoutSpec FileArr Props

/-- A text that fills at most `n` bytes and does not end in NUL. -/
def Fits (n : Nat) (s : List Char) : Prop :=
  (utf8 s).length ≤ n ∧ ∀ c ∈ s.getLast?, c ≠ '\x00'

theorem utf8_nuls (n : Nat) : utf8 (List.replicate n '\x00') = List.replicate n 0 := by
  induction n with
  | zero => rfl
  | succ n ih =>
    rw [List.replicate_succ, List.replicate_succ, ← ih]
    rfl

theorem decode_padded (enc : Encoding) {n : Nat} {s : List Char} (h : Fits n s) :
    ∃ t, decode enc ((utf8 s).take n ++ List.replicate (n - (utf8 s).length) 0) = .ok t ∧
      stripNul t = s := by
  refine ⟨s ++ List.replicate (n - (utf8 s).length) '\x00', ?_, ?_⟩
  · rw [List.take_of_length_le h.1, ← utf8_nuls, ← utf8_append]
    unfold decode
    rw [utf8?_utf8]
  · unfold stripNul
    rw [rstrip_append_all _ _ _ (fun c hc => by simpa using (List.mem_replicate.1 hc).2)]
    exact rstrip_self _ _ fun c hc => by simpa using h.2 c hc

theorem padded_length {n : Nat} {s : List Char} :
    ((utf8 s).take n ++ List.replicate (n - (utf8 s).length) (0 : UInt8)).length = n := by
  simp; omega

theorem writeTag_length (k v : List Char) : (writeTag k v).length = 52 := by
  simp [writeTag]; omega

theorem readTag_at (enc : Encoding) {k v : List Char} (hk : Fits 20 k) (hv : Fits 30 v)
    (pre post : Bytes) :
    readTag enc ⟨pre ++ writeTag k v ++ post, pre.length⟩ =
      .ok ((k, v), ⟨pre ++ writeTag k v ++ post, pre.length + 52⟩) := by
  obtain ⟨tk, hk1, hk2⟩ := decode_padded enc hk
  obtain ⟨tv, hv1, hv2⟩ := decode_padded enc hv
  have hrd : (Handle.mk (pre ++ writeTag k v ++ post) pre.length).read 52 =
      (writeTag k v, ⟨pre ++ writeTag k v ++ post, pre.length + 52⟩) := by
    simp [Handle.read, List.append_assoc, writeTag_length]
  unfold readTag
  rw [hrd]
  dsimp only
  rw [if_neg (by simp [writeTag_length])]
  have e1 : (writeTag k v).take 20 = (utf8 k).take 20 ++ List.replicate (20 - (utf8 k).length) 0 := by
    unfold writeTag
    rw [List.append_assoc, List.take_append_of_le_length (by rw [padded_length]),
      List.take_of_length_le (by rw [padded_length])]
  have e2 : ((writeTag k v).drop 20).take 30 =
      (utf8 v).take 30 ++ List.replicate (30 - (utf8 v).length) 0 := by
    unfold writeTag
    rw [List.append_assoc, List.drop_append_of_le_length (by rw [padded_length]),
      List.drop_of_length_le (by rw [padded_length]), List.nil_append,
      List.take_append_of_le_length (by rw [padded_length]),
      List.take_of_length_le (by rw [padded_length])]
  have e3 : (writeTag k v).drop 50 = [13, 10] := by
    unfold writeTag
    have : ((utf8 k).take 20 ++ List.replicate (20 - (utf8 k).length) 0 ++
      ((utf8 v).take 30 ++ List.replicate (30 - (utf8 v).length) (0 : UInt8))).length = 50 := by
      rw [List.length_append, padded_length, padded_length]
    rw [List.drop_append_of_le_length (by rw [this]), List.drop_of_length_le (by rw [this]),
      List.nil_append]
  have e4 : decode enc [13, 10] = .ok ['\r', '\n'] := by
    have h : ([13, 10] : Bytes) = utf8 ['\r', '\n'] := by decide
    unfold decode
    rw [h, utf8?_utf8]
  rw [e1, e2, e3, hk1, hv1, e4]
  dsimp only
  rw [if_neg (by decide), hk2, hv2]

/-- The bytes of a list of tags. -/
def tagBytes (l : List (List Char × List Char)) : Bytes := l.flatMap fun kv => writeTag kv.1 kv.2

theorem tagBytes_length (l : List (List Char × List Char)) : (tagBytes l).length = 52 * l.length := by
  induction l with
  | nil => rfl
  | cons kv l ih =>
    have : tagBytes (kv :: l) = writeTag kv.1 kv.2 ++ tagBytes l := rfl
    rw [this, List.length_append, ih, writeTag_length, List.length_cons]; omega

theorem readTags_at (enc : Encoding) (l : List (List Char × List Char))
    (hl : ∀ kv ∈ l, Fits 20 kv.1 ∧ Fits 30 kv.2) (d : List (List Char × List Char))
    (pre post : Bytes) :
    readTags enc l.length d ⟨pre ++ tagBytes l ++ post, pre.length⟩ =
      .ok (l.reverse ++ d, ⟨pre ++ tagBytes l ++ post, pre.length + 52 * l.length⟩) := by
  induction l generalizing d pre with
  | nil => simp [readTags]
  | cons kv l ih =>
    have hcons : tagBytes (kv :: l) = writeTag kv.1 kv.2 ++ tagBytes l := rfl
    have h1 := readTag_at enc (hl kv (by simp)).1 (hl kv (by simp)).2 pre (tagBytes l ++ post)
    have h2 := ih (fun x hx => hl x (by simp [hx])) (kv :: d) (pre ++ writeTag kv.1 kv.2)
    have e1 : pre ++ tagBytes (kv :: l) ++ post =
        pre ++ writeTag kv.1 kv.2 ++ (tagBytes l ++ post) := by rw [hcons]; simp
    have e2 : pre ++ writeTag kv.1 kv.2 ++ tagBytes l ++ post =
        pre ++ writeTag kv.1 kv.2 ++ (tagBytes l ++ post) := by simp
    rw [List.length_cons, readTags, e1, h1]
    dsimp only
    rw [e2, List.length_append, writeTag_length] at h2
    rw [h2]
    simp only [List.reverse_cons, List.append_assoc, List.singleton_append, Except.ok.injEq,
      Prod.mk.injEq, Handle.mk.injEq, true_and]
    omega

variable {K : Type} [Field K] [LinearOrder K] [IsStrictOrderedRing K]

theorem fits_ascii {n : Nat} {s : List Char} (h1 : ∀ c ∈ s, 32 < c.toNat ∧ c.toNat < 128)
    (h2 : s.length ≤ n) : Fits n s := by
  refine ⟨?_, ?_⟩
  · rw [utf8_ascii s fun c hc => (h1 c hc).2]; simpa using h2
  · intro c hc h0
    have := (h1 c (List.mem_of_getLast? hc)).1
    rw [h0] at this
    revert this; decide

theorem fits_natText {n k : Nat} (h : (natText k).length ≤ n) : Fits n (natText k) :=
  fits_ascii (fun c hc => by have := isDigit_range (natText_digits k c hc); omega) h

theorem fits_tags {T : FloatText K} (hT : T.Faithful) (s : Raw K)
    (hx : (natText s.data.nx).length ≤ 30) (hy : (natText s.data.ny).length ≤ 30) :
    ∀ kv ∈ tags T s, Fits 20 kv.1 ∧ Fits 30 kv.2 := by
  have hr : ∀ x : K, Fits 30 (T.repr x) := fun x =>
    fits_ascii (fun c hc => by have := hT.ascii x c hc; omega) (le_trans (hT.short x) (by omega))
  have hn : ∀ k, k < 10 ^ 4 → Fits 30 (natText k) := fun k hk =>
    fits_natText (le_trans (natText_length_le 3 k hk) (by omega))
  intro kv hkv
  simp only [tags, List.mem_cons, List.not_mem_nil, or_false] at hkv
  have key : ∀ k : String, (∀ c ∈ k.toList, 32 < c.toNat ∧ c.toNat < 128) → k.toList.length ≤ 20 →
      Fits 20 k.toList := fun k h1 h2 => fits_ascii h1 h2
  rcases hkv with rfl | rfl | rfl | rfl | rfl | rfl | rfl | rfl | rfl | rfl | rfl
  · exact ⟨key _ (by decide) (by decide), hn _ (by omega)⟩
  · exact ⟨key _ (by decide) (by decide), hn _ (by omega)⟩
  · exact ⟨key _ (by decide) (by decide), fits_natText hx⟩
  · exact ⟨key _ (by decide) (by decide), hn _ (by omega)⟩
  · exact ⟨key _ (by decide) (by decide), hn _ (by omega)⟩
  · exact ⟨key _ (by decide) (by decide), fits_ascii (by decide) (by decide)⟩
  · exact ⟨key _ (by decide) (by decide), hr _⟩
  · exact ⟨key _ (by decide) (by decide), hr _⟩
  · exact ⟨key _ (by decide) (by decide), hn _ (by omega)⟩
  · exact ⟨key _ (by decide) (by decide), fits_natText hy⟩
  · exact ⟨key _ (by decide) (by decide), hn _ (by omega)⟩

/-- The bytes between the tags and the heights. -/
def pad : Bytes := List.replicate 254 0 ++ [13, 10]

theorem pad_length : pad.length = 256 := by
  unfold pad; rw [List.length_append, List.length_replicate]; rfl

theorem tags_length (T : FloatText K) (s : Raw K) : (tags T s).length = 11 := rfl

/-- Everything before the heights. -/
def head (T : FloatText K) (s : Raw K) : Bytes :=
  utf8 magic ++ tagBytes (tags T s) ++ pad

theorem head_length (T : FloatText K) (s : Raw K) : (head T s).length = 845 := by
  simp only [head, List.length_append, tagBytes_length, pad_length, tags_length]
  have : (utf8 magic).length = 17 := by decide
  rw [this]

theorem written_eq (c : FloatCodec K) (T : FloatText K) (s : Raw K) :
    writeAl3d c T s = head T s ++ writeArray (encFloat c false)
      ((Container.flat s.data).map fun z => z.map fun x => x * (10 ^ 6)⁻¹) := by
  have h : (utf8 magic ++ tagBytes (tags T s)).length = 589 := by
    rw [List.length_append, tagBytes_length, tags_length]
    have : (utf8 magic).length = 17 := by decide
    rw [this]
  have e : ((tags T s).flatMap fun kv => writeTag kv.1 kv.2) = tagBytes (tags T s) := rfl
  unfold writeAl3d head
  dsimp only
  rw [e, h]
  rfl

/-- What reading a written file gives. -/
theorem read_written (c : FloatCodec K) {T : FloatText K} (hT : T.Faithful)
    (enc : Encoding) (s : Raw K) (hwf : s.data.WF)
    (hx : (natText s.data.nx).length ≤ 30) (hy : (natText s.data.ny).length ≤ 30)
    {lx ly : K} (hlx : T.parse (T.repr (s.stepX * (10 ^ 6)⁻¹)) = .ok (.fin lx))
    (hly : T.parse (T.repr (s.stepY * (10 ^ 6)⁻¹)) = .ok (.fin ly)) (post : Bytes) :
    readAl3d c T enc ⟨writeAl3d c T s ++ post, 0⟩ = .ok
        ⟨Container.map (fun z => (decFloat K false (encFloat c false
          (z.map fun x => x * (10 ^ 6)⁻¹))).map fun y => y * 10 ^ 6) s.data,
          lx * 10 ^ 6, ly * 10 ^ 6⟩ := by
  rw [written_eq]
  set l := (Container.flat s.data).map fun z => z.map fun x => x * ((10 : K) ^ 6)⁻¹ with hl
  set arr := writeArray (encFloat c false) l with harr
  set B := head T s ++ arr ++ post with hB
  have hfit := fits_tags hT s hx hy
  -- the tags one by one
  obtain ⟨rest, hrest⟩ : ∃ rest, tags T s = ("Version".toList, natText 1) ::
      ("TagCount".toList, natText 9) :: rest ∧ rest.length = 9 := ⟨_, rfl, rfl⟩
  have hBeq : B = utf8 magic ++ writeTag "Version".toList (natText 1) ++
      (writeTag "TagCount".toList (natText 9) ++
        (tagBytes rest ++ (pad ++ (arr ++ post)))) := by
    rw [hB, head, hrest.1]
    simp [tagBytes]
  have hm : ((Handle.mk B 0).read 17) = (utf8 magic, ⟨B, 17⟩) := by
    have h17 : (utf8 magic).length = 17 := by decide
    have : B.take 17 = utf8 magic := by
      rw [hBeq, List.append_assoc, List.take_append_of_le_length (by rw [h17]),
        List.take_of_length_le (by rw [h17])]
    simp [Handle.read, this, h17]
  have hf1 := hfit ("Version".toList, natText 1) (by rw [hrest.1]; simp)
  have hf2 := hfit ("TagCount".toList, natText 9) (by rw [hrest.1]; simp)
  have h17 : (utf8 magic).length = 17 := by decide
  have t1 : readTag enc ⟨B, 17⟩ = .ok (("Version".toList, natText 1), ⟨B, 69⟩) := by
    have := readTag_at enc hf1.1 hf1.2 (utf8 magic) (writeTag "TagCount".toList (natText 9) ++
        (tagBytes rest ++ (pad ++ (arr ++ post))))
    rw [← hBeq, h17] at this
    exact this
  have t2 : readTag enc ⟨B, 69⟩ = .ok (("TagCount".toList, natText 9), ⟨B, 121⟩) := by
    have := readTag_at enc hf2.1 hf2.2 (utf8 magic ++ writeTag "Version".toList (natText 1))
        (tagBytes rest ++ (pad ++ (arr ++ post)))
    rw [List.append_assoc _ _ (tagBytes rest ++ _), ← hBeq, List.length_append, h17,
      writeTag_length] at this
    exact this
  have t3 := readTags_at enc rest (fun kv h => hfit kv (by rw [hrest.1]; simp [h]))
    [("TagCount".toList, natText 9), ("Version".toList, natText 1)]
    (utf8 magic ++ writeTag "Version".toList (natText 1) ++ writeTag "TagCount".toList (natText 9))
    (pad ++ (arr ++ post))
  have e3 : utf8 magic ++ writeTag "Version".toList (natText 1) ++
      writeTag "TagCount".toList (natText 9) ++ tagBytes rest ++
      (pad ++ (arr ++ post)) = B := by rw [hBeq]; simp
  rw [e3, hrest.2] at t3
  simp only [List.length_append, h17, writeTag_length] at t3
  have hrest' : rest = (tags T s).drop 2 := by rw [hrest.1]; rfl
  have hdict : rest.reverse ++ [("TagCount".toList, natText 9), ("Version".toList, natText 1)] =
      (tags T s).reverse := by rw [hrest.1]; simp
  rw [hdict] at t3
  have hdata := readArray_floats (c := c) false l (head T s) post 845 0 (by rw [head_length])
  rw [← harr, ← hB] at hdata
  have hlen : (l.length : Int) = (s.data.nx : Int) * s.data.ny := by
    rw [hl, List.length_map, flat_length _ hwf]; push_cast; ring
  rw [hlen] at hdata
  have hfw : Fmt.fw false = 4 := rfl
  rw [hfw] at hdata
  unfold readAl3d
  rw [hm]
  dsimp only
  rw [if_neg (by simp), t1]
  dsimp only
  rw [if_neg (by simp), t2]
  dsimp only
  rw [if_neg (by simp), intOf_natText]
  dsimp only
  have h9 : ((9 : Nat) : Int).toNat = 9 := rfl
  rw [h9, t3]
  dsimp only
  have l1 : lookInt (tags T s).reverse "Cols" = .ok (s.data.nx : Int) := intOf_natText _
  have l2 : lookInt (tags T s).reverse "Rows" = .ok (s.data.ny : Int) := intOf_natText _
  have l3 : lookNum T (tags T s).reverse "PixelSizeXMeter" = .ok (.fin lx) := hlx
  have l4 : lookNum T (tags T s).reverse "PixelSizeYMeter" = .ok (.fin ly) := hly
  have l5 : lookInt (tags T s).reverse "DepthImageOffset" = .ok ((845 : Nat) : Int) := intOf_natText _
  have l6 : lookNum T (tags T s).reverse "InvalidPixelValue" = .ok .nan := hT.nan
  rw [l1, l2, l3, l4, l5, l6]
  dsimp only
  rw [if_neg (by omega)]
  have hs : (Handle.mk B (17 + 52 + 52 + 52 * 9)).seek (((845 : Nat) : Int).toNat) = ⟨B, 845⟩ := rfl
  rw [hs, hdata]
  dsimp only
  rw [hl, List.map_map, reshape_map _ hwf]
  dsimp only
  simp only [Except.ok.injEq, Raw.mk.injEq, and_true]
  simp only [Container.map, Grid.mk.injEq, List.map_map, and_true]
  refine List.map_congr_left fun r _ => ?_
  simp only [Function.comp, List.map_map]
  refine List.map_congr_left fun z _ => ?_
  simp only [Function.comp]
  cases decFloat K false (encFloat c false (z.map fun x => x * ((10 : K) ^ 6)⁻¹)) <;>
    simp [height, invalidSingle]

end Al3d
end Surfalize
