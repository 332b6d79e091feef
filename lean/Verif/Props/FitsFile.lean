import Verif.Lemmas.FitsFile
import Verif.Props.Fits
/-!
# FITS files by what their lines say (C66, C67)

These are the properties of Props/Fits.lean with the files described by Spec/FitsFile.lean alone.
-/
set_option linter.unusedSectionVars false
namespace Surfalize.Props
open Surfalize Gwy Fits FitsSpec FileArr LayoutM

variable {K : Type} [Field K] [LinearOrder K]

/-- The header of a file in which `cards` give the units, multiplicators and steps. -/
private theorem main_header (T : FloatText K) (enc : Encoding) (lines cards : List (List Char))
    (h : Main lines cards) (rest : Bytes) : ∃ (hd : Header K) (n : Nat),
      (∀ k t, Has cards k t → hd k = some (convert T t)) ∧
      readHeader T enc n (fun _ => none) ⟨ascii lines ++ rest, 0⟩ =
        .done (hd, ⟨ascii lines ++ rest, (ascii lines).length⟩) := by
  obtain ⟨after, hu, ha⟩ := h.upto
  obtain ⟨m, hm⟩ := h.blocks
  have hpos : m ≠ 0 := by
    rintro rfl
    obtain ⟨⟨e, hp, -⟩, -⟩ := hu
    rw [hp] at hm
    simp at hm
  obtain ⟨m, rfl⟩ := Nat.exists_eq_succ_of_ne_zero hpos
  obtain ⟨hd, h1, h2⟩ := readHeader_main T enc m lines cards after hm h.printable hu ha (fun _ => none) [] rest
  refine ⟨hd, m + 1, h1.1, ?_⟩
  simpa only [here, List.nil_append, List.length_nil] using h2

private theorem flatMap_bytes (us : List Ext) :
    (us.map (hduOf K)).flatMap Hdu.bytes = us.flatMap Ext.bytes := by
  rw [List.flatMap_map]
  rfl

/-- **C66/C67** for FITS files. A file with a complete header, in which no extension but the last fills its last
block, is read as the extension `HEIGHTS` (the last one of this name), with the units and multiplicators that
the last cards of these names give; points where the extension `MASK` is zero are not measured. The unit of
the x-direction is taken for both directions. -/
theorem C66_fits_file_partial [IsStrictOrderedRing K] {T : FloatText K} (hT : NoQuotes T) {U : Units.Text}
    (hU : UnitsSpec.Faithful U) (enc : Encoding) (lines cards : List (List Char)) (hmain : Main lines cards)
    (us : List Ext) (last heights : Ext) (mask : Option Ext)
    (hus : ∀ u ∈ us, u.Right ∧ u.data.length % 2880 ≠ 0) (hlast : last.Right)
    (hheights : ∃ l r, us ++ [last] = l ++ heights :: r ∧ heights.name = "HEIGHTS".toList ∧
      ∀ u ∈ r, u.name ≠ "HEIGHTS".toList)
    (hmask : match mask with
      | none => ∀ u ∈ us ++ [last], u.name ≠ "MASK".toList
      | some m => ∃ l r, us ++ [last] = l ++ m :: r ∧ m.name = "MASK".toList ∧
          (∀ u ∈ r, u.name ≠ "MASK".toList) ∧ heights.nx = m.nx ∧ heights.ny = m.ny)
    (ux uz : List Char) (ex ez : Int) (md mh dx dy : K)
    (h1 : ∃ t, Has cards "UnitMultiplicatorDeltas".toList t ∧ IsNum T t md)
    (h2 : ∃ t, Has cards "UnitMultiplicatorHeights".toList t ∧ IsNum T t mh)
    (h3 : ∃ t, Has cards "UNITX".toList t ∧ IsStr t ux) (h4 : FromUnit U ux ex)
    (h5 : ∃ t, Has cards "UNITZ".toList t ∧ IsStr t uz) (h6 : FromUnit U uz ez)
    (h7 : ∃ t, Has cards "DELTAX".toList t ∧ IsNum T t dx)
    (h8 : ∃ t, Has cards "DELTAY".toList t ∧ IsNum T t dy) :
    ∃ (N : Nat) (r : Raw K), (∀ n, N ≤ n →
        readFits T U enc n ⟨ascii lines ++ us.flatMap Ext.bytes ++ last.bytes, 0⟩ = .done r) ∧
      r.data.WF ∧ r.data.nx = heights.nx ∧ r.data.ny = heights.ny ∧
      r.stepX = dx * md * 10 ^ (ex + 6) ∧ r.stepY = dy * md * 10 ^ (ex + 6) ∧
      ∀ i j, i < heights.ny → j < heights.nx →
        ((∃ m, mask = some m ∧ m.num K i j = some 0) → r.data.get i j = none) ∧
        ((¬ ∃ m, mask = some m ∧ m.num K i j = some 0) →
          (∀ z, heights.num K i j = some z → r.data.get i j = some (z * mh * 10 ^ (ez + 6))) ∧
          (heights.num K i j = none → r.data.get i j = none)) := by
  obtain ⟨hd, n, hhd, hn⟩ := main_header T enc lines cards hmain (us.flatMap Ext.bytes ++ last.bytes)
  obtain ⟨t1, a1, b1⟩ := h1
  obtain ⟨t2, a2, b2⟩ := h2
  obtain ⟨t3, a3, b3⟩ := h3
  obtain ⟨t5, a5, b5⟩ := h5
  obtain ⟨t7, a7, b7⟩ := h7
  obtain ⟨t8, a8, b8⟩ := h8
  have key := C66_fits_partial (K := K) (T := T) hU enc (ascii lines) (us.map (hduOf K)) (hduOf K last)
    (hduOf K heights) (mask.map (hduOf K)) hd (ascii_prefix _ (by decide) _ hmain.magic)
    ⟨n, by rw [flatMap_bytes, hduOf_bytes, List.append_assoc]; exact hn⟩
    (by
      intro u hu
      obtain ⟨e, he, rfl⟩ := List.mem_map.1 hu
      exact ⟨described_of T hT enc e (hus e he).1, (hus e he).2⟩)
    (described_of T hT enc last hlast)
    (by
      obtain ⟨l, r, e, hn, hr⟩ := hheights
      refine ⟨l.map (hduOf K), r.map (hduOf K), ?_, hn, ?_⟩
      · rw [← List.map_singleton, ← List.map_append, e, List.map_append, List.map_cons]
      · intro u hu
        obtain ⟨x, hx, rfl⟩ := List.mem_map.1 hu
        exact hr x hx)
    (by
      cases mask with
      | none =>
        intro u hu
        rw [← List.map_singleton, ← List.map_append] at hu
        obtain ⟨x, hx, rfl⟩ := List.mem_map.1 hu
        exact hmask x hx
      | some m =>
        obtain ⟨l, r, e, hn, hr, hx, hy⟩ := hmask
        refine ⟨l.map (hduOf K), r.map (hduOf K), ?_, hn, ?_, hx, hy⟩
        · rw [← List.map_singleton, ← List.map_append, e, List.map_append, List.map_cons]
        · intro u hu
          obtain ⟨x, hx, rfl⟩ := List.mem_map.1 hu
          exact hr x hx)
    ux uz ex ez md mh dx dy (numAt_of T hd _ b1 (hhd _ _ a1)) (numAt_of T hd _ b2 (hhd _ _ a2))
    (by rw [hhd _ _ a3, convert_str T hT b3]) h4 (by rw [hhd _ _ a5, convert_str T hT b5]) h6
    (numAt_of T hd _ b7 (hhd _ _ a7)) (numAt_of T hd _ b8 (hhd _ _ a8))
  obtain ⟨N, r, k1, k2, k3, k4, k5, k6, k7⟩ := key
  rw [flatMap_bytes, hduOf_bytes] at k1
  refine ⟨N, r, k1, k2, k3, k4, k5, k6, fun i j hi hj => ?_⟩
  have hiff : (∃ m, mask.map (hduOf K) = some m ∧ m.at i j = some 0) ↔
      ∃ m, mask = some m ∧ m.num K i j = some 0 := by
    cases mask with
    | none => simp
    | some m => simp [hduOf_at]
  have := k7 i j hi hj
  rw [hiff] at this
  exact this

/-- **C67** (violated). If the heights fill their last block, the mask that follows them is not seen: every
point is read as measured, also where the mask says that it is not. -/
theorem C67_fits_file_mask_lost [IsStrictOrderedRing K] {T : FloatText K} (hT : NoQuotes T) {U : Units.Text}
    (hU : UnitsSpec.Faithful U) (enc : Encoding) (lines cards : List (List Char)) (hmain : Main lines cards)
    (heights mask : Ext) (hd1 : heights.Right) (hn1 : heights.name = "HEIGHTS".toList)
    (hfull : heights.data.length % 2880 = 0) (hd2 : mask.Right) (hsmall : mask.data.length < 2880)
    (hx : mask.data.head? ≠ some (UInt8.ofNat 'X'.toNat))
    (ux uz : List Char) (ex ez : Int) (md mh dx dy : K)
    (h1 : ∃ t, Has cards "UnitMultiplicatorDeltas".toList t ∧ IsNum T t md)
    (h2 : ∃ t, Has cards "UnitMultiplicatorHeights".toList t ∧ IsNum T t mh)
    (h3 : ∃ t, Has cards "UNITX".toList t ∧ IsStr t ux) (h4 : FromUnit U ux ex)
    (h5 : ∃ t, Has cards "UNITZ".toList t ∧ IsStr t uz) (h6 : FromUnit U uz ez)
    (h7 : ∃ t, Has cards "DELTAX".toList t ∧ IsNum T t dx)
    (h8 : ∃ t, Has cards "DELTAY".toList t ∧ IsNum T t dy) :
    ∃ (N : Nat) (r : Raw K), (∀ n, N ≤ n →
        readFits T U enc n ⟨ascii lines ++ (heights.bytes ++ mask.bytes), 0⟩ = .done r) ∧
      ∀ i j, i < heights.ny → j < heights.nx → ∀ z, heights.num K i j = some z →
        r.data.get i j = some (z * mh * 10 ^ (ez + 6)) := by
  obtain ⟨hd, n, hhd, hn⟩ := main_header T enc lines cards hmain (heights.bytes ++ mask.bytes)
  obtain ⟨t1, a1, b1⟩ := h1
  obtain ⟨t2, a2, b2⟩ := h2
  obtain ⟨t3, a3, b3⟩ := h3
  obtain ⟨t5, a5, b5⟩ := h5
  obtain ⟨t7, a7, b7⟩ := h7
  obtain ⟨t8, a8, b8⟩ := h8
  have hu : utf8 "XTENSION".toList = UInt8.ofNat 'X'.toNat :: utf8 "TENSION".toList := by decide +kernel
  exact C67_fits_mask_lost hU enc (ascii lines) (hduOf K heights) (hduOf K mask) hd
    (ascii_prefix _ (by decide) _ hmain.magic) ⟨n, hn⟩ (described_of T hT enc heights hd1) hn1 hfull
    (described_of T hT enc mask hd2)
    (by
      intro k hp
      show False
      have hlen : (mask.data ++ (hduOf K mask).padding).length ≤ 2880 := by
        unfold Hdu.padding
        show (mask.data ++ List.replicate ((2880 - mask.data.length % 2880) % 2880) 0).length ≤ 2880
        rw [List.length_append, List.length_replicate, Nat.mod_eq_of_lt hsmall]
        have := Nat.mod_le (2880 - mask.data.length) 2880
        omega
      rcases Nat.eq_zero_or_pos k with rfl | hk
      · rw [Nat.zero_mul, List.drop_zero] at hp
        have hp' := hp.trans (List.take_prefix _ _)
        rw [hu] at hp'
        change _ <+: mask.data ++ List.replicate ((2880 - mask.data.length % 2880) % 2880) 0 at hp'
        cases hd : mask.data with
        | nil =>
          rw [hd] at hp'
          simp at hp'
        | cons b bs =>
          rw [hd, List.cons_append, List.cons_prefix_cons] at hp'
          apply hx
          rw [hd, List.head?_cons, hp'.1]
      · change _ <+: ((mask.data ++ (hduOf K mask).padding).drop (k * 2880)).take 2880 at hp
        rw [List.drop_eq_nil_of_le (by
          have : 1 * 2880 ≤ k * 2880 := Nat.mul_le_mul_right _ hk
          omega), hu] at hp
        simp at hp)
    ux uz ex ez md mh dx dy (numAt_of T hd _ b1 (hhd _ _ a1)) (numAt_of T hd _ b2 (hhd _ _ a2))
    (by rw [hhd _ _ a3, convert_str T hT b3]) h4 (by rw [hhd _ _ a5, convert_str T hT b5]) h6
    (numAt_of T hd _ b7 (hhd _ _ a7)) (numAt_of T hd _ b8 (hhd _ _ a8))

/-! ## A case -/

/-- A card of 80 characters. -/
private def mk (key text : List Char) : List Char :=
  [] ++ (key ++ (List.replicate (8 - key.length) ' ' ++ '=' :: ([' '] ++ (text ++
    (List.replicate (70 - text.length - (key.length - 8)) ' ' ++ [])))))

private def mkLong (key text : List Char) : List Char :=
  "HIERARCH ".toList ++ (key ++ ([' '] ++ '=' :: ([' '] ++ (text ++
    (List.replicate (65 - text.length - key.length) ' ' ++ "/ x".toList)))))

private theorem blank_replicate (n : Nat) : Blank (List.replicate n ' ') := fun _ h => (List.mem_replicate.1 h).2

private theorem mk_says {key text : List Char} (hk : Name key) (ht : Val text) : Says (mk key text) (.card key text) :=
  Says.card [] key _ [' '] text _ [] (.inl rfl) hk (blank_replicate _) (blank_replicate 1) ht (blank_replicate _) (.inl rfl)

private theorem mkLong_says {key text : List Char} (hk : Name key) (ht : Val text) :
    Says (mkLong key text) (.card key text) :=
  Says.card _ key [' '] [' '] text _ _ (.inr rfl) hk (blank_replicate 1) (blank_replicate 1) ht (blank_replicate _)
    (.inr ⟨_, rfl⟩)

private def blankLine : List Char := List.replicate 80 ' '
private def endLine : List Char := "END".toList ++ List.replicate 77 ' '

/-- Cards as names, values and whether the name is long. -/
private abbrev Spec := List Char × List Char × Bool

private def lineOf (s : Spec) : List Char := if s.2.2 then mkLong s.1 s.2.1 else mk s.1 s.2.1

private def okSpec (s : Spec) : Prop := Name s.1 ∧ Val s.2.1

private theorem line_says {s : Spec} (h : okSpec s) : Says (lineOf s) (.card s.1 s.2.1) := by
  unfold lineOf
  split
  · exact mkLong_says h.1 h.2
  · exact mk_says h.1 h.2

private theorem has_of (b a : List (List Char)) (s : Spec) (hs : okSpec s) (ss : List Spec) (ha : a = ss.map lineOf)
    (hss : ∀ x ∈ ss, okSpec x ∧ x.1 ≠ s.1) : Has (b ++ lineOf s :: a) s.1 s.2.1 := by
  refine ⟨b, lineOf s, a, rfl, line_says hs, ?_⟩
  intro l hl t ht
  subst ha
  obtain ⟨x, hx, rfl⟩ := List.mem_map.1 hl
  exact (hss x hx).2 (says_key (line_says (hss x hx).1) ht)

/-- The second card for the step in the x-direction is in the second block. -/
private def block1 : List Spec := [("SIMPLE".toList, "T".toList, false), ("DELTAX".toList, "9".toList, false)]
private def block2 : List Spec := [("UnitMultiplicatorDeltas".toList, "1".toList, true),
  ("UnitMultiplicatorHeights".toList, "1".toList, true), ("UNITX".toList, "'mm'".toList, false),
  ("UNITZ".toList, "'um'".toList, false), ("DELTAX".toList, "2".toList, false), ("DELTAY".toList, "3".toList, false)]

private def mainCards : List (List Char) := block1.map lineOf ++ List.replicate 34 blankLine ++ block2.map lineOf
private def mainLines2 : List (List Char) := mainCards ++ endLine :: List.replicate 29 blankLine

private def extSpecs (name : String) : List Spec := [("XTENSION".toList, "'IMAGE'".toList, false),
  ("BITPIX".toList, "8".toList, false), ("NAXIS".toList, "2".toList, false), ("NAXIS1".toList, "2".toList, false),
  ("NAXIS2".toList, "1".toList, false), ("EXTNAME".toList, ("'" ++ name ++ "'").toList, false)]

private def extOf (name : String) (data : Bytes) : Ext :=
  ⟨(extSpecs name).map lineOf ++ endLine :: List.replicate 29 blankLine, name.toList, 2, 1, 8, data⟩

private theorem okSpec_of (s : Spec) (h : (s.1 ≠ [] ∧ (∀ c ∈ s.1, 32 < c.toNat ∧ c.toNat < 127 ∧ c ≠ '/' ∧ c ≠ '=') ∧
    ¬ "COMMENT".toList <+: s.1 ∧ ¬ "HIERARCH".toList <+: s.1) ∧
    (∀ c ∈ s.2.1, 32 ≤ c.toNat ∧ c.toNat < 127 ∧ c ≠ '/' ∧ c ≠ '=') ∧ s.2.1.head? ≠ some ' ' ∧
    s.2.1.getLast? ≠ some ' ') : okSpec s :=
  ⟨⟨h.1.1, h.1.2.1, h.1.2.2.1, h.1.2.2.2⟩, ⟨h.2.1, h.2.2.1, h.2.2.2⟩⟩

private theorem ok_all (l : List Spec) (h : ∀ s ∈ l, (s.1 ≠ [] ∧ (∀ c ∈ s.1, 32 < c.toNat ∧ c.toNat < 127 ∧ c ≠ '/' ∧ c ≠ '=') ∧
    ¬ "COMMENT".toList <+: s.1 ∧ ¬ "HIERARCH".toList <+: s.1) ∧
    (∀ c ∈ s.2.1, 32 ≤ c.toNat ∧ c.toNat < 127 ∧ c ≠ '/' ∧ c ≠ '=') ∧ s.2.1.head? ≠ some ' ' ∧
    s.2.1.getLast? ≠ some ' ') : ∀ s ∈ l, okSpec s := fun s hs => okSpec_of s (h s hs)

private theorem int_text (n : Nat) (t : List Char) (h : natText n = t) : IsInt t n := ⟨n, .inl ⟨h.symm, rfl⟩⟩

private theorem digit (n : Nat) (h : n < 10) : natText n = [Char.ofNat (n + 48)] := by rw [natText, if_pos h]

private theorem end_says : Says endLine .stop := Says.stop _ (blank_replicate 77)

private theorem ext_right (name : String) (data : Bytes) (hn : name = "HEIGHTS" ∨ name = "MASK")
    (hd : data.length = 2) : (extOf name data).Right := by
  have hok : ∀ s ∈ extSpecs name, okSpec s := by
    apply ok_all
    rcases hn with rfl | rfl <;> decide +kernel
  have hlines : Lines (extOf name data).lines := by
    rcases hn with rfl | rfl <;> (show Lines (List.map lineOf _ ++ _)) <;> unfold Lines <;> decide +kernel
  have hhas : ∀ (b : List Spec) (s : Spec) (a : List Spec), extSpecs name = b ++ s :: a → (∀ x ∈ a, x.1 ≠ s.1) →
      Has ((extSpecs name).map lineOf) s.1 s.2.1 := by
    intro b s a he hx
    rw [he, List.map_append, List.map_cons]
    refine has_of _ _ s (hok s (by rw [he]; simp)) a rfl fun x hx' => ⟨hok x (by rw [he]; simp [hx']), hx x hx'⟩
  refine ⟨by rcases hn with rfl | rfl <;> rfl, hlines, ?_, ?_, (by show (8 : Int) ∈ _; decide), by simp [extOf, Ext.size, hd]⟩
  · rcases hn with rfl | rfl <;> (show _ <+: (List.map lineOf _ ++ _).flatten) <;> decide +kernel
  · refine ⟨(extSpecs name).map lineOf, List.replicate 29 blankLine, ⟨⟨endLine, rfl, end_says⟩, ?_⟩, ?_, ?_, ?_, ?_, ?_⟩
    · intro l hl
      obtain ⟨s, hs, rfl⟩ := List.mem_map.1 hl
      exact .inr ⟨_, _, line_says (hok s hs)⟩
    · exact ⟨_, hhas (List.take 2 (extSpecs name)) _ (List.drop 3 (extSpecs name)) rfl
        (by rcases hn with rfl | rfl <;> decide +kernel), int_text 2 _ (digit 2 (by decide))⟩
    · exact ⟨_, hhas (List.take 3 (extSpecs name)) _ (List.drop 4 (extSpecs name)) rfl
        (by rcases hn with rfl | rfl <;> decide +kernel), int_text 2 _ (digit 2 (by decide))⟩
    · exact ⟨_, hhas (List.take 4 (extSpecs name)) _ (List.drop 5 (extSpecs name)) rfl
        (by rcases hn with rfl | rfl <;> decide +kernel), int_text 1 _ (digit 1 (by decide))⟩
    · exact ⟨_, hhas (List.take 1 (extSpecs name)) _ (List.drop 2 (extSpecs name)) rfl
        (by rcases hn with rfl | rfl <;> decide +kernel), int_text 8 _ (digit 8 (by decide))⟩
    · refine ⟨_, hhas (List.take 5 (extSpecs name)) _ (List.drop 6 (extSpecs name)) rfl
        (by rcases hn with rfl | rfl <;> decide +kernel), ⟨[], (fun _ h => by cases h), ?_⟩, ?_, ?_, ?_⟩
      · rcases hn with rfl | rfl <;> rfl
      · rcases hn with rfl | rfl <;> simp [extOf]
      · show ∀ c ∈ name.toList.head?, _
        rcases hn with rfl | rfl <;> decide
      · show ∀ c ∈ name.toList.getLast?, _
        rcases hn with rfl | rfl <;> decide

private theorem main_ok : Main mainLines2 mainCards := by
  have h1 : ∀ s ∈ block1, okSpec s := by apply ok_all; decide +kernel
  have h2 : ∀ s ∈ block2, okSpec s := by apply ok_all; decide +kernel
  refine ⟨?_, by decide +kernel, ⟨List.replicate 29 blankLine, ⟨⟨endLine, rfl, end_says⟩, ?_⟩, by decide⟩, by decide +kernel⟩
  · unfold Lines; decide +kernel
  · intro l hl
    rcases List.mem_append.1 hl with hl | hl
    · rcases List.mem_append.1 hl with hl | hl
      · obtain ⟨s, hs, rfl⟩ := List.mem_map.1 hl
        exact .inr ⟨_, _, line_says (h1 s hs)⟩
      · rw [(List.mem_replicate.1 hl).2]
        exact .inl (Says.blank _ (blank_replicate 80))
    · obtain ⟨s, hs, rfl⟩ := List.mem_map.1 hl
      exact .inr ⟨_, _, line_says (h2 s hs)⟩

private theorem main_has (b : List Spec) (s : Spec) (a : List Spec) (he : block2 = b ++ s :: a)
    (hx : ∀ x ∈ a, x.1 ≠ s.1) : Has mainCards s.1 s.2.1 := by
  have h2 : ∀ s ∈ block2, okSpec s := by apply ok_all; decide +kernel
  unfold mainCards
  rw [he, List.map_append, List.map_cons, ← List.append_assoc]
  refine has_of _ _ s (h2 s (by rw [he]; simp)) a rfl fun x hx' => ⟨h2 x (by rw [he]; simp [hx']), hx x hx'⟩

/-- A reader of floats that knows none; the numbers of the case are integers. -/
private def intsOnly : FloatText ℚ := ⟨fun _ => [], fun _ => .error .valueError⟩

/-- A file with two header blocks, two heights and a mask is read: one point is masked, the other is 7 µm high; the
steps 2 mm (the later card) and 3 mm become 2000 µm and 3000 µm. -/
example (U : Units.Text) (hU : UnitsSpec.Faithful U) :
    ∃ (N : Nat) (r : Raw ℚ), (∀ n, N ≤ n → readFits intsOnly U .utf8 n
        ⟨ascii mainLines2 ++ [extOf "HEIGHTS" [5, 7]].flatMap Ext.bytes ++ (extOf "MASK" [0, 1]).bytes, 0⟩ = .done r) ∧
      r.stepX = 2000 ∧ r.stepY = 3000 ∧ r.data.get 0 0 = none ∧ r.data.get 0 1 = some 7 := by
  have hx : FromUnit U "mm".toList (-3) := .inl ⟨"mm", .mm, by decide, by decide⟩
  have hz : FromUnit U "um".toList (-6) := .inl ⟨"um", .um, by decide, by decide⟩
  obtain ⟨N, r, hr, -, -, -, h5, h6, h7⟩ := C66_fits_file_partial (K := ℚ) (T := intsOnly) (fun s => ⟨_, rfl⟩) hU .utf8
    mainLines2 mainCards main_ok [extOf "HEIGHTS" [5, 7]] (extOf "MASK" [0, 1]) (extOf "HEIGHTS" [5, 7])
    (some (extOf "MASK" [0, 1]))
    (by
      intro u hu
      rw [List.mem_singleton] at hu
      subst hu
      exact ⟨ext_right _ _ (.inl rfl) rfl, by decide⟩)
    (ext_right _ _ (.inr rfl) rfl) ⟨[], [extOf "MASK" [0, 1]], rfl, rfl, by
      intro u hu
      rw [List.mem_singleton] at hu
      subst hu
      decide⟩
    ⟨[extOf "HEIGHTS" [5, 7]], [], rfl, rfl, by simp, rfl, rfl⟩ "mm".toList "um".toList (-3) (-6) 1 1 2 3
    ⟨_, main_has [] _ (block2.drop 1) rfl (by decide +kernel), .inl ⟨1, int_text 1 _ (digit 1 (by decide)), by norm_num⟩⟩
    ⟨_, main_has (block2.take 1) _ (block2.drop 2) rfl (by decide +kernel),
      .inl ⟨1, int_text 1 _ (digit 1 (by decide)), by norm_num⟩⟩
    ⟨_, main_has (block2.take 2) _ (block2.drop 3) rfl (by decide +kernel),
      ⟨[], (fun _ h => by cases h), rfl⟩, by decide, by decide, by decide⟩ hx
    ⟨_, main_has (block2.take 3) _ (block2.drop 4) rfl (by decide +kernel),
      ⟨[], (fun _ h => by cases h), rfl⟩, by decide, by decide, by decide⟩ hz
    ⟨_, main_has (block2.take 4) _ (block2.drop 5) rfl (by decide +kernel),
      .inl ⟨2, int_text 2 _ (digit 2 (by decide)), by norm_num⟩⟩
    ⟨_, main_has (block2.take 5) _ (block2.drop 6) rfl (by decide +kernel),
      .inl ⟨3, int_text 3 _ (digit 3 (by decide)), by norm_num⟩⟩
  refine ⟨N, r, hr, by rw [h5]; norm_num, by rw [h6]; norm_num, ?_, ?_⟩
  · exact (h7 0 0 (by decide) (by decide)).1 ⟨extOf "MASK" [0, 1], rfl, by decide +kernel⟩
  · rw [((h7 0 1 (by decide) (by decide)).2 (by
      rintro ⟨m, hm, h⟩
      cases hm
      revert h
      decide +kernel)).1 7 (by decide +kernel)]
    norm_num

end Surfalize.Props
