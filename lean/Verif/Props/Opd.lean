import Verif.Lemmas.Opd
/-!
# C66, C67: OPD files

`OpdSpec.file` gives the bytes of a file from its blocks. Heights are stored in units of wavelength / Mult nm, the
steps in mm; the arrays are stored column by column, in each column from bottom to top.
-/
set_option linter.unusedSectionVars false
set_option maxRecDepth 20000
namespace Surfalize
namespace Props
open FileArr LayoutM OpdSpec Opd Gwy

variable {K : Type} [Field K] [LinearOrder K]

/-- Reading the directory. -/
theorem opd_directory (parse : List Char → Except Err Unit) (enc : Encoding) {blocks : List OpdSpec.Block}
    (hv : Valid blocks) (extra : Bytes) :
    ∃ d p, List.Forall₂ (fun b e => e.1 = b.name ∧ At (file blocks ++ extra) b.content e.2) blocks d ∧
      ∀ images, readOpd (K := K) parse enc images ⟨file blocks ++ extra, 0⟩ =
        fromBlocks parse enc images d ⟨file blocks ++ extra, p⟩ := by
  have hn : (utf8 "Directory".toList).length ≤ 16 := by decide
  have hp : Plain "Directory".toList := by unfold Plain; decide
  set D := entry "Directory".toList 1 (24 * (blocks.length + 1)) 0 with hD
  set C := blocks.flatMap (fun b => content b.content) ++ extra with hC
  have e1 : file blocks ++ extra = [1, 0] ++ (D ++ (blocks.flatMap entryOf ++ C)) := by
    rw [hC, hD]
    simp only [file, List.append_assoc]
    rfl
  refine ⟨offsets (((([1, 0] ++ D) ++ blocks.flatMap entryOf : Bytes).length : Nat) : Int) (blocks.map defOf),
    ((([1, 0] ++ D) ++ blocks.flatMap entryOf : Bytes).length), ?_, ?_⟩
  · have := offsets_at extra blocks (([1, 0] ++ D) ++ blocks.flatMap entryOf)
    rw [e1]
    simpa only [hC, List.append_assoc] using this
  · intro images
    unfold readOpd
    have m1 : ((⟨file blocks ++ extra, 0⟩ : Handle).read magic.length).1 = magic := by
      have : file blocks ++ extra = magic ++ ((D.drop 9) ++ (blocks.flatMap entryOf ++ C)) := by
        rw [e1]
        unfold magic
        rw [show utf8 "Directory".toList = D.take 9 by
          rw [hD]; unfold entry
          rw [List.append_assoc, List.append_assoc, List.append_assoc, List.take_append_of_le_length (by decide)]
          rfl]
        rw [List.append_assoc, ← List.append_assoc (D.take 9), List.take_append_drop]
      rw [this]
      simp [Handle.read]
    rw [if_neg (by rw [m1]; simp)]
    have s1 : (⟨file blocks ++ extra, 0⟩ : Handle).seek 2 = here [1, 0] (D ++ (blocks.flatMap entryOf ++ C)) := by
      rw [e1]; rfl
    rw [s1, hD, readDef_here enc hn hp (by decide) (show kindOf ((1 : Nat) : Int) = .ok .directory from rfl) hv.total]
    dsimp only
    rw [if_neg (by simp)]
    have hcount : (((24 * (blocks.length + 1) : Nat) : Int).toNat / 24 - 1) = blocks.length := by
      rw [Int.toNat_natCast, Nat.mul_div_cancel_left _ (by decide)]
      rfl
    rw [hcount, readDefs_here enc blocks [] _ C hv.short hv.sizes (by simpa using hv.names)]
    dsimp only
    rw [List.nil_append]
    rw [← hD]
    congr 1
    rw [e1]
    simp [here]

/-- **C66, C67** for OPD files: for every file with a measurement and a sensible header the reader gives the heights in
µm, the steps in µm and marks exactly the invalid points. -/
theorem C66_opd [IsStrictOrderedRing K] {parse : List Char → Except Err Unit} (enc : Encoding) {blocks : List OpdSpec.Block}
    (hv : Valid blocks) (hd : Dated parse blocks) (extra : Bytes)
    {nx ny w : Nat} {items : Bytes} (hraw : find blocks "RAW_DATA" = some (.array nx ny w items))
    {wavelength mult pixel aspect : K}
    (h1 : Param K blocks "Wavelength" wavelength) (h2 : Param K blocks "Mult" mult) (hmult : mult ≠ 0)
    (h3 : Param K blocks "Pixel_size" pixel) (h4 : Param K blocks "Aspect" aspect) :
    ∃ r : Raw K, readOpd parse enc false ⟨file blocks ++ extra, 0⟩ = .ok (r, none) ∧
      r.data.WF ∧ r.data.nx = nx ∧ r.data.ny = ny ∧
      r.stepX = pixel * 1000 ∧ r.stepY = pixel * 1000 * aspect ∧
      ∀ i j, i < ny → j < nx →
        let x := item K w ((items.drop ((j * ny + (ny - 1 - i)) * w)).take w)
        (r.data.get i j = none ↔ x = none ∨ ∃ v, x = some v ∧ Invalid K w v) ∧
        ∀ z, r.data.get i j = some z → ∃ v, x = some v ∧ z = v * (wavelength / 1000 / mult) := by
  obtain ⟨d, p, k1, k2⟩ := opd_directory (K := K) parse enc hv extra
  rw [k2]
  have hl := lookup_at k1 "RAW_DATA"
  rw [hraw] at hl
  obtain ⟨b, hb, hat⟩ := hl
  have hfits : Fits (.array nx ny w items) := by
    unfold find at hraw
    rw [Option.map_eq_some_iff] at hraw
    obtain ⟨b', hb', e⟩ := hraw
    rw [← e]
    exact hv.fits _ (List.mem_of_find?_eq_some hb')
  obtain ⟨a, a1, a2, a3, a4, a5, a6⟩ := readData_at (K := K) hat hfits p
  unfold fromBlocks
  rw [hb]
  dsimp only
  rw [a1]
  dsimp only
  rw [show readImage K false d _ = .ok none from rfl]
  dsimp only
  rw [readAllMeta_at enc p k1 hv.fits]
  dsimp only
  rw [timestamp_ok hv.names hd]
  dsimp only
  unfold surface
  rw [param_ok hv.names h1, param_ok hv.names h2, param_ok hv.names h3, param_ok hv.names h4]
  dsimp only [Option.map_some]
  rw [show divide (some (wavelength * (10 ^ 3)⁻¹)) (some mult) = .ok (some (wavelength * (10 ^ 3)⁻¹ / mult)) by
    unfold divide
    dsimp only
    rw [if_neg hmult]
    rfl]
  dsimp only
  refine ⟨_, rfl, map_wf _ a3, a4, by rw [← a5]; exact map_ny _ _, by dsimp only; norm_num, by dsimp only; norm_num,
    fun i j hi hj => ?_⟩
  dsimp only
  rw [get_map_some a3 _ (by omega) (by omega) (a6 i j hi hj), a2]
  generalize item K w _ = x
  cases x with
  | none => simp [height]
  | some v =>
    have hinv : ((w = 2 ∧ v = 32767) ∨ (w = 4 ∧ v = (invalidFloat : K))) ↔ Invalid K w v := by
      unfold Invalid invalidFloat
      norm_num
    by_cases hi : Invalid K w v
    · rw [show height w (some (wavelength * (10 ^ 3)⁻¹ / mult)) (some v) = none by
        unfold height; dsimp only; rw [if_pos (hinv.2 hi)]]
      simp [hi]
    · rw [show height w (some (wavelength * (10 ^ 3)⁻¹ / mult)) (some v) =
          some (v * (wavelength * (10 ^ 3)⁻¹ / mult)) by
        unfold height; dsimp only; rw [if_neg (fun h => hi (hinv.1 h))]]
      refine ⟨by simp [hi], fun z hz => ⟨v, rfl, ?_⟩⟩
      rw [← Option.some.inj hz]
      congr 2
      rw [div_eq_mul_inv]
      norm_num

/-- With images: the image, if there is one, has its own size and the stored values, arranged like the heights; the
surface is the same. -/
theorem C66_opd_image [IsStrictOrderedRing K] {parse : List Char → Except Err Unit} (enc : Encoding)
    {blocks : List OpdSpec.Block} (hv : Valid blocks) (extra : Bytes) {r : Raw K}
    (h : readOpd parse enc false ⟨file blocks ++ extra, 0⟩ = .ok (r, none)) :
    (find blocks "Image" = none → readOpd parse enc true ⟨file blocks ++ extra, 0⟩ = .ok (r, none)) ∧
    ∀ nx ny w items, find blocks "Image" = some (.array nx ny w items) →
      ∃ im, readOpd parse enc true ⟨file blocks ++ extra, 0⟩ = .ok (r, some im) ∧ im.nx = nx ∧ im.ny = ny ∧
        ∀ i j, i < ny → j < nx → im.get i j = item K w ((items.drop ((j * ny + (ny - 1 - i)) * w)).take w) := by
  obtain ⟨d, p, k1, k2⟩ := opd_directory (K := K) parse enc hv extra
  rw [k2] at h ⊢
  have hl := lookup_at k1 "Image"
  unfold fromBlocks at h ⊢
  cases hb : d.lookup "RAW_DATA".toList with
  | none => rw [hb] at h; cases h
  | some b =>
    rw [hb] at h
    dsimp only at h ⊢
    cases ha : b.readData K ⟨file blocks ++ extra, p⟩ with
    | error e => rw [ha] at h; cases h
    | ok a =>
      rw [ha] at h
      dsimp only at h ⊢
      rw [show readImage K false d _ = .ok none from rfl] at h
      dsimp only at h
      cases hm : readAllMeta K enc ⟨file blocks ++ extra, p⟩ d with
      | error e => rw [hm] at h; cases h
      | ok m =>
        rw [hm] at h
        dsimp only at h
        cases ht : timestamp parse m with
        | error e => rw [ht] at h; cases h
        | ok u =>
          rw [ht] at h
          dsimp only at h
          cases hs : surface a m with
          | error e => rw [hs] at h; cases h
          | ok r' =>
            rw [hs] at h
            cases h
            refine ⟨fun hn => ?_, fun nx ny w items hi => ?_⟩
            · rw [hn] at hl
              have : readImage K true d ⟨file blocks ++ extra, p⟩ = .ok none := by
                unfold readImage
                rw [if_pos rfl, hl]
              rw [this]
              dsimp only
              rw [ht]
              dsimp only
              rw [hs]
            · rw [hi] at hl
              obtain ⟨b2, hb2, hat⟩ := hl
              have hfits : Fits (.array nx ny w items) := by
                unfold find at hi
                rw [Option.map_eq_some_iff] at hi
                obtain ⟨b', hb', e⟩ := hi
                rw [← e]
                exact hv.fits _ (List.mem_of_find?_eq_some hb')
              obtain ⟨a', a1, a2, a3, a4, a5, a6⟩ := readData_at (K := K) hat hfits p
              have : readImage K true d ⟨file blocks ++ extra, p⟩ = .ok (some a'.data) := by
                unfold readImage
                rw [if_pos rfl, hb2]
                dsimp only
                rw [a1]
              rw [this]
              dsimp only
              rw [ht]
              dsimp only
              rw [hs]
              refine ⟨a'.data, rfl, a4, a5, fun i j hi hj => ?_⟩
              unfold Grid.get
              rw [a6 i j hi hj]
              rfl

/-! A file with four blocks. -/

/-- Two columns of three items, one of them invalid. -/
def opdExample : List OpdSpec.Block :=
  [⟨"Wavelength".toList, 0, .short 500⟩, ⟨"RAW_DATA".toList, 7, .array 2 3 2
      [1, 0, 2, 0, 3, 0, 255, 127, 5, 0, 255, 255]⟩,
   ⟨"Title".toList, 0, .text "a".toList⟩, ⟨"Mult".toList, 0, .long 100⟩,
   ⟨"Image".toList, 0, .array 1 2 1 [9, 8]⟩]

theorem opdExample_valid : Valid opdExample where
  names := by decide
  short := by unfold Plain opdExample; decide
  sizes := by decide
  fits := by
    intro b hb
    simp only [opdExample, List.mem_cons, List.not_mem_nil, or_false] at hb
    rcases hb with rfl | rfl | rfl | rfl | rfl
    · exact ⟨by decide, by decide⟩
    · exact ⟨by decide, by decide, by decide, by decide⟩
    · show Plain _
      unfold Plain
      decide
    · exact ⟨by decide, by decide⟩
    · exact ⟨by decide, by decide, by decide, by decide⟩
  total := by decide

example (parse : List Char → Except Err Unit) : ∃ r : Raw ℚ,
    readOpd parse .utf8 false ⟨file opdExample ++ [1, 2, 3], 0⟩ = .ok (r, none) ∧ r.data.nx = 2 ∧ r.data.ny = 3 ∧
      r.stepX = 1000 ∧ r.stepY = 1000 ∧ r.data.get 2 1 = none ∧ r.data.get 0 0 ≠ none ∧ r.data.get 0 1 ≠ none := by
  obtain ⟨r, h1, h2, h3, h4, h5, h6, h7⟩ := C66_opd (K := ℚ) (parse := parse) .utf8 opdExample_valid
    (show Dated parse opdExample from trivial) [1, 2, 3] (show find opdExample "RAW_DATA" = some _ from rfl)
    (wavelength := 500) (mult := 100) (pixel := 1) (aspect := 1) rfl rfl (by norm_num) rfl rfl
  refine ⟨r, h1, h3, h4, by rw [h5]; norm_num, by rw [h6]; norm_num, ?_, ?_, ?_⟩
  · rw [(h7 2 1 (by decide) (by decide)).1]
    exact Or.inr ⟨32767, by decide +kernel, Or.inl ⟨rfl, rfl⟩⟩
  · rw [Ne, (h7 0 0 (by decide) (by decide)).1]
    rintro (h | ⟨v, h, hi⟩)
    · revert h; decide +kernel
    · have : v = 3 := by
        have e : item ℚ 2 (List.take 2 (List.drop ((0 * 3 + (3 - 1 - 0)) * 2)
          [1, 0, 2, 0, 3, 0, 255, 127, 5, 0, 255, 255])) = some 3 := by decide +kernel
        rw [e] at h
        exact (Option.some.inj h).symm
      subst this
      rcases hi with ⟨-, h⟩ | ⟨h, -⟩
      · norm_num at h
      · cases h
  · rw [Ne, (h7 0 1 (by decide) (by decide)).1]
    rintro (h | ⟨v, h, hi⟩)
    · revert h; decide +kernel
    · have : v = -1 := by
        have e : item ℚ 2 (List.take 2 (List.drop ((1 * 3 + (3 - 1 - 0)) * 2)
          [1, 0, 2, 0, 3, 0, 255, 127, 5, 0, 255, 255])) = some (-1) := by decide +kernel
        rw [e] at h
        exact (Option.some.inj h).symm
      subst this
      rcases hi with ⟨-, h⟩ | ⟨h, -⟩
      · norm_num at h
      · cases h

/-- **C66** (damaged files). An array block is accepted only if the size announced for it in the directory is exactly
that of its own header and its items – for every block and every file: a larger or smaller announcement is
rejected as a corrupted file. -/
theorem C66_opd_array_size (b : Opd.Block) (h : Handle) (nx ny w : Nat)
    (hh : ∃ rest, h.buf.drop h.pos = natBytes false 2 nx ++ natBytes false 2 ny ++ natBytes false 2 w ++ rest)
    (hnx : nx < 2 ^ 16) (hny : ny < 2 ^ 16) (hw : w < 2 ^ 16) (hs : b.size ≠ 6 + nx * ny * w) :
    b.readArray K h = .error .corrupted := by
  obtain ⟨rest, hh⟩ := hh
  have e : (h.read 6).1 = natBytes false 2 nx ++ natBytes false 2 ny ++ natBytes false 2 w := by
    show (h.buf.drop h.pos).take 6 = _
    rw [hh, List.take_left' (by simp [natBytes_length])]
  have l : ∀ n, (natBytes false 2 n).length = 2 := fun n => natBytes_length false 2 n
  have t1 : (natBytes false 2 nx ++ natBytes false 2 ny ++ natBytes false 2 w).take 2 = natBytes false 2 nx := by
    rw [List.append_assoc, List.take_left' (l nx)]
  have t2 : ((natBytes false 2 nx ++ natBytes false 2 ny ++ natBytes false 2 w).drop 2).take 2 = natBytes false 2 ny := by
    rw [List.append_assoc, List.drop_left' (l nx), List.take_left' (l ny)]
  have t3 : (natBytes false 2 nx ++ natBytes false 2 ny ++ natBytes false 2 w).drop 4 = natBytes false 2 w := by
    rw [List.drop_left' (by simp [l])]
  unfold Opd.Block.readArray
  rw [e, if_neg (by simp [l]), t1, t2, t3, bytesNat_natBytes _ _ _ hnx, bytesNat_natBytes _ _ _ hny,
    bytesNat_natBytes _ _ _ hw]
  dsimp only
  rw [if_pos (by push_cast; omega)]

example : (⟨.array, 9, 0⟩ : Opd.Block).readArray ℚ ⟨[1, 0, 2, 0, 1, 0, 7, 8, 9], 0⟩ = .error .corrupted :=
  C66_opd_array_size _ _ 1 2 1 ⟨[7, 8, 9], by decide⟩ (by decide) (by decide) (by decide) (by decide)

/-- Two blocks of the same name in front of the heights. -/
def opdTwice : List OpdSpec.Block :=
  [⟨"Title".toList, 0, .text "abc".toList⟩, ⟨"Title".toList, 0, .text "de".toList⟩,
   ⟨"RAW_DATA".toList, 0, .array 1 1 1 [5]⟩]

/-- **C66** (limit of `Valid.names`). When two blocks have the same name, the contents of all later blocks are looked
for at the wrong place: this file is rejected although every block can be read. -/
theorem C66_opd_same_name (parse : List Char → Except Err Unit) :
    (opdTwice.map (·.name)).Nodup = False ∧
      readOpd (K := ℚ) parse .utf8 false ⟨file opdTwice, 0⟩ = .error .corrupted := by
  refine ⟨by simp [opdTwice], ?_⟩
  have h : ∀ x : Except Err (Raw ℚ × Option (Grid (Option ℚ))),
      (match x with | .error .corrupted => true | _ => false) = true → x = .error .corrupted := by
    intro x
    split <;> simp
  exact h _ (by rfl)

end Props
end Surfalize
