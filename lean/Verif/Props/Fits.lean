import Verif.Lemmas.FitsLayer
import Verif.Lemmas.GridFn
import Verif.Props.Units
/-!
# Properties of FITS files (C64, C66, C67)
-/
set_option linter.unusedSectionVars false
namespace Surfalize.Props
open Surfalize Gwy Fits FitsSpec FileArr LayoutM

variable {K : Type} [Field K] [LinearOrder K]

/-! ## C64: the reader does not always end -/

/-- **C64** for the header of FITS files. The loop over the header blocks ends exactly if one of the blocks
(those behind the end of the file are empty) has an `END` line or cannot be parsed. -/
theorem C64_fits_header (T : FloatText K) (enc : Encoding) (bytes : Bytes) (hd : Header K) :
    (∃ n, readHeader T enc n hd ⟨bytes, 0⟩ ≠ .more) ↔
      ∃ k, ¬ ∃ p, parseBytes T enc ((bytes.drop (k * 2880)).take 2880) = .ok (p, false) := by
  have h0 : (⟨bytes, 0⟩ : Handle) = ⟨bytes, blockPos bytes 0⟩ := by simp [blockPos]
  constructor
  · rintro ⟨n, hn⟩
    by_contra hc
    push Not at hc
    apply hn
    rw [h0]
    exact readHeader_endless T enc bytes hc n hd 0
  · rintro ⟨k, hk⟩
    obtain ⟨r, h1, h2⟩ := readHeader_ends T enc bytes k 0 hd (by rwa [Nat.zero_add])
    exact ⟨k + 1, by rw [h0, h2 (k + 1) (by omega)]; exact h1⟩

/-- Empty lines change nothing. -/
private theorem parseLines_blank (T : FloatText K) (hd : Header K) : ∀ n,
    parseLines T hd (List.replicate n []) = .ok (hd, false)
  | 0 => rfl
  | n + 1 => by
    rw [List.replicate_succ, parseLines, if_pos (.inl rfl)]
    exact parseLines_blank T hd n

private theorem parseBytes_nil (T : FloatText K) (enc : Encoding) :
    parseBytes T enc [] = .ok (fun _ => none, false) := by
  have h1 : decode enc [] = .ok [] := decode_utf8 enc []
  unfold parseBytes
  rw [h1]
  dsimp only
  unfold parseBlock
  rw [show linesOf [] = List.replicate 36 [] by decide]
  exact parseLines_blank T _ 36

/-- **C64** (violated). A file that is cut off within its header, so that no block has an `END` line, is never
finished reading. -/
theorem C64_fits_endless (T : FloatText K) (U : Units.Text) (enc : Encoding) (bytes : Bytes)
    (hm : utf8 "SIMPLE".toList <+: bytes)
    (h : ∀ k, k * 2880 < bytes.length →
      ∃ p, parseBytes T enc ((bytes.drop (k * 2880)).take 2880) = .ok (p, false)) (n : Nat) :
    readFits T U enc n ⟨bytes, 0⟩ = .more := by
  have hend : ∀ k, ∃ p, parseBytes T enc (block bytes k) = .ok (p, false) := by
    intro k
    rcases Nat.lt_or_ge (k * 2880) bytes.length with hk | hk
    · exact h k hk
    · refine ⟨fun _ => none, ?_⟩
      rw [show block bytes k = [] by
        unfold block blockSize
        rw [List.drop_eq_nil_of_le hk]; rfl]
      exact parseBytes_nil T enc
  have hl : (utf8 "SIMPLE".toList).length = 6 := by decide +kernel
  obtain ⟨rest, rfl⟩ := hm
  unfold readFits
  rw [if_neg]
  · have := readHeader_endless T enc _ hend n (fun _ => none) 0
    rw [show ((⟨utf8 "SIMPLE".toList ++ rest, 0⟩ : Handle).seek 0) =
      ⟨utf8 "SIMPLE".toList ++ rest, blockPos (utf8 "SIMPLE".toList ++ rest) 0⟩ by
        simp [blockPos, Handle.seek], this]
    rfl
  · have := here_read [] (utf8 "SIMPLE".toList) rest 6 hl
    simp only [here, List.nil_append, List.length_nil] at this
    rw [this]
    simp

/-- The first line of every FITS file. -/
private def simple : List Char := "SIMPLE  =                    T".toList

/-- The file that consists of this line is never finished reading. -/
theorem C64_fits_violated (T : FloatText K) (U : Units.Text) (enc : Encoding) (n : Nat) :
    readFits T U enc n ⟨utf8 simple, 0⟩ = .more := by
  have hu : utf8 simple = simple.map fun c => UInt8.ofNat c.toNat := utf8_ascii simple (by decide)
  apply C64_fits_endless
  · rw [hu]; decide +kernel
  · intro k hk
    have hlen : (utf8 simple).length = 30 := by rw [hu]; decide
    have hk0 : k = 0 := by
      by_contra hc
      have : 1 ≤ k := by omega
      omega
    subst hk0
    rw [show ((utf8 simple).drop (0 * 2880)).take 2880 = utf8 simple by
      rw [Nat.zero_mul, List.drop_zero, List.take_of_length_le (by omega)]]
    unfold parseBytes
    rw [decode_utf8]
    dsimp only
    unfold parseBlock
    rw [show linesOf simple = simple :: List.replicate 35 [] by decide +kernel]
    rw [parseLines, if_neg (by decide), if_neg (by decide)]
    rw [show splitEq (simple.takeWhile (· ≠ '/')) =
      .ok ("SIMPLE  ".toList, "                    T".toList) by rfl]
    exact ⟨_, parseLines_blank T _ 35⟩

/-- **C64** for the rest of FITS files: the loop over the extensions always ends. -/
theorem C64_fits_extensions (T : FloatText K) (enc : Encoding) (ls : Layers K) (h : Handle) (n : Nat)
    (hn : h.buf.length - h.pos + 1 ≤ n) : readLayers T enc n ls h ≠ .more :=
  readLayers_ends T enc n ls h hn

/-- **C64** (where it holds). A FITS file with a block that has an `END` line, or that cannot be parsed, is read
to the end: enough steps give a surface or an exception, which more steps do not change. -/
theorem C64_fits_partial (T : FloatText K) (U : Units.Text) (enc : Encoding) (bytes : Bytes)
    (h : ∃ k, ¬ ∃ p, parseBytes T enc ((bytes.drop (k * 2880)).take 2880) = .ok (p, false)) :
    ∃ N r, r ≠ .more ∧ ∀ n, N ≤ n → readFits T U enc n ⟨bytes, 0⟩ = r := by
  obtain ⟨k, hk⟩ := h
  obtain ⟨r, h1, h2⟩ := readHeader_ends T enc bytes k 0 (fun _ => none) (by rwa [Nat.zero_add])
  have h0 : (⟨bytes, 0⟩ : Handle).seek 0 = ⟨bytes, blockPos bytes 0⟩ := by simp [blockPos, Handle.seek]
  by_cases hm : ((⟨bytes, 0⟩ : Handle).read 6).1 ≠ utf8 "SIMPLE".toList
  · exact ⟨0, .fail .fileFormat, by simp, fun n _ => by unfold readFits; rw [if_pos hm]⟩
  · cases r with
    | more => exact absurd rfl h1
    | fail e =>
      refine ⟨k + 1, .fail e, by simp, fun n hn => ?_⟩
      unfold readFits
      rw [if_neg hm, h0, h2 n hn]
      rfl
    | done a =>
      have hbuf := readHeader_buf T enc _ _ _ _ (h2 (k + 1) (le_refl _))
      have hb : a.2.buf.length - a.2.pos + 1 ≤ bytes.length + 1 := by
        rw [hbuf]; dsimp only; omega
      have hne := readLayers_ends T enc (bytes.length + 1) (fun _ => none) a.2 hb
      refine ⟨max (k + 1) (bytes.length + 1),
        (readLayers T enc (bytes.length + 1) (fun _ => none) a.2).bind fun s =>
          Run.lift (fromLayers U a.1 s.1), ?_, fun n hn => ?_⟩
      · cases hl : readLayers T enc (bytes.length + 1) (fun _ => none) a.2 with
        | more => exact absurd hl hne
        | fail e => simp [Run.bind]
        | done s =>
          rw [bind_done]
          cases fromLayers U a.1 s.1 <;> simp [Run.lift]
      · unfold readFits
        rw [if_neg hm, h0, h2 n (by omega), bind_done,
          readLayers_steps T enc _ _ _ n (by omega : bytes.length + 1 ≤ n) hne]

/-! ## C66: heights and steps -/

private theorem get_gridOf (u : Hdu K) (i j : Nat) (hi : i < u.ny) (hj : j < u.nx) :
    (gridOf u).get i j = u.at i j := by
  unfold Grid.get gridOf
  simp [hi, hj]

private theorem gridOf_ny (u : Hdu K) : (gridOf u).ny = u.ny := by simp [gridOf, Grid.ny]

private theorem gridOf_wf (u : Hdu K) : (gridOf u).WF := by
  intro r hr
  obtain ⟨i, -, rfl⟩ := List.mem_map.1 hr
  simp [gridOf]

private theorem applyMask_none (g : Grid (Option K)) : applyMask g none = .ok g := rfl

private theorem applyMask_some (u m : Hdu K) (hx : u.nx = m.nx) (hy : u.ny = m.ny) :
    ∃ g, applyMask (gridOf u) (some (gridOf m)) = .ok g ∧ g.WF ∧ g.nx = u.nx ∧ g.ny = u.ny ∧
      ∀ i j, i < u.ny → j < u.nx →
        g.get i j = if m.at i j = some 0 then none else u.at i j := by
  refine ⟨_, if_pos ⟨by rw [gridOf_ny, gridOf_ny, hy], hx⟩, ?_, rfl, ?_, ?_⟩
  · intro r hr
    dsimp only [gridOf] at hr ⊢
    rw [List.mem_iff_getElem] at hr
    obtain ⟨i, hi, rfl⟩ := hr
    simp [maskRow, hx]
  · simp [gridOf, Grid.ny, hy]
  · intro i j hi hj
    have hi' : i < m.ny := by omega
    have hj' : j < m.nx := by omega
    simp [Grid.get, gridOf, maskRow, hi, hi', hj, hj']

private theorem header_steps (T : FloatText K) (enc : Encoding) : ∀ m hd' h',
    readHeader T enc m hd' h' ≠ .more → ∀ m', m ≤ m' →
      readHeader T enc m' hd' h' = readHeader T enc m hd' h' := by
  intro m
  induction m with
  | zero => intro hd' h' hne; exact absurd (by rw [readHeader]) hne
  | succ m ih =>
    intro hd' h' hne m' hm'
    obtain ⟨m', rfl⟩ : ∃ k, m' = k + 1 := ⟨m' - 1, by omega⟩
    rw [readHeader] at hne ⊢
    conv_rhs => rw [readHeader]
    cases hp : parseBytes T enc (h'.read blockSize).1 with
    | error e => rfl
    | ok a =>
      obtain ⟨p, b⟩ := a
      rw [hp] at hne
      cases b with
      | true => rfl
      | false => exact ih _ _ hne m' (by omega)

private theorem magic_read (header rest : Bytes) (hm : utf8 "SIMPLE".toList <+: header) :
    ((⟨header ++ rest, 0⟩ : Handle).read 6).1 = utf8 "SIMPLE".toList := by
  have hl : (utf8 "SIMPLE".toList).length = 6 := by decide +kernel
  obtain ⟨r, hr⟩ := hm
  have := here_read [] (utf8 "SIMPLE".toList) (r ++ rest) 6 hl
  simp only [here, List.nil_append, List.length_nil] at this
  rw [← hr, List.append_assoc, this]

/-- The numbers of a header that describe the surface. -/
private theorem fromLayers_values {U : Units.Text} (hU : UnitsSpec.Faithful U) (hd : Header K) (ls : Layers K)
    (ux uz : List Char) (ex ez : Int) (md mh dx dy : K)
    (h1 : numAt hd "UnitMultiplicatorDeltas" = .ok (some md))
    (h2 : numAt hd "UnitMultiplicatorHeights" = .ok (some mh))
    (h3 : hd "UNITX".toList = some (.str ux)) (h4 : FromUnit U ux ex)
    (h5 : hd "UNITZ".toList = some (.str uz)) (h6 : FromUnit U uz ez)
    (h7 : numAt hd "DELTAX" = .ok (some dx)) (h8 : numAt hd "DELTAY" = .ok (some dy))
    (g0 g : Grid (Option K)) (h9 : ls "HEIGHTS".toList = some g0)
    (h10 : applyMask g0 (ls "MASK".toList) = .ok g) :
    fromLayers U hd ls = .ok ⟨Container.map (Option.map (· * (mh * 10 ^ (ez + 6)))) g,
      dx * (md * 10 ^ (ex + 6)), dy * (md * 10 ^ (ex + 6))⟩ := by
  have hum : ToUnit U "um".toList (-6) := .inl ⟨"um", .um, by decide, by decide⟩
  have cx := (C56_conversion_partial (K := K) hU ux "um".toList).1 ex (-6) h4 hum
  have cz := (C56_conversion_partial (K := K) hU uz "um".toList).1 ez (-6) h6 hum
  rw [sub_neg_eq_add] at cx cz
  have fx : factorOf U hd "UnitMultiplicatorDeltas" "UNITX" = .ok (md * 10 ^ (ex + 6)) := by
    unfold factorOf
    rw [h1, show strAt hd "UNITX" = .ok ux by unfold strAt; rw [h3]]
    dsimp only
    rw [cx]
  have fz : factorOf U hd "UnitMultiplicatorHeights" "UNITZ" = .ok (mh * 10 ^ (ez + 6)) := by
    unfold factorOf
    rw [h2, show strAt hd "UNITZ" = .ok uz by unfold strAt; rw [h5]]
    dsimp only
    rw [cz]
  have sx : ∀ f : K, stepAt hd "DELTAX" f = .ok (dx * f) := by
    intro f; unfold stepAt; rw [h7]
  have sy : ∀ f : K, stepAt hd "DELTAY" f = .ok (dy * f) := by
    intro f; unfold stepAt; rw [h8]
  unfold fromLayers
  rw [h9]
  dsimp only
  rw [h10]
  dsimp only
  rw [fx, fz]
  dsimp only
  rw [sx, sy]

/-- **C66/C67** for FITS files. A file with a complete header, in which no extension but the last fills its last
block, is read as the extension `HEIGHTS` (the last one of this name), with the units and multiplicators of the
header; points where the extension `MASK` is zero are not measured. The unit of the x-direction is taken
for both directions. -/
theorem C66_fits_partial [IsStrictOrderedRing K] {T : FloatText K} {U : Units.Text} (hU : UnitsSpec.Faithful U)
    (enc : Encoding) (header : Bytes) (us : List (Hdu K)) (last heights : Hdu K) (mask : Option (Hdu K)) (hd : Header K)
    (hm : utf8 "SIMPLE".toList <+: header)
    (hh : ∃ n, readHeader T enc n (fun _ => none) ⟨header ++ us.flatMap Hdu.bytes ++ last.bytes, 0⟩ =
      .done (hd, ⟨header ++ us.flatMap Hdu.bytes ++ last.bytes, header.length⟩))
    (hus : ∀ u ∈ us, u.Described T enc ∧ u.data.length % 2880 ≠ 0) (hlast : last.Described T enc)
    (hheights : ∃ l r, us ++ [last] = l ++ heights :: r ∧ heights.name = "HEIGHTS".toList ∧
      ∀ u ∈ r, u.name ≠ "HEIGHTS".toList)
    (hmask : match mask with
      | none => ∀ u ∈ us ++ [last], u.name ≠ "MASK".toList
      | some m => ∃ l r, us ++ [last] = l ++ m :: r ∧ m.name = "MASK".toList ∧
          (∀ u ∈ r, u.name ≠ "MASK".toList) ∧ heights.nx = m.nx ∧ heights.ny = m.ny)
    (ux uz : List Char) (ex ez : Int) (md mh dx dy : K)
    (h1 : numAt hd "UnitMultiplicatorDeltas" = .ok (some md))
    (h2 : numAt hd "UnitMultiplicatorHeights" = .ok (some mh))
    (h3 : hd "UNITX".toList = some (.str ux)) (h4 : FromUnit U ux ex)
    (h5 : hd "UNITZ".toList = some (.str uz)) (h6 : FromUnit U uz ez)
    (h7 : numAt hd "DELTAX" = .ok (some dx)) (h8 : numAt hd "DELTAY" = .ok (some dy)) :
    ∃ (N : Nat) (r : Raw K), (∀ n, N ≤ n →
        readFits T U enc n ⟨header ++ us.flatMap Hdu.bytes ++ last.bytes, 0⟩ = .done r) ∧
      r.data.WF ∧ r.data.nx = heights.nx ∧ r.data.ny = heights.ny ∧
      r.stepX = dx * md * 10 ^ (ex + 6) ∧ r.stepY = dy * md * 10 ^ (ex + 6) ∧
      ∀ i j, i < heights.ny → j < heights.nx →
        ((∃ m, mask = some m ∧ m.at i j = some 0) → r.data.get i j = none) ∧
        ((¬ ∃ m, mask = some m ∧ m.at i j = some 0) →
          (∀ z, heights.at i j = some z → r.data.get i j = some (z * mh * 10 ^ (ez + 6))) ∧
          (heights.at i j = none → r.data.get i j = none)) := by
  generalize hbuf : header ++ us.flatMap Hdu.bytes ++ last.bytes = buf at hh ⊢
  obtain ⟨n0, hn0⟩ := hh
  -- the layers
  have fold_keep : ∀ (vs : List (Hdu K)) (ls : Layers K) (x : List Char), (∀ u ∈ vs, u.name ≠ x) →
      (vs.foldl (fun ls u => ls.put u.name (gridOf u)) ls) x = ls x := by
    intro vs
    induction vs with
    | nil => intro ls x _; rfl
    | cons v vs ih =>
      intro ls x hx
      rw [List.foldl_cons, ih _ _ (fun u hu => hx u (by simp [hu]))]
      exact if_neg (fun he => hx v (by simp) he.symm)
  have fold_last : ∀ (l r : List (Hdu K)) (v : Hdu K) (ls : Layers K), (∀ u ∈ r, u.name ≠ v.name) →
      ((l ++ v :: r).foldl (fun ls u => ls.put u.name (gridOf u)) ls) v.name = some (gridOf v) := by
    intro l r v ls hr
    rw [List.foldl_append, List.foldl_cons, fold_keep _ _ _ hr]
    exact if_pos rfl
  obtain ⟨hend, hlayers⟩ := readLayers_all T enc last hlast us hus (us.length + 1) (fun _ => none) header (le_refl _)
  generalize hls : (us ++ [last]).foldl (fun ls u => Layers.put ls u.name (gridOf u)) (fun _ => none) = ls at hlayers
  have hH : ls "HEIGHTS".toList = some (gridOf heights) := by
    obtain ⟨l, r, e, hn, hr⟩ := hheights
    rw [← hls, e, ← hn]
    exact fold_last l r heights _ (fun u hu => by rw [hn]; exact hr u hu)
  obtain ⟨g, hg, hgw, hgx, hgy, hgv⟩ : ∃ g, applyMask (gridOf heights) (ls "MASK".toList) = .ok g ∧ g.WF ∧
      g.nx = heights.nx ∧ g.ny = heights.ny ∧ ∀ i j, i < heights.ny → j < heights.nx →
        ((∃ m, mask = some m ∧ m.at i j = some 0) → g.get i j = none) ∧
        ((¬ ∃ m, mask = some m ∧ m.at i j = some 0) → g.get i j = heights.at i j) := by
    cases mask with
    | none =>
      have hM : ls "MASK".toList = none := by
        rw [← hls, fold_keep _ _ _ hmask]
      refine ⟨gridOf heights, by rw [hM, applyMask_none], gridOf_wf _, rfl, gridOf_ny _, fun i j hi hj => ⟨?_, ?_⟩⟩
      · rintro ⟨m, hm, -⟩; cases hm
      · intro _; exact get_gridOf heights i j hi hj
    | some m =>
      obtain ⟨l, r, e, hn, hr, hx, hy⟩ := hmask
      have hM : ls "MASK".toList = some (gridOf m) := by
        rw [← hls, e, ← hn]
        exact fold_last l r m _ (fun u hu => by rw [hn]; exact hr u hu)
      obtain ⟨g, h1, h2, h3, h4, h5⟩ := applyMask_some heights m hx hy
      refine ⟨g, by rw [hM, h1], h2, h3, h4, fun i j hi hj => ⟨?_, ?_⟩⟩
      · rintro ⟨m', hm', hz⟩
        cases hm'
        rw [h5 i j hi hj, if_pos hz]
      · intro hno
        rw [h5 i j hi hj, if_neg fun hz => hno ⟨m, rfl, hz⟩]
  have hfrom := fromLayers_values hU hd ls ux uz ex ez md mh dx dy h1 h2 h3 h4 h5 h6 h7 h8 _ g hH hg
  -- putting it together
  have hhere : here header (us.flatMap Hdu.bytes ++ last.bytes) = ⟨buf, header.length⟩ := by
    rw [← hbuf]; simp [here]
  rw [hhere] at hlayers
  refine ⟨max n0 (us.length + 1), ⟨Container.map (Option.map (· * (mh * (10 : K) ^ (ez + 6)))) g, _, _⟩,
    fun n hn => ?_, ?_, ?_, ?_, rfl, rfl, ?_⟩
  · unfold readFits
    have hmagic : ((⟨buf, 0⟩ : Handle).read 6).1 = utf8 "SIMPLE".toList := by
      rw [← hbuf, List.append_assoc]
      exact magic_read header _ hm
    rw [if_neg (by rw [hmagic]; simp)]
    have e1 := header_steps T enc n0 (fun _ => none) ⟨buf, 0⟩ (by rw [hn0]; simp) n (by omega)
    have e2 := readLayers_steps T enc (fun _ => none) ⟨buf, header.length⟩ (us.length + 1) n (by omega)
      (by rw [hlayers]; simp)
    rw [show (⟨buf, 0⟩ : Handle).seek 0 = ⟨buf, 0⟩ from rfl, e1, hn0, bind_done]
    dsimp only
    rw [e2, hlayers, bind_done]
    dsimp only
    rw [hfrom]
    have a1 : dx * (md * 10 ^ (ex + 6)) = dx * md * 10 ^ (ex + 6) := by ring
    have a2 : dy * (md * 10 ^ (ex + 6)) = dy * md * 10 ^ (ex + 6) := by ring
    rw [a1, a2]
    rfl
  · exact map_wf _ hgw
  · exact hgx
  · show (Container.map _ g).ny = _
    rw [map_ny]; exact hgy
  · intro i j hi hj
    obtain ⟨v1, v2⟩ := hgv i j hi hj
    have hget : (Container.map (Option.map (· * (mh * (10 : K) ^ (ez + 6)))) g).get i j =
        (g.get i j).map (· * (mh * (10 : K) ^ (ez + 6))) := by
      rw [get_map]
    constructor
    · intro hz
      show (Container.map _ g).get i j = none
      rw [hget, v1 hz]; rfl
    · intro hz
      constructor
      · intro z hz'
        show (Container.map _ g).get i j = _
        rw [hget, v2 hz, hz', mul_assoc]; rfl
      · intro hz'
        show (Container.map _ g).get i j = _
        rw [hget, v2 hz, hz']; rfl

/-- **C66** (violated for the y-direction). The unit of the y-direction has no effect: whatever the header says,
the surface read is the same. -/
theorem C66_fits_unit_y_ignored (U : Units.Text) (hd : Header K) (ls : Layers K) (v : HVal K) :
    fromLayers U (hd.put "UNITY".toList v) ls = fromLayers U hd ls := by
  have h : ∀ x : String, x ≠ "UNITY" → (hd.put "UNITY".toList v) x.toList = hd x.toList := by
    intro x hx
    exact if_neg fun he => hx (String.toList_inj.1 he)
  have hnum : ∀ x : String, x ≠ "UNITY" → numAt (hd.put "UNITY".toList v) x = numAt hd x := by
    intro x hx; unfold numAt; rw [h x hx]
  have hstr : ∀ x : String, x ≠ "UNITY" → strAt (hd.put "UNITY".toList v) x = strAt hd x := by
    intro x hx; unfold strAt; rw [h x hx]
  unfold fromLayers factorOf stepAt
  rw [hnum "UnitMultiplicatorDeltas" (by decide), hnum "UnitMultiplicatorHeights" (by decide),
    hnum "DELTAX" (by decide), hnum "DELTAY" (by decide), hstr "UNITX" (by decide), hstr "UNITZ" (by decide)]

/-- **C67** (violated). If the heights fill their last block, the mask that follows them is not seen: every
point is read as measured, also where the mask says that it is not. -/
theorem C67_fits_mask_lost [IsStrictOrderedRing K] {T : FloatText K} {U : Units.Text} (hU : UnitsSpec.Faithful U)
    (enc : Encoding) (header : Bytes) (heights mask : Hdu K) (hd : Header K)
    (hm : utf8 "SIMPLE".toList <+: header)
    (hh : ∃ n, readHeader T enc n (fun _ => none) ⟨header ++ (heights.bytes ++ mask.bytes), 0⟩ =
      .done (hd, ⟨header ++ (heights.bytes ++ mask.bytes), header.length⟩))
    (hd1 : heights.Described T enc) (hn1 : heights.name = "HEIGHTS".toList)
    (hfull : heights.data.length % 2880 = 0) (hd2 : mask.Described T enc)
    (hx : ∀ k, ¬ utf8 "XTENSION".toList <+: ((mask.data ++ mask.padding).drop (k * 2880)).take 2880)
    (ux uz : List Char) (ex ez : Int) (md mh dx dy : K)
    (h1 : numAt hd "UnitMultiplicatorDeltas" = .ok (some md))
    (h2 : numAt hd "UnitMultiplicatorHeights" = .ok (some mh))
    (h3 : hd "UNITX".toList = some (.str ux)) (h4 : FromUnit U ux ex)
    (h5 : hd "UNITZ".toList = some (.str uz)) (h6 : FromUnit U uz ez)
    (h7 : numAt hd "DELTAX" = .ok (some dx)) (h8 : numAt hd "DELTAY" = .ok (some dy)) :
    ∃ (N : Nat) (r : Raw K), (∀ n, N ≤ n →
        readFits T U enc n ⟨header ++ (heights.bytes ++ mask.bytes), 0⟩ = .done r) ∧
      ∀ i j, i < heights.ny → j < heights.nx → ∀ z, heights.at i j = some z →
        r.data.get i j = some (z * mh * 10 ^ (ez + 6)) := by
  obtain ⟨n0, hn0⟩ := hh
  have hbytes : heights.bytes ++ mask.bytes = heights.bytes ++ (mask.head ++ (mask.data ++ mask.padding)) := by
    unfold Hdu.bytes; simp only [List.append_assoc]
  obtain ⟨hend, hlayers⟩ := readLayers_full T enc heights hd1 hfull
    ((mask.data ++ mask.padding).length + 2) (fun _ => none) header mask.head (mask.data ++ mask.padding) hd2.block
    hx (le_refl _)
  rw [← hbytes] at hlayers
  generalize hls : Layers.put (fun _ => none) heights.name (gridOf heights) = ls at hlayers
  have hH : ls "HEIGHTS".toList = some (gridOf heights) := by
    rw [← hls, ← hn1]; exact if_pos rfl
  have hM : ls "MASK".toList = none := by
    rw [← hls]
    exact if_neg (by rw [hn1]; decide)
  have hfrom := fromLayers_values hU hd ls ux uz ex ez md mh dx dy h1 h2 h3 h4 h5 h6 h7 h8 _ (gridOf heights) hH
    (by rw [hM, applyMask_none])
  refine ⟨max n0 ((mask.data ++ mask.padding).length + 2),
    ⟨Container.map (Option.map (· * (mh * (10 : K) ^ (ez + 6)))) (gridOf heights),
      dx * (md * 10 ^ (ex + 6)), dy * (md * 10 ^ (ex + 6))⟩, fun n hn => ?_, ?_⟩
  · unfold readFits
    rw [if_neg (by rw [magic_read header _ hm]; simp)]
    have e1 := header_steps T enc n0 (fun _ => none) _ (by rw [hn0]; simp) n (by omega)
    have e2 := readLayers_steps T enc (fun _ => none) (here header (heights.bytes ++ mask.bytes)) _ n
      (le_trans (le_max_right _ _) hn) (by rw [hlayers]; simp)
    rw [show (⟨header ++ (heights.bytes ++ mask.bytes), 0⟩ : Handle).seek 0 =
      ⟨header ++ (heights.bytes ++ mask.bytes), 0⟩ from rfl, e1, hn0, bind_done]
    dsimp only
    rw [show (⟨header ++ (heights.bytes ++ mask.bytes), header.length⟩ : Handle) =
      here header (heights.bytes ++ mask.bytes) from rfl, e2, hlayers, bind_done]
    dsimp only
    rw [hfrom]
    rfl
  · intro i j hi hj z hz
    show (Container.map _ (gridOf heights)).get i j = _
    rw [get_map, get_gridOf heights i j hi hj, hz, mul_assoc]
    rfl

/-! ## A case -/

/-- A header block of the given lines, each filled up to 80 characters. -/
def fitsBlock (lines : List String) : List Char :=
  ljust 2880 (lines.flatMap fun l => ljust 80 l.toList)

def fitsMainLines : List String :=
  ["SIMPLE  = T", "HIERARCH UnitMultiplicatorDeltas = 1 / factor", "HIERARCH UnitMultiplicatorHeights = 1",
   "UNITX   = 'mm'", "UNITZ   = 'um'", "DELTAX  = 2", "DELTAY  = 3", "END"]

def fitsExtLines (name bits : String) (nx ny : String) : List String :=
  ["XTENSION= 'IMAGE'", "BITPIX  = " ++ bits, "NAXIS   = 2", "NAXIS1  = " ++ nx, "NAXIS2  = " ++ ny,
   "EXTNAME = '" ++ name ++ "'", "END"]

/-- A reader of floats that knows none; the numbers of the case are integers. -/
def fitsNoFloats : FloatText ℚ := ⟨fun _ => [], fun _ => .error .valueError⟩

def fitsHeights : Hdu ℚ :=
  ⟨(fitsBlock (fitsExtLines "HEIGHTS" "8" "2" "1")).map fun c => UInt8.ofNat c.toNat, "HEIGHTS".toList, 2, 1, 1,
    fun b => some ((bytesInt false true 1 b : Int) : ℚ), [5, 7]⟩

private def exMask : Hdu ℚ :=
  ⟨(fitsBlock (fitsExtLines "MASK" "8" "2" "1")).map fun c => UInt8.ofNat c.toNat, "MASK".toList, 2, 1, 1,
    fun b => some ((bytesInt false true 1 b : Int) : ℚ), [0, 1]⟩

theorem fits_parse_ascii (T : FloatText K) (enc : Encoding) (s : List Char) (hs : ∀ c ∈ s, c.toNat < 128) :
    parseBytes T enc (s.map fun c => UInt8.ofNat c.toNat) = parseBlock T s := by
  rw [← utf8_ascii s hs]
  unfold parseBytes
  rw [decode_utf8]

/-- The header the lines describe. -/
def fitsHeaderOf (lines : List String) : Header ℚ :=
  match parseLines fitsNoFloats (fun _ => none) (lines.map String.toList) with
  | .ok (p, _) => p
  | .error _ => fun _ => none

theorem fitsHeights_described : fitsHeights.Described fitsNoFloats .utf8 := by
  refine ⟨by decide +kernel, by decide +kernel, ?_, by decide⟩
  refine ⟨fitsHeaderOf (fitsExtLines "HEIGHTS" "8" "2" "1"), true, 8, ?_, ?_, ?_, ?_, ?_, ?_, ?_⟩
  · show parseBytes fitsNoFloats .utf8 ((fitsBlock (fitsExtLines "HEIGHTS" "8" "2" "1")).map fun c => UInt8.ofNat c.toNat) = _
    rw [fits_parse_ascii _ _ _ (by decide +kernel)]
    unfold parseBlock
    rw [show linesOf (fitsBlock (fitsExtLines "HEIGHTS" "8" "2" "1")) =
      (fitsExtLines "HEIGHTS" "8" "2" "1").map String.toList ++ List.replicate 29 [] by decide +kernel]
    rfl
  all_goals rfl

private theorem exMask_described : exMask.Described fitsNoFloats .utf8 := by
  refine ⟨by decide +kernel, by decide +kernel, ?_, by decide⟩
  refine ⟨fitsHeaderOf (fitsExtLines "MASK" "8" "2" "1"), true, 8, ?_, ?_, ?_, ?_, ?_, ?_, ?_⟩
  · show parseBytes fitsNoFloats .utf8 ((fitsBlock (fitsExtLines "MASK" "8" "2" "1")).map fun c => UInt8.ofNat c.toNat) = _
    rw [fits_parse_ascii _ _ _ (by decide +kernel)]
    unfold parseBlock
    rw [show linesOf (fitsBlock (fitsExtLines "MASK" "8" "2" "1")) =
      (fitsExtLines "MASK" "8" "2" "1").map String.toList ++ List.replicate 29 [] by decide +kernel]
    rfl
  all_goals rfl

def fitsMainBytes : Bytes := (fitsBlock fitsMainLines).map fun c => UInt8.ofNat c.toNat

private theorem main_length : fitsMainBytes.length = 2880 := by decide +kernel

private theorem main_parsed : parseBytes fitsNoFloats .utf8 fitsMainBytes = .ok (fitsHeaderOf fitsMainLines, true) := by
  unfold fitsMainBytes
  rw [fits_parse_ascii _ _ _ (by decide +kernel)]
  unfold parseBlock
  rw [show linesOf (fitsBlock fitsMainLines) = fitsMainLines.map String.toList ++ List.replicate 28 [] by decide +kernel]
  rfl

private theorem main_magic : utf8 "SIMPLE".toList <+: fitsMainBytes := by decide +kernel

def fitsMainHeader : Header ℚ := Header.update (fun _ => none) (fitsHeaderOf fitsMainLines)

private theorem main_values : numAt fitsMainHeader "UnitMultiplicatorDeltas" = .ok (some 1) ∧
    numAt fitsMainHeader "UnitMultiplicatorHeights" = .ok (some 1) ∧
    numAt fitsMainHeader "DELTAX" = .ok (some 2) ∧ numAt fitsMainHeader "DELTAY" = .ok (some 3) ∧
    fitsMainHeader "UNITX".toList = some (.str "mm".toList) ∧ fitsMainHeader "UNITZ".toList = some (.str "um".toList) := by
  have h1 : fitsMainHeader "UnitMultiplicatorDeltas".toList = some (.int 1) := rfl
  have h2 : fitsMainHeader "UnitMultiplicatorHeights".toList = some (.int 1) := rfl
  have h3 : fitsMainHeader "DELTAX".toList = some (.int 2) := rfl
  have h4 : fitsMainHeader "DELTAY".toList = some (.int 3) := rfl
  unfold numAt
  rw [h1, h2, h3, h4]
  refine ⟨by norm_num, by norm_num, by norm_num, by norm_num, rfl, rfl⟩

private theorem read_one (T : FloatText K) (enc : Encoding) (hd p : Header K) (b rest : Bytes) (hb : b.length = 2880)
    (hp : parseBytes T enc b = .ok (p, true)) :
    readHeader T enc 1 hd ⟨b ++ rest, 0⟩ = .done (hd.update p, ⟨b ++ rest, b.length⟩) := by
  have h1 := here_read [] b rest blockSize hb
  simp only [here, List.nil_append, List.length_nil] at h1
  rw [readHeader, h1]
  dsimp only
  rw [hp]

theorem fits_main_read (rest : Bytes) : readHeader fitsNoFloats .utf8 1 (fun _ => none) ⟨fitsMainBytes ++ rest, 0⟩ =
      .done (fitsMainHeader, ⟨fitsMainBytes ++ rest, fitsMainBytes.length⟩) :=
  read_one fitsNoFloats .utf8 _ _ fitsMainBytes rest main_length main_parsed

/-- A file with a header, two heights and a mask is read: one point is masked, the other is 7 µm high; the steps
2 mm and 3 mm become 2000 µm and 3000 µm. -/
example (U : Units.Text) (hU : UnitsSpec.Faithful U) :
    ∃ (N : Nat) (r : Raw ℚ), (∀ n, N ≤ n → readFits fitsNoFloats U .utf8 n
        ⟨fitsMainBytes ++ [fitsHeights].flatMap Hdu.bytes ++ exMask.bytes, 0⟩ = .done r) ∧
      r.stepX = 2000 ∧ r.stepY = 3000 ∧ r.data.get 0 0 = none ∧ r.data.get 0 1 = some 7 := by
  have hx : FromUnit U "mm".toList (-3) := .inl ⟨"mm", .mm, by decide, by decide⟩
  have hz : FromUnit U "um".toList (-6) := .inl ⟨"um", .um, by decide, by decide⟩
  obtain ⟨N, r, hr, -, -, -, h5, h6, h7⟩ := C66_fits_partial (K := ℚ) (T := fitsNoFloats) hU .utf8 fitsMainBytes [fitsHeights] exMask fitsHeights
    (some exMask) fitsMainHeader main_magic
    ⟨1, by rw [List.append_assoc]; exact fits_main_read _⟩
    (by
      intro u hu
      rw [List.mem_singleton] at hu
      subst hu
      exact ⟨fitsHeights_described, by decide⟩)
    exMask_described ⟨[], [exMask], rfl, rfl, by
      intro u hu
      rw [List.mem_singleton] at hu
      subst hu
      decide⟩
    ⟨[fitsHeights], [], rfl, rfl, by simp, rfl, rfl⟩ "mm".toList "um".toList (-3) (-6) 1 1 2 3
    main_values.1 main_values.2.1 main_values.2.2.2.2.1 hx main_values.2.2.2.2.2 hz main_values.2.2.1
    main_values.2.2.2.1
  refine ⟨N, r, hr, by rw [h5]; norm_num, by rw [h6]; norm_num, ?_, ?_⟩
  · exact (h7 0 0 (by decide) (by decide)).1 ⟨exMask, rfl, by decide +kernel⟩
  · rw [((h7 0 1 (by decide) (by decide)).2 (by
      rintro ⟨m, hm, h⟩
      cases hm
      revert h
      decide +kernel)).1 7 (by decide +kernel)]
    norm_num

end Surfalize.Props
