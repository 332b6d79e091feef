import Verif.Model.FitsImages
import Verif.Props.Fits
/-!
# C104: image layers of FITS files
-/
set_option linter.unusedSectionVars false
namespace Surfalize.Props
open Surfalize Fits FileArr LayoutM FitsSpec Gwy

variable {K : Type} [Field K] [LinearOrder K]

/-! ## The dictionary in its order -/

theorem lookup_putAt (d : List (List Char × Grid (Option K))) (k : List Char) (g : Grid (Option K)) (x : List Char) :
    (putAt d k g).lookup x = if x = k then some g else d.lookup x := by
  induction d with
  | nil =>
    unfold putAt
    rw [List.lookup_cons]
    by_cases h : x = k
    · subst h; simp
    · rw [if_neg h, beq_false_of_ne h]
  | cons p d ih =>
    obtain ⟨a, b⟩ := p
    unfold putAt
    dsimp only
    by_cases ha : a = k
    · subst ha
      rw [if_pos rfl, List.lookup_cons, List.lookup_cons]
      by_cases h : x = a
      · subst h; simp
      · rw [if_neg h, beq_false_of_ne h]
    · rw [if_neg ha, List.lookup_cons, List.lookup_cons, ih]
      by_cases h : x = a
      · subst h
        simp [ha]
      · rw [beq_false_of_ne h]

theorem putAt_new {d : List (List Char × Grid (Option K))} {k : List Char} (g : Grid (Option K)) (h : k ∉ d.map Prod.fst) :
    putAt d k g = d ++ [(k, g)] := by
  induction d with
  | nil => rfl
  | cons p d ih =>
    rw [List.map_cons, List.mem_cons, not_or] at h
    unfold putAt
    rw [if_neg (fun e => h.1 e.symm), ih h.2]
    rfl

/-- The loop with the dictionary in its order is the loop of C66. -/
theorem readLayersL_lookup (T : FloatText K) (enc : Encoding) : ∀ (n : Nat) (ls : List (List Char × Grid (Option K))) (h : Handle),
    readLayers T enc n (fun x => ls.lookup x) h =
      match readLayersL T enc n ls h with
      | .more => .more
      | .fail e => .fail e
      | .done (l, h') => .done (fun x => l.lookup x, h')
  | 0, _, _ => rfl
  | n + 1, ls, h => by
    unfold readLayers readLayersL
    have hp : ∀ k g, Layers.put (fun x => ls.lookup x) k g = fun x => (putAt ls k g).lookup x := fun k g => by
      funext x
      rw [lookup_putAt]
      rfl
    split
    · cases readLayer T enc (h.read blockSize).1 (h.read blockSize).2 with
      | error e => rfl
      | ok a =>
        obtain ⟨⟨k, g⟩, h'⟩ := a
        dsimp only
        rw [hp]
        split
        · rfl
        · exact readLayersL_lookup T enc n _ _
    · split
      · rfl
      · exact readLayersL_lookup T enc n _ _

/-- **C104** (FITS, heights). Whatever is read with the image layers is read without them. -/
theorem C104_fits_heights (cap : List Char → List Char) (T : FloatText K) (U : Units.Text) (enc : Encoding) (images : Bool)
    (n : Nat) (h : Handle) (r : Raw K) (ims : List (List Char × Grid (Option K)))
    (hr : readFitsWith cap T U enc images n h = .done (r, ims)) :
    readFits T U enc n h = .done r ∧ readFitsWith cap T U enc false n h = .done (r, []) := by
  unfold readFitsWith at hr ⊢
  unfold readFits
  split at hr
  · cases hr
  · rename_i hm
    rw [if_neg hm, if_neg hm]
    cases hh : readHeader T enc n (fun _ => none) (h.seek 0) with
    | more => rw [hh] at hr; cases hr
    | fail e => rw [hh] at hr; cases hr
    | done a =>
      rw [hh] at hr
      dsimp only [Run.bind] at hr ⊢
      have hl := readLayersL_lookup T enc n [] a.2
      have h0 : (fun x => ([] : List (List Char × Grid (Option K))).lookup x) = fun _ => none := rfl
      rw [h0] at hl
      rw [hl]
      cases hs : readLayersL T enc n [] a.2 with
      | more => rw [hs] at hr; cases hr
      | fail e => rw [hs] at hr; cases hr
      | done s =>
        rw [hs] at hr
        dsimp only at hr ⊢
        cases hf : fromLayers U a.1 (fun x => s.1.lookup x) with
        | error e => rw [hf] at hr; cases hr
        | ok raw =>
          rw [hf] at hr
          dsimp only [Run.lift] at hr ⊢
          cases hr
          exact ⟨rfl, by simp⟩

/-- **C104** (FITS, default). Without the image layers the reader is the one of C66, with the same errors. -/
theorem C104_fits_default (cap : List Char → List Char) (T : FloatText K) (U : Units.Text) (enc : Encoding) (n : Nat) (h : Handle) :
    readFitsWith cap T U enc false n h = (readFits T U enc n h).bind fun r => .done (r, []) := by
  unfold readFitsWith readFits
  split
  · rfl
  · cases hh : readHeader T enc n (fun _ => none) (h.seek 0) with
    | more => rfl
    | fail e => rfl
    | done a =>
      dsimp only [Run.bind]
      have hl := readLayersL_lookup T enc n [] a.2
      have h0 : (fun x => ([] : List (List Char × Grid (Option K))).lookup x) = fun _ => none := rfl
      rw [h0] at hl
      rw [hl]
      cases hs : readLayersL T enc n [] a.2 with
      | more => rfl
      | fail e => rfl
      | done s =>
        dsimp only
        cases hf : fromLayers U a.1 (fun x => s.1.lookup x) <;> simp [Run.lift]

/-- **C104** (FITS). The image layers never make reading fail: they have been read anyway. -/
theorem C104_fits_always (cap : List Char → List Char) (T : FloatText K) (U : Units.Text) (enc : Encoding) (images : Bool)
    (n : Nat) (h : Handle) (r : Raw K) (hr : readFits T U enc n h = .done r) :
    ∃ ims, readFitsWith cap T U enc images n h = .done (r, ims) := by
  unfold readFits at hr
  unfold readFitsWith
  split at hr
  · cases hr
  · rename_i hm
    rw [if_neg hm]
    cases hh : readHeader T enc n (fun _ => none) (h.seek 0) with
    | more => rw [hh] at hr; cases hr
    | fail e => rw [hh] at hr; cases hr
    | done a =>
      rw [hh] at hr
      dsimp only [Run.bind] at hr ⊢
      have hl := readLayersL_lookup T enc n [] a.2
      have h0 : (fun x => ([] : List (List Char × Grid (Option K))).lookup x) = fun _ => none := rfl
      rw [h0] at hl
      rw [hl] at hr
      cases hs : readLayersL T enc n [] a.2 with
      | more => rw [hs] at hr; cases hr
      | fail e => rw [hs] at hr; cases hr
      | done s =>
        rw [hs] at hr
        dsimp only at hr ⊢
        cases hf : fromLayers U a.1 (fun x => s.1.lookup x) with
        | error e => rw [hf] at hr; cases hr
        | ok raw =>
          rw [hf] at hr
          dsimp only [Run.lift] at hr ⊢
          cases hr
          exact ⟨_, rfl⟩

/-! ## The extensions of a file -/

private theorem layersL_hdu (T : FloatText K) (enc : Encoding) (u : Hdu K) (hu : u.Described T enc)
    (hp : u.data.length % 2880 ≠ 0) (n : Nat) (ls : List (List Char × Grid (Option K))) (pre rest : Bytes) :
    readLayersL T enc (n + 1) ls (here pre (u.bytes ++ rest)) =
      if rest = [] then .done (putAt ls u.name (gridOf u), here (pre ++ u.bytes) rest)
      else readLayersL T enc n (putAt ls u.name (gridOf u)) (here (pre ++ u.bytes) rest) := by
  have h1 : (here pre (u.bytes ++ rest)).read blockSize =
      (u.head, here (pre ++ u.head) (u.data ++ (u.padding ++ rest))) := by
    unfold Hdu.bytes
    rw [List.append_assoc, List.append_assoc]
    exact here_read pre u.head _ blockSize hu.block
  rw [readLayersL, h1]
  dsimp only
  rw [if_pos (List.isPrefixOf_iff_prefix.2 hu.magic)]
  rw [readLayer_here T enc u hu]
  dsimp only
  rw [← padding_length u hp, here_skip]
  have h2 : here (pre ++ u.head ++ u.data ++ u.padding) rest = here (pre ++ u.bytes) rest := by
    unfold Hdu.bytes; simp only [List.append_assoc]
  rw [h2]
  by_cases hr : rest = []
  · rw [if_pos hr, if_pos (by simp [here, hr])]
  · rw [if_neg hr, if_neg]
    have : 0 < rest.length := List.length_pos_iff.2 hr
    simp only [here, List.length_append]
    omega

private theorem layersL_last (T : FloatText K) (enc : Encoding) (u : Hdu K) (hu : u.Described T enc)
    (n : Nat) (ls : List (List Char × Grid (Option K))) (pre : Bytes) :
    ∃ h, readLayersL T enc (n + 1) ls (here pre u.bytes) = .done (putAt ls u.name (gridOf u), h) := by
  by_cases hp : u.data.length % 2880 = 0
  · have h1 : (here pre u.bytes).read blockSize = (u.head, here (pre ++ u.head) (u.data ++ [])) := by
      unfold Hdu.bytes
      rw [padding_nil u hp, List.append_assoc]
      exact here_read pre u.head _ blockSize hu.block
    refine ⟨(here (pre ++ u.head ++ u.data) []).skip (2880 - u.data.length % 2880), ?_⟩
    rw [readLayersL, h1]
    dsimp only
    rw [if_pos (List.isPrefixOf_iff_prefix.2 hu.magic), readLayer_here T enc u hu]
    dsimp only
    rw [if_pos (by simp [here, Handle.skip])]
  · have := layersL_hdu T enc u hu hp n ls pre []
    rw [List.append_nil, if_pos rfl] at this
    exact ⟨_, this⟩

private theorem layersL_all (T : FloatText K) (enc : Encoding) (last : Hdu K) (hl : last.Described T enc) :
    ∀ (us : List (Hdu K)), (∀ u ∈ us, u.Described T enc ∧ u.data.length % 2880 ≠ 0) →
    ∀ (n : Nat) (ls : List (List Char × Grid (Option K))) (pre : Bytes), us.length + 1 ≤ n →
    ∃ h, readLayersL T enc n ls (here pre (us.flatMap Hdu.bytes ++ last.bytes)) =
      .done ((us ++ [last]).foldl (fun ls u => putAt ls u.name (gridOf u)) ls, h)
  | [], _, n, ls, pre, hn => by
    obtain ⟨n, rfl⟩ : ∃ n', n = n' + 1 := ⟨n - 1, by simp at hn; omega⟩
    simpa using layersL_last T enc last hl n ls pre
  | u :: us, hus, n, ls, pre, hn => by
    obtain ⟨n, rfl⟩ : ∃ n', n = n' + 1 := ⟨n - 1, by simp at hn; omega⟩
    obtain ⟨hu1, hu2⟩ := hus u (by simp)
    obtain ⟨h, hh⟩ := layersL_all T enc last hl us (fun v hv => hus v (by simp [hv])) n
      (putAt ls u.name (gridOf u)) (pre ++ u.bytes) (by simp at hn; omega)
    refine ⟨h, ?_⟩
    rw [List.flatMap_cons, List.append_assoc, layersL_hdu T enc u hu1 hu2, if_neg, hh]
    · rfl
    · cases us with
      | nil =>
        have := bytes_ne_nil T enc last hl []
        simpa using this
      | cons v us =>
        rw [List.flatMap_cons, List.append_assoc]
        exact bytes_ne_nil T enc v (hus v (by simp)).1 _

private theorem fold_new : ∀ (us : List (Hdu K)) (acc : List (List Char × Grid (Option K))),
    (acc.map Prod.fst ++ us.map Hdu.name).Nodup →
    us.foldl (fun ls u => putAt ls u.name (gridOf u)) acc = acc ++ us.map fun u => (u.name, gridOf u)
  | [], acc, _ => by simp
  | u :: us, acc, h => by
    have hn : u.name ∉ acc.map Prod.fst := by
      intro hm
      rw [List.map_cons, List.nodup_append] at h
      exact h.2.2 _ hm _ (by simp) rfl
    rw [List.foldl_cons, putAt_new _ hn, fold_new us]
    · simp
    · simpa using h

private theorem imagesOf_new (cap : List Char → List Char) : ∀ (us : List (Hdu K)) (acc : List (List Char × Grid (Option K))),
    (acc.map Prod.fst ++ (us.filter fun u => u.isImage).map
      fun u => cap u.name).Nodup →
    imagesOf cap acc (us.map fun u => (u.name, gridOf u)) =
      acc ++ (us.filter fun u => u.isImage).map fun u => (cap u.name, gridOf u)
  | [], acc, _ => by simp [imagesOf]
  | u :: us, acc, h => by
    rw [List.map_cons, imagesOf]
    by_cases hk : u.name = "HEIGHTS".toList ∨ u.name = "MASK".toList
    · have hf : (u :: us).filter (fun u => u.isImage) =
          us.filter (fun u => u.isImage) := by
        rw [List.filter_cons_of_neg]
        unfold Hdu.isImage
        rw [decide_eq_true_iff, ← not_or, not_not]
        exact hk
      rw [hf] at h ⊢
      rw [if_pos hk, imagesOf_new cap us acc h]
    · have hf : (u :: us).filter (fun u => u.isImage) =
          u :: us.filter (fun u => u.isImage) := by
        rw [List.filter_cons_of_pos]
        unfold Hdu.isImage
        rw [decide_eq_true_iff, ← not_or]
        exact hk
      rw [hf] at h ⊢
      have hn : cap u.name ∉ acc.map Prod.fst := by
        intro hm
        rw [List.map_cons, List.nodup_append] at h
        exact h.2.2 _ hm _ (by simp) rfl
      rw [if_neg hk, putAt_new _ hn, imagesOf_new cap us]
      · simp
      · simpa using h

private theorem header_more (T : FloatText K) (enc : Encoding) : ∀ m hd' h',
    readHeader T enc m hd' h' ≠ .more → ∀ m', m ≤ m' →
      readHeader T enc m' hd' h' = readHeader T enc m hd' h' := by
  intro m
  induction m with
  | zero => intro hd' h' hne; exact absurd (by rw [readHeader]) hne
  | succ m ih =>
    intro hd' h' hne m' hm'
    obtain ⟨m', rfl⟩ : ∃ k, m' = k + 1 := ⟨m' - 1, by omega⟩
    rw [readHeader] at hne ⊢
    conv_rhs => rw [readHeader]
    cases hp : parseBytes T enc (h'.read blockSize).1 with
    | error e => rfl
    | ok a =>
      obtain ⟨p, b⟩ := a
      rw [hp] at hne
      cases b with
      | true => rfl
      | false => exact ih _ _ hne m' (by omega)

/-- **C104** (FITS, images). Of a file with a complete header, in which no extension but the last fills its last block and
the names differ (also capitalised), the image layers are all extensions but heights and mask, in the order of the file,
with their own sizes and the stored values. -/
theorem C104_fits_images (cap : List Char → List Char) {T : FloatText K} {U : Units.Text} (enc : Encoding) (header : Bytes)
    (us : List (Hdu K)) (last : Hdu K) (hd : Header K)
    (hh : ∃ n, readHeader T enc n (fun _ => none) ⟨header ++ us.flatMap Hdu.bytes ++ last.bytes, 0⟩ =
      .done (hd, ⟨header ++ us.flatMap Hdu.bytes ++ last.bytes, header.length⟩))
    (hus : ∀ u ∈ us, u.Described T enc ∧ u.data.length % 2880 ≠ 0) (hlast : last.Described T enc)
    (hn1 : ((us ++ [last]).map Hdu.name).Nodup)
    (hn2 : (((us ++ [last]).filter fun u => u.isImage).map
      fun u => cap u.name).Nodup) :
    ∃ N, ∀ n, N ≤ n → ∀ (r : Raw K) (ims : List (List Char × Grid (Option K))),
      readFitsWith cap T U enc true n ⟨header ++ us.flatMap Hdu.bytes ++ last.bytes, 0⟩ = .done (r, ims) →
      List.Forall₂ (fun u p => p.1 = cap u.name ∧ p.2.WF ∧ p.2.nx = u.nx ∧ p.2.ny = u.ny ∧
          ∀ i j, i < u.ny → j < u.nx → p.2.get i j = u.at i j)
        ((us ++ [last]).filter fun u => u.isImage) ims := by
  generalize hbuf : header ++ us.flatMap Hdu.bytes ++ last.bytes = buf at hh ⊢
  obtain ⟨n0, hn0⟩ := hh
  refine ⟨max n0 (us.length + 1), fun n hn r ims h => ?_⟩
  obtain ⟨hend, hlayers⟩ := layersL_all T enc last hlast us hus n [] header (le_trans (le_max_right _ _) hn)
  have hhere : here header (us.flatMap Hdu.bytes ++ last.bytes) = ⟨buf, header.length⟩ := by
    rw [← hbuf]; simp [here]
  rw [hhere, fold_new _ _ (by simpa using hn1)] at hlayers
  unfold readFitsWith at h
  split at h
  · cases h
  · rw [show (⟨buf, 0⟩ : Handle).seek 0 = ⟨buf, 0⟩ from rfl,
      header_more T enc n0 _ _ (by rw [hn0]; simp) n (le_trans (le_max_left _ _) hn), hn0] at h
    dsimp only [Run.bind] at h
    rw [hlayers] at h
    dsimp only at h
    cases hf : fromLayers U hd (fun x => (([] : List (List Char × Grid (Option K))) ++ (us ++ [last]).map fun u => (u.name, gridOf u)).lookup x) with
    | error e => rw [hf] at h; cases h
    | ok raw =>
      rw [hf] at h
      dsimp only [Run.lift] at h
      rw [if_pos rfl, List.nil_append, imagesOf_new cap _ _ (by simpa using hn2), List.nil_append] at h
      have he : ((us ++ [last]).filter fun u => u.isImage).map
          (fun u => (cap u.name, gridOf u)) = ims := by
        injection h with h; injection h
      rw [← he, List.forall₂_map_right_iff, List.forall₂_same]
      intro u _
      refine ⟨rfl, ?_, rfl, by simp [gridOf, Grid.ny], fun i j hi hj => ?_⟩
      · intro row hrow
        simp only [gridOf, List.mem_map] at hrow
        obtain ⟨i, -, rfl⟩ := hrow
        simp [gridOf]
      · simp only [gridOf, Grid.get]
        simp [hi, hj]

/-! ## A case -/

private def exPicture : Hdu ℚ :=
  ⟨(fitsBlock (fitsExtLines "INTENSITY" "8" "3" "1")).map fun c => UInt8.ofNat c.toNat, "INTENSITY".toList, 3, 1, 1,
    fun b => some ((bytesInt false true 1 b : Int) : ℚ), [4, 5, 6]⟩

private theorem exPicture_described : exPicture.Described fitsNoFloats .utf8 := by
  refine ⟨by decide +kernel, by decide +kernel, ?_, by decide⟩
  refine ⟨fitsHeaderOf (fitsExtLines "INTENSITY" "8" "3" "1"), true, 8, ?_, ?_, ?_, ?_, ?_, ?_, ?_⟩
  · show parseBytes fitsNoFloats .utf8 ((fitsBlock (fitsExtLines "INTENSITY" "8" "3" "1")).map fun c => UInt8.ofNat c.toNat) = _
    rw [fits_parse_ascii _ _ _ (by decide +kernel)]
    unfold parseBlock
    rw [show linesOf (fitsBlock (fitsExtLines "INTENSITY" "8" "3" "1")) =
      (fitsExtLines "INTENSITY" "8" "3" "1").map String.toList ++ List.replicate 29 [] by decide +kernel]
    rfl
  all_goals rfl

/-- A file with two heights and an image of three points, which is read with its image. -/
example : ∃ N, ∀ n, N ≤ n → ∀ (r : Raw ℚ) (ims : List (List Char × Grid (Option ℚ))),
    readFitsWith (fun s => s) fitsNoFloats demoText .utf8 true n
      ⟨fitsMainBytes ++ [exPicture].flatMap Hdu.bytes ++ fitsHeights.bytes, 0⟩ = .done (r, ims) →
    ∃ g, ims = [("INTENSITY".toList, g)] ∧ g.nx = 3 ∧ g.get 0 2 = some 6 := by
  obtain ⟨N, h⟩ := C104_fits_images (K := ℚ) (fun s => s) (T := fitsNoFloats) (U := demoText) .utf8 fitsMainBytes [exPicture] fitsHeights
    fitsMainHeader ⟨1, by rw [List.append_assoc]; exact fits_main_read _⟩
    (by
      intro u hu
      rw [List.mem_singleton] at hu
      subst hu
      exact ⟨exPicture_described, by decide⟩) fitsHeights_described (by decide +kernel) (by decide +kernel)
  refine ⟨N, fun n hn r ims hr => ?_⟩
  have hf := h n hn r ims hr
  have hfilter : ([exPicture] ++ [fitsHeights]).filter (fun u => u.isImage) = [exPicture] := by
    rw [List.singleton_append, List.filter_cons_of_pos (by decide +kernel), List.filter_cons_of_neg (by decide +kernel)]
    rfl
  rw [hfilter] at hf
  cases hf with
  | cons hp ht =>
    cases ht
    rename_i p
    obtain ⟨k, g⟩ := p
    obtain ⟨h1, -, h2, h3, h4⟩ := hp
    dsimp only at h1 h2 h3 h4
    subst h1
    refine ⟨g, rfl, h2, ?_⟩
    rw [h4 0 2 (by decide) (by decide)]
    decide +kernel

end Surfalize.Props
