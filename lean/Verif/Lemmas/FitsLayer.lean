import Verif.Lemmas.Fits
import Verif.Spec.Fits
/-! # Reading the extensions of FITS files -/
set_option linter.unusedSectionVars false
namespace Surfalize
namespace Fits
open LayoutM FileArr Gwy FitsSpec

variable {K : Type} [Field K] [LinearOrder K]

/-- The array of an extension. -/
def gridOf (u : Hdu K) : Grid (Option K) :=
  ⟨(List.range u.ny).map fun i => (List.range u.nx).map fun j => u.at i j, u.nx⟩

theorem itemOf_pos {bp : Int} {w : Nat} {dec : Bytes → Option K} (h : itemOf K bp = some (w, dec)) : 0 < w := by
  unfold itemOf at h
  split at h
  · cases h; decide
  · split at h
    · cases h; decide
    · split at h
      · cases h; decide
      · split at h
        · cases h; decide
        · split at h
          · cases h; decide
          · split at h
            · cases h; decide
            · cases h

theorem range_cut {α : Type} (f : Nat → α) (n nx i : Nat) (h : i * nx + nx ≤ n) :
    (((List.range n).map f).drop (i * nx)).take nx = (List.range nx).map fun j => f (i * nx + j) := by
  apply List.ext_getElem
  · simp; omega
  · intro j h1 h2
    simp

theorem reshape_range {α : Type} (f : Nat → α) (ny nx : Nat) :
    reshape ((List.range (nx * ny)).map f) (ny : Int) (nx : Int) =
      .ok ⟨(List.range ny).map fun i => (List.range nx).map fun j => f (i * nx + j), nx⟩ := by
  unfold reshape
  rw [if_pos ⟨by omega, by omega, by simp only [List.length_map, List.length_range]; push_cast; ring⟩]
  simp only [Int.toNat_natCast]
  congr 2
  apply List.map_congr_left
  intro i hi
  apply range_cut
  have hi' := List.mem_range.1 hi
  calc i * nx + nx = (i + 1) * nx := by ring
    _ ≤ ny * nx := Nat.mul_le_mul_right _ hi'
    _ = nx * ny := by ring

/-- The extension is read, and the rest of a block skipped. -/
theorem readLayer_here (T : FloatText K) (enc : Encoding) (u : Hdu K) (hu : u.Described T enc) (pre rest : Bytes) :
    readLayer T enc u.head (here pre (u.data ++ rest)) =
      .ok ((u.name, gridOf u), (here (pre ++ u.data) rest).skip (2880 - u.data.length % 2880)) := by
  obtain ⟨hb, hm, ⟨hd, ended, bp, p1, p2, p3, p4, p5, p6, p7⟩, hf⟩ := hu
  have hw := itemOf_pos p7
  have hint : ∀ (k : String) (i : Int), hd k.toList = some (.int i) → intAt hd k = .ok i := by
    intro k i hk; unfold intAt; rw [hk]
  have hstr : strAt hd "EXTNAME" = .ok u.name := by unfold strAt; rw [p6]
  have harr : readArray u.width u.value ((u.nx : Int) * (u.ny : Int)) 0 (here pre (u.data ++ rest)) =
      .ok ((List.range (u.nx * u.ny)).map fun k => u.value ((u.data.drop (k * u.width)).take u.width),
        here (pre ++ u.data) rest) := by
    unfold readArray
    have hs : (here pre (u.data ++ rest)).skip 0 = here pre (u.data ++ rest) := rfl
    have hc : (((u.nx : Int) * (u.ny : Int)).toNat * u.width) = u.data.length := by
      rw [hf, ← Int.natCast_mul, Int.toNat_natCast]
    rw [hs]
    dsimp only
    have hneg : ¬ ((u.nx : Int) * (u.ny : Int) < 0) := by
      rw [← Int.natCast_mul]; omega
    simp only [if_neg hneg, hc, here_read pre u.data rest u.data.length rfl]
    unfold fromBuffer
    have hmod : u.data.length % u.width = 0 := by rw [hf]; exact Nat.mul_mod_left _ _
    rw [if_pos hmod]
    simp only [items, hf, Nat.mul_div_cancel _ hw, List.map_map]
    rfl
  unfold readLayer
  rw [p1]
  dsimp only
  rw [hint _ _ p2, hint _ _ p3, hint _ _ p4, hint _ _ p5, hstr]
  dsimp only
  rw [if_neg (by decide), p7]
  dsimp only
  rw [harr]
  dsimp only
  rw [reshape_range]
  dsimp only
  have hn : ((u.nx : Int) * (u.ny : Int) * (u.width : Int) % (blockSize : Int)).toNat = u.data.length % 2880 := by
    rw [← Int.natCast_mul, ← Int.natCast_mul, ← hf]
    unfold blockSize
    omega
  rw [hn]
  rfl

theorem here_skip (pre a rest : Bytes) : (here pre (a ++ rest)).skip a.length = here (pre ++ a) rest := by
  simp [here, Handle.skip]

theorem padding_length (u : Hdu K) (h : u.data.length % 2880 ≠ 0) :
    u.padding.length = 2880 - u.data.length % 2880 := by
  unfold Hdu.padding
  rw [List.length_replicate, Nat.mod_eq_of_lt]
  have := Nat.mod_lt u.data.length (show 0 < 2880 by decide)
  omega

theorem padding_nil (u : Hdu K) (h : u.data.length % 2880 = 0) : u.padding = [] := by
  unfold Hdu.padding
  rw [h]
  rfl

/-- An extension whose array does not fill its last block is read, and what follows comes next. -/
theorem readLayers_hdu (T : FloatText K) (enc : Encoding) (u : Hdu K) (hu : u.Described T enc)
    (hp : u.data.length % 2880 ≠ 0) (n : Nat) (ls : Layers K) (pre rest : Bytes) :
    readLayers T enc (n + 1) ls (here pre (u.bytes ++ rest)) =
      if rest = [] then .done (ls.put u.name (gridOf u), here (pre ++ u.bytes) rest)
      else readLayers T enc n (ls.put u.name (gridOf u)) (here (pre ++ u.bytes) rest) := by
  have h1 : (here pre (u.bytes ++ rest)).read blockSize =
      (u.head, here (pre ++ u.head) (u.data ++ (u.padding ++ rest))) := by
    unfold Hdu.bytes
    rw [List.append_assoc, List.append_assoc]
    exact here_read pre u.head _ blockSize hu.block
  rw [readLayers, h1]
  dsimp only
  rw [if_pos (List.isPrefixOf_iff_prefix.2 hu.magic)]
  rw [readLayer_here T enc u hu]
  dsimp only
  rw [← padding_length u hp, here_skip]
  have h2 : here (pre ++ u.head ++ u.data ++ u.padding) rest = here (pre ++ u.bytes) rest := by
    unfold Hdu.bytes; simp only [List.append_assoc]
  rw [h2]
  by_cases hr : rest = []
  · rw [if_pos hr, if_pos (by simp [here, hr])]
  · rw [if_neg hr, if_neg]
    have : 0 < rest.length := List.length_pos_iff.2 hr
    simp only [here, List.length_append]
    omega

/-- The last extension of a file is read whatever its size. -/
theorem readLayers_last (T : FloatText K) (enc : Encoding) (u : Hdu K) (hu : u.Described T enc)
    (n : Nat) (ls : Layers K) (pre : Bytes) :
    ∃ h, readLayers T enc (n + 1) ls (here pre u.bytes) = .done (ls.put u.name (gridOf u), h) := by
  by_cases hp : u.data.length % 2880 = 0
  · have h1 : (here pre u.bytes).read blockSize = (u.head, here (pre ++ u.head) (u.data ++ [])) := by
      unfold Hdu.bytes
      rw [padding_nil u hp, List.append_assoc]
      exact here_read pre u.head _ blockSize hu.block
    refine ⟨(here (pre ++ u.head ++ u.data) []).skip (2880 - u.data.length % 2880), ?_⟩
    rw [readLayers, h1]
    dsimp only
    rw [if_pos (List.isPrefixOf_iff_prefix.2 hu.magic), readLayer_here T enc u hu]
    dsimp only
    rw [if_pos (by simp [here, Handle.skip])]
  · have := readLayers_hdu T enc u hu hp n ls pre []
    rw [List.append_nil, if_pos rfl] at this
    exact ⟨_, this⟩

theorem bytes_ne_nil (T : FloatText K) (enc : Encoding) (u : Hdu K) (hu : u.Described T enc) (l : Bytes) :
    u.bytes ++ l ≠ [] := by
  intro h
  have := congrArg List.length h
  unfold Hdu.bytes at this
  simp only [List.length_append, hu.block, List.length_nil] at this
  omega

/-- All extensions of a file are read, if none but the last fills its last block. -/
theorem readLayers_all (T : FloatText K) (enc : Encoding) (last : Hdu K) (hl : last.Described T enc) :
    ∀ (us : List (Hdu K)), (∀ u ∈ us, u.Described T enc ∧ u.data.length % 2880 ≠ 0) →
    ∀ (n : Nat) (ls : Layers K) (pre : Bytes), us.length + 1 ≤ n →
    ∃ h, readLayers T enc n ls (here pre (us.flatMap Hdu.bytes ++ last.bytes)) =
      .done ((us ++ [last]).foldl (fun ls u => ls.put u.name (gridOf u)) ls, h)
  | [], _, n, ls, pre, hn => by
    obtain ⟨n, rfl⟩ : ∃ n', n = n' + 1 := ⟨n - 1, by simp at hn; omega⟩
    simpa using readLayers_last T enc last hl n ls pre
  | u :: us, hus, n, ls, pre, hn => by
    obtain ⟨n, rfl⟩ : ∃ n', n = n' + 1 := ⟨n - 1, by simp at hn; omega⟩
    obtain ⟨hu1, hu2⟩ := hus u (by simp)
    obtain ⟨h, hh⟩ := readLayers_all T enc last hl us (fun v hv => hus v (by simp [hv])) n
      (ls.put u.name (gridOf u)) (pre ++ u.bytes) (by simp at hn; omega)
    refine ⟨h, ?_⟩
    rw [List.flatMap_cons, List.append_assoc, readLayers_hdu T enc u hu1 hu2, if_neg, hh]
    · rfl
    · cases us with
      | nil =>
        have := bytes_ne_nil T enc last hl []
        simpa using this
      | cons v us =>
        rw [List.flatMap_cons, List.append_assoc]
        exact bytes_ne_nil T enc v (hus v (by simp)).1 _

/-- Blocks that do not begin an extension are passed over. -/
theorem readLayers_pass (T : FloatText K) (enc : Encoding) : ∀ (n : Nat) (ls : Layers K) (pre rest : Bytes),
    (∀ k, ¬ utf8 "XTENSION".toList <+: block rest k) → rest.length + 1 ≤ n →
    ∃ h, readLayers T enc n ls (here pre rest) = .done (ls, h)
  | 0, ls, pre, rest, _, hn => by omega
  | n + 1, ls, pre, rest, hx, hn => by
    have h0 := hx 0
    have hb : ((here pre rest).read blockSize).1 = block rest 0 := by
      simp [Handle.read, here, block]
    rw [readLayers, hb, if_neg (by rwa [List.isPrefixOf_iff_prefix])]
    split
    · exact ⟨_, rfl⟩
    · rename_i hlt
      have hread : (here pre rest).read blockSize =
          (rest.take blockSize, here (pre ++ rest.take blockSize) (rest.drop blockSize)) := by
        conv_lhs => rw [← List.take_append_drop blockSize rest]
        apply here_read
        rw [List.length_take, Nat.min_eq_left]
        by_contra hc
        apply hlt
        simp only [Handle.read, here, List.drop_left, List.length_take, List.length_append]
        omega
      rw [hread] at hlt ⊢
      dsimp only at hlt ⊢
      apply readLayers_pass T enc n
      · intro k
        have := hx (k + 1)
        unfold block at this ⊢
        rw [List.drop_drop]
        rwa [show (k + 1) * blockSize = blockSize + k * blockSize by ring] at this
      · rw [List.length_drop]
        have : 0 < blockSize := by decide
        have hpos : 0 < rest.length := by
          by_contra hc
          apply hlt
          have : rest = [] := List.length_eq_zero_iff.1 (by omega)
          subst this
          simp [here]
        omega

/-- After an extension whose array fills its last block, one block is passed over. -/
theorem readLayers_full (T : FloatText K) (enc : Encoding) (u : Hdu K) (hu : u.Described T enc)
    (hp : u.data.length % 2880 = 0) (n : Nat) (ls : Layers K) (pre next rest : Bytes) (hn : next.length = 2880)
    (hx : ∀ k, ¬ utf8 "XTENSION".toList <+: block rest k) (hs : rest.length + 2 ≤ n) :
    ∃ h, readLayers T enc n ls (here pre (u.bytes ++ (next ++ rest))) = .done (ls.put u.name (gridOf u), h) := by
  obtain ⟨n, rfl⟩ : ∃ n', n = n' + 1 := ⟨n - 1, by omega⟩
  have h1 : (here pre (u.bytes ++ (next ++ rest))).read blockSize =
      (u.head, here (pre ++ u.head) (u.data ++ (next ++ rest))) := by
    unfold Hdu.bytes
    rw [padding_nil u hp, List.append_nil, List.append_assoc]
    exact here_read pre u.head _ blockSize hu.block
  rw [readLayers, h1]
  dsimp only
  rw [if_pos (List.isPrefixOf_iff_prefix.2 hu.magic), readLayer_here T enc u hu]
  dsimp only
  rw [hp, show 2880 - 0 = next.length by rw [hn], here_skip]
  split
  · exact ⟨_, rfl⟩
  · exact readLayers_pass T enc n _ _ rest hx (by omega)

end Fits
end Surfalize
