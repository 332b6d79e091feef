import Verif.Model.Tmd
import Verif.Lemmas.FileFloat
/-! # Lemmas for C61 -/
set_option linter.unusedSectionVars false
namespace Surfalize
namespace Tmd
open LayoutM LayoutSpec FileArr Props
variable {K : Type} [Field K] [LinearOrder K] [IsStrictOrderedRing K]

/-- The text of the comment field. -/
def commentText (comment : List Char) : List Char :=
  comment ++ List.replicate (21 - comment.length) ' ' ++ ['\r', '\n', '\x00']

theorem wf_layout : WellFormed [] (layout K) := by simp [layout, WellFormed]

theorem names_nodup : (names (layout K)).Nodup := by
  have : names (layout K) = ["header", "comment", "width", "height", "length_x", "length_y",
    "offset_x", "offset_y"] := rfl
  rw [this]; decide

theorem width_layout (d : Dict K) : ((layout K).map (width d)).sum = 80 := by
  simp only [layout, List.map_cons, List.map_nil, width, bytesOf, List.sum_cons, List.sum_nil,
    Nat.reduceMul, Nat.reduceAdd]

theorem text_fits {comment u : List Char} (hu : CutTo 24 (commentText comment) u) (s : Raw K) :
    TextFits (header comment s) (layout K) := by
  simp only [layout, TextFits]
  exact ⟨⟨_, _, rfl, cutTo_self _ _ (by decide)⟩, ⟨_, u, rfl, hu⟩, trivial⟩

theorem magic_written {c : FloatCodec K} (comment : List Char) (s : Raw K) {hdr : Bytes}
    (hw : write c (header comment s) (layout K) = .ok hdr) : hdr.take 29 = utf8 magic := by
  unfold layout at hw
  obtain ⟨b1, b2, h1, -, rfl⟩ := write_append (c := c) (header comment s)
    [.field "header" (.fixed (.str 32))] _ hdr hw
  have h2 : write c (header comment s) [.field "header" (.fixed (.str 32))] =
      .ok (utf8 (magic ++ lineTermination)) := by
    have : (header comment s) "header" = some (.str (magic ++ lineTermination)) := rfl
    simp only [write, Entry.write, dict_at_some this, encodeValue, Fmt.pack, Fmt.size]
    have e : (utf8 (ljust 32 (magic ++ lineTermination))).take 32 ++
        List.replicate (32 - (utf8 (ljust 32 (magic ++ lineTermination))).length) 0 ++ [] =
        utf8 (magic ++ lineTermination) := by decide +kernel
    rw [e]
  rw [h2] at h1
  cases h1
  rw [List.take_append_of_le_length (by decide +kernel)]
  decide +kernel

/-- What reading a written file gives. -/
theorem read_written {c : FloatCodec K} (hc : c.Nearest) (comment : List Char)
    {u : List Char} (hu : CutTo 24 (commentText comment) u) (s : Raw K) (hwf : s.data.WF)
    (hx : 0 < s.data.nx) (hy : 0 < s.data.ny) (b : Bytes) (hw : writeTmd c comment s = .ok b) :
    ∃ lx ly, readTmd ⟨b, 0⟩ = .ok
        ⟨Container.map (fun z => decFloat K false (encFloat c false z)) s.data,
          lx / s.data.nx, ly / s.data.ny⟩ ∧
      Nearest false ((s.data.nx : K) * s.stepX) lx ∧ Nearest false ((s.data.ny : K) * s.stepY) ly := by
  unfold writeTmd at hw
  split at hw
  · cases hw
  cases hh : write c (header comment s) (layout K) with
  | error e => rw [hh] at hw; cases hw
  | ok hdr =>
    rw [hh] at hw
    simp only [Except.ok.injEq] at hw
    subst hw
    set arr := writeArray (encFloat c false) (Container.flat s.data) with harr
    obtain ⟨hl, d', hr, hb⟩ := header_back hc .utf8 wf_layout names_nodup (text_fits hu s) hh [] arr
    rw [width_layout] at hl
    have hny : getInt d' "height" = .ok s.data.ny :=
      hb.int (sg := false) (big := false) (w := 4) (by simp [layout]) rfl
    have hnx : getInt d' "width" = .ok s.data.nx :=
      hb.int (sg := false) (big := false) (w := 4) (by simp [layout]) rfl
    obtain ⟨lx, hlx, hlx2⟩ := hb.num (name := "length_x") (dbl := false) (big := false)
      (x := (s.data.nx : K) * s.stepX) (by simp [layout]) rfl
    obtain ⟨ly, hly, hly2⟩ := hb.num (name := "length_y") (dbl := false) (big := false)
      (x := (s.data.ny : K) * s.stepY) (by simp [layout]) rfl
    refine ⟨lx, ly, ?_, hlx2, hly2⟩
    have hmag : ((Handle.mk (hdr ++ arr) 0).read magic.length).1 = utf8 magic := by
      have := magic_written comment s hh
      simp only [Handle.read, List.drop_zero]
      rw [List.take_append_of_le_length (by rw [hl]; decide)]
      exact this
    have hread : read .utf8 ((Handle.mk (hdr ++ arr) 0).seek 0) (layout K) =
        .ok (d', ⟨hdr ++ arr, hdr.length⟩) := by
      simpa [Handle.seek] using hr
    have hdata := readArray_floats_all (c := c) false (Container.flat s.data) hdr
    rw [← harr] at hdata
    have hfw : Fmt.fw false = 4 := rfl
    rw [hfw] at hdata
    unfold readTmd
    rw [if_neg (by rw [hmag]; simp), hread]
    simp only [hdata, hny, hnx, hlx, hly]
    rw [if_neg]
    · rw [reshape_map _ hwf]
      have hx' : (s.data.nx : Int) ≠ 0 := by omega
      have hy' : (s.data.ny : Int) ≠ 0 := by omega
      simp only [stepOf, if_neg hx', if_neg hy', Int.cast_natCast]
    · simp only [ne_eq, not_not, List.length_map]
      rw [flat_length _ hwf]; push_cast; rfl

/-- A written file followed by anything cannot be read. -/
theorem read_followed {c : FloatCodec K} (hc : c.Nearest) (comment : List Char)
    {u : List Char} (hu : CutTo 24 (commentText comment) u) (s : Raw K) (hwf : s.data.WF)
    (b : Bytes) (hw : writeTmd c comment s = .ok b) (post : Bytes) (hp : post ≠ []) :
    ∃ e, readTmd (K := K) ⟨b ++ post, 0⟩ = .error e := by
  unfold writeTmd at hw
  split at hw
  · cases hw
  cases hh : write c (header comment s) (layout K) with
  | error e => rw [hh] at hw; cases hw
  | ok hdr =>
    rw [hh] at hw
    simp only [Except.ok.injEq] at hw
    subst hw
    set arr := writeArray (encFloat c false) (Container.flat s.data) with harr
    obtain ⟨hl, d', hr, hb⟩ := header_back hc .utf8 wf_layout names_nodup (text_fits hu s) hh [] (arr ++ post)
    rw [width_layout] at hl
    rw [List.append_assoc]
    have hny : getInt d' "height" = .ok s.data.ny :=
      hb.int (sg := false) (big := false) (w := 4) (by simp [layout]) rfl
    have hnx : getInt d' "width" = .ok s.data.nx :=
      hb.int (sg := false) (big := false) (w := 4) (by simp [layout]) rfl
    obtain ⟨lx, hlx, -⟩ := hb.num (name := "length_x") (dbl := false) (big := false)
      (x := (s.data.nx : K) * s.stepX) (by simp [layout]) rfl
    obtain ⟨ly, hly, -⟩ := hb.num (name := "length_y") (dbl := false) (big := false)
      (x := (s.data.ny : K) * s.stepY) (by simp [layout]) rfl
    have hmag : ((Handle.mk (hdr ++ (arr ++ post)) 0).read magic.length).1 = utf8 magic := by
      have := magic_written comment s hh
      simp only [Handle.read, List.drop_zero]
      rw [List.take_append_of_le_length (by rw [hl]; decide)]
      exact this
    have hread : read .utf8 ((Handle.mk (hdr ++ (arr ++ post)) 0).seek 0) (layout K) =
        .ok (d', ⟨hdr ++ (arr ++ post), hdr.length⟩) := by
      simpa [Handle.seek] using hr
    have halen : arr.length = s.data.ny * s.data.nx * 4 := by
      rw [harr, writeArray_length 4 _ _ (fun x _ => encFloat_length c false x), flat_length _ hwf]
    have hplen : 0 < post.length := List.length_pos_of_ne_nil hp
    unfold readTmd
    rw [if_neg (by rw [hmag]; simp), hread]
    dsimp only
    have hra : readArray 4 (decFloat K false) (-1) 0 ⟨hdr ++ (arr ++ post), hdr.length⟩ =
        (fromBuffer 4 (decFloat K false) (arr ++ post)).map
          fun l => (l, (⟨hdr ++ (arr ++ post), hdr.length + (arr ++ post).length⟩ : Handle)) := by
      unfold readArray
      simp only [Handle.skip, Handle.readAll, Nat.add_zero, List.drop_left]
      rw [if_pos (by decide)]
      cases fromBuffer 4 (decFloat K false) (arr ++ post) <;> simp [Except.map]
    rw [hra]
    unfold fromBuffer
    by_cases hmod : (arr ++ post).length % 4 = 0
    · rw [if_pos hmod]
      simp only [Except.map, hny, hnx, hlx, hly]
      rw [if_pos]
      · exact ⟨_, rfl⟩
      · simp only [List.length_map, items, List.length_range]
        rw [List.length_append, halen] at hmod ⊢
        intro h
        have : (s.data.ny * s.data.nx * 4 + post.length) / 4 = s.data.ny * s.data.nx := by exact_mod_cast h
        omega
    · rw [if_neg hmod]
      exact ⟨_, rfl⟩

end Tmd
end Surfalize
