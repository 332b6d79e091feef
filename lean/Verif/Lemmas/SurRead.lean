import Verif.Model.Sur
import Verif.Spec.SurFile
import Verif.Lemmas.LayoutRead
import Verif.Lemmas.ArrayAt
import Verif.Lemmas.Gwy
/-! # Lemmas: reading Digital Surf files -/
set_option linter.unusedSectionVars false
set_option maxRecDepth 20000
namespace Surfalize
namespace Sur
open LayoutM FileArr SurFile

variable {K : Type} [Field K] [LinearOrder K]

theorem sur_fixed : ∀ e ∈ layout K, isFixed e = true := by rw [← List.all_eq_true]; rfl
theorem sur_total : total (layout K) = 512 := by
  simp [layout, total, entrySize, Fmt.size, Fmt.fw, txt, h16, flt, i32, u32]

theorem readGo_str {enc : Encoding} {es : List (Entry K)} {d' : Dict K} {h h' : Handle}
    (hf : ∀ e ∈ es, isFixed e = true) (hr : LayoutM.read enc h es = .ok (d', h')) {name : String} {off n : Nat}
    (hl : locate name es h.pos = some (off, .str n)) :
    ∃ t, decode enc ((h.buf.drop off).take n) = .ok t ∧ d' name = some (.str (rstrip padChar t)) := by
  have h1 := (readGo_locate enc es _ d' h h' hf hr).2 name
  rw [hl] at h1
  obtain ⟨v, h'', h2, h3⟩ := h1
  unfold readFmt at h2
  have hb : ((⟨h.buf, off⟩ : Handle).read (Fmt.size (.str n))).1 = (h.buf.drop off).take n := rfl
  rw [hb] at h2
  unfold Fmt.unpack at h2
  split at h2
  · cases h2
  · rename_i v' hv
    split at hv
    · cases hv
    · cases hv
      unfold decodeValue at h2
      dsimp only at h2
      cases ht : decode enc ((h.buf.drop off).take n) with
      | error e => rw [ht] at h2; cases h2
      | ok t =>
        rw [ht] at h2
        cases h2
        exact ⟨t, rfl, h3⟩

/-- The header fields. -/
structure SurFields (enc : Encoding) (buf : Bytes) (d : Dict K) : Prop where
  nm : getInt d "non_measured_points" = .ok (int buf 86 2)
  bits : getInt d "bits_per_point" = .ok (bits buf)
  min : getInt d "min_point" = .ok (minPoint buf)
  nx : getInt d "n_points_per_line" = .ok (columns buf)
  ny : getInt d "n_lines" = .ok (rows buf)
  total : getInt d "n_total_points" = .ok (int buf 116 4)
  csize : getInt d "compressed_data_size" = .ok (packedSize buf : Int)
  lc : getInt d "length_comment" = .ok (commentSize buf)
  lp : getInt d "length_private" = .ok (privateSize buf)
  sx : getNum d "spacing_x" = .ok (toOpt (spacingX K buf))
  sy : getNum d "spacing_y" = .ok (toOpt (spacingY K buf))
  sz : getNum d "spacing_z" = .ok (toOpt (SurFile.spacingZ K buf))
  oz : getNum d "offset_z" = .ok (toOpt (SurFile.offsetZ K buf))
  ux : ∃ s, getStr d "unit_step_x" = .ok s ∧ unitX enc buf s
  uy : ∃ s, getStr d "unit_step_y" = .ok s ∧ unitY enc buf s
  uz : ∃ s, getStr d "unit_step_z" = .ok s ∧ unitZ enc buf s
  code : ∃ t, decode enc (buf.take 12) = .ok t ∧ getStr d "code" = .ok (rstrip padChar t)
  long : 512 ≤ buf.length
  n : getInt d "n_objects" = .ok (objects buf)
  st : getInt d "studiable_type" = .ok (stored buf)
  ob : ∃ t, decode enc ((buf.drop 20).take 30) = .ok t ∧ getStr d "name_object" = .ok (rstrip padChar t)
  op : ∃ t, decode enc ((buf.drop 50).take 30) = .ok t ∧ getStr d "name_operator" = .ok (rstrip padChar t)

set_option maxHeartbeats 2000000 in
theorem sur_fields {enc : Encoding} {buf : Bytes} {d : Dict K} {h' : Handle}
    (hr : LayoutM.read enc ⟨buf, 0⟩ (layout K) = .ok (d, h')) : SurFields enc buf d := by
  have i : ∀ {name off w}, locate name (layout K) 0 = some (off, .int true false w) →
      getInt d name = .ok (SurFile.int buf off w) := fun hl => by
    unfold getInt
    rw [(readGo_int sur_fixed hr hl).1]
    rfl
  have f : ∀ {name off}, locate name (layout K) 0 = some (off, .flt false false 1) →
      getNum d name = .ok (toOpt (SurFile.single K buf off)) := fun hl => by
    unfold getNum
    rw [(readGo_num sur_fixed hr hl).1]
    rfl
  have t : ∀ {name off}, locate name (layout K) 0 = some (off, .str 16) →
      ∃ s, getStr d name = .ok s ∧ Text enc buf off s := fun hl => by
    obtain ⟨t, h1, h2⟩ := readGo_str sur_fixed hr hl
    refine ⟨_, ?_, t, h1, rfl⟩
    unfold getStr
    rw [h2]
  refine ⟨i rfl, i rfl, i rfl, i rfl, i rfl, i rfl, ?_, i rfl, i rfl, f rfl, f rfl, f rfl, f rfl, t rfl, t rfl, t rfl,
    ?_, ?_, i rfl, i rfl, ?_, ?_⟩
  · unfold getInt
    rw [(readGo_int sur_fixed hr (name := "compressed_data_size") (off := 324) (w := 4) (s := false) (big := false)
      rfl).1]
    simp [bytesInt, bytesNat, packedSize]
  · obtain ⟨t, h1, h2⟩ := readGo_str sur_fixed hr (name := "code") (off := 0) (n := 12) rfl
    refine ⟨t, h1, ?_⟩
    unfold getStr
    rw [h2]
  · have h1 := (readGo_locate enc (layout K) _ d ⟨buf, 0⟩ h' sur_fixed hr).2 "unit_step_t"
    rw [show locate "unit_step_t" (layout K) (Handle.mk buf 0).pos = some (499, .str 13) from rfl] at h1
    obtain ⟨v, h'', h2, -⟩ := h1
    have := (readFmt_ok h2).2
    rw [List.length_take, List.length_drop] at this
    simp only [Fmt.size] at this
    omega
  · obtain ⟨t, h1, h2⟩ := readGo_str sur_fixed hr (name := "name_object") (off := 20) (n := 30) rfl
    refine ⟨t, h1, ?_⟩
    unfold getStr
    rw [h2]
  · obtain ⟨t, h1, h2⟩ := readGo_str sur_fixed hr (name := "name_operator") (off := 50) (n := 30) rfl
    refine ⟨t, h1, ?_⟩
    unfold getStr
    rw [h2]

/-- After reading a zone the position is behind it or at the end of the file. -/
theorem readN_pos (buf : Bytes) (p : Nat) (n : Int) :
    (readN ⟨buf, p⟩ n).2.buf = buf ∧
      (((readN ⟨buf, p⟩ n).2.pos = p + n.toNat ∧ p + n.toNat ≤ buf.length) ∨ buf.length ≤ (readN ⟨buf, p⟩ n).2.pos) := by
  unfold readN
  split
  · refine ⟨rfl, Or.inr ?_⟩
    simp only [Handle.readAll, List.length_drop]
    omega
  · refine ⟨rfl, ?_⟩
    simp only [Handle.read, List.length_take, List.length_drop]
    omega

theorem readHeader_ok {enc : Encoding} {buf : Bytes} {d : Dict K} {h1 : Handle}
    (h : readHeader enc ⟨buf, 0⟩ = .ok (d, h1)) : SurFields enc buf d ∧ h1.buf = buf ∧
      (h1.pos = start buf ∨ buf.length ≤ h1.pos) := by
  unfold readHeader at h
  cases hr : LayoutM.read enc ⟨buf, 0⟩ (layout K) with
  | error e => rw [hr] at h; cases h
  | ok a =>
    obtain ⟨d', h'⟩ := a
    rw [hr] at h
    dsimp only at h
    have hf := sur_fields hr
    have he := read_end sur_fixed hr
    rw [sur_total] at he
    rw [hf.lc, hf.lp] at h
    split at h
    · rename_i code version studiable acquisition lc lp g1 g2 g3 g4 g5 g6
      cases g5; cases g6
      split at h
      · cases h
      split at h
      · cases h
      split at h
      · cases h
      split at h
      · cases h
      cases h
      refine ⟨hf, ?_⟩
      rw [he]
      dsimp only
      obtain ⟨b1, p1⟩ := readN_pos buf (0 + 512) (commentSize buf)
      obtain ⟨hb, pp⟩ : ∃ q, (readN ⟨buf, 0 + 512⟩ (commentSize buf)).2 = ⟨buf, q⟩ := ⟨(readN ⟨buf, 0 + 512⟩ (commentSize buf)).2.pos, congrArg (Handle.mk · _) b1⟩
      rw [pp] at p1 ⊢
      obtain ⟨b2, p2⟩ := readN_pos buf hb (privateSize buf)
      refine ⟨b2, ?_⟩
      unfold start
      dsimp only at p1
      have := hf.long
      omega
    · cases h

/-- Reading the points of an uncompressed file. -/
theorem classic_list {w : Nat} (hw : 0 < w) {buf : Bytes} {h1 : Handle} (hb : h1.buf = buf)
    (hp : h1.pos = start buf ∨ buf.length ≤ h1.pos) {n : Int} {l : List Int} {h2 : Handle}
    (h : readArray w (bytesInt true false w) n 0 h1 = .ok (l, h2)) {k : Nat} (hk : k < l.length) :
    start buf + k * w + w ≤ buf.length ∧
      l[k]? = some (bytesInt true false w (((buf.drop (start buf)).drop (k * w)).take w)) := by
  obtain ⟨m, hm⟩ : ∃ m, fromBuffer w (bytesInt true false w) ((h1.buf.drop h1.pos).take m) = .ok l := by
    unfold readArray at h
    dsimp only [Handle.skip] at h
    rw [Nat.add_zero] at h
    by_cases hn : n < 0
    · rw [if_pos hn] at h
      refine ⟨(h1.buf.drop h1.pos).length, ?_⟩
      rw [List.take_length]
      unfold Handle.readAll at h
      dsimp only at h
      cases hf : fromBuffer w (bytesInt true false w) (h1.buf.drop h1.pos) with
      | error e => rw [hf] at h; cases h
      | ok l' => rw [hf] at h; cases h; rfl
    · rw [if_neg hn] at h
      refine ⟨n.toNat * w, ?_⟩
      unfold Handle.read at h
      dsimp only at h
      cases hf : fromBuffer w (bytesInt true false w) ((h1.buf.drop h1.pos).take (n.toNat * w)) with
      | error e => rw [hf] at h; cases h
      | ok l' => rw [hf] at h; cases h; rfl
  obtain ⟨f1, f2, f3⟩ := fromBuffer_get hm
  rw [f2] at hk
  have f3 := f3 k hk
  rw [hb] at f3 hk f1
  have hk2 : (k + 1) * w ≤ ((buf.drop h1.pos).take m).length :=
    (Nat.le_div_iff_mul_le hw).1 hk
  have hk3 : (k + 1) * w ≤ m ∧ (k + 1) * w ≤ buf.length - h1.pos := by
    rw [List.length_take, List.length_drop] at hk2
    omega
  have hkw : (k + 1) * w = k * w + w := by ring
  have hs : h1.pos = start buf := by
    rcases hp with hp | hp
    · exact hp
    · omega
  rw [hs] at hk3 f3
  refine ⟨by omega, ?_⟩
  rw [f3, List.drop_take, List.take_take, Nat.min_eq_left (by omega)]

/-- What an object is read as. -/
theorem readObject_ok {enc : Encoding} {inflate : Bytes → Except Err Bytes} {buf : Bytes} {d : Dict K} {g : Grid Int}
    (h : readObject enc inflate ⟨buf, 0⟩ = .ok (d, g)) :
    SurFields enc buf d ∧ (bits buf = 16 ∨ bits buf = 32) ∧ ∃ (h1 : Handle) (l : List Int),
      h1.buf = buf ∧ (h1.pos = start buf ∨ buf.length ≤ h1.pos) ∧
      reshape l (rows buf) (columns buf) = .ok g ∧
      ((getStr d "code" = .ok magicClassic ∧ ∃ n h2,
          readArray (width buf) (bytesInt true false (width buf)) n 0 h1 = .ok (l, h2)) ∨
        (getStr d "code" ≠ .ok magicClassic ∧ ∃ bs, readCompressed inflate h1 (packedSize buf) = .ok bs ∧
          fromBuffer (width buf) (bytesInt true false (width buf)) bs = .ok l)) := by
  unfold readObject at h
  cases hr : readHeader (K := K) enc ⟨buf, 0⟩ with
  | error e => rw [hr] at h; cases h
  | ok a =>
    obtain ⟨d', h1⟩ := a
    rw [hr] at h
    dsimp only at h
    obtain ⟨hf, hb, hp⟩ := readHeader_ok hr
    obtain ⟨t, ht1, ht2⟩ := hf.code
    rw [hf.bits, hf.ny, hf.nx, ht2, hf.total, hf.csize] at h
    dsimp only at h
    have hw : ∀ w, itemSize (bits buf) = .ok w → w = width buf ∧ (bits buf = 16 ∨ bits buf = 32) := by
      intro w hw
      unfold itemSize at hw
      unfold width
      split at hw
      · rename_i e; cases hw; rw [e]; exact ⟨rfl, .inl rfl⟩
      split at hw
      · rename_i e; cases hw; rw [e]; exact ⟨rfl, .inr rfl⟩
      · cases hw
    cases hi : itemSize (bits buf) with
    | error e => rw [hi] at h; cases h
    | ok w =>
      rw [hi] at h
      obtain ⟨hw1, hw2⟩ := hw w hi
      subst hw1
      dsimp only at h
      split at h
      · cases h
      · rename_i l hl
        cases hg : reshape l (rows buf) (columns buf) with
        | error e => rw [hg] at h; cases h
        | ok g' =>
          rw [hg] at h
          cases h
          refine ⟨hf, hw2, h1, l, hb, hp, hg, ?_⟩
          by_cases hc : rstrip padChar t = magicClassic
          · rw [if_pos hc] at hl
            left
            refine ⟨by rw [ht2, hc], int buf 116 4, ?_⟩
            cases ha : readArray (width buf) (bytesInt true false (width buf)) (int buf 116 4) 0 h1 with
            | error e => rw [ha] at hl; cases hl
            | ok a =>
              obtain ⟨l', h2⟩ := a
              rw [ha] at hl
              cases hl
              exact ⟨h2, rfl⟩
          · rw [if_neg hc] at hl
            right
            refine ⟨by rw [ht2]; intro e; exact hc (Except.ok.inj e), ?_⟩
            cases ha : readCompressed inflate h1 (packedSize buf) with
            | error e => rw [ha] at hl; cases hl
            | ok bs =>
              rw [ha] at hl
              exact ⟨bs, rfl, hl⟩

end Sur
end Surfalize
