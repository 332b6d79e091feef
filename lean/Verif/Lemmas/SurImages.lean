import Verif.Model.SurImages
import Verif.Spec.SurImages
import Verif.Lemmas.SurRead
/-! # Lemmas: Digital Surf objects one after the other -/
set_option linter.unusedSectionVars false
set_option maxRecDepth 20000
namespace Surfalize
namespace Sur
open LayoutM FileArr SurFile

variable {K : Type} [Field K] [LinearOrder K]

/-! ## Forgetting the position -/

theorem readStreamsH_fst (inflate : Bytes → Except Err Bytes) : ∀ (ds : List (Nat × Nat)) (h : Handle),
    (readStreamsH inflate ds h).map Prod.fst = readStreams inflate ds h
  | [], h => rfl
  | (raw, zipped) :: ds, h => by
    have ih := readStreamsH_fst inflate ds (h.read zipped).2
    unfold readStreamsH readStreams
    cases inflate (h.read zipped).1 with
    | error e => rfl
    | ok s =>
      dsimp only
      split
      · rfl
      · rw [← ih]
        cases readStreamsH inflate ds (h.read zipped).2 <;> rfl

theorem readCompressedH_fst (inflate : Bytes → Except Err Bytes) (h : Handle) (n : Int) :
    (readCompressedH inflate h n).map Prod.fst = readCompressed inflate h n := by
  unfold readCompressedH readCompressed
  cases readU32 h with
  | error e => rfl
  | ok a =>
    dsimp only
    cases readDirs a.1 a.2 with
    | error e => rfl
    | ok b =>
      dsimp only
      split
      · rfl
      · exact readStreamsH_fst inflate _ _

theorem readObjectH_fst (enc : Encoding) (inflate : Bytes → Except Err Bytes) (h : Handle) :
    (readObjectH (K := K) enc inflate h).map Prod.fst = readObject enc inflate h := by
  unfold readObjectH readObject
  cases readHeader (K := K) enc h with
  | error e => rfl
  | ok a =>
    obtain ⟨d, h1⟩ := a
    dsimp only
    generalize getInt d "bits_per_point" = a1, getInt d "n_lines" = a2, getInt d "n_points_per_line" = a3,
      getStr d "code" = a4, getInt d "n_total_points" = a5, getInt d "compressed_data_size" = a6
    rcases a1 with _ | bits <;> rcases a2 with _ | ny <;> rcases a3 with _ | nx <;> rcases a4 with _ | code <;>
      rcases a5 with _ | total <;> rcases a6 with _ | csize <;> try rfl
    · dsimp only
      cases itemSize bits with
      | error e => rfl
      | ok w =>
        dsimp only
        unfold pointsH
        by_cases hc : code = magicClassic
        · rw [if_pos hc, if_pos hc]
          cases readArray w (bytesInt true false w) total 0 h1 with
          | error e => rfl
          | ok b =>
            dsimp only
            cases reshape b.1 ny nx <;> rfl
        · rw [if_neg hc, if_neg hc, ← readCompressedH_fst]
          cases readCompressedH inflate h1 csize with
          | error e => rfl
          | ok b =>
            dsimp only [Except.map]
            cases fromBuffer w (bytesInt true false w) b.1 with
            | error e => rfl
            | ok l =>
              dsimp only
              cases reshape l ny nx <;> rfl

/-! ## An object does not depend on what stands before it -/

/-- The handle in a file with `pre` put before it. -/
def up (pre : Bytes) (h : Handle) : Handle := ⟨pre ++ h.buf, pre.length + h.pos⟩

/-- The same for a result. -/
def upR {α : Type} (pre : Bytes) (x : Except Err (α × Handle)) : Except Err (α × Handle) :=
  x.map fun p => (p.1, up pre p.2)

theorem up_drop (pre : Bytes) (h : Handle) : (up pre h).buf.drop (up pre h).pos = h.buf.drop h.pos := by
  simp [up, List.drop_append]

theorem up_read (pre : Bytes) (h : Handle) (n : Nat) : (up pre h).read n = ((h.read n).1, up pre (h.read n).2) := by
  unfold Handle.read
  simp only [up_drop]
  simp [up, Nat.add_assoc]

theorem up_readAll (pre : Bytes) (h : Handle) : (up pre h).readAll = ((h.readAll).1, up pre (h.readAll).2) := by
  unfold Handle.readAll
  simp only [up_drop]
  simp [up, Nat.add_assoc]

theorem up_skip (pre : Bytes) (h : Handle) (n : Nat) : (up pre h).skip n = up pre (h.skip n) := by
  simp [up, Handle.skip, Nat.add_assoc]

theorem up_readFmt (pre : Bytes) (enc : Encoding) (f : Fmt) (h : Handle) :
    readFmt (K := K) enc f (up pre h) = upR pre (readFmt enc f h) := by
  unfold readFmt
  rw [up_read]
  dsimp only
  cases f.unpack K (h.read f.size).1 with
  | error e => rfl
  | ok v =>
    dsimp only
    cases decodeValue enc v <;> rfl

theorem up_entry (pre : Bytes) (enc : Encoding) (d : Dict K) (h : Handle) (e : Entry K) :
    e.read enc d (up pre h) = upR pre (e.read enc d h) := by
  unfold Entry.read
  split
  · rw [up_skip]; rfl
  · rename_i f rd _
    rw [up_read]
    dsimp only
    cases f.unpack K (h.read f.size).1 with
    | error e => rfl
    | ok v =>
      dsimp only
      cases rd v <;> rfl
  · rename_i f
    rw [up_readFmt]
    cases readFmt (K := K) enc f h <;> rfl
  · rename_i p
    cases previousFormat d p with
    | error e => rfl
    | ok f =>
      dsimp only
      rw [up_readFmt]
      cases readFmt (K := K) enc f h <;> rfl

theorem up_readGo (pre : Bytes) (enc : Encoding) : ∀ (es : List (Entry K)) (d : Dict K) (h : Handle),
    readGo enc d (up pre h) es = upR pre (readGo enc d h es)
  | [], d, h => rfl
  | e :: es, d, h => by
    unfold readGo
    rw [up_entry]
    cases e.read enc d h with
    | error x => rfl
    | ok a => exact up_readGo pre enc es a.1 a.2

theorem up_readN (pre : Bytes) (h : Handle) (n : Int) : readN (up pre h) n = ((readN h n).1, up pre (readN h n).2) := by
  unfold readN
  split
  · exact up_readAll pre h
  · exact up_read pre h _

theorem up_readHeader (pre : Bytes) (enc : Encoding) (h : Handle) :
    readHeader (K := K) enc (up pre h) = upR pre (readHeader enc h) := by
  unfold readHeader LayoutM.read
  rw [up_readGo]
  cases readGo enc (fun _ => none) h (layout K) with
  | error e => rfl
  | ok a =>
    obtain ⟨d, h1⟩ := a
    have hp : (up pre h1).pos - (up pre h).pos = h1.pos - h.pos := by simp only [up]; omega
    simp only [upR, Except.map, hp, up_readN]
    split
    · split
      · rfl
      split
      · rfl
      split
      · rfl
      split <;> rfl
    · rfl

theorem up_readU32 (pre : Bytes) (h : Handle) : readU32 (up pre h) = upR pre (readU32 h) := by
  unfold readU32
  rw [up_read]
  dsimp only
  split <;> rfl

theorem up_readDirs (pre : Bytes) : ∀ (n : Nat) (h : Handle), readDirs n (up pre h) = upR pre (readDirs n h)
  | 0, h => rfl
  | n + 1, h => by
    unfold readDirs
    rw [up_readU32]
    cases readU32 h with
    | error e => rfl
    | ok a =>
      dsimp only [upR, Except.map]
      rw [up_readU32]
      cases readU32 a.2 with
      | error e => rfl
      | ok b =>
        dsimp only [upR, Except.map]
        rw [up_readDirs pre n]
        cases readDirs n b.2 <;> rfl

theorem up_readStreams (pre : Bytes) (inflate : Bytes → Except Err Bytes) : ∀ (ds : List (Nat × Nat)) (h : Handle),
    readStreamsH inflate ds (up pre h) = upR pre (readStreamsH inflate ds h)
  | [], h => rfl
  | (raw, zipped) :: ds, h => by
    unfold readStreamsH
    rw [up_read]
    dsimp only
    cases inflate (h.read zipped).1 with
    | error e => rfl
    | ok s =>
      dsimp only
      split
      · rfl
      · rw [up_readStreams pre inflate ds]
        cases readStreamsH inflate ds (h.read zipped).2 <;> rfl

theorem up_readCompressed (pre : Bytes) (inflate : Bytes → Except Err Bytes) (h : Handle) (n : Int) :
    readCompressedH inflate (up pre h) n = upR pre (readCompressedH inflate h n) := by
  unfold readCompressedH
  rw [up_readU32]
  cases readU32 h with
  | error e => rfl
  | ok a =>
    dsimp only [upR, Except.map]
    rw [up_readDirs]
    cases readDirs a.1 a.2 with
    | error e => rfl
    | ok b =>
      dsimp only [upR, Except.map]
      split
      · rfl
      · exact up_readStreams pre inflate _ _

theorem up_readArray {α : Type} (pre : Bytes) (w : Nat) (dec : Bytes → α) (n : Int) (h : Handle) :
    readArray w dec n 0 (up pre h) = upR pre (readArray w dec n 0 h) := by
  unfold readArray
  dsimp only
  rw [up_skip]
  by_cases hn : n < 0
  · rw [if_pos hn, if_pos hn, up_readAll]
    dsimp only
    cases fromBuffer w dec ((h.skip 0).readAll).1 <;> rfl
  · rw [if_neg hn, if_neg hn, up_read]
    dsimp only
    cases fromBuffer w dec ((h.skip 0).read (n.toNat * w)).1 <;> rfl

theorem up_points (pre : Bytes) (inflate : Bytes → Except Err Bytes) (w : Nat) (code : List Char) (total csize : Int)
    (h : Handle) : pointsH inflate w code total csize (up pre h) = upR pre (pointsH inflate w code total csize h) := by
  unfold pointsH
  split
  · exact up_readArray pre _ _ _ _
  · rw [up_readCompressed]
    cases readCompressedH inflate h csize with
    | error e => rfl
    | ok b =>
      dsimp only [upR, Except.map]
      cases fromBuffer w (bytesInt true false w) b.1 <;> rfl

theorem up_readObject (pre : Bytes) (enc : Encoding) (inflate : Bytes → Except Err Bytes) (h : Handle) :
    readObjectH (K := K) enc inflate (up pre h) = upR pre (readObjectH enc inflate h) := by
  unfold readObjectH
  rw [up_readHeader]
  cases readHeader (K := K) enc h with
  | error e => rfl
  | ok a =>
    obtain ⟨d, h1⟩ := a
    dsimp only [upR, Except.map]
    split
    · rename_i bits ny nx code total csize _ _ _ _ _ _
      cases itemSize bits with
      | error e => rfl
      | ok w =>
        dsimp only
        rw [up_points]
        cases pointsH inflate w code total csize h1 with
        | error e => rfl
        | ok b =>
          dsimp only [upR, Except.map]
          cases reshape b.1 ny nx <;> rfl
    · rfl

/-! ## One object -/

theorem take_drop_left {o rest : Bytes} {off w : Nat} (h : off + w ≤ o.length) :
    ((o ++ rest).drop off).take w = (o.drop off).take w := by
  rw [List.drop_append_of_le_length (by omega), List.take_append_of_le_length (by rw [List.length_drop]; omega)]

theorem int_left {o rest : Bytes} {off w : Nat} (h : off + w ≤ o.length) : int (o ++ rest) off w = int o off w := by
  unfold int
  rw [take_drop_left h]

/-- What an uncompressed object that is read shows, and where the next one starts. -/
theorem readObjectH_classic {enc : Encoding} {inflate : Bytes → Except Err Bytes} {o rest : Bytes} (ho : IsObject o)
    {d : Dict K} {g : Grid Int} {h' : Handle} (h : readObjectH enc inflate ⟨o ++ rest, 0⟩ = .ok ((d, g), h')) :
    Shows o g ∧ h' = ⟨o ++ rest, o.length⟩ := by
  obtain ⟨hc, hc0, hp0, hn0, hlen⟩ := ho
  have hl : 512 ≤ o.length := by rw [hlen]; unfold start; omega
  have e1 : commentSize (o ++ rest) = commentSize o := int_left (by omega)
  have e2 : privateSize (o ++ rest) = privateSize o := int_left (by omega)
  have e3 : bits (o ++ rest) = bits o := int_left (by omega)
  have e4 : columns (o ++ rest) = columns o := int_left (by omega)
  have e5 : rows (o ++ rest) = rows o := int_left (by omega)
  have e6 : int (o ++ rest) 116 4 = points o := int_left (by omega)
  have e7 : start (o ++ rest) = start o := by unfold start; rw [e1, e2]
  have e8 : width (o ++ rest) = width o := by unfold width; rw [e3]
  unfold readObjectH at h
  cases hr : readHeader (K := K) enc ⟨o ++ rest, 0⟩ with
  | error e => rw [hr] at h; cases h
  | ok a =>
    obtain ⟨d', h1⟩ := a
    rw [hr] at h
    dsimp only at h
    obtain ⟨hf, hb, hp⟩ := readHeader_ok hr
    have hpos : h1.pos = start o := by
      unfold readHeader at hr
      cases hr2 : LayoutM.read enc ⟨o ++ rest, 0⟩ (layout K) with
      | error e => rw [hr2] at hr; cases hr
      | ok b =>
        obtain ⟨d2, h2⟩ := b
        rw [hr2] at hr
        dsimp only at hr
        have hf2 := sur_fields hr2
        have he := read_end sur_fixed hr2
        rw [sur_total] at he
        rw [hf2.lc, hf2.lp] at hr
        split at hr
        · rename_i code version studiable acquisition lc lp g1 g2 g3 g4 g5 g6
          cases g5; cases g6
          split at hr
          · cases hr
          split at hr
          · cases hr
          split at hr
          · cases hr
          split at hr
          · cases hr
          cases hr
          rw [he, e1, e2]
          unfold readN
          rw [if_neg (by omega), if_neg (by omega)]
          simp only [Handle.read, List.length_take, List.length_drop, List.length_append]
          unfold start at hlen ⊢
          omega
        · cases hr
    obtain ⟨t, ht1, ht2⟩ := hf.code
    have hcode : rstrip padChar t = magicClassic := by
      unfold Classic at hc
      rw [List.take_append_of_le_length (by omega), hc, Gwy.decode_utf8] at ht1
      cases ht1
      rfl
    rw [hf.bits, hf.ny, hf.nx, ht2, hf.total, hf.csize] at h
    dsimp only at h
    rw [hcode, e3, e4, e5, e6] at h
    cases hi : itemSize (bits o) with
    | error e => rw [hi] at h; cases h
    | ok w =>
      rw [hi] at h
      dsimp only at h
      have hw : w = width o ∧ 0 < w := by
        unfold itemSize at hi
        unfold width
        split at hi
        · rename_i e; cases hi; rw [e]; exact ⟨rfl, by decide⟩
        split at hi
        · rename_i e; cases hi; rw [e]; exact ⟨rfl, by decide⟩
        · cases hi
      obtain ⟨rfl, hw⟩ := hw
      unfold pointsH at h
      rw [if_pos rfl] at h
      cases ha : readArray (width o) (bytesInt true false (width o)) (points o) 0 h1 with
      | error e => rw [ha] at h; cases h
      | ok b =>
        obtain ⟨l, h2⟩ := b
        rw [ha] at h
        dsimp only at h
        cases hg : reshape l (rows o) (columns o) with
        | error e => rw [hg] at h; cases h
        | ok g' =>
          rw [hg] at h
          cases h
          obtain ⟨g1, g2, g3, g4, g5⟩ := reshape_get hg
          have hnn : 0 ≤ rows o ∧ 0 ≤ columns o := by
            unfold reshape at hg
            split at hg
            · rename_i hc; exact ⟨hc.1, hc.2.1⟩
            · cases hg
          have hmul : 0 ≤ (points o).toNat * width o := Nat.zero_le _
          have hh1 : h1 = ⟨o ++ rest, start o⟩ := by
            rw [← hb, ← hpos]
          have hread : (h1.skip 0).read ((points o).toNat * width o) = (o.drop (start o), ⟨o ++ rest, o.length⟩) := by
            rw [hh1]
            unfold Handle.skip Handle.read
            dsimp only
            have hs : start o ≤ o.length := by omega
            have ht : ((o ++ rest).drop (start o + 0)).take ((points o).toNat * width o) = o.drop (start o) := by
              rw [Nat.add_zero, List.drop_append_of_le_length hs, List.take_append_of_le_length (by rw [List.length_drop]; omega)]
              rw [List.take_of_length_le (by rw [List.length_drop]; omega)]
            rw [ht, List.length_drop]
            congr 2
            omega
          unfold readArray at ha
          dsimp only at ha
          rw [if_neg (by omega), hread] at ha
          dsimp only at ha
          cases hfb : fromBuffer (width o) (bytesInt true false (width o)) (o.drop (start o)) with
          | error e => rw [hfb] at ha; cases ha
          | ok l' =>
            rw [hfb] at ha
            cases ha
            refine ⟨⟨g1, by rw [g3]; omega, by rw [g2]; omega, fun i j hi hj => ?_⟩, rfl⟩
            obtain ⟨f1, f2, f3⟩ := fromBuffer_get hfb
            have hk : i * g.nx + j < l.length := by
              rw [g4]
              calc i * g.nx + j < i * g.nx + g.nx := by omega
                _ = (i + 1) * g.nx := by ring
                _ ≤ g.ny * g.nx := Nat.mul_le_mul_right _ hi
            rw [g5 i j hi hj, f3 _ (by rw [← f2]; exact hk)]
            unfold point
            rw [g3]

end Sur
end Surfalize
