import Verif.Lemmas.SurImages
import Verif.Props.SurRead
/-!
# C104: image layers do not change the heights; the images of Digital Surf files
-/
set_option linter.unusedSectionVars false
set_option maxRecDepth 20000
namespace Surfalize.Props
open Surfalize Sur FileArr LayoutM SurFile

variable {K : Type} [Field K] [LinearOrder K]

private theorem object_of {enc : Encoding} {inflate : Bytes → Except Err Bytes} {h h' : Handle} {p : Dict K × Grid Int}
    (ho : readObjectH enc inflate h = .ok (p, h')) : readObject enc inflate h = .ok p := by
  rw [← readObjectH_fst, ho]
  rfl

/-- **C104** (SUR, heights). Whatever is read with the image layers is read without them. -/
theorem C104_sur_heights (T : Units.Text) (enc : Encoding) (inflate : Bytes → Except Err Bytes) (images : Bool) (h : Handle)
    (raw : Raw K) (im : Option (Colours × Grid Int)) (hr : readSurWith T enc inflate images h = .ok (raw, im)) :
    readSur T enc inflate h = .ok raw := by
  unfold readSurWith at hr
  unfold readSur
  cases ho : readObjectH (K := K) enc inflate h with
  | error e => rw [ho] at hr; cases hr
  | ok a =>
    obtain ⟨⟨d, g⟩, h1⟩ := a
    rw [ho] at hr
    rw [object_of ho]
    dsimp only at hr ⊢
    split at hr
    · rename_i n st hn hst
      rw [hn, hst]
      dsimp only
      split at hr
      · cases hr
      · rename_i hn1
        rw [if_neg hn1]
        split at hr
        · rename_i hs
          rw [if_pos (by tauto)]
          cases hg : getSurface T d g with
          | error e => rw [hg] at hr; cases hr
          | ok r => rw [hg] at hr; cases hr; rfl
        · split at hr
          · rename_i hs
            rw [if_pos (by tauto)]
            cases hg : getSurface T d g with
            | error e => rw [hg] at hr; cases hr
            | ok r =>
              rw [hg] at hr
              dsimp only at hr
              split at hr
              · cases hi : readImages K enc inflate h1 with
                | error e => rw [hi] at hr; cases hr
                | ok i => rw [hi] at hr; cases hr; rfl
              · cases hr; rfl
          · cases hr
    · cases hr

/-- **C104** (SUR, default). Without the image layers the reader is the one of C67, with the same errors. -/
theorem C104_sur_default (T : Units.Text) (enc : Encoding) (inflate : Bytes → Except Err Bytes) (h : Handle) :
    readSurWith (K := K) T enc inflate false h = (readSur T enc inflate h).map fun r => (r, none) := by
  unfold readSurWith readSur
  rw [← readObjectH_fst]
  cases readObjectH (K := K) enc inflate h with
  | error e => rfl
  | ok a =>
    obtain ⟨⟨d, g⟩, h1⟩ := a
    dsimp only [Except.map]
    generalize getInt d "n_objects" = a1, getInt d "studiable_type" = a2
    rcases a1 with _ | n <;> rcases a2 with _ | st <;> try rfl
    dsimp only
    by_cases hn : n > 1
    · rw [if_pos hn, if_pos hn]
    · rw [if_neg hn, if_neg hn]
      by_cases h1 : st = 2 ∨ isGwyddion d
      · rw [if_pos h1, if_pos (by tauto)]
      · rw [if_neg h1]
        by_cases h2 : st = 16
        · rw [if_pos h2, if_pos (by tauto)]
          cases getSurface T d g <;> rfl
        · rw [if_neg h2, if_neg (by tauto)]

/-- What an object in the middle of a file is read as. -/
private theorem object_at {enc : Encoding} {inflate : Bytes → Except Err Bytes} {pre o rest : Bytes} (ho : IsObject o)
    {p : Dict K × Grid Int} {h' : Handle} (h : readObjectH enc inflate ⟨pre ++ (o ++ rest), pre.length⟩ = .ok (p, h')) :
    Shows o p.2 ∧ h' = ⟨(pre ++ o) ++ rest, (pre ++ o).length⟩ := by
  have e : (⟨pre ++ (o ++ rest), pre.length⟩ : Handle) = up pre ⟨o ++ rest, 0⟩ := rfl
  rw [e, up_readObject] at h
  cases hr : readObjectH (K := K) enc inflate ⟨o ++ rest, 0⟩ with
  | error e => rw [hr] at h; cases h
  | ok a =>
    obtain ⟨⟨d, g⟩, h1⟩ := a
    rw [hr] at h
    cases h
    obtain ⟨h1, rfl⟩ := readObjectH_classic ho hr
    exact ⟨h1, by simp [up]⟩

/-- The images of the objects behind the heights: the three colours, a grey image if they agree, and the intensity. -/
structure SurImagesOf (red green blue light : Bytes) (c : Colours) (i : Grid Int) : Prop where
  grey : ∀ g, c = .grey g → Shows red g ∧ Shows green g ∧ Shows blue g
  rgb : ∀ r g b, c = .rgb r g b → Shows red r ∧ Shows green g ∧ Shows blue b ∧ ¬ (r = g ∧ r = b)
  intensity : Shows light i

/-- **C104** (SUR, images). A file of five uncompressed objects that is read with its image layers gives the images stored
in the four objects behind the heights, point by point, whatever their comments, private zones and sizes are; a grey image
exactly if the three channels agree. -/
theorem C104_sur_images (T : Units.Text) (enc : Encoding) (inflate : Bytes → Except Err Bytes)
    (height red green blue light rest : Bytes) (h0 : IsObject height) (h1 : IsObject red) (h2 : IsObject green)
    (h3 : IsObject blue) (h4 : IsObject light) (raw : Raw K) (c : Colours) (i : Grid Int)
    (h : readSurWith T enc inflate true ⟨height ++ (red ++ (green ++ (blue ++ (light ++ rest)))), 0⟩ =
      .ok (raw, some (c, i))) : SurImagesOf red green blue light c i := by
  unfold readSurWith at h
  cases ho : readObjectH (K := K) enc inflate ⟨height ++ (red ++ (green ++ (blue ++ (light ++ rest)))), 0⟩ with
  | error e => rw [ho] at h; cases h
  | ok a =>
    obtain ⟨⟨d, g⟩, hh⟩ := a
    rw [ho] at h
    dsimp only at h
    obtain ⟨-, rfl⟩ := readObjectH_classic h0 ho
    split at h
    · split at h
      · cases h
      split at h
      · cases hg : getSurface T d g with
        | error e => rw [hg] at h; cases h
        | ok r => rw [hg] at h; cases h
      split at h
      · cases hg : getSurface T d g with
        | error e => rw [hg] at h; cases h
        | ok r =>
          rw [hg] at h
          dsimp only at h
          rw [if_pos rfl] at h
          unfold readImages at h
          cases g1 : readObjectH (K := K) enc inflate ⟨height ++ (red ++ (green ++ (blue ++ (light ++ rest)))), height.length⟩ with
          | error e => rw [g1] at h; cases h
          | ok a1 =>
            obtain ⟨p1, q1⟩ := a1
            rw [g1] at h
            dsimp only at h
            obtain ⟨s1, rfl⟩ := object_at h1 g1
            cases g2 : readObjectH (K := K) enc inflate ⟨(height ++ red) ++ (green ++ (blue ++ (light ++ rest))), (height ++ red).length⟩ with
            | error e => rw [g2] at h; cases h
            | ok a2 =>
              obtain ⟨p2, q2⟩ := a2
              rw [g2] at h
              dsimp only at h
              obtain ⟨s2, rfl⟩ := object_at h2 g2
              cases g3 : readObjectH (K := K) enc inflate ⟨(height ++ red ++ green) ++ (blue ++ (light ++ rest)), (height ++ red ++ green).length⟩ with
              | error e => rw [g3] at h; cases h
              | ok a3 =>
                obtain ⟨p3, q3⟩ := a3
                rw [g3] at h
                dsimp only at h
                obtain ⟨s3, rfl⟩ := object_at h3 g3
                cases hc : colours p1.2 p2.2 p3.2 with
                | error e => rw [hc] at h; cases h
                | ok c' =>
                  rw [hc] at h
                  dsimp only at h
                  cases g4 : readObjectH (K := K) enc inflate ⟨(height ++ red ++ green ++ blue) ++ (light ++ rest), (height ++ red ++ green ++ blue).length⟩ with
                  | error e => rw [g4] at h; cases h
                  | ok a4 =>
                    obtain ⟨p4, q4⟩ := a4
                    rw [g4] at h
                    obtain ⟨s4, -⟩ := object_at h4 g4
                    cases h
                    unfold colours at hc
                    refine ⟨fun g e => ?_, fun r g b e => ?_, s4⟩
                    · subst e
                      split at hc
                      · rename_i e
                        cases hc
                        exact ⟨s1, by rw [e.1]; exact s2, by rw [e.2]; exact s3⟩
                      · split at hc <;> cases hc
                    · subst e
                      split at hc
                      · cases hc
                      · split at hc
                        · rename_i hne _
                          cases hc
                          exact ⟨s1, s2, s3, hne⟩
                        · cases hc
      · cases h
    · cases h

/-- **C104** (SUR, which files). Images come exactly with the kind that has them, and only if asked for. -/
theorem C104_sur_kind (T : Units.Text) (enc : Encoding) (inflate : Bytes → Except Err Bytes) (images : Bool) (buf : Bytes)
    (raw : Raw K) (im : Option (Colours × Grid Int)) (h : readSurWith T enc inflate images ⟨buf, 0⟩ = .ok (raw, im)) :
    im.isSome ↔ images = true ∧ kind buf = 16 := by
  unfold readSurWith at h
  cases ho : readObjectH (K := K) enc inflate ⟨buf, 0⟩ with
  | error e => rw [ho] at h; cases h
  | ok a =>
    obtain ⟨⟨d, g⟩, hh⟩ := a
    rw [ho] at h
    dsimp only at h
    have hk : getInt d "studiable_type" = .ok (kind buf) := by
      unfold readObjectH at ho
      cases hr : readHeader (K := K) enc ⟨buf, 0⟩ with
      | error e => rw [hr] at ho; cases ho
      | ok b =>
        obtain ⟨d', h1⟩ := b
        rw [hr] at ho
        dsimp only at ho
        have hd : d' = d := by
          split at ho
          · split at ho
            · cases ho
            · split at ho
              · cases ho
              · split at ho
                · cases ho
                · cases ho; rfl
          · cases ho
        subst hd
        unfold readHeader at hr
        cases hr2 : LayoutM.read enc ⟨buf, 0⟩ (layout K) with
        | error e => rw [hr2] at hr; cases hr
        | ok c =>
          obtain ⟨d2, h2⟩ := c
          rw [hr2] at hr
          dsimp only at hr
          have hd : d2 = d' := by
            split at hr
            · split at hr
              · cases hr
              split at hr
              · cases hr
              split at hr
              · cases hr
              split at hr
              · cases hr
              cases hr; rfl
            · cases hr
          subst hd
          unfold getInt
          rw [(readGo_int sur_fixed hr2 (name := "studiable_type") (off := 18) (w := 2) (s := true) (big := false) rfl).1]
          rfl
    rw [hk] at h
    split at h
    · rename_i n st _ e
      cases e
      split at h
      · cases h
      split at h
      · rename_i hs
        have : kind buf ≠ 16 := by
          rcases hs with hs | hs
          · rw [hs]; decide
          · intro e
            unfold isGwyddion at hs
            rw [hk, e] at hs
            simp at hs
        cases hg : getSurface T d g with
        | error e => rw [hg] at h; cases h
        | ok r => rw [hg] at h; cases h; simp [this]
      split at h
      · rename_i hs
        cases hg : getSurface T d g with
        | error e => rw [hg] at h; cases h
        | ok r =>
          rw [hg] at h
          dsimp only at h
          cases images with
          | true =>
            rw [if_pos rfl] at h
            cases hi : readImages K enc inflate hh with
            | error e => rw [hi] at h; cases h
            | ok i => rw [hi] at h; cases h; simp [hs]
          | false => cases h; simp
      · cases h
    · cases h

/-! ## Examples -/

/-- An object of the kind: one line of two 16-bit points, with a comment of one byte. -/
private def surObject (kind a b : UInt8) : Bytes :=
  utf8 "DIGITAL SURF".toList ++ [0, 0, 1, 0, 1, 0, kind, 0] ++ List.replicate 60 0 ++ [0, 0, 0, 0, 0, 0, 1, 0, 0, 0] ++
    List.replicate 8 0 ++ [16, 0, 0, 0, 0, 0, 9, 0, 0, 0, 2, 0, 0, 0, 1, 0, 0, 0, 2, 0, 0, 0] ++
    [0, 0, 0x80, 0x3f, 0, 0, 0x80, 0x3f, 0, 0, 0, 0x40] ++ List.replicate 48 0 ++
    utf8 "nm".toList ++ List.replicate 14 0 ++ utf8 "nm".toList ++ List.replicate 14 0 ++
    utf8 "nm".toList ++ List.replicate 14 0 ++ List.replicate 96 0 ++ [0, 0, 0, 0] ++ List.replicate 6 0 ++ [1, 0, 0, 0] ++
    List.replicate 128 0 ++ List.replicate 8 0 ++ [0, 0, 0x80, 0x3f] ++ List.replicate 34 0 ++ [33, a, 0, b, 0]

private instance (o : Bytes) : Decidable (IsObject o) := by unfold IsObject Classic; infer_instance

/-- Whether something is read. -/
private def isOk {α : Type} (x : Except Err α) : Bool := match x with | .ok _ => true | .error _ => false

private theorem isOk_iff {α : Type} {x : Except Err α} (h : isOk x = true) : ∃ a, x = .ok a := by
  cases x with
  | ok a => exact ⟨a, rfl⟩
  | error e => cases h

private def surFive : Bytes :=
  surObject 16 5 6 ++ (surObject 16 1 2 ++ (surObject 16 1 3 ++ (surObject 16 1 2 ++ (surObject 16 7 8 ++ []))))

example : ∃ (r : Raw ℚ) (c : Colours) (i : Grid Int),
    readSurWith demoText .utf8 (fun _ => .error .corrupted) true ⟨surFive, 0⟩ = .ok (r, some (c, i)) ∧
    SurImagesOf (surObject 16 1 2) (surObject 16 1 3) (surObject 16 1 2) (surObject 16 7 8) c i := by
  obtain ⟨⟨r, im⟩, hr⟩ : ∃ a : Raw ℚ × Option (Colours × Grid Int),
      readSurWith demoText .utf8 (fun _ => .error .corrupted) true ⟨surFive, 0⟩ = .ok a := isOk_iff (by decide +kernel)
  have hk := (C104_sur_kind _ _ _ _ _ _ _ hr).2 ⟨rfl, by decide +kernel⟩
  obtain ⟨⟨c, i⟩, rfl⟩ := Option.isSome_iff_exists.1 hk
  exact ⟨r, c, i, hr, C104_sur_images _ _ _ _ _ _ _ _ _ (by decide +kernel) (by decide +kernel) (by decide +kernel)
    (by decide +kernel) (by decide +kernel) _ _ _ hr⟩

/-- The channels of the example differ, so the image is a colour image, and the second column of the green channel is 3. -/
example : point (surObject 16 1 3) ((surObject 16 1 3).drop (start (surObject 16 1 3))) 0 1 = 3 := by decide +kernel

end Surfalize.Props
