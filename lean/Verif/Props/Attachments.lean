import Verif.Spec.Attachments
import Verif.Props.Object
import Mathlib.Tactic.NormNum

/-!
# C106: metadata and image layers stay with their surface
-/
set_option linter.unusedSectionVars false
namespace Surfalize.Props
open Surfalize Object Attachments AttachSpec

variable {K V D : Type} [Field K] [LinearOrder K] [FloorRing K]

/-! ## Lemmas -/

theorem construct_none (core : Surf K V) (w : World K V D) :
    construct core none none w = (⟨w.dicts ++ [[], []], w.objs ++ [⟨core, w.dicts.length, w.dicts.length + 1⟩]⟩, w.objs.length) := by
  simp [construct]

theorem construct_objs (core : Surf K V) (a b : Option Nat) (w : World K V D) :
    ∃ ext ra rb, construct core a b w = (⟨w.dicts ++ ext, w.objs ++ [⟨core, ra, rb⟩]⟩, w.objs.length) ∧
      ((∀ r, a = some r → r < w.dicts.length) → (∀ r, b = some r → r < w.dicts.length) →
        ra < w.dicts.length + ext.length ∧ rb < w.dicts.length + ext.length) := by
  cases a with
  | none =>
    cases b with
    | none => exact ⟨[[], []], _, _, construct_none core w, fun _ _ => by simp⟩
    | some r => exact ⟨[[]], w.dicts.length, r, by simp [construct], fun _ h => by have := h r rfl; simp; omega⟩
  | some q =>
    cases b with
    | none => exact ⟨[[]], q, w.dicts.length, by simp [construct], fun h _ => by have := h q rfl; simp; omega⟩
    | some r => exact ⟨[], q, r, by simp [construct], fun h h' => by have := h q rfl; have := h' r rfl; simp; omega⟩

/-- All dictionaries referred to exist. -/
def Sound (w : World K V D) : Prop := ∀ (i : Nat) (o : Obj K V), w.objs[i]? = some o → o.info < w.dicts.length ∧ o.images < w.dicts.length

/-- The world `w'` arises by changing heights of existing surfaces and adding dictionaries and surfaces. -/
def Extends (w w' : World K V D) : Prop :=
  (∃ ext, w'.dicts = w.dicts ++ ext) ∧ w.objs.length ≤ w'.objs.length ∧
    ∀ (i : Nat) (o : Obj K V), w.objs[i]? = some o → ∃ c, w'.objs[i]? = some ⟨c, o.info, o.images⟩

theorem extends_refl (w : World K V D) : Extends w w := ⟨⟨[], by simp⟩, le_refl _, fun i o h => ⟨o.core, h⟩⟩

theorem extends_trans {u v w : World K V D} (h1 : Extends u v) (h2 : Extends v w) : Extends u w := by
  obtain ⟨⟨x, hx⟩, l1, o1⟩ := h1
  obtain ⟨⟨y, hy⟩, l2, o2⟩ := h2
  refine ⟨⟨x ++ y, by rw [hy, hx, List.append_assoc]⟩, le_trans l1 l2, ?_⟩
  intro i o h
  obtain ⟨c, hc⟩ := o1 i o h
  exact o2 i ⟨c, o.info, o.images⟩ hc

theorem extends_update (i : Nat) (c : Surf K V) (w : World K V D) : Extends w (update i c w) := by
  refine ⟨⟨[], by simp [update]⟩, by simp [update], ?_⟩
  intro j o h
  simp only [update, List.getElem?_modify, h]
  by_cases hij : i = j
  · exact ⟨c, by simp [hij]⟩
  · exact ⟨o.core, by simp [hij]⟩

theorem extends_construct (c : Surf K V) (a b : Option Nat) (w : World K V D) : Extends w (construct c a b w).1 := by
  obtain ⟨ext, ra, rb, h, -⟩ := construct_objs c a b w
  rw [h]
  refine ⟨⟨ext, rfl⟩, by simp, ?_⟩
  intro i o ho
  have hi := (List.getElem?_eq_some_iff.1 ho).1
  exact ⟨o.core, by rw [List.getElem?_append_left hi, ho]⟩

theorem extends_step (E : Ext K V) (w : World K V D) (a : Act K V D) (h : NoEdit a) : Extends w (step E w a).1 := by
  have ed : ∀ ds : List (PyDict D), Extends w ⟨w.dicts ++ ds, w.objs⟩ := fun ds => ⟨⟨ds, rfl⟩, le_refl _, fun i o h => ⟨o.core, h⟩⟩
  cases a with
  | dict d => exact ed [d]
  | construct d sx sy info images => exact extends_construct _ _ _ _
  | load d sx sy info images => exact extends_trans (ed [info, images]) (extends_construct (Surf.init d sx sy) (some w.dicts.length) (some (w.dicts.length + 1)) _)
  | call i op inplace =>
    cases ho : w.objs[i]? with
    | none => simp only [step, ho]; exact extends_refl w
    | some o =>
      rcases hr : run E op o.core inplace with e | ⟨s, ret⟩ <;> simp only [step, ho, hr]
      · exact extends_refl w
      · cases ret with
        | self => dsimp only; exact extends_update i s w
        | new t => dsimp only; exact extends_trans (extends_update i s w) (extends_construct _ _ _ _)
        | pair t u => dsimp only; exact extends_trans (extends_trans (extends_update i s w) (extends_construct _ _ _ _)) (extends_construct _ _ _ _)
        | selfPair t => dsimp only; exact extends_trans (extends_update i s w) (extends_construct _ _ _ _)
  | arith f i j =>
    cases ho : w.objs[i]? with
    | none => simp only [step, ho]; exact extends_refl w
    | some o =>
      cases hp : w.objs[j]? with
      | none => simp only [step, ho, hp]; exact extends_refl w
      | some p =>
        rcases hr : arithOp f o.core (.surf p.core) with e | t <;> simp only [step, ho, hp, hr]
        · exact extends_refl w
        · exact extends_construct _ _ _ _
  | scalar f i c =>
    cases ho : w.objs[i]? with
    | none => simp only [step, ho]; exact extends_refl w
    | some o =>
      rcases hr : arithOp f o.core (.scalar c) with e | t <;> simp only [step, ho, hr]
      · exact extends_refl w
      · exact extends_construct _ _ _ _
  | getitem i item =>
    cases ho : w.objs[i]? with
    | none => simp only [step, ho]; exact extends_refl w
    | some o =>
      rcases hr : Geometry.getitem o.core.data o.core.stepY o.core.stepX item with e | ⟨d, sy, sx⟩ <;> simp only [step, ho, hr]
      · exact extends_refl w
      · exact extends_construct _ _ _ _
  | assign i d =>
    cases ho : w.objs[i]? with
    | none => simp only [step, ho]; exact extends_refl w
    | some o => simp only [step, ho]; exact extends_update i _ w
  | edit r f => exact h.elim
  | setInfo i r => exact h.elim
  | setImages i r => exact h.elim

theorem extends_same {w w' : World K V D} (hs : Sound w) (h : Extends w w') {i : Nat} (hi : i < w.objs.length) :
    metadataOf w' i = metadataOf w i ∧ imagesOf w' i = imagesOf w i := by
  obtain ⟨⟨ext, hd⟩, -, ho⟩ := h
  have hio : w.objs[i]? = some w.objs[i] := List.getElem?_eq_getElem hi
  obtain ⟨c, hc⟩ := ho i _ hio
  obtain ⟨h1, h2⟩ := hs i _ hio
  unfold metadataOf imagesOf
  rw [hc, hio, Option.bind_some, Option.bind_some, Option.bind_some, Option.bind_some, hd]
  dsimp only
  rw [List.getElem?_append_left h1, List.getElem?_append_left h2]
  exact ⟨rfl, rfl⟩

theorem sound_construct {c : Surf K V} {a b : Option Nat} {w : World K V D} (hs : Sound w) (ha : ∀ r, a = some r → r < w.dicts.length)
    (hb : ∀ r, b = some r → r < w.dicts.length) : Sound (construct c a b w).1 := by
  obtain ⟨ext, ra, rb, h, hr⟩ := construct_objs c a b w
  obtain ⟨hra, hrb⟩ := hr ha hb
  rw [h]
  intro i o ho
  dsimp only at ho ⊢
  rw [List.length_append]
  rcases Nat.lt_or_ge i w.objs.length with hi | hi
  · rw [List.getElem?_append_left hi] at ho
    have := hs i o ho
    omega
  · rw [List.getElem?_append_right hi, List.getElem?_singleton] at ho
    split at ho
    · injection ho with ho
      subst ho
      exact ⟨hra, hrb⟩
    · cases ho

theorem sound_update {c : Surf K V} {i : Nat} {w : World K V D} (hs : Sound w) : Sound (update i c w) := by
  intro j o ho
  simp only [update, List.getElem?_modify] at ho ⊢
  cases hj : w.objs[j]? with
  | none => rw [hj] at ho; cases ho
  | some p =>
    rw [hj, Option.map_eq_map, Option.map_some] at ho
    injection ho with ho
    have := hs j p hj
    by_cases hij : i = j
    · simp only [hij, if_true] at ho; subst ho; exact this
    · simp only [hij, if_false] at ho; subst ho; exact this

theorem sound_step (E : Ext K V) {w : World K V D} (a : Act K V D) (hs : Sound w) (hl : Legal w a) : Sound (step E w a).1 := by
  have ed : ∀ ds : List (PyDict D), Sound (⟨w.dicts ++ ds, w.objs⟩ : World K V D) := by
    intro ds i o ho
    have := hs i o ho
    simp only [List.length_append]
    omega
  have new : ∀ {v : World K V D} (t : Surf K V), Sound v → Sound (construct t none none v).1 := fun t hv =>
    sound_construct hv (fun _ h => by cases h) (fun _ h => by cases h)
  cases a with
  | dict d => exact ed [d]
  | construct d sx sy info images => exact sound_construct hs hl.1 hl.2
  | load d sx sy info images =>
    refine sound_construct (c := Surf.init d sx sy) (a := some w.dicts.length) (b := some (w.dicts.length + 1)) (ed [info, images]) ?_ ?_
    · intro r hr
      injection hr with hr
      simp only [List.length_append, List.length_cons, List.length_nil]
      omega
    · intro r hr
      injection hr with hr
      simp only [List.length_append, List.length_cons, List.length_nil]
      omega
  | call i op inplace =>
    cases ho : w.objs[i]? with
    | none => simp only [step, ho]; exact hs
    | some o =>
      rcases hr : run E op o.core inplace with e | ⟨s, ret⟩ <;> simp only [step, ho, hr]
      · exact hs
      · cases ret with
        | self => dsimp only; exact sound_update hs
        | new t => dsimp only; exact new t (sound_update hs)
        | pair t u => dsimp only; exact new u (new t (sound_update hs))
        | selfPair t => dsimp only; exact new t (sound_update hs)
  | arith f i j =>
    cases ho : w.objs[i]? with
    | none => simp only [step, ho]; exact hs
    | some o =>
      cases hp : w.objs[j]? with
      | none => simp only [step, ho, hp]; exact hs
      | some p =>
        rcases hr : arithOp f o.core (.surf p.core) with e | t <;> simp only [step, ho, hp, hr]
        · exact hs
        · exact new t hs
  | scalar f i c =>
    cases ho : w.objs[i]? with
    | none => simp only [step, ho]; exact hs
    | some o =>
      rcases hr : arithOp f o.core (.scalar c) with e | t <;> simp only [step, ho, hr]
      · exact hs
      · exact new t hs
  | getitem i item =>
    cases ho : w.objs[i]? with
    | none => simp only [step, ho]; exact hs
    | some o =>
      rcases hr : Geometry.getitem o.core.data o.core.stepY o.core.stepX item with e | ⟨d, sy, sx⟩ <;> simp only [step, ho, hr]
      · exact hs
      · exact new _ hs
  | assign i d =>
    cases ho : w.objs[i]? with
    | none => simp only [step, ho]; exact hs
    | some o => simp only [step, ho]; exact sound_update hs
  | edit r f =>
    intro i o ho
    have := hs i o ho
    simpa [step] using this
  | setInfo i r =>
    intro j o ho
    simp only [step, List.getElem?_modify] at ho ⊢
    cases hj : w.objs[j]? with
    | none => rw [hj] at ho; cases ho
    | some p =>
      rw [hj, Option.map_eq_map, Option.map_some] at ho
      injection ho with ho
      have := hs j p hj
      have hl : r < w.dicts.length := hl
      by_cases hij : i = j
      · simp only [hij, if_true] at ho; subst ho; exact ⟨hl, this.2⟩
      · simp only [hij, if_false] at ho; subst ho; exact this
  | setImages i r =>
    intro j o ho
    simp only [step, List.getElem?_modify] at ho ⊢
    cases hj : w.objs[j]? with
    | none => rw [hj] at ho; cases ho
    | some p =>
      rw [hj, Option.map_eq_map, Option.map_some] at ho
      injection ho with ho
      have := hs j p hj
      have hl : r < w.dicts.length := hl
      by_cases hij : i = j
      · simp only [hij, if_true] at ho; subst ho; exact ⟨this.1, hl⟩
      · simp only [hij, if_false] at ho; subst ho; exact this

theorem reach_sound {E : Ext K V} {P : Act K V D → Prop} {w : World K V D} (h : Reach E P w) : Sound w := by
  induction h with
  | init => intro i o ho; simp at ho
  | step a _ hl _ ih => exact sound_step E a ih hl

/-! ## The property -/

/-- **C106** (loading). A loaded surface has the metadata and the image layers of the file, and lists the names of the layers in the order of the file. -/
theorem C106_load (E : Ext K V) (w : World K V D) (d : Grid (Option K)) (sx sy : K) (info images : PyDict D) :
    (step E w (.load d sx sy info images)).2 = [w.objs.length] ∧
      metadataOf (step E w (.load d sx sy info images)).1 w.objs.length = some info ∧
      imagesOf (step E w (.load d sx sy info images)).1 w.objs.length = some images ∧
      layerNames (step E w (.load d sx sy info images)).1 w.objs.length = some (images.map (·.1)) := by
  have h : step E w (.load d sx sy info images) = ((⟨w.dicts ++ [info, images],
      w.objs ++ [⟨Surf.init d sx sy, w.dicts.length, w.dicts.length + 1⟩]⟩ : World K V D), [w.objs.length]) := rfl
  rw [h]
  simp [metadataOf, imagesOf, layerNames]

/-- **C106** (nothing is lost). After any history, no action other than an edit of dictionaries by the caller changes the metadata or the
image layers of any existing surface: no method in place or not, no arithmetic, slicing, assignment of heights, construction or loading. -/
theorem C106_kept (E : Ext K V) {P : Act K V D → Prop} {w : World K V D} (hw : Reach E P w) (a : Act K V D) (ha : NoEdit a) {i : Nat}
    (hi : i < w.objs.length) :
    metadataOf (step E w a).1 i = metadataOf w i ∧ imagesOf (step E w a).1 i = imagesOf w i :=
  extends_same (reach_sound hw) (extends_step E w a ha) hi

/-! ## Isolation -/

/-- No two attributes of surfaces refer to the same dictionary. -/
def Apart (w : World K V D) : Prop :=
  ∀ (i j : Nat) (o p : Obj K V), w.objs[i]? = some o → w.objs[j]? = some p →
    o.info ≠ p.images ∧ (i ≠ j → o.info ≠ p.info ∧ o.images ≠ p.images)

theorem apart_new {t : Surf K V} {w : World K V D} (hs : Sound w) (ha : Apart w) : Apart (construct t none none w).1 := by
  rw [construct_none]
  have key : ∀ (i : Nat) (o : Obj K V), (w.objs ++ [⟨t, w.dicts.length, w.dicts.length + 1⟩])[i]? = some o →
      (i < w.objs.length ∧ w.objs[i]? = some o) ∨ (i = w.objs.length ∧ o = ⟨t, w.dicts.length, w.dicts.length + 1⟩) := by
    intro i o ho
    rcases Nat.lt_or_ge i w.objs.length with hi | hi
    · rw [List.getElem?_append_left hi] at ho
      exact .inl ⟨hi, ho⟩
    · rw [List.getElem?_append_right hi, List.getElem?_singleton] at ho
      split at ho
      · injection ho with ho
        exact .inr ⟨by omega, ho.symm⟩
      · cases ho
  intro i j o p ho hp
  rcases key i o ho with ⟨hi, ho⟩ | ⟨hi, ho⟩ <;> rcases key j p hp with ⟨hj, hp⟩ | ⟨hj, hp⟩
  · exact ha i j o p ho hp
  · have := hs i o ho
    subst hp
    refine ⟨?_, fun _ => ⟨?_, ?_⟩⟩ <;> dsimp only <;> omega
  · have := hs j p hp
    subst ho
    refine ⟨?_, fun _ => ⟨?_, ?_⟩⟩ <;> dsimp only <;> omega
  · subst ho hp
    refine ⟨?_, fun _ => ⟨?_, ?_⟩⟩ <;> dsimp only <;> omega

theorem modify_refs {w : World K V D} {i j : Nat} {c : Surf K V} {o : Obj K V} (h : (update i c w).objs[j]? = some o) :
    ∃ p : Obj K V, w.objs[j]? = some p ∧ o.info = p.info ∧ o.images = p.images := by
  simp only [update, List.getElem?_modify] at h
  cases hj : w.objs[j]? with
  | none => rw [hj] at h; cases h
  | some p =>
    rw [hj] at h
    refine ⟨p, rfl, ?_⟩
    by_cases hij : i = j
    · simp [hij] at h; subst h; exact ⟨rfl, rfl⟩
    · simp [hij] at h; subst h; exact ⟨rfl, rfl⟩

theorem apart_update {i : Nat} {c : Surf K V} {w : World K V D} (ha : Apart w) : Apart (update i c w) := by
  intro j k o p ho hp
  obtain ⟨o', h1, e1, e2⟩ := modify_refs ho
  obtain ⟨p', h2, f1, f2⟩ := modify_refs hp
  rw [e1, e2, f1, f2]
  exact ha j k o' p' h1 h2

theorem apart_step (E : Ext K V) {w : World K V D} (a : Act K V D) (hs : Sound w) (ha : Apart w) (hk : KeepsDicts a) :
    Apart (step E w a).1 := by
  have new : ∀ {v : World K V D} (t : Surf K V), Sound v → Sound (construct t none none v).1 := fun t hv =>
    sound_construct hv (fun _ h => by cases h) (fun _ h => by cases h)
  cases a with
  | dict d => exact ha
  | construct d sx sy info images =>
    obtain ⟨rfl, rfl⟩ := hk
    exact apart_new hs ha
  | load d sx sy info images =>
    have h := apart_new (t := (Surf.init d sx sy : Surf K V)) hs ha
    rw [construct_none] at h
    exact h
  | call i op inplace =>
    cases ho : w.objs[i]? with
    | none => simp only [step, ho]; exact ha
    | some o =>
      rcases hr : run E op o.core inplace with e | ⟨s, ret⟩ <;> simp only [step, ho, hr]
      · exact ha
      · cases ret with
        | self => dsimp only; exact apart_update ha
        | new t => dsimp only; exact apart_new (sound_update hs) (apart_update ha)
        | pair t u =>
          dsimp only
          exact apart_new (new t (sound_update hs)) (apart_new (sound_update hs) (apart_update ha))
        | selfPair t => dsimp only; exact apart_new (sound_update hs) (apart_update ha)
  | arith f i j =>
    cases ho : w.objs[i]? with
    | none => simp only [step, ho]; exact ha
    | some o =>
      cases hp : w.objs[j]? with
      | none => simp only [step, ho, hp]; exact ha
      | some p =>
        rcases hr : arithOp f o.core (.surf p.core) with e | t <;> simp only [step, ho, hp, hr]
        · exact ha
        · exact apart_new hs ha
  | scalar f i c =>
    cases ho : w.objs[i]? with
    | none => simp only [step, ho]; exact ha
    | some o =>
      rcases hr : arithOp f o.core (.scalar c) with e | t <;> simp only [step, ho, hr]
      · exact ha
      · exact apart_new hs ha
  | getitem i item =>
    cases ho : w.objs[i]? with
    | none => simp only [step, ho]; exact ha
    | some o =>
      rcases hr : Geometry.getitem o.core.data o.core.stepY o.core.stepX item with e | ⟨d, sy, sx⟩ <;> simp only [step, ho, hr]
      · exact ha
      · exact apart_new hs ha
  | assign i d =>
    cases ho : w.objs[i]? with
    | none => simp only [step, ho]; exact ha
    | some o => simp only [step, ho]; exact apart_update ha
  | edit r f => exact ha
  | setInfo i r => exact hk.elim
  | setImages i r => exact hk.elim

theorem reach_apart {E : Ext K V} {w : World K V D} (h : Reach E KeepsDicts w) : Apart w := by
  induction h with
  | init => intro i j o p ho; simp at ho
  | step a hw hl hk ih => exact apart_step E a (reach_sound hw) ih hk

/-- **C106** (isolation). After any history in which the caller hands over no dictionaries of their own, an edit of the metadata of a
surface changes the metadata of that surface, and neither its image layers nor the metadata or image layers of any other surface; the
same for an edit of the image layers. -/
theorem C106_isolated_partial (E : Ext K V) {w : World K V D} (hw : Reach E KeepsDicts w) (i : Nat) (o : Obj K V)
    (ho : w.objs[i]? = some o) (f : PyDict D → PyDict D) :
    (metadataOf (step E w (.edit o.info f)).1 i = (metadataOf w i).map f ∧
      imagesOf (step E w (.edit o.info f)).1 i = imagesOf w i ∧
      ∀ j, j ≠ i → metadataOf (step E w (.edit o.info f)).1 j = metadataOf w j ∧
        imagesOf (step E w (.edit o.info f)).1 j = imagesOf w j) ∧
    (imagesOf (step E w (.edit o.images f)).1 i = (imagesOf w i).map f ∧
      metadataOf (step E w (.edit o.images f)).1 i = metadataOf w i ∧
      ∀ j, j ≠ i → metadataOf (step E w (.edit o.images f)).1 j = metadataOf w j ∧
        imagesOf (step E w (.edit o.images f)).1 j = imagesOf w j) := by
  have ha := reach_apart hw
  have me : ∀ (q : Nat) (j : Nat), (∀ p, w.objs[j]? = some p → q ≠ p.info) →
      metadataOf (step E w (.edit q f)).1 j = metadataOf w j := by
    intro q j h
    cases hj : w.objs[j]? with
    | none => simp [metadataOf, step, hj]
    | some p => simp [metadataOf, step, hj, List.getElem?_modify, h p hj]
  have im : ∀ (q : Nat) (j : Nat), (∀ p, w.objs[j]? = some p → q ≠ p.images) →
      imagesOf (step E w (.edit q f)).1 j = imagesOf w j := by
    intro q j h
    cases hj : w.objs[j]? with
    | none => simp [imagesOf, step, hj]
    | some p => simp [imagesOf, step, hj, List.getElem?_modify, h p hj]
  refine ⟨⟨?_, im _ i fun p hp => (ha i i o p ho hp).1, fun j hj => ⟨me _ j fun p hp => ((ha i j o p ho hp).2 hj.symm).1,
    im _ j fun p hp => (ha i j o p ho hp).1⟩⟩, ⟨?_, me _ i fun p hp => (ha i i p o hp ho).1.symm,
    fun j hj => ⟨me _ j fun p hp => (ha j i p o hp ho).1.symm, im _ j fun p hp => ((ha i j o p ho hp).2 hj.symm).2⟩⟩⟩
  · simp [metadataOf, step, ho, List.getElem?_modify]
  · simp [imagesOf, step, ho, List.getElem?_modify]

/-- **C106** (a dictionary handed over twice). Two surfaces constructed with the same metadata dictionary share it: an entry
added to the metadata of the first appears in the metadata of the second. -/
theorem C106_shared_violated (E : Ext K V) (d : Grid (Option K)) (sx sy : K) (v : D) :
    ∃ (acts : List (Act K V D)) (o : Obj K V), (runs E acts).objs[0]? = some o ∧ metadataOf (runs E acts) 1 = some [] ∧
      metadataOf (step E (runs E acts) (.edit o.info (PyDict.set "sample" v))).1 1 = some [("sample", v)] :=
  ⟨[.dict [], .construct d sx sy (some 0) none, .construct d sx sy (some 0) none], ⟨Surf.init d sx sy, 0, 1⟩,
    rfl, rfl, rfl⟩

/-! ## Copies -/

/-- `run` without `inplace` hands back the receiver only from `fill_nonmeasured` of complete data, and never changes it. -/
theorem run_copy (E : Ext K V) (op : SOp K) (s : Surf K V) {s' : Surf K V} {ret : Ret K V} (h : run E op s false = .ok (s', ret)) :
    (∃ t, ret = .new t) ∨ (∃ t u, ret = .pair t u) ∨ (ret = .self ∧ ∃ m, op = .fillNonmeasured m ∧ BaseOps.hasMissing s.data = false) := by
  have fin : ∀ (x : Except Err (Grid (Option K))), (x.map fun d => finish s d false) = .ok (s', ret) → ∃ t, ret = .new t := by
    intro x hx
    cases x with
    | error e => cases hx
    | ok d => cases hx; exact ⟨_, rfl⟩
  have finS : ∀ (x : Except Err (Grid (Option K))), (x.map fun d => finishSurface s d false) = .ok (s', ret) → ∃ t, ret = .new t := by
    intro x hx
    cases x with
    | error e => cases hx
    | ok d => cases hx; exact ⟨_, rfl⟩
  have det : ∀ n rt, detrend E n rt s false = .ok (s', ret) → (∃ t, ret = .new t) ∨ ∃ t u, ret = .pair t u := by
    intro n rt h
    unfold detrend at h
    cases ht : E.trend n s.data with
    | error e => rw [ht] at h; cases h
    | ok t =>
      rw [ht] at h
      cases rt
      · cases h; exact .inl ⟨_, rfl⟩
      · cases h; exact .inr ⟨_, _, rfl⟩
  have rot : ∀ a, rotate E a s false = .ok (s', ret) → ∃ t, ret = .new t := by
    intro a h
    unfold rotate at h
    split at h
    · cases h
    · cases ht : E.rotated a s with
      | error e => rw [ht] at h; cases h
      | ok t => rw [ht] at h; cases h; exact ⟨_, rfl⟩
  cases op with
  | center => cases h; exact .inl ⟨_, rfl⟩
  | zero => exact .inl (fin _ h)
  | invert => exact .inl (fin _ h)
  | removeOutliersMean n => cases h; exact .inl ⟨_, rfl⟩
  | removeOutliersMedian n => cases h; exact .inl ⟨_, rfl⟩
  | removeOutliersOther => cases h
  | threshold u l => exact .inl (fin _ h)
  | filter mode c c2 =>
    simp only [run] at h
    cases hf : Filter.filter (E.smooth s) mode c c2 false s.data with
    | error e => rw [hf] at h; cases h
    | ok x =>
      rw [hf] at h
      cases x with
      | one d => cases h; exact .inl ⟨_, rfl⟩
      | two a b => cases h; exact .inr (.inl ⟨_, _, rfl⟩)
  | fillNonmeasured m =>
    by_cases hm : BaseOps.hasMissing s.data = true
    · simp only [run, if_pos hm] at h
      exact .inl (finS _ h)
    · simp only [run, if_neg hm] at h
      cases h
      exact .inr (.inr ⟨rfl, m, rfl, by simpa using hm⟩)
  | detrend n rt => exact (det _ _ h).imp id .inl
  | level rt => exact (det _ _ h).imp id .inl
  | rotate a => exact .inl (rot _ h)
  | zoom f => exact .inl (finS _ h)
  | cropPx x0 x1 y0 y1 => exact .inl (finS _ h)
  | cropUnits x0 x1 y0 y1 =>
    by_cases hz : s.stepX = 0 ∨ s.stepY = 0
    · simp only [run, if_pos hz] at h; cases h
    · simp only [run, if_neg hz] at h; exact .inl (finS _ h)
  | align axis m =>
    by_cases hax : axis ≠ "x" ∧ axis ≠ "y"
    · simp only [run, if_pos hax] at h; cases h
    · cases ho : E.orientation m s with
      | error e => simp only [run, if_neg hax, ho] at h; cases h
      | ok a => simp only [run, if_neg hax, ho] at h; exact .inl (rot _ h)
  | stepheightLevel =>
    cases hp : E.stepPlane s with
    | error e => simp only [run, hp] at h; cases h
    | ok p => simp only [run, hp] at h; cases h; exact .inl ⟨_, rfl⟩

theorem bare_new (t : Surf K V) (w : World K V D) :
    metadataOf (construct t none none w).1 (construct t none none w).2 = some [] ∧
      imagesOf (construct t none none w).1 (construct t none none w).2 = some [] := by
  rw [construct_none]
  simp [metadataOf, imagesOf]

/-- The action makes a surface from others, without `inplace`, and `i` is its first operand. -/
def Copying (i : Nat) : Act K V D → Prop
  | .call j _ inplace => j = i ∧ inplace = false
  | .arith _ j _ => j = i
  | .scalar _ j _ => j = i
  | .getitem j _ => j = i
  | _ => False

/-- **C106** (copies). What a method without `inplace`, arithmetic or slicing returns is a new surface with empty metadata and no image
layers; only `fill_nonmeasured` on complete data returns the surface itself, with its own. -/
theorem C106_copies (E : Ext K V) {P : Act K V D → Prop} {w : World K V D} (hw : Reach E P w) (i : Nat) (a : Act K V D) (ha : Copying i a)
    (r : Nat) (hr : r ∈ (step E w a).2) :
    (w.objs.length ≤ r ∧ metadataOf (step E w a).1 r = some [] ∧ imagesOf (step E w a).1 r = some []) ∨
      (r = i ∧ (∃ m, a = .call i (.fillNonmeasured m) false) ∧ metadataOf (step E w a).1 r = metadataOf w i ∧
        imagesOf (step E w a).1 r = imagesOf w i) := by
  have fresh : ∀ (t : Surf K V) (v : World K V D), w.objs.length ≤ v.objs.length → r = (construct t none none v).2 →
      (w.objs.length ≤ r ∧ metadataOf (construct t none none v).1 r = some [] ∧ imagesOf (construct t none none v).1 r = some []) := by
    intro t v hv he
    subst he
    refine ⟨?_, bare_new t v⟩
    rw [construct_none]
    exact hv
  cases a with
  | call j op inplace =>
    obtain ⟨rfl, rfl⟩ := ha
    cases ho : w.objs[j]? with
    | none => simp [step, ho] at hr
    | some o =>
      rcases hrun : run E op o.core false with e | ⟨s, ret⟩
      · simp [step, ho, hrun] at hr
      · rcases run_copy E op o.core hrun with ⟨t, rfl⟩ | ⟨t, u, rfl⟩ | ⟨rfl, m, rfl, -⟩
        · simp only [step, ho, hrun, List.mem_singleton] at hr ⊢
          exact .inl (fresh t _ (by simp [update]) hr)
        · simp only [step, ho, hrun, List.mem_cons, List.not_mem_nil, or_false] at hr ⊢
          refine .inl ?_
          rcases hr with hr | hr
          · have hb := bare_new t (update j s w)
            have h2 : r < (construct t none none (update j s w)).1.objs.length := by rw [hr, construct_none]; simp
            have hsn : Sound (construct t none none (update j s w)).1 :=
              sound_construct (sound_update (reach_sound hw)) (fun _ h => by cases h) (fun _ h => by cases h)
            have := extends_same hsn (extends_construct u none none _) h2
            rw [this.1, this.2, hr]
            refine ⟨?_, hb⟩
            rw [construct_none]
            simp [update]
          · exact fresh u _ (by rw [construct_none]; simp [update]) hr
        · have hk := extends_same (reach_sound hw) (extends_step E w (.call j (.fillNonmeasured m) false) trivial)
            (List.getElem?_eq_some_iff.1 ho).1
          simp only [step, ho, hrun, List.mem_singleton] at hr hk ⊢
          subst hr
          exact .inr ⟨rfl, ⟨m, rfl⟩, hk⟩
  | arith f j k =>
    cases ho : w.objs[j]? with
    | none => simp [step, ho] at hr
    | some o =>
      cases hp : w.objs[k]? with
      | none => simp [step, ho, hp] at hr
      | some p =>
        rcases hrun : arithOp f o.core (.surf p.core) with e | t
        · simp [step, ho, hp, hrun] at hr
        · simp only [step, ho, hp, hrun, List.mem_singleton] at hr ⊢
          exact .inl (fresh t _ (le_refl _) hr)
  | scalar f j c =>
    cases ho : w.objs[j]? with
    | none => simp [step, ho] at hr
    | some o =>
      rcases hrun : arithOp f o.core (.scalar c) with e | t
      · simp [step, ho, hrun] at hr
      · simp only [step, ho, hrun, List.mem_singleton] at hr ⊢
        exact .inl (fresh t _ (le_refl _) hr)
  | getitem j item =>
    cases ho : w.objs[j]? with
    | none => simp [step, ho] at hr
    | some o =>
      rcases hrun : Geometry.getitem o.core.data o.core.stepY o.core.stepX item with e | ⟨d, sy, sx⟩
      · simp [step, ho, hrun] at hr
      · simp only [step, ho, hrun, List.mem_singleton] at hr ⊢
        exact .inl (fresh _ _ (le_refl _) hr)
  | dict d => exact ha.elim
  | construct d sx sy info images => exact ha.elim
  | load d sx sy info images => exact ha.elim
  | assign i d => exact ha.elim
  | edit r f => exact ha.elim
  | setInfo i r => exact ha.elim
  | setImages i r => exact ha.elim

/-- **C106** (copies are not otherwise identical). Whatever the file, the centred copy of a loaded surface has lost its metadata and
image layers. -/
theorem C106_copy_violated (E : Ext K V) (d : Grid (Option K)) (sx sy : K) (info images : PyDict D) :
    ∃ acts : List (Act K V D), metadataOf (runs E acts) 0 = some info ∧ imagesOf (runs E acts) 0 = some images ∧
      (runs E acts).objs.length = 2 ∧ metadataOf (runs E acts) 1 = some [] ∧ imagesOf (runs E acts) 1 = some [] :=
  ⟨[.load d sx sy info images, .call 0 .center false], rfl, rfl, rfl, rfl, rfl⟩

/-! ## Raster -/

theorem overwrite_size (s : Surf K V) (d : Grid (Option K)) : (s.overwrite (some d) none none).data = d := rfl

theorem run_size {E : Ext K V} (hE : KeepsSize E) {op : SOp K} (hop : ¬ Geometric op) (s : Surf K V) {s' : Surf K V} {ret : Ret K V} {b : Bool}
    (h : run E op s b = .ok (s', ret)) : s'.data.ny = s.data.ny ∧ s'.data.nx = s.data.nx := by
  have one : ∀ (d : Grid (Option K)), d.ny = s.data.ny ∧ d.nx = s.data.nx → finish s d b = (s', ret) →
      s'.data.ny = s.data.ny ∧ s'.data.nx = s.data.nx := by
    intro d hd hx
    cases b
    · cases hx; exact ⟨rfl, rfl⟩
    · cases hx; exact hd
  have mp : ∀ f : Option K → Option K, (Container.map f s.data).ny = s.data.ny ∧ (Container.map f s.data).nx = s.data.nx :=
    fun f => ⟨map_ny f _, rfl⟩
  have sm : ∀ c g, (E.smooth s c g).ny = g.ny ∧ (E.smooth s c g).nx = g.nx := fun c g => hE.gauss _ _ g
  have zp : ∀ g h : Grid (Option K), h.ny = g.ny → (ZipContainer.zipW osub g h).ny = g.ny ∧ (ZipContainer.zipW osub g h).nx = g.nx :=
    fun g h e => ⟨zip_ny e.symm, rfl⟩
  have det : ∀ n rt, detrend E n rt s b = .ok (s', ret) → s'.data.ny = s.data.ny ∧ s'.data.nx = s.data.nx := by
    intro n rt h
    unfold detrend at h
    cases ht : E.trend n s.data with
    | error e => rw [ht] at h; cases h
    | ok t =>
      rw [ht] at h
      cases b
      · cases h; exact ⟨rfl, rfl⟩
      · cases h; exact zp _ _ (hE.trend n _ _ ht).1
  cases op with
  | center => exact one _ (mp _) (Except.ok.inj h)
  | zero =>
    simp only [run, BaseOps.zero] at h
    split at h
    · cases h
    · exact one _ (mp _) (Except.ok.inj h)
  | invert =>
    simp only [run, BaseOps.invert] at h
    split at h
    · cases h
    · exact one _ (mp _) (Except.ok.inj h)
  | removeOutliersMean n => exact one _ (mp _) (Except.ok.inj h)
  | removeOutliersMedian n => exact one _ (mp _) (Except.ok.inj h)
  | removeOutliersOther => cases h
  | threshold u l =>
    simp only [run, BaseOps.threshold] at h
    split at h
    · cases h
    · split at h
      · cases h
      · exact one _ (mp _) (Except.ok.inj h)
  | filter mode c c2 =>
    simp only [run] at h
    cases hf : Filter.filter (E.smooth s) mode c c2 b s.data with
    | error e => rw [hf] at h; cases h
    | ok x =>
      rw [hf] at h
      cases x with
      | two a b => cases h; exact ⟨rfl, rfl⟩
      | one d =>
        refine one d ?_ (Except.ok.inj h)
        simp only [Filter.filter, BaseOps.noNonmeasured] at hf
        split at hf
        · cases hf
        · split at hf
          · cases hf
          · split at hf
            · cases hf
            · split at hf
              · cases c2 with
                | none => cases hf
                | some q =>
                  dsimp only at hf
                  split at hf
                  · cases hf
                  · cases hf
                    have h1 := sm c s.data
                    have h2 := zp (E.smooth s c s.data) (E.smooth s q (E.smooth s c s.data)) (sm q _).1
                    exact ⟨h2.1.trans h1.1, h2.2.trans h1.2⟩
              · split at hf
                · cases hf; exact sm c s.data
                · split at hf
                  · cases hf; exact zp _ _ (sm c s.data).1
                  · cases hf
  | fillNonmeasured m =>
    by_cases hm : BaseOps.hasMissing s.data = true
    · simp only [run, if_pos hm] at h
      cases hg : E.griddata m s.data with
      | error e => rw [hg] at h; cases h
      | ok d => rw [hg] at h; exact one d (hE.griddata m _ _ hg) (Except.ok.inj h)
    · simp only [run, if_neg hm] at h
      cases h
      exact ⟨rfl, rfl⟩
  | detrend n rt => exact det _ _ h
  | level rt => exact det _ _ h
  | rotate a => exact (hop trivial).elim
  | zoom f => exact (hop trivial).elim
  | cropPx x0 x1 y0 y1 => exact (hop trivial).elim
  | cropUnits x0 x1 y0 y1 => exact (hop trivial).elim
  | align axis m => exact (hop trivial).elim
  | stepheightLevel =>
    cases hp : E.stepPlane s with
    | error e => simp only [run, hp] at h; cases h
    | ok p =>
      simp only [run, hp] at h
      cases b
      · cases h; exact ⟨rfl, rfl⟩
      · cases h; exact zp _ _ (hE.plane s p hp).1

theorem construct_keep (t : Surf K V) (a b : Option Nat) {v : World K V D} {j : Nat} {o : Obj K V} (h : v.objs[j]? = some o) :
    (construct t a b v).1.objs[j]? = some o := by
  obtain ⟨ext, ra, rb, hc, -⟩ := construct_objs t a b v
  rw [hc]
  dsimp only
  rw [List.getElem?_append_left (List.getElem?_eq_some_iff.1 h).1, h]

/-- **C106** (raster). If the image layers of a surface have as many rows and columns as its heights, they still have after any method that
does not rotate, align, zoom or crop, in place or not, of this or another surface. -/
theorem C106_raster_partial {E : Ext K V} (hE : KeepsSize E) {P : Act K V D → Prop} {w : World K V D} (hw : Reach E P w)
    (size : D → Nat × Nat) (i j : Nat) (op : SOp K) (hop : ¬ Geometric op) (inplace : Bool) (hj : j < w.objs.length)
    (h : Matching size w j) : Matching size (step E w (.call i op inplace)).1 j := by
  have hsame := (extends_same (reach_sound hw) (extends_step E w (.call i op inplace) trivial) hj).2
  have hjo : w.objs[j]? = some w.objs[j] := List.getElem?_eq_getElem hj
  have key : ∃ o, (step E w (.call i op inplace)).1.objs[j]? = some o ∧ o.core.data.ny = w.objs[j].core.data.ny ∧
      o.core.data.nx = w.objs[j].core.data.nx := by
    have upd : ∀ (p : Obj K V) (s : Surf K V) (ret : Ret K V), w.objs[i]? = some p → run E op p.core inplace = .ok (s, ret) →
        ∃ o, (update i s w).objs[j]? = some o ∧ o.core.data.ny = w.objs[j].core.data.ny ∧ o.core.data.nx = w.objs[j].core.data.nx := by
      intro p s ret hp hr
      by_cases hij : i = j
      · subst hij
        rw [hjo] at hp
        injection hp with hp
        refine ⟨⟨s, w.objs[i].info, w.objs[i].images⟩, by simp [update, hj], ?_⟩
        rw [← hp] at hr
        exact run_size hE hop _ hr
      · exact ⟨w.objs[j], by simp [update, hij, hj], rfl, rfl⟩
    cases ho : w.objs[i]? with
    | none => simp only [step, ho]; exact ⟨_, hjo, rfl, rfl⟩
    | some p =>
      rcases hr : run E op p.core inplace with e | ⟨s, ret⟩ <;> simp only [step, ho, hr]
      · exact ⟨_, hjo, rfl, rfl⟩
      · obtain ⟨o, h1, h2⟩ := upd p s ret ho hr
        cases ret with
        | self => dsimp only; exact ⟨o, h1, h2⟩
        | new t => dsimp only; exact ⟨o, construct_keep t none none h1, h2⟩
        | pair t u => dsimp only; exact ⟨o, construct_keep u none none (construct_keep t none none h1), h2⟩
        | selfPair t => dsimp only; exact ⟨o, construct_keep t none none h1, h2⟩
  intro o d ho hd e he
  rw [hsame] at hd
  obtain ⟨o', h1, h2, h3⟩ := key
  rw [h1] at ho
  injection ho with ho
  subst ho
  rw [h _ d hjo hd e he, h2, h3]

/-- **C106** (a crop in place keeps the uncropped images). A surface loaded with an image of its own size has, after `crop(inplace=True)`, still that
image, which is larger than the heights; so has the file saved from it. -/
theorem C106_raster_violated (E : Ext ℚ V) (D : Type) (size : D → Nat × Nat) (v : D) (hv : size v = (3, 3)) :
    ∃ d : Grid (Option ℚ), ∃ acts : List (Act ℚ V D), acts = [.load d 1 1 [] [("Intensity", v)]] ∧ Matching size (runs E acts) 0 ∧
      imagesOf (step E (runs E acts) (.call 0 (.cropPx 0 1 0 1) true)).1 0 = some [("Intensity", v)] ∧
      ¬ Matching size (step E (runs E acts) (.call 0 (.cropPx 0 1 0 1) true)).1 0 := by
  refine ⟨⟨[[some 1, some 2, some 3], [some 4, some 5, some 6], [some 7, some 8, some 9]], 3⟩, _, rfl, ?_, rfl, ?_⟩
  · intro o d ho hd e he
    cases ho
    cases hd
    simp only [List.mem_singleton] at he
    subst he
    exact hv
  · intro h
    have := h _ [("Intensity", v)] rfl rfl _ (List.mem_singleton.2 rfl)
    rw [hv] at this
    cases this

/-- A routine that keeps sizes: the hypotheses of `C106_raster_partial` can be met. -/
def sameSize : Ext ℚ Unit where
  std _ := 0
  gauss _ _ g := g
  sigma c := c
  griddata _ g := .ok g
  trend _ g := .ok g
  rotated _ s := .ok (s.data, s.stepX, s.stepY)
  orientation _ _ := .ok 0
  stepPlane s := .ok s.data
  stepMask _ := ()

theorem sameSize_keeps : KeepsSize sameSize where
  gauss _ _ _ := ⟨rfl, rfl⟩
  griddata _ _ _ h := by cases h; exact ⟨rfl, rfl⟩
  trend _ _ _ h := by cases h; exact ⟨rfl, rfl⟩
  plane _ _ h := by cases h; exact ⟨rfl, rfl⟩

/-- A world with two loaded surfaces, reached without dictionaries of the caller. -/
def twoSurfaces : World ℚ Unit (Nat × Nat) := runs sameSize
  [.load ⟨[[some 1, some 2], [some 4, some 5]], 2⟩ 1 1 [("maker", (0, 0))] [("Intensity", (2, 2))],
   .load ⟨[[some 1, some 2]], 2⟩ 1 1 [("maker", (0, 0))] []]

theorem twoSurfaces_reach : Reach sameSize KeepsDicts twoSurfaces :=
  .step (.load ⟨[[some 1, some 2]], 2⟩ 1 1 [("maker", (0, 0))] [])
    (.step (.load ⟨[[some 1, some 2], [some 4, some 5]], 2⟩ 1 1 [("maker", (0, 0))] [("Intensity", (2, 2))]) .init trivial trivial)
    trivial trivial

example : Matching id (step sameSize twoSurfaces (.call 0 .center true)).1 0 :=
  C106_raster_partial sameSize_keeps twoSurfaces_reach id 0 0 .center (fun h => h) true (by decide) (by
    intro o d ho hd e he
    cases ho
    cases hd
    simp only [List.mem_singleton] at he
    subst he
    rfl)

example : metadataOf (step sameSize twoSurfaces (.edit 0 (PyDict.set "maker" (7, 7)))).1 0 = some [("maker", (7, 7))] ∧
    metadataOf (step sameSize twoSurfaces (.edit 0 (PyDict.set "maker" (7, 7)))).1 1 = some [("maker", (0, 0))] :=
  ⟨rfl, rfl⟩

end Surfalize.Props
