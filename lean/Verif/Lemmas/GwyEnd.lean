import Verif.Model.Gwy
import Verif.Lemmas.FileArray
/-! # The GWY reader ends -/
set_option linter.unusedSectionVars false
namespace Surfalize
namespace Gwy
open LayoutM FileArr

/-- The number of bytes left. -/
def rem (h : Handle) : Nat := h.buf.length - h.pos

/-- The computation ended, and if it gave a result it has consumed at least `k` bytes. -/
def Ends {α : Type} (k : Nat) (h : Handle) : Run (α × Handle) → Prop
  | .more => False
  | .fail _ => True
  | .done a => a.2.buf = h.buf ∧ rem a.2 + k ≤ rem h

theorem Ends.bind {α β : Type} {k k' : Nat} {h h' : Handle} {x : Run (α × Handle)}
    {f : α × Handle → Run (β × Handle)} (hx : Ends k h x)
    (hf : ∀ a, a.2.buf = h.buf → rem a.2 + k ≤ rem h → Ends k' h' (f a)) :
    Ends k' h' (x.bind f) := by
  cases x with
  | more => exact hx.elim
  | fail e => exact trivial
  | done a => exact hf a hx.1 hx.2

/-- The same for a computation without loops. -/
def Eats {α : Type} (k : Nat) (h : Handle) : Except Err (α × Handle) → Prop
  | .error _ => True
  | .ok a => a.2.buf = h.buf ∧ rem a.2 + k ≤ rem h

theorem Eats.ends {α : Type} {k : Nat} {h : Handle} {x : Except Err (α × Handle)}
    (hx : Eats k h x) : Ends k h (Run.lift x) := by
  cases x with
  | error e => exact trivial
  | ok a => exact hx

theorem readString_eats (enc : Encoding) (h : Handle) : Eats 0 h (readString enc h) := by
  unfold readString
  dsimp only
  cases decode enc (cstring 4096 (h.buf.drop h.pos)).1 with
  | error e => exact trivial
  | ok s => exact ⟨rfl, by simp [rem]; omega⟩

theorem readItem_eats (w : Nat) (h : Handle) : Eats w h (readItem w h) := by
  unfold readItem
  dsimp only
  split
  · rename_i hl
    refine ⟨rfl, ?_⟩
    simp only [Handle.read, rem, List.length_take, List.length_drop] at hl ⊢
    omega
  · exact trivial

theorem readSize_eats (h : Handle) : Eats 4 h (readSize h) := by
  have := readItem_eats 4 h
  unfold readSize
  cases hr : readItem 4 h with
  | error e => exact trivial
  | ok a => rw [hr] at this; exact this

theorem readArray_eats {α : Type} (w : Nat) (dec : Bytes → α) (c : Int) (h : Handle) :
    Eats 0 h (readArray w dec c 0 h) := by
  unfold readArray
  dsimp only
  cases fromBuffer w dec (if c < 0 then (h.skip 0).readAll else (h.skip 0).read (c.toNat * w)).1 with
  | error e => exact trivial
  | ok a =>
    show _ ∧ _
    dsimp only
    split
    · exact ⟨rfl, by simp [Handle.readAll, Handle.skip, rem]; omega⟩
    · exact ⟨rfl, by simp [Handle.read, Handle.skip, rem]; omega⟩

theorem readStrings_eats (enc : Encoding) : ∀ n h, Eats 0 h (readStrings enc n h)
  | 0, h => ⟨rfl, by simp⟩
  | n + 1, h => by
    have h1 := readString_eats enc h
    unfold readStrings
    cases hr : readString enc h with
    | error e => exact trivial
    | ok a =>
      rw [hr] at h1
      have h2 := readStrings_eats enc n a.2
      dsimp only
      cases hs : readStrings enc n a.2 with
      | error e => exact trivial
      | ok b =>
        rw [hs] at h2
        obtain ⟨h1a, h1b⟩ := h1
        obtain ⟨h2a, h2b⟩ := h2
        exact ⟨h2a.trans h1a, by dsimp only; omega⟩

theorem readLetter_eats (h : Handle) :
    Eats 0 h (readLetter h) ∧ ∀ a, readLetter h = .ok a → a.1 ≠ none → rem a.2 + 1 ≤ rem h := by
  unfold readLetter
  dsimp only
  cases hr : (h.read 1).1 with
  | nil =>
    refine ⟨⟨rfl, ?_⟩, ?_⟩
    · simp [Handle.read, rem]; omega
    · intro a ha hn
      cases ha
      exact absurd rfl hn
  | cons b bs =>
    have hl : (h.read 1).1.length = 1 := by
      have : (h.read 1).1.length ≤ 1 := by simp [Handle.read]
      rw [hr] at this ⊢
      simp only [List.length_cons] at this ⊢
      omega
    have key : rem (h.read 1).2 + 1 ≤ rem h := by
      simp only [Handle.read, rem, List.length_take, List.length_drop] at hl ⊢
      omega
    dsimp only
    split
    · refine ⟨⟨rfl, by dsimp only; omega⟩, ?_⟩
      intro a ha hn
      cases ha
      exact key
    · exact ⟨trivial, fun a ha => by cases ha⟩

theorem ends_item {β : Type} (w : Nat) (h : Handle) (f : Bytes × Handle → β) :
    Ends 0 h ((Run.lift (readItem w h)).bind fun r => .done (f r, r.2)) :=
  (readItem_eats w h).ends.bind fun a hb hr => ⟨hb, by dsimp only; omega⟩

theorem ends_array {α β : Type} (w : Nat) (dec : Bytes → α) (h : Handle) (f : List α → β) :
    Ends 0 h ((Run.lift (readSize h)).bind fun z =>
      (Run.lift (readArray w dec z.1 0 z.2)).bind fun r => .done (f r.1, r.2)) := by
  refine (readSize_eats h).ends.bind fun z hb hr => ?_
  refine (readArray_eats w dec z.1 z.2).ends.bind fun r hb' hr' => ?_
  exact ⟨hb'.trans hb, by dsimp only; omega⟩

/-- With as many steps as bytes left, and a few more, every part of the reader ends. -/
theorem reader_ends (enc : Encoding) (n : Nat) :
    (∀ h, rem h + 1 ≤ n → Ends 4 h (readObj enc n h)) ∧
    (∀ stop acc h, rem h + 3 ≤ n → Ends 0 h (readLoop enc n stop acc h)) ∧
    (∀ t h, rem h + 2 ≤ n → Ends 0 h (readValue enc n t h)) ∧
    (∀ k h, rem h + 2 ≤ n → Ends 0 h (readObjs enc n k h)) := by
  induction n with
  | zero => exact ⟨fun h hn => by omega, fun _ _ h hn => by omega, fun _ h hn => by omega,
      fun _ h hn => by omega⟩
  | succ n ih =>
    obtain ⟨iA, iB, iC, iD⟩ := ih
    refine ⟨?_, ?_, ?_, ?_⟩
    · intro h hn
      unfold readObj
      refine (readString_eats enc h).ends.bind fun r hb hr => ?_
      refine (readSize_eats r.2).ends.bind fun z hb' hr' => ?_
      refine (iB _ _ z.2 (by omega)).bind fun out hb'' hr'' => ?_
      exact ⟨hb''.trans (hb'.trans hb), by dsimp only; omega⟩
    · intro stop acc h hn
      unfold readLoop
      split
      · refine (readString_eats enc h).ends.bind fun r hb hr => ?_
        have hl := readLetter_eats r.2
        cases ht : readLetter r.2 with
        | error e => exact trivial
        | ok t =>
          rw [ht] at hl
          obtain ⟨⟨hb', hr'⟩, hl2⟩ := hl
          show Ends 0 h ((readValue enc n t.1 t.2).bind _)
          cases hc : t.1 with
          | none =>
            cases n with
            | zero => omega
            | succ m => exact trivial
          | some c =>
            have hl3 := hl2 t rfl (by rw [hc]; simp)
            rw [← hc]
            refine (iC t.1 t.2 (by omega)).bind fun v hb'' hr'' => ?_
            have := iB stop (acc.put r.1 v.1) v.2 (by omega)
            have hbuf : v.2.buf = h.buf := hb''.trans (hb'.trans hb)
            revert this
            cases readLoop enc n stop (acc.put r.1 v.1) v.2 with
            | more => exact fun x => x
            | fail e => exact fun x => x
            | done a => exact fun x => ⟨x.1.trans hbuf, by have := x.2; omega⟩
      · exact ⟨rfl, by simp⟩
    · intro t h hn
      unfold readValue
      split
      · exact trivial
      · exact ends_item 1 h _
      · exact ends_item 1 h _
      · exact ends_item 4 h _
      · exact ends_item 8 h _
      · exact ends_item 8 h _
      · exact (readString_eats enc h).ends.bind fun r hb hr => ⟨hb, hr⟩
      · exact (iA h (by omega)).bind fun r hb hr => ⟨hb, by dsimp only; omega⟩
      · exact ends_array 1 _ h _
      · exact ends_array 4 _ h _
      · exact ends_array 8 _ h _
      · exact ends_array 8 _ h _
      · refine (readSize_eats h).ends.bind fun z hb hr => ?_
        refine (readStrings_eats enc z.1 z.2).ends.bind fun r hb' hr' => ?_
        exact ⟨hb'.trans hb, by dsimp only; omega⟩
      · refine (readSize_eats h).ends.bind fun z hb hr => ?_
        refine (iD z.1 z.2 (by omega)).bind fun r hb' hr' => ?_
        exact ⟨hb'.trans hb, by dsimp only; omega⟩
      · exact trivial
    · intro k h hn
      cases k with
      | zero => exact ⟨rfl, by simp⟩
      | succ k =>
        unfold readObjs
        refine (iA h (by omega)).bind fun r hb hr => ?_
        refine (iD k r.2 (by omega)).bind fun rs hb' hr' => ?_
        exact ⟨hb'.trans hb, by dsimp only; omega⟩

/-- `y` is `x` if `x` ended. -/
def Refines {α : Type} (x y : Run α) : Prop := x ≠ .more → y = x

theorem Refines.rfl' {α : Type} (x : Run α) : Refines x x := fun _ => rfl

theorem Refines.bind {α β : Type} {x y : Run α} {f g : α → Run β} (h : Refines x y)
    (hf : ∀ a, Refines (f a) (g a)) : Refines (x.bind f) (y.bind g) := by
  intro hne
  cases x with
  | more => exact absurd rfl hne
  | fail e => rw [h (by simp)]; rfl
  | done a =>
    rw [h (by simp)]
    exact hf a hne

/-- More steps do not change the result. -/
theorem reader_steps (enc : Encoding) (n : Nat) :
    (∀ h, Refines (readObj enc n h) (readObj enc (n + 1) h)) ∧
    (∀ stop acc h, Refines (readLoop enc n stop acc h) (readLoop enc (n + 1) stop acc h)) ∧
    (∀ t h, Refines (readValue enc n t h) (readValue enc (n + 1) t h)) ∧
    (∀ k h, Refines (readObjs enc n k h) (readObjs enc (n + 1) k h)) := by
  induction n with
  | zero =>
    refine ⟨fun h hn => ?_, fun _ _ h hn => ?_, fun _ h hn => ?_, fun _ h hn => ?_⟩
    · exact absurd (by rw [readObj]) hn
    · exact absurd (by rw [readLoop]) hn
    · exact absurd (by rw [readValue]) hn
    · exact absurd (by rw [readObjs]) hn
  | succ n ih =>
    obtain ⟨iA, iB, iC, iD⟩ := ih
    refine ⟨?_, ?_, ?_, ?_⟩
    · intro h
      rw [readObj, readObj]
      exact (Refines.rfl' _).bind fun r => (Refines.rfl' _).bind fun z =>
        (iB _ _ _).bind fun out => Refines.rfl' _
    · intro stop acc h
      rw [readLoop, readLoop]
      split
      · exact (Refines.rfl' _).bind fun r => (Refines.rfl' _).bind fun t =>
          (iC _ _).bind fun v => iB _ _ _
      · exact Refines.rfl' _
    · intro t h
      rw [readValue.eq_def, readValue.eq_def]
      dsimp only
      split
      all_goals first
        | exact Refines.rfl' _
        | exact (iA h).bind fun r => Refines.rfl' _
        | exact (Refines.rfl' _).bind fun z => (iD _ _).bind fun r => Refines.rfl' _
    · intro k h
      cases k with
      | zero => rw [readObjs, readObjs]; exact Refines.rfl' _
      | succ k =>
        rw [readObjs, readObjs]
        exact (iA _).bind fun r => (iD _ _).bind fun rs => Refines.rfl' _

theorem readObj_steps (enc : Encoding) (h : Handle) (n m : Nat) (hm : n ≤ m)
    (hn : readObj enc n h ≠ .more) : readObj enc m h = readObj enc n h := by
  induction hm with
  | refl => rfl
  | step _ ih => rw [(reader_steps enc _).1 h (by rw [ih]; exact hn), ih]

end Gwy
end Surfalize
