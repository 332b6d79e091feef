import Verif.Lemmas.Bytes
import Verif.Model.FileArray
/-!
# Where the fields of a fixed header are

Lemmas about reading a layout without computed formats: every field is the value at its offset.
-/
set_option linter.unusedSectionVars false
namespace Surfalize
namespace LayoutM
variable {K : Type} [Field K] [LinearOrder K]

/-- Bytes of an entry with a fixed format. -/
def entrySize : Entry K → Nat
  | .field _ (.fixed f) => f.size
  | .reserved n => n
  | _ => 0

/-- Bytes of a layout. -/
def total : List (Entry K) → Nat
  | [] => 0
  | e :: es => entrySize e + total es

/-- The entry has a fixed format. -/
def isFixed : Entry K → Bool
  | .field _ (.fixed _) => true
  | .reserved _ => true
  | _ => false

/-- The format of the entry, if it is the field `name`. -/
def fmtOf (name : String) : Entry K → Option Fmt
  | .field n (.fixed f) => if n = name then some f else none
  | _ => none

/-- Offset and format of the last field `name`. -/
def locate (name : String) : List (Entry K) → Nat → Option (Nat × Fmt)
  | [], _ => none
  | e :: es, off =>
    match locate name es (off + entrySize e) with
    | some r => some r
    | none => (fmtOf name e).map fun f => (off, f)

theorem unpack_size {f : Fmt} {b : Bytes} {v : Val K} (h : f.unpack K b = .ok v) : b.length = f.size := by
  unfold Fmt.unpack at h
  by_cases hl : b.length = f.size
  · exact hl
  · rw [if_pos hl] at h; cases h

theorem readFmt_ok {enc : Encoding} {f : Fmt} {h h' : Handle} {v : Val K}
    (hr : readFmt enc f h = .ok (v, h')) : h' = ⟨h.buf, h.pos + f.size⟩ ∧
      ((h.buf.drop h.pos).take f.size).length = f.size := by
  unfold readFmt at hr
  cases hu : f.unpack K (h.read f.size).1 with
  | error e => rw [hu] at hr; cases hr
  | ok u =>
    rw [hu] at hr
    dsimp only at hr
    cases hd : decodeValue enc u with
    | error e => rw [hd] at hr; cases hr
    | ok w =>
      rw [hd] at hr
      cases hr
      have hs := unpack_size hu
      have hs' : ((h.buf.drop h.pos).take f.size).length = f.size := hs
      refine ⟨?_, hs'⟩
      unfold Handle.read
      dsimp only
      rw [hs']

/-- What a successful read of a fixed layout gives. -/
theorem readGo_locate (enc : Encoding) : ∀ (es : List (Entry K)) (d d' : Dict K) (h h' : Handle),
    (∀ e ∈ es, isFixed e = true) → readGo enc d h es = .ok (d', h') →
      h' = ⟨h.buf, h.pos + total es⟩ ∧
      ∀ name, match locate name es h.pos with
        | some (off, f) => ∃ v h'', readFmt enc f ⟨h.buf, off⟩ = .ok (v, h'') ∧ d' name = some v
        | none => d' name = d name := by
  intro es
  induction es with
  | nil =>
    intro d d' h h' _ hr
    cases hr
    exact ⟨by simp [total], fun name => rfl⟩
  | cons e es ih =>
    intro d d' h h' hf hr
    have hfe := hf e (by simp)
    have hfs : ∀ e ∈ es, isFixed e = true := fun x hx => hf x (by simp [hx])
    unfold readGo at hr
    match e, hfe with
    | .reserved n, _ =>
      simp only [Entry.read] at hr
      obtain ⟨h1, h2⟩ := ih d d' (h.skip n) h' hfs hr
      refine ⟨by rw [h1]; simp [Handle.skip, total, entrySize, Nat.add_assoc], fun name => ?_⟩
      have := h2 name
      simp only [locate, entrySize, fmtOf, Option.map_none]
      have hp : (h.skip n).pos = h.pos + n := rfl
      rw [hp] at this
      cases hl : locate name es (h.pos + n) with
      | none => rw [hl] at this; simpa using this
      | some r => rw [hl] at this; simpa [Handle.skip] using this
    | .field nm (.fixed f), _ =>
      simp only [Entry.read] at hr
      cases hrf : readFmt (K := K) enc f h with
      | error x => rw [hrf] at hr; cases hr
      | ok r =>
        obtain ⟨v, h1⟩ := r
        rw [hrf] at hr
        dsimp only at hr
        obtain ⟨rfl, hlen⟩ := readFmt_ok hrf
        obtain ⟨k1, k2⟩ := ih (d.set nm v) d' ⟨h.buf, h.pos + f.size⟩ h' hfs hr
        refine ⟨by rw [k1]; simp [total, entrySize, Nat.add_assoc], fun name => ?_⟩
        have := k2 name
        simp only [locate, entrySize, fmtOf]
        cases hl : locate name es (h.pos + f.size) with
        | some r =>
          rw [show (Handle.mk h.buf (h.pos + f.size)).pos = h.pos + f.size from rfl, hl] at this
          simpa using this
        | none =>
          rw [show (Handle.mk h.buf (h.pos + f.size)).pos = h.pos + f.size from rfl, hl] at this
          dsimp only at this
          by_cases hn : nm = name
          · rw [if_pos hn]
            refine ⟨v, ⟨h.buf, h.pos + f.size⟩, hrf, ?_⟩
            rw [this, Dict.set, if_pos hn.symm]
          · rw [if_neg hn]
            dsimp only [Option.map_none]
            rw [this, Dict.set, if_neg (Ne.symm hn)]

/-- A field with an integer format. -/
theorem readGo_int {enc : Encoding} {es : List (Entry K)} {d' : Dict K} {h h' : Handle}
    (hf : ∀ e ∈ es, isFixed e = true) (hr : LayoutM.read enc h es = .ok (d', h')) {name : String} {off w : Nat}
    {s big : Bool} (hl : locate name es h.pos = some (off, .int s big w)) :
    d' name = some (.int (bytesInt s big w ((h.buf.drop off).take w))) ∧
      ((h.buf.drop off).take w).length = w := by
  have h1 := (readGo_locate enc es _ d' h h' hf hr).2 name
  rw [hl] at h1
  obtain ⟨v, h'', h2, h3⟩ := h1
  have h4 := (readFmt_ok h2).2
  refine ⟨?_, h4⟩
  rw [h3]
  unfold readFmt Fmt.unpack at h2
  have h5 : ((Handle.mk h.buf off).read (Fmt.int s big w).size).1 = (h.buf.drop off).take w := rfl
  rw [h5, if_neg (by simpa [Fmt.size] using h4)] at h2
  simp only [decodeValue, Except.ok.injEq, Prod.mk.injEq] at h2
  rw [h2.1]

/-- A field with a format for one float. -/
theorem readGo_num {enc : Encoding} {es : List (Entry K)} {d' : Dict K} {h h' : Handle}
    (hf : ∀ e ∈ es, isFixed e = true) (hr : LayoutM.read enc h es = .ok (d', h')) {name : String} {off : Nat}
    {dbl big : Bool} (hl : locate name es h.pos = some (off, .flt dbl big 1)) :
    d' name = some (.num ((Fmt.ff dbl).val K (bytesNat big ((h.buf.drop off).take (Fmt.fw dbl))))) ∧
      ((h.buf.drop off).take (Fmt.fw dbl)).length = Fmt.fw dbl := by
  have h1 := (readGo_locate enc es _ d' h h' hf hr).2 name
  rw [hl] at h1
  obtain ⟨v, h'', h2, h3⟩ := h1
  have h4 := (readFmt_ok h2).2
  rw [show (Fmt.flt dbl big 1).size = Fmt.fw dbl by simp [Fmt.size]] at h4
  refine ⟨?_, h4⟩
  rw [h3]
  unfold readFmt Fmt.unpack at h2
  have h5 : ((Handle.mk h.buf off).read (Fmt.flt dbl big 1).size).1 = (h.buf.drop off).take (Fmt.fw dbl) := by
    simp [Fmt.size, Handle.read]
  rw [h5, if_neg (by simpa [Fmt.size] using h4)] at h2
  dsimp only at h2
  rw [if_neg (by decide : ¬ (1 : Nat) = 0)] at h2
  simp only [decodeValue, Except.ok.injEq, Prod.mk.injEq] at h2
  rw [← h2.1, List.take_take, Nat.min_self]

/-- All fields with their offsets. -/
def places : List (Entry K) → Nat → List (Nat × Fmt)
  | [], _ => []
  | .field _ (.fixed f) :: es, off => (off, f) :: places es (off + f.size)
  | e :: es, off => places es (off + entrySize e)

/-- The bytes at `off` can be read with the format. -/
def CanRead (enc : Encoding) (buf : Bytes) : Nat × Fmt → Prop
  | (off, .str n) => ∃ s, decode enc ((buf.drop off).take n) = .ok s
  | (_, .flt _ _ n) => n ≠ 0
  | _ => True

/-- A fixed layout is read if the file is long enough and all texts can be decoded. -/
theorem readGo_succeeds (enc : Encoding) : ∀ (es : List (Entry K)) (d : Dict K) (buf : Bytes) (p : Nat),
    (∀ e ∈ es, isFixed e = true) → p + total es ≤ buf.length → (∀ q ∈ places es p, CanRead enc buf q) →
      ∃ d', readGo enc d ⟨buf, p⟩ es = .ok (d', ⟨buf, p + total es⟩) := by
  intro es
  induction es with
  | nil => intro d buf p _ _ _; exact ⟨d, rfl⟩
  | cons e es ih =>
    intro d buf p hf hlen hc
    have hfe := hf e (by simp)
    have hfs : ∀ e ∈ es, isFixed e = true := fun x hx => hf x (by simp [hx])
    unfold readGo
    match e, hfe with
    | .reserved n, _ =>
      simp only [total, entrySize] at hlen
      obtain ⟨d', h1⟩ := ih d buf (p + n) hfs (by omega) (by simpa [places, entrySize] using hc)
      refine ⟨d', ?_⟩
      simp only [Entry.read, Handle.skip, total, entrySize]
      rw [h1, Nat.add_assoc]
    | .field nm (.fixed f), _ =>
      simp only [total, entrySize] at hlen
      simp only [places, List.forall_mem_cons] at hc
      have hl : ((Handle.mk buf p).read f.size).1.length = f.size := by
        simp only [Handle.read, List.length_take, List.length_drop]; omega
      have hh : ((Handle.mk buf p).read f.size).2 = ⟨buf, p + f.size⟩ := by
        have : ((buf.drop p).take f.size).length = f.size := hl
        simp only [Handle.read, this]
      have hv : ∃ v, readFmt (K := K) enc f ⟨buf, p⟩ = .ok (v, ⟨buf, p + f.size⟩) := by
        unfold readFmt Fmt.unpack
        rw [if_neg (by simpa using hl), hh]
        cases f with
        | int s b w => exact ⟨_, rfl⟩
        | bool => exact ⟨_, rfl⟩
        | flt dbl b n =>
          have h0 : n ≠ 0 := hc.1
          simp only [if_neg h0]
          exact ⟨_, rfl⟩
        | str n =>
          obtain ⟨s, hs⟩ := hc.1
          have : decode enc ((Handle.mk buf p).read (Fmt.str n).size).1 = .ok s := hs
          simp only [decodeValue, this]
          exact ⟨_, rfl⟩
      obtain ⟨v, hv⟩ := hv
      obtain ⟨d', h1⟩ := ih (d.set nm v) buf (p + f.size) hfs (by omega) hc.2
      refine ⟨d', ?_⟩
      simp only [Entry.read, hv, total, entrySize]
      rw [h1, Nat.add_assoc]

/-- The values read do not depend on the dictionary started with. -/
theorem read_end {enc : Encoding} {es : List (Entry K)} {d' : Dict K} {h h' : Handle}
    (hf : ∀ e ∈ es, isFixed e = true) (hr : LayoutM.read enc h es = .ok (d', h')) :
    h' = ⟨h.buf, h.pos + total es⟩ := (readGo_locate enc es _ d' h h' hf hr).1

end LayoutM
end Surfalize
