import Verif.Lemmas.GwyEnd
import Verif.Lemmas.Bytes
import Verif.Spec.Gwy
/-! # Reading back what the GWY encoding wrote -/
set_option linter.unusedSectionVars false
namespace Surfalize
namespace Gwy
open LayoutM FileArr GwySpec

/-- A file with `pre` already read and `rest` to come. -/
def here (pre rest : Bytes) : Handle := ⟨pre ++ rest, pre.length⟩

theorem here_rem (pre rest : Bytes) : rem (here pre rest) = rest.length := by
  simp [rem, here]

theorem here_append (pre a rest : Bytes) :
    (⟨(here pre (a ++ rest)).buf, (here pre (a ++ rest)).pos + a.length⟩ : Handle) =
      here (pre ++ a) rest := by
  simp [here]

theorem here_read (pre a rest : Bytes) (n : Nat) (hn : a.length = n) :
    (here pre (a ++ rest)).read n = (a, here (pre ++ a) rest) := by
  subst hn
  simp [Handle.read, here]

/-- No byte of the encoding of a character but NUL is zero. -/
theorem utf8Char_ne_zero (c : Char) (h : c ≠ '\x00') : 0 ∉ String.utf8EncodeChar c := by
  have hv : c.val.toNat ≠ 0 := by
    intro h0
    apply h
    apply Char.ext
    apply UInt32.toNat_inj.1
    rw [h0]; rfl
  rw [String.utf8EncodeChar.eq_1]
  have hlt : c.val.toNat < 0x110000 := by
    have := c.valid
    rcases this with h1 | h1
    · have h2 : c.val.toNat < 0xd800 := h1
      omega
    · exact h1.2
  generalize c.val.toNat = v at hv hlt
  have key : ∀ k : Nat, k < 256 → k ≠ 0 → (0 : UInt8) ≠ UInt8.ofNat k := by
    intro k hk h0 he
    have := congrArg UInt8.toNat he
    simp at this
    omega
  split
  · simp only [List.mem_singleton]
    exact key v (by omega) hv
  · split
    · simp only [List.mem_cons, List.not_mem_nil, or_false, not_or]
      exact ⟨key _ (by omega) (by omega), key _ (by omega) (by omega)⟩
    · split
      · simp only [List.mem_cons, List.not_mem_nil, or_false, not_or]
        exact ⟨key _ (by omega) (by omega), key _ (by omega) (by omega), key _ (by omega) (by omega)⟩
      · simp only [List.mem_cons, List.not_mem_nil, or_false, not_or]
        exact ⟨key _ (by omega) (by omega), key _ (by omega) (by omega), key _ (by omega) (by omega),
          key _ (by omega) (by omega)⟩

theorem utf8_ne_zero (s : List Char) (h : '\x00' ∉ s) : 0 ∉ utf8 s := by
  unfold utf8
  intro hm
  obtain ⟨c, hc, h0⟩ := List.mem_flatMap.1 hm
  exact utf8Char_ne_zero c (fun he => h (he ▸ hc)) h0

theorem cstring_append : ∀ (n : Nat) (a rest : Bytes), 0 ∉ a → a.length < n →
    cstring n (a ++ 0 :: rest) = (a, a.length + 1)
  | 0, a, rest, _, hn => by omega
  | n + 1, [], rest, _, _ => by simp [cstring]
  | n + 1, b :: a, rest, h0, hn => by
    have hb : b ≠ 0 := fun he => h0 (by simp [he])
    have := cstring_append n a rest (fun h => h0 (List.mem_cons_of_mem _ h)) (by simpa using hn)
    simp [cstring, hb, this]

theorem decode_utf8 (enc : Encoding) (s : List Char) : decode enc (utf8 s) = .ok s := by
  unfold decode
  rw [utf8?_utf8]

theorem readString_here (enc : Encoding) (s : List Char) (hs : Text s) (pre rest : Bytes) :
    readString enc (here pre (encStr s ++ rest)) = .ok (s, here (pre ++ encStr s) rest) := by
  unfold readString
  have h1 : (here pre (encStr s ++ rest)).buf.drop (here pre (encStr s ++ rest)).pos =
      utf8 s ++ 0 :: rest := by simp [here, encStr]
  simp only [h1, cstring_append 4096 (utf8 s) rest (utf8_ne_zero s hs.1) hs.2, decode_utf8]
  congr 2
  simp [here, encStr]

theorem readItem_here (w : Nat) (a pre rest : Bytes) (ha : a.length = w) :
    readItem w (here pre (a ++ rest)) = .ok (a, here (pre ++ a) rest) := by
  unfold readItem
  simp only [here_read pre a rest w ha, ha, if_true]

theorem encSize_length (n : Nat) : (encSize n).length = 4 := natBytes_length false 4 n

theorem readSize_here (n : Nat) (hn : Size n) (pre rest : Bytes) :
    readSize (here pre (encSize n ++ rest)) = .ok (n, here (pre ++ encSize n) rest) := by
  unfold readSize
  rw [readItem_here 4 _ _ _ (encSize_length n)]
  dsimp only
  rw [encSize, bytesNat_natBytes false 4 n (by unfold Size at hn; omega)]

theorem readLetter_here (c : Char) (hc : c.toNat < 128) (pre rest : Bytes) :
    readLetter (here pre ([UInt8.ofNat c.toNat] ++ rest)) =
      .ok (some c, here (pre ++ [UInt8.ofNat c.toNat]) rest) := by
  unfold readLetter
  simp only [here_read pre [UInt8.ofNat c.toNat] rest 1 rfl]
  have h1 : (UInt8.ofNat c.toNat).toNat = c.toNat := by simp; omega
  rw [if_pos (by rw [UInt8.lt_iff_toNat_lt, h1]; exact hc), h1]
  simp

theorem letter_ascii (v : GVal) : (letter v).toNat < 128 := by
  cases v <;> simp only [letter] <;> decide

theorem readArray_here {α : Type} (w : Nat) (hw : 0 < w) (enc : α → Bytes) (dec : Bytes → α)
    (l : List α) (h : ∀ x ∈ l, (enc x).length = w) (hd : ∀ x ∈ l, dec (enc x) = x)
    (pre rest : Bytes) :
    readArray w dec (l.length : Int) 0 (here pre (l.flatMap enc ++ rest)) =
      .ok (l, here (pre ++ l.flatMap enc) rest) := by
  have := readArray_writeArray w hw enc dec l h pre rest pre.length 0 (by simp)
  rw [List.map_congr_left (g := id) (by simpa using hd), List.map_id] at this
  simp only [writeArray, List.append_assoc] at this
  have hl := writeArray_length w enc l h
  unfold writeArray at hl
  simp only [here]
  rw [this]
  simp only [List.append_assoc, List.length_append, hl]

theorem readStrings_here (enc : Encoding) : ∀ (ss : List (List Char)), (∀ s ∈ ss, Text s) →
    ∀ pre rest, readStrings enc ss.length (here pre (ss.flatMap encStr ++ rest)) =
      .ok (ss, here (pre ++ ss.flatMap encStr) rest)
  | [], _, pre, rest => by simp [readStrings]
  | s :: ss, h, pre, rest => by
    have ih := readStrings_here enc ss (fun x hx => h x (List.mem_cons_of_mem _ hx))
      (pre ++ encStr s) rest
    simp only [List.flatMap_cons, List.length_cons, List.append_assoc, readStrings]
    rw [readString_here enc s (h s (by simp))]
    dsimp only
    rw [ih]
    simp

/-- The components of two dictionaries, one after the other. -/
def join : Fields → Fields → Fields
  | .nil, g => g
  | .cons n v rest, g => .cons n v (join rest g)

theorem join_nil : ∀ f, join f .nil = f
  | .nil => rfl
  | .cons n v rest => by rw [join, join_nil rest]

theorem join_put (name : List Char) (v : GVal) (g : Fields) : ∀ f : Fields, name ∉ f.keys →
    join (f.put name v) g = join f (.cons name v g)
  | .nil, _ => by simp [Fields.put, join]
  | .cons n w rest, h => by
    simp only [Fields.keys, List.mem_cons, not_or] at h
    simp only [Fields.put, if_neg (Ne.symm h.1), join, join_put name v g rest h.2]

theorem keys_put (name : List Char) (v : GVal) : ∀ f : Fields, name ∉ f.keys →
    (f.put name v).keys = f.keys ++ [name]
  | .nil, _ => by simp [Fields.put, Fields.keys]
  | .cons n w rest, h => by
    simp only [Fields.keys, List.mem_cons, not_or] at h
    simp only [Fields.put, if_neg (Ne.symm h.1), Fields.keys, keys_put name v rest h.2,
      List.cons_append]

theorem bind_done {α β : Type} (a : α) (f : α → Run β) : (Run.done a).bind f = f a := rfl
theorem lift_ok {α : Type} (a : α) : Run.lift (.ok a : Except Err α) = .done a := rfl

theorem encStr_length (s : List Char) : 1 ≤ (encStr s).length := by simp [encStr]

mutual
theorem readValue_here (enc : Encoding) : ∀ (v : GVal), Valid v → ∀ (n : Nat) (pre rest : Bytes),
    (encVal v).length + 2 ≤ n →
    readValue enc n (some (letter v)) (here pre (encVal v ++ rest)) =
      .done (v, here (pre ++ encVal v) rest)
  | .bool b, _, n + 1, pre, rest, _ => by
    simp only [letter, readValue, encVal]
    rw [readItem_here 1 _ _ _ rfl]
    cases b <;> rfl
  | .char c, _, n + 1, pre, rest, _ => by
    simp only [letter, readValue, encVal]
    rw [readItem_here 1 _ _ _ rfl]
    rfl
  | .int i, hv, n + 1, pre, rest, _ => by
    simp only [letter, readValue, encVal]
    rw [readItem_here 4 (intBytes false 4 i) _ _ (natBytes_length _ _ _), lift_ok, bind_done]
    simp only [bytesInt_intBytes true false 4 i (by omega) hv.1 hv.2]
  | .long i, hv, n + 1, pre, rest, _ => by
    simp only [letter, readValue, encVal]
    rw [readItem_here 8 (intBytes false 8 i) _ _ (natBytes_length _ _ _), lift_ok, bind_done]
    simp only [bytesInt_intBytes true false 8 i (by omega) hv.1 hv.2]
  | .dbl b, hv, n + 1, pre, rest, _ => by
    simp only [letter, readValue, encVal]
    rw [readItem_here 8 _ _ _ (natBytes_length _ _ _), lift_ok, bind_done]
    simp only [Valid] at hv
    simp only [bytesNat_natBytes false 8 b (by omega)]
  | .str s, hv, n + 1, pre, rest, _ => by
    simp only [Valid] at hv
    simp only [letter, readValue, encVal]
    rw [readString_here enc s hv, lift_ok, bind_done]
  | .obj name fs, hv, n + 1, pre, rest, hn => by
    simp only [Valid] at hv
    simp only [letter, readValue, encVal]
    cases n with
    | zero => omega
    | succ n =>
      simp only [encVal, List.length_append, encSize_length] at hn
      have h1 := encStr_length name
      simp only [readObj, List.append_assoc]
      rw [readString_here enc name hv.1, lift_ok, bind_done, readSize_here _ hv.2.1, lift_ok, bind_done]
      have := readLoop_here enc fs hv.2.2 n (pre ++ encStr name ++ encSize (encFields fs).length)
        rest .nil (by omega) (by simp [Fields.keys])
      rw [show ((here (pre ++ encStr name ++ encSize (encFields fs).length)
        (encFields fs ++ rest)).pos + (encFields fs).length) =
          (pre ++ encStr name ++ encSize (encFields fs).length).length + (encFields fs).length from rfl,
        this]
      simp only [bind_done, join, List.append_assoc]
  | .chars cs, hv, n + 1, pre, rest, _ => by
    simp only [Valid] at hv
    simp only [letter, readValue, encVal, List.append_assoc]
    rw [readSize_here _ hv, lift_ok, bind_done]
    have := readArray_here 1 (by omega) (fun b : UInt8 => [b]) (fun b => b.headD 0) cs (by simp)
      (by simp) (pre ++ encSize cs.length) rest
    rw [show cs.flatMap (fun b : UInt8 => [b]) = cs by simp] at this
    rw [this, lift_ok, bind_done]
    simp only [List.append_assoc]
  | .ints is, hv, n + 1, pre, rest, _ => by
    simp only [Valid] at hv
    simp only [letter, readValue, encVal, List.append_assoc]
    rw [readSize_here _ hv.1, lift_ok, bind_done]
    rw [readArray_here 4 (by omega) (intBytes false 4) (bytesInt true false 4) is
      (fun x _ => natBytes_length _ _ _)
      (fun x hx => bytesInt_intBytes true false 4 x (by omega) (hv.2 x hx).1 (hv.2 x hx).2),
      lift_ok, bind_done]
    simp only [List.append_assoc]
  | .longs is, hv, n + 1, pre, rest, _ => by
    simp only [Valid] at hv
    simp only [letter, readValue, encVal, List.append_assoc]
    rw [readSize_here _ hv.1, lift_ok, bind_done]
    rw [readArray_here 8 (by omega) (intBytes false 8) (bytesInt true false 8) is
      (fun x _ => natBytes_length _ _ _)
      (fun x hx => bytesInt_intBytes true false 8 x (by omega) (hv.2 x hx).1 (hv.2 x hx).2),
      lift_ok, bind_done]
    simp only [List.append_assoc]
  | .dbls bs, hv, n + 1, pre, rest, _ => by
    simp only [Valid] at hv
    simp only [letter, readValue, encVal, List.append_assoc]
    rw [readSize_here _ hv.1, lift_ok, bind_done]
    rw [readArray_here 8 (by omega) (natBytes false 8) (bytesNat false) bs
      (fun x _ => natBytes_length _ _ _)
      (fun x hx => bytesNat_natBytes false 8 x (by have := hv.2 x hx; omega)),
      lift_ok, bind_done]
    simp only [List.append_assoc]
  | .strs ss, hv, n + 1, pre, rest, _ => by
    simp only [Valid] at hv
    simp only [letter, readValue, encVal, List.append_assoc]
    rw [readSize_here _ hv.1, lift_ok, bind_done, readStrings_here enc ss hv.2, lift_ok, bind_done]
    simp only [List.append_assoc]
  | .objs os, hv, n + 1, pre, rest, hn => by
    simp only [Valid] at hv
    simp only [encVal, List.length_append, encSize_length] at hn
    simp only [letter, readValue, encVal, List.append_assoc]
    rw [readSize_here _ hv.1, lift_ok, bind_done,
      readObjs_here enc os hv.2 n (pre ++ encSize (count os)) rest (by omega), bind_done]
    simp only [List.append_assoc]
  termination_by structural v => v

theorem readLoop_here (enc : Encoding) : ∀ (fs : Fields), ValidFields fs →
    ∀ (n : Nat) (pre rest : Bytes) (acc : Fields), (encFields fs).length + 3 ≤ n →
    (∀ k ∈ fs.keys, k ∉ acc.keys) →
    readLoop enc n (pre.length + (encFields fs).length) acc (here pre (encFields fs ++ rest)) =
      .done (join acc fs, here (pre ++ encFields fs) rest)
  | .nil, _, n + 1, pre, rest, acc, _, _ => by
    rw [readLoop, if_neg (by simp [here, encFields])]
    simp [join_nil, encFields]
  | .cons name v fs, hv, n + 1, pre, rest, acc, hn, hk => by
    simp only [ValidFields] at hv
    obtain ⟨h1, h2, h3, h4⟩ := hv
    have hlen : (encFields (.cons name v fs)).length =
        (encStr name).length + 1 + (encVal v).length + (encFields fs).length := by
      simp [encFields]; omega
    have hpos := encStr_length name
    rw [readLoop, if_pos (by simp only [here]; omega)]
    rw [show encFields (.cons name v fs) ++ rest = encStr name ++ ([UInt8.ofNat (letter v).toNat] ++
      (encVal v ++ (encFields fs ++ rest))) by simp only [encFields, List.append_assoc]]
    rw [readString_here enc name h1, lift_ok, bind_done, readLetter_here _ (letter_ascii v), lift_ok,
      bind_done]
    dsimp only
    rw [readValue_here enc v h3 n _ _ (by omega), bind_done]
    dsimp only
    have hna : name ∉ acc.keys := hk name (by simp [Fields.keys])
    have := readLoop_here enc fs h4 n (pre ++ encStr name ++ [UInt8.ofNat (letter v).toNat] ++ encVal v)
      rest (acc.put name v) (by omega) (by
        intro k hkf
        rw [keys_put name v acc hna]
        simp only [List.mem_append, List.mem_singleton, not_or]
        exact ⟨hk k (by simp [Fields.keys, hkf]), fun he => h2 (he ▸ hkf)⟩)
    rw [show pre.length + (encFields (.cons name v fs)).length =
      (pre ++ encStr name ++ [UInt8.ofNat (letter v).toNat] ++ encVal v).length +
        (encFields fs).length by simp only [List.length_append, List.length_singleton]; omega, this]
    rw [join_put name v fs acc hna]
    simp only [encFields, List.append_assoc]
  termination_by structural fs => fs

theorem readObjs_here (enc : Encoding) : ∀ (os : Objs), ValidObjs os →
    ∀ (n : Nat) (pre rest : Bytes), (encObjs os).length + 2 ≤ n →
    readObjs enc n (count os) (here pre (encObjs os ++ rest)) =
      .done (os, here (pre ++ encObjs os) rest)
  | .nil, _, n + 1, pre, rest, _ => by
    simp [encObjs, readObjs, count]
  | .cons name fs os, hv, n + 1, pre, rest, hn => by
    simp only [ValidObjs] at hv
    obtain ⟨h1, h2, h3, h4⟩ := hv
    simp only [encObjs, List.length_append, encSize_length] at hn
    have hpos := encStr_length name
    simp only [count, readObjs]
    cases n with
    | zero => omega
    | succ n =>
      have ihl := readLoop_here enc fs h3 n (pre ++ encStr name ++ encSize (encFields fs).length)
        (encObjs os ++ rest) .nil (by omega) (by simp [Fields.keys])
      have iho := readObjs_here enc os h4 (n + 1)
        (pre ++ encStr name ++ encSize (encFields fs).length ++ encFields fs) rest (by omega)
      rw [readObj]
      rw [show encObjs (.cons name fs os) ++ rest = encStr name ++ (encSize (encFields fs).length ++
        (encFields fs ++ (encObjs os ++ rest))) by simp only [encObjs, List.append_assoc]]
      rw [readString_here enc name h1, lift_ok, bind_done, readSize_here _ h2, lift_ok, bind_done]
      rw [show ((here (pre ++ encStr name ++ encSize (encFields fs).length)
        (encFields fs ++ (encObjs os ++ rest))).pos + (encFields fs).length) =
          (pre ++ encStr name ++ encSize (encFields fs).length).length + (encFields fs).length from rfl,
        ihl]
      simp only [bind_done]
      rw [iho]
      simp only [bind_done, join, encObjs, List.append_assoc]
  termination_by structural os => os
end

theorem readObj_here (enc : Encoding) (name : List Char) (fs : Fields)
    (hv : Valid (.obj name fs)) (n : Nat) (pre rest : Bytes) (hn : (encObj name fs).length + 1 ≤ n) :
    readObj enc n (here pre (encObj name fs ++ rest)) =
      .done ((name, fs), here (pre ++ encObj name fs) rest) := by
  have h := readValue_here enc (.obj name fs) hv (n + 1) pre rest
    (by simp only [encVal]; unfold encObj at hn; omega)
  simp only [letter, readValue, encVal] at h
  change (readObj enc n (here pre (encObj name fs ++ rest))).bind _ = _ at h
  cases hr : readObj enc n (here pre (encObj name fs ++ rest)) with
  | more => rw [hr] at h; cases h
  | fail e => rw [hr] at h; cases h
  | done r =>
    rw [hr, bind_done] at h
    injection h with h
    injection h with h1 h2
    injection h1 with h3 h4
    obtain ⟨⟨r1, r2⟩, r3⟩ := r
    simp only at h2 h3 h4
    subst h3 h4 h2
    rfl

end Gwy
end Surfalize
