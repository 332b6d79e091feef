import Verif.Lemmas.Bytes
import Verif.Model.Layout
import Verif.Spec.Layout
/-! # Lemmas for C57 -/
set_option linter.unusedSectionVars false
namespace Surfalize
namespace LayoutM
open LayoutSpec
variable {K : Type} [Field K] [LinearOrder K] [IsStrictOrderedRing K]

theorem size_eq (f : Fmt) : f.size = bytesOf f := by
  cases f with
  | flt d b n => cases d <;> rfl
  | _ => rfl

theorem ff_cases (d : Bool) : Fmt.ff d = f32 ∨ Fmt.ff d = f64 := by
  cases d <;> simp [Fmt.ff]

theorem bits_fw (d : Bool) : 2 ^ (Fmt.ff d).bits = 256 ^ Fmt.fw d := by cases d <;> decide

theorem infBits_lt (d neg : Bool) : infBits (Fmt.ff d) neg < 256 ^ Fmt.fw d := by
  cases d <;> cases neg <;> decide

theorem val_infBits (d neg : Bool) : (Fmt.ff d).val K (infBits (Fmt.ff d) neg) = .inf neg := by
  cases d <;> cases neg <;> simp [FFormat.val, infBits, Fmt.ff, f32, f64]

/-- What a packed float unpacks to. -/
theorem packFloat_spec {c : FloatCodec K} (hc : c.Nearest) (d big : Bool) (x : FVal K)
    (b : Bytes) (h : Fmt.packFloat c d big x = .ok b) :
    b.length = Fmt.fw d ∧
      match x with
      | .nan => (Fmt.ff d).val K (bytesNat big b) = .nan
      | .inf s => (Fmt.ff d).val K (bytesNat big b) = .inf s
      | .fin x => (Fmt.ff d).val K (bytesNat big b) = .fin (c.round (Fmt.ff d) x) ∧
          |x| < (Fmt.ff d).threshold K := by
  cases x with
  | nan =>
    simp only [Fmt.packFloat, Except.ok.injEq] at h
    subst h
    refine ⟨natBytes_length _ _ _, ?_⟩
    dsimp only
    rw [bytesNat_natBytes _ _ _ (by rw [← bits_fw]; exact hc.lt _ _)]
    exact hc.nan _ (ff_cases d)
  | inf s =>
    simp only [Fmt.packFloat, Except.ok.injEq] at h
    subst h
    refine ⟨natBytes_length _ _ _, ?_⟩
    dsimp only
    rw [bytesNat_natBytes _ _ _ (infBits_lt d s)]
    exact val_infBits d s
  | fin x =>
    simp only [Fmt.packFloat] at h
    by_cases ht : (Fmt.ff d).threshold K ≤ |x|
    · rw [if_pos ht] at h; cases h
    · rw [if_neg ht] at h
      cases h
      refine ⟨natBytes_length _ _ _, ?_, not_le.1 ht⟩
      rw [bytesNat_natBytes _ _ _ (by rw [← bits_fw]; exact hc.lt _ _)]
      exact hc.val_round (ff_cases d) x (not_le.1 ht)

theorem pack_flt_ne (c : FloatCodec K) (d big : Bool) (n : Nat) (hn : n ≠ 1) (v : Val K) :
    Fmt.pack c (.flt d big n) v = .error .structError := by
  match n, hn with
  | 0, _ => cases v <;> rfl
  | n + 2, _ => cases v <;> rfl

theorem pack_length {c : FloatCodec K} (hc : c.Nearest) (f : Fmt) (v : Val K) (b : Bytes)
    (h : f.pack c v = .ok b) : b.length = f.size := by
  cases f with
  | int s big w =>
    cases v with
    | int v =>
      simp only [Fmt.pack] at h
      split at h
      · cases h; simp [Fmt.size]
      · cases h
    | _ => cases h
  | bool =>
    cases v with
    | int v => simp only [Fmt.pack, Except.ok.injEq] at h; subst h; rfl
    | _ => cases h
  | flt d big n =>
    by_cases hn : n = 1
    · subst hn
      cases v with
      | int v => simpa [Fmt.size] using (packFloat_spec hc d big (.fin (v : K)) b h).1
      | num x => simpa [Fmt.size] using (packFloat_spec hc d big x b h).1
      | _ => cases h
    · rw [pack_flt_ne c d big n hn] at h; cases h
  | str n =>
    cases v with
    | bytes v =>
      simp only [Fmt.pack, Except.ok.injEq] at h; subst h
      simp [Fmt.size]; omega
    | _ => cases h

theorem rstrip_spec (s : List Char) : Stripped s (rstrip padChar s) := by
  constructor
  · refine ⟨(s.reverse.takeWhile padChar).reverse, ?_, ?_⟩
    · intro c hc
      rw [List.mem_reverse] at hc
      have := (List.all_eq_true.1 (List.all_takeWhile (p := padChar) (l := s.reverse))) c hc
      simpa [padChar] using this
    · unfold rstrip
      rw [← List.reverse_append, List.takeWhile_append_dropWhile, List.reverse_reverse]
  · intro c hc
    unfold rstrip at hc
    rw [List.getLast?_reverse] at hc
    have := List.head?_dropWhile_not padChar s.reverse
    rw [hc] at this
    simpa [padChar, not_or] using this

theorem rstrip_append_spaces (s : List Char) (n : Nat) :
    rstrip padChar (s ++ List.replicate n ' ') = rstrip padChar s := by
  unfold rstrip
  rw [List.reverse_append, List.reverse_replicate]
  congr 1
  induction n with
  | zero => simp
  | succ n ih =>
    rw [List.replicate_succ, List.cons_append, List.dropWhile_cons_of_pos (by simp [padChar])]
    exact ih

theorem utf8_spaces (n : Nat) : utf8 (List.replicate n ' ') = List.replicate n 32 := by
  rw [utf8_ascii _ (by intro c hc; rw [List.eq_of_mem_replicate hc]; decide)]
  simp

/-- The bytes of a text field and what they decode to. -/
theorem text_field (n : Nat) (s u : List Char) (hu : CutTo n s u) :
    ∃ k, (utf8 (ljust n s)).take n = utf8 (u ++ List.replicate k ' ') ∧
      n ≤ (utf8 (ljust n s)).length := by
  obtain ⟨hp, hcut⟩ := hu
  have hlen : n ≤ (utf8 (ljust n s)).length := by
    have := utf8_length_le (ljust n s)
    simp only [ljust, List.length_append, List.length_replicate] at this ⊢
    omega
  by_cases hn : n ≤ (utf8 s).length
  · refine ⟨0, ?_, hlen⟩
    simp only [ljust, utf8_append, List.replicate_zero, List.append_nil]
    rw [List.take_append_of_le_length hn, hcut]
  · push Not at hn
    have hs : utf8 u = utf8 s := by rw [hcut, List.take_of_length_le hn.le]
    have hus : u = s := by
      have := congrArg utf8? hs
      rw [utf8?_utf8, utf8?_utf8] at this
      exact Option.some.inj this
    subst hus
    refine ⟨n - (utf8 u).length, ?_, hlen⟩
    have hl := utf8_length_le u
    simp only [ljust, utf8_append, utf8_spaces]
    rw [List.take_append, List.take_of_length_le hn.le, List.take_replicate]
    congr 2
    omega

/-- Packing a value and unpacking the bytes. -/
theorem unpack_pack {c : FloatCodec K} (hc : c.Nearest) (enc : Encoding) (f : Fmt) (v : Val K)
    (b : Bytes) (h : f.pack c (encodeValue f v) = .ok b)
    (hint : ∀ s big w, f = .int s big w → 0 < w)
    (hbool : f = .bool → ∃ i, v = .int i)
    (hstr : ∀ n, f = .str n → ∃ s u, v = .str s ∧ CutTo n s u) :
    ∃ u v', f.unpack K b = .ok u ∧ decodeValue enc u = .ok v' ∧ ReadsAs f v v' := by
  have hl := pack_length hc f _ b h
  unfold Fmt.unpack
  rw [if_neg (by simpa using hl)]
  cases f with
  | int s big w =>
    cases v with
    | int i =>
      simp only [encodeValue, Fmt.pack] at h
      split at h
      · rename_i hr
        cases h
        exact ⟨_, _, rfl, rfl, by
          simp [ReadsAs, bytesInt_intBytes s big w i (hint s big w rfl) hr.1 hr.2]⟩
      · cases h
    | _ => cases h
  | bool =>
    obtain ⟨i, rfl⟩ := hbool rfl
    simp only [encodeValue, Fmt.pack, Except.ok.injEq] at h
    subst h
    refine ⟨_, _, rfl, rfl, ?_⟩
    by_cases hi : i = 0 <;> simp [ReadsAs, hi]
  | flt d big n =>
    by_cases hn : n = 1
    · subst hn
      have hbest : ∀ x : K, |x| < (Fmt.ff d).threshold K →
          Nearest d x (c.round (Fmt.ff d) x) := by
        intro x hx
        obtain ⟨y, hy, hy'⟩ := hc.fin _ (ff_cases d) x hx
        have : c.round (Fmt.ff d) x = y := by simp [FloatCodec.round, hy]
        rw [this]
        exact ⟨hx, ⟨_, hy⟩, fun n y' hn => hy' n y' hn⟩
      have htake : b.take (Fmt.fw d) = b := List.take_of_length_le (by
        simp only [Fmt.size, one_mul] at hl; exact hl.le)
      cases v with
      | int i =>
        have := packFloat_spec hc d big (.fin (i : K)) b h
        refine ⟨_, _, by simp only [htake]; rfl, rfl, ?_⟩
        exact ⟨_, by rw [this.2.1], hbest _ this.2.2⟩
      | num x =>
        have := packFloat_spec hc d big x b h
        refine ⟨_, _, by simp only [htake]; rfl, rfl, ?_⟩
        cases x with
        | fin x => exact ⟨_, by rw [this.2.1], hbest _ this.2.2⟩
        | nan => simp only [ReadsAs]; rw [this.2]
        | inf s => simp only [ReadsAs]; rw [this.2]
      | str s => cases h
      | bytes s => cases h
    · rw [pack_flt_ne c d big n hn] at h; cases h
  | str n =>
    obtain ⟨s, u, rfl, hu⟩ := hstr n rfl
    simp only [encodeValue, Fmt.pack, Except.ok.injEq, Fmt.size] at h
    obtain ⟨k, hk, hkl⟩ := text_field n s u hu
    rw [hk, Nat.sub_eq_zero_of_le hkl] at h
    simp only [List.replicate_zero, List.append_nil] at h
    subst h
    refine ⟨_, .str (rstrip padChar u), rfl, ?_, u, _, hu, rstrip_spec u, rfl⟩
    simp only [decodeValue, decode, utf8?_utf8]
    rw [rstrip_append_spaces]

theorem read_at (pre b post : Bytes) (n : Nat) (hn : b.length = n) :
    (Handle.mk (pre ++ b ++ post) pre.length).read n =
      (b, Handle.mk (pre ++ b ++ post) (pre.length + n)) := by
  subst hn
  simp [Handle.read]

theorem readFmt_pack {c : FloatCodec K} (hc : c.Nearest) (enc : Encoding) (f : Fmt) (v : Val K)
    (b : Bytes) (h : f.pack c (encodeValue f v) = .ok b)
    (hint : ∀ s big w, f = .int s big w → 0 < w)
    (hbool : f = .bool → ∃ i, v = .int i)
    (hstr : ∀ n, f = .str n → ∃ s u, v = .str s ∧ CutTo n s u) (pre post : Bytes) :
    ∃ v', readFmt (K := K) enc f ⟨pre ++ b ++ post, pre.length⟩ =
        .ok (v', ⟨pre ++ b ++ post, pre.length + f.size⟩) ∧ ReadsAs f v v' := by
  obtain ⟨u, v', h1, h2, h3⟩ := unpack_pack hc enc f v b h hint hbool hstr
  refine ⟨v', ?_, h3⟩
  unfold readFmt
  rw [read_at pre b post f.size (pack_length hc f _ b h)]
  simp only [h1, h2]

theorem write_append {c : FloatCodec K} (d : Dict K) (e1 e2 : List (Entry K)) (b : Bytes)
    (h : write c d (e1 ++ e2) = .ok b) :
    ∃ b1 b2, write c d e1 = .ok b1 ∧ write c d e2 = .ok b2 ∧ b = b1 ++ b2 := by
  induction e1 generalizing b with
  | nil => exact ⟨[], b, rfl, h, rfl⟩
  | cons e es ih =>
    simp only [List.cons_append, write] at h ⊢
    cases he : e.write c d with
    | error x => rw [he] at h; cases h
    | ok be =>
      rw [he] at h
      simp only at h ⊢
      cases hr : write c d (es ++ e2) with
      | error x => rw [hr] at h; cases h
      | ok br =>
        rw [hr] at h
        cases h
        obtain ⟨b1, b2, h1, h2, rfl⟩ := ih br hr
        exact ⟨be ++ b1, b2, by rw [h1], h2, by simp⟩

theorem entry_width {c : FloatCodec K} (hc : c.Nearest) (d : Dict K) (e : Entry K) (b : Bytes)
    (h : e.write c d = .ok b) : b.length = width d e := by
  cases e with
  | reserved n => simp only [Entry.write, Except.ok.injEq] at h; subst h; simp [width]
  | field name fmt =>
    cases fmt with
    | fixed f =>
      simp only [Entry.write] at h
      split at h
      · cases h
      · rw [pack_length hc _ _ _ h, size_eq]; rfl
    | apply f rd wr =>
      simp only [Entry.write] at h
      split at h
      · cases h
      · split at h
        · cases h
        · rw [pack_length hc _ _ _ h, size_eq]; rfl
    | fromPrevious p =>
      simp only [Entry.write] at h
      cases hp : previousFormat d p with
      | error x => rw [hp] at h; cases h
      | ok f =>
        rw [hp] at h
        simp only at h
        split at h
        · cases h
        · rw [pack_length hc _ _ _ h]
          unfold previousFormat Dict.at at hp
          simp only [width]
          cases hd : d p with
          | none => rw [hd] at hp; cases hp
          | some v =>
            rw [hd] at hp
            cases v with
            | int n =>
              simp only at hp ⊢
              split at hp
              · cases hp; rfl
              · cases hp
            | _ => cases hp

end LayoutM
end Surfalize
