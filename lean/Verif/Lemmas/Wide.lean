import Verif.Lemmas.Bytes
import Verif.Model.Vk
import Verif.Spec.Vk
/-! # Lemmas: texts with two bytes per character -/
set_option linter.unusedSectionVars false
namespace Surfalize
open LayoutM VkSpec

/-- Bytes that can be decoded are those of a text. -/
theorem utf8?_some {bs : Bytes} {t : List Char} (h : utf8? bs = some t) : ∃ u, bs = utf8 u := by
  have h1 : bs.toByteArray.utf8Decode?.isSome = true := by
    unfold utf8? at h
    cases hd : bs.toByteArray.utf8Decode? with
    | none => rw [hd] at h; cases h
    | some a => rfl
  obtain ⟨u, hu⟩ := ByteArray.isSome_utf8Decode?_iff.1 h1
  refine ⟨u, ?_⟩
  rw [← utf8_toByteArray] at hu
  have := congrArg ByteArray.toList hu
  have hd := congrArg ByteArray.data hu
  have h2 := congrArg Array.toList hd
  simpa using h2

/-- A character is encoded as one byte below 128 or as several bytes from 128. -/
theorem encodeChar_cases (c : Char) :
    (c.toNat < 128 ∧ String.utf8EncodeChar c = [UInt8.ofNat c.toNat]) ∨
    ∃ a b r, String.utf8EncodeChar c = a :: b :: r ∧ 128 ≤ a.toNat ∧ 128 ≤ b.toNat := by
  unfold String.utf8EncodeChar
  have e : c.val.toNat = c.toNat := rfl
  simp only [e]
  generalize c.toNat = v
  by_cases h1 : v ≤ 127
  · left
    rw [if_pos h1]
    exact ⟨by omega, rfl⟩
  · right
    rw [if_neg h1]
    split
    · refine ⟨_, _, _, rfl, ?_, ?_⟩ <;> rw [UInt8.toNat_ofNat'] <;> omega
    · split
      · refine ⟨_, _, _, rfl, ?_, ?_⟩ <;> rw [UInt8.toNat_ofNat'] <;> omega
      · refine ⟨_, _, _, rfl, ?_, ?_⟩ <;> rw [UInt8.toNat_ofNat'] <;> omega

/-- A text of this kind with a character beyond ASCII is not valid UTF-8. -/
theorem wide_valid : ∀ (s : List Char), (∀ c ∈ s, c.toNat < 256) → ∀ u, wide s = utf8 u → ∀ c ∈ s, c.toNat < 128
  | [], _, _, _ => by simp
  | c :: s, hs, u, h => by
    have hc := hs c (by simp)
    have e : wide (c :: s) = UInt8.ofNat c.toNat :: 0 :: wide s := rfl
    rw [e] at h
    cases u with
    | nil => simp [utf8] at h
    | cons d u =>
      rw [show utf8 (d :: u) = String.utf8EncodeChar d ++ utf8 u from rfl] at h
      rcases encodeChar_cases d with ⟨hd, h1⟩ | ⟨a, b, r, h1, h2, h3⟩
      · rw [h1] at h
        simp only [List.cons_append, List.nil_append, List.cons.injEq] at h
        obtain ⟨k1, k2⟩ := h
        cases u with
        | nil => simp [utf8] at k2
        | cons f u =>
          rw [show utf8 (f :: u) = String.utf8EncodeChar f ++ utf8 u from rfl] at k2
          rcases encodeChar_cases f with ⟨hf, m1⟩ | ⟨a, b, r, m1, m2, m3⟩
          · rw [m1] at k2
            simp only [List.cons_append, List.nil_append, List.cons.injEq] at k2
            have ih := wide_valid s (fun x hx => hs x (by simp [hx])) u k2.2
            intro x hx
            rcases List.mem_cons.1 hx with rfl | hx
            · have := congrArg UInt8.toNat k1
              rw [UInt8.toNat_ofNat', UInt8.toNat_ofNat'] at this
              omega
            · exact ih x hx
          · rw [m1] at k2
            simp only [List.cons_append, List.cons.injEq] at k2
            rw [← k2.1] at m2
            simp at m2
      · rw [h1] at h
        simp only [List.cons_append, List.cons.injEq] at h
        rw [← h.2.1] at h3
        simp at h3

/-- The characters of such a text with a NUL after each. -/
def spaced (s : List Char) : List Char := s.flatMap fun c => [c, '\x00']

theorem everyOther_spaced (s : List Char) : Vk.everyOther (spaced s) = s := by
  induction s with
  | nil => rfl
  | cons c s ih =>
    rw [show spaced (c :: s) = c :: '\x00' :: spaced s from rfl, Vk.everyOther, ih]

theorem ofNat_toNat {c : Char} (h : c.toNat < 256) : Char.ofNat (UInt8.ofNat c.toNat).toNat = c := by
  rw [UInt8.toNat_ofNat', Nat.mod_eq_of_lt (by omega)]
  exact Char.ofNat_toNat c

theorem latin1_wide (s : List Char) (h : ∀ c ∈ s, c.toNat < 256) : latin1 (wide s) = spaced s := by
  induction s with
  | nil => rfl
  | cons c s ih =>
    rw [show wide (c :: s) = UInt8.ofNat c.toNat :: 0 :: wide s from rfl,
      show spaced (c :: s) = c :: '\x00' :: spaced s from rfl]
    unfold latin1 at ih ⊢
    rw [List.map_cons, List.map_cons, ih fun x hx => h x (by simp [hx]), ofNat_toNat (h c (by simp))]
    rfl

theorem wide_ascii (s : List Char) (h : ∀ c ∈ s, c.toNat < 128) : wide s = utf8 (spaced s) := by
  rw [utf8_ascii]
  · induction s with
    | nil => rfl
    | cons c s ih =>
      rw [show wide (c :: s) = UInt8.ofNat c.toNat :: 0 :: wide s from rfl,
        show spaced (c :: s) = c :: '\x00' :: spaced s from rfl, ih fun x hx => h x (by simp [hx])]
      rfl
  · intro c hc
    unfold spaced at hc
    rw [List.mem_flatMap] at hc
    obtain ⟨d, hd, hc⟩ := hc
    rcases List.mem_cons.1 hc with rfl | hc
    · exact h _ hd
    · rw [List.mem_singleton.1 hc]; decide

/-- Decoding with `'auto'`. -/
theorem decode_wide (s : List Char) (h : ∀ c ∈ s, c.toNat < 256) : decode .auto (wide s) = .ok (spaced s) := by
  unfold decode
  cases hu : utf8? (wide s) with
  | none => dsimp only; rw [latin1_wide s h]
  | some t =>
    obtain ⟨u, e⟩ := utf8?_some hu
    rw [wide_ascii s (wide_valid s h u e), utf8?_utf8] at hu
    cases hu
    rfl

/-- Decoding as UTF-8. -/
theorem decode_wide_utf8 (s : List Char) (h : ∀ c ∈ s, c.toNat < 128) : decode .utf8 (wide s) = .ok (spaced s) := by
  unfold decode
  rw [wide_ascii s h, utf8?_utf8]

theorem decode_wide_utf8_none (s : List Char) (h : ∀ c ∈ s, c.toNat < 256) (hc : ∃ c ∈ s, 128 ≤ c.toNat) :
    decode .utf8 (wide s) = .error .unicode := by
  unfold decode
  cases hu : utf8? (wide s) with
  | none => rfl
  | some t =>
    obtain ⟨u, e⟩ := utf8?_some hu
    obtain ⟨c, h1, h2⟩ := hc
    have := wide_valid s h u e c h1
    omega

theorem wide_length (s : List Char) : (wide s).length = 2 * s.length := by
  induction s with
  | nil => rfl
  | cons c s ih =>
    rw [show wide (c :: s) = UInt8.ofNat c.toNat :: 0 :: wide s from rfl]
    simp only [List.length_cons, ih]
    omega

end Surfalize
