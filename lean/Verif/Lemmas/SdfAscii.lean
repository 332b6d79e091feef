import Verif.Model.Sdf
import Verif.Lemmas.Text
/-! # Lemmas about splitting text, for C59 -/
set_option linter.unusedSectionVars false
namespace Surfalize
namespace Sdf
open LayoutM FileArr

theorem splitOn_ne_nil (c : Char) (s : List Char) : splitOn c s ≠ [] := by
  cases s with
  | nil => simp [splitOn]
  | cons x s =>
    rw [splitOn]
    split
    · simp
    · split <;> simp

theorem splitOn_length (c : Char) (s : List Char) : (splitOn c s).length = s.count c + 1 := by
  induction s with
  | nil => rfl
  | cons x s ih =>
    rw [splitOn]
    split
    · rename_i h; subst h; simp [ih]
    · rename_i h
      rw [List.count_cons_of_ne (by simpa using h)]
      cases hs : splitOn c s with
      | nil => exact absurd hs (splitOn_ne_nil c s)
      | cons l ls => rw [hs] at ih; simpa using ih

theorem splitOn_first (c : Char) (a rest : List Char) (h : c ∉ a) :
    splitOn c (a ++ c :: rest) = a :: splitOn c rest := by
  induction a with
  | nil => simp [splitOn]
  | cons x a ih =>
    have hx : ¬ x = c := fun e => h (by simp [e])
    have ha : c ∉ a := fun e => h (by simp [e])
    rw [List.cons_append, splitOn, if_neg hx, ih ha]

theorem splitOn_none (c : Char) (s : List Char) (h : c ∉ s) : splitOn c s = [s] := by
  induction s with
  | nil => rfl
  | cons x s ih =>
    have hx : ¬ x = c := fun e => h (by simp [e])
    rw [splitOn, if_neg hx, ih fun e => h (by simp [e])]

theorem splitLines_single {s : List Char} (hne : s ≠ []) (h : ∀ c ∈ s, isLineBreak c = false) :
    splitLines s = [s] := by
  induction s with
  | nil => exact absurd rfl hne
  | cons x s ih =>
    have hx : isLineBreak x = false := h x (by simp)
    rw [splitLines, if_neg (fun e => by rw [e.1] at hx; exact absurd hx (by decide)), hx]
    simp only [Bool.false_eq_true, if_false]
    cases s with
    | nil => rfl
    | cons y s => rw [ih (by simp) (fun c hc => h c (by simp [hc]))]

theorem latin1_ascii {s : List Char} (h : ∀ c ∈ s, c.toNat < 128) :
    latin1 (s.map fun c => UInt8.ofNat c.toNat) = s := by
  induction s with
  | nil => rfl
  | cons x s ih =>
    have hx := h x (by simp)
    have h1 : (UInt8.ofNat x.toNat).toNat = x.toNat := by
      rw [UInt8.toNat_ofNat']; omega
    have h2 := ih fun c hc => h c (by simp [hc])
    simp only [latin1, List.map_cons, List.map_map] at h2 ⊢
    rw [h1, Char.ofNat_toNat]
    congr 1

variable {K : Type} [Field K] [LinearOrder K]

/-- The reader fails on a text whose first line before the first asterisk holds two equality
signs. -/
theorem readAscii_error
    (finish : List (List Char × List Char) → List Char → Except Err (Raw K))
    {bs : Bytes} {pos : Nat} {hdr rest : List Char} (x : Char) (hx : isSpace x = false)
    (hb : ∀ b ∈ bs.drop pos, b < 128)
    (ht : latin1 (bs.drop pos) = '\n' :: (x :: hdr) ++ '*' :: rest)
    (h1 : '*' ∉ x :: hdr) (h2 : ∀ c ∈ x :: hdr, isLineBreak c = false)
    (h3 : 2 ≤ (x :: hdr).count '=') :
    readAscii finish ⟨bs, pos⟩ = .error .valueError := by
  unfold readAscii
  have hall : (Handle.mk bs pos).readAll.1 = bs.drop pos := rfl
  rw [hall]
  dsimp only
  rw [if_pos (by rw [List.all_eq_true]; intro b hbm; simpa using hb b hbm), ht]
  have hd : ('\n' :: (x :: hdr) ++ '*' :: rest).dropWhile isSpace = (x :: hdr) ++ '*' :: rest := by
    have hn : isSpace '\n' = true := by decide
    simp [List.dropWhile, hn, hx]
  rw [hd, splitOn_first _ _ _ h1]
  have hd2 : (x :: hdr).dropWhile isSpace = x :: hdr := by simp [List.dropWhile, hx]
  have hsl : splitLines ((x :: hdr).dropWhile isSpace) = [x :: hdr] := by
    rw [hd2]; exact splitLines_single (by simp) h2
  have hlen := splitOn_length '=' (x :: hdr)
  have herr : asciiHeader [x :: hdr] = .error .valueError := by
    rw [asciiHeader]
    split
    · rename_i a b hab
      rw [hab] at hlen
      simp only [List.length_cons, List.length_nil] at hlen
      omega
    · rfl
  split
  · rename_i a b c d habcd
    simp only [List.cons.injEq] at habcd
    obtain ⟨rfl, -⟩ := habcd
    split
    · rfl
    · rw [hsl, herr]
  · rfl

end Sdf
end Surfalize
