import Verif.Prelude.Text
import Verif.Lemmas.Bytes
/-! # Lemmas about numbers as text -/
set_option linter.unusedSectionVars false
namespace Surfalize

theorem digit_toNat {d : Nat} (h : d < 10) : (Char.ofNat (d + 48)).toNat = d + 48 := by
  have : ∀ d : Fin 10, (Char.ofNat (d.1 + 48)).toNat = d.1 + 48 := by decide
  exact this ⟨d, h⟩

theorem digit_isDigit {d : Nat} (h : d < 10) : (Char.ofNat (d + 48)).isDigit = true := by
  have : ∀ d : Fin 10, (Char.ofNat (d.1 + 48)).isDigit = true := by decide
  exact this ⟨d, h⟩

theorem isDigit_range {c : Char} (h : c.isDigit = true) : 48 ≤ c.toNat ∧ c.toNat ≤ 57 := by
  simp only [Char.isDigit, Bool.and_eq_true, decide_eq_true_eq] at h
  obtain ⟨h1, h2⟩ := h
  exact ⟨UInt32.le_iff_toNat_le.1 h1, UInt32.le_iff_toNat_le.1 h2⟩

theorem natText_ne_nil (n : Nat) : natText n ≠ [] := by
  rw [natText]; split <;> simp

theorem natText_digits (n : Nat) : ∀ c ∈ natText n, c.isDigit = true := by
  induction n using Nat.strongRecOn with
  | _ n ih =>
    rw [natText]
    split
    · rename_i h
      intro c hc
      rw [List.mem_singleton] at hc
      subst hc; exact digit_isDigit h
    · rename_i h
      intro c hc
      rw [List.mem_append, List.mem_singleton] at hc
      rcases hc with hc | rfl
      · exact ih (n / 10) (by omega) c hc
      · exact digit_isDigit (Nat.mod_lt _ (by omega))

theorem digitsNat_append (s : List Char) (c : Char) :
    digitsNat (s ++ [c]) = 10 * digitsNat s + (c.toNat - 48) := by
  simp [digitsNat]

theorem digitsNat_natText (n : Nat) : digitsNat (natText n) = n := by
  induction n using Nat.strongRecOn with
  | _ n ih =>
    rw [natText]
    split
    · rename_i h
      simp [digitsNat, digit_toNat h]
    · rename_i h
      rw [digitsNat_append, ih (n / 10) (by omega), digit_toNat (Nat.mod_lt _ (by omega))]
      omega

theorem natText_length_le (k n : Nat) (h : n < 10 ^ (k + 1)) : (natText n).length ≤ k + 1 := by
  induction k generalizing n with
  | zero => rw [natText, if_pos (by simpa using h)]; simp
  | succ k ih =>
    rw [natText]
    split
    · simp
    · have := ih (n / 10) (by rw [pow_succ] at h; omega)
      simp; omega

theorem not_isSpace_of_digit {c : Char} (h : c.isDigit = true) : isSpace c = false := by
  have := isDigit_range h
  by_contra hc
  simp only [Bool.not_eq_false, isSpace, Bool.or_eq_true, decide_eq_true_eq] at hc
  rcases hc with ((((rfl | rfl) | rfl) | rfl) | rfl) | rfl <;> revert this <;> decide

theorem rstrip_self (p : Char → Bool) (s : List Char) (h : ∀ c ∈ s.getLast?, p c = false) :
    rstrip p s = s := by
  unfold rstrip
  rcases List.eq_nil_or_concat s with rfl | ⟨t, c, rfl⟩
  · rfl
  · have hc : p c = false := h c (by simp)
    simp [hc]

theorem rstrip_append_all (p : Char → Bool) (s t : List Char) (h : ∀ c ∈ t, p c = true) :
    rstrip p (s ++ t) = rstrip p s := by
  unfold rstrip
  rw [List.reverse_append, List.dropWhile_append_of_pos]
  intro c hc
  exact h c (by simpa using hc)

theorem strip_self {s : List Char} (h : ∀ c ∈ s, isSpace c = false) : strip s = s := by
  unfold strip
  have hd : s.dropWhile isSpace = s := by
    cases s with
    | nil => rfl
    | cons c s => simp [List.dropWhile, h c (by simp)]
  rw [hd]
  exact rstrip_self _ _ fun c hc => h c (List.mem_of_getLast? hc)

/-- `int(str(n)) == n`. -/
theorem intOf_natText (n : Nat) : intOf (natText n) = .ok (n : Int) := by
  have hd := natText_digits n
  have hs := strip_self (s := natText n) fun c hc => not_isSpace_of_digit (hd c hc)
  have hn := natText_ne_nil n
  have hall : (natText n).all Char.isDigit = true := by
    rw [List.all_eq_true]; exact hd
  unfold intOf
  rw [hs]
  split
  · rename_i ds h; exact absurd (hd '-' (by rw [h]; simp)) (by decide)
  · rename_i ds h; exact absurd (hd '+' (by rw [h]; simp)) (by decide)
  · rw [if_pos ⟨hn, hall⟩, digitsNat_natText]

/-- Python's `repr` and `float` have the assumed property: there is such a pair. -/
theorem exists_faithful (K : Type) [Field K] [LinearOrder K] [IsStrictOrderedRing K] [FloorRing K] :
    ∃ T : FloatText K, T.Faithful := by
  obtain ⟨c, hc⟩ := FloatCodec.exists_nearest K
  refine ⟨⟨fun x => natText (c.enc f64 (some x)), fun s =>
    if s = "nan".toList then .ok .nan else .ok (f64.val K (digitsNat s))⟩, ?_, ?_, ?_, ?_⟩
  · intro x hx
    obtain ⟨y, hy, hb⟩ := hc.fin f64 (Or.inr rfl) x hx
    refine ⟨y, ?_, ⟨_, hy⟩, hb⟩
    dsimp only
    rw [if_neg, digitsNat_natText, hy]
    intro h
    have := natText_digits (c.enc f64 (some x)) 'n' (by rw [h]; decide)
    revert this; decide
  · intro x
    have h := hc.lt f64 (some x)
    have : f64.bits = 64 := rfl
    rw [this] at h
    have := natText_length_le 19 (c.enc f64 (some x)) (lt_trans h (by norm_num))
    exact le_trans this (by omega)
  · intro x ch hch
    have := isDigit_range (natText_digits _ ch hch)
    omega
  · simp
  
end Surfalize
