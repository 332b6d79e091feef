import Verif.Lemmas.FitsFile
/-!
# C66: lines of FITS headers that are not read

The FITS standard has lines without a value (`HISTORY`), and values with an equals sign in them. The reader splits
every line at its equals signs, so that such a line makes the whole file unreadable.
-/
set_option linter.unusedSectionVars false
namespace Surfalize.Props
open Surfalize Gwy Fits FitsSpec FileArr LayoutM

variable {K : Type} [Field K] [LinearOrder K]

/-- Lines without an equals sign before the remark, or with two of them. -/
private theorem splitEq_error (s : List Char) (h : '=' ∉ s ∨ ∃ a b c, s = a ++ '=' :: (b ++ '=' :: c)) :
    splitEq s = .error .valueError := by
  have hd : ∀ s : List Char, s.dropWhile (· ≠ '=') = [] ↔ '=' ∉ s := by
    intro s
    constructor
    · intro h hm
      have := dropWhile_nil _ s h _ hm
      simp at this
    · intro h
      have := dropWhile_all (p := fun c => c ≠ '=') s [] (fun x hx => by
        have : x ≠ '=' := fun e => h (e ▸ hx)
        simpa using this)
      simpa using this
  unfold splitEq
  rcases h with h | ⟨a, b, c, rfl⟩
  · rw [(hd s).2 h]
  · have h2 : ∃ r, (a ++ '=' :: (b ++ '=' :: c)).dropWhile (· ≠ '=') = '=' :: r ∧ '=' ∈ r := by
      clear hd
      induction a with
      | nil => exact ⟨b ++ '=' :: c, by simp, by simp⟩
      | cons x a ih =>
        by_cases hx : x = '='
        · subst hx
          exact ⟨a ++ '=' :: (b ++ '=' :: c), by simp, by simp⟩
        · obtain ⟨r, hr, hm⟩ := ih
          refine ⟨r, ?_, hm⟩
          rw [List.cons_append, List.dropWhile_cons, if_pos (by simpa using hx)]
          exact hr
    obtain ⟨r, hr, hm⟩ := h2
    rw [hr]
    dsimp only
    rw [if_pos hm]

/-- What is in front of the first `/` of a line without trailing blanks. -/
private theorem parse_error (T : FloatText K) (hd : Header K) (line : List Char) (ls : List (List Char))
    (hne : rstrip isSpace line ≠ []) (hc : ¬ "COMMENT".toList <+: line) (he : rstrip isSpace line ≠ "END".toList)
    (h : splitEq ((rstrip isSpace line).takeWhile (· ≠ '/')) = .error .valueError) :
    parseLines T hd (rstrip isSpace line :: ls) = .error .valueError := by
  rw [parseLines, if_neg (by
    rintro (h | h)
    · exact hne h
    · exact hc ((List.isPrefixOf_iff_prefix.1 h).trans (rstrip_subset isSpace line))), if_neg he, h]

private theorem history_error (T : FloatText K) (hd : Header K) (t : List Char) (ht : '=' ∉ t) (ls : List (List Char)) :
    parseLines T hd (rstrip isSpace ("HISTORY".toList ++ t) :: ls) = .error .valueError := by
  have hr : rstrip isSpace ("HISTORY".toList ++ t) = "HISTORY".toList ++ rstrip isSpace t :=
    rstrip_append_last isSpace "HISTOR".toList t 'Y' (by decide)
  refine parse_error T hd _ ls ?_ ?_ ?_ (splitEq_error _ (.inl ?_))
  · rw [hr]; intro h; exact absurd (congrArg List.length h) (by simp)
  · rintro ⟨r, h⟩
    have := congrArg List.head? h
    simp at this
  · rw [hr]
    intro h
    have := congrArg List.head? h
    simp at this
  · intro h
    have h1 := (List.takeWhile_prefix _).subset h
    have h2 := (rstrip_subset isSpace _).subset h1
    rcases List.mem_append.1 h2 with h2 | h2
    · revert h2; decide
    · exact ht h2

private theorem equals_error (T : FloatText K) (hd : Header K) (a b c : List Char) (ha : '/' ∉ a) (hb : '/' ∉ b)
    (hc : ¬ "COMMENT".toList <+: a ++ '=' :: (b ++ '=' :: c)) (ls : List (List Char)) :
    parseLines T hd (rstrip isSpace (a ++ '=' :: (b ++ '=' :: c)) :: ls) = .error .valueError := by
  have hr : rstrip isSpace (a ++ '=' :: (b ++ '=' :: c)) = a ++ '=' :: (b ++ '=' :: rstrip isSpace c) := by
    have := rstrip_append_last isSpace (a ++ '=' :: b) c '=' (by decide)
    simpa [List.append_assoc] using this
  refine parse_error T hd _ ls ?_ hc ?_ ?_
  · rw [hr]; simp
  · rw [hr]
    intro h
    have : '=' ∈ "END".toList := by rw [← h]; simp
    revert this; decide
  · refine splitEq_error _ (.inr ⟨a, b, (rstrip isSpace c).takeWhile (· ≠ '/'), ?_⟩)
    rw [hr]
    have hp : ∀ (l r : List Char), '/' ∉ l → (l ++ r).takeWhile (· ≠ '/') = l ++ r.takeWhile (· ≠ '/') := by
      intro l r hl
      rw [List.takeWhile_append_of_pos]
      intro x hx
      have : x ≠ '/' := fun e => hl (e ▸ hx)
      simpa using this
    have e1 := hp (a ++ '=' :: (b ++ ['='])) (rstrip isSpace c) (by
      intro h
      simp only [List.mem_append, List.mem_cons, List.not_mem_nil, or_false] at h
      rcases h with h | h | h | h
      · exact ha h
      · revert h; decide
      · exact hb h
      · revert h; decide)
    simpa only [List.append_assoc, List.cons_append, List.nil_append] using e1

/-- **C66 violated** for FITS files with a line that is allowed by the standard: a `HISTORY` line without an equals
sign, or a line with two equals signs before a remark, in the first header block behind cards and comments makes the
file unreadable, whatever else is in it: ValueError. -/
theorem C66_fits_lines_violated (T : FloatText K) (U : Units.Text) (enc : Encoding) (before after : List (List Char))
    (line : List Char) (hn : (before ++ line :: after).length = 36) (hl : Lines (before ++ line :: after))
    (hm : "SIMPLE".toList <+: (before ++ line :: after).flatten)
    (hb : ∀ l ∈ before, Says l .skip ∨ ∃ k t, Says l (.card k t))
    (bad : (∃ t, line = "HISTORY".toList ++ t ∧ '=' ∉ t) ∨
      ∃ a b c, line = a ++ '=' :: (b ++ '=' :: c) ∧ '/' ∉ a ∧ '/' ∉ b ∧ ¬ "COMMENT".toList <+: line)
    (rest : Bytes) (n : Nat) (h1 : 1 ≤ n) :
    readFits T U enc n ⟨ascii (before ++ line :: after) ++ rest, 0⟩ = .fail .valueError := by
  set lines := before ++ line :: after with hlines
  have hp : parseBytes T enc (ascii lines) = .error .valueError := by
    rw [parseBytes_ascii T enc lines hn hl, hlines, List.map_append, List.map_cons]
    obtain ⟨hd, -, h2⟩ := parse_cards T before hb (fun _ => none)
    rw [h2]
    rcases bad with ⟨t, rfl, ht⟩ | ⟨a, b, c, rfl, ha, hb', hc⟩
    · exact history_error T hd t ht _
    · exact equals_error T hd a b c ha hb' hc _
  have hlen : (ascii lines).length = blockSize := by rw [ascii_length lines hl, hn]; rfl
  have hmagic : utf8 "SIMPLE".toList <+: ascii lines := by
    have := ascii_prefix "SIMPLE".toList (by decide) lines hm
    exact this
  have h6 : ((⟨ascii lines ++ rest, 0⟩ : Handle).read 6).1 = utf8 "SIMPLE".toList := by
    have hl6 : (utf8 "SIMPLE".toList).length = 6 := by decide +kernel
    obtain ⟨r, hr⟩ := hmagic
    have := here_read [] (utf8 "SIMPLE".toList) (r ++ rest) 6 hl6
    simp only [here, List.nil_append, List.length_nil] at this
    rw [← hr, List.append_assoc, this]
  obtain ⟨n, rfl⟩ := Nat.exists_eq_add_of_le' h1
  have hrd := here_read [] (ascii lines) rest blockSize hlen
  simp only [here, List.nil_append, List.length_nil] at hrd
  unfold readFits
  rw [if_neg (by rw [h6]; simp), show (⟨ascii lines ++ rest, 0⟩ : Handle).seek 0 = ⟨ascii lines ++ rest, 0⟩ from rfl,
    readHeader, hrd]
  dsimp only
  rw [hp]
  rfl

/-- A header with a line on how the file was made. -/
private def withHistory : List (List Char) := ("SIMPLE  =                    T".toList ++ List.replicate 50 ' ') ::
  ("HISTORY flat field corrected".toList ++ List.replicate 52 ' ') ::
  ("END".toList ++ List.replicate 77 ' ') :: List.replicate 33 (List.replicate 80 ' ')

/-- A FITS file with a line on its history cannot be read. -/
example (U : Units.Text) (rest : Bytes) (T : FloatText ℚ) :
    readFits T U .utf8 1000 ⟨ascii withHistory ++ rest, 0⟩ = .fail .valueError := by
  refine C66_fits_lines_violated T U .utf8 [("SIMPLE  =                    T".toList ++ List.replicate 50 ' ')]
    (("END".toList ++ List.replicate 77 ' ') :: List.replicate 33 (List.replicate 80 ' '))
    ("HISTORY flat field corrected".toList ++ List.replicate 52 ' ') (by simp) ?_ (by decide +kernel) ?_
    (.inl ⟨" flat field corrected".toList ++ List.replicate 52 ' ', by decide +kernel, by decide +kernel⟩) rest 1000 (by omega)
  · unfold Lines; decide +kernel
  · intro l hl
    rw [List.mem_singleton] at hl
    subst hl
    refine .inr ⟨"SIMPLE".toList, "T".toList, ?_⟩
    have hb : ∀ n, Blank (List.replicate n ' ') := fun n _ h => (List.mem_replicate.1 h).2
    exact Says.card [] "SIMPLE".toList (List.replicate 2 ' ') (List.replicate 20 ' ') "T".toList (List.replicate 50 ' ') []
      (.inl rfl) ⟨by decide, by decide, by decide, by decide⟩ (hb 2) (hb 20) ⟨by decide, by decide, by decide⟩ (hb 50) (.inl rfl)

end Surfalize.Props
