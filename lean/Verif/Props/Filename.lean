import Verif.Lemmas.Filename
import Mathlib.Data.List.Nodup

/-!
# C53 — filename templates
-/
set_option linter.unusedSectionVars false
namespace Surfalize.Props
open Surfalize.Filename Surfalize.FilenameSpec Surfalize.FilenameLemmas

/-! ## Parsing -/

/-- **C53** (tokens). The text of a token is read as its name, type and optional prefix and suffix, whatever these are
(they contain no `|`). -/
theorem C53_token_forms (a b c d : List Char) (ha : '|' ∉ a) (hb : '|' ∉ b) (hc : '|' ∉ c) (hd : '|' ∉ d) :
    extractToken (a ++ '|' :: b) = .ok ⟨a, b, [], []⟩ ∧
    extractToken (a ++ '|' :: (b ++ '|' :: c)) = .ok ⟨a, b, c, []⟩ ∧
    extractToken (a ++ '|' :: (b ++ '|' :: (c ++ '|' :: d))) = .ok ⟨a, b, c, d⟩ := by
  refine ⟨?_, ?_, ?_⟩ <;> unfold extractToken
  · rw [splitBar_append _ _ ha, splitBar_noBar _ hb]
  · rw [splitBar_append _ _ ha, splitBar_append _ _ hb, splitBar_noBar _ hc]
  · rw [splitBar_append _ _ ha, splitBar_append _ _ hb, splitBar_append _ _ hc, splitBar_noBar _ hd]

/-- **C53** (malformed tokens). A token without `|` raises `ParsingError`. Partial: one with more than three `|` is
rejected too, but with `ValueError` (`C53_token_too_many_parts`). -/
theorem C53_token_malformed_partial (t : List Char) (h : '|' ∉ t) : extractToken t = .error .parsing := by
  unfold extractToken
  rw [splitBar_noBar t h]
  rfl

theorem C53_token_too_many_parts (t : List Char) (h : 3 < t.count '|') : extractToken t = .error .valueError := by
  have hl := splitBar_length t
  unfold extractToken
  generalize splitBar t = l at hl
  match l, hl with
  | [], hl => simp at hl
  | [_], hl => simp at hl; omega
  | [_, _], hl => simp at hl; omega
  | [_, _, _], hl => simp at hl; omega
  | [_, _, _, _], hl => simp at hl; omega
  | a :: b :: c :: d :: e :: l, hl => simp

/-- **C53** (templates). Parsing a template made of literal texts and tokens recovers exactly the tokens and the
literal texts, in order. -/
theorem C53_parse (segs : List (List Char × List Char)) (last : List Char) (toks : List Token)
    (hb : ∀ s ∈ segs, NoBracket s.1 ∧ NoBracket s.2) (hlast : NoBracket last)
    (ht : List.Forall₂ (fun s t => extractToken s.2 = .ok t) segs toks) :
    parseTemplate (renderTemplate segs last) = .ok (toks, segs.map Prod.fst ++ [last]) := by
  obtain ⟨tk, h⟩ := loop_segments segs toks hb ht ⟨[], [], false, [], []⟩ rfl rfl
  unfold parseTemplate renderTemplate
  rw [loop_append, h]
  simp only [List.nil_append]
  rw [loop_literal _ rfl last hlast]
  simp

/-- **C53** (unclosed). A template whose last token is not closed raises `ParsingError`. -/
theorem C53_unclosed (segs : List (List Char × List Char)) (a t : List Char) (toks : List Token)
    (hb : ∀ s ∈ segs, NoBracket s.1 ∧ NoBracket s.2) (ha : NoBracket a) (htk : NoBracket t)
    (ht : List.Forall₂ (fun s t => extractToken s.2 = .ok t) segs toks) :
    parseTemplate (renderTemplate segs (a ++ '<' :: t)) = .error .parsing := by
  obtain ⟨tk, h⟩ := loop_segments segs toks hb ht ⟨[], [], false, [], []⟩ rfl rfl
  unfold parseTemplate renderTemplate
  rw [loop_append, h]
  simp only [List.nil_append]
  rw [loop_open _ rfl a t ha htk]
  rfl

/-- **C53** (nested). Opening a token inside a token raises `ParsingError`, whatever follows. -/
theorem C53_nested (segs : List (List Char × List Char)) (a t rest : List Char) (toks : List Token)
    (hb : ∀ s ∈ segs, NoBracket s.1 ∧ NoBracket s.2) (ha : NoBracket a) (htk : NoBracket t)
    (ht : List.Forall₂ (fun s t => extractToken s.2 = .ok t) segs toks) :
    parseTemplate (renderTemplate segs ((a ++ '<' :: t) ++ '<' :: rest)) = .error .parsing := by
  obtain ⟨tk, h⟩ := loop_segments segs toks hb ht ⟨[], [], false, [], []⟩ rfl rfl
  unfold parseTemplate renderTemplate
  rw [loop_append, h]
  simp only [List.nil_append]
  rw [loop_append, loop_open _ rfl a t ha htk]
  rfl

/-- **C53** (malformed token in a template). The exception of the first malformed token is raised. -/
theorem C53_bad_token (segs : List (List Char × List Char)) (a t rest : List Char) (toks : List Token) (e : Err)
    (hb : ∀ s ∈ segs, NoBracket s.1 ∧ NoBracket s.2) (ha : NoBracket a) (htk : NoBracket t)
    (ht : List.Forall₂ (fun s t => extractToken s.2 = .ok t) segs toks) (he : extractToken t = .error e) :
    parseTemplate (renderTemplate segs ((a ++ '<' :: t) ++ '>' :: rest)) = .error e := by
  obtain ⟨tk, h⟩ := loop_segments segs toks hb ht ⟨[], [], false, [], []⟩ rfl rfl
  unfold parseTemplate renderTemplate
  rw [loop_append, h]
  simp only [List.nil_append]
  rw [loop_append, loop_open _ rfl a t ha htk]
  simp only [loop, stepChar, he]
  rfl

/-- **C53** fails for a stray `>`: it is not reported but repeats the token before it. -/
theorem C53_stray_close (a t : List Char) (tok : Token) (ha : NoBracket a) (htk : NoBracket t)
    (ht : extractToken t = .ok tok) :
    parseTemplate ((a ++ '<' :: t ++ ['>']) ++ ['>']) = .ok ([tok, tok], [a, []]) := by
  unfold parseTemplate
  rw [loop_append, loop_segment _ rfl a t ha htk tok ht]
  simp only [loop, stepChar, ht]
  rfl

/-! ## The regular expression -/

/-- **C53** (regular expression). The constructed expression is the literal texts, verbatim, with
`prefix(?P<name>TYPE)suffix` for each token. -/
theorem C53_regex (segs : List (List Char × Token × Ty)) (last : List Char) (ht : ∀ s ∈ segs, tyOf s.2.1.dtype = some s.2.2) :
    constructRegex (segs.map fun s => s.2.1) (segs.map (fun s => s.1) ++ [last]) = .ok
      (segs.flatMap (fun s => s.1 ++ (s.2.1.prefix_ ++ "(?P<".toList ++ s.2.1.name ++ ">".toList ++ s.2.2.regex ++
        ")".toList ++ s.2.1.suffix)) ++ last) := by
  have hm : (segs.map fun s => s.2.1).mapM tokenPattern = .ok (segs.map fun s => s.2.1.prefix_ ++ "(?P<".toList ++
      s.2.1.name ++ ">".toList ++ s.2.2.regex ++ ")".toList ++ s.2.1.suffix) := by
    rw [List.mapM_map]
    apply mapM_ok_of
    intro s hs
    simp only [Function.comp_def, tokenPattern, ht s hs]
  unfold constructRegex
  rw [hm]
  simp only
  congr 1
  congr 1
  · clear hm ht
    induction segs with
    | nil => rfl
    | cons s segs ih => simp only [List.map_cons, List.cons_append, List.zip_cons_cons, List.flatMap_cons, ih]
  · simp

/-- The items it denotes. -/
theorem C53_items (segs : List (List Char × Token × Ty)) (last : List Char) (ht : ∀ s ∈ segs, tyOf s.2.1.dtype = some s.2.2) :
    templateItems (segs.map fun s => s.2.1) (segs.map (fun s => s.1) ++ [last]) = .ok
      (segs.flatMap (fun s => s.1.map Item.lit ++ (s.2.1.prefix_.map .lit ++ [.field s.2.2] ++ s.2.1.suffix.map .lit)) ++
        last.map .lit) := by
  have hm : (segs.map fun s => s.2.1).mapM tokenItems = .ok (segs.map fun s => s.2.1.prefix_.map .lit ++ [.field s.2.2] ++
      s.2.1.suffix.map .lit) := by
    rw [List.mapM_map]
    apply mapM_ok_of
    intro s hs
    simp only [Function.comp_def, tokenItems, ht s hs]
  unfold templateItems
  rw [hm]
  simp only
  congr 1
  congr 1
  · clear hm ht
    induction segs with
    | nil => rfl
    | cons s segs ih => simp only [List.map_cons, List.cons_append, List.zip_cons_cons, List.flatMap_cons, ih]
  · simp

/-- **C53** (types). A type other than float, int and str raises `ParsingError`. -/
theorem C53_unknown_type (tokens : List Token) (seps : List (List Char)) (t : Token) (ht : t ∈ tokens)
    (h : t.dtype ≠ "float".toList ∧ t.dtype ≠ "int".toList ∧ t.dtype ≠ "str".toList) :
    constructRegex tokens seps = .error .parsing := by
  have hm : tokens.mapM tokenPattern = .error .parsing := by
    apply mapM_error
    · intro a _
      unfold tokenPattern
      cases tyOf a.dtype with
      | none => exact .inr rfl
      | some ty => exact .inl ⟨_, rfl⟩
    · refine ⟨t, ht, ?_⟩
      have : tyOf t.dtype = none := by
        unfold tyOf; rw [if_neg h.1, if_neg h.2.1, if_neg h.2.2]
      simp only [tokenPattern, this]
  unfold constructRegex
  rw [hm]

/-! ## Extraction -/

/-- **C53** (soundness). Whatever is extracted really stands in the file name: the file name contains the template
with the extracted texts in place of the fields, and each text has the type of its field. -/
theorem C53_extracted_occurs (is : List Item) (file : List Char) (vs : List (List Char)) (h : search is file = some vs) :
    List.Forall₂ Valid (fieldTypes is) vs ∧ ∃ a b, file = a ++ fill is vs ++ b :=
  search_sound is file vs h

/-- **C53** (completeness). Every file name that contains the template filled with valid field texts is matched. -/
theorem C53_matched (is : List Item) (vs : List (List Char)) (h : List.Forall₂ Valid (fieldTypes is) vs)
    (a b : List Char) : search is (a ++ fill is vs ++ b) ≠ none := by
  obtain ⟨r, hr⟩ := search_complete is vs h a b
  rw [hr]; simp

/-- **C53** (round trip). A file name that starts with the template filled with field texts is read back as those
texts, provided it is `Readable`: no number is directly followed by more of a number, every text field is
followed by the delimiter (which occurs in no field text and not after the template) or ends the file name. -/
theorem C53_roundtrip (delim : Char) (is : List Item) (vs : List (List Char)) (rest : List Char)
    (hf : List.Forall₂ Valid (fieldTypes is) vs) (hd : ∀ v ∈ vs, delim ∉ v) (hrest : delim ∉ rest)
    (hr : Readable delim is vs rest) : search is (fill is vs ++ rest) = some vs :=
  search_of_match _ _ _ (matchItems_roundtrip delim is vs rest hf hd hrest hr)

/-- Decimal notation of a number. -/
def decimal (n : Nat) : List Char :=
  if n < 10 then [Char.ofNat (n + 48)] else decimal (n / 10) ++ [Char.ofNat (n % 10 + 48)]
termination_by n
decreasing_by omega

theorem digit_char (k : Nat) (h : k < 10) : (Char.ofNat (k + 48)).isDigit = true ∧ (Char.ofNat (k + 48)).toNat - 48 = k := by
  have : ∀ k < 10, (Char.ofNat (k + 48)).isDigit = true ∧ (Char.ofNat (k + 48)).toNat - 48 = k := by decide
  exact this k h

/-- **C53** (integers). A number written in decimal is a valid int field text and is converted back to itself. -/
theorem C53_int_value (n : Nat) : Valid .int (decimal n) ∧ convert .int (some (decimal n)) = .ok (.int n) := by
  have key : ∀ n, (decimal n ≠ [] ∧ ∀ c ∈ decimal n, c.isDigit = true) ∧ digitsVal (decimal n) = n := by
    intro n
    induction n using Nat.strongRecOn with
    | ind n ih =>
      rw [decimal]
      by_cases h : n < 10
      · rw [if_pos h]
        obtain ⟨h1, h2⟩ := digit_char n h
        refine ⟨⟨by simp, by simpa using h1⟩, ?_⟩
        simpa [digitsVal] using h2
      · rw [if_neg h]
        obtain ⟨⟨h1, h2⟩, h3⟩ := ih (n / 10) (by omega)
        obtain ⟨d1, d2⟩ := digit_char (n % 10) (by omega)
        refine ⟨⟨by simp, ?_⟩, ?_⟩
        · intro c hc
          rcases List.mem_append.1 hc with hc | hc
          · exact h2 c hc
          · simp at hc; rw [hc]; exact d1
        · rw [digitsVal_append, h3]
          have : digitsVal [Char.ofNat (n % 10 + 48)] = n % 10 := by simpa [digitsVal] using d2
          rw [this]
          simp
          omega
  obtain ⟨h1, h2⟩ := key n
  exact ⟨h1, by simp only [convert, h2]⟩

theorem takeDrop_digits (a : List Char) (c : Char) (b : List Char) (ha : ∀ x ∈ a, x.isDigit = true) (hc : c.isDigit = false) :
    (a ++ c :: b).takeWhile Char.isDigit = a ∧ (a ++ c :: b).dropWhile Char.isDigit = c :: b := by
  induction a with
  | nil => simp [hc]
  | cons x a ih =>
    have hx := ha x (by simp)
    obtain ⟨h1, h2⟩ := ih fun y hy => ha y (by simp [hy])
    simp [hx, h1, h2]

/-- **C53** (floats). A number written with a decimal point or comma, or without one, is converted to its value. -/
theorem C53_float_value (i : Nat) (frac : List Char) (hf : frac ≠ []) (hd : ∀ c ∈ frac, c.isDigit = true) (c : Char)
    (hc : c = '.' ∨ c = ',') :
    Valid .float (decimal i ++ c :: frac) ∧
    convert .float (some (decimal i ++ c :: frac)) = .ok (.flt (i + digitsVal frac / 10 ^ frac.length)) ∧
    Valid .float (decimal i) ∧ convert .float (some (decimal i)) = .ok (.flt i) := by
  obtain ⟨hv, hcv⟩ := C53_int_value i
  have hval : digitsVal (decimal i) = i := by
    simp only [convert, Except.ok.injEq, Val.int.injEq] at hcv; exact hcv
  refine ⟨.inr ⟨decimal i, c, frac, rfl, hc, hv.1, hf, hv.2, hd⟩, ?_, .inl hv, ?_⟩
  · obtain ⟨h1, h2⟩ := takeDrop_digits (decimal i) c frac hv.2 (sep_not_digit hc)
    simp only [convert, floatVal, h1, h2, hval]
  · have h2 : (decimal i).dropWhile Char.isDigit = [] := by
      have key : ∀ l : List Char, (∀ c ∈ l, c.isDigit = true) → l.dropWhile Char.isDigit = [] := by
        intro l
        induction l with
        | nil => intro _; rfl
        | cons a l ih =>
          intro h
          rw [List.dropWhile_cons, if_pos (h a (by simp))]
          exact ih fun c hc => h c (by simp [hc])
      exact key _ hv.2
    simp only [convert, floatVal, h2, hval]

/-- The value of a field text. -/
def valueOf : Ty → List Char → Val
  | .int, v => .int (digitsVal v)
  | .float, v => .flt (floatVal v)
  | .str, v => .str v

/-- **C53** (round trip of the values). The columns extracted from such a file name hold the values of the field
texts. -/
theorem C53_roundtrip_values (delim : Char) (is : List Item) (vs : List (List Char)) (rest : List Char)
    (hf : List.Forall₂ Valid (fieldTypes is) vs) (hd : ∀ v ∈ vs, delim ∉ v) (hrest : delim ∉ rest)
    (hr : Readable delim is vs rest) :
    extractOne is (fill is vs ++ rest) = .ok (List.zipWith valueOf (fieldTypes is) vs) := by
  unfold extractOne
  rw [C53_roundtrip delim is vs rest hf hd hrest hr]
  simp only
  rw [mapM_ok_of (g := fun tc => valueOf tc.1 tc.2)]
  · congr 1
    rw [List.zip, List.map_zipWith]
  · intro tc _
    obtain ⟨t, c⟩ := tc
    cases t <;> rfl

/-- **C53** (no match). A file name that does not match gives NaN in a float column but aborts the whole extraction
with `ValueError` as soon as the template has an int field. -/
theorem C53_unmatched (is : List Item) (file : List Char) (h : search is file = none) :
    (Ty.int ∈ fieldTypes is → extractOne is file = .error .valueError) ∧
    ((∀ t ∈ fieldTypes is, t = .float) → extractOne is file = .ok ((fieldTypes is).map fun _ => .nan)) := by
  unfold extractOne
  rw [h]
  constructor
  · intro hi
    apply mapM_error
    · intro t _
      cases t
      · exact .inl ⟨_, rfl⟩
      · exact .inr rfl
      · exact .inl ⟨_, rfl⟩
    · exact ⟨_, hi, rfl⟩
  · intro ha
    apply mapM_ok_of
    intro t ht
    rw [ha t ht]; rfl

/-- **C53** (columns). New columns go right behind the file column in template order; the others keep their order. -/
theorem C53_columns (before after new : List String) (column : String) (hb : column ∉ before)
    (hnew : new.Nodup) (hn : ∀ c ∈ new, c ∉ before ++ column :: after) :
    insertColumns (before ++ column :: after) column new = before ++ column :: (new ++ after) := by
  have hidx : (before ++ column :: after).idxOf column + 1 = before.length + 1 := by
    rw [List.idxOf_append_of_notMem hb]; simp
  have gen : ∀ (l acc : List String), (l.reverse ++ acc).Nodup → (∀ c ∈ l, c ∉ before ++ column :: after) →
      l.foldl (fun cs c => if c ∈ cs then cs else cs.take (before.length + 1) ++ c :: cs.drop (before.length + 1))
        (before ++ column :: (acc ++ after)) = before ++ column :: (l.reverse ++ acc ++ after) := by
    intro l
    induction l with
    | nil => intro acc _ _; rfl
    | cons c l ih =>
      intro acc hnd hl
      have hc : c ∉ before ++ column :: (acc ++ after) := by
        have h1 := hl c (by simp)
        have h2 : c ∉ acc := by
          intro hm
          rw [List.reverse_cons, List.append_assoc, List.nodup_append] at hnd
          have := hnd.2.1
          simp at this
          exact this.1 hm
        simp only [List.mem_append, List.mem_cons, not_or] at h1 ⊢
        tauto
      rw [List.foldl_cons, if_neg hc]
      have e1 : (before ++ column :: (acc ++ after)).take (before.length + 1) = before ++ [column] := by
        rw [List.take_append, List.take_of_length_le (by omega)]; simp
      have e2 : (before ++ column :: (acc ++ after)).drop (before.length + 1) = acc ++ after := by
        rw [List.drop_append, List.drop_of_length_le (by omega)]; simp
      have e3 : (before ++ [column]) ++ c :: (acc ++ after) = before ++ column :: ((c :: acc) ++ after) := by simp
      rw [e1, e2, e3, ih (c :: acc) (by simpa using hnd) fun x hx => hl x (by simp [hx])]
      simp
  have := gen new.reverse [] (by simpa using hnew) (by simpa using hn)
  unfold insertColumns
  simp only [hidx]
  simpa using this

/-! ## The example of the documentation (batch.py:69-72) -/

/-- The template `<power|float|P>_<pulses|int|N>_<fluence|float|F>_<frequency|float|FREP|kHz>`. -/
def docTemplate : List Char := "<power|float|P>_<pulses|int|N>_<fluence|float|F>_<frequency|float|FREP|kHz>".toList

/-- It is parsed into four tokens and the file name of the documentation gives the documented values. -/
example : parseTemplate docTemplate = .ok
    ([⟨"power".toList, "float".toList, "P".toList, []⟩, ⟨"pulses".toList, "int".toList, "N".toList, []⟩,
      ⟨"fluence".toList, "float".toList, "F".toList, []⟩, ⟨"frequency".toList, "float".toList, "FREP".toList, "kHz".toList⟩],
     [[], "_".toList, "_".toList, "_".toList, []]) := by decide +kernel

example : (parseTemplate docTemplate).bind (fun p => templateItems p.1 p.2) = .ok
    [.lit 'P', .field .float, .lit '_', .lit 'N', .field .int, .lit '_', .lit 'F', .field .float, .lit '_', .lit 'F',
     .lit 'R', .lit 'E', .lit 'P', .field .float, .lit 'k', .lit 'H', .lit 'z'] := by decide +kernel

example : extractOne [.lit 'P', .field .float, .lit '_', .lit 'N', .field .int, .lit '_', .lit 'F', .field .float,
      .lit '_', .lit 'F', .lit 'R', .lit 'E', .lit 'P', .field .float, .lit 'k', .lit 'H', .lit 'z']
    "P90_N10_F1.21_FREP10kHz.vk4".toList = .ok [.flt 90, .int 10, .flt (121 / 100), .flt 10] := by decide +kernel

/-- The hypotheses of the round trip hold for it. -/
example : Readable '_' [.lit 'P', .field .float, .lit '_', .lit 'N', .field .int] ["90".toList, "10".toList] ".vk4".toList ∧
    List.Forall₂ Valid (fieldTypes [.lit 'P', .field .float, .lit '_', .lit 'N', .field .int]) ["90".toList, "10".toList] := by
  refine ⟨⟨⟨trivial, ?_⟩, ?_, ?_⟩, .cons (.inl ⟨by decide, by decide⟩) (.cons ⟨by decide, by decide⟩ .nil)⟩
  · intro c r h
    simp [fill] at h
    rw [← h.1]; decide
  · intro c r h
    simp [fill] at h
    rw [← h.1]; decide
  · intro _ c d r h hc
    simp [fill] at h
    rw [← h.1] at hc
    rcases hc with hc | hc <;> exact absurd hc (by decide)

/-- Text fields: a delimiter after the field decides; a text field at the end swallows the file extension. -/
example : search [.field .str, .lit '_', .lit 'N', .field .int] "steel_a_N5.vk4".toList
      = some ["steel_a".toList, "5".toList] ∧
    search [.lit 'N', .field .int, .lit '_', .field .str] "N5_steel.vk4".toList
      = some ["5".toList, "steel.vk4".toList] := by decide +kernel

end Surfalize.Props
