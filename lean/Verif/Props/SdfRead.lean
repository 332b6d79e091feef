import Verif.Props.Sdf
import Verif.Lemmas.FitsFile
import Verif.Spec.SdfText
/-!
# C59: reading the text variant of an SDF file
-/
set_option linter.unusedSectionVars false
namespace Surfalize.Props
open Surfalize LayoutM FileArr Sdf SdfText

private theorem blank_space {c : Char} (h : Blank c) : isSpace c = true := by rcases h with rfl | rfl <;> rfl
private theorem blank_no_break {c : Char} (h : Blank c) : isLineBreak c = false := by rcases h with rfl | rfl <;> rfl

private theorem no_break {c : Char} (h : c = '\t' ∨ 32 ≤ c.toNat) : isLineBreak c = false := by
  by_contra hn
  simp only [Bool.not_eq_false, isLineBreak, Bool.or_eq_true, decide_eq_true_eq] at hn
  rcases hn with (((((rfl | rfl) | rfl) | rfl) | rfl) | rfl) | rfl <;> revert h <;> decide

private theorem space_blank {c : Char} (h : c = '\t' ∨ 32 ≤ c.toNat) (hs : isSpace c = true) : Blank c := by
  simp only [isSpace, Bool.or_eq_true, decide_eq_true_eq] at hs
  rcases hs with ((((rfl | rfl) | rfl) | rfl) | rfl) | rfl
  · exact .inl rfl
  · exact .inr rfl
  all_goals (exfalso; revert h; decide)

private theorem splitLines_line {s e rest : List Char} (hs : ∀ c ∈ s, isLineBreak c = false) (he : e = ['\n'] ∨ e = ['\r', '\n']) :
    splitLines (s ++ e ++ rest) = s :: splitLines rest := by
  induction s with
  | nil =>
    have h1 : splitLines ('\n' :: rest) = [] :: splitLines rest := by
      rw [splitLines, if_neg (fun h => absurd h.1 (by decide)), if_pos (by decide)]
    rcases he with rfl | rfl
    · exact h1
    · show splitLines ('\r' :: '\n' :: rest) = _
      rw [splitLines, if_pos ⟨rfl, rfl⟩, h1]
  | cons x s ih =>
    have hx := hs x (by simp)
    rw [List.cons_append, List.cons_append, splitLines, if_neg (fun h => by rw [h.1] at hx; exact absurd hx (by decide)), hx,
      ih fun c hc => hs c (by simp [hc])]
    rfl

/-- the line without its end -/
private def body (l : Line) : List Char := l.a ++ l.name ++ l.b ++ '=' :: (l.c ++ l.value ++ l.d)

private theorem mem_body {l : Line} {x : Char} (h : x ∈ body l) : x ∈ l.a ++ l.b ++ l.c ++ l.d ∨ x ∈ l.name ++ l.value ∨ x = '=' := by
  unfold body at h
  simp only [List.mem_append, List.mem_cons] at h ⊢
  tauto

private theorem body_break {l : Line} (hl : l.Plain) : ∀ x ∈ body l, isLineBreak x = false := by
  intro x hx
  rcases mem_body hx with h | h | rfl
  · exact blank_no_break (hl.blanks x h)
  · exact no_break (hl.chars x h).2.2.2
  · rfl

private theorem text_star {l : Line} (hl : l.Plain) : '*' ∉ l.text := by
  intro h
  have h : '*' ∈ body l ∨ '*' ∈ l.ending := List.mem_append.1 h
  rcases h with h | h
  · rcases mem_body h with h | h | h
    · rcases hl.blanks _ h with h | h <;> exact absurd h (by decide)
    · exact (hl.chars _ h).2.1 rfl
    · exact absurd h (by decide)
  · rcases hl.ends with e | e <;> rw [e] at h <;> exact absurd h (by decide)

private theorem head_first {s : List Char} (h : ∀ x ∈ s, x = '\t' ∨ 32 ≤ x.toNat) (hf : ∀ x ∈ s.head?.toList, ¬ Blank x) : ∀ x ∈ s.head?, isSpace x = false := by
  intro x hx
  by_contra hn
  have : x ∈ s := List.mem_of_mem_head? hx
  exact hf x (by simpa using hx) (space_blank (h x this) (by simpa using hn))

private theorem last_last {s : List Char} (h : ∀ x ∈ s, x = '\t' ∨ 32 ≤ x.toNat) (hf : ∀ x ∈ s.getLast?.toList, ¬ Blank x) : ∀ x ∈ s.getLast?, isSpace x = false := by
  intro x hx
  by_contra hn
  have : x ∈ s := List.mem_of_mem_getLast? hx
  exact hf x (by simpa using hx) (space_blank (h x this) (by simpa using hn))

private theorem strip_name {l : Line} (hl : l.Plain) {a : List Char} (ha : ∀ x ∈ a, Blank x) : strip (a ++ l.name ++ l.b) = l.name := by
  rw [List.append_assoc]
  refine Fits.strip_mid _ _ _ (fun x hx => blank_space (ha x hx)) (fun x hx => blank_space (hl.blanks x (by simp [hx]))) ?_ ?_
  · exact head_first (fun x hx => (hl.chars x (by simp [hx])).2.2.2) fun x hx => hl.first x (by simp only [List.mem_append]; exact .inl hx)
  · exact last_last (fun x hx => (hl.chars x (by simp [hx])).2.2.2) fun x hx => hl.last x (by simp only [List.mem_append]; exact .inl hx)

private theorem strip_value {l : Line} (hl : l.Plain) : strip (l.c ++ l.value ++ l.d) = l.value := by
  rw [List.append_assoc]
  refine Fits.strip_mid _ _ _ (fun x hx => blank_space (hl.blanks x (by simp [hx]))) (fun x hx => blank_space (hl.blanks x (by simp [hx]))) ?_ ?_
  · exact head_first (fun x hx => (hl.chars x (by simp [hx])).2.2.2) fun x hx => hl.first x (by simp only [List.mem_append]; exact .inr hx)
  · exact last_last (fun x hx => (hl.chars x (by simp [hx])).2.2.2) fun x hx => hl.last x (by simp only [List.mem_append]; exact .inr hx)

private theorem split_body {l : Line} (hl : l.Plain) {a : List Char} (ha : ∀ x ∈ a, Blank x) :
    splitOn '=' (a ++ l.name ++ l.b ++ '=' :: (l.c ++ l.value ++ l.d)) = [a ++ l.name ++ l.b, l.c ++ l.value ++ l.d] := by
  have hb : ∀ {s : List Char}, (∀ x ∈ s, x ∈ l.a ++ l.b ++ l.c ++ l.d ∨ x ∈ l.name ++ l.value ∨ Blank x) → '=' ∉ s := fun h hx => by
    rcases h _ hx with h | h | h
    · rcases hl.blanks _ h with h | h <;> exact absurd h (by decide)
    · exact (hl.chars _ h).1 rfl
    · rcases h with h | h <;> exact absurd h (by decide)
  rw [splitOn_first _ _ _ (hb fun x hx => ?_)]
  · have hv : '=' ∉ l.c ++ l.value ++ l.d := hb fun x hx => by
      simp only [List.mem_append] at hx ⊢; tauto
    rw [splitOn_none _ _ hv]
  · simp only [List.mem_append] at hx ⊢
    rcases hx with (hx | hx) | hx
    · exact .inr (.inr (ha x hx))
    · tauto
    · tauto

private theorem header_lines {ls : List Line} (h : ∀ l ∈ ls, l.Plain) (hn : ∀ l ∈ ls, l.name ∈ names.map String.toList) :
    asciiHeader (ls.map body) = .ok (ls.map fun l => (l.name, l.value)) := by
  induction ls with
  | nil => rfl
  | cons l ls ih =>
    have hl := h l (by simp)
    rw [List.map_cons, List.map_cons, asciiHeader]
    have e : splitOn '=' (body l) = _ := split_body hl (a := l.a) fun x hx => hl.blanks x (by simp [hx])
    rw [e]
    dsimp only
    rw [strip_name hl fun x hx => hl.blanks x (by simp [hx]), strip_value hl, if_pos (show l.name ∈ asciiNames.map String.toList from hn l (by simp)), ih (fun l hl => h l (by simp [hl])) fun l hl => hn l (by simp [hl])]

private theorem split_text {ls : List Line} (h : ∀ l ∈ ls, l.Plain) : splitLines (ls.flatMap Line.text) = ls.map body := by
  induction ls with
  | nil => rfl
  | cons l ls ih =>
    have hl := h l (by simp)
    rw [List.flatMap_cons, List.map_cons, ← ih fun l hl => h l (by simp [hl])]
    exact splitLines_line (body_break hl) hl.ends

/-- the reader after the magic number, up to the header -/
private theorem read_text {K : Type} [Field K] [LinearOrder K] (finish : List (List Char × List Char) → List Char → Except Err (Raw K)) (enc : Encoding)
    {space data trailer rest : List Char} {lines : List Line} (hs : ∀ x ∈ space, isSpace x = true) (h : ∀ l ∈ lines, l.Plain) (hne : lines ≠ [])
    (hd : '*' ∉ data) (ht : '*' ∉ trailer) (hr : '*' ∉ rest) (ha : ∀ x ∈ fileText space lines data trailer rest, x.toNat < 128) :
    readSdf finish enc ⟨utf8 (fileText space lines data trailer rest), 0⟩ =
      if strip rest ≠ [] then .error .valueError
      else match asciiHeader (lines.map body) with
        | .error e => .error e
        | .ok d => finish d data := by
  obtain ⟨l, ls, rfl⟩ := List.exists_cons_of_ne_nil hne
  have hl := h l (by simp)
  have hls : ∀ l ∈ ls, l.Plain := fun l hl => h l (by simp [hl])
  set l' : Line := { l with a := [] } with hl'
  have hp' : l'.Plain := by
    refine ⟨fun x hx => hl.blanks x ?_, hl.named, hl.chars, hl.first, hl.last, hl.ends⟩
    simp only [hl', List.nil_append, List.mem_append] at hx ⊢
    tauto
  have hls' : ∀ m ∈ l' :: ls, m.Plain := fun m hm => by
    rcases List.mem_cons.1 hm with rfl | hm
    · exact hp'
    · exact hls m hm
  set T := (l' :: ls).flatMap Line.text with hT
  set R := data ++ '*' :: trailer ++ '*' :: rest with hR
  have htext : fileText space (l :: ls) data trailer rest = magicAscii ++ ((space ++ l.a) ++ (T ++ '*' :: R)) := by
    show magicAscii ++ space ++ (l :: ls).flatMap Line.text ++ '*' :: data ++ '*' :: trailer ++ '*' :: rest = _
    generalize magicAscii = M
    simp only [hT, hR, List.flatMap_cons, Line.text, hl', List.append_assoc, List.nil_append, List.cons_append]
  have hfirst : ∃ x t, T = x :: t ∧ isSpace x = false := by
    obtain ⟨x, t, hx⟩ := List.exists_cons_of_ne_nil hl.named
    refine ⟨x, t ++ l.b ++ '=' :: (l.c ++ l.value ++ l.d) ++ l.ending ++ ls.flatMap Line.text, ?_, ?_⟩
    · simp only [hT, List.flatMap_cons, Line.text, hl', hx, List.nil_append, List.cons_append]
    · exact head_first (s := l.name) (fun y hy => (hl.chars y (by simp [hy])).2.2.2) (fun y hy => hl.first y (by simp only [List.mem_append]; exact .inl hy)) x (by rw [hx]; rfl)
  have hstar : '*' ∉ T := by
    rw [hT, List.mem_flatMap]
    rintro ⟨m, hm, h⟩
    exact text_star (hls' m hm) h
  have hdrop : ((space ++ l.a) ++ (T ++ '*' :: R)).dropWhile isSpace = T ++ '*' :: R := by
    rw [Fits.dropWhile_all _ _ fun x hx => ?_]
    · obtain ⟨x, t, e, hx⟩ := hfirst
      rw [e, List.cons_append, List.dropWhile_cons_of_neg (by rw [hx]; simp)]
    · rcases List.mem_append.1 hx with hx | hx
      · exact hs x hx
      · exact blank_space (hl.blanks x (by simp [hx]))
  have hdrop2 : T.dropWhile isSpace = T := by
    obtain ⟨x, t, e, hx⟩ := hfirst
    rw [e, List.dropWhile_cons_of_neg (by rw [hx]; simp)]
  rw [htext] at ha ⊢
  set U := (space ++ l.a) ++ (T ++ '*' :: R)
  have hm8 : (utf8 magicAscii).length = 8 := by decide +kernel
  have hu : utf8 (magicAscii ++ U) = utf8 magicAscii ++ utf8 U := by unfold utf8; rw [List.flatMap_append]
  have hU : ∀ x ∈ U, x.toNat < 128 := fun x hx => ha x (List.mem_append_right _ hx)
  unfold readSdf
  have hread : (Handle.mk (utf8 (magicAscii ++ U)) 0).read 8 = (utf8 magicAscii, ⟨utf8 (magicAscii ++ U), 8⟩) := by
    rw [hu]
    simp [Handle.read, hm8]
  rw [hread]
  dsimp only
  rw [if_pos rfl]
  unfold readAscii
  have hall : (Handle.mk (utf8 (magicAscii ++ U)) 8).readAll.1 = U.map fun c => UInt8.ofNat c.toNat := by
    show (utf8 (magicAscii ++ U)).drop 8 = _
    rw [hu, List.drop_left' hm8, ← utf8_ascii U hU]
  rw [hall]
  dsimp only
  rw [if_pos ?_, latin1_ascii hU, hdrop, splitOn_first _ _ _ hstar]
  · have e2 : splitOn '*' R = [data, trailer, rest] := by
      rw [hR, List.append_assoc, List.cons_append, splitOn_first _ _ _ hd, splitOn_first _ _ _ ht, splitOn_none _ _ hr]
    rw [e2]
    dsimp only
    rw [hdrop2, hT, split_text hls']
    have e3 : asciiHeader ((l' :: ls).map body) = asciiHeader ((l :: ls).map body) := by
      rw [List.map_cons, List.map_cons, asciiHeader, asciiHeader]
      have b1 : splitOn '=' (body l') = _ := split_body hp' (a := []) (by simp)
      have b2 : splitOn '=' (body l) = _ := split_body hl (a := l.a) fun x hx => hl.blanks x (by simp [hx])
      rw [b1, b2]
      dsimp only
      have n1 := strip_name hp' (a := []) (by simp)
      have n2 := strip_name hl (a := l.a) fun x hx => hl.blanks x (by simp [hx])
      rw [n1, n2]
    rw [e3]
    rfl
  · rw [List.all_eq_true]
    intro b hb
    obtain ⟨c, hc, rfl⟩ := List.mem_map.1 hb
    have := hU c hc
    rw [decide_eq_true_eq, UInt8.lt_iff_toNat_lt, UInt8.toNat_ofNat']
    have e : (128 : UInt8).toNat = 128 := rfl
    rw [e]; omega

section
variable {K : Type} [Field K] [LinearOrder K] (finish : List (List Char × List Char) → List Char → Except Err (Raw K)) (enc : Encoding)
  {space data trailer rest : List Char} {lines : List Line}

/-- **C59** (reading the text variant): a file with the magic number, lines that state values for names of the standard, an asterisk, the data, an asterisk, a trailer and an
asterisk with nothing but white space behind is read: its header is the list of names and values without the blanks around them, its data is the text between the first two
asterisks. (What the writer produces is not such a file: `C59_ascii_unreadable`.) -/
theorem C59_ascii_read (hs : ∀ x ∈ space, isSpace x = true) (h : ∀ l ∈ lines, l.Plain) (hne : lines ≠ []) (hn : ∀ l ∈ lines, l.name ∈ names.map String.toList)
    (hd : '*' ∉ data) (ht : '*' ∉ trailer) (hr : ∀ x ∈ rest, isSpace x = true) (ha : ∀ x ∈ fileText space lines data trailer rest, x.toNat < 128) :
    readSdf finish enc ⟨utf8 (fileText space lines data trailer rest), 0⟩ = finish (lines.map fun l => (l.name, l.value)) data := by
  rw [read_text finish enc hs h hne hd ht (fun hx => absurd (hr _ hx) (by decide)) ha, header_lines h hn]
  have : strip rest = [] := by
    have := Fits.strip_mid rest [] [] hr (by simp) (by simp) (by simp)
    simpa using this
  rw [if_neg (by simpa using this)]

/-- **C59** (anything but white space behind the last asterisk) is a ValueError. -/
theorem C59_ascii_rest (hs : ∀ x ∈ space, isSpace x = true) (h : ∀ l ∈ lines, l.Plain) (hne : lines ≠ []) 
    (hd : '*' ∉ data) (ht : '*' ∉ trailer) (hr : '*' ∉ rest) (hx : ∃ x ∈ rest, isSpace x = false) (ha : ∀ x ∈ fileText space lines data trailer rest, x.toNat < 128) :
    readSdf finish enc ⟨utf8 (fileText space lines data trailer rest), 0⟩ = .error .valueError := by
  rw [read_text finish enc hs h hne hd ht hr ha, if_pos]
  intro e
  obtain ⟨x, hx, hsx⟩ := hx
  have allOf : ∀ {m : List Char}, m.dropWhile isSpace = [] → ∀ y ∈ m, isSpace y = true := by
    intro m hm
    induction m with
    | nil => simp
    | cons z m ih =>
      by_cases hz : isSpace z = true
      · rw [List.dropWhile_cons_of_pos hz] at hm
        intro y hy
        rcases List.mem_cons.1 hy with rfl | hy
        · exact hz
        · exact ih hm y hy
      · rw [List.dropWhile_cons_of_neg hz] at hm
        cases hm
  unfold strip rstrip at e
  rw [List.reverse_eq_nil_iff] at e
  replace e := allOf e
  have keep : ∀ {m : List Char}, x ∈ m → x ∈ m.dropWhile isSpace := by
    intro m hm
    induction m with
    | nil => exact hm
    | cons z m ih =>
      by_cases hz : isSpace z = true
      · rw [List.dropWhile_cons_of_pos hz]
        rcases List.mem_cons.1 hm with rfl | hm
        · rw [hsx] at hz; cases hz
        · exact ih hm
      · rwa [List.dropWhile_cons_of_neg hz]
  have hmem : x ∈ rest.dropWhile isSpace := keep hx
  have := e x (by simpa using hmem)
  rw [hsx] at this
  cases this

/-- **C59** (a name the standard does not know) is a CorruptedFileError, also behind known ones. -/
theorem C59_ascii_name (hs : ∀ x ∈ space, isSpace x = true) (h : ∀ l ∈ lines, l.Plain) (hn : ∃ l ∈ lines, l.name ∉ names.map String.toList)
    (hd : '*' ∉ data) (ht : '*' ∉ trailer) (hr : ∀ x ∈ rest, isSpace x = true) (ha : ∀ x ∈ fileText space lines data trailer rest, x.toNat < 128) :
    readSdf finish enc ⟨utf8 (fileText space lines data trailer rest), 0⟩ = .error .corrupted := by
  have hne : lines ≠ [] := by rintro rfl; obtain ⟨l, hl, -⟩ := hn; cases hl
  rw [read_text finish enc hs h hne hd ht (fun hx => absurd (hr _ hx) (by decide)) ha]
  have : strip rest = [] := by
    have := Fits.strip_mid rest [] [] hr (by simp) (by simp) (by simp)
    simpa using this
  rw [if_neg (by simpa using this)]
  have key : asciiHeader (lines.map body) = .error .corrupted := by
    clear ha hne
    induction lines with
    | nil => obtain ⟨l, hl, -⟩ := hn; cases hl
    | cons l ls ih =>
      have hl := h l (by simp)
      rw [List.map_cons, asciiHeader]
      have e : splitOn '=' (body l) = _ := split_body hl (a := l.a) fun x hx => hl.blanks x (by simp [hx])
      rw [e]
      dsimp only
      rw [strip_name hl fun x hx => hl.blanks x (by simp [hx])]
      by_cases hm : l.name ∈ names.map String.toList
      · rw [if_pos (show l.name ∈ asciiNames.map String.toList from hm), ih (fun l hl => h l (by simp [hl]))]
        obtain ⟨m, hm', hx⟩ := hn
        rcases List.mem_cons.1 hm' with rfl | hm'
        · exact absurd hm hx
        · exact ⟨m, hm', hx⟩
      · rw [if_neg (show l.name ∉ asciiNames.map String.toList from hm)]
  rw [key]

end

/-- Two lines, one of them with a carriage return. -/
private def sampleLines : List Line :=
  [⟨[], "NumPoints".toList, [' '], [' '], "2".toList, [], ['\r', '\n']⟩, ⟨[' '], "Xscale".toList, ['\t'], [], "1e-6".toList, [' '], ['\n']⟩]

private theorem sample_plain : ∀ l ∈ sampleLines, l.Plain := by
  intro l hl
  simp only [sampleLines, List.mem_cons, List.not_mem_nil, or_false] at hl
  rcases hl with rfl | rfl <;>
  exact ⟨by unfold Blank; decide +kernel, by decide +kernel, by decide +kernel, by unfold Blank; decide +kernel, by unfold Blank; decide +kernel, by decide +kernel⟩

example (finish : List (List Char × List Char) → List Char → Except Err (Raw ℚ)) :
    readSdf finish .utf8 ⟨utf8 (fileText ['\n'] sampleLines "\n1 2\n".toList "\n".toList ['\n']), 0⟩ =
      finish [("NumPoints".toList, "2".toList), ("Xscale".toList, "1e-6".toList)] "\n1 2\n".toList :=
  C59_ascii_read finish .utf8 (by decide) sample_plain (by decide) (by decide +kernel) (by decide +kernel) (by decide +kernel) (by decide) (by decide +kernel)

end Surfalize.Props
