import Verif.Lemmas.FileHandler
/-!
# C63: files are recognised by content when the suffix is wrong; C79: saving is all or nothing
-/
set_option linter.unusedSectionVars false
namespace Surfalize
/-! ### Specification -/
namespace FilesSpec
open Files
variable {R : Type}

/-- The content begins with a magic number of the format. -/
def HasMagic (f : Format) (b : Bytes) : Prop := ∃ m ∈ f.magics, ∃ t, b = m ++ t

/-- The reader of the format reads the content. -/
def Reads (run : Format → ReadFn R) (f : Format) (b : Bytes) (x : R) : Prop :=
  (run f ⟨b, 0⟩).1 = .ok x

/-- The name under which the user asks for a format: the format argument, else the suffix of the path;
case does not matter. -/
def Asked (src : Source) (format : Option (List Char)) (f : Format) : Prop :=
  (∃ s, format = some s ∧ s.map Char.toLower ∈ f.suffixes) ∨
  (format = none ∧ ∃ s b, src = .path s b ∧ s.map Char.toLower ∈ f.suffixes)

end FilesSpec

namespace Props
open Files FilesSpec
variable {R S : Type}

/-- A file begins with the magic number of at most one format, and a suffix belongs to at most one. -/
theorem C63_magic_unique {f g : Format} {b : Bytes} (hf : HasMagic f b) (hg : HasMagic g b) : f = g := by
  obtain ⟨m, hm, t, rfl⟩ := hf
  obtain ⟨n, hn, u, hu⟩ := hg
  exact magic_unique hm hn ⟨t, rfl⟩ ⟨u, hu.symm⟩

theorem asked_unique {src : Source} {format : Option (List Char)} {f g : Format}
    (hf : Asked src format f) (hg : Asked src format g) : f = g := by
  rcases hf with ⟨s, rfl, hs⟩ | ⟨rfl, s, b, rfl, hs⟩
  · rcases hg with ⟨s', h', hs'⟩ | ⟨h', -⟩
    · cases h'; exact suffix_unique hs hs'
    · cases h'
  · rcases hg with ⟨s', h', hs'⟩ | ⟨-, s', b', h', hs'⟩
    · cases h'
    · cases h'; exact suffix_unique hs hs'

theorem named_asked (src : Source) (format : Option (List Char)) (f : Format) :
    Asked src format f ↔ ∃ s, named src format = some s ∧ s ∈ f.suffixes := by
  unfold Asked named
  cases format with
  | some s => simp [lower]
  | none => cases src <;> simp [lower]

/-- The stage of `load` by name. -/
theorem byName_asked (run : Format → ReadFn R) {src : Source} {format : Option (List Char)} {f : Format}
    (h : Asked src format f) : byName (package run) src format =
      match attempt (run f) src with
      | (.ok x, src') => (.ok x, src')
      | (.error e, src') => (.error (some e), src') := by
  obtain ⟨s, h1, h2⟩ := (named_asked _ _ _).1 h
  exact lookup_asked h1 (lookup_suffix run h2)

theorem byName_unknown (run : Format → ReadFn R) {src : Source} {format : Option (List Char)}
    (h : ∀ f, ¬ Asked src format f) : ∃ e, byName (package run) src format = (.error e, src) := by
  unfold byName
  cases hn : named src format with
  | none => exact ⟨none, rfl⟩
  | some s =>
    dsimp only
    cases hl : (bySuffix (package run)).lookup s with
    | none => exact ⟨_, rfl⟩
    | some r =>
      obtain ⟨f, hf, -⟩ := lookup_suffix_some run hl
      exact absurd ((named_asked _ _ _).2 ⟨s, hn, hf⟩) (h f)

/-- If the reader asked for reads the source, its result is returned and the source is as before,
including the position of a buffer. -/
theorem C63_asked (run : Format → ReadFn R) {src : Source} {format : Option (List Char)} {f : Format}
    (h : Asked src format f) {x : R} (hr : (run f ⟨src.content, src.start⟩).1 = .ok x) :
    load (package run) src format = (.ok x, src) := by
  unfold load
  rw [byName_asked run h]
  unfold attempt
  cases hh : run f ⟨src.content, src.start⟩ with
  | mk a p =>
    rw [hh] at hr
    dsimp only at hr
    subst hr
    rfl

theorem mem_magic (run : Format → ReadFn R) {e : Bytes × ReadFn R} :
    e ∈ byMagic (package run) ↔ ∃ f : Format, e.1 ∈ f.magics ∧ e.2 = run f := by
  rw [byMagic_package]
  constructor
  · intro h
    obtain ⟨f, -, hf⟩ := List.mem_flatMap.1 h
    obtain ⟨m, hm, he⟩ := List.mem_map.1 hf
    rw [← he]
    exact ⟨f, hm, rfl⟩
  · rintro ⟨f, h1, h2⟩
    refine List.mem_flatMap_of_mem (all_mem f) ?_
    have : e = (e.1, run f) := by rw [← h2]
    rw [this]
    exact List.mem_map_of_mem (f := fun m => (m, run f)) h1

theorem byMagic_has (run : Format → ReadFn R) {src : Source} {f : Format}
    (h : HasMagic f (src.content.drop src.start)) : byMagicLoop src (byMagic (package run)) =
      some (match run f ⟨src.content, 0⟩ with
        | (.ok x, _) => (.ok x, src)
        | (.error e, p) => (.error e, src.at_ p)) := by
  apply byMagicLoop_some
  · intro e he hp
    obtain ⟨g, hg1, hg2⟩ := (mem_magic run).1 he
    obtain ⟨t, ht⟩ := hp
    rw [hg2, C63_magic_unique h ⟨e.1, hg1, t, ht.symm⟩]
  · obtain ⟨m, hm, t, ht⟩ := h
    exact ⟨(m, run f), (mem_magic run).2 ⟨f, hm, rfl⟩, t, ht.symm⟩

theorem byMagic_hasnt (run : Format → ReadFn R) {src : Source}
    (h : ∀ f, ¬ HasMagic f (src.content.drop src.start)) :
    byMagicLoop src (byMagic (package run)) = none := by
  apply byMagicLoop_none
  intro e he hp
  obtain ⟨g, hg1, -⟩ := (mem_magic run).1 he
  obtain ⟨t, ht⟩ := hp
  exact h g ⟨e.1, hg1, t, ht.symm⟩

theorem byName_path (run : Format → ReadFn R) {suffix : List Char} {b : Bytes}
    {format : Option (List Char)}
    (hfail : ∀ g, Asked (.path suffix b) format g → ∀ x, ¬ Reads run g b x) :
    ∃ e, byName (package run) (.path suffix b) format = (.error e, .path suffix b) := by
  by_cases hg : ∃ g, Asked (.path suffix b) format g
  · obtain ⟨g, hg⟩ := hg
    rw [byName_asked run hg, attempt_path]
    cases hr : (run g ⟨b, 0⟩).1 with
    | ok x => exact absurd hr (hfail g hg x)
    | error e => exact ⟨some e, rfl⟩
  · push Not at hg
    exact byName_unknown run hg

/-- A file on disk whose suffix or format argument is missing, unknown or wrong (its reader fails) and
that begins with the magic number of a format is read by the reader of that format. -/
theorem C63_path_magic (run : Format → ReadFn R) {suffix : List Char} {b : Bytes}
    {format : Option (List Char)} {f : Format}
    (hfail : ∀ g, Asked (.path suffix b) format g → ∀ x, ¬ Reads run g b x) (hm : HasMagic f b) :
    load (package run) (.path suffix b) format = ((run f ⟨b, 0⟩).1, .path suffix b) := by
  obtain ⟨e, he⟩ := byName_path run hfail
  unfold load
  rw [he]
  dsimp only
  rw [byMagic_has run (f := f) (by simpa [Source.content, Source.start] using hm)]
  simp only [Source.content]
  cases hh : run f ⟨b, 0⟩ with
  | mk a p => cases a <;> rfl

/-- A file on disk without the magic number of any format is read by a reader that can read it: the
first one in the order of import. -/
theorem C63_path_probe (run : Format → ReadFn R) {suffix : List Char} {b : Bytes}
    {format : Option (List Char)}
    (hfail : ∀ g, Asked (.path suffix b) format g → ∀ x, ¬ Reads run g b x)
    (hm : ∀ g, ¬ HasMagic g b) (hex : ∃ f x, Reads run f b x) :
    ∃ f x l1 l2, load (package run) (.path suffix b) format = (.ok x, .path suffix b) ∧
      Reads run f b x ∧ Format.all = l1 ++ f :: l2 ∧ ∀ g ∈ l1, ∀ y, ¬ Reads run g b y := by
  obtain ⟨e, he⟩ := byName_path run hfail
  unfold load
  rw [he]
  dsimp only
  rw [byMagic_hasnt run (by simpa [Source.content, Source.start] using hm)]
  dsimp only
  obtain ⟨p1, p2, p3⟩ := probe_path suffix b (bySuffix (package run))
  have hmem : ∀ f : Format, ∃ s, (s, run f) ∈ bySuffix (package run) := by
    intro f
    have : f.suffixes ≠ [] := by cases f <;> decide
    obtain ⟨s, l, hs⟩ := List.exists_cons_of_ne_nil this
    exact ⟨s, lookup_mem (lookup_suffix run (s := s) (f := f) (by rw [hs]; simp))⟩
  cases hp : probe (.path suffix b) (bySuffix (package run)) with
  | mk o src =>
    rw [hp] at p1 p2 p3
    dsimp only at p1 p2 p3
    subst p1
    cases o with
    | none =>
      obtain ⟨f, x, hfx⟩ := hex
      obtain ⟨s, hs⟩ := hmem f
      exact absurd hfx (p2.1 rfl _ hs x)
    | some x =>
      dsimp only
      obtain ⟨d1, en, d2, hd, hx, hbefore⟩ := p3 x rfl
      -- the first format in the order of import that reads the file
      have hfirst : ∀ (l : List Format) (d1 d2 : List (List Char × ReadFn R)),
          (l.flatMap fun f => f.suffixes.map fun s => (s, run f)) = d1 ++ en :: d2 →
          (∀ e' ∈ d1, ∀ y, (e'.2 ⟨b, 0⟩).1 ≠ .ok y) →
          ∃ f l1 l2, l = l1 ++ f :: l2 ∧ Reads run f b x ∧ ∀ g ∈ l1, ∀ y, ¬ Reads run g b y := by
        intro l
        induction l with
        | nil => intro d1 d2 h _; simp at h
        | cons g l ih =>
          intro d1 d2 h hb
          by_cases hg : ∃ y, Reads run g b y
          · obtain ⟨y, hy⟩ := hg
            refine ⟨g, [], l, rfl, ?_, by simp⟩
            have hne : g.suffixes ≠ [] := by cases g <;> decide
            obtain ⟨s, ss, hs⟩ := List.exists_cons_of_ne_nil hne
            rw [List.flatMap_cons, hs] at h
            cases d1 with
            | nil =>
              simp only [List.map_cons, List.cons_append, List.nil_append, List.cons.injEq] at h
              have : en.2 = run g := by rw [← h.1]
              rw [this] at hx
              exact hx
            | cons e1 d1 =>
              simp only [List.map_cons, List.cons_append, List.cons.injEq] at h
              have h1 := hb e1 (by simp) y
              rw [← h.1] at h1
              exact absurd hy h1
          · push Not at hg
            have hsplit : ∀ (ss : List (List Char)) (d1 d2 : List (List Char × ReadFn R)),
                (ss.map fun s => (s, run g)) ++
                  (l.flatMap fun f => f.suffixes.map fun s => (s, run f)) = d1 ++ en :: d2 →
                (∀ e' ∈ d1, ∀ y, (e'.2 ⟨b, 0⟩).1 ≠ .ok y) →
                ∃ d1', (l.flatMap fun f => f.suffixes.map fun s => (s, run f)) = d1' ++ en :: d2 ∧
                  ∀ e' ∈ d1', ∀ y, (e'.2 ⟨b, 0⟩).1 ≠ .ok y := by
              intro ss
              induction ss with
              | nil => intro d1 d2 h hb; exact ⟨d1, h, hb⟩
              | cons s ss ihs =>
                intro d1 d2 h hb
                cases d1 with
                | nil =>
                  simp only [List.map_cons, List.cons_append, List.nil_append, List.cons.injEq] at h
                  have : en.2 = run g := by rw [← h.1]
                  rw [this] at hx
                  exact absurd hx (hg x)
                | cons e1 d1 =>
                  simp only [List.map_cons, List.cons_append, List.cons.injEq] at h
                  exact ihs d1 d2 h.2 fun e' he' => hb e' (by simp [he'])
            rw [List.flatMap_cons] at h
            obtain ⟨d1', h1, h2⟩ := hsplit _ _ _ h hb
            obtain ⟨f, l1, l2, e1, e2, e3⟩ := ih d1' d2 h1 h2
            refine ⟨f, g :: l1, l2, by rw [e1]; rfl, e2, ?_⟩
            intro g' hg'
            rcases List.mem_cons.1 hg' with rfl | hg'
            · exact hg
            · exact e3 g' hg'
      rw [bySuffix_package] at hd
      obtain ⟨f, l1, l2, e1, e2, e3⟩ := hfirst _ _ _ hd hbefore
      exact ⟨f, x, l1, l2, rfl, e2, e1, e3⟩

/-- When loading a file on disk succeeds: the reader asked for reads it, or it begins with the magic
number of a format that reads it, or it has no magic number and some reader reads it. -/
theorem C63_path_iff (run : Format → ReadFn R) (suffix : List Char) (b : Bytes)
    (format : Option (List Char)) :
    (∃ x, (load (package run) (.path suffix b) format).1 = .ok x) ↔
      (∃ f x, Asked (.path suffix b) format f ∧ Reads run f b x) ∨
      (∃ f x, HasMagic f b ∧ Reads run f b x) ∨
      ((∀ f, ¬ HasMagic f b) ∧ ∃ f x, Reads run f b x) := by
  by_cases ha : ∃ f x, Asked (.path suffix b) format f ∧ Reads run f b x
  · refine ⟨fun _ => Or.inl ha, fun _ => ?_⟩
    obtain ⟨f, x, h1, h2⟩ := ha
    exact ⟨x, by rw [C63_asked run h1 h2]⟩
  · have hfail : ∀ g, Asked (.path suffix b) format g → ∀ x, ¬ Reads run g b x :=
      fun g hg x hx => ha ⟨g, x, hg, hx⟩
    by_cases hm : ∃ f, HasMagic f b
    · obtain ⟨f, hf⟩ := hm
      rw [C63_path_magic run hfail hf]
      constructor
      · rintro ⟨x, hx⟩
        exact Or.inr (Or.inl ⟨f, x, hf, hx⟩)
      · rintro (h | ⟨g, x, hg, hx⟩ | ⟨h, -⟩)
        · exact absurd h ha
        · rw [C63_magic_unique hf hg]; exact ⟨x, hx⟩
        · exact absurd hf (h f)
    · push Not at hm
      constructor
      · rintro ⟨x, hx⟩
        refine Or.inr (Or.inr ⟨hm, ?_⟩)
        by_contra hno
        push Not at hno
        obtain ⟨e, he⟩ := byName_path run hfail
        unfold load at hx
        rw [he] at hx
        dsimp only at hx
        rw [byMagic_hasnt run (by simpa [Source.content, Source.start] using hm)] at hx
        dsimp only at hx
        obtain ⟨p1, p2, p3⟩ := probe_path suffix b (bySuffix (package run))
        have : (probe (.path suffix b) (bySuffix (package run))).1 = none := by
          rw [p2]
          intro en hen y
          rw [bySuffix_package] at hen
          obtain ⟨f, -, hf⟩ := List.mem_flatMap.1 hen
          obtain ⟨s, -, he⟩ := List.mem_map.1 hf
          rw [← he]
          exact hno f y
        cases hp : probe (.path suffix b) (bySuffix (package run)) with
        | mk o src =>
          rw [hp] at this hx
          dsimp only at this
          subst this
          cases hx
      · rintro (h | ⟨g, x, hg, hx⟩ | ⟨-, hex⟩)
        · exact absurd h ha
        · exact absurd hg (hm g)
        · obtain ⟨f, x, l1, l2, h1, -⟩ := C63_path_probe run hfail hm hex
          exact ⟨x, by rw [h1]⟩

/-- A buffer at its beginning without a format argument is recognised by its magic number. -/
theorem C63_buffer_magic_partial (run : Format → ReadFn R) {b : Bytes} {f : Format} (hm : HasMagic f b) :
    (load (package run) (.buffer b 0) none).1 = (run f ⟨b, 0⟩).1 := by
  unfold load
  have : byName (package run) (.buffer b 0) none = (.error none, .buffer b 0) := rfl
  rw [this]
  dsimp only
  rw [byMagic_has run (f := f) (by simpa [Source.content, Source.start] using hm)]
  simp only [Source.content]
  cases hh : run f ⟨b, 0⟩ with
  | mk a p => cases a <;> rfl

/-- A buffer that was read is where it was, if no reader failed before. -/
theorem C63_position_restored (run : Format → ReadFn R) {b : Bytes} {p : Nat}
    {format : Option (List Char)} {x : R} {src : Source}
    (hno : ∀ g, Asked (.buffer b p) format g → ∃ y, (run g ⟨b, p⟩).1 = .ok y)
    (h : load (package run) (.buffer b p) format = (.ok x, src)) : src = .buffer b p := by
  by_cases ha : ∃ g, Asked (.buffer b p) format g
  · obtain ⟨g, hg⟩ := ha
    obtain ⟨y, hy⟩ := hno g hg
    rw [C63_asked run hg hy] at h
    cases h
    rfl
  · push Not at ha
    obtain ⟨e, he⟩ := byName_unknown run ha
    exact load_buffer_some he h

/-- If the reader asked for fails, a buffer is left where that reader stopped, even if loading
succeeds in the end. -/
theorem C63_position_moved (run : Format → ReadFn R) {b : Bytes} {p q : Nat}
    {format : Option (List Char)} {x : R} {src : Source} {g : Format} {e : Err}
    (hg : Asked (.buffer b p) format g) (hr : run g ⟨b, p⟩ = (.error e, q))
    (h : load (package run) (.buffer b p) format = (.ok x, src)) : src = .buffer b q := by
  refine load_buffer_some (e := some e) ?_ h
  rw [byName_asked run hg]
  unfold attempt
  simp only [Source.content, Source.start]
  rw [hr]
  rfl

/-- The code does not probe buffers: without a format argument a buffer that does not begin with a magic
number is never read, whatever the readers can do with it. -/
theorem C63_buffer_not_probed (run : Format → ReadFn R) {b : Bytes} {p : Nat}
    (hm : ∀ f, ¬ HasMagic f (b.drop p)) :
    (load (package run) (.buffer b p) none).1 = .error .unsupported :=
  load_buffer_none (e := none) rfl
    (byMagic_hasnt run (by simpa [Source.content, Source.start] using hm))

/-- A buffer with a wrong format argument is not recognised by its magic number: the failing reader
leaves the position behind the beginning, and the magic number is looked for there. -/
theorem C63_buffer_wrong_format (run : Format → ReadFn R) {b : Bytes} {format : List Char} {g : Format}
    (hg : format.map Char.toLower ∈ g.suffixes) {e : Err} {p : Nat}
    (hr : run g ⟨b, 0⟩ = (.error e, p)) (hm : ∀ f, ¬ HasMagic f (b.drop p)) :
    (load (package run) (.buffer b 0) (some format)).1 = .error e := by
  refine load_buffer_none (e := some e) (q := p) (b := b) ?_
    (byMagic_hasnt run (by simpa [Source.content, Source.start] using hm))
  rw [byName_asked run (f := g) (Or.inl ⟨format, rfl, hg⟩)]
  unfold attempt
  simp only [Source.content, Source.start]
  rw [hr]
  rfl

/-- A PLUX file (a ZIP archive) under another name is taken for an X3P file because of its magic number,
and fails with the exception of that reader although the PLUX reader reads it. -/
theorem C63_plux_shadowed (run : Format → ReadFn R) {suffix : List Char} {b : Bytes}
    (hm : HasMagic .x3p b) (hs : ∀ g : Format, suffix.map Char.toLower ∉ g.suffixes) {e : Err}
    (hx : (run .x3p ⟨b, 0⟩).1 = .error e) :
    (load (package run) (.path suffix b) none).1 = .error e := by
  rw [C63_path_magic run (f := .x3p) _ hm, hx]
  rintro g (⟨s, h, -⟩ | ⟨-, s, b', h, hs'⟩)
  · cases h
  · cases h
    exact absurd hs' (hs g)

/-! ### Further readers

Readers of other packages are registered after those of the package, or by the user; `rs` are the ones registered so
far, whatever they are. -/

section Register
variable {α β : Type} [DecidableEq α] [BEq α] [LawfulBEq α]

theorem lookup_put (k x : α) (v : β) (d : List (α × β)) :
    (put k v d).lookup x = if x = k then some v else d.lookup x := by
  induction d with
  | nil =>
    rw [put, List.lookup_cons]
    by_cases h : x = k
    · rw [if_pos h, h, beq_self_eq_true]
    · rw [if_neg h, beq_eq_false_iff_ne.2 h]
  | cons e d ih =>
    obtain ⟨k', v'⟩ := e
    rw [put]
    split
    · rename_i hk
      subst hk
      rw [List.lookup_cons, List.lookup_cons]
      by_cases h : x = k'
      · rw [if_pos h, h, beq_self_eq_true]
      · rw [if_neg h, beq_eq_false_iff_ne.2 h]
    · rename_i hk
      rw [List.lookup_cons, List.lookup_cons, ih]
      by_cases h : x = k
      · subst h
        rw [beq_eq_false_iff_ne.2 (Ne.symm hk), if_pos rfl]
      · rw [if_neg h, if_neg h]

theorem lookup_fold (ks : List α) (v : β) (x : α) : ∀ d : List (α × β),
    (ks.foldl (fun d k => put k v d) d).lookup x = if x ∈ ks then some v else d.lookup x := by
  induction ks with
  | nil => intro d; simp
  | cons k ks ih =>
    intro d
    rw [List.foldl_cons, ih, lookup_put]
    by_cases h1 : x ∈ ks
    · simp [h1]
    · by_cases h2 : x = k
      · simp [h2]
      · simp [h1, h2]

end Register

private theorem suffix_append (rs : List (Reader R)) (r : Reader R) (s : List Char) :
    (bySuffix (rs ++ [r])).lookup s = if s ∈ r.suffixes then some r.run else (bySuffix rs).lookup s := by
  unfold bySuffix
  rw [List.foldl_append]
  exact lookup_fold r.suffixes r.run s _

private theorem magic_append (rs : List (Reader R)) (r : Reader R) (m : Bytes) :
    (byMagic (rs ++ [r])).lookup m = if m ∈ r.magics then some r.run else (byMagic rs).lookup m := by
  unfold byMagic
  rw [List.foldl_append]
  exact lookup_fold r.magics r.run m _

/-- The reader registered last for a suffix is the one that is used for it, whoever else has registered the
suffix before. -/
theorem C63_register (rs : List (Reader R)) (r : Reader R) {src : Source} {format : Option (List Char)} {s : List Char}
    (hs : s.map Char.toLower ∈ r.suffixes) (ha : format = some s ∨ format = none ∧ ∃ b, src = .path s b) {x : R}
    (hr : (r.run ⟨src.content, src.start⟩).1 = .ok x) : load (rs ++ [r]) src format = (.ok x, src) := by
  have hn : named src format = some (lower s) := by
    rcases ha with rfl | ⟨rfl, b, rfl⟩ <;> rfl
  unfold load byName
  rw [hn]
  dsimp only
  rw [suffix_append, if_pos (show lower s ∈ _ from hs)]
  dsimp only
  unfold attempt
  cases hh : r.run ⟨src.content, src.start⟩ with
  | mk a p =>
    rw [hh] at hr
    dsimp only at hr
    subst hr
    rfl

/-- Registering a reader does not change what is read under other suffixes. -/
theorem C63_register_other (rs : List (Reader R)) (r r' : Reader R) {src : Source} {format : Option (List Char)}
    {s : List Char} (hs : s.map Char.toLower ∉ r'.suffixes)
    (ha : format = some s ∨ format = none ∧ ∃ b, src = .path s b) (hm : s.map Char.toLower ∈ r.suffixes) {x : R}
    (hr : (r.run ⟨src.content, src.start⟩).1 = .ok x) : load (rs ++ [r] ++ [r']) src format = (.ok x, src) := by
  have hn : named src format = some (lower s) := by
    rcases ha with rfl | ⟨rfl, b, rfl⟩ <;> rfl
  unfold load byName
  rw [hn]
  dsimp only
  rw [suffix_append, if_neg (show lower s ∉ _ from hs), suffix_append, if_pos (show lower s ∈ _ from hm)]
  dsimp only
  unfold attempt
  cases hh : r.run ⟨src.content, src.start⟩ with
  | mk a p =>
    rw [hh] at hr
    dsimp only at hr
    subst hr
    rfl

/-- The reader registered last for a magic number reads the files on disk that begin with it, provided that no other
magic number fits them and the name of the file says nothing. -/
theorem C63_register_magic (rs : List (Reader R)) (r : Reader R) {suffix : List Char} {b t m : Bytes}
    (hs : ∀ r' ∈ rs ++ [r], suffix.map Char.toLower ∉ r'.suffixes) (hm : m ∈ r.magics) (hb : b = m ++ t)
    (hu : ∀ r' ∈ rs ++ [r], ∀ m' ∈ r'.magics, m' <+: b → m' = m) :
    load (rs ++ [r]) (.path suffix b) none = ((r.run ⟨b, 0⟩).1, .path suffix b) := by
  have keys : ∀ (l : List (Reader R)) (d : List (Bytes × ReadFn R)) e,
      e ∈ l.foldl (fun d r => r.magics.foldl (fun d m => put m r.run d) d) d → e ∈ d ∨ ∃ r' ∈ l, e.1 ∈ r'.magics := by
    intro l
    induction l with
    | nil => intro d e he; exact .inl he
    | cons q l ih =>
      intro d e he
      rw [List.foldl_cons] at he
      rcases ih _ e he with h | ⟨r', h1, h2⟩
      · have : ∀ (ms : List Bytes) (d : List (Bytes × ReadFn R)),
            e ∈ ms.foldl (fun d m => put m q.run d) d → e ∈ d ∨ e.1 ∈ ms := by
          intro ms
          induction ms with
          | nil => intro d h; exact .inl h
          | cons a ms ih2 =>
            intro d h
            rw [List.foldl_cons] at h
            rcases ih2 _ h with h | h
            · have hput : ∀ d : List (Bytes × ReadFn R), e ∈ put a q.run d → e ∈ d ∨ e.1 = a := by
                intro d
                induction d with
                | nil =>
                  intro h
                  rw [put, List.mem_singleton] at h
                  exact .inr (by rw [h])
                | cons c d ih3 =>
                  intro h
                  obtain ⟨k', v'⟩ := c
                  rw [put] at h
                  split at h
                  · rcases List.mem_cons.1 h with rfl | h
                    · exact .inr rfl
                    · exact .inl (List.mem_cons_of_mem _ h)
                  · rcases List.mem_cons.1 h with rfl | h
                    · exact .inl List.mem_cons_self
                    · rcases ih3 h with h | h
                      · exact .inl (List.mem_cons_of_mem _ h)
                      · exact .inr h
              rcases hput d h with h | h
              · exact .inl h
              · exact .inr (by rw [h]; exact List.mem_cons_self)
            · exact .inr (List.mem_cons_of_mem _ h)
        rcases this _ _ h with h | h
        · exact .inl h
        · exact .inr ⟨q, List.mem_cons_self, h⟩
      · exact .inr ⟨r', List.mem_cons_of_mem _ h1, h2⟩
  have hsuf : ∀ l : List (Reader R), (∀ r' ∈ l, suffix.map Char.toLower ∉ r'.suffixes) →
      (bySuffix l).lookup (lower suffix) = none := by
    intro l
    induction l using List.reverseRecOn with
    | nil => intro _; rfl
    | append_singleton l q ih =>
      intro h
      rw [suffix_append, if_neg (show lower suffix ∉ _ from h q (by simp)), ih fun r' hr' => h r' (by simp [hr'])]
  have hl : (byMagic (rs ++ [r])).lookup m = some r.run := by rw [magic_append, if_pos hm]
  have hloop : ∀ d : List (Bytes × ReadFn R), (∀ e ∈ d, e.1 <+: b → e.1 = m) → d.lookup m = some r.run →
      byMagicLoop (.path suffix b) d = some ((r.run ⟨b, 0⟩).1, .path suffix b) := by
    intro d
    induction d with
    | nil => intro _ h; cases h
    | cons e d ih =>
      intro h1 h2
      obtain ⟨k, v⟩ := e
      rw [byMagicLoop]
      simp only [Source.content, Source.start, Handle.read, List.drop_zero]
      rw [List.lookup_cons] at h2
      by_cases hk : m = k
      · subst hk
        rw [beq_self_eq_true] at h2
        cases h2
        rw [if_pos (by rw [hb, List.take_left'] ; rfl)]
        cases hh : r.run ⟨b, 0⟩ with
        | mk a p => cases a <;> rfl
      · rw [beq_eq_false_iff_ne.2 hk] at h2
        rw [if_neg, ih (fun e he => h1 e (List.mem_cons_of_mem _ he)) h2]
        intro he
        refine hk (h1 (k, v) List.mem_cons_self ?_).symm
        exact he ▸ List.take_prefix _ _
  have hn : byName (rs ++ [r]) (.path suffix b) none = (.error (some .unsupported), .path suffix b) := by
    unfold byName named
    dsimp only
    rw [hsuf _ hs]
  unfold load
  rw [hn]
  dsimp only
  rw [hloop _ _ hl]
  intro e he hp
  rcases keys _ _ e he with h | ⟨r', h1, h2⟩
  · cases h
  · exact hu r' h1 e.1 h2 hp

/-- Two readers for one suffix and one magic number. -/
example (r1 r2 : ReadFn Nat) (h : (r2 ⟨asc "AB", 0⟩).1 = .ok 7) :
    load ([⟨[".a".toList], [asc "A"], r1⟩] ++ [⟨[".a".toList], [asc "A"], r2⟩]) (.path ".A".toList (asc "AB")) none =
      (.ok 7, .path ".A".toList (asc "AB")) ∧
    load ([⟨[".a".toList], [asc "A"], r1⟩] ++ [⟨[".a".toList], [asc "A"], r2⟩]) (.path ".b".toList (asc "AB")) none =
      (.ok 7, .path ".b".toList (asc "AB")) := by
  refine ⟨C63_register _ _ (s := ".A".toList)
    (show ".A".toList.map Char.toLower ∈ [".a".toList] by decide) (.inr ⟨rfl, _, rfl⟩) h, ?_⟩
  rw [C63_register_magic _ _ (m := asc "A") (t := asc "B") (by simp) (by simp) (by decide) (by simp)]
  exact congrArg (·, _) h

/-! ### Saving -/

theorem lookup_writer (run : Format → WriteFn S) {f : Format} (hf : f ∈ Format.writable)
    {s : List Char} (hs : s ∈ f.suffixes) : (packageWriters run).lookup s = some (run f) := by
  apply lookup_of_mem
  · have : (packageWriters run).map Prod.fst = Format.writable.flatMap Format.suffixes := by
      unfold packageWriters
      rw [List.map_flatMap]
      congr 1
      funext f
      rw [List.map_map]
      exact List.map_id'' (fun x => rfl) _
    rw [this]
    decide
  · exact List.mem_flatMap_of_mem hf (List.mem_map_of_mem (f := fun s => (s, run f)) hs)

/-- Saving to a path with a known suffix writes what the writer of the suffix writes and nothing else. -/
theorem C63_save_path (run : Format → WriteFn S) {f : Format} (hf : f ∈ Format.writable)
    {suffix : List Char} (hs : suffix ∈ f.suffixes) (old : Bytes) (format : Option (List Char)) (s : S) :
    save (packageWriters run) (.path suffix old) format s = ((run f s).2, .path suffix (run f s).1) := by
  have hne : suffix ≠ [] := by
    rintro rfl
    revert hs
    cases f <;> decide
  unfold save
  dsimp only [target]
  rw [if_neg hne, lookup_writer run hf hs]

/-- The format argument is ignored when saving to a path, with or without a suffix. -/
theorem C63_save_format_ignored (ws : List (List Char × WriteFn S)) (suffix : List Char) (old : Bytes)
    (format : Option (List Char)) (s : S) :
    save ws (.path suffix old) format s = save ws (.path suffix old) none s := rfl

/-- A path without a suffix cannot be saved to, even with a format argument. -/
theorem C63_save_no_suffix (ws : List (List Char × WriteFn S)) (old : Bytes)
    (format : Option (List Char)) (s : S) :
    save ws (.path [] old) format s = (.error .valueError, .path [] old) := rfl

/-- Saving to a buffer: the bytes appear at its position, the rest is kept, the position is restored, and
loading with the same format reads what was written. -/
theorem C63_save_buffer (run : Format → WriteFn S) (readers : Format → ReadFn R) {f : Format}
    (hf : f ∈ Format.writable) {format : List Char} (hs : format ∈ f.suffixes) (b : Bytes) {p : Nat}
    (hp : p ≤ b.length) (s : S) {w : Bytes} (hw : run f s = (w, .ok ())) :
    ∃ b', save (packageWriters run) (.buffer b p) (some format) s = (.ok (), .buffer b' p) ∧
      b'.take p = b.take p ∧ (b'.drop p).take w.length = w ∧
      b'.drop (p + w.length) = b.drop (p + w.length) ∧
      ∀ x, (readers f ⟨b', p⟩).1 = .ok x →
        load (package readers) (.buffer b' p) (some format) = (.ok x, .buffer b' p) := by
  have hne : format ≠ [] := by
    rintro rfl
    revert hs
    cases f <;> decide
  have hlow : format.map Char.toLower = format := by
    have : ∀ f ∈ Format.all, ∀ s ∈ f.suffixes, s.map Char.toLower = s := by decide
    exact this f (all_mem f) format hs
  refine ⟨overwrite b p w, ?_, ?_, ?_, ?_, ?_⟩
  · unfold save
    dsimp only [target, Option.getD_some]
    rw [if_neg hne, lookup_writer run hf hs]
    dsimp only
    rw [hw]
  all_goals
    have h0 : p - b.length = 0 := by omega
    have hl : (b.take p).length = p := by rw [List.length_take]; omega
  · simp only [overwrite, h0, List.replicate_zero, List.append_nil, List.append_assoc]
    rw [List.take_append_of_le_length (by rw [hl]), List.take_of_length_le (by rw [hl])]
  · simp only [overwrite, h0, List.replicate_zero, List.append_nil, List.append_assoc]
    rw [List.drop_left' hl, List.take_left' rfl]
  · simp only [overwrite, h0, List.replicate_zero, List.append_nil]
    rw [List.drop_left' (by rw [List.length_append, hl])]
  · intro x hx
    exact C63_asked readers (Or.inl ⟨format, rfl, by rw [hlow]; exact hs⟩) hx

/-- Suffixes are matched in lower case when loading, but as they are when saving. -/
theorem C63_save_case (run : Format → WriteFn S) (readers : Format → ReadFn R) (b : Bytes) (s : S)
    (x : R) (hr : (readers .sur ⟨b, 0⟩).1 = .ok x) :
    load (package readers) (.path ".SUR".toList b) none = (.ok x, .path ".SUR".toList b) ∧
    save (packageWriters run) (.path ".SUR".toList b) none s =
      (.error .unsupported, .path ".SUR".toList b) := by
  constructor
  · exact C63_asked readers (Or.inr ⟨rfl, _, _, rfl, by decide⟩) hr
  · unfold save
    dsimp only [target]
    have hl : (packageWriters run).lookup ".SUR".toList = none := by
      cases h : (packageWriters run).lookup ".SUR".toList with
      | none => rfl
      | some r =>
        have h1 := lookup_mem h
        unfold packageWriters at h1
        obtain ⟨f, hf, hm⟩ := List.mem_flatMap.1 h1
        obtain ⟨s', hs', e⟩ := List.mem_map.1 hm
        simp only [Prod.mk.injEq] at e
        have : ∀ f ∈ Format.writable, ".SUR".toList ∉ f.suffixes := by decide
        exact absurd (e.1 ▸ hs') (this f hf)
    rw [if_neg (by decide), hl]

/-- A save that is refused because of the suffix or format leaves the file or buffer as it was. -/
theorem C79_refused_partial (ws : List (List Char × WriteFn S)) (src : Source) (format : Option (List Char))
    (s : S) (h : ∀ w, ws.lookup (target src format) ≠ some w) :
    ∃ e, save ws src format s = (.error e, src) := by
  unfold save
  dsimp only
  generalize target src format = suffix at h ⊢
  by_cases h0 : suffix = []
  · rw [if_pos h0]; exact ⟨_, rfl⟩
  · rw [if_neg h0]
    cases hl : ws.lookup suffix with
    | none => exact ⟨_, rfl⟩
    | some w => exact absurd hl (h w)

/-- A save that fails in the writer destroys the file: what was there before is replaced by what the
writer had written, nothing at all in the case of a writer that fails at once. -/
theorem C79_failed_save_destroys (run : Format → WriteFn S) {f : Format} (hf : f ∈ Format.writable)
    {suffix : List Char} (hs : suffix ∈ f.suffixes) (old : Bytes) (format : Option (List Char)) (s : S)
    {e : Err} {out : Bytes} (hw : run f s = (out, .error e)) :
    save (packageWriters run) (.path suffix old) format s = (.error e, .path suffix out) := by
  rw [C63_save_path run hf hs, hw]

/-- The same for a buffer: what the writer had written has replaced what was at its position, and the position is
behind it; before and after that nothing has changed. -/
theorem C79_failed_save_buffer (run : Format → WriteFn S) {f : Format} (hf : f ∈ Format.writable)
    {format : List Char} (hs : format ∈ f.suffixes) (b : Bytes) {p : Nat} (hp : p ≤ b.length) (s : S)
    {e : Err} {out : Bytes} (hw : run f s = (out, .error e)) :
    ∃ b', save (packageWriters run) (.buffer b p) (some format) s = (.error e, .buffer b' (p + out.length)) ∧
      b'.take p = b.take p ∧ (b'.drop p).take out.length = out ∧
      b'.drop (p + out.length) = b.drop (p + out.length) := by
  have hne : format ≠ [] := by
    rintro rfl
    revert hs
    cases f <;> decide
  have h0 : p - b.length = 0 := by omega
  have hl : (b.take p).length = p := by rw [List.length_take]; omega
  refine ⟨overwrite b p out, ?_, ?_, ?_, ?_⟩
  · unfold save
    dsimp only [target, Option.getD_some]
    rw [if_neg hne, lookup_writer run hf hs]
    dsimp only
    rw [hw]
  · simp only [overwrite, h0, List.replicate_zero, List.append_nil, List.append_assoc]
    rw [List.take_append_of_le_length (by rw [hl]), List.take_of_length_le (by rw [hl])]
  · simp only [overwrite, h0, List.replicate_zero, List.append_nil, List.append_assoc]
    rw [List.drop_left' hl, List.take_left' rfl]
  · simp only [overwrite, h0, List.replicate_zero, List.append_nil]
    rw [List.drop_left' (by rw [List.length_append, hl])]

/-- A successful save replaces the file by what the writer wrote. -/
theorem C79_success (run : Format → WriteFn S) {f : Format} (hf : f ∈ Format.writable)
    {suffix : List Char} (hs : suffix ∈ f.suffixes) (old : Bytes) (format : Option (List Char)) (s : S)
    {out : Bytes} (hw : run f s = (out, .ok ())) :
    save (packageWriters run) (.path suffix old) format s = (.ok (), .path suffix out) := by
  rw [C63_save_path run hf hs, hw]

/-! ### Cases meeting the hypotheses -/

/-- Readers that accept exactly the contents with their magic number and read it first. -/
def toyRun (f : Format) : ReadFn Format := fun h =>
  if f.magics.any (fun m => m.isPrefixOf (h.buf.drop h.pos)) then (.ok f, h.pos + 4)
  else (.error .valueError, h.pos + 4)

/-- A file in the SFLZ format saved under the suffix of another format. -/
example : load (package toyRun) (.path ".dat".toList (asc "SFLZ rest")) none =
    (.ok .sflz, .path ".dat".toList (asc "SFLZ rest")) := by
  rw [C63_path_magic toyRun (f := .sflz)]
  · rfl
  · rintro g (⟨s, h, -⟩ | ⟨-, s, b, h, hs⟩) x
    · cases h
    · cases h
      have hd : g = .dat := suffix_unique hs (by decide)
      subst hd
      intro h
      have : (toyRun .dat ⟨asc "SFLZ rest", 0⟩).1 = .error .valueError := by rfl
      rw [Reads, this] at h
      cases h
  · exact ⟨asc "SFLZ", by decide, asc " rest", by decide⟩

/-- The same content in a buffer with the same wrong format is lost. -/
example : (load (package toyRun) (.buffer (asc "SFLZ rest") 0) (some ".dat".toList)).1 =
    .error .valueError := by
  refine C63_buffer_wrong_format toyRun (g := .dat) (by decide) (p := 4) rfl ?_
  rintro f ⟨m, hm, t, ht⟩
  have : ∀ f ∈ Format.all, ∀ m ∈ f.magics, ¬ m <+: (asc "SFLZ rest").drop 4 := by decide
  exact this f (all_mem f) m hm ⟨t, ht.symm⟩

end Props
end Surfalize
