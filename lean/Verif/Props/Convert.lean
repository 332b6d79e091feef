import Verif.Model.Convert
import Verif.Props.FileHandler
/-!
# C86: converting files; C87: files of a directory
-/
set_option linter.unusedSectionVars false
namespace Surfalize
/-! ### Specification -/
namespace ConvertSpec
open Files

/-- A file name made of a stem and a suffix: the suffix is a dot and characters other than dots, none empty. -/
structure Named (n s t : List Char) : Prop where
  join : n = s ++ t
  stem : s ≠ []
  suffix : ∃ u, t = '.' :: u ∧ u ≠ [] ∧ '.' ∉ u

/-- A suffix of a format that can be read. -/
def Readable (t : List Char) : Prop := ∃ f : Format, t ∈ f.suffixes

/-- `Surface.load` of a file with this suffix and content. -/
def Loads {S : Type} (read : Format → ReadFn S) (t : List Char) (b : Bytes) (x : S) : Prop :=
  (load (package read) (.path t b) none).1 = .ok x

/-- The writer of the format writes the surface as these bytes. -/
def Writes {S : Type} (write : Format → Bool → WriteFn S) (f : Format) (c : Bool) (x : S) (w : Bytes) : Prop :=
  write f c x = (w, .ok ())

end ConvertSpec

namespace Props
open Files Surfalize.Convert ConvertSpec
variable {D S : Type} [DecidableEq D]

private theorem takeWhile_dot {u r : List Char} (h : '.' ∉ u) :
    ((u.reverse ++ '.' :: r).takeWhile (· ≠ '.')) = u.reverse := by
  rw [List.takeWhile_append_of_pos (by intro c hc; simp only [List.mem_reverse] at hc; simp; rintro rfl; exact h hc)]
  simp

theorem named_suffix {n s t : List Char} (h : Named n s t) : Convert.suffix n = t ∧ Convert.stem n = s := by
  obtain ⟨rfl, hs, u, rfl, hu, hd⟩ := h
  have e1 : Convert.suffix (s ++ '.' :: u) = '.' :: u := by
    unfold Convert.suffix
    have e : (s ++ '.' :: u).reverse = u.reverse ++ '.' :: s.reverse := by simp
    rw [e, takeWhile_dot hd, List.reverse_reverse]
    have h1 : 0 < u.length := List.length_pos_iff.2 hu
    have h2 : 0 < s.length := List.length_pos_iff.2 hs
    rw [if_pos ⟨h1, by rw [List.length_append, List.length_cons]; omega⟩]
  refine ⟨e1, ?_⟩
  unfold Convert.stem
  rw [e1, List.length_append, Nat.add_sub_cancel, List.take_left']
  rfl

private theorem takeWhile_spec (p : Char → Bool) (l : List Char) (h : l.takeWhile p ≠ l) :
    ∃ c r, l = l.takeWhile p ++ c :: r ∧ p c = false := by
  induction l with
  | nil => exact absurd rfl h
  | cons a l ih =>
    rw [List.takeWhile_cons] at h ⊢
    cases hp : p a with
    | false => exact ⟨a, l, rfl, hp⟩
    | true =>
      rw [hp] at h
      simp only [if_true] at h ⊢
      obtain ⟨c, r, h1, h2⟩ := ih fun e => h (by rw [e])
      exact ⟨c, r, by rw [List.cons_append, ← h1], h2⟩

/-- A name without such a suffix has none. -/
theorem suffix_named {n : List Char} (h : Convert.suffix n ≠ []) : Named n (Convert.stem n) (Convert.suffix n) := by
  have key : ∃ s t, Named n s t := by
    unfold Convert.suffix at h
    dsimp only at h
    split at h
    · rename_i hc
      have hne : n.reverse.takeWhile (· ≠ '.') ≠ n.reverse := by
        intro e
        have := congrArg List.length e
        rw [List.length_reverse] at hc this
        omega
      obtain ⟨c, r, h1, h2⟩ := takeWhile_spec _ _ hne
      have hcd : c = '.' := by simpa using h2
      subst hcd
      refine ⟨r.reverse, '.' :: (n.reverse.takeWhile (· ≠ '.')).reverse, ?_, ?_, _, rfl, ?_, ?_⟩
      · have := congrArg List.reverse h1
        simpa using this
      · intro e
        rw [List.reverse_eq_nil_iff] at e
        have := congrArg List.length h1
        rw [e, List.length_append, List.length_reverse] at this
        rw [List.length_reverse] at hc
        simp only [List.length_cons, List.length_nil] at this
        omega
      · intro e
        rw [e] at hc
        simp at hc
      · intro hm
        rw [List.mem_reverse] at hm
        have := List.all_eq_true.1 List.all_takeWhile _ hm
        simp at this
    · exact absurd rfl h
  obtain ⟨s, t, hn⟩ := key
  rw [(named_suffix hn).1, (named_suffix hn).2]
  exact hn

theorem readable_iff {t : List Char} : t ∈ readable ↔ Readable t := by
  unfold readable Readable
  rw [List.mem_flatMap]
  constructor
  · rintro ⟨f, -, h⟩; exact ⟨f, h⟩
  · rintro ⟨f, h⟩
    refine ⟨f, ?_, h⟩
    cases f <;> decide

theorem suffix_shape {f : Format} {t : List Char} (h : t ∈ f.suffixes) :
    ∃ u, t = '.' :: u ∧ u ≠ [] ∧ '.' ∉ u := by
  have : ∀ f : Format, ∀ t ∈ f.suffixes, t.head? = some '.' ∧ t.tail ≠ [] ∧ '.' ∉ t.tail := by
    intro f; cases f <;> decide
  obtain ⟨h1, h2, h3⟩ := this f t h
  cases t with
  | nil => cases h1
  | cons c u => cases h1; exact ⟨u, rfl, h2, h3⟩

theorem named_format {s t : List Char} {f : Format} (hs : s ≠ []) (h : t ∈ f.suffixes) : Named (s ++ t) s t :=
  ⟨rfl, hs, suffix_shape h⟩

/-- What `convert_file` does if the surface can be loaded. -/
private theorem convertFile_eq {read : Format → ReadFn S} {write : Format → Bool → WriteFn S} {kw : Option Bool}
    {name s0 t0 : List Char} {content : Bytes} {dout : D} {nout s1 t1 : List Char} {fs : FS D} {x : S} {f : Format}
    (h0 : Named name s0 t0) (hl : Loads read t0 content x) (h1 : Named nout s1 t1) (hf : f ∈ Format.writable)
    (ht : t1 ∈ f.suffixes) :
    convertFile read write kw name content dout nout fs =
      ((withOptions write kw f x).2, fs.put dout nout (withOptions write kw f x).1) := by
  unfold convertFile
  rw [(named_suffix h0).1, (named_suffix h1).1, show (load (package read) (.path t0 content) none).1 = .ok x from hl]
  dsimp only
  rw [C63_save_path _ hf ht, lookup_writer _ hf ht]
  rfl

private theorem writable_iff {f : Format} (hf : f ∈ Format.writable) {t : List Char} (ht : t ∈ f.suffixes) :
    t ∈ writable ∧ (t = ".sur".toList ↔ f = .sur) := by
  refine ⟨List.mem_flatMap.2 ⟨f, hf, ht⟩, ?_⟩
  constructor
  · intro e
    exact suffix_unique ht (by rw [e]; decide)
  · rintro rfl
    simpa [Format.suffixes] using ht

private theorem options_eq {write : Format → Bool → WriteFn S} {f : Format} {c : Bool} {x : S} {w : Bytes}
    (hc : c = true → f = .sur) (hw : Writes write f c x w) :
    withOptions write (if f = .sur then some c else none) f x = (w, .ok ()) := by
  unfold withOptions
  by_cases h : f = .sur
  · rw [if_pos h]
    dsimp only
    rw [if_pos h]
    exact hw
  · rw [if_neg h]
    have : c = false := by cases c; rfl; exact absurd (hc rfl) h
    subst this
    exact hw

/-- **C86**, one file: if the output exists already, or `--format` names its suffix, the output afterwards holds what
the writer of its suffix writes for the loaded surface, and no other file is touched. Missing from the full property:
outputs that do not exist yet and whose suffix is not the value of `--format` (see `C86_file_violated`). -/
theorem C86_file_partial {read : Format → ReadFn S} {write : Format → Bool → WriteFn S} {format : List Char}
    {compressed : Bool} {name s0 t0 : List Char} {content : Bytes} {dout : D} {nout s1 t1 : List Char} {fs : FS D} {x : S}
    {f : Format} {w : Bytes} (h0 : Named name s0 t0) (hl : Loads read t0 content x) (h1 : Named nout s1 t1)
    (hf : f ∈ Format.writable) (ht : t1 ∈ f.suffixes) (he : (∃ old, fs dout nout = some old) ∨ format = t1)
    (hc : compressed = true → f = .sur) (hw : Writes write f compressed x w) :
    ∃ fs', convertOne read write format compressed name content dout nout fs = (.ok (), fs') ∧
      fs' dout nout = some w ∧ ∀ d n, ¬ (d = dout ∧ n = nout) → fs' d n = fs d n := by
  obtain ⟨w1, w2⟩ := writable_iff hf ht
  have hfmt : (if (fs dout nout).isSome then Convert.suffix nout else format) = t1 := by
    rcases he with ⟨old, he⟩ | he
    · rw [he, Option.isSome_some, if_pos rfl, (named_suffix h1).1]
    · rw [he, (named_suffix h1).1, ite_self]
  have hp : prepare format compressed dout nout fs = .ok (some (t1, if f = .sur then some compressed else none)) := by
    unfold prepare
    dsimp only
    rw [hfmt, if_neg (by rintro ⟨a, b⟩; exact a (w2.2 (hc b))), if_neg (not_not.2 w1)]
    simp only [w2]
  refine ⟨fs.put dout nout w, ?_, ?_, ?_⟩
  · unfold convertOne
    rw [hp]
    dsimp only
    rw [convertFile_eq h0 hl h1 hf ht, options_eq hc hw]
  · unfold FS.put
    rw [if_pos ⟨rfl, rfl⟩]
  · intro d n h
    unfold FS.put
    rw [if_neg h]

/-- **C86** fails for a new output of every format but SUR when `--format` is not given: the command stops with a
TypeError and leaves an empty file. -/
theorem C86_file_violated {read : Format → ReadFn S} {write : Format → Bool → WriteFn S}
    {name s0 t0 : List Char} {content : Bytes} {dout : D} {nout s1 t1 : List Char} {fs : FS D} {x : S} {f : Format}
    (h0 : Named name s0 t0) (hl : Loads read t0 content x) (h1 : Named nout s1 t1) (hf : f ∈ Format.writable)
    (ht : t1 ∈ f.suffixes) (hn : fs dout nout = none) (hsur : f ≠ .sur) :
    ∃ fs', convertOne read write ".sur".toList false name content dout nout fs = (.error .typeError, fs') ∧
      fs' dout nout = some [] := by
  have hp : prepare ".sur".toList false dout nout fs = .ok (some (".sur".toList, some false)) := by
    unfold prepare
    rw [hn]
    show (if ".sur".toList ≠ ".sur".toList ∧ false = true then (Except.error Err.usage : Except Err (Option (List Char × Option Bool)))
      else if ".sur".toList ∉ writable then .ok none
      else .ok (some (".sur".toList, if ".sur".toList = ".sur".toList then some false else none))) = _
    decide
  refine ⟨fs.put dout nout [], ?_, ?_⟩
  · unfold convertOne
    rw [hp]
    dsimp only
    rw [convertFile_eq h0 hl h1 hf ht]
    unfold withOptions
    dsimp only
    rw [if_neg hsur]
  · unfold FS.put
    rw [if_pos ⟨rfl, rfl⟩]

/-- A file of the listing that is converted. -/
structure Source (fs : FS D) (din : D) (n s t : List Char) (b : Bytes) : Prop where
  file : fs din n = some b
  named : Named n s t
  readable : Readable t

/-- A name of the listing that is skipped. -/
private theorem skip {read : Format → ReadFn S} {write : Format → Bool → WriteFn S} {kw : Option Bool}
    {format : List Char} {din dout : D} {n : List Char} {ns : List (List Char)} {fs : FS D}
    (h : ∀ s t b, ¬ Source fs din n s t b) :
    convertAll read write kw format din dout (n :: ns) fs = convertAll read write kw format din dout ns fs := by
  rw [convertAll]
  cases hb : fs din n with
  | none => rfl
  | some b =>
    dsimp only
    split
    · rename_i hr
      have hr' := readable_iff.1 hr
      have hne : Convert.suffix n ≠ [] := by
        obtain ⟨f, hf⟩ := hr'
        obtain ⟨u, hu, -⟩ := suffix_shape hf
        rw [hu]; simp
      exact absurd ⟨hb, suffix_named hne, hr'⟩ (h _ _ b)
    · rfl

private theorem step {read : Format → ReadFn S} {write : Format → Bool → WriteFn S} {kw : Option Bool}
    {format : List Char} {din dout : D} {n s t : List Char} {ns : List (List Char)} {fs : FS D} {b : Bytes}
    (h : Source fs din n s t b) :
    convertAll read write kw format din dout (n :: ns) fs =
      match convertFile read write kw n b dout (s ++ format) fs with
      | (.ok _, fs') => convertAll read write kw format din dout ns fs'
      | (.error e, fs') => (.error e, fs') := by
  rw [convertAll, h.file]
  dsimp only
  rw [(named_suffix h.named).1, (named_suffix h.named).2, if_pos (readable_iff.2 h.readable)]
  generalize convertFile read write kw n b dout (s ++ format) fs = z
  rcases z with ⟨_ | _, _⟩ <;> rfl

private theorem source_fun {fs : FS D} {din : D} {n s t s' t' : List Char} {b b' : Bytes} (h : Source fs din n s t b)
    (h' : Source fs din n s' t' b') : s' = s ∧ t' = t ∧ b' = b := by
  obtain ⟨a1, a2⟩ := named_suffix h.named
  obtain ⟨b1, b2⟩ := named_suffix h'.named
  exact ⟨by rw [← b2, a2], by rw [← b1, a1], Option.some.inj (by rw [← h.file, h'.file])⟩

private theorem loads_unique {read : Format → ReadFn S} {t : List Char} {b : Bytes} {x y : S} (h : Loads read t b x)
    (h' : Loads read t b y) : x = y := by
  unfold Loads at h h'
  rw [h] at h'
  exact Except.ok.inj h'

private theorem writes_unique {write : Format → Bool → WriteFn S} {f : Format} {c : Bool} {x : S} {v w : Bytes}
    (h : Writes write f c x v) (h' : Writes write f c x w) : v = w := by
  unfold Writes at h h'
  rw [h] at h'
  exact congrArg Prod.fst h'

/-- The loop, as long as every file can be converted: input directories stay as they are, the last of several files
with one stem is kept. -/
private theorem loop {read : Format → ReadFn S} {write : Format → Bool → WriteFn S} {format : List Char}
    {c : Bool} {din dout : D} {f : Format} (hdir : din ≠ dout) (hf : f ∈ Format.writable) (ht : format ∈ f.suffixes)
    (hc : c = true → f = .sur) : ∀ (pre rest : List (List Char)) (fs : FS D),
    (∀ n ∈ pre, ∀ s t b, Source fs din n s t b → ∃ x w, Loads read t b x ∧ Writes write f c x w) →
    ∃ fs', convertAll read write (if f = .sur then some c else none) format din dout (pre ++ rest) fs =
        convertAll read write (if f = .sur then some c else none) format din dout rest fs' ∧
      (∀ d, d ≠ dout → fs' d = fs d) ∧
      (∀ l n r s t b x w, pre = l ++ n :: r → Source fs din n s t b → Loads read t b x → Writes write f c x w →
        (∀ n' ∈ r, ∀ t' b', ¬ Source fs din n' s t' b') → fs' dout (s ++ format) = some w) ∧
      (∀ m, (∀ n ∈ pre, ∀ s t b, Source fs din n s t b → m ≠ s ++ format) → fs' dout m = fs dout m) := by
  intro pre
  induction pre with
  | nil =>
    intro rest fs _
    refine ⟨fs, rfl, fun _ _ => rfl, fun l n r s t b x w h => ?_, fun _ _ => rfl⟩
    simp at h
  | cons n0 pre ih =>
    intro rest fs hall
    by_cases hsrc : ∃ s t b, Source fs din n0 s t b
    · obtain ⟨s0, t0, b0, hs0⟩ := hsrc
      obtain ⟨x0, w0, hl0, hw0⟩ := hall n0 (by simp) s0 t0 b0 hs0
      have hout : Named (s0 ++ format) s0 format := named_format hs0.named.stem ht
      have hconv := convertFile_eq (write := write) (kw := if f = .sur then some c else none) (dout := dout) (fs := fs)
        hs0.named hl0 hout hf ht
      rw [options_eq hc hw0] at hconv
      have hsame : ∀ n s t b, Source (fs.put dout (s0 ++ format) w0) din n s t b ↔ Source fs din n s t b := by
        intro n s t b
        have e : (fs.put dout (s0 ++ format) w0) din n = fs din n := by
          unfold FS.put; rw [if_neg fun h => hdir h.1]
        constructor
        · rintro ⟨a1, a2, a3⟩; exact ⟨by rw [← e]; exact a1, a2, a3⟩
        · rintro ⟨a1, a2, a3⟩; exact ⟨by rw [e]; exact a1, a2, a3⟩
      obtain ⟨fs', k1, k2, k3, k4⟩ := ih rest (fs.put dout (s0 ++ format) w0) fun n hn s t b hs =>
        hall n (by simp [hn]) s t b ((hsame n s t b).1 hs)
      refine ⟨fs', ?_, ?_, ?_, ?_⟩
      · rw [List.cons_append, step hs0, hconv]
        exact k1
      · intro d hd
        rw [k2 d hd]
        funext m
        unfold FS.put
        rw [if_neg fun h => hd h.1]
      · intro l n r s t b x w hl hs hx hw hlast
        cases l with
        | nil =>
          have hl' : n0 = n ∧ pre = r := List.cons.inj hl
          obtain ⟨rfl, rfl⟩ := hl'
          obtain ⟨rfl, rfl, rfl⟩ := source_fun hs0 hs
          have hxx : x = x0 := loads_unique hx hl0
          subst hxx
          have hww : w = w0 := writes_unique hw hw0
          subst hww
          rw [k4 _ ?_]
          · unfold FS.put; rw [if_pos ⟨rfl, rfl⟩]
          · intro n' hn' s' t' b' hs' he
            have : s = s' := List.append_cancel_right he
            subst this
            exact hlast n' hn' t' b' ((hsame _ _ _ _).1 hs')
        | cons a l =>
          obtain ⟨-, hl'⟩ := List.cons.inj hl
          exact k3 l n r s t b x w hl' ((hsame _ _ _ _).2 hs) hx hw fun n' hn' t' b' hs' =>
            hlast n' hn' t' b' ((hsame _ _ _ _).1 hs')
      · intro m hm
        rw [k4 m fun n hn s t b hs => hm n (by simp [hn]) s t b ((hsame _ _ _ _).1 hs)]
        unfold FS.put
        rw [if_neg fun h => hm n0 (by simp) s0 t0 b0 hs0 h.2]
    · push Not at hsrc
      obtain ⟨fs', k1, k2, k3, k4⟩ := ih rest fs fun n hn => hall n (by simp [hn])
      refine ⟨fs', ?_, k2, ?_, ?_⟩
      · rw [List.cons_append, skip hsrc]
        exact k1
      · intro l n r s t b x w hl hs hx hw hlast
        cases l with
        | nil =>
          have hl' : n0 = n ∧ pre = r := List.cons.inj hl
          exact absurd hs (by rw [← hl'.1]; exact hsrc s t b)
        | cons a l =>
          obtain ⟨-, hl'⟩ := List.cons.inj hl
          exact k3 l n r s t b x w hl' hs hx hw hlast
      · intro m hm
        exact k4 m fun n hn => hm n (by simp [hn])

private theorem convertDir_eq {read : Format → ReadFn S} {write : Format → Bool → WriteFn S} {format : List Char}
    {c : Bool} {din dout : D} {f : Format} (hf : f ∈ Format.writable) (ht : format ∈ f.suffixes)
    (hc : c = true → f = .sur) (names : List (List Char)) (fs : FS D) :
    convertDir read write format c din dout names fs =
      convertAll read write (if f = .sur then some c else none) format din dout names fs := by
  obtain ⟨w1, w2⟩ := writable_iff hf ht
  unfold convertDir
  rw [if_neg (by rintro ⟨a, b⟩; exact a (w2.2 (hc b))), if_neg (not_not.2 w1)]
  simp only [w2]

/-- **C86**, options: an output format that cannot be written is only reported, and `--compressed` with another format
than SUR is a usage error; neither touches any file, whether a file that does not exist yet or a directory is written. -/
theorem C86_options {read : Format → ReadFn S} {write : Format → Bool → WriteFn S} {format : List Char}
    {compressed : Bool} (din dout : D) (names : List (List Char)) (name : List Char) (content : Bytes) (nout : List Char)
    (fs : FS D) (hnew : fs dout nout = none) :
    (compressed = false → (∀ f ∈ Format.writable, format ∉ f.suffixes) →
      convertDir read write format compressed din dout names fs = (.ok (), fs) ∧
      convertOne read write format compressed name content dout nout fs = (.ok (), fs)) ∧
    (compressed = true → format ∉ Format.sur.suffixes →
      convertDir read write format compressed din dout names fs = (.error .usage, fs) ∧
      convertOne read write format compressed name content dout nout fs = (.error .usage, fs)) := by
  constructor
  · rintro rfl h
    have hw : format ∉ writable := by
      intro hm
      obtain ⟨f, hf, ht⟩ := List.mem_flatMap.1 hm
      exact h f hf ht
    constructor
    · unfold convertDir
      rw [if_neg (by simp), if_pos hw]
    · unfold convertOne prepare
      dsimp only
      rw [hnew]
      simp only [Option.isSome_none, Bool.false_eq_true, if_false, and_false, if_pos hw]
  · rintro rfl h
    have hw : format ≠ ".sur".toList := by
      rintro rfl
      exact h (by decide)
    constructor
    · unfold convertDir
      rw [if_pos ⟨hw, rfl⟩]
    · unfold convertOne prepare
      dsimp only
      rw [hnew]
      simp only [Option.isSome_none, Bool.false_eq_true, if_false]
      rw [if_pos ⟨hw, trivial⟩]

example : convertDir (D := Bool) (fun _ h => (.ok h.buf, 0)) (fun _ _ s => (s, .ok ())) ".vk4".toList false false true ["a.vk4".toList] (fun _ _ => none) = (.ok (), fun _ _ => none) :=
  ((C86_options (format := ".vk4".toList) false true ["a.vk4".toList] [] [] [] (fun _ _ => none) rfl).1 rfl (by decide)).1

/-- **C86**, a directory whose files can all be converted: each file is converted to the file with its stem, unless a
later one has the same stem; other files, and all other directories, stay as they are. Missing from the full property:
files with the same stem (`C86_dir_violated`), files of the output directory itself (`C86_same_dir_violated`). -/
theorem C86_dir_partial {read : Format → ReadFn S} {write : Format → Bool → WriteFn S} {format : List Char}
    {compressed : Bool} {din dout : D} {f : Format} {names : List (List Char)} {fs : FS D} (hdir : din ≠ dout)
    (hf : f ∈ Format.writable) (ht : format ∈ f.suffixes) (hc : compressed = true → f = .sur)
    (hall : ∀ n ∈ names, ∀ s t b, Source fs din n s t b → ∃ x w, Loads read t b x ∧ Writes write f compressed x w) :
    ∃ fs', convertDir read write format compressed din dout names fs = (.ok (), fs') ∧
      (∀ d, d ≠ dout → fs' d = fs d) ∧
      (∀ l n r s t b x w, names = l ++ n :: r → Source fs din n s t b → Loads read t b x →
        Writes write f compressed x w → (∀ n' ∈ r, ∀ t' b', ¬ Source fs din n' s t' b') →
        fs' dout (s ++ format) = some w) ∧
      (∀ m, (∀ n ∈ names, ∀ s t b, Source fs din n s t b → m ≠ s ++ format) → fs' dout m = fs dout m) := by
  obtain ⟨fs', k1, k2, k3, k4⟩ := loop hdir hf ht hc names [] fs hall
  rw [List.append_nil] at k1
  refine ⟨fs', ?_, k2, k3, k4⟩
  rw [convertDir_eq hf ht hc, k1]
  rfl

/-- **C86**, a directory with a file that cannot be loaded: the command stops there with the exception; files behind it
are not converted. -/
theorem C86_dir_stops {read : Format → ReadFn S} {write : Format → Bool → WriteFn S} {format : List Char}
    {compressed : Bool} {din dout : D} {f : Format} {pre post : List (List Char)} {fs : FS D} (hdir : din ≠ dout)
    (hf : f ∈ Format.writable) (ht : format ∈ f.suffixes) (hc : compressed = true → f = .sur)
    (hall : ∀ n ∈ pre, ∀ s t b, Source fs din n s t b → ∃ x w, Loads read t b x ∧ Writes write f compressed x w)
    {n s t : List Char} {b : Bytes} {e : Err} (hs : Source fs din n s t b)
    (he : (load (package read) (.path t b) none).1 = .error e) :
    ∃ fs', convertDir read write format compressed din dout (pre ++ n :: post) fs = (.error e, fs') ∧
      (∀ d, d ≠ dout → fs' d = fs d) ∧
      ∀ m, (∀ n ∈ pre, ∀ s t b, Source fs din n s t b → m ≠ s ++ format) → fs' dout m = fs dout m := by
  obtain ⟨fs', k1, k2, -, k4⟩ := loop hdir hf ht hc pre (n :: post) fs hall
  refine ⟨fs', ?_, k2, k4⟩
  have hs' : Source fs' din n s t b := ⟨by rw [k2 din hdir]; exact hs.file, hs.named, hs.readable⟩
  rw [convertDir_eq hf ht hc, k1, step hs']
  unfold convertFile
  rw [(named_suffix hs.named).1, he]

/-- **C86** fails for files with the same stem: of two files that differ only in their suffixes the first is lost
without an error, whatever surfaces they hold. -/
theorem C86_dir_violated {read : Format → ReadFn S} {write : Format → Bool → WriteFn S} {x1 x2 : S} {b1 b2 w1 w2 : Bytes}
    {din dout : D} (hdir : din ≠ dout) {fs : FS D} (hin : fs din "a.vk4".toList = some b1)
    (hin2 : fs din "a.plu".toList = some b2) (hempty : ∀ n, fs dout n = none)
    (h1 : Loads read ".vk4".toList b1 x1) (h2 : Loads read ".plu".toList b2 x2)
    (k1 : Writes write .sur false x1 w1) (k2 : Writes write .sur false x2 w2) (hw : w1 ≠ w2) :
    ∃ fs', convertDir read write ".sur".toList false din dout ["a.vk4".toList, "a.plu".toList] fs = (.ok (), fs') ∧
      fs' dout "a.sur".toList = some w2 ∧ ∀ n, fs' dout n ≠ some w1 := by
  have n1 : Named "a.vk4".toList "a".toList ".vk4".toList := ⟨rfl, by decide, _, rfl, by decide, by decide⟩
  have n2 : Named "a.plu".toList "a".toList ".plu".toList := ⟨rfl, by decide, _, rfl, by decide, by decide⟩
  have s1 : Source fs din "a.vk4".toList "a".toList ".vk4".toList b1 := ⟨hin, n1, .vk4, by decide⟩
  have s2 : Source fs din "a.plu".toList "a".toList ".plu".toList b2 := ⟨hin2, n2, .plu, by decide⟩
  obtain ⟨fs', c1, -, c3, c4⟩ := C86_dir_partial (read := read) (write := write) (format := ".sur".toList)
    (compressed := false) (f := .sur) (names := ["a.vk4".toList, "a.plu".toList]) (fs := fs) hdir (by decide) (by decide)
    (by simp) (by
      intro n hn s t b hs
      rcases List.mem_cons.1 hn with rfl | hn
      · obtain ⟨-, rfl, rfl⟩ := source_fun s1 hs
        exact ⟨x1, w1, h1, k1⟩
      · rcases List.mem_singleton.1 hn with rfl
        obtain ⟨-, rfl, rfl⟩ := source_fun s2 hs
        exact ⟨x2, w2, h2, k2⟩)
  have e := c3 ["a.vk4".toList] "a.plu".toList [] _ _ b2 x2 w2 rfl s2 h2 k2 (by simp)
  refine ⟨fs', c1, e, fun n hn => ?_⟩
  by_cases hna : n = "a".toList ++ ".sur".toList
  · rw [hna, e] at hn
    exact hw (Option.some.inj hn).symm
  · rw [c4 n ?_, hempty] at hn
    · cases hn
    · intro n' hn' s t b hs
      rcases List.mem_cons.1 hn' with rfl | hn'
      · obtain ⟨rfl, -, -⟩ := source_fun s1 hs
        exact hna
      · rcases List.mem_singleton.1 hn' with rfl
        obtain ⟨rfl, -, -⟩ := source_fun s2 hs
        exact hna

/-- **C86** fails in place: when a directory is converted into itself, a file with the new suffix is overwritten by the
conversion of a file with its stem before it is read: what was in it has no influence on the outcome. -/
theorem C86_same_dir_violated {read : Format → ReadFn S} {write : Format → Bool → WriteFn S} {x1 : S} {b1 w1 : Bytes}
    {d : D} {fs fs2 : FS D} (h1 : Loads read ".vk4".toList b1 x1) (k1 : Writes write .sur false x1 w1)
    (hin : fs d "a.vk4".toList = some b1) (hsame : ∀ d' n, ¬ (d' = d ∧ n = "a.sur".toList) → fs2 d' n = fs d' n) :
    convertDir read write ".sur".toList false d d ["a.vk4".toList, "a.sur".toList] fs =
      convertDir read write ".sur".toList false d d ["a.vk4".toList, "a.sur".toList] fs2 := by
  have n1 : Named "a.vk4".toList "a".toList ".vk4".toList := ⟨rfl, by decide, _, rfl, by decide, by decide⟩
  have s1 : Source fs d "a.vk4".toList "a".toList ".vk4".toList b1 := ⟨hin, n1, .vk4, by decide⟩
  have s2 : Source fs2 d "a.vk4".toList "a".toList ".vk4".toList b1 :=
    ⟨by rw [hsame _ _ (by rintro ⟨-, h⟩; revert h; decide)]; exact hin, n1, .vk4, by decide⟩
  have hout : Named ("a".toList ++ ".sur".toList) "a".toList ".sur".toList := ⟨rfl, by decide, _, rfl, by decide, by decide⟩
  have hput : fs.put d ("a".toList ++ ".sur".toList) w1 = fs2.put d ("a".toList ++ ".sur".toList) w1 := by
    funext d' n
    unfold FS.put
    split
    · rfl
    · rename_i h
      rw [hsame d' n h]
  rw [convertDir_eq (f := .sur) (by decide) (by decide) (by simp), convertDir_eq (f := .sur) (by decide) (by decide) (by simp),
    step s1, step s2, convertFile_eq (f := .sur) n1 h1 hout (by decide) (by decide),
    convertFile_eq (f := .sur) n1 h1 hout (by decide) (by decide),
    options_eq (f := .sur) (c := false) (by simp) k1, hput]

/-! ## C87: files of a directory -/

theorem suffix_of_suffix {n t1 t2 : List Char} (h1 : ∃ u, t1 = '.' :: u ∧ u ≠ [] ∧ '.' ∉ u)
    (h2 : ∃ u, t2 = '.' :: u ∧ u ≠ [] ∧ '.' ∉ u) (e1 : t1 <:+ n) (e2 : t2 <:+ n) : t1 = t2 := by
  have main : ∀ {u1 u2 : List Char}, '.' ∉ u2 → '.' :: u1 <:+ '.' :: u2 → u1 = u2 := by
    intro u1 u2 hd h
    rcases List.suffix_cons_iff.1 h with h | h
    · exact (List.cons.inj h).2
    · exact absurd (h.subset (by simp)) hd
  obtain ⟨u1, rfl, -, d1⟩ := h1
  obtain ⟨u2, rfl, -, d2⟩ := h2
  rcases List.suffix_or_suffix_of_suffix e1 e2 with h | h
  · rw [main d2 h]
  · rw [main d1 h]

theorem flatMap_nodup {α β : Type} (f : α → List β) : ∀ l : List α, l.Nodup → (∀ a ∈ l, (f a).Nodup) →
    (∀ a ∈ l, ∀ b ∈ l, a ≠ b → ∀ x ∈ f a, x ∉ f b) → (l.flatMap f).Nodup := by
  intro l
  induction l with
  | nil => intro _ _ _; simp
  | cons a l ih =>
    intro h1 h2 h3
    rw [List.nodup_cons] at h1
    rw [List.flatMap_cons, List.nodup_append]
    refine ⟨h2 a (by simp), ih h1.2 (fun b hb => h2 b (by simp [hb])) fun b hb c hc => h3 b (by simp [hb]) c (by simp [hc]),
      ?_⟩
    intro x hx y hy e
    subst e
    obtain ⟨b, hb, hxb⟩ := List.mem_flatMap.1 hy
    exact h3 a (by simp) b (by simp [hb]) (fun e => h1.1 (e ▸ hb)) x hx hxb

/-- **C87** (partial). Whatever the order in which the set of formats is iterated, a batch made from a directory holds
exactly the files whose names end in a supported suffix, each once. Missing from the full property: suffixes are
compared exactly, while loading ignores their case (see `C87_violated`). -/
theorem C87_partial {D O : Type} {formats : List (List Char)} (hset : ∀ e, e ∈ formats ↔ Readable e)
    (hnd : formats.Nodup) {listing : D → List (List Char)} {d : D} (hl : (listing d).Nodup) :
    (batchFiles (O := O) formats listing [.dir d none]).Nodup ∧
      ∀ i, i ∈ batchFiles (O := O) formats listing [.dir d none] ↔
        ∃ n, i = Item.path d n ∧ n ∈ listing d ∧ ∃ t, Readable t ∧ t <:+ n := by
  have e : batchFiles (O := O) formats listing [.dir d none] =
      formats.flatMap fun e => (glob (listing d) e).map (Item.path d) := by
    simp [batchFiles, Add.run, found]
  have inj : Function.Injective (Item.path (O := O) d) := fun a b h => by cases h; rfl
  rw [e]
  constructor
  · apply flatMap_nodup _ _ hnd
    · intro a _
      exact (List.nodup_map_iff inj).2 (hl.filter _)
    · intro a ha b hb hab x hx hx'
      obtain ⟨n, hn, rfl⟩ := List.mem_map.1 hx
      obtain ⟨n', hn', e'⟩ := List.mem_map.1 hx'
      cases e'
      simp only [glob, List.mem_filter, List.isSuffixOf_iff_suffix] at hn hn'
      obtain ⟨fa, ha⟩ := (hset a).1 ha
      obtain ⟨fb, hb⟩ := (hset b).1 hb
      exact hab (suffix_of_suffix (suffix_shape ha) (suffix_shape hb) hn.2 hn'.2)
  · intro i
    rw [List.mem_flatMap]
    constructor
    · rintro ⟨a, ha, hx⟩
      obtain ⟨n, hn, rfl⟩ := List.mem_map.1 hx
      simp only [glob, List.mem_filter, List.isSuffixOf_iff_suffix] at hn
      exact ⟨n, rfl, hn.1, a, (hset a).1 ha, hn.2⟩
    · rintro ⟨n, rfl, hn, t, ht, hs⟩
      refine ⟨t, (hset t).2 ht, List.mem_map.2 ⟨n, ?_, rfl⟩⟩
      simp only [glob, List.mem_filter, List.isSuffixOf_iff_suffix]
      exact ⟨hn, hs⟩

/-- Files stay in a batch in the order they were added: later calls only append. -/
theorem C87_append {D O : Type} (formats : List (List Char)) (listing : D → List (List Char)) (calls : List (Add D O))
    (more : List (Add D O)) : ∃ l, batchFiles formats listing (calls ++ more) = batchFiles formats listing calls ++ l := by
  induction more using List.reverseRecOn with
  | nil => exact ⟨[], by simp⟩
  | append_singleton more a ih =>
    obtain ⟨l, ih⟩ := ih
    have e : batchFiles formats listing (calls ++ (more ++ [a])) =
        Add.run formats listing (batchFiles formats listing (calls ++ more)) a := by
      unfold batchFiles
      rw [← List.append_assoc, List.foldl_append]
      rfl
    rw [e, ih]
    cases a with
    | files m => exact ⟨l ++ m, by simp [Add.run]⟩
    | dir d ext => exact ⟨l ++ found formats listing d ext, by simp [Add.run]⟩

/-- **C87**: the files a call adds are exactly the given ones, or those found in the directory. -/
theorem C87_add {D O : Type} (formats : List (List Char)) (listing : D → List (List Char)) (calls : List (Add D O))
    (l : List (Item D O)) :
    batchFiles formats listing (calls ++ [.files l]) = batchFiles formats listing calls ++ l ∧
    ∀ d ext, ∃ m, batchFiles formats listing (calls ++ [.dir d ext]) = batchFiles formats listing calls ++ m ∧
      ∀ i, i ∈ m ↔ ∃ n, i = Item.path d n ∧ n ∈ listing d ∧ ∃ t ∈ ext.getD formats, t <:+ n := by
  unfold batchFiles
  refine ⟨by rw [List.foldl_append]; rfl, fun d ext => ⟨found formats listing d ext, by rw [List.foldl_append]; rfl, ?_⟩⟩
  intro i
  unfold found
  rw [List.mem_flatMap]
  constructor
  · rintro ⟨a, ha, hx⟩
    obtain ⟨n, hn, rfl⟩ := List.mem_map.1 hx
    simp only [glob, List.mem_filter, List.isSuffixOf_iff_suffix] at hn
    exact ⟨n, rfl, hn.1, a, ha, hn.2⟩
  · rintro ⟨n, rfl, hn, t, ht, hs⟩
    refine ⟨t, ht, List.mem_map.2 ⟨n, ?_, rfl⟩⟩
    simp only [glob, List.mem_filter, List.isSuffixOf_iff_suffix]
    exact ⟨hn, hs⟩

/-- **C87** fails for suffixes in capitals: such a file can be loaded, but is not found in its directory. -/
theorem C87_violated {D O : Type} {formats : List (List Char)} (hset : ∀ e, e ∈ formats ↔ Readable e)
    {listing : D → List (List Char)} {d : D} (read : Format → ReadFn S) {b : Bytes} {x : S}
    (hr : ((read .vk4) ⟨b, 0⟩).1 = .ok x) :
    Loads read ".VK4".toList b x ∧
      (Item.path d "a.VK4".toList : Item D O) ∉ batchFiles formats listing [.dir d none] := by
  constructor
  · have := C63_asked read (src := .path ".VK4".toList b) (format := none) (f := .vk4) (.inr ⟨rfl, _, _, rfl, by decide⟩)
      (x := x) hr
    exact congrArg Prod.fst this
  · intro h
    have e : batchFiles (O := O) formats listing [.dir d none] =
        formats.flatMap fun e => (glob (listing d) e).map (Item.path d) := by
      simp [batchFiles, Add.run, found]
    rw [e] at h
    obtain ⟨a, ha, hx⟩ := List.mem_flatMap.1 h
    obtain ⟨n, hn, e'⟩ := List.mem_map.1 hx
    cases e'
    simp only [glob, List.mem_filter, List.isSuffixOf_iff_suffix] at hn
    obtain ⟨f, hf⟩ := (hset a).1 ha
    have : ∀ f : Format, ∀ t ∈ f.suffixes, ¬ t <:+ "a.VK4".toList := by intro f; cases f <;> decide
    exact this f a hf hn.2

/-- **C87**, reports: the report of a file is named after the whole file name; different files of a directory have
different reports, and none replaces a file that can be read. -/
theorem C87_report (n : List Char) : reportName n = n ++ ".pdf".toList ∧ (∀ m, reportName m = reportName n → m = n) ∧
    ∀ s t, Named (reportName n) s t → ¬ Readable t := by
  have e : ∀ n, reportName n = n ++ ".pdf".toList := by
    intro n
    unfold reportName
    rw [← List.append_assoc]
    congr 1
    by_cases h : Convert.suffix n = []
    · unfold Convert.stem
      rw [h]
      simp
    · exact (suffix_named h).join.symm
  refine ⟨e n, fun m hm => ?_, fun s t hn hr => ?_⟩
  · rw [e, e] at hm
    exact List.append_cancel_right hm
  · have h1 : t <:+ n ++ ".pdf".toList := by rw [← e]; exact ⟨s, hn.join.symm⟩
    have := suffix_of_suffix hn.suffix ⟨_, rfl, by decide, by decide⟩ h1 ⟨n, rfl⟩
    subst this
    obtain ⟨f, hf⟩ := hr
    revert hf
    cases f <;> decide

/-! Concrete cases: readers that take the content of a file as the surface, writers that put a byte in front of it; the
input directory holds two measurements and a note. -/
section Examples

private def demoRead : Format → ReadFn Bytes := fun _ h => (.ok h.buf, 0)
private def demoWrite : Format → Bool → WriteFn Bytes := fun _ c s => ((if c then 1 else 0) :: s, .ok ())
private def demoFS : FS Bool := fun d n =>
  if d then none else [("a.vk4".toList, [1]), ("b.plu".toList, [2]), ("note.txt".toList, [3])].lookup n

private theorem demo_loads {f : Format} {t : List Char} (ht : t.map Char.toLower ∈ f.suffixes) (b : Bytes) : Loads demoRead t b b := by
  have := C63_asked demoRead (src := .path t b) (format := none) (f := f) (.inr ⟨rfl, _, _, rfl, ht⟩) (x := b) rfl
  exact congrArg Prod.fst this

/-- The premises of `C86_file_partial`. -/
example : ∃ fs', convertOne demoRead demoWrite ".sur".toList true "a.vk4".toList [1] true "a.sur".toList demoFS =
    (.ok (), fs') ∧ fs' true "a.sur".toList = some [1, 1] ∧
      ∀ d n, ¬ (d = true ∧ n = "a.sur".toList) → fs' d n = demoFS d n :=
  C86_file_partial (f := .sur) (x := [1]) (s0 := "a".toList) (t0 := ".vk4".toList) (s1 := "a".toList) (t1 := ".sur".toList)
    ⟨rfl, by decide, _, rfl, by decide, by decide⟩
    (demo_loads (f := .vk4) (by decide) _) ⟨rfl, by decide, _, rfl, by decide, by decide⟩ (by decide) (by decide)
    (.inr rfl) (fun _ => rfl) rfl

/-- The premises of `C86_file_violated`. -/
example : ∃ fs', convertOne demoRead demoWrite ".sur".toList false "a.vk4".toList [1] true "a.sdf".toList demoFS =
    (.error .typeError, fs') ∧ fs' true "a.sdf".toList = some [] :=
  C86_file_violated (f := .sdf) (x := [1]) (s0 := "a".toList) (t0 := ".vk4".toList) (s1 := "a".toList) (t1 := ".sdf".toList)
    ⟨rfl, by decide, _, rfl, by decide, by decide⟩
    (demo_loads (f := .vk4) (by decide) _) ⟨rfl, by decide, _, rfl, by decide, by decide⟩ (by decide) (by decide)
    rfl (by decide)

private theorem demo_all {din : Bool} {names : List (List Char)} {f : Format} {c : Bool} : ∀ n ∈ names, ∀ s t b,
    Source demoFS din n s t b → ∃ x w, Loads demoRead t b x ∧ Writes demoWrite f c x w := by
  intro n _ s t b hs
  obtain ⟨g, hg⟩ := hs.readable
  have low : ∀ f : Format, ∀ t ∈ f.suffixes, t.map Char.toLower = t := by intro f; cases f <;> decide
  exact ⟨b, _, demo_loads (f := g) (by rw [low g t hg]; exact hg) b, rfl⟩

/-- The premises of `C86_dir_partial`: both measurements are converted, the note is not. -/
example : ∃ fs', convertDir demoRead demoWrite ".sur".toList false false true
      ["a.vk4".toList, "note.txt".toList, "b.plu".toList] demoFS = (.ok (), fs') ∧
    fs' true "a.sur".toList = some [0, 1] ∧ fs' true "b.sur".toList = some [0, 2] ∧ fs' true "note.sur".toList = none := by
  obtain ⟨fs', h1, -, h3, h4⟩ := C86_dir_partial (read := demoRead) (write := demoWrite) (format := ".sur".toList)
    (compressed := false) (din := false) (dout := true) (f := .sur)
    (names := ["a.vk4".toList, "note.txt".toList, "b.plu".toList]) (fs := demoFS) (by decide) (by decide) (by decide)
    (by decide) demo_all
  have a : Source demoFS false "a.vk4".toList "a".toList ".vk4".toList [1] :=
    ⟨by decide, ⟨rfl, by decide, _, rfl, by decide, by decide⟩, .vk4, by decide⟩
  have b : Source demoFS false "b.plu".toList "b".toList ".plu".toList [2] :=
    ⟨by decide, ⟨rfl, by decide, _, rfl, by decide, by decide⟩, .plu, by decide⟩
  have c : ∀ s t b, ¬ Source demoFS false "note.txt".toList s t b := by
    intro s t b h
    have e := (named_suffix h.named).1
    have : t = ".txt".toList := by rw [← e]; decide
    subst this
    obtain ⟨f, hf⟩ := h.readable
    revert hf
    cases f <;> decide
  refine ⟨fs', h1, ?_, ?_, ?_⟩
  · refine h3 [] _ _ _ _ [1] [1] [0, 1] rfl a (demo_loads (f := .vk4) (by decide) _) rfl ?_
    intro n hn t' b' h
    rcases List.mem_cons.1 hn with rfl | hn
    · exact c _ _ _ h
    · rcases List.mem_singleton.1 hn with rfl
      have := (source_fun b h).1
      revert this; decide
  · exact h3 ["a.vk4".toList, "note.txt".toList] _ [] _ _ [2] [2] [0, 2] rfl b (demo_loads (f := .plu) (by decide) _) rfl (by simp)
  · refine h4 _ ?_
    intro n hn s t b' h e
    rcases List.mem_cons.1 hn with rfl | hn
    · rw [(source_fun a h).1] at e; revert e; decide
    · rcases List.mem_cons.1 hn with rfl | hn
      · exact c _ _ _ h
      · rcases List.mem_singleton.1 hn with rfl
        rw [(source_fun b h).1] at e; revert e; decide

private def isCorrupted {α : Type} : Except Err α → Bool
  | .error .corrupted => true
  | _ => false

private theorem of_corrupted {α : Type} {z : Except Err α} (h : isCorrupted z = true) : z = .error .corrupted := by
  unfold isCorrupted at h
  split at h
  · rfl
  · cases h

/-- The premises of `C86_dir_stops`: a reader that refuses the first file. -/
example : ∃ fs', convertDir (fun f h => if h.buf = [1] then (.error .corrupted, 0) else demoRead f h) demoWrite ".sur".toList
      false false true ["a.vk4".toList, "b.plu".toList] demoFS = (.error .corrupted, fs') ∧
    fs' true "b.sur".toList = none := by
  obtain ⟨fs', h1, -, h3⟩ := C86_dir_stops
    (read := fun f h => if h.buf = [1] then (.error .corrupted, 0) else demoRead f h) (write := demoWrite)
    (format := ".sur".toList) (compressed := false) (din := false) (dout := true) (f := .sur) (pre := [])
    (post := ["b.plu".toList]) (fs := demoFS) (n := "a.vk4".toList) (s := "a".toList) (t := ".vk4".toList) (b := [1])
    (e := .corrupted) (by decide) (by decide) (by decide) (by decide) (by simp)
    ⟨by decide, ⟨rfl, by decide, _, rfl, by decide, by decide⟩, .vk4, by decide⟩ (of_corrupted (by decide +kernel))
  exact ⟨fs', h1, h3 _ (by simp)⟩

/-- The premises of `C86_dir_violated` and of `C86_same_dir_violated`. -/
example : ∃ fs : FS Bool, ∃ fs', convertDir demoRead demoWrite ".sur".toList false false true
      ["a.vk4".toList, "a.plu".toList] fs = (.ok (), fs') ∧ fs false "a.vk4".toList = some [1] ∧
    fs' true "a.sur".toList = some [0, 2] ∧ ∀ n, fs' true n ≠ some [0, 1] := by
  refine ⟨fun d n => if d then none else [("a.vk4".toList, [1]), ("a.plu".toList, [2])].lookup n, ?_⟩
  obtain ⟨fs', h1, h2, h3⟩ := C86_dir_violated (read := demoRead) (write := demoWrite) (x1 := [1]) (x2 := [2])
    (b1 := [1]) (b2 := [2]) (w1 := [0, 1]) (w2 := [0, 2]) (din := false) (dout := true)
    (fs := fun d n => if d then none else [("a.vk4".toList, [1]), ("a.plu".toList, [2])].lookup n) (by decide)
    (by decide) (by decide) (fun _ => rfl) (demo_loads (f := .vk4) (by decide) _) (demo_loads (f := .plu) (by decide) _)
    rfl rfl (by decide)
  exact ⟨fs', h1, by decide, h2, h3⟩

example : convertDir demoRead demoWrite ".sur".toList false false false ["a.vk4".toList, "a.sur".toList] demoFS =
    convertDir demoRead demoWrite ".sur".toList false false false ["a.vk4".toList, "a.sur".toList]
      (demoFS.put false "a.sur".toList [9]) :=
  C86_same_dir_violated (x1 := [1]) (b1 := [1]) (w1 := [0, 1]) (demo_loads (f := .vk4) (by decide) _) rfl (by decide)
    (fun d n h => by unfold FS.put; rw [if_neg h])

/-- The premises of `C87_partial`: one order of the set of formats, a listing. -/
example : (Item.path true "a.vk4".toList : Item Bool Unit) ∈
      batchFiles readable (fun _ => ["a.vk4".toList, "note.txt".toList]) [.dir true none] ∧
    (Item.path true "note.txt".toList : Item Bool Unit) ∉
      batchFiles readable (fun _ => ["a.vk4".toList, "note.txt".toList]) [.dir true none] := by
  obtain ⟨-, h⟩ := C87_partial (D := Bool) (O := Unit) (formats := readable)
    (listing := fun _ => ["a.vk4".toList, "note.txt".toList]) (d := true) (fun _ => readable_iff) (by decide) (by decide)
  constructor
  · exact (h _).2 ⟨_, rfl, by decide, ".vk4".toList, ⟨.vk4, by decide⟩, by decide⟩
  · intro hm
    obtain ⟨n, e, -, t, ⟨f, hf⟩, hs⟩ := (h _).1 hm
    cases e
    have : ∀ f : Format, ∀ t ∈ f.suffixes, ¬ t <:+ "note.txt".toList := by intro f; cases f <;> decide
    exact this f t hf hs

/-- The premises of `C87_violated`. -/
example : Loads demoRead ".VK4".toList [1] [1] ∧ (Item.path true "a.VK4".toList : Item Bool Unit) ∉
    batchFiles readable (fun _ => ["a.VK4".toList]) [.dir true none] :=
  C87_violated (fun _ => readable_iff) demoRead rfl

end Examples

end Props
end Surfalize
