import Verif.Model.Examples
import Verif.Props.Convert
/-!
# C121: example files
-/
set_option linter.unusedSectionVars false
namespace Surfalize
/-! ### Specification -/
namespace ExamplesSpec
open Files Examples ConvertSpec

/-- The name ends in the suffix `t`: something before it, a dot, and something after it without dots. -/
def EndsIn (n t : List Char) : Prop := ∃ s, Named n s t

/-- The name has no suffix. -/
def NoSuffix (n : List Char) : Prop := ∀ t, ¬ EndsIn n t

/-- The directory of the repository lists these files. -/
def Lists (W : Web) (l : List Example) : Prop :=
  ∃ b, W.get "https://api.github.com/repos/fredericjs/surfalize/contents/tests/test_files".toList = .ok b ∧
    W.entries b = .ok (l.map fun e => (e.name, e.url))

/-- What `Surface.load` gives for the file saved on disk under its name. -/
def onDisk {R : Type} (run : Format → ReadFn R) (t : List Char) (b : Bytes) : Except Err R :=
  (Files.load (package run) (.path t b) none).1

end ExamplesSpec

namespace Props
open Files Surfalize.Convert Examples ConvertSpec FilesSpec ExamplesSpec
variable {R : Type}

private theorem suffix_eq {n t : List Char} (h : EndsIn n t) : Convert.suffix n = t := by
  obtain ⟨s, h⟩ := h
  exact (named_suffix h).1

private theorem suffix_iff {n t : List Char} (ht : t ≠ []) : Convert.suffix n = t ↔ EndsIn n t := by
  refine ⟨fun h => ?_, suffix_eq⟩
  have hn := suffix_named (n := n) (by rw [h]; exact ht)
  rw [h] at hn
  exact ⟨_, hn⟩

private theorem entries_map (l : List Example) : (l.map fun e => (e.name, e.url)).map (fun f => (⟨f.1, f.2⟩ : Example)) = l := by
  rw [List.map_map]
  exact (List.map_congr_left fun _ _ => rfl).trans (List.map_id l)

private theorem suffix_nil {n : List Char} : Convert.suffix n = [] ↔ NoSuffix n := by
  constructor
  · intro h t ht
    have := suffix_eq ht
    rw [h] at this
    subst this
    obtain ⟨s, -, -, u, hu, -⟩ := ht
    cases hu
  · intro h
    by_contra hc
    exact h _ ⟨_, suffix_named hc⟩

/-- **C121** (listing). Without a format all files of the directory, in its order; with a format exactly the files whose name ends in that
suffix, in the same order. Upper and lower case are different, and a format without its dot, or with more than one, finds nothing. -/
theorem C121_listing (W : Web) (l : List Example) (h : Lists W l) :
    listExamples W none = .ok l ∧
      ∀ t, t ≠ [] → ∃ r, listExamples W (some t) = .ok r ∧ r.Sublist l ∧ (∀ e, e ∈ r ↔ e ∈ l ∧ EndsIn e.name t) ∧
        ((¬ ∃ u, t = '.' :: u ∧ u ≠ [] ∧ '.' ∉ u) → r = []) := by
  obtain ⟨b, h1, h2⟩ := h
  have e1 : listExamples W none = .ok l := by
    unfold listExamples
    rw [show W.get listingUrl = .ok b from h1]
    dsimp only
    rw [h2]
    dsimp only
    rw [entries_map]
  refine ⟨e1, fun t ht => ⟨l.filter fun f => Convert.suffix f.name = t, ?_, List.filter_sublist, fun e => ?_, fun hn => ?_⟩⟩
  · unfold listExamples
    rw [show W.get listingUrl = .ok b from h1]
    dsimp only
    rw [h2]
    dsimp only
    rw [entries_map]
  · rw [List.mem_filter, decide_eq_true_eq, suffix_iff ht]
  · rw [List.filter_eq_nil_iff]
    intro e _ he
    obtain ⟨s, hs⟩ := (suffix_iff ht).1 (of_decide_eq_true he)
    exact hn hs.suffix

/-- **C121** (no connection). If the listing cannot be downloaded, or is no list of files, `list_examples` raises; it is never empty for that reason. -/
theorem C121_no_connection (W : Web) (format : Option (List Char)) (e : Err) :
    (W.get "https://api.github.com/repos/fredericjs/surfalize/contents/tests/test_files".toList = .error e → listExamples W format = .error e) ∧
    (∀ b, W.get "https://api.github.com/repos/fredericjs/surfalize/contents/tests/test_files".toList = .ok b → W.entries b = .error e →
      listExamples W format = .error e) ∧
    (∀ (run : Format → ReadFn R) (x : Example), W.get x.url = .error e → x.load W (package run) = .error e) := by
  refine ⟨fun h => ?_, fun b h h2 => ?_, fun run x h => ?_⟩
  · unfold listExamples
    rw [show W.get listingUrl = .error e from h]
  · unfold listExamples
    rw [show W.get listingUrl = .ok b from h]
    simp [h2]
  · unfold Example.load
    rw [h]

/-- **C121** (loading). A file that is readable in the format of its suffix (in capitals or not) gives the surface that the same file on disk gives;
so does a file without suffix that begins with the magic number of the format of its content. -/
theorem C121_load_partial (W : Web) (run : Format → ReadFn R) (e : Example) (b : Bytes) (hb : W.get e.url = .ok b) :
    (∀ t f x, EndsIn e.name t → t.map Char.toLower ∈ f.suffixes → Reads run f b x →
      e.load W (package run) = .ok x ∧ onDisk run t b = .ok x) ∧
    (∀ f, NoSuffix e.name → HasMagic f b → e.load W (package run) = (run f ⟨b, 0⟩).1 ∧ onDisk run [] b = (run f ⟨b, 0⟩).1) := by
  constructor
  · intro t f x ht hf hx
    have hs := suffix_eq ht
    have hne : t ≠ [] := by
      obtain ⟨s, -, -, u, rfl, -⟩ := ht
      exact List.cons_ne_nil _ _
    constructor
    · unfold Example.load
      rw [hb]
      dsimp only
      rw [hs, if_pos hne, C63_asked run (f := f) (src := .buffer b 0) (Or.inl ⟨t, rfl, hf⟩) hx]
    · unfold onDisk
      rw [C63_asked run (f := f) (src := .path t b) (Or.inr ⟨rfl, t, b, rfl, hf⟩) hx]
  · intro f hn hm
    constructor
    · unfold Example.load
      rw [hb]
      dsimp only
      rw [suffix_nil.2 hn, if_neg (by simp), C63_buffer_magic_partial run hm]
    · unfold onDisk
      rw [C63_path_magic run (f := f) _ hm]
      rintro g (⟨s, h, -⟩ | ⟨-, s, b', h, hs⟩)
      · cases h
      · cases h
        exfalso
        have : ∀ g : Format, ([] : List Char).map Char.toLower ∉ g.suffixes := by intro g; cases g <;> decide
        exact this g hs

/-- **C121** (violated for other files). A file without suffix and without a magic number that one of the readers can read is read from disk, but as an
example it is refused as unsupported. -/
theorem C121_probe_violated (W : Web) (run : Format → ReadFn R) (e : Example) (b : Bytes) (hb : W.get e.url = .ok b) (hn : NoSuffix e.name)
    (hm : ∀ f, ¬ HasMagic f b) (hr : ∃ f x, Reads run f b x) :
    e.load W (package run) = .error .unsupported ∧ ∃ x, onDisk run [] b = .ok x := by
  constructor
  · unfold Example.load
    rw [hb]
    dsimp only
    rw [suffix_nil.2 hn, if_neg (by simp), C63_buffer_not_probed run (by simpa using hm)]
  · obtain ⟨f, x, h⟩ := hr
    exact (C63_path_iff run [] b none).2 (Or.inr (Or.inr ⟨hm, f, x, h⟩))

/-- **C121** (violated for misnamed files). A file that begins with the magic number of a format that reads it, but is named after another format whose
reader fails on it, is read from disk (with a warning); as an example it is refused with the exception of the wrong reader, unless a magic
number happens to stand where that reader stopped. -/
theorem C121_misnamed_violated (W : Web) (run : Format → ReadFn R) (e : Example) (b : Bytes) (hb : W.get e.url = .ok b)
    {t : List Char} {f g : Format} {err : Err} {p : Nat} {x : R} (ht : EndsIn e.name t) (hg : t.map Char.toLower ∈ g.suffixes)
    (hr : run g ⟨b, 0⟩ = (.error err, p)) (hm : HasMagic f b) (hx : Reads run f b x) (hp : ∀ f, ¬ HasMagic f (b.drop p)) :
    e.load W (package run) = .error err ∧ onDisk run t b = .ok x := by
  have hne : t ≠ [] := by
    obtain ⟨s, -, -, u, rfl, -⟩ := ht
    exact List.cons_ne_nil _ _
  constructor
  · unfold Example.load
    rw [hb]
    dsimp only
    rw [suffix_eq ht, if_pos hne, C63_buffer_wrong_format run hg hr hp]
  · unfold onDisk
    rw [C63_path_magic run (f := f) _ hm]
    · exact hx
    · intro g' hg' y hy
      have : g' = g := asked_unique hg' (Or.inr ⟨rfl, t, b, rfl, hg⟩)
      subst this
      unfold Reads at hy
      rw [hr] at hy
      cases hy

/-! ## Non-vacuity -/

/-- Two files; addresses are their own contents. -/
private def web : Web where
  get u := .ok (if u = listingUrl then [] else [1, 2])
  entries _ := .ok [("test_1.nms".toList, "u1".toList), ("README".toList, "u2".toList)]

private def runs (f : Format) : ReadFn Nat := fun h => if f = .nms then (.ok h.buf.length, 0) else (.error .corrupted, 1)

example : Lists web [⟨"test_1.nms".toList, "u1".toList⟩, ⟨"README".toList, "u2".toList⟩] := ⟨[], by decide +kernel, rfl⟩

example : EndsIn "test_1.nms".toList ".nms".toList ∧ NoSuffix "README".toList := by
  refine ⟨(suffix_iff (by decide)).1 (by decide +kernel), suffix_nil.1 (by decide +kernel)⟩

/-- The example without suffix is not read although the same file on disk is. -/
example : (⟨"README".toList, "u2".toList⟩ : Example).load web (package runs) = .error .unsupported :=
  (C121_probe_violated web runs _ [1, 2] (by decide +kernel) (suffix_nil.1 (by decide +kernel))
    (by
      rintro f ⟨m, hm, t, ht⟩
      have : ∀ f : Format, ∀ m ∈ f.magics, m.head? ≠ some 1 ∨ (m.tail.head? ≠ some 2) := by intro f; cases f <;> decide +kernel
      rcases m with _ | ⟨a, _ | ⟨b, m⟩⟩
      · have : ∀ f : Format, [] ∉ f.magics := by intro f; cases f <;> decide +kernel
        exact this f hm
      · have : ∀ f : Format, ∀ m ∈ f.magics, m.length ≠ 1 := by intro f; cases f <;> decide +kernel
        exact this f _ hm rfl
      · have h3 := this f _ hm
        have h4 : a = 1 ∧ b = 2 := by
          have := ht
          simp only [List.cons_append, List.cons.injEq] at this
          exact ⟨this.1.symm, this.2.1.symm⟩
        rw [h4.1, h4.2] at h3
        simp at h3)
    ⟨.nms, 2, rfl⟩).1

end Props
end Surfalize
