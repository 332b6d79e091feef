import Verif.Model.Docs
import Verif.Spec.Docs

/-!
# C126 — the documentation of batch methods
-/
namespace Surfalize.Props
open Surfalize Docs DocsSpec

private theorem occurs_none {p l : Line} (h : ¬ Mentions l p) : occurs p l = none := by
  unfold occurs
  rw [List.find?_eq_none]
  intro i hi hc
  simp only [Bool.and_eq_true, List.isPrefixOf_iff_prefix] at hc
  obtain ⟨⟨t, ht⟩, -⟩ := hc
  exact h ⟨l.take i, t, by rw [List.append_assoc, ht, List.take_append_drop]⟩

private theorem indented_of {l : Line} (h : Indented l) : indented l = true := by
  obtain ⟨t, ht, rfl | rfl⟩ := h
  all_goals
    have : 0 < t.length := List.length_pos_iff.2 ht
    have e : "    ".toList = [' ', ' ', ' ', ' '] := by decide +kernel
    unfold indented
    rw [e]
    simp [List.isPrefixOf]
    omega

private theorem outer_of {l : Line} (h : Outer l) : indented l = false := by
  unfold indented
  have e : "    ".toList = [' ', ' ', ' ', ' '] := by decide +kernel
  rw [e, Bool.eq_false_iff]
  intro hc
  simp only [Bool.or_eq_true, Bool.and_eq_true, List.isPrefixOf_iff_prefix, decide_eq_true_eq] at hc
  rcases hc with ⟨⟨t, rfl⟩, hl⟩ | ⟨⟨t, rfl⟩, hl⟩
  · exact h ⟨t, by rintro rfl; simp at hl, .inl rfl⟩
  · exact h ⟨t, by rintro rfl; simp at hl, .inr rfl⟩

private theorem remove_skip {p l : Line} (h : ¬ Mentions l p) (rest : List Line) : remove p (l :: rest) = l :: remove p rest := by
  rw [remove, occurs_none h]

private theorem remove_before {p : Line} (before rest : List Line) (h : ∀ l ∈ before, ¬ Mentions l p) : remove p (before ++ rest) = before ++ remove p rest := by
  induction before with
  | nil => rfl
  | cons l ls ih =>
    rw [List.cons_append, remove_skip (h l (by simp)), ih fun x hx => h x (by simp [hx]), List.cons_append]

/-- **C126** (nothing else): a documentation that does not mention the parameter is left as it is. -/
theorem C126_untouched {p : Line} {doc : List Line} (h : ∀ l ∈ doc, ¬ Mentions l p) : remove p doc = doc := by
  have := remove_before doc [] h
  rwa [List.append_nil, remove, List.append_nil] at this

/-- What is removed: of the first line that mentions the word with something behind it, the part from the word on, and all indented lines that follow, whatever they say. -/
theorem C126_cut {p x s : Line} {before block : List Line} {l : Line} {after : List Line} (hb : ∀ k ∈ before, ¬ Mentions k p)
    (hfirst : ∀ i < x.length, ¬ ∃ t, (x ++ p ++ s).drop i = p ++ t) (hs : s ≠ []) (hn : block ≠ []) (hi : ∀ k ∈ block, Indented k) (ho : Outer l) :
    remove p (before ++ (x ++ p ++ s) :: block ++ l :: after) = before ++ prepend x (remove p (l :: after)) := by
  rw [List.append_assoc, remove_before _ _ hb]
  congr 1
  have hlen : 0 < s.length := List.length_pos_iff.2 hs
  have ho' : occurs p (x ++ p ++ s) = some x.length := by
    unfold occurs
    rw [List.find?_eq_some_iff_getElem]
    refine ⟨?_, x.length, by simp; omega, by simp, ?_⟩
    · simp only [Bool.and_eq_true, decide_eq_true_eq, List.isPrefixOf_iff_prefix]
      refine ⟨⟨s, by simp⟩, by simp; omega⟩
    · intro j hj
      simp only [List.getElem_range, Bool.not_eq_true', Bool.and_eq_false_iff]
      left
      rw [Bool.eq_false_iff]
      intro hc
      rw [List.isPrefixOf_iff_prefix] at hc
      obtain ⟨t, ht⟩ := hc
      exact hfirst j hj ⟨t, ht.symm⟩
  have hf : following (block ++ l :: after) = block.length := by
    unfold following
    have h1 : ∀ k ∈ block, indented k = true := fun k hk => indented_of (hi k hk)
    rw [List.dropLast_append_of_ne_nil (by simp), List.takeWhile_append_of_pos h1]
    cases after with
    | nil => simp
    | cons a as =>
      rw [List.dropLast_cons_of_ne_nil (by simp), List.takeWhile_cons_of_neg (by rw [outer_of ho]; simp)]
      simp
  have hb0 : block.length ≠ 0 := fun h => hn (List.length_eq_zero_iff.1 h)
  rw [List.cons_append, remove, ho']
  dsimp only
  rw [hf, if_neg hb0]
  congr 1
  · simp
  · simp

/-- **C126** (the entry): the entry of a parameter, its line and the indented lines below it, is removed and nothing else, if the next entry or paragraph begins at the left
margin, as in texts whose common indentation is removed, or after an empty line. Missing: other texts, see `C126_next_violated` and `C126_prose_violated`. -/
theorem C126_entry_partial {p s : Line} {before desc : List Line} {l : Line} {after : List Line} (hb : ∀ k ∈ before, ¬ Mentions k p)
    (ha : ∀ k ∈ l :: after, ¬ Mentions k p) (hs : s ≠ []) (hn : desc ≠ []) (hi : ∀ k ∈ desc, Indented k) (ho : Outer l) :
    remove p (before ++ (p ++ s) :: desc ++ l :: after) = before ++ l :: after := by
  have := C126_cut (x := []) (s := s) (block := desc) (l := l) (after := after) hb (fun i hi => absurd hi (by simp)) hs hn hi ho
  rw [List.nil_append] at this
  rw [this, C126_untouched ha]
  rfl

/-- **Violated** (C126): in a text that is indented as a whole, as Python before 3.13 keeps it, the entries of all parameters that follow directly are removed as well. -/
theorem C126_next_violated {p q s : Line} {before desc others : List Line} {l : Line} {after : List Line} {ind : Line} (hb : ∀ k ∈ before, ¬ Mentions k p)
    (ha : ∀ k ∈ l :: after, ¬ Mentions k p) (hind : ∀ c ∈ ind, c = ' ') (hp : ∃ c t, p = c :: t ∧ c ≠ ' ') (hs : s ≠ []) (hi : ∀ k ∈ desc ++ q :: others, Indented k)
    (ho : Outer l) :
    remove p (before ++ (ind ++ p ++ s) :: (desc ++ q :: others) ++ l :: after) = before ++ (ind ++ l) :: after := by
  rw [C126_cut hb ?_ hs (by simp) hi ho, C126_untouched ha]
  · rfl
  · rintro i hil ⟨t, ht⟩
    obtain ⟨c, u, rfl, hc⟩ := hp
    have h0 : (ind ++ c :: u ++ s)[i]? = some c := by
      have := congrArg (fun z : List Char => z[0]?) ht
      simpa using this
    rw [List.append_assoc, List.getElem?_append_left hil, List.getElem?_eq_getElem hil, Option.some.injEq] at h0
    exact hc (h0 ▸ hind _ (List.getElem_mem hil))

/-- **Violated** (C126): a sentence that mentions the parameter is cut off, together with the indented lines that follow. -/
theorem C126_prose_violated {p x s : Line} {block : List Line} {l : Line} {after : List Line} (ha : ∀ k ∈ l :: after, ¬ Mentions k p) (hx : ∀ c ∈ x, p.head? ≠ some c) (hp : p ≠ [])
    (hs : s ≠ []) (hn : block ≠ []) (hi : ∀ k ∈ block, Indented k) (ho : Outer l) : remove p ((x ++ p ++ s) :: block ++ l :: after) = (x ++ l) :: after := by
  have := C126_cut (before := []) (x := x) (p := p) (s := s) (block := block) (l := l) (after := after) (by simp) ?_ hs hn hi ho
  · rw [List.nil_append, List.nil_append] at this
    rw [this, C126_untouched ha]
    rfl
  · rintro i hil ⟨t, ht⟩
    obtain ⟨c, u, rfl⟩ := List.exists_cons_of_ne_nil hp
    have h0 : (x ++ c :: u ++ s)[i]? = some c := by
      have := congrArg (fun z : List Char => z[0]?) ht
      simpa using this
    rw [List.append_assoc, List.getElem?_append_left hil, List.getElem?_eq_getElem hil, Option.some.injEq] at h0
    exact hx _ (List.getElem_mem hil) (by rw [h0]; rfl)

/-- The documentation of `filter` (surfalize/base.py:341-371), shortened to these lines, as Python before 3.13 keeps it: `endeffect_mode` is lost. -/
example : remove "inplace".toList (["", "        Parameters", "        ----------", "        filter_type : str", "            Mode of filtering.", "        inplace : bool, default False",
      "            If False, create and return new object.", "        endeffect_mode : {reflect, constant}, default reflect", "            The parameter determines.", "", "        Returns",
      "        -------", "        Surface | Profile", "        "].map String.toList) =
    (["", "        Parameters", "        ----------", "        filter_type : str", "            Mode of filtering.", "        ", "        Returns", "        -------",
      "        Surface | Profile", "        "].map String.toList) := by decide +kernel

/-- The same text without the common indentation: only the entry is removed. -/
example : remove "inplace".toList (["", "Parameters", "----------", "filter_type : str", "    Mode of filtering.", "inplace : bool, default False",
      "    If False, create and return new object.", "endeffect_mode : {reflect, constant}, default reflect", "    The parameter determines.", ""].map String.toList) =
    (["", "Parameters", "----------", "filter_type : str", "    Mode of filtering.", "endeffect_mode : {reflect, constant}, default reflect", "    The parameter determines.",
      ""].map String.toList) := by decide +kernel

end Surfalize.Props
