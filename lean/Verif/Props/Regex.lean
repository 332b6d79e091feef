import Verif.Lemmas.Regex
import Verif.Props.Filename
import Mathlib.Data.List.TakeWhile

/-!
# C109 — the literal text of a filename template stands for itself
-/
set_option linter.unusedSectionVars false
set_option synthInstance.maxSize 2000
namespace Surfalize.Props
open Surfalize Surfalize.Filename Surfalize.FilenameSpec Surfalize.FilenameLemmas Surfalize.RegexSpec
open Surfalize.Regex (elsOf extract)

namespace RegexProps

theorem fill_lit (l : List Char) (is : List Item) (vs : List (List Char)) : fill (l.map Item.lit ++ is) vs = l ++ fill is vs := by
  induction l with
  | nil => rfl
  | cons c l ih => simp only [List.map_cons, List.cons_append, fill, ih]

theorem types_lit (l : List Char) : fieldTypes (l.map Item.lit) = [] := by
  induction l with
  | nil => rfl
  | cons c l ih => exact ih

theorem types_append (a b : List Item) : fieldTypes (a ++ b) = fieldTypes a ++ fieldTypes b := by
  unfold fieldTypes; rw [List.filterMap_append]

/-- The items of a template. -/
def itemsOf (segs : List (List Char × Token × Ty)) (last : List Char) : List Item :=
  segs.flatMap (fun s => s.1.map Item.lit ++ (s.2.1.prefix_.map .lit ++ [.field s.2.2] ++ s.2.1.suffix.map .lit)) ++
        last.map .lit

theorem types_items (segs : List (List Char × Token × Ty)) (last : List Char) :
    fieldTypes (itemsOf segs last) = segs.map fun s => s.2.2 := by
  unfold itemsOf
  rw [types_append, types_lit, List.append_nil]
  induction segs with
  | nil => rfl
  | cons s segs ih =>
    rw [List.flatMap_cons, types_append, ih, types_append, types_append, types_append, types_lit, types_lit, types_lit]
    rfl

theorem fill_items (segs : List (List Char × Token × Ty)) (last : List Char) (vs : List (List Char))
    (h : segs.length = vs.length) : fill (itemsOf segs last) vs = written segs vs last := by
  induction segs generalizing vs with
  | nil =>
    have : fill (last.map Item.lit ++ []) vs = last := by rw [fill_lit]; cases vs <;> simp [fill]
    simpa [itemsOf, written] using this
  | cons s segs ih =>
    cases vs with
    | nil => simp at h
    | cons v vs =>
      have e : itemsOf (s :: segs) last = s.1.map Item.lit ++ (s.2.1.prefix_.map .lit ++ (.field s.2.2 :: (s.2.1.suffix.map .lit ++
          itemsOf segs last))) := by
        simp [itemsOf]
      rw [e, fill_lit, fill_lit, fill, fill_lit, ih vs (by simpa using h)]
      simp [written]

end RegexProps
open RegexProps

/-- **C109** (the expression). If the literal texts of a template contain no character with a meaning in regular expressions and
the names are distinct identifiers, the expression of the template is accepted, and searching it in a file name finds, under each
name, the text that the description of templates used for C53 assigns to the field: the literal texts matched verbatim, a
number or text for each field, the leftmost place, the longest texts first. -/
theorem C109_literal_partial (segs : List (List Char × Token × Ty)) (last : List Char) (h : Plain segs last) :
    ∃ p r is, constructRegex (segs.map fun s => s.2.1) (segs.map (fun s => s.1) ++ [last]) = .ok p ∧ Regex.compile p = .ok r ∧
      templateItems (segs.map fun s => s.2.1) (segs.map (fun s => s.1) ++ [last]) = .ok is ∧
      ∀ file, Regex.search r file = (Filename.search is file).map fun vs => (segs.map fun s => some s.2.1.name).zip vs := by
  obtain ⟨h1, h2, h3⟩ := h
  have hc := Regex.compile_els (elsOf segs last) (Regex.ok_elsOf segs last (fun s hs => ⟨(h1 s hs).1, (h1 s hs).2.1, (h1 s hs).2.2.1,
    (h1 s hs).2.2.2.1⟩) h2)
  rw [Regex.names_elsOf, if_pos h3, Regex.text_elsOf] at hc
  refine ⟨_, _, _, C53_regex segs last fun s hs => (h1 s hs).2.2.2.2, hc, C53_items segs last fun s hs => (h1 s hs).2.2.2.2, ?_⟩
  intro file
  rw [Regex.search_els, Regex.item_elsOf, Regex.names_elsOf, List.map_map]
  rfl

/-- **C109** (files). From a file name the template reads, under its names, values of the types of the fields such that the file
name contains the literal texts, prefixes and suffixes verbatim with these values between them; and it reads some values
from every file name that contains such a text. -/
theorem C109_read_partial (segs : List (List Char × Token × Ty)) (texts : List (List Char)) (last : List Char) (h : Plain segs last)
    (ht : List.Forall₂ (fun s t => NoBracket s.1 ∧ NoBracket t ∧ extractToken t = .ok s.2.1) segs texts) (hl : NoBracket last)
    (file : List Char) :
    ∃ m, extract (renderTemplate ((segs.map fun s => s.1).zip texts) last) file = .ok (.ok m) ∧
      (∀ caps, m = some caps → ∃ vs, caps = (segs.map fun s => some s.2.1.name).zip vs ∧
        List.Forall₂ Valid (segs.map fun s => s.2.2) vs ∧ ∃ a b, file = a ++ written segs vs last ++ b) ∧
      ∀ vs a b, List.Forall₂ Valid (segs.map fun s => s.2.2) vs → file = a ++ written segs vs last ++ b → m ≠ none := by
  have hp := C53_parse ((segs.map fun s => s.1).zip texts) last (segs.map fun s => s.2.1) ?_ hl ?_
  · have hlen : segs.length = texts.length := ht.length_eq
    have e : ((segs.map fun s => s.1).zip texts).map Prod.fst = segs.map fun s => s.1 := by
      apply List.map_fst_zip
      simp [hlen]
    rw [e] at hp
    obtain ⟨p, r, is, q1, q2, q3, q4⟩ := C109_literal_partial segs last h
    rw [C53_items segs last fun s hs => (h.1 s hs).2.2.2.2] at q3
    have his : is = itemsOf segs last := (Except.ok.inj q3).symm
    subst his
    refine ⟨Regex.search r file, by unfold extract; simp only [hp, q1, q2], ?_, ?_⟩
    · intro caps hc
      rw [q4, Option.map_eq_some_iff] at hc
      obtain ⟨vs, hv, rfl⟩ := hc
      obtain ⟨f1, a, b, f2⟩ := C53_extracted_occurs _ _ _ hv
      rw [types_items] at f1
      refine ⟨vs, rfl, f1, a, b, ?_⟩
      rw [f2, fill_items segs last vs (by simpa using f1.length_eq)]
    · intro vs a b hv hf
      rw [q4]
      have := C53_matched (itemsOf segs last) vs (by rw [types_items]; exact hv) a b
      rw [fill_items segs last vs (by simpa using hv.length_eq), ← hf] at this
      simpa using this
  · clear h
    induction ht with
    | nil => simp
    | cons h _ ih =>
      intro s hs
      simp only [List.map_cons, List.zip_cons_cons, List.mem_cons] at hs
      rcases hs with rfl | hs
      · exact ⟨h.1, h.2.1⟩
      · exact ih s hs
  · clear h
    induction ht with
    | nil => simp
    | cons h _ ih => exact .cons h.2.2 ih

/-- **C109** (names). Two fields with the same name are rejected, whatever the file names are. -/
theorem C109_duplicate (segs : List (List Char × Token × Ty)) (last : List Char)
    (h : ∀ s ∈ segs, Literal s.1 ∧ Literal s.2.1.prefix_ ∧ Literal s.2.1.suffix ∧ IsName s.2.1.name ∧
      tyOf s.2.1.dtype = some s.2.2) (hl : Literal last) (hd : ¬ (segs.map fun s => s.2.1.name).Nodup) :
    ∃ p, constructRegex (segs.map fun s => s.2.1) (segs.map (fun s => s.1) ++ [last]) = .ok p ∧ Regex.compile p = .bad := by
  have hc := Regex.compile_els (elsOf segs last) (Regex.ok_elsOf segs last (fun s hs => ⟨(h s hs).1, (h s hs).2.1, (h s hs).2.2.1,
    (h s hs).2.2.2.1⟩) hl)
  rw [Regex.names_elsOf, if_neg hd, Regex.text_elsOf] at hc
  exact ⟨_, C53_regex segs last fun s hs => (h s hs).2.2.2.2, hc⟩

/-- **C109** (values). A file name that begins with the template filled with values is read back as those values, under their
names, if no number is followed by more of a number and each text field ends at the delimiter or ends the file name. -/
theorem C109_roundtrip_partial (delim : Char) (segs : List (List Char × Token × Ty)) (last rest : List Char) (h : Plain segs last)
    (vs : List (List Char)) (hv : List.Forall₂ Valid (segs.map fun s => s.2.2) vs) (hd : ∀ v ∈ vs, delim ∉ v) (hrest : delim ∉ rest)
    (hr : Readable delim (itemsOf segs last) vs rest) :
    ∃ p r, constructRegex (segs.map fun s => s.2.1) (segs.map (fun s => s.1) ++ [last]) = .ok p ∧ Regex.compile p = .ok r ∧
      Regex.search r (written segs vs last ++ rest) = some ((segs.map fun s => some s.2.1.name).zip vs) := by
  obtain ⟨p, r, is, q1, q2, q3, q4⟩ := C109_literal_partial segs last h
  rw [C53_items segs last fun s hs => (h.1 s hs).2.2.2.2] at q3
  have his : is = itemsOf segs last := (Except.ok.inj q3).symm
  subst his
  refine ⟨p, r, q1, q2, ?_⟩
  rw [q4, ← fill_items segs last vs (by simpa using hv.length_eq),
    C53_roundtrip delim _ vs rest (by rw [types_items]; exact hv) hd hrest hr]
  rfl

/-! ### A concrete template -/

/-- `P<power|float||W>_N<n|int>.x` without the point: `P<power|float||W>_N<n|int>-x`. -/
def c109Segs : List (List Char × Token × Ty) :=
  [("P".toList, ⟨"power".toList, "float".toList, [], "W".toList⟩, .float), ("_N".toList, ⟨"n".toList, "int".toList, [], []⟩, .int)]

example : Plain c109Segs "-x".toList ∧ List.Forall₂ (fun s t => NoBracket s.1 ∧ NoBracket t ∧ extractToken t = .ok s.2.1) c109Segs
      ["power|float||W".toList, "n|int".toList] ∧
    extract (renderTemplate ((c109Segs.map fun s => s.1).zip ["power|float||W".toList, "n|int".toList]) "-x".toList)
      "run_P1,5W_N12-x.sur".toList = .ok (.ok (some [(some "power".toList, "1,5".toList), (some "n".toList, "12".toList)])) := by
  refine ⟨⟨?_, ?_, by decide +kernel⟩, .cons ⟨?_, ?_, by decide +kernel⟩ (.cons ⟨?_, ?_, by decide +kernel⟩ .nil), by decide +kernel⟩
  · intro s hs
    simp only [c109Segs, List.mem_cons, List.not_mem_nil, or_false] at hs
    rcases hs with rfl | rfl <;> refine ⟨?_, ?_, ?_, ⟨by decide, by decide +kernel, ?_⟩, by decide +kernel⟩
    all_goals first
      | (unfold Literal; decide +kernel)
      | (intro c r hc; injection hc with e1 e2; subst e1; decide +kernel)
  · unfold Literal; decide +kernel
  all_goals (unfold NoBracket; decide +kernel)

example : List.Forall₂ Valid (c109Segs.map fun s => s.2.2) ["1,5".toList, "12".toList] ∧
    Readable '_' (itemsOf c109Segs "-x".toList) ["1,5".toList, "12".toList] ".sur".toList ∧
    written c109Segs ["1,5".toList, "12".toList] "-x".toList ++ ".sur".toList = "P1,5W_N12-x.sur".toList := by
  refine ⟨.cons (.inr ⟨['1'], ',', ['5'], rfl, .inr rfl, by decide, by decide, by decide, by decide⟩)
    (.cons ⟨by decide, by decide⟩ .nil), ?_, by decide +kernel⟩
  simp only [itemsOf, c109Segs]
  refine ⟨⟨trivial, ?_⟩, ⟨?_, ?_⟩⟩
  · intro c r h; injection h with h _; subst h; decide
  · intro c r h; injection h with h _; subst h; decide
  · intro h; exact absurd (h ',' (by decide)) (by decide)

/-- Two fields of the same name. -/
example : ∃ segs : List (List Char × Token × Ty), (∀ s ∈ segs, Literal s.1 ∧ Literal s.2.1.prefix_ ∧ Literal s.2.1.suffix ∧
      IsName s.2.1.name ∧ tyOf s.2.1.dtype = some s.2.2) ∧ ¬ (segs.map fun s => s.2.1.name).Nodup := by
  refine ⟨[("a".toList, ⟨['n'], "int".toList, [], []⟩, .int), ("b".toList, ⟨['n'], "str".toList, [], []⟩, .str)], ?_, by decide +kernel⟩
  intro s hs
  simp only [List.mem_cons, List.not_mem_nil, or_false] at hs
  rcases hs with rfl | rfl <;> refine ⟨?_, ?_, ?_, ⟨by decide, by decide +kernel, ?_⟩, by decide +kernel⟩
  all_goals first
    | (unfold Literal; decide +kernel)
    | (intro c r hc; injection hc with e1 e2; subst e1; decide +kernel)

/-! ### Where literal text does not stand for itself -/

theorem mtList_lit {β : Type} (pre : List Char) (rs : List Regex.Re) (t : List Char) (caps) (k : Regex.Pos → Option β) :
    Regex.mtList (pre.map Regex.Re.chr ++ rs) ⟨pre ++ t, caps⟩ k = Regex.mtList rs ⟨t, caps⟩ k := by
  induction pre with
  | nil => rfl
  | cons c pre ih => simp only [List.map_cons, List.cons_append, Regex.mtList, Regex.mt, if_true, ih]

theorem search_of_mt {r : Regex.Re} {file : List Char} {x} (h : (Regex.mt r ⟨file, []⟩ fun p => some p.caps) = some x) :
    Regex.search r file = some x := by
  cases file with
  | nil => exact h
  | cons c s => rw [Regex.search, h]

/-- **C109 fails** for a point (as before a file extension): it stands for any character. Whatever the text before it, the
template `text.<n|int>` reads the number of a file name that has another character instead of the point. -/
theorem C109_point_violated (pre : List Char) (hp : Literal pre) (c : Char) (hc : c ≠ '\n') (n : Nat) :
    ∃ p r, constructRegex [⟨['n'], "int".toList, [], []⟩] [pre ++ ['.'], []] = .ok p ∧ Regex.compile p = .ok r ∧
      Regex.search r (pre ++ c :: decimal n) = some [(some ['n'], decimal n)] := by
  have hn : Valid .int (decimal n) := (C53_int_value n).1
  have e1 : constructRegex [⟨['n'], "int".toList, [], []⟩] [pre ++ ['.'], []] =
      .ok (pre ++ (".".toList ++ Regex.El.text (.inr (['n'], .int)))) := by
    have := C53_regex [(pre ++ ['.'], ⟨['n'], "int".toList, [], []⟩, .int)] [] (by intro s hs; simp at hs; subst hs; rfl)
    simpa [Regex.El.text] using this
  refine ⟨_, (pre.map Regex.Re.chr ++ [Regex.Re.any, Regex.Re.group (some ['n']) (Regex.tyRe .int)]).foldl Regex.Re.seq .eps, e1, ?_, ?_⟩
  · unfold Regex.compile
    rw [Regex.run_append, Regex.run_lit pre _ rfl hp]
    dsimp only
    rw [List.foldl_append]
    obtain ⟨h1, h2⟩ := Regex.foldl_push (pre.map Regex.Re.chr) (Regex.Frame.fresh .top)
    generalize (pre.map Regex.Re.chr).foldl Regex.Frame.push (Regex.Frame.fresh .top) = f at h1 h2
    rw [show Regex.Re.eps = (Regex.Frame.fresh .top).branch from rfl, ← h1]
    obtain ⟨k, d, i, l⟩ := f
    simp only [Regex.Frame.fresh] at h2
    subst h2
    rfl
  · apply search_of_mt
    rw [Regex.mt_foldl]
    simp only [Regex.mt]
    rw [mtList_lit]
    simp only [Regex.mtList, Regex.mt, if_neg hc, Regex.mt_type, candidates, List.nil_append]
    have hl : runLen Char.isDigit (decimal n) = (decimal n).length := by
      unfold runLen
      rw [List.takeWhile_eq_self_iff.2 hn.2]
    obtain ⟨m, hm⟩ : ∃ m, (decimal n).length = m + 1 := by
      cases h : decimal n with
      | nil => exact absurd h hn.1
      | cons x t => exact ⟨t.length, rfl⟩
    rw [hl, hm, down_succ, List.findSome?_cons]
    simp [← hm]

/-- **C109 fails** for brackets: they are taken for a group, so that the template does not match the file names it was written
for. -/
theorem C109_brackets_violated :
    extract "sample(1)_<n|int>".toList "sample(1)_5".toList = .ok (.ok none) ∧
    extract "sample(1)_<n|int>".toList "sample1_5".toList = .ok (.ok (some [(none, ['1']), (some ['n'], ['5'])])) := by
  decide +kernel

/-- **C109 fails** for a plus sign: it is taken for a repetition. -/
theorem C109_plus_violated : extract "a+b_<n|int>".toList "a+b_5".toList = .ok (.ok none) := by
  decide +kernel

/-- **C109 fails** for a single opening or closing bracket, a plus sign or star at the beginning, and for names that are no
identifiers: the expression is rejected. -/
theorem C109_rejected_violated (file : List Char) :
    extract "a)_<n|int>".toList file = .ok .bad ∧ extract "(a_<n|int>".toList file = .ok .bad ∧
    extract "+a_<n|int>".toList file = .ok .bad ∧ extract "*a_<n|int>".toList file = .ok .bad ∧
    extract "<laser power|int>".toList file = .ok .bad ∧ extract "<2nd|int>".toList file = .ok .bad :=
  ⟨rfl, rfl, rfl, rfl, rfl, rfl⟩

end Surfalize.Props
