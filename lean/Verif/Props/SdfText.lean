import Verif.Props.Sdf
import Verif.Props.FileHandler
/-!
# C59: what the text variant of an SDF file holds; C63: the suffixes the documentation names
-/
set_option linter.unusedSectionVars false
namespace Surfalize
/-! ### Specification -/
namespace SdfSpec

/-- The words of a text: the longest pieces without blanks and line ends (`str.split`). -/
def words (cur : List Char) : List Char → List (List Char)
  | [] => if cur = [] then [] else [cur]
  | c :: cs =>
    if c = ' ' ∨ c = '\n' then (if cur = [] then [] else [cur]) ++ words [] cs else words (cur ++ [c]) cs

/-- A word: not empty, no blank, no line end, no asterisk. -/
structure Word (t : List Char) : Prop where
  some : t ≠ []
  plain : ∀ c ∈ t, c ≠ ' ' ∧ c ≠ '\n' ∧ c ≠ '*'

end SdfSpec

namespace FilesSpec
open Files

/-- The table of the README: suffix, format, and whether files of that kind can be written. -/
def readme : List (String × Format × Bool) :=
  [(".vk4", .vk4, false), (".vk6", .vk67, false), (".vk7", .vk67, false), (".plu", .plu, false), (".plux", .plux, false),
   (".sur", .sur, true), (".zmg", .zmg, false), (".opd", .opd, false), (".nms", .nms, false), (".al3d", .al3d, true),
   (".sdf", .sdf, true), (".gwy", .gwy, false), (".os3d", .os3d, false), (".fits", .fits, false), (".dat", .dat, false),
   (".x3p", .x3p, false), (".tmd", .tmd, true), (".xyz", .xyz, false)]

/-- Suffixes the package knows besides those. -/
def undocumented : List (String × Format × Bool) := [(".sflz", .sflz, true), (".fit", .fits, false), (".fts", .fits, false)]

end FilesSpec

namespace Props
section Text
open LayoutM LayoutSpec FileArr Sdf SdfSpec
variable {K : Type} [Field K] [LinearOrder K] [IsStrictOrderedRing K] [FloorRing K]

private theorem words_break {c : Char} (hc : c = ' ' ∨ c = '\n') (b : List Char) :
    ∀ (a cur : List Char), words cur (a ++ c :: b) = words cur a ++ words [] b := by
  intro a
  induction a with
  | nil => intro cur; simp only [List.nil_append, words, if_pos hc]
  | cons x a ih =>
    intro cur
    simp only [List.cons_append, words]
    split
    · rw [ih, List.append_assoc]
    · rw [ih]

private theorem words_plain : ∀ (a cur : List Char), (∀ c ∈ a, c ≠ ' ' ∧ c ≠ '\n') →
    words cur a = if cur ++ a = [] then [] else [cur ++ a] := by
  intro a
  induction a with
  | nil => intro cur _; simp only [words, List.append_nil]
  | cons x a ih =>
    intro cur h
    have hx := h x (by simp)
    rw [words, if_neg (by rintro (e | e); exacts [hx.1 e, hx.2 e]), ih _ fun c hc => h c (by simp [hc]), List.append_assoc]
    rfl

/-- The text of a height as a word: `BAD` for a point that was not measured. -/
private def asWord (P : Printer K) : Option K → List Char
  | none => "BAD".toList
  | some x => P.fixed x

private theorem words_height (P : Printer K) (hP : ∀ x, Word (P.fixed x)) (z : Option K) : words [] (heightText P z) = [asWord P z] := by
  cases z with
  | none =>
    show words [] (ljust 12 "BAD".toList) = ["BAD".toList]
    decide
  | some x =>
    show words [] (P.fixed x) = _
    rw [words_plain _ _ fun c hc => ⟨((hP x).plain c hc).1, ((hP x).plain c hc).2.1⟩, List.nil_append, if_neg (hP x).some]
    rfl

private theorem words_line (P : Printer K) (hP : ∀ x, Word (P.fixed x)) (b : List Char) : ∀ zs : List (Option K), zs ≠ [] →
    words [] (List.intercalate [' '] (zs.map (heightText P)) ++ '\n' :: b) = zs.map (asWord P) ++ words [] b := by
  intro zs
  induction zs with
  | nil => intro h; exact absurd rfl h
  | cons z zs ih =>
    intro _
    cases zs with
    | nil =>
      simp only [List.map_cons, List.map_nil, List.intercalate, List.intersperse_singleton, List.flatten_cons, List.flatten_nil, List.append_nil]
      rw [words_break (Or.inr rfl), words_height P hP]
    | cons y zs =>
      have e : List.intercalate [' '] ((z :: y :: zs).map (heightText P)) =
          heightText P z ++ ' ' :: List.intercalate [' '] ((y :: zs).map (heightText P)) := by
        simp [List.intercalate]
      rw [e, List.append_assoc, List.cons_append, words_break (Or.inl rfl), words_height P hP, ih (by simp)]
      rfl

private theorem words_dataLines (P : Printer K) (hP : ∀ x, Word (P.fixed x)) (n : Nat) : ∀ (zs : List (Option K)) (i : Nat) (ys : List (Option K)),
    i + zs.length = n → (zs = [] → ys = []) →
      words [] (dataLines P n i (ys.map (heightText P)) zs) = (ys ++ zs).map (asWord P) := by
  intro zs
  induction zs with
  | nil => intro i ys _ h; rw [h rfl]; rfl
  | cons z zs ih =>
    intro i ys hi _
    rw [List.length_cons] at hi
    have e : ys.map (heightText P) ++ [heightText P z] = (ys ++ [z]).map (heightText P) := by rw [List.map_append]; rfl
    rw [dataLines, e]
    split
    · rw [List.append_assoc, List.singleton_append, words_line P hP _ _ (by simp), show ([] : List (List Char)) = ([] : List (Option K)).map (heightText P) from rfl,
        ih (i + 1) [] (by omega) (fun _ => rfl), ← List.map_append]
      simp
    · rename_i h
      rw [ih (i + 1) (ys ++ [z]) (by omega) (fun h0 => by subst h0; exact absurd (Or.inr (by simp only [List.length_nil] at hi; omega)) h)]
      simp

/-- **C59**, the text variant: after the header, between two asterisks at the end of lines, the file lists the heights of all points, row by row,
each exactly once, in the order of the points: the word `BAD` stands for a point that was not measured. (The file cannot be read back all the same,
because of its header: `C59_ascii_unreadable`.) -/
theorem C59_ascii_heights (P : Printer K) (hP : ∀ x, Word (P.fixed x)) (log : K → Int) (created modified : List Char)
    (s : Raw K) (b : Bytes) (hw : writeAscii P log created modified s = .ok b) :
    ∃ (head D tail : List Char) (m : Option K), maxAbs s.data = .ok m ∧
      b = (head ++ "*\n".toList ++ D ++ "*\n".toList ++ tail).map (fun c => UInt8.ofNat c.toNat) ∧
      words [] D = (Container.flat s.data).map fun z =>
        match z, scaleFactor log m with
        | some x, some f => P.fixed (x * f)
        | _, _ => "BAD".toList := by
  unfold writeAscii at hw
  cases hm : maxAbs s.data with
  | error e => rw [hm] at hw; cases hw
  | ok m =>
    rw [hm] at hw
    dsimp only at hw
    unfold asciiBytes at hw
    split at hw
    swap
    · cases hw
    · cases hw
      have hd := words_dataLines P hP (Container.flat s.data).length ((Container.flat s.data).map (scaleHeight (scaleFactor log m))) 0 []
        (by rw [List.length_map, Nat.zero_add]) (fun _ => rfl)
      rw [List.map_nil] at hd
      refine ⟨magicAscii ++ ['\n'] ++ ((asciiFields P created modified (scaleFactor log m) s).flatMap fun kv =>
        kv.1.toList ++ " = ".toList ++ kv.2 ++ crlfText), _, "<ExportedBy>Surfalize</ExportedBy>".toList ++ ['\n', '*', '\n'], m, rfl, ?_, hd.trans ?_⟩
      · exact congrArg _ (List.append_assoc _ _ _)
      · rw [List.nil_append, List.map_map]
        refine List.map_congr_left fun z _ => ?_
        cases z <;> cases scaleFactor log m <;> rfl

/-- The words of a data section with a missing point. -/
example (P : Printer ℚ) (hP : ∀ x, Word (P.fixed x)) :
    words [] (dataLines P 3 0 [] [some 1, none, some 2]) = [P.fixed 1, "BAD".toList, P.fixed 2] :=
  words_dataLines P hP 3 [some 1, none, some 2] 0 [] rfl (fun _ => rfl)

private theorem fields_plain {P : Printer K} (created modified : List Char) (scale : Option K) (s : Raw K) : ∃ z,
    asciiFields P created modified scale s =
      [("ManufacID", "surfalize ".toList), ("CreateDate", created), ("ModDate", modified),
        ("NumPoints", natText s.data.nx), ("NumProfiles", natText s.data.ny),
        ("Xscale", P.plain (.fin (s.stepX * (10 ^ 6)⁻¹))), ("Yscale", P.plain (.fin (s.stepY * (10 ^ 6)⁻¹))),
        ("Zscale", z), ("Zresolution", "-1".toList), ("Compression", "0".toList), ("DataType", "7".toList),
        ("CheckType", "0".toList)] :=
  ⟨_, by
    unfold asciiFields
    rw [show ljust 10 "surfalize".toList = "surfalize ".toList from by decide +kernel]⟩

/-- **C59**, the text variant: the header, line by line. It states the number of points and of profiles of the surface and its
steps in metres (the steps of a surface are in micrometres: one millionth). Every entry ends in the four characters `b'\n'`
instead of in the end of a line: this is why the file cannot be read back (`C59_ascii_unreadable`). -/
theorem C59_ascii_header (P : Printer K) (log : K → Int) (created modified : List Char) (s : Raw K) (b : Bytes)
    (hw : writeAscii P log created modified s = .ok b) :
    ∃ (zscale rest : List Char),
      b = (("aISO-1.0".toList ++ ['\n']) ++
        ([("ManufacID", "surfalize ".toList), ("CreateDate", created), ("ModDate", modified),
          ("NumPoints", natText s.data.nx), ("NumProfiles", natText s.data.ny),
          ("Xscale", P.plain (.fin (s.stepX / 1000000))), ("Yscale", P.plain (.fin (s.stepY / 1000000))),
          ("Zscale", zscale), ("Zresolution", "-1".toList), ("Compression", "0".toList), ("DataType", "7".toList),
          ("CheckType", "0".toList)].flatMap fun kv : String × List Char =>
            kv.1.toList ++ " = ".toList ++ kv.2 ++ "b'\\n'".toList) ++ ['*', '\n'] ++ rest).map (fun c => UInt8.ofNat c.toNat) := by
  unfold writeAscii at hw
  cases hm : maxAbs s.data with
  | error e => rw [hm] at hw; cases hw
  | ok m =>
    rw [hm] at hw
    dsimp only at hw
    unfold asciiBytes at hw
    split at hw
    swap
    · cases hw
    · cases hw
      have e (x : K) : x * (10 ^ 6)⁻¹ = x / 1000000 := by
        rw [div_eq_mul_inv]
        norm_num
      have ef := fields_plain (P := P) created modified (scaleFactor log m) s
      obtain ⟨z, hz⟩ := ef
      refine ⟨z, dataLines P (Container.flat s.data).length 0 [] ((Container.flat s.data).map (scaleHeight (scaleFactor log m))) ++
        ['*', '\n'] ++ "<ExportedBy>Surfalize</ExportedBy>".toList ++ ['\n', '*', '\n'], ?_⟩
      rw [hz, e, e]
      refine congrArg _ ?_
      simp only [List.append_assoc]
      rfl

end Text

section Table
open Files FilesSpec
variable {R S : Type}

private theorem readme_known {e : String × Format × Bool} (he : e ∈ readme ++ undocumented) :
    e.1.toList ∈ e.2.1.suffixes ∧ (e.2.2 = true ↔ e.2.1 ∈ Format.writable) := by
  have : ∀ e ∈ readme ++ undocumented, e.1.toList ∈ e.2.1.suffixes ∧ (e.2.2 = true ↔ e.2.1 ∈ Format.writable) := by decide +kernel
  exact this e he

/-- **C63**, as documented: a file whose suffix stands in the table of the README, in capitals or not, is given to the reader of that format: what it
reads is the result. A suffix that is neither there nor one of `.sflz`, `.fit` and `.fts` has no reader. -/
theorem C63_documented (run : Format → ReadFn R) (suffix : List Char) :
    (∀ e ∈ readme ++ undocumented, suffix.map Char.toLower = e.1.toList → ∀ b x, Reads run e.2.1 b x →
      load (package run) (.path suffix b) none = (.ok x, .path suffix b)) ∧
      ((∀ e ∈ readme ++ undocumented, suffix.map Char.toLower ≠ e.1.toList) → ∀ b f, ¬ Asked (.path suffix b) none f) := by
  constructor
  · intro e he hs b x hr
    refine C63_asked run (f := e.2.1) (Or.inr ⟨rfl, suffix, b, rfl, ?_⟩) hr
    rw [hs]; exact (readme_known he).1
  · rintro h b f (⟨s, hs, -⟩ | ⟨-, s, b', hs, hf⟩)
    · cases hs
    · cases hs
      have : ∀ f ∈ Format.all, ∀ t ∈ f.suffixes, ∃ e ∈ readme ++ undocumented, t = e.1.toList := by decide +kernel
      obtain ⟨e, he, h'⟩ := this f (all_mem f) _ hf
      exact h e he h'

/-- A surface can be saved under exactly the suffixes the table of the README says, and `.sflz`. -/
theorem C63_documented_writing (run : Format → WriteFn S) (e : String × Format × Bool) (he : e ∈ readme ++ undocumented) (old : Bytes)
    (format : Option (List Char)) (s : S) :
    (e.2.2 = true → save (packageWriters run) (.path e.1.toList old) format s =
      ((run e.2.1 s).2, .path e.1.toList (run e.2.1 s).1)) ∧
    (e.2.2 = false → save (packageWriters run) (.path e.1.toList old) format s = (.error .unsupported, .path e.1.toList old)) := by
  obtain ⟨h1, h2⟩ := readme_known he
  refine ⟨fun h => C63_save_path run (h2.1 h) h1 old format s, fun h => ?_⟩
  have hno : e.1.toList ∉ (packageWriters run).map Prod.fst := by
    have e1 : (packageWriters run).map Prod.fst = Format.writable.flatMap Format.suffixes := by
      unfold packageWriters
      rw [List.map_flatMap]
      congr 1; funext f
      rw [List.map_map]; exact List.map_id'' (fun _ => rfl) _
    rw [e1]
    have : ∀ e ∈ readme ++ undocumented, e.2.2 = false → e.1.toList ∉ Format.writable.flatMap Format.suffixes := by decide +kernel
    exact this e he h
  have hne : e.1.toList ≠ [] := by
    intro h0; rw [h0] at h1; revert h1; cases e.2.1 <;> decide
  have hl : (packageWriters run).lookup e.1.toList = none := by
    rw [List.lookup_eq_none_iff]
    intro p hp
    simp only [bne_iff_ne, ne_eq]
    intro h'
    exact hno (h' ▸ List.mem_map_of_mem hp)
  unfold save
  dsimp only [target]
  rw [if_neg hne, hl]

example : (".VK6".toList).map Char.toLower = (".vk6", Format.vk67, false).1.toList := by decide
example : (".vk6", Format.vk67, false) ∈ readme ++ undocumented := by decide

end Table
end Props
end Surfalize
