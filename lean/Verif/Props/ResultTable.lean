import Verif.Model.ResultTable
import Verif.Lemmas.MapM
import Verif.Lemmas.Batch
import Verif.Props.Filename

/-!
# C103: parameters in file names as columns of the result table, and the result object
-/
set_option linter.unusedSectionVars false
namespace Surfalize.Props
open Surfalize.Batch Surfalize.Filename Surfalize.FilenameSpec Surfalize.ResultTable

variable {X : Type}

/-- A table as pandas makes it: different column names, one of them 'file', and rows as long as there are columns. -/
def TableOk (t : Table X) : Prop :=
  t.cols.Nodup ∧ "file" ∈ t.cols ∧ ∀ r ∈ t.rows, r.length = t.cols.length

/-- All cells of the column 'file' are texts. -/
def FilesAreTexts (t : Table X) : Prop := ∀ r ∈ t.rows, ∃ s, t.cell r "file" = .text s

/-! ## Lemmas -/

theorem lookup_zip_map {α : Type} (f : String → α) : ∀ (cols : List String) (c : String), c ∈ cols →
    (cols.zip (cols.map f)).lookup c = some (f c)
  | [], c, h => by cases h
  | d :: cols, c, h => by
    rw [List.map_cons, List.zip_cons_cons, List.lookup_cons]
    by_cases hd : c = d
    · subst hd; simp
    · have : (c == d) = false := by simpa using hd
      rw [this]
      exact lookup_zip_map f cols c (by rcases List.mem_cons.1 h with h | h; exact absurd h hd; exact h)

theorem lookup_zip_none {α : Type} : ∀ (cols : List String) (l : List α) (c : String), c ∉ cols →
    (cols.zip l).lookup c = none
  | [], _, _, _ => rfl
  | _ :: _, [], _, _ => rfl
  | d :: cols, a :: l, c, h => by
    rw [List.mem_cons, not_or] at h
    rw [List.zip_cons_cons, List.lookup_cons, show (c == d) = false by simpa using h.1]
    exact lookup_zip_none cols l c h.2

theorem lookup_zip_get {α : Type} : ∀ (cols : List String) (l : List α) (k : Nat) (c : String) (v : α), cols.Nodup →
    cols[k]? = some c → l[k]? = some v → (cols.zip l).lookup c = some v
  | [], _, _, _, _, _, h, _ => by simp at h
  | _ :: _, [], _, _, _, _, _, h => by simp at h
  | d :: cols, a :: l, 0, c, v, _, h1, h2 => by
    simp only [List.getElem?_cons_zero, Option.some.injEq] at h1 h2
    subst h1; subst h2
    simp [List.zip_cons_cons]
  | d :: cols, a :: l, k + 1, c, v, hn, h1, h2 => by
    rw [List.getElem?_cons_succ] at h1 h2
    have hc : c ∈ cols := List.mem_of_getElem? h1
    have hne : c ≠ d := by rintro rfl; exact (List.nodup_cons.1 hn).1 hc
    rw [List.zip_cons_cons, List.lookup_cons, show (c == d) = false by simpa using hne]
    exact lookup_zip_get cols l k c v (List.nodup_cons.1 hn).2 h1 h2

theorem map_lookup_zip {α : Type} (g : α → α) (d : α) : ∀ (cols : List String) (l : List α), cols.Nodup → l.length = cols.length →
    cols.map (fun c => ((cols.zip l).lookup c).getD d) = l
  | [], [], _, _ => rfl
  | [], _ :: _, _, h => by simp at h
  | _ :: _, [], _, h => by simp at h
  | c :: cols, a :: l, hn, h => by
    have h' : l.length = cols.length := by simpa using h
    rw [List.map_cons]
    congr 1
    · simp [List.zip_cons_cons]
    · conv_rhs => rw [← map_lookup_zip g d cols l (List.nodup_cons.1 hn).2 h']
      apply List.map_congr_left
      intro x hx
      have hne : x ≠ c := by rintro rfl; exact (List.nodup_cons.1 hn).1 hx
      rw [List.zip_cons_cons, List.lookup_cons, show (x == c) = false by simpa using hne]

/-- The values of a row. -/
def rowValues (p : Template) (t : Table X) (r : List (Cell X)) : List Val :=
  match extractRow p.items (textOf (t.cell r "file")) with
  | .ok vs => vs
  | .error _ => []

/-- The new row. -/
def newRow (num : Rat → X) (p : Template) (t : Table X) (r : List (Cell X)) : List (Cell X) :=
  (insertColumns t.cols "file" p.names).map (newCell num t p.names r (rowValues p t r))

theorem applyTemplate_ok_iff (num : Rat → X) (p : Template) (t t' : Table X) :
    applyTemplate num p t = .ok t' ↔ "file" ∈ t.cols ∧ ¬ (t.rows ≠ [] ∧ ∀ r ∈ t.rows, textOf (t.cell r "file") = none) ∧
      p.names ≠ [] ∧ p.names.Nodup ∧ (∀ r ∈ t.rows, ∃ vs, extractRow p.items (textOf (t.cell r "file")) = .ok vs) ∧
      t' = ⟨insertColumns t.cols "file" p.names, t.rows.map (newRow num p t)⟩ := by
  unfold applyTemplate
  by_cases h1 : "file" ∈ t.cols
  · rw [if_neg (by simpa using h1)]
    by_cases h2 : t.rows ≠ [] ∧ ∀ r ∈ t.rows, textOf (t.cell r "file") = none
    · rw [if_pos h2]
      constructor
      · intro h; cases h
      · rintro ⟨-, h, -⟩; exact absurd h2 h
    · rw [if_neg h2]
      by_cases h3 : p.names = []
      · rw [if_pos h3]
        constructor
        · intro h; cases h
        · rintro ⟨-, -, h, -⟩; exact absurd h3 h
      · rw [if_neg h3]
        by_cases h4 : p.names.Nodup
        · rw [if_neg (by simpa using h4)]
          by_cases h5 : ∀ r ∈ t.rows, ∃ vs, extractRow p.items (textOf (t.cell r "file")) = .ok vs
          · have e : t.rows.mapM (fun r => extractRow p.items (textOf (t.cell r "file"))) = .ok (t.rows.map (rowValues p t)) :=
              mapM_ok_of fun r hr => by
                obtain ⟨vs, hvs⟩ := h5 r hr
                unfold rowValues
                rw [hvs]
            rw [e]
            have e2 : List.zipWith (fun r vs => (insertColumns t.cols "file" p.names).map (newCell num t p.names r vs)) t.rows
                (t.rows.map (rowValues p t)) = t.rows.map (newRow num p t) := by
              rw [List.zipWith_map_right]
              exact List.zipWith_self ..
            dsimp only
            rw [e2]
            constructor
            · intro h
              exact ⟨h1, h2, h3, h4, h5, by injection h with h; exact h.symm⟩
            · rintro ⟨-, -, -, -, -, h⟩
              rw [h]
          · constructor
            · intro h
              exfalso
              apply h5
              intro r hr
              by_contra hc
              obtain ⟨e, he⟩ := Surfalize.BatchLemmas.mapM_error_of_mem (f := fun r => extractRow p.items (textOf (t.cell r "file"))) (l := t.rows)
                ⟨r, hr, by
                  cases hx : extractRow p.items (textOf (t.cell r "file")) with
                  | error e => exact ⟨e, rfl⟩
                  | ok vs => exact absurd ⟨vs, hx⟩ hc⟩
              rw [he] at h
              cases h
            · rintro ⟨-, -, -, -, h, -⟩; exact absurd h h5
        · rw [if_pos (by simpa using h4)]
          constructor
          · intro h; cases h
          · rintro ⟨-, -, -, h, -⟩; exact absurd h h4
  · rw [if_pos (by simpa using h1)]
    constructor
    · intro h; cases h
    · rintro ⟨h, -⟩; exact absurd h h1

/-- The general form of `C53_columns`: names that the table already has stay where they are. -/
theorem insertColumns_spec (before after new : List String) (column : String) (hb : column ∉ before) (hnew : new.Nodup) :
    insertColumns (before ++ column :: after) column new =
      before ++ column :: (new.filter (fun c => decide (c ∉ before ++ column :: after)) ++ after) := by
  have hidx : (before ++ column :: after).idxOf column + 1 = before.length + 1 := by
    rw [List.idxOf_append_of_notMem hb]; simp
  have gen : ∀ (l acc : List String), (l.reverse ++ acc).Nodup →
      l.foldl (fun cs c => if c ∈ cs then cs else cs.take (before.length + 1) ++ c :: cs.drop (before.length + 1))
        (before ++ column :: (acc ++ after)) = before ++ column :: ((l.filter (fun c => decide (c ∉ before ++ column :: after))).reverse ++ acc ++ after) := by
    intro l
    induction l with
    | nil => intro acc _; rfl
    | cons c l ih =>
      intro acc hnd
      have h2 : c ∉ acc := by
        intro hm
        rw [List.reverse_cons, List.append_assoc, List.nodup_append] at hnd
        have := hnd.2.1
        simp at this
        exact this.1 hm
      rw [List.foldl_cons]
      by_cases hc : c ∈ before ++ column :: after
      · rw [if_pos (by simp only [List.mem_append, List.mem_cons] at hc ⊢; tauto), List.filter_cons_of_neg (by simp only [decide_eq_true_eq, not_not]; exact hc)]
        refine ih acc ?_
        rw [List.reverse_cons, List.append_assoc] at hnd
        rw [List.nodup_append] at hnd ⊢
        refine ⟨hnd.1, (List.nodup_append.1 hnd.2.1).2.1, fun a ha b hb' => hnd.2.2 a ha b (by simp [hb'])⟩
      · rw [if_neg (by simp only [List.mem_append, List.mem_cons] at hc ⊢; tauto), List.filter_cons_of_pos (by simpa using hc)]
        have e1 : (before ++ column :: (acc ++ after)).take (before.length + 1) = before ++ [column] := by
          rw [List.take_append, List.take_of_length_le (by omega)]; simp
        have e2 : (before ++ column :: (acc ++ after)).drop (before.length + 1) = acc ++ after := by
          rw [List.drop_append, List.drop_of_length_le (by omega)]; simp
        have e3 : (before ++ [column]) ++ c :: (acc ++ after) = before ++ column :: ((c :: acc) ++ after) := by simp
        rw [e1, e2, e3, ih (c :: acc) (by simpa using hnd)]
        simp
  have := gen new.reverse [] (by simpa using hnew)
  unfold insertColumns
  simp only [hidx]
  simpa using this

theorem split_at {cols : List String} (h : "file" ∈ cols) : ∃ before after, cols = before ++ "file" :: after ∧ "file" ∉ before := by
  obtain ⟨a, b, e, hn⟩ := List.eq_append_cons_of_mem h
  exact ⟨a, b, e, hn⟩

theorem mem_insertColumns {cols new : List String} (hf : "file" ∈ cols) (hn : new.Nodup) (c : String) :
    c ∈ insertColumns cols "file" new ↔ c ∈ cols ∨ c ∈ new := by
  obtain ⟨a, b, rfl, ha⟩ := split_at hf
  rw [insertColumns_spec a b new "file" ha hn]
  simp only [List.mem_append, List.mem_cons, List.mem_filter, decide_eq_true_eq]
  tauto

theorem nodup_insertColumns {cols new : List String} (hf : "file" ∈ cols) (hc : cols.Nodup) (hn : new.Nodup) :
    (insertColumns cols "file" new).Nodup := by
  obtain ⟨a, b, rfl, ha⟩ := split_at hf
  rw [insertColumns_spec a b new "file" ha hn]
  rw [List.nodup_append] at hc ⊢
  obtain ⟨h1, h2, h3⟩ := hc
  rw [List.nodup_cons] at h2
  refine ⟨h1, ?_, ?_⟩
  · rw [List.nodup_cons, List.nodup_append]
    refine ⟨?_, hn.filter _, h2.2, ?_⟩
    · simp only [List.mem_append, List.mem_filter, decide_eq_true_eq, not_or]
      exact ⟨fun h => h.2.2 (by simp), h2.1⟩
    · rintro x hx y hy rfl
      rw [List.mem_filter] at hx
      have := hx.2
      rw [decide_eq_true_eq] at this
      exact this (by simp [hy])
  · rintro x hx y hy rfl
    rcases List.mem_cons.1 hy with rfl | hy
    · exact ha hx
    · rcases List.mem_append.1 hy with hy | hy
      · rw [List.mem_filter] at hy
        have := hy.2
        rw [decide_eq_true_eq] at this
        exact this (by simp [hx])
      · exact h3 x hx x (by simp [hy]) rfl

theorem cell_newRow (num : Rat → X) (p : Template) (t : Table X) (r : List (Cell X)) (hf : "file" ∈ t.cols)
    (hn : p.names.Nodup) (rows : List (List (Cell X))) (c : String) :
    Table.cell ⟨insertColumns t.cols "file" p.names, rows⟩ (newRow num p t r) c = newCell num t p.names r (rowValues p t r) c := by
  unfold Table.cell newRow
  by_cases hc : c ∈ insertColumns t.cols "file" p.names
  · rw [lookup_zip_map _ _ _ hc]
    rfl
  · rw [lookup_zip_none _ _ _ hc]
    rw [mem_insertColumns hf hn, not_or] at hc
    unfold newCell Table.cell
    rw [lookup_zip_none _ _ _ hc.2]
    dsimp only
    rw [lookup_zip_none _ _ _ hc.1]

/-! ## C103: the table -/

/-- **C103** (shape). Extraction neither adds, drops nor reorders rows. The columns of the template go right behind 'file' in
the order of the template; a column that exists already stays where it is; all others keep their places. -/
theorem C103_shape (num : Rat → X) (p : Template) (t t' : Table X) (h : applyTemplate num p t = .ok t') (ht : TableOk t) :
    TableOk t' ∧ t'.rows.length = t.rows.length ∧
      ∀ before after, t.cols = before ++ "file" :: after → t'.cols =
        before ++ "file" :: (p.names.filter (fun c => decide (c ∉ t.cols)) ++ after) := by
  obtain ⟨h1, -, -, h4, -, rfl⟩ := (applyTemplate_ok_iff num p t t').1 h
  refine ⟨⟨nodup_insertColumns h1 ht.1 h4, by rw [mem_insertColumns h1 h4]; exact .inl h1, ?_⟩, by simp, ?_⟩
  · intro r hr
    obtain ⟨r0, -, rfl⟩ := List.mem_map.1 hr
    unfold newRow
    rw [List.length_map]
  · intro a b e
    have hd := ht.1
    rw [e] at hd ⊢
    refine insertColumns_spec a b p.names "file" ?_ h4
    rw [List.nodup_append] at hd
    exact fun hm => hd.2.2 _ hm _ (by simp) rfl

/-- **C103** (other columns). Every column that the template does not name keeps its values, row by row. -/
theorem C103_kept (num : Rat → X) (p : Template) (t t' : Table X) (h : applyTemplate num p t = .ok t') (i : Nat)
    (r r' : List (Cell X)) (hr : t.rows[i]? = some r) (hr' : t'.rows[i]? = some r') (c : String) (hc : c ∉ p.names) :
    t'.cell r' c = t.cell r c := by
  obtain ⟨h1, -, -, h4, -, rfl⟩ := (applyTemplate_ok_iff num p t t').1 h
  simp only [List.getElem?_map, hr, Option.map_some, Option.some.injEq] at hr'
  subst hr'
  rw [cell_newRow num p t r h1 h4]
  unfold newCell
  rw [lookup_zip_none _ _ _ hc]

/-- **C103** (values). The value of a field in a row is what the file name of that row has for it. -/
theorem C103_cells (num : Rat → X) (p : Template) (t t' : Table X) (h : applyTemplate num p t = .ok t') (i : Nat)
    (r r' : List (Cell X)) (hr : t.rows[i]? = some r) (hr' : t'.rows[i]? = some r') (file : String)
    (hf : t.cell r "file" = .text file) :
    ∃ vs, extractOne p.items file.toList = .ok vs ∧ ∀ (k : Nat) (name : String) (v : Val), p.names[k]? = some name →
      vs[k]? = some v → t'.cell r' name = cellOfVal num v := by
  obtain ⟨h1, -, -, h4, h5, rfl⟩ := (applyTemplate_ok_iff num p t t').1 h
  simp only [List.getElem?_map, hr, Option.map_some, Option.some.injEq] at hr'
  subst hr'
  obtain ⟨vs, hvs⟩ := h5 r (List.mem_of_getElem? hr)
  have hvs' : extractOne p.items file.toList = .ok vs := by
    rw [hf] at hvs
    exact hvs
  refine ⟨vs, hvs', ?_⟩
  intro k name v hk hv
  rw [cell_newRow num p t r h1 h4]
  have e : rowValues p t r = vs := by unfold rowValues; rw [hvs]
  unfold newCell
  rw [e, lookup_zip_get _ _ k name v h4 hk hv]

/-- **C103** (rows without a file name). A row whose 'file' is not a text (missing, or a number that the user put there) has
nothing in the fields: NaN for floats, the text "nan" for texts; an integer field makes the extraction fail. -/
theorem C103_not_a_text (num : Rat → X) (p : Template) (t t' : Table X) (h : applyTemplate num p t = .ok t') (i : Nat)
    (r r' : List (Cell X)) (hr : t.rows[i]? = some r) (hr' : t'.rows[i]? = some r')
    (hf : ∀ s, t.cell r "file" ≠ .text s) (k : Nat) (name : String) (ty : Ty) (hk : p.names[k]? = some name)
    (hty : (fieldTypes p.items)[k]? = some ty) :
    (ty = .float ∧ t'.cell r' name = .nan) ∨ (ty = .str ∧ t'.cell r' name = .text "nan") := by
  obtain ⟨h1, -, -, h4, h5, rfl⟩ := (applyTemplate_ok_iff num p t t').1 h
  simp only [List.getElem?_map, hr, Option.map_some, Option.some.injEq] at hr'
  subst hr'
  obtain ⟨vs, hvs⟩ := h5 r (List.mem_of_getElem? hr)
  have hnone : textOf (t.cell r "file") = none := by
    cases hc : t.cell r "file" with
    | text s => exact absurd hc (hf s)
    | _ => rfl
  have e : rowValues p t r = vs := by unfold rowValues; rw [hvs]
  rw [hnone] at hvs
  have hvs' : (fieldTypes p.items).mapM (fun t => convert t none) = .ok vs := hvs
  obtain ⟨v, hv, hcv⟩ := mapM_get hvs' hty
  rw [cell_newRow num p t r h1 h4]
  unfold newCell
  rw [e, lookup_zip_get _ _ k name v h4 hk hv]
  cases ty with
  | int => cases hcv
  | float =>
    injection hcv with hcv
    subst hcv
    exact .inl ⟨rfl, rfl⟩
  | str =>
    injection hcv with hcv
    subst hcv
    exact .inr ⟨rfl, rfl⟩

/-- **C103** (reading back). A file named by the template gets the values it was named with, whatever the other files are
called. -/
theorem C103_values (num : Rat → X) (p : Template) (t t' : Table X) (h : applyTemplate num p t = .ok t') (i : Nat)
    (r r' : List (Cell X)) (hr : t.rows[i]? = some r) (hr' : t'.rows[i]? = some r') (file : String)
    (hf : t.cell r "file" = .text file) (delim : Char) (vs : List (List Char)) (rest : List Char)
    (hfile : file.toList = fill p.items vs ++ rest) (hv : List.Forall₂ Valid (fieldTypes p.items) vs) (hd : ∀ v ∈ vs, delim ∉ v)
    (hrest : delim ∉ rest) (hread : Readable delim p.items vs rest) (k : Nat) (name : String) (ty : Ty) (v : List Char)
    (hk : p.names[k]? = some name) (hty : (fieldTypes p.items)[k]? = some ty) (hvk : vs[k]? = some v) :
    t'.cell r' name = cellOfVal num (valueOf ty v) := by
  obtain ⟨ws, hws, hc⟩ := C103_cells num p t t' h i r r' hr hr' file hf
  have e := C53_roundtrip_values delim p.items vs rest hv hd hrest hread
  rw [← hfile, hws] at e
  injection e with e
  refine hc k name _ hk ?_
  rw [e, List.getElem?_zipWith, hty, hvk]

/-- **C103** (row by row). Extraction acts on each row alone: there is one function of rows such that extracting from any
selection of the rows, in any order, gives the values of that function. -/
theorem C103_rowwise (num : Rat → X) (p : Template) (t t' : Table X) (h : applyTemplate num p t = .ok t')
    (ht : FilesAreTexts t) :
    ∃ F : List (Cell X) → List (Cell X), t'.rows = t.rows.map F ∧ ∀ rows : List (List (Cell X)), (∀ r ∈ rows, r ∈ t.rows) →
      applyTemplate num p { t with rows := rows } = .ok { t' with rows := rows.map F } := by
  obtain ⟨h1, h2, h3, h4, h5, rfl⟩ := (applyTemplate_ok_iff num p t t').1 h
  refine ⟨newRow num p t, rfl, ?_⟩
  intro rows hrows
  rw [applyTemplate_ok_iff]
  refine ⟨h1, ?_, h3, h4, fun r hr => h5 r (hrows r hr), rfl⟩
  rintro ⟨hne, hall⟩
  obtain ⟨r, l, rfl⟩ := List.exists_cons_of_ne_nil hne
  obtain ⟨s, hs⟩ := ht r (hrows r (by simp))
  have := hall r (by simp)
  rw [show Table.cell (X := X) { t with rows := r :: l } r "file" = t.cell r "file" from rfl, hs] at this
  cases this

theorem newRow_again (num : Rat → X) (p : Template) (t T : Table X) (r R : List (Cell X))
    (hcols : insertColumns T.cols "file" p.names = T.cols) (ev : rowValues p T R = rowValues p t r)
    (hcell : ∀ c, T.cell R c = newCell num t p.names r (rowValues p t r) c) :
    newRow num p T R = T.cols.map (newCell num t p.names r (rowValues p t r)) := by
  unfold newRow
  rw [hcols, ev]
  apply List.map_congr_left
  intro c _
  unfold newCell
  rw [hcell]
  unfold newCell
  cases (p.names.zip (rowValues p t r)).lookup c <;> rfl

/-- **C103** (twice). Extracting with the same template again changes nothing. -/
theorem C103_twice (num : Rat → X) (p : Template) (t t' : Table X) (h : applyTemplate num p t = .ok t') (ht : TableOk t)
    (hfile : "file" ∉ p.names) : applyTemplate num p t' = .ok t' := by
  have hshape := C103_shape num p t t' h ht
  have hkept := C103_kept num p t t' h
  obtain ⟨h1, h2, h3, h4, h5, rfl⟩ := (applyTemplate_ok_iff num p t t').1 h
  have hcell : ∀ r, Table.cell (⟨insertColumns t.cols "file" p.names, t.rows.map (newRow num p t)⟩ : Table X)
      (newRow num p t r) "file" = t.cell r "file" := by
    intro r
    rw [cell_newRow num p t r h1 h4]
    unfold newCell
    rw [lookup_zip_none _ _ _ hfile]
  have hcols : insertColumns (insertColumns t.cols "file" p.names) "file" p.names = insertColumns t.cols "file" p.names := by
    obtain ⟨a, b, e, ha⟩ := split_at hshape.1.2.1
    dsimp only at e
    rw [e, insertColumns_spec a b p.names "file" ha h4, ← e]
    have : p.names.filter (fun c => decide (c ∉ insertColumns t.cols "file" p.names)) = [] := by
      rw [List.filter_eq_nil_iff]
      intro c hc
      rw [decide_eq_true_eq, not_not, mem_insertColumns h1 h4]
      exact .inr hc
    rw [this]
    exact e.symm
  rw [applyTemplate_ok_iff]
  refine ⟨hshape.1.2.1, ?_, h3, h4, ?_, ?_⟩
  · rintro ⟨hne, hall⟩
    apply h2
    refine ⟨by rintro hn; rw [hn] at hne; exact hne rfl, ?_⟩
    intro r hr
    have := hall (newRow num p t r) (List.mem_map_of_mem hr)
    rwa [hcell] at this
  · intro r' hr'
    obtain ⟨r, hr, rfl⟩ := List.mem_map.1 hr'
    rw [hcell]
    exact h5 r hr
  · rw [Table.mk.injEq]
    refine ⟨hcols.symm, ?_⟩
    rw [List.map_map]
    apply List.map_congr_left
    intro r hr
    rw [Function.comp_apply]
    refine (newRow_again num p t _ r _ hcols ?_ fun c => cell_newRow num p t r h1 h4 _ c).symm
    unfold rowValues
    rw [hcell]

/-- **C103** (two templates). Two templates with different names may be applied in either order: the values and the set of
columns are the same. -/
theorem C103_commute (num : Rat → X) (p q : Template) (t tp tq tpq tqp : Table X) (hp : applyTemplate num p t = .ok tp)
    (hq : applyTemplate num q t = .ok tq) (hpq : applyTemplate num q tp = .ok tpq) (hqp : applyTemplate num p tq = .ok tqp)
    (hd : ∀ c ∈ p.names, c ∉ q.names) (hfp : "file" ∉ p.names) (hfq : "file" ∉ q.names) :
    (∀ c, c ∈ tpq.cols ↔ c ∈ tqp.cols) ∧ tpq.rows.length = tqp.rows.length ∧
      ∀ (i : Nat) (r r' : List (Cell X)), tpq.rows[i]? = some r → tqp.rows[i]? = some r' → ∀ c, tpq.cell r c = tqp.cell r' c := by
  obtain ⟨a1, -, -, a4, -, rfl⟩ := (applyTemplate_ok_iff num p t tp).1 hp
  obtain ⟨b1, -, -, b4, -, rfl⟩ := (applyTemplate_ok_iff num q t tq).1 hq
  obtain ⟨c1, -, -, -, -, rfl⟩ := (applyTemplate_ok_iff num q _ tpq).1 hpq
  obtain ⟨d1, -, -, -, -, rfl⟩ := (applyTemplate_ok_iff num p _ tqp).1 hqp
  refine ⟨?_, by simp, ?_⟩
  · intro c
    dsimp only
    rw [mem_insertColumns c1 b4, mem_insertColumns d1 a4, mem_insertColumns a1 a4, mem_insertColumns b1 b4]
    tauto
  · intro i r r' hr hr' c
    simp only [List.getElem?_map, Option.map_map] at hr hr'
    cases ht0 : t.rows[i]? with
    | none => rw [ht0] at hr; cases hr
    | some r0 =>
      rw [ht0] at hr hr'
      simp only [Option.map_some, Option.some.injEq, Function.comp_apply] at hr hr'
      subst hr; subst hr'
      rw [cell_newRow _ _ _ _ c1 b4, cell_newRow _ _ _ _ d1 a4]
      have key : ∀ (u v : Template), u.names.Nodup → "file" ∈ t.cols → "file" ∉ u.names →
          rowValues v (⟨insertColumns t.cols "file" u.names, t.rows.map (newRow num u t)⟩ : Table X) (newRow num u t r0) =
            rowValues v t r0 := by
        intro u v hu hf hn
        unfold rowValues
        rw [cell_newRow num u t r0 hf hu]
        unfold newCell
        rw [lookup_zip_none _ _ _ hn]
      unfold newCell
      rw [key p q a4 a1 hfp, key q p b4 a1 hfq, cell_newRow _ _ _ _ a1 a4, cell_newRow _ _ _ _ a1 b4]
      unfold newCell
      by_cases hc : c ∈ p.names
      · rw [lookup_zip_none _ _ _ (hd c hc)]
      · rw [lookup_zip_none _ _ _ hc]

/-- **C103** (before or after). Setting the template on the batch before executing it is the same as extracting from the
result: same table, or the same exception. -/
theorem C103_deferred [DecidableEq X] {D A : Type} (num : Rat → X) (pattern : List Char) (steps : List (Step D X A))
    (additional : Option (Table X)) (results : Except Err (List (Row X))) :
    executeWith num (some pattern) steps additional results =
      (executeWith num none steps additional results).bind (applyOn num pattern) := by
  unfold executeWith constructDataframe
  split
  · rfl
  · cases results with
    | error e => rfl
    | ok rs =>
      dsimp only
      cases constructTable additional rs <;> rfl

/-- **C103** (when it fails). On a table of file names, a template with fields of different names fails exactly if it has a field
of type int and some file name does not fit: then no file gets any value. -/
theorem C103_fails_iff (num : Rat → X) (p : Template) (t : Table X) (ht : TableOk t) (hx : FilesAreTexts t)
    (hn : p.names.Nodup) (hne : p.names ≠ []) :
    (∃ e, applyTemplate num p t = .error e) ↔
      Ty.int ∈ fieldTypes p.items ∧ ∃ r ∈ t.rows, ∃ file, t.cell r "file" = .text file ∧ search p.items file.toList = none := by
  have conv : ∀ (ts : List Ty), Ty.int ∉ ts → ∃ vs, ts.mapM (fun ty => convert ty none) = .ok vs := by
    intro ts h
    apply mapM_exists
    intro a ha
    cases a with
    | int => exact absurd ha h
    | float => exact ⟨_, rfl⟩
    | str => exact ⟨_, rfl⟩
  have convs : ∀ (l : List (Ty × List Char)), ∃ vs, l.mapM (fun tc => convert tc.1 (some tc.2)) = .ok vs := by
    intro l
    apply mapM_exists
    rintro ⟨a, s⟩ -
    cases a <;> exact ⟨_, rfl⟩
  constructor
  · rintro ⟨e, he⟩
    by_contra hc
    rw [not_and_or] at hc
    have : ∃ t', applyTemplate num p t = .ok t' := by
      refine ⟨_, (applyTemplate_ok_iff num p t _).2 ⟨ht.2.1, ?_, hne, hn, ?_, rfl⟩⟩
      · rintro ⟨h1, h2⟩
        obtain ⟨r, l, e⟩ := List.exists_cons_of_ne_nil h1
        obtain ⟨s, hs⟩ := hx r (by rw [e]; simp)
        have := h2 r (by rw [e]; simp)
        rw [hs] at this
        cases this
      · intro r hr
        obtain ⟨s, hs⟩ := hx r hr
        rw [hs]
        show ∃ vs, extractOne p.items s.toList = .ok vs
        unfold extractOne
        cases hm : search p.items s.toList with
        | some caps => exact convs _
        | none =>
          rcases hc with hc | hc
          · exact conv _ hc
          · exact absurd ⟨r, hr, s, hs, hm⟩ hc
    obtain ⟨t', ht'⟩ := this
    rw [ht'] at he
    cases he
  · rintro ⟨hi, r, hr, file, hf, hs⟩
    cases h : applyTemplate num p t with
    | error e => exact ⟨e, rfl⟩
    | ok t' =>
      exfalso
      obtain ⟨-, -, -, -, h5, -⟩ := (applyTemplate_ok_iff num p t t').1 h
      obtain ⟨vs, hvs⟩ := h5 r hr
      rw [hf] at hvs
      have := (C53_unmatched p.items file.toList hs).1 hi
      rw [show extractRow p.items (textOf (Cell.text file : Cell X)) = extractOne p.items file.toList from rfl, this] at hvs
      cases hvs

/-- **C103** (templates). The names and the fields are those of the template text: literal texts and tokens
`<name|type|prefix|suffix>`. -/
theorem C103_template (num : Rat → X) (segs : List (List Char × List Char × Token × Ty)) (last : List Char)
    (hb : ∀ s ∈ segs, NoBracket s.1 ∧ NoBracket s.2.1) (hlast : NoBracket last)
    (ht : ∀ s ∈ segs, extractToken s.2.1 = .ok s.2.2.1 ∧ tyOf s.2.2.1.dtype = some s.2.2.2) (t : Table X) :
    ∃ p : Template, applyOn num (renderTemplate (segs.map fun s => (s.1, s.2.1)) last) t = applyTemplate num p t ∧
      p.names = segs.map (fun s => String.ofList s.2.2.1.name) ∧ fieldTypes p.items = segs.map (fun s => s.2.2.2) ∧
      p.items = segs.flatMap (fun s => s.1.map Item.lit ++ (s.2.2.1.prefix_.map .lit ++ [.field s.2.2.2] ++
        s.2.2.1.suffix.map .lit)) ++ last.map .lit := by
  have h1 := C53_parse (segs.map fun s => (s.1, s.2.1)) last (segs.map fun s => s.2.2.1)
    (by
      intro s hs
      obtain ⟨u, hu, rfl⟩ := List.mem_map.1 hs
      exact hb u hu) hlast (by
      rw [List.forall₂_map_left_iff, List.forall₂_map_right_iff, List.forall₂_same]
      exact fun s hs => (ht s hs).1)
  have h2 := C53_items (segs.map fun s => (s.1, s.2.2.1, s.2.2.2)) last (by
    intro s hs
    obtain ⟨u, hu, rfl⟩ := List.mem_map.1 hs
    exact (ht u hu).2)
  simp only [List.map_map, Function.comp_def, List.flatMap_map] at h1 h2
  refine ⟨⟨_, _⟩, ?_, rfl, ?_, rfl⟩
  · unfold applyOn compile
    rw [h1]
    dsimp only
    rw [h2]
    simp only [List.map_map, Function.comp_def]
  · dsimp only
    have hl : ∀ l : List Char, fieldTypes (l.map Item.lit) = [] := fun l => by simp [fieldTypes]
    have ha : ∀ a b : List Item, fieldTypes (a ++ b) = fieldTypes a ++ fieldTypes b := fun a b => by
      unfold fieldTypes; rw [List.filterMap_append]
    rw [ha, hl, List.append_nil]
    clear h1 h2 hb ht
    induction segs with
    | nil => rfl
    | cons s segs ih =>
      rw [List.flatMap_cons, ha, ha, ha, ha, hl, hl, hl, ih]
      rfl

/-! ## C103: the result object -/

/-- No two results share a DataFrame. -/
def Separate (m : Mem X) : Prop := m.results.Nodup ∧ ∀ f ∈ m.results, f < m.frames.length

theorem separate_step (num : Rat → X) (m m' : Mem X) (o : Op X) (h : step num m o = .ok m') (hs : Separate m) :
    Separate m' ∧ m.frames.length ≤ m'.frames.length := by
  obtain ⟨h1, h2⟩ := hs
  unfold step at h
  cases o with
  | wrap f =>
    dsimp only at h
    split at h
    · cases h
    · injection h with h
      subst h
      refine ⟨⟨?_, ?_⟩, by simp⟩
      · rw [List.nodup_append]
        refine ⟨h1, by simp, ?_⟩
        rintro a ha b hb rfl
        rw [List.mem_singleton] at hb
        have := h2 a ha
        omega
      · intro f hf
        rw [List.length_append, List.length_singleton]
        rcases List.mem_append.1 hf with hf | hf
        · have := h2 f hf; omega
        · rw [List.mem_singleton] at hf; omega
  | set r c vs =>
    dsimp only at h
    repeat' split at h
    all_goals cases h
    exact ⟨⟨h1, fun f hf => by rw [List.length_set]; exact h2 f hf⟩, by simp⟩
  | extract r tm =>
    dsimp only at h
    repeat' split at h
    all_goals cases h
    refine ⟨⟨?_, ?_⟩, by simp⟩
    · apply List.Nodup.set h1
      intro hm
      have := h2 _ hm
      omega
    · intro f hf
      rw [List.length_append, List.length_singleton]
      rcases List.mem_or_eq_of_mem_set hf with hf | rfl
      · have := h2 f hf; omega
      · omega
  | write f c vs =>
    dsimp only at h
    repeat' split at h
    all_goals cases h
    exact ⟨⟨h1, fun f hf => by rw [List.length_set]; exact h2 f hf⟩, by simp⟩

theorem separate_run (num : Rat → X) : ∀ (os : List (Op X)) (m : Mem X), Separate m → Separate (run num m os)
  | [], _, h => h
  | o :: os, m, h => by
    unfold run
    cases hs : step num m o with
    | error e => exact separate_run num os m h
    | ok m' => exact separate_run num os m' (separate_step num m m' o hs h).1

/-- **C103** (results are independent). After any history, setting a column of a result or extracting into it changes neither
what any other result shows nor any DataFrame except its own. -/
theorem C103_independent (num : Rat → X) (frames : List (Table X)) (os : List (Op X)) (m m' : Mem X)
    (hm : run num ⟨frames, []⟩ os = m) (o : Op X) (r : Nat)
    (ho : (∃ c vs, o = .set r c vs) ∨ ∃ tm, o = .extract r tm) (h : step num m o = .ok m') :
    (∀ r', r' ≠ r → tableAt m' r' = tableAt m r') ∧
      ∀ f, f < m.frames.length → getDataframe m r ≠ some f → m'.frames[f]? = m.frames[f]? := by
  have hs : Separate m := by
    rw [← hm]
    exact separate_run num os _ ⟨List.nodup_nil, by simp⟩
  obtain ⟨h1, h2⟩ := hs
  unfold step at h
  unfold getDataframe tableAt
  rcases ho with ⟨c, vs, rfl⟩ | ⟨tm, rfl⟩
  · dsimp only at h
    cases hr : m.results[r]? with
    | none => rw [hr] at h; cases h
    | some f =>
      rw [hr] at h
      dsimp only at h
      split at h
      · cases h
      · split at h
        · injection h with h
          subst h
          dsimp only
          refine ⟨?_, ?_⟩
          · intro r' hne
            cases hr' : m.results[r']? with
            | none => rfl
            | some f' =>
              have : f' ≠ f := by
                rintro rfl
                rw [List.getElem?_eq_some_iff] at hr hr'
                obtain ⟨l1, e1⟩ := hr
                obtain ⟨l2, e2⟩ := hr'
                exact hne ((List.Nodup.getElem_inj_iff h1).1 (e2.trans e1.symm))
              show (m.frames.set f _)[f']? = m.frames[f']?
              rw [List.getElem?_set_ne (Ne.symm this)]
          · intro f' _ hf'
            rw [List.getElem?_set_ne]
            rintro rfl
            exact hf' rfl
        · cases h
  · dsimp only at h
    cases hr : m.results[r]? with
    | none => rw [hr] at h; cases h
    | some f =>
      rw [hr] at h
      dsimp only at h
      split at h
      · cases h
      · split at h
        · cases h
        · injection h with h
          subst h
          dsimp only
          refine ⟨?_, ?_⟩
          · intro r' hne
            rw [List.getElem?_set_ne (Ne.symm hne)]
            cases hr' : m.results[r']? with
            | none => rfl
            | some f' =>
              show (m.frames ++ _)[f']? = m.frames[f']?
              rw [List.getElem?_append_left (h2 f' (List.mem_of_getElem? hr'))]
          · intro f' hl _
            rw [List.getElem?_append_left hl]

/-- **C103** (the wrapped DataFrame). A DataFrame that was there before the results is only changed by writing to it: whatever is
done with results made from it leaves it as it was. -/
theorem C103_source (num : Rat → X) (frames : List (Table X)) (os : List (Op X)) (f : Nat) (hf : f < frames.length)
    (hw : ∀ c vs, Op.write f c vs ∉ os) : (run num ⟨frames, []⟩ os).frames[f]? = frames[f]? := by
  have gen : ∀ (os : List (Op X)) (m : Mem X), Separate m → f < m.frames.length → f ∉ m.results → (∀ c vs, Op.write f c vs ∉ os) →
      (run num m os).frames[f]? = m.frames[f]? := by
    intro os
    induction os with
    | nil => intros; rfl
    | cons o os ih =>
      intro m hs hl hr hw
      have hw' : ∀ c vs, Op.write f c vs ∉ os := fun c vs h => hw c vs (by simp [h])
      unfold run
      cases hst : step num m o with
      | error e => exact ih m hs hl hr hw'
      | ok m' =>
        dsimp only
        obtain ⟨hs', hl'⟩ := separate_step num m m' o hst hs
        have key : m'.frames[f]? = m.frames[f]? ∧ f ∉ m'.results := by
          unfold step at hst
          cases o with
          | wrap g =>
            dsimp only at hst
            split at hst
            · cases hst
            · injection hst with hst
              subst hst
              exact ⟨List.getElem?_append_left hl, by simp only [List.mem_append, List.mem_singleton, not_or]; exact ⟨hr, by omega⟩⟩
          | set r c vs =>
            dsimp only at hst
            cases hg : m.results[r]? with
            | none => rw [hg] at hst; cases hst
            | some g =>
              rw [hg] at hst
              dsimp only at hst
              repeat' split at hst
              all_goals cases hst
              refine ⟨List.getElem?_set_ne ?_, hr⟩
              rintro rfl
              exact hr (List.mem_of_getElem? hg)
          | extract r tm =>
            dsimp only at hst
            repeat' split at hst
            all_goals cases hst
            refine ⟨List.getElem?_append_left hl, ?_⟩
            intro hm
            rcases List.mem_or_eq_of_mem_set hm with hm | hm
            · exact hr hm
            · omega
          | write g c vs =>
            dsimp only at hst
            repeat' split at hst
            all_goals cases hst
            refine ⟨List.getElem?_set_ne ?_, hr⟩
            rintro rfl
            exact hw c vs (by simp)
        rw [ih m' hs' (by omega) key.2 hw', key.1]
  exact gen os ⟨frames, []⟩ ⟨List.nodup_nil, by simp⟩ hf (by simp) hw

/-- **C103** (wrapping). A new result shows the table of the DataFrame it was made from. -/
theorem C103_wrap (num : Rat → X) (m m' : Mem X) (f : Nat) (t : Table X) (hf : m.frames[f]? = some t)
    (h : step num m (.wrap f) = .ok m') : tableAt m' m.results.length = some t := by
  unfold step at h
  dsimp only at h
  rw [hf] at h
  injection h with h
  subst h
  unfold tableAt
  dsimp only
  rw [List.getElem?_append_right (Nat.le_refl _), Nat.sub_self]
  show (m.frames ++ [t])[m.frames.length]? = some t
  rw [List.getElem?_append_right (Nat.le_refl _), Nat.sub_self]
  rfl

/-- **C103** (setting a column). `result[c] = values` gives the rows these values in column `c`, which is appended if it is new, and
leaves all other columns as they are. -/
theorem C103_set (num : Rat → X) (m m' : Mem X) (r : Nat) (t : Table X) (ht : tableAt m r = some t) (c : String)
    (vs : List (Cell X)) (h : step num m (.set r c vs) = .ok m') :
    ∃ t', tableAt m' r = some t' ∧ t'.cols = (if c ∈ t.cols then t.cols else t.cols ++ [c]) ∧
      t'.rows.length = t.rows.length ∧ ∀ (i : Nat) (r0 : List (Cell X)), t.rows[i]? = some r0 → ∃ r1 v, t'.rows[i]? = some r1 ∧ vs[i]? = some v ∧
        t'.cell r1 c = v ∧ ∀ d, d ≠ c → t'.cell r1 d = t.cell r0 d := by
  unfold step at h
  dsimp only at h
  unfold tableAt at ht
  cases hr : m.results[r]? with
  | none => rw [hr] at ht; cases ht
  | some f =>
    rw [hr] at h ht
    dsimp only at h
    have hft : m.frames[f]? = some t := ht
    rw [hft] at h
    dsimp only at h
    split at h
    · rename_i hlen
      injection h with h
      subst h
      refine ⟨setColumn t c vs, ?_, rfl, ?_, ?_⟩
      · unfold tableAt
        dsimp only
        rw [hr]
        show (m.frames.set f _)[f]? = _
        rw [List.getElem?_set_self (List.getElem?_eq_some_iff.1 hft).1]
      · unfold setColumn
        dsimp only
        rw [List.length_zipWith, hlen, Nat.min_self]
      · intro i r0 hi
        have hil : i < vs.length := by rw [hlen]; exact (List.getElem?_eq_some_iff.1 hi).1
        obtain ⟨v, hv⟩ : ∃ v, vs[i]? = some v := ⟨_, List.getElem?_eq_getElem hil⟩
        have e1 : (setColumn t c vs).rows[i]? = some ((setColumn t c vs).cols.map fun d => if d = c then v else t.cell r0 d) := by
          unfold setColumn
          dsimp only
          rw [List.getElem?_zipWith, hi, hv]
        have hc : c ∈ (setColumn t c vs).cols := by
          unfold setColumn
          dsimp only
          split
          · assumption
          · simp
        refine ⟨_, v, e1, hv, ?_, ?_⟩
        · conv_lhs => unfold Table.cell
          rw [lookup_zip_map _ _ _ hc]
          simp
        · intro d hd
          conv_lhs => unfold Table.cell
          by_cases hdc : d ∈ (setColumn t c vs).cols
          · rw [lookup_zip_map _ _ _ hdc]
            simp [hd, Table.cell]
          · rw [lookup_zip_none _ _ _ hdc]
            have : d ∉ t.cols := by
              intro hm
              apply hdc
              unfold setColumn
              dsimp only
              split
              · exact hm
              · simp [hm]
            unfold Table.cell
            rw [lookup_zip_none _ _ _ this]
    · cases h

/-- **C103** (what get_dataframe gives). Until the next extraction it is the table of the result itself: writing to it changes the
result. After an extraction the result shows the extracted table, the DataFrame handed out before keeps the old one, and
writing to it no longer changes the result. -/
theorem C103_dataframe (num : Rat → X) (frames : List (Table X)) (os : List (Op X)) (m : Mem X)
    (hm : run num ⟨frames, []⟩ os = m) (r f : Nat) (hr : getDataframe m r = some f) (t : Table X)
    (ht : tableAt m r = some t) :
    (∀ c vs m', step num m (.write f c vs) = .ok m' → tableAt m' r = some (setColumn t c vs)) ∧
    ∀ tm m', step num m (.extract r tm) = .ok m' → ∃ t', applyOn num tm t = .ok t' ∧ tableAt m' r = some t' ∧
      m'.frames[f]? = some t ∧ ∀ c vs m'', step num m' (.write f c vs) = .ok m'' → tableAt m'' r = some t' := by
  have hs : Separate m := by
    rw [← hm]
    exact separate_run num os _ ⟨List.nodup_nil, by simp⟩
  unfold getDataframe at hr
  have hft : m.frames[f]? = some t := by
    unfold tableAt at ht
    rw [hr] at ht
    exact ht
  have hfl : f < m.frames.length := hs.2 f (List.mem_of_getElem? hr)
  have hrl : r < m.results.length := (List.getElem?_eq_some_iff.1 hr).1
  constructor
  · intro c vs m' h
    unfold step at h
    dsimp only at h
    rw [hft] at h
    dsimp only at h
    split at h
    · injection h with h
      subst h
      unfold tableAt
      dsimp only
      rw [hr]
      show (m.frames.set f _)[f]? = _
      rw [List.getElem?_set_self hfl]
    · cases h
  · intro tm m' h
    unfold step at h
    dsimp only at h
    rw [hr] at h
    dsimp only at h
    rw [hft] at h
    dsimp only at h
    cases ha : applyOn num tm t with
    | error e => rw [ha] at h; cases h
    | ok t' =>
      rw [ha] at h
      injection h with h
      subst h
      refine ⟨t', rfl, ?_, ?_, ?_⟩
      · unfold tableAt
        dsimp only
        rw [List.getElem?_set_self hrl]
        show (m.frames ++ [t'])[m.frames.length]? = some t'
        rw [List.getElem?_append_right (Nat.le_refl _), Nat.sub_self]
        rfl
      · dsimp only
        rw [List.getElem?_append_left hfl, hft]
      · intro c vs m'' h'
        unfold step at h'
        dsimp only at h'
        rw [List.getElem?_append_left hfl, hft] at h'
        dsimp only at h'
        split at h'
        · injection h' with h'
          subst h'
          unfold tableAt
          dsimp only
          rw [List.getElem?_set_self hrl]
          show ((m.frames ++ [t']).set f _)[m.frames.length]? = some t'
          rw [List.getElem?_set_ne (by omega), List.getElem?_append_right (Nat.le_refl _), Nat.sub_self]
          rfl
        · cases h'

/-! ## C103: attributes -/

/-- **C103** (attributes). A result offers its own methods, what was set on it, and otherwise the attributes of its DataFrame. -/
theorem C103_attributes {A : Type} (onObject : List String) (o : Instance A) (df : A) (fuel : Nat) (attr : String)
    (hdf : o.dict.lookup "_BatchResult__df" = some df) (hobj : "_BatchResult__df" ∉ onObject) :
    (attr ∈ classAttrs ∨ attr ∈ onObject → getattr onObject o (fuel + 2) attr = .ok (.own attr)) ∧
    (attr ∉ classAttrs → attr ∉ onObject → ∀ a, o.dict.lookup attr = some a → getattr onObject o (fuel + 2) attr = .ok (.value a)) ∧
    (attr ∉ classAttrs → attr ∉ onObject → o.dict.lookup attr = none → getattr onObject o (fuel + 2) attr =
      match o.frame df attr with
      | some a => .ok (.value a)
      | none => .error .attributeError) := by
  have h1 : getattr onObject o (fuel + 1) "_BatchResult__df" = .ok (.value df) := by
    unfold getattr
    rw [if_neg (by rw [not_or]; exact ⟨by decide, hobj⟩), hdf]
  refine ⟨?_, ?_, ?_⟩
  · intro h
    unfold getattr
    rw [if_pos h]
  · intro h2 h3 a ha
    unfold getattr
    rw [if_neg (by rw [not_or]; exact ⟨h2, h3⟩), ha]
  · intro h2 h3 ha
    unfold getattr
    rw [if_neg (by rw [not_or]; exact ⟨h2, h3⟩), ha, h1]
    rfl

/-- **C103** (attributes). The two methods of a result are reached whatever the columns of its DataFrame and whatever was set on it. -/
theorem C103_methods {A : Type} (onObject : List String) (o : Instance A) (fuel : Nat) (attr : String)
    (h : attr = "get_dataframe" ∨ attr = "extract_from_filename") : getattr onObject o (fuel + 1) attr = .ok (.own attr) := by
  unfold getattr
  rw [if_pos (Or.inl (by rcases h with rfl | rfl <;> decide))]

/-- **C103** (violated for copies). A result whose attributes have not been restored yet, as `copy.copy` and `pickle` make it before
they look for `__setstate__`, answers every question for an attribute that neither the class nor `object` has with endless
recursion, whatever the recursion limit: results cannot be copied or pickled. -/
theorem C103_copy_violated {A : Type} (onObject : List String) (frame : A → String → Option A) (limit : Nat) (attr : String)
    (h1 : attr ∉ classAttrs) (h2 : attr ∉ onObject) (hobj : "_BatchResult__df" ∉ onObject) :
    getattr onObject ⟨[], frame⟩ limit attr = .error .recursion := by
  have gen : ∀ n, getattr onObject (⟨[], frame⟩ : Instance A) n "_BatchResult__df" = .error .recursion := by
    intro n
    induction n with
    | zero => rfl
    | succ n ih =>
      unfold getattr
      rw [if_neg (by rw [not_or]; exact ⟨by decide, hobj⟩)]
      show (match getattr onObject (⟨[], frame⟩ : Instance A) n "_BatchResult__df" with
        | .error e => _ | .ok (.own _) => _ | .ok (.value df) => _) = _
      rw [ih]
  cases limit with
  | zero => rfl
  | succ n =>
    unfold getattr
    rw [if_neg (by rw [not_or]; exact ⟨h1, h2⟩)]
    show (match getattr onObject (⟨[], frame⟩ : Instance A) n "_BatchResult__df" with
      | .error e => _ | .ok (.own _) => _ | .ok (.value df) => _) = _
    rw [gen n]

/-- The question that `copy.copy` asks; the attributes of `object` are those of Python 3.12. -/
example (limit : Nat) : getattr ["__class__", "__delattr__", "__dir__", "__eq__", "__format__", "__ge__", "__getattribute__",
      "__getstate__", "__gt__", "__hash__", "__init__", "__init_subclass__", "__le__", "__lt__", "__ne__", "__new__",
      "__reduce__", "__reduce_ex__", "__repr__", "__setattr__", "__sizeof__", "__str__", "__subclasshook__"]
    (⟨[], fun _ _ => none⟩ : Instance Unit) limit "__setstate__" = .error .recursion :=
  C103_copy_violated _ _ limit _ (by decide) (by decide) (by decide)

/-! ## Cases -/

private def measured : Table Rat :=
  ⟨["file", "Sa", "Sq"], [[.text "P90_N10.vk4", .num 1, .num 2], [.text "P45,5_N7.vk4", .num 3, .num 4]]⟩

private def powerPulses : Template := ⟨["power", "pulses"], [.lit 'P', .field .float, .lit '_', .lit 'N', .field .int]⟩

/-- Two files, two fields. -/
example : TableOk measured ∧ FilesAreTexts measured ∧
    (compile "<power|float|P>_<pulses|int|N>".toList).toOption.map (fun p => (p.names, p.items)) =
      some (powerPulses.names, powerPulses.items) ∧
    applyTemplate id powerPulses measured = .ok
      ⟨["file", "power", "pulses", "Sa", "Sq"],
       [[.text "P90_N10.vk4", .num 90, .num 10, .num 1, .num 2], [.text "P45,5_N7.vk4", .num (91 / 2), .num 7, .num 3, .num 4]]⟩ := by
  refine ⟨⟨by decide, by decide, by decide⟩, ?_, by decide +kernel, by decide +kernel⟩
  intro r hr
  rcases List.mem_cons.1 hr with rfl | hr
  · exact ⟨_, rfl⟩
  · rw [List.mem_singleton.1 hr]; exact ⟨_, rfl⟩

/-- A row without a file name. -/
example : applyTemplate id ⟨["power", "site"], [.lit 'P', .field .float, .lit '_', .field .str]⟩
    (⟨["file", "Sa"], [[.text "P90_a", .num 1], [.nan, .num 3], [.num 7, .num 4]]⟩ : Table Rat) = .ok
      ⟨["file", "power", "site", "Sa"], [[.text "P90_a", .num 90, .text "a", .num 1], [.nan, .nan, .text "nan", .num 3],
        [.num 7, .nan, .text "nan", .num 4]]⟩ := by decide +kernel

/-- **C103** (violated for taken names). A field called like a computed parameter replaces the computed values, and one called 'file'
replaces the names of the files; no exception tells. -/
theorem C103_taken_name_violated :
    (∃ t' : Table Rat, applyTemplate id ⟨["Sa"], [.lit 'P', .field .float]⟩ measured = .ok t' ∧ t'.cols = measured.cols ∧
      ∃ r r', measured.rows[0]? = some r ∧ t'.rows[0]? = some r' ∧ measured.cell r "Sa" = .num 1 ∧ t'.cell r' "Sa" = .num 90) ∧
    (∃ t' : Table Rat, applyTemplate id ⟨["file"], [.lit 'P', .field .float]⟩ measured = .ok t' ∧
      ∀ r ∈ t'.rows, ∀ s, t'.cell r "file" ≠ .text s) := by
  refine ⟨⟨⟨["file", "Sa", "Sq"], [[.text "P90_N10.vk4", .num 90, .num 2], [.text "P45,5_N7.vk4", .num (91 / 2), .num 4]]⟩,
    by decide +kernel, rfl, _, _, rfl, rfl, by decide +kernel, by decide +kernel⟩,
    ⟨⟨["file", "Sa", "Sq"], [[.num 90, .num 1, .num 2], [.num (91 / 2), .num 3, .num 4]]⟩, by decide +kernel, ?_⟩⟩
  intro r hr s
  rcases List.mem_cons.1 hr with rfl | hr
  · intro h; cases h
  · rw [List.mem_singleton.1 hr]; intro h; cases h

/-- **C103** (violated for one misfit). One file name without the number takes the values of all files with it. -/
theorem C103_misfit_violated : ∃ e, applyTemplate id powerPulses
    (⟨["file", "Sa"], [[.text "P90_N10.vk4", .num 1], [.text "reference.vk4", .num 3]]⟩ : Table Rat) = .error e :=
  ⟨.valueError, by decide +kernel⟩

/-- A history: two results of one DataFrame; the first is changed, extracted into, and the DataFrame handed out before is
written to. -/
example : (fun m : Mem Rat => (tableAt m 0).map (·.rows) =
        some [[.text "P90_N10.vk4", .num 90, .num 5, .num 2], [.text "P45,5_N7.vk4", .num (91 / 2), .num 6, .num 4]] ∧
      tableAt m 1 = some measured ∧ m.frames[0]? = some measured)
    (run id ⟨[measured], []⟩ [.wrap 0, .wrap 0, .set 0 "Sa" [.num 5, .num 6], .extract 0 "<power|float|P>".toList,
      .write 1 "Sa" [.num 8, .num 9]]) := by decide +kernel

end Surfalize.Props
