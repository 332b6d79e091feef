import Verif.Lemmas.Cag
/-!
# C91 — Extraction of CAG archives
-/
namespace Surfalize.Props
open Surfalize Cag CagSpec

private theorem tag_o1 : IsTag "<Path>".toList := ⟨'<', "Path>".toList, rfl, by decide, by decide⟩
private theorem tag_c1 : IsTag "</Path>".toList := ⟨'<', "/Path>".toList, rfl, by decide, by decide⟩
private theorem tag_o2 : IsTag "<OriginalFileName>".toList := ⟨'<', "OriginalFileName>".toList, rfl, by decide, by decide⟩
private theorem tag_c2 : IsTag "</OriginalFileName>".toList := ⟨'<', "/OriginalFileName>".toList, rfl, by decide, by decide⟩

/-- **C91**, the index: the identifiers of the lines, in order, are paired with the file names of the lines. -/
theorem C91_index (ls : List IndexLine) (h : ∀ l ∈ ls, l.Ok) (names : List (List Char))
    (hn : List.Forall₂ FileName (ls.filterMap IndexLine.name) names) :
    parseIdx (join (ls.map IndexLine.text)) = (ls.filterMap IndexLine.id).zip names := by
  unfold parseIdx
  rw [findall_lines tag_o1 tag_c1 IndexLine.text IndexLine.id ls (fun l hl => ⟨(h l hl).newline, (h l hl).id⟩) _ le_rfl,
    findall_lines tag_o2 tag_c2 IndexLine.text IndexLine.name ls (fun l hl => ⟨(h l hl).newline, (h l hl).name⟩) _ le_rfl]
  dsimp only
  congr 1
  generalize ls.filterMap IndexLine.name = ps at hn
  induction hn with
  | nil => rfl
  | cons h _ ih => rw [List.map_cons, ih, pathName_of h]

/-- The measurements of the archive lie in directories named by their identifiers, all in the directory `top`, in which
there is one file, the index, whose text makes `table`; every identifier has a usable file name in it. -/
structure Indexed (E : Env) (ms : List Member) (top : List (List Char)) (table : List (List Char × List Char))
    (name : Member → List Char) : Prop where
  index : ∃ l i r, ms = l ++ i :: r ∧ i.dir = false ∧ (∃ f, i.path = top ++ [f]) ∧
    (∃ text, E.decode i.content = .ok text ∧ parseIdx text = table) ∧
    ∀ m ∈ l ++ r, m.dir = false → ∀ f, m.path ≠ top ++ [f]
  measurement : ∀ m ∈ ms, IsMeasurement m.content → ∃ id leaf, m.path = top ++ [id, leaf] ∧ Gives table id (name m) ∧
    name m ≠ [] ∧ name m ≠ "..".toList

private theorem siblings_indexed {E : Env} {ms : List Member} {top table name} (h : Indexed E ms top table name)
    {m : Member} (hm : m ∈ ms) (hv : IsMeasurement m.content) :
    readTables E (siblings E ms m) none = .ok (some table) ∧ ∃ id, fileId E m = id ∧ Gives table id (name m) := by
  obtain ⟨id, leaf, hp, hg, -⟩ := h.measurement m hm hv
  obtain ⟨l, i, r, rfl, hd, ⟨f, hf⟩, ⟨text, ht1, ht2⟩, hu⟩ := h.index
  have hdl : m.path.dropLast = top ++ [id] := by
    rw [hp, show top ++ [id, leaf] = (top ++ [id]) ++ [leaf] by simp, List.dropLast_concat]
  have hnone : ∀ s : List Member, (∀ x ∈ s, x ∈ l ++ r) →
      (s.filter fun x => decide (x.path ≠ [] ∧ x.path.dropLast = top) && !x.dir) = [] := by
    intro s hs
    rw [List.filter_eq_nil_iff]
    intro x hx hc
    simp only [Bool.and_eq_true, decide_eq_true_eq, Bool.not_eq_true'] at hc
    obtain ⟨⟨hc1, hc2⟩, hc3⟩ := hc
    refine hu x (hs x hx) hc3 (x.path.getLast hc1) ?_
    have hx' := List.dropLast_append_getLast hc1
    rw [hc2] at hx'
    exact hx'.symm
  have hnone2 : ∀ s : List Member, (∀ x ∈ s, x ∈ l ++ r) →
      (s.filter fun x => decide (x.path = i.path) && !x.dir) = [] := by
    intro s hs
    rw [List.filter_eq_nil_iff]
    intro x hx hc
    simp only [Bool.and_eq_true, decide_eq_true_eq, Bool.not_eq_true'] at hc
    exact hu x (hs x hx) hc.2 f (hc.1.trans hf)
  have hcont : contentOf (l ++ i :: r) i.path = i.content := by
    unfold contentOf
    rw [List.filter_append, List.filter_cons, hnone2 l (fun x hx => by simp [hx]), hnone2 r (fun x hx => by simp [hx])]
    simp [hd]
  have hs : siblings E (l ++ i :: r) m = [i.content] := by
    unfold siblings
    rw [hdl, if_neg (by simp), List.dropLast_concat, List.filter_append, List.filter_cons,
      hnone l (fun x hx => by simp [hx]), hnone r (fun x hx => by simp [hx])]
    simp [hd, hf]
    rw [← hf, hcont]
  refine ⟨?_, id, ?_, hg⟩
  · rw [hs]
    show (E.decode i.content).bind _ = _
    rw [ht1]
    show readTables E [] (some (parseIdx text)) = _
    rw [ht2]; rfl
  · unfold fileId
    rw [hdl]; simp

private theorem extract_go {E : Env} {ms : List Member} {top table name} (h : Indexed E ms top table name) :
    ∀ (rest : List Member), (∀ m ∈ rest, m ∈ ms) → ∀ t, t = none ∨ t = some table → ∀ fs,
    ∃ fs', extractGo E ms rest t fs = (.ok (), fs') ∧
      (∀ l m r, rest = l ++ m :: r → IsMeasurement m.content → (∀ m' ∈ r, IsMeasurement m'.content → name m' ≠ name m) →
        fs' (name m) = some m.content) ∧
      ∀ n, (∀ m ∈ rest, IsMeasurement m.content → name m ≠ n) → fs' n = fs n
  | [], _, t, _, fs => ⟨fs, rfl, by simp, fun _ _ => rfl⟩
  | m :: rest, hsub, t, ht, fs => by
    by_cases hm : IsMeasurement m.content
    · obtain ⟨h1, id, h2, h3⟩ := siblings_indexed h (hsub m (by simp)) hm
      obtain ⟨-, -, -, -, hn1, hn2⟩ := h.measurement m (hsub m (by simp)) hm
      have htab : tableFor E ms m t = .ok (some table) := by
        rcases ht with rfl | rfl
        · exact h1
        · rfl
      obtain ⟨fs', k1, k2, k3⟩ := extract_go h rest (fun x hx => hsub x (by simp [hx])) (some table) (.inr rfl)
        (fun n => if n = name m then some m.content else fs n)
      refine ⟨fs', ?_, ?_, ?_⟩
      · unfold extractGo
        rw [if_neg (not_not.2 (measurement_iff.2 hm)), htab]
        dsimp only
        rw [h2, lookup_of_gives h3]
        dsimp only
        unfold put
        rw [if_neg (by simp [hn1]; simpa using hn2)]
        exact k1
      · intro l m' r e hm' hr
        cases l with
        | nil =>
          obtain ⟨e1, e2⟩ := List.cons.inj e
          subst e1 e2
          rw [k3 _ (fun x hx hx' => hr x hx hx'), if_pos rfl]
        | cons y l =>
          exact k2 l m' r (List.cons.inj e).2 hm' hr
      · intro n hn
        rw [k3 n (fun x hx hx' => hn x (by simp [hx]) hx'), if_neg]
        exact fun e => hn m (by simp) hm e.symm
    · obtain ⟨fs', k1, k2, k3⟩ := extract_go h rest (fun x hx => hsub x (by simp [hx])) t ht fs
      refine ⟨fs', ?_, ?_, fun n hn => k3 n fun x hx => hn x (by simp [hx])⟩
      · unfold extractGo
        rw [if_pos (fun h' => hm (measurement_iff.1 h'))]
        exact k1
      · intro l m' r e hm' hr
        cases l with
        | nil =>
          obtain ⟨e1, -⟩ := List.cons.inj e
          subst e1
          exact absurd hm' hm
        | cons y l => exact k2 l m' r (List.cons.inj e).2 hm' hr

/-- **C91**: every measurement whose name no later one has is extracted byte for byte under the name of the index, and
no other file changes. Missing from the full property: measurements with the same file name (`C91_same_name_violated`). -/
theorem C91_extract_partial {E : Env} {ms : List Member} {top table name} (h : Indexed E ms top table name)
    (fs : List Char → Option Bytes) :
    ∃ fs', extract E ms fs = (.ok (), fs') ∧
      (∀ l m r, ms = l ++ m :: r → IsMeasurement m.content → (∀ m' ∈ r, IsMeasurement m'.content → name m' ≠ name m) →
        fs' (name m) = some m.content) ∧
      ∀ n, (∀ m ∈ ms, IsMeasurement m.content → name m ≠ n) → fs' n = fs n :=
  extract_go h ms (fun _ h => h) none (.inl rfl) fs

/-- Two measurements with the same file name: only the later one is there afterwards. -/
theorem C91_same_name_violated {E : Env} {ms : List Member} {top table name} (h : Indexed E ms top table name)
    (fs : List Char → Option Bytes) {l m r m'} (e : ms = l ++ m :: r) (_hm : m' ∈ l) (h1 : IsMeasurement m.content)
    (_h2 : IsMeasurement m'.content) (hsame : name m' = name m) (hne : m'.content ≠ m.content)
    (hlast : ∀ x ∈ r, IsMeasurement x.content → name x ≠ name m) :
    ∃ fs', extract E ms fs = (.ok (), fs') ∧ fs' (name m') ≠ some m'.content := by
  obtain ⟨fs', k1, k2, -⟩ := C91_extract_partial h fs
  refine ⟨fs', k1, ?_⟩
  rw [hsame, k2 l m r e h1 hlast]
  exact fun hc => hne (Option.some.inj hc).symm

private theorem zip_names {ids ps : List (List Char)} {id n : List Char} (h : (id, n) ∈ ids.zip (ps.map pathName)) :
    '/' ∉ n := by
  have := (List.of_mem_zip h).2
  obtain ⟨p, -, rfl⟩ := List.mem_map.1 this
  exact pathName_noslash p

private theorem lookup_mem {t : List (List Char × List Char)} {id n : List Char} (h : lookupIdx t id = some n) :
    (id, n) ∈ t := by
  unfold lookupIdx at h
  obtain ⟨a, b, e, -⟩ := List.lookup_eq_some_iff.1 h
  have : (id, n) ∈ t.reverse := by rw [e]; simp
  simpa using this

private theorem readTables_ok {E : Env} : ∀ (bs : List Bytes) (t r : Option (List (List Char × List Char))),
    (∀ x, t = some x → ∀ id n, (id, n) ∈ x → '/' ∉ n) → readTables E bs t = .ok r →
    ∀ x, r = some x → ∀ id n, (id, n) ∈ x → '/' ∉ n
  | [], t, r, ht, h => by
    obtain rfl := Except.ok.inj h
    exact ht
  | b :: bs, t, r, ht, h => by
    unfold readTables at h
    cases hd : E.decode b with
    | error e => rw [hd] at h; cases h
    | ok text =>
      rw [hd] at h
      refine readTables_ok bs _ r ?_ h
      rintro x hx id n hm
      obtain rfl := Option.some.inj hx
      exact zip_names hm

private theorem safe_go {E : Env} {ms : List Member} : ∀ (rest : List Member), (∀ m ∈ rest, m ∈ ms) →
    ∀ t, (∀ x, t = some x → ∀ id n, (id, n) ∈ x → '/' ∉ n) → ∀ fs n,
    (extractGo E ms rest t fs).2 n = fs n ∨ ('/' ∉ n ∧ n ≠ [] ∧ n ≠ "..".toList ∧
      ∃ m ∈ ms, IsMeasurement m.content ∧ (extractGo E ms rest t fs).2 n = some m.content)
  | [], _, t, _, fs, n => .inl rfl
  | m :: rest, hsub, t, ht, fs, n => by
    unfold extractGo
    by_cases hm : m.content.take 3 ∉ magics
    · rw [if_pos hm]
      exact safe_go rest (fun x hx => hsub x (by simp [hx])) t ht fs n
    · rw [if_neg hm]
      have hmm := measurement_iff.1 (not_not.1 hm)
      cases htab : tableFor E ms m t with
      | error e => exact .inl rfl
      | ok r =>
        cases r with
        | none => exact .inl rfl
        | some tab =>
          have htab' : ∀ id n, (id, n) ∈ tab → '/' ∉ n := by
            cases t with
            | some t0 =>
              obtain rfl := Option.some.inj (Except.ok.inj htab)
              exact ht _ rfl
            | none => exact readTables_ok _ _ _ (by simp) htab _ rfl
          dsimp only
          cases hlk : lookupIdx tab (fileId E m) with
          | none => exact .inl rfl
          | some name =>
            have hns := htab' _ _ (lookup_mem hlk)
            dsimp only
            unfold put
            by_cases hbad : name = [] ∨ name = "..".toList
            · rw [if_pos hbad]; exact .inl rfl
            · rw [if_neg hbad]
              dsimp only
              rcases safe_go rest (fun x hx => hsub x (by simp [hx])) (some tab) (fun x hx => by
                obtain rfl := Option.some.inj hx; exact htab') (fun k => if k = name then some m.content else fs k) n
                with k | k
              · rw [k]
                by_cases hn : n = name
                · right
                  rw [if_pos hn]
                  subst hn
                  exact ⟨hns, fun e => hbad (.inl e), fun e => hbad (.inr e), m, hsub m (by simp), hmm, rfl⟩
                · left; rw [if_neg hn]
              · exact .inr k

/-- **C91**, safety: whatever the archive holds, and also when the extraction fails half-way, only files directly in the
target directory change, and what they hold afterwards is a measurement of the archive. -/
theorem C91_safe (E : Env) (ms : List Member) (fs : List Char → Option Bytes) (n : List Char) :
    (extract E ms fs).2 n = fs n ∨ ('/' ∉ n ∧ n ≠ [] ∧ n ≠ "..".toList ∧
      ∃ m ∈ ms, IsMeasurement m.content ∧ (extract E ms fs).2 n = some m.content) :=
  safe_go ms (fun _ h => h) none (by simp) fs n

/-- **C91**: an archive without measurements gives no files; one whose first measurement is not in the index is refused
with a KeyError, and one without an index with a TypeError, without any file written. -/
theorem C91_errors (E : Env) (fs : List Char → Option Bytes) :
    (∀ ms : List Member, (∀ m ∈ ms, ¬ IsMeasurement m.content) → extract E ms fs = (.ok (), fs)) ∧
    ∀ (l r : List Member) (m : Member), (∀ x ∈ l, ¬ IsMeasurement x.content) → IsMeasurement m.content →
      ∀ top id leaf, m.path = top ++ [id, leaf] →
      ((∀ x ∈ l ++ m :: r, x.dir = false → ∀ f, x.path ≠ top ++ [f]) →
        extract E (l ++ m :: r) fs = (.error .typeError, fs)) ∧
      (∀ table, readTables E (siblings E (l ++ m :: r) m) none = .ok (some table) → id ∉ table.map Prod.fst →
        extract E (l ++ m :: r) fs = (.error .keyError, fs)) := by
  have skip : ∀ (ms l rest : List Member) t, (∀ x ∈ l, ¬ IsMeasurement x.content) →
      extractGo E ms (l ++ rest) t fs = extractGo E ms rest t fs := by
    intro ms l rest t hl
    induction l with
    | nil => rfl
    | cons x l ih =>
      rw [List.cons_append, extractGo, if_pos (fun h => hl x (by simp) (measurement_iff.1 h))]
      exact ih fun y hy => hl y (by simp [hy])
  constructor
  · intro ms h
    have := skip ms ms [] none h
    rw [List.append_nil] at this
    exact this
  · intro l r m hl hm top id leaf hp
    have hdl : m.path.dropLast = top ++ [id] := by
      rw [hp, show top ++ [id, leaf] = (top ++ [id]) ++ [leaf] by simp, List.dropLast_concat]
    unfold extract
    rw [skip _ _ _ _ hl, extractGo, if_neg (not_not.2 (measurement_iff.2 hm))]
    constructor
    · intro hno
      have hs : siblings E (l ++ m :: r) m = [] := by
        unfold siblings
        rw [hdl, if_neg (by simp), List.dropLast_concat, List.map_eq_nil_iff, List.filter_eq_nil_iff]
        intro x hx hc
        simp only [Bool.and_eq_true, decide_eq_true_eq, Bool.not_eq_true'] at hc
        obtain ⟨⟨hc1, hc2⟩, hc3⟩ := hc
        refine hno x hx hc3 (x.path.getLast hc1) ?_
        have hx' := List.dropLast_append_getLast hc1
        rw [hc2] at hx'
        exact hx'.symm
      unfold tableFor
      rw [hs]
      rfl
    · intro table htab hid
      unfold tableFor
      dsimp only
      rw [htab]
      have hf : fileId E m = id := by unfold fileId; rw [hdl]; simp
      dsimp only
      rw [hf]
      have : lookupIdx table id = none := by
        unfold lookupIdx
        rw [List.lookup_eq_none_iff]
        intro p hp'
        have h1 : p ∈ table := List.mem_reverse.1 hp'
        simp only [bne_iff_ne, ne_eq]
        rintro rfl
        exact hid (List.mem_map.2 ⟨p, h1, rfl⟩)
      rw [this]

/-- Two entries of the index on one line are taken for one: the identifier is the whole text between the first opening
and the last closing tag. -/
theorem C91_one_line_violated :
    parseIdx ("<Path>1</Path><OriginalFileName>a.vk4</OriginalFileName>" ++
      "<Path>2</Path><OriginalFileName>b.vk4</OriginalFileName>").toList =
      [("1</Path><OriginalFileName>a.vk4</OriginalFileName><Path>2".toList, "Path><OriginalFileName>b.vk4".toList)] := by
  decide +kernel

/-- A small archive: the index and two measurements. -/
def demoCag : List Member :=
  [⟨["top".toList, "i.xml".toList], false, "<Path>1</Path>\n<OriginalFileName>d/a</OriginalFileName>\n<Path>2</Path>\n<OriginalFileName>b</OriginalFileName>".toList.map fun c => UInt8.ofNat c.toNat⟩,
   ⟨["top".toList, "1".toList], true, []⟩,
   ⟨["top".toList, "1".toList, "x".toList], false, [86, 75, 52, 9]⟩,
   ⟨["top".toList, "2".toList, "x".toList], false, [86, 75, 54, 8, 7]⟩]

/-- Bytes as characters. -/
def demoCagEnv : Env := ⟨"z".toList, [], fun b => .ok (b.map fun x => Char.ofNat x.toNat)⟩

/-- The index of `demoCag`. -/
example : parseIdx "<Path>1</Path>\n<OriginalFileName>d/a</OriginalFileName>\n<Path>2</Path>\n<OriginalFileName>b</OriginalFileName>".toList =
    [("1".toList, "a".toList), ("2".toList, "b".toList)] := by decide +kernel

/-- The small archive meets the conditions of `C91_extract_partial`. -/
theorem C91_indexed_example : Indexed demoCagEnv demoCag ["top".toList] [("1".toList, "a".toList), ("2".toList, "b".toList)]
    (fun m => if m.path = ["top".toList, "1".toList, "x".toList] then "a".toList else "b".toList) where
  index := by
    refine ⟨[], _, _, rfl, rfl, ⟨_, rfl⟩, ⟨_, rfl, by decide +kernel⟩, ?_⟩
    intro m hm hd f hf
    simp only [List.nil_append, List.mem_cons, List.not_mem_nil, or_false] at hm
    rcases hm with rfl | rfl | rfl <;> simp at hd hf
  measurement := by
    intro m hm hv
    simp only [demoCag, List.mem_cons, List.not_mem_nil, or_false] at hm
    rcases hm with rfl | rfl | rfl | rfl
    · obtain ⟨k, hk, rest, e⟩ := hv
      have := (List.cons.inj e).1
      exact absurd this (by decide +kernel)
    · obtain ⟨k, hk, rest, e⟩ := hv
      cases e
    · exact ⟨"1".toList, "x".toList, rfl, ⟨[], _, rfl, by decide +kernel⟩, by decide +kernel, by decide +kernel⟩
    · exact ⟨"2".toList, "x".toList, rfl, ⟨[_], [], rfl, by decide +kernel⟩, by decide +kernel, by decide +kernel⟩

/-- What is extracted from it. -/
example : ∃ fs', extract demoCagEnv demoCag (fun _ => none) = (.ok (), fs') ∧ fs' "a".toList = some [86, 75, 52, 9] ∧
    fs' "b".toList = some [86, 75, 54, 8, 7] ∧ fs' "c".toList = none := by
  obtain ⟨fs', h1, h2, h3⟩ := C91_extract_partial C91_indexed_example (fun _ => none)
  refine ⟨fs', h1, ?_, ?_, ?_⟩
  · exact h2 (demoCag.take 2) ⟨["top".toList, "1".toList, "x".toList], false, [86, 75, 52, 9]⟩ (demoCag.drop 3) rfl
      ⟨52, by decide +kernel, [9], rfl⟩ (by
        intro m hm hv
        simp only [demoCag, List.drop_succ_cons, List.drop_zero, List.mem_cons, List.not_mem_nil, or_false] at hm
        subst hm
        decide +kernel)
  · exact h2 (demoCag.take 3) ⟨["top".toList, "2".toList, "x".toList], false, [86, 75, 54, 8, 7]⟩ [] rfl
      ⟨54, by decide +kernel, [8, 7], rfl⟩ (by intro m hm; cases hm)
  · rw [h3]
    intro m hm _
    simp only [demoCag, List.mem_cons, List.not_mem_nil, or_false] at hm
    rcases hm with rfl | rfl | rfl | rfl <;> decide +kernel

/-- The index lines of the small archive meet the conditions of `C91_index`. -/
example : (⟨"<Path>1</Path>".toList, some ['1'], none⟩ : IndexLine).Ok where
  newline := by decide +kernel
  id := ⟨[], [], by decide +kernel, by decide +kernel, by decide +kernel, by decide +kernel⟩
  name := by
    intro a x b e
    have h : "<OriginalFileName>".toList <:+: "<Path>1</Path>".toList := ⟨a, x ++ "</OriginalFileName>".toList ++ b, by
      rw [show (⟨"<Path>1</Path>".toList, some ['1'], none⟩ : IndexLine).text = "<Path>1</Path>".toList from rfl] at e
      rw [e]; simp only [List.append_assoc]⟩
    exact absurd h (by decide +kernel)

/-- An entry without a file name shifts the names of all that follow. -/
theorem C91_misaligned_violated :
    parseIdx "<Path>1</Path>\n<Path>2</Path>\n<OriginalFileName>b.vk4</OriginalFileName>".toList =
      [("1".toList, "b.vk4".toList)] := by
  decide +kernel

/-- File names with backslashes, as Windows writes them, are not taken apart: the whole path becomes the name. -/
theorem C91_windows_violated (s : List Char) (h : '/' ∉ s) (h1 : s ≠ []) (h2 : s ≠ ['.']) : pathName s = s :=
  pathName_of ⟨h, h1, h2, .inl rfl⟩

end Surfalize.Props
