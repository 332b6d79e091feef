import Verif.Spec.Regex
import Verif.Lemmas.Filename

/-! Lemmas about the regular expressions of filename templates. -/
set_option linter.unusedSectionVars false
namespace Surfalize.Regex
open Surfalize Filename RegexSpec FilenameLemmas

/-! ### Parsing -/

theorem run_append (s : St) (a b : List Char) : run s (a ++ b) = match run s a with
    | .ok s' => run s' b
    | .bad => .bad
    | .outside => .outside := by
  induction a generalizing s with
  | nil => rfl
  | cons c a ih =>
    simp only [List.cons_append, run]
    cases stepChar s c with
    | ok s' => exact ih s'
    | bad => rfl
    | outside => rfl

theorem step_lit (s : St) (hs : s.mode = .normal) {c : Char} (hc : c ∉ special) :
    stepChar s c = .ok { s with cur := s.cur.push (.chr c) } := by
  have h : c ≠ '\\' ∧ c ≠ '.' ∧ c ≠ '|' ∧ c ≠ '(' ∧ c ≠ ')' ∧ c ≠ '[' ∧ c ≠ '{' ∧ c ≠ '^' ∧ c ≠ '$' ∧ c ≠ '*' ∧ c ≠ '+' ∧ c ≠ '?' := by
    refine ⟨?_, ?_, ?_, ?_, ?_, ?_, ?_, ?_, ?_, ?_, ?_, ?_⟩ <;> rintro rfl <;> exact hc (by decide)
  obtain ⟨h1, h2, h3, h4, h5, h6, h7, h8, h9, h10, h11, h12⟩ := h
  simp [stepChar, hs, foreign, h1, h2, h3, h4, h5, h6, h7, h8, h9, h10, h11, h12]

theorem run_lit (a : List Char) (s : St) (hs : s.mode = .normal) (ha : Literal a) :
    run s a = .ok { s with cur := (a.map Re.chr).foldl Frame.push s.cur } := by
  induction a generalizing s with
  | nil => rfl
  | cons c a ih =>
    simp only [run, step_lit s hs (ha c (by simp))]
    rw [ih _ (by exact hs) fun x hx => ha x (by simp [hx])]
    rfl

/-- The items of the expression of a type but the last. -/
def tyInit : Ty → Re
  | .float => .seq .eps (.plus .digit)
  | _ => .eps

/-- The last item of the expression of a type. -/
def tyLast : Ty → Re
  | .int => .plus .digit
  | .str => .plus .any
  | .float => .opt (.seq (.seq .eps (.alt (.seq .eps (.chr '.')) (.seq .eps (.chr ',')))) (.plus .digit))

/-- The expression of a type. -/
def tyRe (t : Ty) : Re := .seq (tyInit t) (tyLast t)

theorem run_name (n : List Char) (s : St) (acc : List Char) (hs : s.mode = .name acc) (hn : '>' ∉ n) :
    run s n = .ok { s with mode := .name (acc ++ n) } := by
  induction n generalizing s acc with
  | nil => simp only [run, List.append_nil, ← hs]
  | cons c n ih =>
    have hc : c ≠ '>' := fun h => hn (by simp [h])
    have e : stepChar s c = .ok { s with mode := .name (acc ++ [c]) } := by
      simp [stepChar, hs, hc]
    simp only [run, e]
    rw [ih _ (acc ++ [c]) rfl fun h => hn (by simp [h])]
    simp

theorem run_type (t : Ty) (k : Kind) (fs : List Frame) (ns : List (List Char)) :
    run ⟨Frame.fresh k, fs, .normal, ns⟩ t.regex = .ok ⟨⟨k, none, tyInit t, some (tyLast t, true)⟩, fs, .normal, ns⟩ := by
  cases t <;> rfl

theorem isName_ident {n : List Char} (h : IsName n) : isIdent n = true ∧ n.any (fun x => decide (128 ≤ x.toNat)) = false ∧ '>' ∉ n := by
  obtain ⟨h1, h2, h3⟩ := h
  have ascii : ∀ c : Char, c.isAlphanum = true ∨ c = '_' → c.toNat < 128 := by
    rintro c (h | rfl)
    · simp only [Char.isAlphanum, Char.isAlpha, Char.isUpper, Char.isLower, Char.isDigit, Bool.or_eq_true, Bool.and_eq_true,
        decide_eq_true_eq, ge_iff_le, UInt32.le_iff_toNat_le] at h
      have : c.toNat = c.val.toNat := rfl
      rcases h with (⟨_, h⟩ | ⟨_, h⟩) | ⟨_, h⟩
      · have e : 'Z'.val.toNat = 90 := rfl
        omega
      · have e : 'z'.val.toNat = 122 := rfl
        omega
      · have e : '9'.val.toNat = 57 := rfl
        omega
    · decide
  refine ⟨?_, ?_, ?_⟩
  · cases n with
    | nil => exact absurd rfl h1
    | cons c s =>
      have hd := h3 c s rfl
      have hc := h2 c (by simp)
      simp only [isIdent, Bool.and_eq_true, List.all_eq_true]
      refine ⟨?_, fun x hx => ?_⟩
      · unfold identStart
        rcases hc with hc | hc
        · rw [Char.isAlphanum, hd, Bool.or_false] at hc
          simp [hc]
        · simp [hc]
      · unfold identChar
        rcases h2 x (by simp [hx]) with h | h <;> simp [h]
  · rw [List.any_eq_false]
    intro x hx
    have := ascii x (h2 x hx)
    simp
    omega
  · intro h
    rcases h2 _ h with h | h
    · revert h; decide
    · revert h; decide

theorem run_group (s : St) (hs : s.mode = .normal) {n : List Char} (hn : IsName n) (t : Ty) :
    run s ("(?P<".toList ++ n ++ ">".toList ++ t.regex ++ ")".toList) =
      if n ∈ s.names then .bad else .ok { s with cur := s.cur.push (.group (some n) (tyRe t)), names := s.names ++ [n] } := by
  obtain ⟨h1, h2, h3⟩ := isName_ident hn
  have e1 : run s "(?P<".toList = .ok { s with mode := .name [] } := by
    obtain ⟨cur, outer, mode, names⟩ := s
    simp only at hs
    subst hs
    rfl
  rw [List.append_assoc, List.append_assoc, List.append_assoc, run_append, e1]
  dsimp only
  rw [run_append, run_name n _ [] rfl h3]
  dsimp only
  rw [List.nil_append, run_append]
  by_cases hin : n ∈ s.names
  · have e2 : run { s with mode := .name n } ">".toList = .bad := by
      show run { s with mode := .name n } ['>'] = .bad
      simp [run, stepChar, h1, h2, hin]
    rw [e2, if_pos hin]
  · have e2 : run { s with mode := .name n } ">".toList =
        .ok ⟨Frame.fresh (.named n), s.cur :: s.outer, .normal, s.names ++ [n]⟩ := by
      show run { s with mode := .name n } ['>'] = _
      simp [run, stepChar, h1, h2, hin]
    rw [e2]
    dsimp only
    rw [run_append, run_type]
    dsimp only
    rw [if_neg hin]
    show run _ [')'] = _
    cases t <;> simp [run, stepChar, foreign, Frame.close, Frame.body, Frame.branch, Frame.push, tyRe, hs]

/-! ### Matching -/

/-- A sequence of items. -/
def mtList {β : Type} : List Re → Pos → (Pos → Option β) → Option β
  | [], p, k => k p
  | r :: rs, p, k => mt r p fun q => mtList rs q k

theorem mt_foldl {β : Type} (l : List Re) (r : Re) (p : Pos) (k : Pos → Option β) :
    mt (l.foldl Re.seq r) p k = mt r p fun q => mtList l q k := by
  induction l generalizing r with
  | nil => rfl
  | cons a l ih => rw [List.foldl_cons, ih]; rfl

theorem branch_push (f : Frame) (r : Re) : (f.push r).branch = .seq f.branch r := rfl

theorem foldl_push (l : List Re) (f : Frame) : (l.foldl Frame.push f).branch = l.foldl Re.seq f.branch ∧
    (l.foldl Frame.push f).done = f.done := by
  induction l generalizing f with
  | nil => exact ⟨rfl, rfl⟩
  | cons r l ih =>
    obtain ⟨h1, h2⟩ := ih (f.push r)
    exact ⟨by rw [List.foldl_cons, h1]; rfl, by rw [List.foldl_cons, h2]; rfl⟩

theorem down_eq (n : Nat) : down (n + 1) = (down n ++ [0]).map (· + 1) := by
  induction n with
  | zero => rfl
  | succ n ih =>
    rw [down_succ (n + 1)]
    conv_rhs => rw [down_succ n, List.cons_append, List.map_cons, ← ih]

/-- An item that takes one character of a class. -/
def Single (one : Re) (P : Char → Bool) : Prop :=
  ∀ {β : Type} (p : Pos) (k : Pos → Option β), mt one p k = match p.rest with
    | [] => none
    | x :: r => if P x = true then k { p with rest := r } else none

theorem runLen_cons (P : Char → Bool) (x : Char) (r : List Char) : runLen P (x :: r) = if P x = true then runLen P r + 1 else 0 := by
  unfold runLen
  rw [List.takeWhile_cons]
  split <;> simp

theorem loop_single {β : Type} {one : Re} {P : Char → Bool} (h : Single one P) (s : List Char) (caps) (k : Pos → Option β) :
    ∀ n, s.length ≤ n → loop (mt one) n ⟨s, caps⟩ k = (down (runLen P s) ++ [0]).findSome? fun m => k ⟨s.drop m, caps⟩ := by
  induction s with
  | nil =>
    intro n _
    have e : (down (runLen P []) ++ [0]).findSome? (fun m => k ⟨List.drop m [], caps⟩) = k ⟨[], caps⟩ := by
      simp [runLen, down]
    rw [e]
    cases n with
    | zero => rfl
    | succ n =>
      rw [loop, h]
      rfl
  | cons x r ih =>
    intro n hn
    obtain ⟨m, rfl⟩ : ∃ m, n = m + 1 := ⟨n - 1, by simp at hn; omega⟩
    rw [loop, h]
    dsimp only
    rw [runLen_cons]
    by_cases hp : P x = true
    · rw [if_pos hp, if_pos hp, if_pos (by simp), ih m (by simpa using hn), down_eq,
        List.findSome?_append (ys := [0]) (xs := List.map _ _), List.findSome?_map]
      congr 1
      simp
    · rw [if_neg hp, if_neg hp]
      simp [down]

theorem mt_plus {β : Type} {one : Re} {P : Char → Bool} (h : Single one P) (s : List Char) (caps) (k : Pos → Option β) :
    mt (.plus one) ⟨s, caps⟩ k = (down (runLen P s)).findSome? fun m => k ⟨s.drop m, caps⟩ := by
  rw [mt, h]
  cases s with
  | nil => simp [runLen, down]
  | cons x r =>
    dsimp only
    rw [runLen_cons]
    by_cases hp : P x = true
    · rw [if_pos hp, if_pos hp, loop_single h r caps k _ le_rfl, down_eq, List.findSome?_map]
      rfl
    · rw [if_neg hp, if_neg hp]
      rfl

theorem findSome_flatMap {α β γ : Type} (l : List α) (f : α → List β) (g : β → Option γ) :
    (l.flatMap f).findSome? g = l.findSome? fun x => (f x).findSome? g := by
  induction l with
  | nil => rfl
  | cons a l ih =>
    rw [List.flatMap_cons, List.findSome?_append, ih, List.findSome?_cons]
    cases (f a).findSome? g <;> rfl

theorem single_digit : Single .digit Char.isDigit := by
  intro β p k
  rw [mt]
  rfl

theorem single_any : Single .any (fun c => c != '\n') := by
  intro β p k
  rw [mt]
  cases p.rest with
  | nil => rfl
  | cons x r =>
    dsimp only
    by_cases hx : x = '\n'
    · simp [hx]
    · simp [hx]

/-- A field tries the lengths that backtracking tries, in the same order. -/
theorem mt_type {β : Type} (t : Ty) (s : List Char) (caps) (k : Pos → Option β) :
    mt (tyRe t) ⟨s, caps⟩ k = (candidates t s).findSome? fun m => k ⟨s.drop m, caps⟩ := by
  cases t with
  | int => simp only [tyRe, tyInit, tyLast, mt, candidates]; exact mt_plus single_digit s caps k
  | str => simp only [tyRe, tyInit, tyLast, mt, candidates]; exact mt_plus single_any s caps k
  | float =>
    simp only [tyRe, tyInit, tyLast, candidates]
    rw [mt, mt, mt, mt_plus single_digit, findSome_flatMap]
    congr 1
    funext n
    rw [List.findSome?_append, mt]
    congr 1
    · rw [mt, mt, mt, mt]
      unfold fractionLens
      cases hd : s.drop n with
      | nil => simp [mt]
      | cons c r =>
        have key : ∀ (b : Bool), isSep c = b → (mt (Re.seq Re.eps (Re.chr '.')) { rest := c :: r, caps := caps } fun q => mt Re.digit.plus q k).or
            (mt (Re.seq Re.eps (Re.chr ',')) { rest := c :: r, caps := caps } fun q => mt Re.digit.plus q k)
            = if b = true then mt Re.digit.plus ⟨r, caps⟩ k else none := by
          rintro b rfl
          simp only [mt, isSep]
          by_cases h1 : c = '.'
          · subst h1; simp
          · by_cases h2 : c = ','
            · subst h2; simp
            · simp [h1, h2]
        rw [key _ rfl]
        by_cases hs : isSep c = true
        · simp only [hs, if_true]
          rw [mt_plus single_digit, List.findSome?_map]
          congr 1
          funext m
          have : s.drop (n + 1 + m) = r.drop m := by
            rw [← List.drop_drop, show s.drop (n + 1) = r by rw [← List.drop_drop, hd]; rfl]
          simp only [Function.comp, this]
        · simp [hs]
    · simp

/-! ### Whole expressions -/

/-- Part of a template: a literal character, or a named field. -/
abbrev El := Char ⊕ (List Char × Ty)

/-- The text it becomes in the expression. -/
def El.text : El → List Char
  | .inl c => [c]
  | .inr (n, t) => "(?P<".toList ++ n ++ ">".toList ++ t.regex ++ ")".toList

/-- The item of the expression. -/
def El.re : El → Re
  | .inl c => .chr c
  | .inr (n, t) => .group (some n) (tyRe t)

/-- The item of the item model. -/
def El.item : El → Item
  | .inl c => .lit c
  | .inr (_, t) => .field t

/-- The name of a field. -/
def El.name? : El → Option (List Char)
  | .inl _ => none
  | .inr (n, _) => some n

/-- The names of the fields. -/
def elNames (xs : List El) : List (List Char) := xs.filterMap El.name?

/-- No special characters and identifiers as names. -/
def ElOk : El → Prop
  | .inl c => c ∉ special
  | .inr (n, _) => IsName n

theorem run_els (xs : List El) (h : ∀ x ∈ xs, ElOk x) (s : St) (hs : s.mode = .normal) (hn : s.names.Nodup) :
    run s (xs.flatMap El.text) = if (s.names ++ elNames xs).Nodup then
      .ok { s with cur := (xs.map El.re).foldl Frame.push s.cur, names := s.names ++ elNames xs } else .bad := by
  induction xs generalizing s with
  | nil => simp [run, elNames, hn]
  | cons x xs ih =>
    have hx := h x (by simp)
    have hr := fun y hy => h y (List.mem_cons_of_mem x hy)
    rw [List.flatMap_cons, run_append]
    cases x with
    | inl c =>
      have e : run s (El.text (.inl c)) = .ok { s with cur := s.cur.push (.chr c) } := by
        simp only [El.text, run, step_lit s hs hx]
      rw [e]
      dsimp only
      rw [ih hr { s with cur := s.cur.push (.chr c) } hs hn]
      rfl
    | inr nt =>
      obtain ⟨n, t⟩ := nt
      have e := run_group s hs hx t
      rw [show El.text (.inr (n, t)) = "(?P<".toList ++ n ++ ">".toList ++ t.regex ++ ")".toList from rfl, e]
      have hel : elNames (Sum.inr (n, t) :: xs) = n :: elNames xs := rfl
      rw [hel]
      by_cases hin : n ∈ s.names
      · rw [if_pos hin]
        dsimp only
        rw [if_neg]
        intro hd
        exact (List.nodup_append.1 hd).2.2 n hin n (by simp) rfl
      · rw [if_neg hin]
        dsimp only
        rw [ih hr { s with cur := s.cur.push (.group (some n) (tyRe t)), names := s.names ++ [n] } hs (by
          dsimp only
          rw [List.nodup_append]
          exact ⟨hn, by simp, fun a ha b hb => by simp at hb; subst hb; rintro rfl; exact hin ha⟩)]
        simp only [List.append_assoc, List.singleton_append, List.map_cons, List.foldl_cons]
        rfl

theorem compile_els (xs : List El) (h : ∀ x ∈ xs, ElOk x) : compile (xs.flatMap El.text) =
    if (elNames xs).Nodup then .ok ((xs.map El.re).foldl Re.seq .eps) else .bad := by
  unfold compile
  rw [run_els xs h _ rfl (by simp)]
  simp only [List.nil_append]
  by_cases hd : (elNames xs).Nodup
  · rw [if_pos hd, if_pos hd]
    dsimp only
    obtain ⟨h1, h2⟩ := foldl_push (xs.map El.re) (Frame.fresh .top)
    simp only [finish, Frame.body, h1, h2]
    rfl
  · rw [if_neg hd, if_neg hd]

theorem findSome_congr {α β : Type} {f g : α → Option β} {l : List α} (h : ∀ a ∈ l, f a = g a) : l.findSome? f = l.findSome? g := by
  induction l with
  | nil => rfl
  | cons a l ih => rw [List.findSome?_cons, List.findSome?_cons, h a (by simp), ih fun b hb => h b (by simp [hb])]

theorem cand_le (t : Ty) (s : List Char) (m : Nat) (h : m ∈ candidates t s) : m ≤ s.length := ((mem_candidates t s m).1 h).1

theorem match_els (xs : List El) (s : List Char) (caps) :
    mtList (xs.map El.re) ⟨s, caps⟩ (fun p => some p.caps) =
      (matchItems (xs.map El.item) s).map fun vs => caps ++ ((elNames xs).map some).zip vs := by
  induction xs generalizing s caps with
  | nil => simp [mtList, matchItems, elNames]
  | cons x xs ih =>
    cases x with
    | inl c =>
      simp only [List.map_cons, mtList, El.re, El.item, mt]
      cases s with
      | nil => rfl
      | cons y s =>
        simp only [matchItems]
        by_cases hy : y = c
        · rw [if_pos hy, if_pos hy, ih]
          rfl
        · rw [if_neg hy, if_neg hy]
          rfl
    | inr nt =>
      obtain ⟨n, t⟩ := nt
      have hel : elNames (Sum.inr (n, t) :: xs) = n :: elNames xs := rfl
      simp only [List.map_cons, mtList, El.re, El.item, mt, mt_type, matchItems, hel]
      rw [List.map_findSome?]
      apply findSome_congr
      intro m hm
      have hle := cand_le t s m hm
      rw [ih]
      simp only [Function.comp, Option.map_map]
      congr 1
      funext vs
      have : s.length - (s.drop m).length = m := by rw [List.length_drop]; omega
      rw [this]
      simp

theorem search_els (xs : List El) (file : List Char) : search ((xs.map El.re).foldl Re.seq .eps) file =
    (Filename.search (xs.map El.item) file).map fun vs => ((elNames xs).map some).zip vs := by
  have key : ∀ s, (mt ((xs.map El.re).foldl Re.seq .eps) ⟨s, []⟩ fun p => some p.caps) =
      (matchItems (xs.map El.item) s).map fun vs => ((elNames xs).map some).zip vs := by
    intro s
    rw [mt_foldl]
    simpa [mt] using match_els xs s []
  induction file with
  | nil => rw [search, Filename.search, key]
  | cons c s ih =>
    rw [search, Filename.search, key]
    cases matchItems (xs.map El.item) (c :: s) with
    | some v => rfl
    | none => exact ih

/-- The parts of a template. -/
def elsOf (segs : List (List Char × Token × Ty)) (last : List Char) : List El :=
  segs.flatMap (fun s => s.1.map Sum.inl ++ (s.2.1.prefix_.map Sum.inl ++ [Sum.inr (s.2.1.name, s.2.2)] ++
    s.2.1.suffix.map Sum.inl)) ++ last.map Sum.inl

theorem flatMap_inl (s : List Char) : (s.map (Sum.inl : Char → El)).flatMap El.text = s := by
  induction s with
  | nil => rfl
  | cons c s ih => rw [List.map_cons, List.flatMap_cons, ih]; rfl

theorem item_inl (s : List Char) : (s.map (Sum.inl : Char → El)).map El.item = s.map Item.lit := by
  rw [List.map_map]; rfl

theorem names_inl (s : List Char) : elNames (s.map (Sum.inl : Char → El)) = [] := by
  induction s with
  | nil => rfl
  | cons c s ih => exact ih

theorem text_elsOf (segs : List (List Char × Token × Ty)) (last : List Char) : (elsOf segs last).flatMap El.text =
    segs.flatMap (fun s => s.1 ++ (s.2.1.prefix_ ++ "(?P<".toList ++ s.2.1.name ++ ">".toList ++ s.2.2.regex ++
        ")".toList ++ s.2.1.suffix)) ++ last := by
  unfold elsOf
  rw [List.flatMap_append, flatMap_inl]
  congr 1
  induction segs with
  | nil => rfl
  | cons s segs ih =>
    rw [List.flatMap_cons, List.flatMap_append, ih, List.flatMap_cons]
    congr 1
    simp only [List.flatMap_append, flatMap_inl, List.flatMap_singleton, El.text, List.append_assoc]

theorem item_elsOf (segs : List (List Char × Token × Ty)) (last : List Char) : (elsOf segs last).map El.item =
    segs.flatMap (fun s => s.1.map Item.lit ++ (s.2.1.prefix_.map .lit ++ [.field s.2.2] ++ s.2.1.suffix.map .lit)) ++
        last.map .lit := by
  unfold elsOf
  rw [List.map_append, item_inl]
  congr 1
  induction segs with
  | nil => rfl
  | cons s segs ih =>
    rw [List.flatMap_cons, List.map_append, ih, List.flatMap_cons]
    congr 1
    simp only [List.map_append, item_inl, List.map_cons, List.map_nil, El.item]

theorem names_elsOf (segs : List (List Char × Token × Ty)) (last : List Char) : elNames (elsOf segs last) =
    segs.map fun s => s.2.1.name := by
  unfold elsOf
  rw [elNames, List.filterMap_append]
  rw [show List.filterMap El.name? (last.map Sum.inl) = [] from names_inl last, List.append_nil]
  induction segs with
  | nil => rfl
  | cons s segs ih =>
    rw [List.flatMap_cons, List.filterMap_append, ih, List.map_cons]
    simp only [List.filterMap_append]
    change elNames _ ++ (elNames _ ++ _ ++ elNames _) ++ _ = _
    rw [names_inl, names_inl, names_inl]
    rfl

theorem ok_elsOf (segs : List (List Char × Token × Ty)) (last : List Char)
    (h : ∀ s ∈ segs, Literal s.1 ∧ Literal s.2.1.prefix_ ∧ Literal s.2.1.suffix ∧ IsName s.2.1.name) (hl : Literal last) :
    ∀ x ∈ elsOf segs last, ElOk x := by
  intro x hx
  have lit : ∀ l : List Char, Literal l → x ∈ l.map (Sum.inl : Char → El) → ElOk x := by
    intro l hl hx
    obtain ⟨c, hc, rfl⟩ := List.mem_map.1 hx
    exact hl c hc
  unfold elsOf at hx
  simp only [List.mem_append, List.mem_flatMap] at hx
  rcases hx with ⟨s, hs, hx⟩ | hx
  · obtain ⟨h1, h2, h3, h4⟩ := h s hs
    rcases hx with hx | ((hx | hx) | hx)
    · exact lit _ h1 hx
    · exact lit _ h2 hx
    · rw [List.mem_singleton] at hx
      subst hx
      exact h4
    · exact lit _ h3 hx
  · exact lit _ hl hx

end Surfalize.Regex
