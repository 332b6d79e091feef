import Verif.Spec.Filename
import Verif.Lemmas.MapM
import Mathlib.Tactic.Ring
import Mathlib.Tactic.FieldSimp
import Mathlib.Tactic.NormNum
import Mathlib.Data.Nat.Digits.Defs

/-! Helper lemmas for filename templates. -/
set_option linter.unusedSectionVars false
namespace Surfalize.FilenameLemmas
open Surfalize.Filename Surfalize.FilenameSpec

/-! ### Parsing -/

theorem splitBar_ne_nil (s : List Char) : splitBar s ≠ [] := by
  cases s with
  | nil => simp [splitBar]
  | cons c s =>
    simp only [splitBar]
    cases splitBar s with
    | nil => simp
    | cons w ws => simp only; split <;> simp

theorem splitBar_noBar (s : List Char) (h : '|' ∉ s) : splitBar s = [s] := by
  induction s with
  | nil => rfl
  | cons c s ih =>
    simp only [List.mem_cons, not_or] at h
    simp only [splitBar, ih h.2]
    rw [if_neg fun hc => h.1 hc.symm]

theorem splitBar_append (a s : List Char) (h : '|' ∉ a) : splitBar (a ++ '|' :: s) = a :: splitBar s := by
  induction a with
  | nil =>
    simp only [List.nil_append, splitBar]
    cases hs : splitBar s with
    | nil => exact absurd hs (splitBar_ne_nil s)
    | cons w ws => simp
  | cons c a ih =>
    simp only [List.mem_cons, not_or] at h
    simp only [List.cons_append, splitBar, ih h.2]
    rw [if_neg fun hc => h.1 hc.symm]

theorem splitBar_length (s : List Char) : (splitBar s).length = s.count '|' + 1 := by
  induction s with
  | nil => rfl
  | cons c s ih =>
    simp only [splitBar]
    cases hs : splitBar s with
    | nil => exact absurd hs (splitBar_ne_nil s)
    | cons w ws =>
      rw [hs] at ih
      simp only [List.length_cons] at ih
      by_cases hc : c = '|'
      · subst hc; simp [ih]
      · simp only [if_neg hc, List.length_cons, List.count_cons_of_ne hc, ih]

theorem loop_append (s : St) (a b : List Char) : loop s (a ++ b) =
    match loop s a with
    | .error e => .error e
    | .ok s' => loop s' b := by
  induction a generalizing s with
  | nil => rfl
  | cons c a ih =>
    simp only [List.cons_append, loop]
    cases stepChar s c with
    | error e => rfl
    | ok s' => exact ih s'

theorem loop_literal (s : St) (hs : s.started = false) (a : List Char) (ha : NoBracket a) :
    loop s a = .ok { s with separator := s.separator ++ a } := by
  induction a generalizing s with
  | nil => simp [loop]
  | cons c a ih =>
    obtain ⟨h1, h2⟩ := ha
    simp only [List.mem_cons, not_or] at h1 h2
    have : stepChar s c = .ok { s with separator := s.separator ++ [c] } := by
      unfold stepChar
      rw [if_neg fun h => h1.1 h.symm, if_neg fun h => h2.1 h.symm, hs]
      rfl
    simp only [loop, this]
    rw [ih { s with separator := s.separator ++ [c] } hs ⟨h1.2, h2.2⟩]
    simp

theorem loop_token (s : St) (hs : s.started = true) (a : List Char) (ha : NoBracket a) :
    loop s a = .ok { s with token := s.token ++ a } := by
  induction a generalizing s with
  | nil => simp [loop]
  | cons c a ih =>
    obtain ⟨h1, h2⟩ := ha
    simp only [List.mem_cons, not_or] at h1 h2
    have : stepChar s c = .ok { s with token := s.token ++ [c] } := by
      unfold stepChar
      rw [if_neg fun h => h1.1 h.symm, if_neg fun h => h2.1 h.symm, hs]
      rfl
    simp only [loop, this]
    rw [ih { s with token := s.token ++ [c] } hs ⟨h1.2, h2.2⟩]
    simp

/-- After literal text and an opened token. -/
theorem loop_open (s : St) (hs : s.started = false) (a t : List Char) (ha : NoBracket a) (ht : NoBracket t) :
    loop s (a ++ '<' :: t) = .ok ⟨s.tokens, s.separators ++ [s.separator ++ a], true, [], t⟩ := by
  rw [loop_append, loop_literal s hs a ha]
  simp only
  have : stepChar { s with separator := s.separator ++ a } '<' =
      .ok ⟨s.tokens, s.separators ++ [s.separator ++ a], true, [], []⟩ := by
    unfold stepChar
    rw [if_pos rfl]
    simp [hs]
  simp only [loop, this]
  rw [loop_token _ rfl t ht]
  simp

/-- A whole segment. -/
theorem loop_segment (s : St) (hs : s.started = false) (a t : List Char) (ha : NoBracket a) (ht : NoBracket t) (tok : Token)
    (htok : extractToken t = .ok tok) :
    loop s (a ++ '<' :: t ++ ['>']) = .ok ⟨s.tokens ++ [tok], s.separators ++ [s.separator ++ a], false, [], t⟩ := by
  rw [loop_append, loop_open s hs a t ha ht]
  simp only [loop, stepChar, htok]
  rfl

theorem loop_segments (segs : List (List Char × List Char)) (toks : List Token)
    (hb : ∀ s ∈ segs, NoBracket s.1 ∧ NoBracket s.2)
    (ht : List.Forall₂ (fun s t => extractToken s.2 = .ok t) segs toks) (s : St) (hs : s.started = false)
    (hsep : s.separator = []) :
    ∃ tk, loop s (segs.flatMap fun s => s.1 ++ '<' :: s.2 ++ ['>']) =
      .ok ⟨s.tokens ++ toks, s.separators ++ segs.map Prod.fst, false, [], tk⟩ := by
  induction ht generalizing s with
  | nil =>
    refine ⟨s.token, ?_⟩
    simp only [List.flatMap_nil, loop, List.append_nil, List.map_nil]
    obtain ⟨a, b, c, d, e⟩ := s
    simp only at hs hsep
    subst hs hsep; rfl
  | @cons seg tok segs toks h1 _ ih =>
    have hb1 := hb seg (by simp)
    rw [List.flatMap_cons, loop_append, loop_segment s hs seg.1 seg.2 hb1.1 hb1.2 tok h1]
    simp only
    obtain ⟨tk, h⟩ := ih (fun s hs => hb s (by simp [hs])) ⟨s.tokens ++ [tok], s.separators ++ [s.separator ++ seg.1],
      false, [], seg.2⟩ rfl rfl
    refine ⟨tk, ?_⟩
    rw [h]
    simp [hsep]

/-! ### Matching -/

theorem mem_down (n k : Nat) : k ∈ down n ↔ 1 ≤ k ∧ k ≤ n := by
  unfold down
  simp only [List.mem_map, List.mem_reverse, List.mem_range]
  constructor
  · rintro ⟨a, h, rfl⟩; omega
  · rintro ⟨h1, h2⟩; exact ⟨k - 1, by omega, by omega⟩

theorem down_succ (n : Nat) : down (n + 1) = (n + 1) :: down n := by
  unfold down
  rw [List.range_succ, List.reverse_append]
  simp

theorem runLen_le (p : Char → Bool) (s : List Char) : runLen p s ≤ s.length := by
  unfold runLen; exact (List.takeWhile_prefix p).length_le

theorem le_runLen_iff (p : Char → Bool) (s : List Char) (k : Nat) :
    k ≤ runLen p s ↔ k ≤ s.length ∧ ∀ c ∈ s.take k, p c = true := by
  induction s generalizing k with
  | nil => simp [runLen]
  | cons c s ih =>
    cases k with
    | zero => simp
    | succ k =>
      unfold runLen at ih ⊢
      simp only [List.takeWhile_cons, List.take_succ_cons, List.mem_cons, List.length_cons]
      cases hp : p c with
      | false => simp [hp]
      | true =>
        simp only [List.length_cons, Nat.add_le_add_iff_right, ih, if_true]
        constructor
        · rintro ⟨h1, h2⟩
          exact ⟨h1, by rintro x (rfl | hx); exacts [hp, h2 x hx]⟩
        · rintro ⟨h1, h2⟩
          exact ⟨h1, fun x hx => h2 x (.inr hx)⟩

theorem runLen_append (p : Char → Bool) (v t : List Char) (hv : ∀ c ∈ v, p c = true)
    (ht : ∀ c r, t = c :: r → p c = false) : runLen p (v ++ t) = v.length := by
  unfold runLen
  rw [List.takeWhile_append_of_pos hv]
  have : t.takeWhile p = [] := by
    cases t with
    | nil => rfl
    | cons c r => simp [ht c r rfl]
  rw [this, List.append_nil]

theorem mem_candidates_int (s : List Char) (n : Nat) :
    n ∈ candidates .int s ↔ n ≤ s.length ∧ Valid .int (s.take n) := by
  simp only [candidates, mem_down, le_runLen_iff, Valid]
  constructor
  · rintro ⟨h1, h2, h3⟩
    exact ⟨h2, by intro h; have := congrArg List.length h; simp only [List.length_take, List.length_nil] at this; omega, h3⟩
  · rintro ⟨h1, h2, h3⟩
    refine ⟨?_, h1, h3⟩
    by_contra h0
    apply h2
    have : n = 0 := by omega
    simp [this]

theorem mem_candidates_str (s : List Char) (n : Nat) :
    n ∈ candidates .str s ↔ n ≤ s.length ∧ Valid .str (s.take n) := by
  simp only [candidates, mem_down, le_runLen_iff, Valid]
  constructor
  · rintro ⟨h1, h2, h3⟩
    refine ⟨h2, by intro h; have := congrArg List.length h; simp only [List.length_take, List.length_nil] at this; omega, ?_⟩
    intro hm
    have := h3 _ hm
    simp at this
  · rintro ⟨h1, h2, h3⟩
    refine ⟨?_, h1, ?_⟩
    · by_contra h0
      apply h2
      have : n = 0 := by omega
      simp [this]
    · intro c hc
      have : c ≠ '\n' := by rintro rfl; exact h3 hc
      simpa using this

theorem isSep_iff (c : Char) : isSep c = true ↔ c = '.' ∨ c = ',' := by
  simp [isSep]

theorem sep_not_digit {c : Char} (h : c = '.' ∨ c = ',') : c.isDigit = false := by
  rcases h with rfl | rfl <;> decide

theorem mem_candidates_float (s : List Char) (n : Nat) :
    n ∈ candidates .float s ↔ n ≤ s.length ∧ Valid .float (s.take n) := by
  simp only [candidates, List.mem_flatMap, List.mem_append, List.mem_singleton, mem_down, le_runLen_iff]
  constructor
  · rintro ⟨k, ⟨hk1, hk2, hk3⟩, h | rfl⟩
    · cases hd : s.drop k with
      | nil => rw [hd] at h; simp [fractionLens] at h
      | cons c r =>
        rw [hd] at h
        simp only [fractionLens] at h
        by_cases hc : isSep c = true
        · rw [if_pos hc] at h
          simp only [List.mem_map, mem_down, le_runLen_iff] at h
          obtain ⟨m, ⟨hm1, hm2, hm3⟩, rfl⟩ := h
          have hs : s = s.take k ++ c :: r := by rw [← hd, List.take_append_drop]
          have hlk : (s.take k).length = k := by rw [List.length_take]; omega
          have hlen : s.length = k + 1 + r.length := by
            have := congrArg List.length hs
            simp only [List.length_append, List.length_cons, hlk] at this
            omega
          refine ⟨by omega, .inr ⟨s.take k, c, r.take m, ?_, (isSep_iff c).1 hc, ?_, ?_, hk3, hm3⟩⟩
          · have h2 : s.take (k + 1 + m) = (s.take k ++ c :: r).take (k + 1 + m) := by rw [← hs]
            rw [h2, List.take_append, hlk, List.take_of_length_le (by omega)]
            have : k + 1 + m - k = m + 1 := by omega
            rw [this, List.take_succ_cons]
          · intro h0; have := congrArg List.length h0; rw [hlk] at this; simp at this; omega
          · intro h0; have := congrArg List.length h0; simp only [List.length_take, List.length_nil] at this; omega
        · rw [if_neg hc] at h; simp at h
    · exact ⟨hk2, .inl ⟨by intro h; have := congrArg List.length h; simp only [List.length_take, List.length_nil] at this; omega, hk3⟩⟩
  · rintro ⟨hn, h⟩
    rcases h with ⟨h1, h2⟩ | ⟨a, c, b, hv, hc, ha, hb, hda, hdb⟩
    · refine ⟨n, ⟨?_, hn, h2⟩, .inr rfl⟩
      by_contra h0
      apply h1
      have : n = 0 := by omega
      simp [this]
    · have hlen : n = a.length + 1 + b.length := by
        have := congrArg List.length hv
        rw [List.length_take] at this
        simp only [List.length_append, List.length_cons] at this
        omega
      have hs : s = a ++ c :: (b ++ s.drop n) := by
        conv_lhs => rw [← List.take_append_drop n s, hv]
        simp
      have hpos : 0 < a.length := List.length_pos_iff.2 ha
      have hposb : 0 < b.length := List.length_pos_iff.2 hb
      have htk : s.take a.length = a := by rw [hs, List.take_append, List.take_of_length_le (by omega)]; simp
      have hdr : s.drop a.length = c :: (b ++ s.drop n) := by
        conv_lhs => rw [hs]
        rw [List.drop_append, List.drop_of_length_le (by omega)]; simp
      refine ⟨a.length, ⟨hpos, by omega, by rw [htk]; exact hda⟩, .inl ?_⟩
      rw [hdr]
      simp only [fractionLens]
      rw [if_pos ((isSep_iff c).2 hc)]
      simp only [List.mem_map, mem_down, le_runLen_iff]
      refine ⟨b.length, ⟨hposb, by simp, ?_⟩, by omega⟩
      rw [List.take_append, List.take_of_length_le (by omega)]
      simpa using hdb

/-- The candidates are exactly the valid texts. -/
theorem mem_candidates (t : Ty) (s : List Char) (n : Nat) :
    n ∈ candidates t s ↔ n ≤ s.length ∧ Valid t (s.take n) := by
  cases t with
  | int => exact mem_candidates_int s n
  | str => exact mem_candidates_str s n
  | float => exact mem_candidates_float s n

theorem matchItems_sound (is : List Item) (s : List Char) (caps : List (List Char)) (h : matchItems is s = some caps) :
    Fits is caps ∧ ∃ b, s = fill is caps ++ b := by
  induction is generalizing s caps with
  | nil =>
    simp only [matchItems, Option.some.injEq] at h
    subst h
    exact ⟨.nil, s, rfl⟩
  | cons i is ih =>
    cases i with
    | lit c =>
      cases s with
      | nil => simp [matchItems] at h
      | cons x s =>
        simp only [matchItems] at h
        by_cases hx : x = c
        · rw [if_pos hx] at h
          obtain ⟨h1, b, h2⟩ := ih s caps h
          exact ⟨h1, b, by simp only [fill]; rw [hx, h2]; rfl⟩
        · rw [if_neg hx] at h; cases h
    | field t =>
      simp only [matchItems] at h
      obtain ⟨n, hn, hm⟩ := List.exists_of_findSome?_eq_some h
      cases hr : matchItems is (s.drop n) with
      | none => rw [hr] at hm; simp at hm
      | some cs =>
        rw [hr] at hm
        simp only [Option.map_some, Option.some.injEq] at hm
        subst hm
        obtain ⟨h1, b, h2⟩ := ih _ cs hr
        obtain ⟨hlen, hv⟩ := (mem_candidates t s n).1 hn
        refine ⟨.cons hv h1, b, ?_⟩
        simp only [fill]
        rw [List.append_assoc, ← h2, List.take_append_drop]

theorem matchItems_complete (is : List Item) (caps : List (List Char)) (h : Fits is caps) (b : List Char) :
    ∃ r, matchItems is (fill is caps ++ b) = some r := by
  induction is generalizing caps with
  | nil => exact ⟨[], rfl⟩
  | cons i is ih =>
    cases i with
    | lit c =>
      obtain ⟨r, hr⟩ := ih caps h
      exact ⟨r, by simp only [fill, List.cons_append, matchItems, if_true]; exact hr⟩
    | field t =>
      unfold Fits at h
      simp only [fieldTypes, List.filterMap_cons] at h
      cases h with
      | @cons _ v _ vs hv hvs =>
        obtain ⟨r, hr⟩ := ih vs hvs
        simp only [fill, matchItems]
        have hmem : v.length ∈ candidates t (v ++ fill is vs ++ b) := by
          rw [mem_candidates]
          refine ⟨by simp, ?_⟩
          rw [List.append_assoc, List.take_left']
          · exact hv
          · rfl
        have hsome : ((matchItems is ((v ++ fill is vs ++ b).drop v.length)).map
            ((v ++ fill is vs ++ b).take v.length :: ·)) ≠ none := by
          rw [List.append_assoc, List.drop_left' rfl, hr]
          simp
        cases hf : (candidates t (v ++ fill is vs ++ b)).findSome? fun n =>
            (matchItems is ((v ++ fill is vs ++ b).drop n)).map ((v ++ fill is vs ++ b).take n :: ·) with
        | some r => exact ⟨r, rfl⟩
        | none =>
          rw [List.findSome?_eq_none_iff] at hf
          exact absurd (hf _ hmem) hsome

/-- How often the delimiter occurs among the literals. -/
def litCount (c : Char) (is : List Item) : Nat := is.countP fun i => decide (i = .lit c)

theorem count_fill_ge (c : Char) (is : List Item) (vs : List (List Char)) (h : Fits is vs) :
    litCount c is ≤ (fill is vs).count c := by
  induction is generalizing vs with
  | nil => simp [litCount]
  | cons i is ih =>
    cases i with
    | lit x =>
      have := ih vs h
      simp only [fill, litCount, List.countP_cons] at this ⊢
      by_cases hx : x = c
      · subst hx; simp; omega
      · rw [List.count_cons_of_ne hx]; simp [hx]; exact this
    | field t =>
      unfold Fits at h
      simp only [fieldTypes, List.filterMap_cons] at h
      cases h with
      | @cons _ v _ vs hv hvs =>
        have := ih vs hvs
        simp only [fill, litCount, List.countP_cons, List.count_append] at this ⊢
        simp
        omega

theorem count_fill_eq (c : Char) (is : List Item) (vs : List (List Char)) (h : Fits is vs) (hc : ∀ v ∈ vs, c ∉ v) :
    (fill is vs).count c = litCount c is := by
  induction is generalizing vs with
  | nil => simp [litCount, fill]
  | cons i is ih =>
    cases i with
    | lit x =>
      have := ih vs h hc
      simp only [fill, litCount, List.countP_cons] at this ⊢
      by_cases hx : x = c
      · subst hx; simp; omega
      · rw [List.count_cons_of_ne hx]; simp [hx]; exact this
    | field t =>
      unfold Fits at h
      simp only [fieldTypes, List.filterMap_cons] at h
      cases h with
      | @cons _ v _ vs hv hvs =>
        have := ih vs hvs fun w hw => hc w (by simp [hw])
        have h0 : v.count c = 0 := List.count_eq_zero.2 (hc v (by simp))
        simp only [fill, litCount, List.countP_cons, List.count_append] at this ⊢
        simp
        omega

theorem findSome?_cons_first {α β : Type} (f : α → Option β) (l1 l2 : List α) (a : α) (b : β)
    (h1 : ∀ x ∈ l1, f x = none) (h2 : f a = some b) : (l1 ++ a :: l2).findSome? f = some b := by
  rw [List.findSome?_append, List.findSome?_eq_none_iff.2 h1]
  simp [h2]

theorem down_split (n k : Nat) (h1 : 1 ≤ k) (h2 : k ≤ n) :
    ∃ l1 l2, down n = l1 ++ k :: l2 ∧ ∀ x ∈ l1, k < x ∧ x ≤ n := by
  induction n with
  | zero => omega
  | succ n ih =>
    rw [down_succ]
    by_cases hk : k = n + 1
    · subst hk; exact ⟨[], down n, rfl, by simp⟩
    · obtain ⟨l1, l2, h, hx⟩ := ih (by omega)
      refine ⟨(n + 1) :: l1, l2, by rw [h]; rfl, ?_⟩
      intro x hm
      rcases List.mem_cons.1 hm with rfl | hm
      · omega
      · have := hx x hm; omega

/-- A readable file name is read back: the match at the start captures the field values. -/
theorem matchItems_roundtrip (delim : Char) (is : List Item) (vs : List (List Char)) (rest : List Char)
    (hf : Fits is vs) (hd : ∀ v ∈ vs, delim ∉ v) (hrest : delim ∉ rest) (hr : Readable delim is vs rest) :
    matchItems is (fill is vs ++ rest) = some vs := by
  induction is generalizing vs with
  | nil =>
    unfold Fits at hf
    simp only [fieldTypes, List.filterMap_nil] at hf
    cases hf; rfl
  | cons i is ih =>
    cases i with
    | lit c =>
      simp only [fill, List.cons_append, matchItems, if_true]
      exact ih vs hf hd hr
    | field t =>
      unfold Fits at hf
      simp only [fieldTypes, List.filterMap_cons] at hf
      cases hf with
      | @cons _ v _ vs hv hvs =>
        obtain ⟨hr1, hr2⟩ := hr
        have hih := ih vs hvs (fun w hw => hd w (by simp [hw])) hr1
        simp only [fill, matchItems]
        rw [List.append_assoc]
        generalize ht : fill is vs ++ rest = tail at hih hr2
        have good : (matchItems is ((v ++ tail).drop v.length)).map ((v ++ tail).take v.length :: ·) = some (v :: vs) := by
          rw [List.drop_left' rfl, List.take_left' rfl, hih]; rfl
        cases t with
        | int =>
          have hrun : runLen Char.isDigit (v ++ tail) = v.length := runLen_append _ _ _ hv.2 hr2
          simp only [candidates, hrun]
          obtain ⟨k, hk⟩ : ∃ k, v.length = k + 1 := ⟨v.length - 1, by
            have := List.length_pos_iff.2 hv.1; omega⟩
          rw [hk, down_succ, ← hk]
          exact findSome?_cons_first _ [] _ _ _ (by simp) good
        | float =>
          simp only at hr2
          obtain ⟨hn1, hn2⟩ := hr2
          rcases hv with ⟨h1, h2⟩ | ⟨a, c, b, rfl, hc, ha, hb, hda, hdb⟩
          · have hrun : runLen Char.isDigit (v ++ tail) = v.length := runLen_append _ _ _ h2 hn1
            simp only [candidates, hrun]
            obtain ⟨k, hk⟩ : ∃ k, v.length = k + 1 := ⟨v.length - 1, by
              have := List.length_pos_iff.2 h1; omega⟩
            rw [hk, down_succ, ← hk, List.flatMap_cons, List.drop_left' rfl]
            have hnone : fractionLens v.length tail = [] := by
              clear good hih hrun ht
              cases tail with
              | nil => rfl
              | cons c r =>
                simp only [fractionLens]
                by_cases hc : isSep c = true
                · rw [if_pos hc]
                  have : runLen Char.isDigit r = 0 := by
                    cases r with
                    | nil => rfl
                    | cons d r =>
                      have := hn2 h2 c d r rfl ((isSep_iff c).1 hc)
                      simp [runLen, this]
                  rw [this]; rfl
                · rw [if_neg hc]
            rw [hnone]
            exact findSome?_cons_first _ [] _ _ _ (by simp) good
          · have hrun : runLen Char.isDigit ((a ++ c :: b) ++ tail) = a.length := by
              rw [List.append_assoc]
              apply runLen_append _ _ _ hda
              intro x r hx
              simp only [List.cons_append, List.cons.injEq] at hx
              rw [← hx.1]; exact sep_not_digit hc
            simp only [candidates, hrun]
            obtain ⟨k, hk⟩ : ∃ k, a.length = k + 1 := ⟨a.length - 1, by
              have := List.length_pos_iff.2 ha; omega⟩
            have hdrop : ((a ++ c :: b) ++ tail).drop a.length = c :: (b ++ tail) := by
              rw [List.append_assoc, List.drop_left' rfl]; rfl
            have hrun2 : runLen Char.isDigit (b ++ tail) = b.length := runLen_append _ _ _ hdb hn1
            obtain ⟨m, hm⟩ : ∃ m, b.length = m + 1 := ⟨b.length - 1, by
              have := List.length_pos_iff.2 hb; omega⟩
            rw [hk, down_succ, ← hk, List.flatMap_cons, hdrop]
            simp only [fractionLens]
            rw [if_pos ((isSep_iff c).2 hc), hrun2, hm, down_succ, ← hm]
            have hlen : a.length + 1 + b.length = (a ++ c :: b).length := by simp; omega
            simp only [List.map_cons, List.cons_append, hlen]
            exact findSome?_cons_first _ [] _ _ _ (by simp) good
        | str =>
          simp only at hr2
          have hvpos : 1 ≤ v.length := List.length_pos_iff.2 hv.1
          have hle : v.length ≤ runLen (fun c => c != '\n') (v ++ tail) := by
            rw [le_runLen_iff]
            refine ⟨by simp, ?_⟩
            rw [List.take_left' rfl]
            intro x hx
            have : x ≠ '\n' := by rintro rfl; exact hv.2 hx
            simpa using this
          obtain ⟨l1, l2, hsplit, hl1⟩ := down_split _ v.length hvpos hle
          simp only [candidates]
          rw [hsplit]
          refine findSome?_cons_first _ l1 l2 _ _ ?_ good
          intro n hn
          obtain ⟨hn1, hn2⟩ := hl1 n hn
          have hnl : n ≤ (v ++ tail).length := le_trans hn2 (runLen_le _ _)
          rcases hr2 with ⟨is', his⟩ | hnil
          · -- a longer text would swallow the delimiter
            cases hmt : matchItems is ((v ++ tail).drop n) with
            | none => rfl
            | some cs =>
              exfalso
              obtain ⟨hfit, b, hb⟩ := matchItems_sound _ _ _ hmt
              have hdrop : (v ++ tail).drop n = tail.drop (n - v.length) := by
                rw [List.drop_append, List.drop_of_length_le (by omega), List.nil_append]
              rw [hdrop] at hb
              have c1 : litCount delim is ≤ (tail.drop (n - v.length)).count delim := by
                rw [hb, List.count_append]
                exact le_trans (count_fill_ge delim is cs hfit) (Nat.le_add_right _ _)
              have c2 : tail.count delim = litCount delim is := by
                rw [← ht, List.count_append, count_fill_eq delim is vs hvs fun w hw => hd w (by simp [hw]),
                  List.count_eq_zero.2 hrest]
                rfl
              have c3 : 1 ≤ (tail.take (n - v.length)).count delim := by
                have : tail = delim :: (fill is' vs ++ rest) := by rw [← ht, his]; rfl
                rw [this]
                obtain ⟨k, hk⟩ : ∃ k, n - v.length = k + 1 := ⟨n - v.length - 1, by omega⟩
                rw [hk, List.take_succ_cons, List.count_cons_self]
                omega
              have c4 : tail.count delim = (tail.take (n - v.length)).count delim + (tail.drop (n - v.length)).count delim := by
                rw [← List.count_append, List.take_append_drop]
              omega
          · rw [hnil, List.append_nil] at hnl
            omega

theorem search_of_match (is : List Item) (s : List Char) (r : List (List Char)) (h : matchItems is s = some r) :
    search is s = some r := by
  cases s with
  | nil => exact h
  | cons c s => simp only [search, h]

theorem search_sound (is : List Item) (s : List Char) (r : List (List Char)) (h : search is s = some r) :
    Fits is r ∧ ∃ a b, s = a ++ fill is r ++ b := by
  induction s with
  | nil =>
    obtain ⟨h1, b, h2⟩ := matchItems_sound is [] r h
    exact ⟨h1, [], b, h2⟩
  | cons c s ih =>
    simp only [search] at h
    cases hm : matchItems is (c :: s) with
    | some r' =>
      rw [hm] at h
      simp only [Option.some.injEq] at h
      subst h
      obtain ⟨h1, b, h2⟩ := matchItems_sound is _ _ hm
      exact ⟨h1, [], b, h2⟩
    | none =>
      rw [hm] at h
      obtain ⟨h1, a, b, h2⟩ := ih h
      exact ⟨h1, c :: a, b, by rw [h2]; rfl⟩

theorem search_complete (is : List Item) (vs : List (List Char)) (h : Fits is vs) (a b : List Char) :
    ∃ r, search is (a ++ fill is vs ++ b) = some r := by
  induction a with
  | nil =>
    obtain ⟨r, hr⟩ := matchItems_complete is vs h b
    exact ⟨r, search_of_match _ _ _ hr⟩
  | cons c a ih =>
    simp only [List.cons_append, search]
    cases hm : matchItems is (c :: (a ++ fill is vs ++ b)) with
    | some r => exact ⟨r, rfl⟩
    | none => exact ih

/-! ### Numbers -/

theorem digitsVal_append (a b : List Char) : digitsVal (a ++ b) = digitsVal a * 10 ^ b.length + digitsVal b := by
  have gen : ∀ (b : List Char) (n : Nat), b.foldl (fun n c => 10 * n + (c.toNat - 48)) n
      = n * 10 ^ b.length + b.foldl (fun n c => 10 * n + (c.toNat - 48)) 0 := by
    intro b
    induction b with
    | nil => intro n; simp
    | cons c b ih =>
      intro n
      simp only [List.foldl_cons, List.length_cons]
      rw [ih (10 * n + (c.toNat - 48)), ih (10 * 0 + (c.toNat - 48)), pow_succ]
      ring
  unfold digitsVal
  rw [List.foldl_append, gen]

end Surfalize.FilenameLemmas
