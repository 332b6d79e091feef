import Verif.Lemmas.FitsLayer
import Verif.Lemmas.Text
import Verif.Spec.FitsFile
/-! # Reading the headers of FITS files -/
set_option linter.unusedSectionVars false
namespace Surfalize
namespace Fits
open LayoutM FileArr Gwy FitsSpec

variable {K : Type} [Field K] [LinearOrder K]

/-! ## Texts -/

theorem isSpace_printable {c : Char} (h : 32 < c.toNat) (h2 : c.toNat < 127) : isSpace c = false := by
  by_contra hc
  simp only [Bool.not_eq_false, isSpace, Bool.or_eq_true, decide_eq_true_eq] at hc
  rcases hc with ((((rfl | rfl) | rfl) | rfl) | rfl) | rfl <;> revert h <;> decide

theorem isSpace_ne {c : Char} (h : 32 ≤ c.toNat) (h2 : c.toNat < 127) (h3 : c ≠ ' ') : isSpace c = false := by
  by_contra hc
  simp only [Bool.not_eq_false, isSpace, Bool.or_eq_true, decide_eq_true_eq] at hc
  rcases hc with ((((rfl | rfl) | rfl) | rfl) | rfl) | rfl <;> revert h h3 <;> decide

theorem blank_space {s : List Char} (h : Blank s) : ∀ c ∈ s, isSpace c = true := by
  intro c hc; rw [h c hc]; rfl

/-- What ends with a character that is not stripped stays. -/
theorem rstrip_append_last (p : Char → Bool) (s t : List Char) (c : Char) (hc : p c = false) :
    rstrip p (s ++ c :: t) = s ++ c :: rstrip p t := by
  unfold rstrip
  have : (s ++ c :: t).reverse = t.reverse ++ (c :: s.reverse) := by simp
  rw [this]
  have key : ∀ l : List Char, (l ++ c :: s.reverse).dropWhile p = l.dropWhile p ++ c :: s.reverse := by
    intro l
    induction l with
    | nil => simp [hc]
    | cons x l ih =>
      rw [List.cons_append, List.dropWhile_cons, List.dropWhile_cons]
      split
      · exact ih
      · rfl
  rw [key]
  simp

theorem rstrip_all (p : Char → Bool) (s : List Char) (h : ∀ c ∈ s, p c = true) : rstrip p s = [] := by
  have := rstrip_append_all p [] s h
  rw [List.nil_append] at this
  rw [this]; rfl

theorem dropWhile_all {p : Char → Bool} (s t : List Char) (h : ∀ c ∈ s, p c = true) :
    (s ++ t).dropWhile p = t.dropWhile p := List.dropWhile_append_of_pos h

/-- A text between blanks. -/
theorem strip_mid (b t c : List Char) (hb : ∀ x ∈ b, isSpace x = true) (hc : ∀ x ∈ c, isSpace x = true)
    (h1 : ∀ x ∈ t.head?, isSpace x = false) (h2 : ∀ x ∈ t.getLast?, isSpace x = false) :
    strip (b ++ (t ++ c)) = t := by
  unfold strip
  rw [dropWhile_all _ _ hb]
  cases t with
  | nil =>
    have := dropWhile_all (p := isSpace) c [] hc
    rw [List.append_nil] at this
    rw [List.nil_append, this]
    rfl
  | cons x t =>
    rw [List.cons_append, List.dropWhile_cons_of_neg (by rw [h1 x (by simp)]; simp)]
    rw [← List.cons_append, rstrip_append_all _ _ _ hc, rstrip_self _ _ h2]

theorem val_first {t : List Char} (h : Val t) : ∀ x ∈ t.head?, isSpace x = false := by
  intro x hx
  have hm : x ∈ t := by
    cases t with
    | nil => cases hx
    | cons y t => rw [List.head?_cons, Option.mem_some_iff] at hx; simp [hx]
  obtain ⟨a, b, -⟩ := h.chars x hm
  refine isSpace_ne a b ?_
  rintro rfl
  exact h.first hx

theorem val_last {t : List Char} (h : Val t) : ∀ x ∈ t.getLast?, isSpace x = false := by
  intro x hx
  have hm : x ∈ t := List.mem_of_getLast? hx
  obtain ⟨a, b, -⟩ := h.chars x hm
  refine isSpace_ne a b ?_
  rintro rfl
  exact h.last hx

/-! ## One line -/

theorem removeAll_self (p : List Char) (hp : ' ' ∈ p) : ∀ n (s : List Char), ' ' ∉ s → removeAll p n s = s
  | 0, s, _ => by rw [removeAll]
  | n + 1, [], _ => by rw [removeAll]
  | n + 1, c :: s, h => by
    rw [removeAll, if_neg, removeAll_self p hp n s (fun hs => h (List.mem_cons_of_mem _ hs))]
    intro hpre
    exact h ((List.isPrefixOf_iff_prefix.1 hpre).subset hp)

theorem keyOf_spec (pre key a : List Char) (hpre : pre = [] ∨ pre = "HIERARCH ".toList) (hk : Name key)
    (ha : Blank a) : keyOf (pre ++ (key ++ a)) = key := by
  have hsp : ∀ c ∈ key, isSpace c = false := fun c hc =>
    isSpace_printable (hk.chars c hc).1 (hk.chars c hc).2.1
  have hns : ' ' ∉ key := by
    intro h
    have := (hk.chars ' ' h).1
    revert this; decide
  have hl : ∀ x ∈ key.getLast?, isSpace x = false := fun x hx => hsp x (List.mem_of_getLast? hx)
  unfold keyOf
  rcases hpre with rfl | rfl
  · have : strip ([] ++ (key ++ a)) = key := by
      refine strip_mid [] key a (by simp) (blank_space ha) ?_ hl
      intro x hx
      refine hsp x ?_
      cases key with
      | nil => cases hx
      | cons y t => rw [List.head?_cons, Option.mem_some_iff] at hx; simp [hx]
    rw [this, if_neg]
    intro h
    exact hk.notLong (List.isPrefixOf_iff_prefix.1 h)
  · have : strip ("HIERARCH ".toList ++ (key ++ a)) = "HIERARCH ".toList ++ key := by
      have := strip_mid [] ("HIERARCH ".toList ++ key) a (by simp) (blank_space ha) (by
        intro x hx
        have : x = 'H' := by
          have e : ("HIERARCH ".toList ++ key).head? = some 'H' := rfl
          rw [e, Option.mem_some_iff] at hx
          exact hx.symm
        subst this; decide) (by
        intro x hx
        rw [List.getLast?_append] at hx
        cases hg : key.getLast? with
        | none => exact absurd (List.getLast?_eq_none_iff.1 hg) hk.nonempty
        | some y =>
          rw [hg, Option.some_or, Option.mem_some_iff] at hx
          subst hx
          exact hl y hg)
      rw [List.nil_append, List.append_assoc] at this
      exact this
    rw [this, if_pos]
    · rw [show ("HIERARCH ".toList ++ key).length = (key.length + 8) + 1 by
        rw [List.length_append, show "HIERARCH ".toList.length = 9 from rfl]; omega]
      rw [show "HIERARCH ".toList ++ key = 'H' :: ("IERARCH ".toList ++ key) from rfl, removeAll, if_pos]
      · rw [show ('H' :: ("IERARCH ".toList ++ key)).drop "HIERARCH ".toList.length = key from rfl]
        exact removeAll_self _ (by decide) _ _ hns
      · rw [List.isPrefixOf_iff_prefix]
        exact ⟨key, rfl⟩
    · rw [List.isPrefixOf_iff_prefix]
      exact ⟨' ' :: key, rfl⟩

theorem prefix_split {p s t : List Char} (h : p <+: s ++ t) : p <+: s ∨ ∃ c ∈ t.head?, c ∈ p := by
  induction s generalizing p with
  | nil =>
    cases p with
    | nil => exact .inl (List.nil_prefix)
    | cons c p =>
      rw [List.nil_append] at h
      obtain ⟨r, hr⟩ := h
      refine .inr ⟨c, ?_, by simp⟩
      rw [← hr]; simp
  | cons x s ih =>
    cases p with
    | nil => exact .inl (List.nil_prefix)
    | cons c p =>
      rw [List.cons_append, List.cons_prefix_cons] at h
      obtain ⟨rfl, h⟩ := h
      rcases ih h with h | ⟨d, hd, hm⟩
      · exact .inl (List.cons_prefix_cons.2 ⟨rfl, h⟩)
      · exact .inr ⟨d, hd, List.mem_cons_of_mem _ hm⟩

theorem splitEq_spec (l r : List Char) (hl : '=' ∉ l) (hr : '=' ∉ r) : splitEq (l ++ '=' :: r) = .ok (l, r) := by
  have h1 : (l ++ '=' :: r).dropWhile (· ≠ '=') = '=' :: r := by
    rw [List.dropWhile_append_of_pos (fun c hc => by
      simp only [ne_eq, decide_eq_true_eq]; rintro rfl; exact hl hc)]
    rw [List.dropWhile_cons_of_neg (by simp)]
  have h2 : (l ++ '=' :: r).takeWhile (· ≠ '=') = l := by
    rw [List.takeWhile_append_of_pos (fun c hc => by
      simp only [ne_eq, decide_eq_true_eq]; rintro rfl; exact hl hc)]
    rw [List.takeWhile_cons_of_neg (by simp), List.append_nil]
  unfold splitEq
  rw [h1]
  dsimp only
  rw [if_neg hr, h2]

theorem takeWhile_stop (l r : List Char) (hl : '/' ∉ l) : (l ++ '/' :: r).takeWhile (· ≠ '/') = l := by
  rw [List.takeWhile_append_of_pos (fun c hc => by
    simp only [ne_eq, decide_eq_true_eq]; rintro rfl; exact hl hc)]
  rw [List.takeWhile_cons_of_neg (by simp), List.append_nil]

theorem takeWhile_none (l : List Char) (hl : '/' ∉ l) : l.takeWhile (· ≠ '/') = l := by
  have := List.takeWhile_append_of_pos (p := fun x : Char => decide (x ≠ '/')) (l₁ := l) (l₂ := []) (fun c hc => by
    simp only [ne_eq, decide_eq_true_eq]; rintro rfl; exact hl hc)
  rw [List.append_nil, List.takeWhile_nil, List.append_nil] at this
  exact this

theorem blank_not {s : List Char} (h : Blank s) {c : Char} (hc : c ≠ ' ') : c ∉ s := fun hm => hc (h c hm)

theorem rstrip_subset (p : Char → Bool) (s : List Char) : rstrip p s <+: s := by
  unfold rstrip
  have h : s.reverse.dropWhile p <:+ s.reverse := List.dropWhile_suffix p
  have := List.reverse_prefix.2 h
  rwa [List.reverse_reverse] at this

theorem takeWhile_true (p : Char → Bool) : ∀ (s : List Char), ∀ c ∈ s.takeWhile p, p c = true
  | [], c, hc => by cases hc
  | x :: s, c, hc => by
    rw [List.takeWhile_cons] at hc
    split at hc
    · rename_i hx
      rcases List.mem_cons.1 hc with rfl | hc
      · exact hx
      · exact takeWhile_true p s c hc
    · cases hc

theorem dropWhile_nil (p : Char → Bool) : ∀ (s : List Char), s.dropWhile p = [] → ∀ c ∈ s, p c = true
  | [], _, c, hc => by cases hc
  | x :: s, h, c, hc => by
    rw [List.dropWhile_cons] at h
    split at h
    · rename_i hx
      rcases List.mem_cons.1 hc with rfl | hc
      · exact hx
      · exact dropWhile_nil p s h c hc
    · cases h

/-- Stripping the right end first changes nothing. -/
theorem strip_rstrip (s : List Char) : strip (rstrip isSpace s) = strip s := by
  have hsplit : ∃ t, (∀ c ∈ t, isSpace c = true) ∧ s = rstrip isSpace s ++ t := by
    refine ⟨(s.reverse.takeWhile isSpace).reverse, ?_, ?_⟩
    · intro c hc
      rw [List.mem_reverse] at hc
      exact takeWhile_true _ _ c hc
    · unfold rstrip
      rw [← List.reverse_append, List.takeWhile_append_dropWhile, List.reverse_reverse]
  obtain ⟨t, ht, hs⟩ := hsplit
  conv_rhs => rw [hs]
  generalize rstrip isSpace s = u
  unfold strip
  by_cases h : ∀ c ∈ u, isSpace c = true
  · rw [dropWhile_all u t h]
    have h1 := dropWhile_all (p := isSpace) u [] h
    have h2 := dropWhile_all (p := isSpace) t [] ht
    rw [List.append_nil] at h1 h2
    rw [h1, h2]
  · have : (u ++ t).dropWhile isSpace = u.dropWhile isSpace ++ t := by
      rw [List.dropWhile_append, if_neg]
      simp only [List.isEmpty_iff]
      exact fun he => h (dropWhile_nil _ _ he)
    rw [this, rstrip_append_all _ _ _ ht]

/-- A line that is a card. -/
theorem parse_card (T : FloatText K) (hd : Header K) (line key text : List Char) (h : Says line (.card key text))
    (ls : List (List Char)) :
    parseLines T hd (rstrip isSpace line :: ls) = parseLines T (hd.put key (convert T text)) ls := by
  cases h with
  | card pre _ a b _ c tail hpre hk ha hb ht hc htail =>
    have hr : rstrip isSpace (pre ++ (key ++ (a ++ '=' :: (b ++ (text ++ (c ++ tail)))))) =
        (pre ++ (key ++ a)) ++ '=' :: rstrip isSpace (b ++ (text ++ (c ++ tail))) := by
      have := rstrip_append_last isSpace (pre ++ (key ++ a)) (b ++ (text ++ (c ++ tail))) '=' (by decide)
      simpa only [List.append_assoc] using this
    have hnok : ∀ x : Char, x = '/' ∨ x = '=' → x ∉ pre ++ (key ++ a) := by
      intro x hx hm
      rcases List.mem_append.1 hm with hm | hm
      · rcases hpre with rfl | rfl
        · cases hm
        · rcases hx with rfl | rfl <;> revert hm <;> decide
      · rcases List.mem_append.1 hm with hm | hm
        · have := (hk.chars x hm).2.2
          rcases hx with rfl | rfl
          · exact this.1 rfl
          · exact this.2 rfl
        · have := ha x hm
          rcases hx with rfl | rfl <;> revert this <;> decide
    have hmid : ∀ x : Char, x = '/' ∨ x = '=' → x ∉ b ++ (text ++ c) := by
      intro x hx hm
      rcases List.mem_append.1 hm with hm | hm
      · have := hb x hm
        rcases hx with rfl | rfl <;> revert this <;> decide
      · rcases List.mem_append.1 hm with hm | hm
        · have := (ht.chars x hm).2.2
          rcases hx with rfl | rfl
          · exact this.1 rfl
          · exact this.2 rfl
        · have := hc x hm
          rcases hx with rfl | rfl <;> revert this <;> decide
    have hne : rstrip isSpace (pre ++ (key ++ (a ++ '=' :: (b ++ (text ++ (c ++ tail)))))) ≠ [] := by
      rw [hr]; simp
    have hcom : ¬ "COMMENT".toList <+: rstrip isSpace (pre ++ (key ++ (a ++ '=' :: (b ++ (text ++ (c ++ tail)))))) := by
      rw [hr]
      intro hp
      rcases hpre with rfl | rfl
      · rw [List.nil_append, List.append_assoc] at hp
        rcases prefix_split hp with h | ⟨x, hx, hm⟩
        · exact hk.notComment h
        · cases a with
          | nil =>
            rw [List.nil_append, List.head?_cons, Option.mem_some_iff] at hx
            subst hx; revert hm; decide
          | cons y a =>
            rw [List.cons_append, List.head?_cons, Option.mem_some_iff] at hx
            rw [ha y (by simp)] at hx
            subst hx; revert hm; decide
      · rw [show ("HIERARCH ".toList ++ (key ++ a)) ++ '=' :: rstrip isSpace (b ++ (text ++ (c ++ tail))) =
          'H' :: (("IERARCH ".toList ++ (key ++ a)) ++ '=' :: rstrip isSpace (b ++ (text ++ (c ++ tail)))) from rfl,
          show "COMMENT".toList = 'C' :: "OMMENT".toList from rfl, List.cons_prefix_cons] at hp
        exact absurd hp.1 (by decide)
    have hend : rstrip isSpace (pre ++ (key ++ (a ++ '=' :: (b ++ (text ++ (c ++ tail)))))) ≠ "END".toList := by
      rw [hr]
      intro he
      have : '=' ∈ "END".toList := by rw [← he]; simp
      revert this; decide
    have hsplit : ∃ right, splitEq ((rstrip isSpace (pre ++ (key ++ (a ++ '=' :: (b ++ (text ++ (c ++ tail))))))).takeWhile (· ≠ '/')) =
        .ok (pre ++ (key ++ a), right) ∧ strip right = text := by
      have hstrip : strip (b ++ (text ++ c)) = text :=
        strip_mid b text c (blank_space hb) (blank_space hc) (val_first ht) (val_last ht)
      rw [hr]
      rcases htail with rfl | ⟨t, rfl⟩
      · refine ⟨rstrip isSpace (b ++ (text ++ c)), ?_, ?_⟩
        · rw [List.append_nil]
          rw [takeWhile_none]
          · exact splitEq_spec _ _ (hnok '=' (.inr rfl)) fun hm =>
              hmid '=' (.inr rfl) ((rstrip_subset _ _).subset hm)
          · intro hm
            rcases List.mem_append.1 hm with hm | hm
            · exact hnok '/' (.inl rfl) hm
            · rcases List.mem_cons.1 hm with hm | hm
              · revert hm; decide
              · exact hmid '/' (.inl rfl) ((rstrip_subset _ _).subset hm)
        · rw [strip_rstrip, hstrip]
      · refine ⟨b ++ (text ++ c), ?_, hstrip⟩
        have e : rstrip isSpace (b ++ (text ++ (c ++ '/' :: t))) = (b ++ (text ++ c)) ++ '/' :: rstrip isSpace t := by
          have := rstrip_append_last isSpace (b ++ (text ++ c)) t '/' (by decide)
          simpa only [List.append_assoc] using this
        rw [e, show (pre ++ (key ++ a)) ++ '=' :: ((b ++ (text ++ c)) ++ '/' :: rstrip isSpace t) =
          ((pre ++ (key ++ a)) ++ '=' :: (b ++ (text ++ c))) ++ '/' :: rstrip isSpace t by simp]
        rw [takeWhile_stop]
        · exact splitEq_spec _ _ (hnok '=' (.inr rfl)) (hmid '=' (.inr rfl))
        · intro hm
          rcases List.mem_append.1 hm with hm | hm
          · exact hnok '/' (.inl rfl) hm
          · rcases List.mem_cons.1 hm with hm | hm
            · revert hm; decide
            · exact hmid '/' (.inl rfl) hm
    obtain ⟨right, hs, hst⟩ := hsplit
    rw [parseLines, if_neg (by
      rintro (h | h)
      · exact hne h
      · exact hcom (List.isPrefixOf_iff_prefix.1 h)), if_neg hend, hs]
    dsimp only
    rw [hst, keyOf_spec pre key a hpre hk ha]

theorem parse_skip (T : FloatText K) (hd : Header K) (line : List Char) (h : Says line .skip)
    (ls : List (List Char)) : parseLines T hd (rstrip isSpace line :: ls) = parseLines T hd ls := by
  cases h with
  | blank _ hb =>
    rw [rstrip_all _ _ (blank_space hb), parseLines, if_pos (.inl rfl)]
  | comment s =>
    have : rstrip isSpace ("COMMENT".toList ++ s) = "COMMENT".toList ++ rstrip isSpace s :=
      rstrip_append_last isSpace "COMMEN".toList s 'T' (by decide)
    rw [this, parseLines, if_pos (.inr (List.isPrefixOf_iff_prefix.2 ⟨_, rfl⟩))]

theorem parse_stop (T : FloatText K) (hd : Header K) (line : List Char) (h : Says line .stop)
    (ls : List (List Char)) : parseLines T hd (rstrip isSpace line :: ls) = .ok (hd, true) := by
  cases h with
  | stop s hb =>
    have : rstrip isSpace ("END".toList ++ s) = "END".toList := by
      have := rstrip_append_last isSpace "EN".toList s 'D' (by decide)
      rw [rstrip_all _ _ (blank_space hb)] at this
      exact this
    rw [this, parseLines, if_neg (by decide), if_pos rfl]

/-- A line is a card of one name only. -/
theorem says_key {l k t k' t' : List Char} (h : Says l (.card k t)) (h' : Says l (.card k' t')) : k = k' := by
  let T : FloatText ℚ := ⟨fun _ => [], fun _ => .error .valueError⟩
  have a1 := parse_card T (fun _ => none) l k t h []
  have a2 := parse_card T (fun _ => none) l k' t' h' []
  rw [a1, parseLines, parseLines] at a2
  have := congrFun (congrArg Prod.fst (Except.ok.inj a2)) k
  by_contra hk
  simp [Header.put, hk] at this

/-- A card is not skipped. -/
theorem says_skip {l k t : List Char} (h : Says l .skip) (h' : Says l (.card k t)) : False := by
  let T : FloatText ℚ := ⟨fun _ => [], fun _ => .error .valueError⟩
  have a1 := parse_skip T (fun _ => none) l h []
  have a2 := parse_card T (fun _ => none) l k t h' []
  rw [a1, parseLines, parseLines] at a2
  have := congrFun (congrArg Prod.fst (Except.ok.inj a2)) k
  simp [Header.put] at this

/-! ## All lines -/

/-- A line of cards, as what it says. -/
def Good (l : List Char) : Prop := Says l .skip ∨ ∃ k t, Says l (.card k t)

/-- The header `hd'` is `hd` with the cards. -/
def Extends (T : FloatText K) (cards : List (List Char)) (hd hd' : Header K) : Prop :=
  (∀ k t, Has cards k t → hd' k = some (convert T t)) ∧
  ∀ k, (∀ l ∈ cards, ∀ t, ¬ Says l (.card k t)) → hd' k = hd k

theorem parse_cards (T : FloatText K) (cards : List (List Char)) : (∀ l ∈ cards, Good l) → ∀ hd : Header K,
    ∃ hd', Extends T cards hd hd' ∧ ∀ ls,
      parseLines T hd (cards.map (rstrip isSpace) ++ ls) = parseLines T hd' ls := by
  induction cards with
  | nil =>
    intro _ hd
    refine ⟨hd, ⟨?_, fun _ _ => rfl⟩, fun ls => rfl⟩
    rintro k t ⟨b, l, a, h, -⟩
    simp at h
  | cons l cards ih =>
    intro hg hd
    have hg' : ∀ x ∈ cards, Good x := fun x hx => hg x (List.mem_cons_of_mem _ hx)
    have hsplit : ∀ k t, Has (l :: cards) k t → Has cards k t ∨
        (Says l (.card k t) ∧ ∀ l' ∈ cards, ∀ t, ¬ Says l' (.card k t)) := by
      rintro k t ⟨b, x, a, h, hs, hn⟩
      cases b with
      | nil =>
        obtain ⟨rfl, rfl⟩ := List.cons.inj h
        exact .inr ⟨hs, hn⟩
      | cons y b =>
        exact .inl ⟨b, x, a, (List.cons.inj h).2, hs, hn⟩
    rcases hg l (by simp) with hs | ⟨k, t, hs⟩
    · obtain ⟨hd', ⟨e1, e2⟩, e3⟩ := ih hg' hd
      refine ⟨hd', ⟨?_, fun k hk => e2 k fun x hx => hk x (List.mem_cons_of_mem _ hx)⟩, fun ls => ?_⟩
      · intro k t hh
        rcases hsplit k t hh with h | ⟨h, hn⟩
        · exact e1 k t h
        · -- a line cannot be both
          exfalso
          have a1 := parse_skip T (fun _ => none) l hs []
          have a2 := parse_card T (fun _ => none) l k t h []
          rw [a1, parseLines, parseLines] at a2
          have := congrFun (congrArg Prod.fst (Except.ok.inj a2)) k
          simp [Header.put] at this
      · rw [List.map_cons, List.cons_append, parse_skip T hd l hs, e3]
    · obtain ⟨hd', ⟨e1, e2⟩, e3⟩ := ih hg' (hd.put k (convert T t))
      refine ⟨hd', ⟨?_, ?_⟩, fun ls => ?_⟩
      · intro k' t' hh
        rcases hsplit k' t' hh with h | ⟨h, hn⟩
        · exact e1 k' t' h
        · rw [e2 k' hn]
          have a1 := parse_card T (fun _ => none) l k t hs []
          have a2 := parse_card T (fun _ => none) l k' t' h []
          rw [a1, parseLines, parseLines] at a2
          have := congrFun (congrArg Prod.fst (Except.ok.inj a2)) k'
          simp only [Header.put, if_true] at this ⊢
          by_cases hk : k' = k
          · rw [if_pos hk] at this ⊢; exact this
          · rw [if_neg hk] at this; cases this
      · intro k' hk'
        rw [e2 k' fun x hx => hk' x (List.mem_cons_of_mem _ hx)]
        refine if_neg ?_
        rintro rfl
        exact hk' l (by simp) t hs
      · rw [List.map_cons, List.cons_append, parse_card T hd l k t hs, e3]

/-! ## Blocks -/

theorem extends_append (T : FloatText K) (c1 c2 : List (List Char)) (h0 h1 h2 : Header K)
    (e1 : Extends T c1 h0 h1) (e2 : Extends T c2 h1 h2) : Extends T (c1 ++ c2) h0 h2 := by
  constructor
  · rintro k t ⟨b, l, a, h, hs, hn⟩
    rcases List.append_eq_append_iff.1 h with ⟨b', hb, ha⟩ | ⟨a', hb, ha⟩
    · exact e2.1 k t ⟨b', l, a, ha, hs, hn⟩
    · cases a' with
      | nil =>
        rw [List.nil_append] at ha
        exact e2.1 k t ⟨[], l, a, ha.symm, hs, hn⟩
      | cons x a' =>
        rw [List.cons_append] at ha
        obtain ⟨h', ha3⟩ := List.cons.inj ha
        subst h'
        rw [e2.2 k fun x hx t' => hn x (by rw [ha3]; exact List.mem_append_right _ hx) t']
        exact e1.1 k t ⟨b, l, a', hb, hs, fun x hx => hn x (by rw [ha3]; exact List.mem_append_left _ hx)⟩
  · intro k hk
    rw [e2.2 k fun l hl => hk l (List.mem_append_right _ hl),
      e1.2 k fun l hl => hk l (List.mem_append_left _ hl)]

theorem extends_update (T : FloatText K) (cards : List (List Char)) (hd p : Header K)
    (e : Extends T cards (fun _ => none) p) : Extends T cards hd (hd.update p) := by
  constructor
  · intro k t h
    unfold Header.update
    rw [e.1 k t h]; rfl
  · intro k h
    unfold Header.update
    rw [e.2 k h]; rfl

theorem flatten_cut : ∀ (lines : List (List Char)) (n i : Nat), (∀ l ∈ lines, l.length = n) → (h : i < lines.length) →
    (lines.flatten.drop (i * n)).take n = lines[i]
  | [], _, _, _, h => by simp at h
  | l :: lines, n, 0, hl, _ => by
    have := hl l (by simp)
    simp [this]
  | l :: lines, n, i + 1, hl, h => by
    have h1 := hl l (by simp)
    rw [List.flatten_cons, show (i + 1) * n = l.length + i * n by rw [h1]; ring, List.drop_append,
      List.drop_eq_nil_of_le (by omega), List.nil_append, show l.length + i * n - l.length = i * n by omega]
    rw [flatten_cut lines n i (fun x hx => hl x (List.mem_cons_of_mem _ hx)) (by simpa using h)]
    rfl

theorem linesOf_flatten (lines : List (List Char)) (hn : lines.length = 36) (hl : ∀ l ∈ lines, l.length = 80) :
    linesOf lines.flatten = lines.map (rstrip isSpace) := by
  unfold linesOf
  apply List.ext_getElem
  · simp [hn]
  · intro i h1 h2
    have hi : i < lines.length := by simpa using h2
    simp only [List.getElem_map, List.getElem_range]
    rw [flatten_cut lines 80 i hl hi]

theorem parseBytes_ascii (T : FloatText K) (enc : Encoding) (lines : List (List Char)) (hn : lines.length = 36)
    (hl : Lines lines) :
    parseBytes T enc (ascii lines) = parseLines T (fun _ => none) (lines.map (rstrip isSpace)) := by
  unfold parseBytes ascii
  rw [← utf8_ascii, decode_utf8]
  · dsimp only
    unfold parseBlock
    rw [linesOf_flatten lines hn fun l h => (hl l h).1]
  · intro c hc
    obtain ⟨l, h1, h2⟩ := List.mem_flatten.1 hc
    have := ((hl l h1).2 c h2).2
    omega

theorem ascii_length (lines : List (List Char)) (hl : Lines lines) : (ascii lines).length = lines.length * 80 := by
  unfold ascii
  rw [List.length_map]
  induction lines with
  | nil => rfl
  | cons l lines ih =>
    rw [List.flatten_cons, List.length_append, List.length_cons, (hl l (by simp)).1,
      ih fun x hx => hl x (List.mem_cons_of_mem _ hx)]
    ring

/-- The block with the end. -/
theorem parse_last (T : FloatText K) (enc : Encoding) (lines cards after : List (List Char)) (hn : lines.length = 36)
    (hl : Lines lines) (hu : Upto lines cards after) :
    ∃ p, Extends T cards (fun _ => none) p ∧ parseBytes T enc (ascii lines) = .ok (p, true) := by
  obtain ⟨⟨e, hp, he⟩, hg⟩ := hu
  obtain ⟨p, h1, h2⟩ := parse_cards T cards hg (fun _ => none)
  refine ⟨p, h1, ?_⟩
  rw [parseBytes_ascii T enc lines hn hl, hp, List.map_append, h2, List.map_cons, parse_stop T p e he]

/-- A block before the end. -/
theorem parse_pass (T : FloatText K) (enc : Encoding) (lines : List (List Char)) (hn : lines.length = 36)
    (hl : Lines lines) (hg : ∀ l ∈ lines, Good l) :
    ∃ p, Extends T lines (fun _ => none) p ∧ parseBytes T enc (ascii lines) = .ok (p, false) := by
  obtain ⟨p, h1, h2⟩ := parse_cards T lines hg (fun _ => none)
  refine ⟨p, h1, ?_⟩
  have := h2 []
  rw [List.append_nil] at this
  rw [parseBytes_ascii T enc lines hn hl, this]
  rfl

/-- The whole header. -/
theorem readHeader_main (T : FloatText K) (enc : Encoding) : ∀ (m : Nat) (lines cards after : List (List Char)),
    lines.length = 36 * (m + 1) → Lines lines → Upto lines cards after → after.length < 36 →
    ∀ (hd : Header K) (pre rest : Bytes), ∃ hd', Extends T cards hd hd' ∧
      readHeader T enc (m + 1) hd (here pre (ascii lines ++ rest)) = .done (hd', here (pre ++ ascii lines) rest)
  | 0, lines, cards, after, hn, hl, hu, ha, hd, pre, rest => by
    obtain ⟨p, h1, h2⟩ := parse_last T enc lines cards after (by omega) hl hu
    refine ⟨hd.update p, extends_update T cards hd p h1, ?_⟩
    rw [readHeader, here_read pre (ascii lines) rest blockSize (by rw [ascii_length lines hl, hn]; rfl)]
    dsimp only
    rw [h2]
  | m + 1, lines, cards, after, hn, hl, hu, ha, hd, pre, rest => by
    obtain ⟨⟨e, hp, he⟩, hg⟩ := hu
    have hc : 36 ≤ cards.length := by
      have := congrArg List.length hp
      simp only [List.length_append, List.length_cons] at this
      omega
    have ht : (cards.take 36).length = 36 := by simp [hc]
    have hsub : ∀ l ∈ cards, l ∈ lines := fun l h => by rw [hp]; exact List.mem_append_left _ h
    have hlines : lines = cards.take 36 ++ (cards.drop 36 ++ e :: after) := by
      rw [← List.append_assoc, List.take_append_drop, hp]
    obtain ⟨p, h1, h2⟩ := parse_pass T enc (cards.take 36) ht
      (fun l h => hl l (hsub l (List.mem_of_mem_take h))) (fun l h => hg l (List.mem_of_mem_take h))
    have hl2 : Lines (cards.drop 36 ++ e :: after) := fun l h => hl l (by rw [hlines]; exact List.mem_append_right _ h)
    obtain ⟨hd', h3, h4⟩ := readHeader_main T enc m (cards.drop 36 ++ e :: after) (cards.drop 36) after
      (by
        have := congrArg List.length hlines
        rw [hn, List.length_append, ht] at this
        omega) hl2 ⟨⟨e, rfl, he⟩, fun l h => hg l (List.mem_of_mem_drop h)⟩ ha (hd.update p)
      (pre ++ ascii (cards.take 36)) rest
    have hasc : ascii lines = ascii (cards.take 36) ++ ascii (cards.drop 36 ++ e :: after) := by
      conv_lhs => rw [hlines]
      unfold ascii
      rw [List.flatten_append, List.map_append]
    refine ⟨hd', ?_, ?_⟩
    · have := extends_append T _ _ _ _ _ (extends_update T (cards.take 36) hd p h1) h3
      rwa [List.take_append_drop] at this
    · rw [hasc, List.append_assoc, readHeader, here_read pre (ascii (cards.take 36)) _ blockSize (by
        rw [ascii_length _ (fun l h => hl l (hsub l (List.mem_of_mem_take h))), ht]; rfl)]
      dsimp only
      rw [h2]
      dsimp only
      rw [h4, List.append_assoc]

/-! ## Values -/

theorem intOf_neg (n : Nat) : intOf ('-' :: natText n) = .ok (-(n : Int)) := by
  have hd := natText_digits n
  have hs : strip ('-' :: natText n) = '-' :: natText n := strip_self (by
    intro c hc
    rcases List.mem_cons.1 hc with rfl | hc
    · decide
    · exact not_isSpace_of_digit (hd c hc))
  unfold intOf
  simp only [hs]
  rw [if_pos ⟨natText_ne_nil n, by rw [List.all_eq_true]; exact hd⟩, digitsNat_natText]

theorem convert_int (T : FloatText K) {t : List Char} {i : Int} (h : IsInt t i) : convert T t = .int i := by
  unfold convert
  obtain ⟨n, ⟨rfl, rfl⟩ | ⟨rfl, rfl⟩⟩ := h
  · rw [intOf_natText]
  · rw [intOf_neg]

theorem mem_strip {c : Char} (hc : isSpace c = false) {s : List Char} (h : c ∈ s) : c ∈ strip s := by
  unfold strip rstrip
  have key : ∀ l : List Char, c ∈ l → c ∈ l.dropWhile isSpace := by
    intro l
    induction l with
    | nil => exact id
    | cons x l ih =>
      intro h
      rw [List.dropWhile_cons]
      split
      · rename_i hx
        rcases List.mem_cons.1 h with rfl | h
        · rw [hc] at hx; cases hx
        · exact ih h
      · exact h
  rw [List.mem_reverse]
  exact key _ (List.mem_reverse.2 (key s h))

theorem intOf_bad {s : List Char} {c : Char} (hc : c ∈ s) (h1 : isSpace c = false) (h2 : c.isDigit = false)
    (h3 : c ≠ '-') (h4 : c ≠ '+') : intOf s = .error .valueError := by
  have hm := mem_strip h1 hc
  unfold intOf
  split
  · rename_i ds hds
    rw [hds] at hm
    rcases List.mem_cons.1 hm with rfl | hm
    · exact absurd rfl h3
    · rw [if_neg]
      rintro ⟨-, h⟩
      rw [List.all_eq_true] at h
      rw [h c hm] at h2
      cases h2
  · rename_i ds hds
    rw [hds] at hm
    rcases List.mem_cons.1 hm with rfl | hm
    · exact absurd rfl h4
    · rw [if_neg]
      rintro ⟨-, h⟩
      rw [List.all_eq_true] at h
      rw [h c hm] at h2
      cases h2
  · rw [if_neg]
    rintro ⟨-, h⟩
    rw [List.all_eq_true] at h
    rw [h c hm] at h2
    cases h2

theorem numAt_of (T : FloatText K) (hd : Header K) (k : String) {t : List Char} {x : K} (h : IsNum T t x)
    (hk : hd k.toList = some (convert T t)) : numAt hd k = .ok (some x) := by
  unfold numAt
  rw [hk]
  rcases h with ⟨i, hi, rfl⟩ | ⟨hc, hp⟩
  · rw [convert_int T hi]
  · have : intOf t = .error .valueError := by
      rcases hc with hc | hc
      · exact intOf_bad hc (by decide) (by decide) (by decide) (by decide)
      · exact intOf_bad hc (by decide) (by decide) (by decide) (by decide)
    unfold convert
    rw [this]
    dsimp only
    rw [hp]
    rfl

theorem convert_str (T : FloatText K) (hT : NoQuotes T) {t s : List Char} (h : IsStr t s) : convert T t = .str s := by
  obtain ⟨⟨pad, hpad, rfl⟩, hs, hf, hl⟩ := h
  have hi : intOf ('\'' :: (s ++ pad ++ ['\''])) = .error .valueError :=
    intOf_bad (c := '\'') (by simp) (by decide) (by decide) (by decide) (by decide)
  obtain ⟨e, he⟩ := hT (s ++ pad ++ ['\''])
  unfold convert
  rw [hi]
  dsimp only
  rw [he]
  dsimp only
  congr 1
  unfold stripQuotes
  rw [List.dropWhile_cons_of_pos (by decide)]
  have hq : ∀ c, c ≠ ' ' ∧ c ≠ '\'' → (decide (c = '\'') || decide (c = ' ')) = false := by
    intro c hc
    simp [hc.1, hc.2]
  have hd : (s ++ pad ++ ['\'']).dropWhile (fun c => decide (c = '\'') || decide (c = ' ')) = s ++ (pad ++ ['\'']) := by
    cases s with
    | nil => exact absurd rfl hs
    | cons x s =>
      rw [List.append_assoc, List.cons_append, List.dropWhile_cons_of_neg (by rw [hq x (hf x (by simp))]; simp)]
  rw [hd, rstrip_append_all, rstrip_self]
  · intro c hc; exact hq c (hl c hc)
  · intro c hc
    rcases List.mem_append.1 hc with hc | hc
    · rw [hpad c hc]; decide
    · rw [List.mem_singleton] at hc; rw [hc]; decide

theorem be_spec (bs : Bytes) : bytesNat true bs = be bs := by
  unfold bytesNat be
  rw [if_pos rfl]
  induction bs using List.reverseRecOn with
  | nil => rfl
  | append_singleton bs b ih =>
    rw [List.reverse_append, List.reverse_singleton, List.singleton_append, leNat, List.foldl_append, ih]
    simp only [List.foldl_cons, List.foldl_nil]
    omega

theorem twos_spec (w : Nat) (hw : 0 < w) (bs : Bytes) : bytesInt true true w bs = twos (8 * w) (be bs) := by
  unfold bytesInt twos
  rw [be_spec]
  have h1 : (256 : Int) ^ w = 2 ^ (8 * w) := by rw [pow_mul]; norm_num
  have h2 : (2 : Int) ^ (8 * w) = 2 * ((2 ^ (8 * w - 1) : Nat) : Int) := by
    obtain ⟨m, hm⟩ : ∃ m, 8 * w = m + 1 := ⟨8 * w - 1, by omega⟩
    rw [hm, Nat.add_sub_cancel, pow_succ]
    push_cast
    ring
  have h3 : (256 : Int) ^ w / 2 = ((2 ^ (8 * w - 1) : Nat) : Int) := by
    rw [h1, h2]; omega
  dsimp only
  rw [h3, h1]
  by_cases h : be bs < 2 ^ (8 * w - 1)
  · rw [if_pos h, if_neg]
    rintro ⟨-, hle⟩
    have : 2 ^ (8 * w - 1) ≤ be bs := by exact_mod_cast hle
    omega
  · rw [if_neg h, if_pos]
    refine ⟨rfl, ?_⟩
    have : 2 ^ (8 * w - 1) ≤ be bs := by omega
    exact_mod_cast this

theorem itemOf_spec (bp : Int) (h : bp ∈ [8, 16, 32, 64, -32, -64]) :
    itemOf K bp = some (bp.natAbs / 8, item K bp) := by
  have hfin : ∀ x : FVal K, toOpt x = finite x := by intro x; cases x <;> rfl
  have hint : ∀ (w : Nat), 0 < w → ∀ b, (bytesInt true true w b : Int) = twos (8 * w) (be b) := twos_spec
  simp only [List.mem_cons, List.not_mem_nil, or_false] at h
  rcases h with rfl | rfl | rfl | rfl | rfl | rfl
  · unfold itemOf
    rw [if_pos rfl]
    congr 2
    funext b
    show some ((bytesInt false true 1 b : Int) : K) = some (be b : K)
    unfold bytesInt
    simp [be_spec]
  · show some (2, fun b => some ((bytesInt true true 2 b : Int) : K)) = some (2, fun b => some ((twos 16 (be b) : Int) : K))
    simp only [hint 2 (by decide)]
  · show some (4, fun b => some ((bytesInt true true 4 b : Int) : K)) = some (4, fun b => some ((twos 32 (be b) : Int) : K))
    simp only [hint 4 (by decide)]
  · show some (8, fun b => some ((bytesInt true true 8 b : Int) : K)) = some (8, fun b => some ((twos 64 (be b) : Int) : K))
    simp only [hint 8 (by decide)]
  · show some (4, fun b => toOpt (f32.val K (bytesNat true b))) = some (4, fun b => finite (f32.val K (be b)))
    simp only [hfin, be_spec]
  · show some (8, fun b => toOpt (f64.val K (bytesNat true b))) = some (8, fun b => finite (f64.val K (be b)))
    simp only [hfin, be_spec]

/-! ## Extensions -/

/-- The extension as the reader sees it. -/
def hduOf (K : Type) [Field K] (e : Ext) : Hdu K :=
  ⟨ascii e.lines, e.name, e.nx, e.ny, e.size, item K e.bitpix, e.data⟩

theorem hduOf_at (e : Ext) (i j : Nat) : (hduOf K e).at i j = e.num K i j := rfl

theorem hduOf_bytes (e : Ext) : (hduOf K e).bytes = e.bytes := rfl

theorem ascii_prefix (s : List Char) (hs : ∀ c ∈ s, c.toNat < 128) (lines : List (List Char)) (h : s <+: lines.flatten) :
    utf8 s <+: ascii lines := by
  obtain ⟨r, hr⟩ := h
  refine ⟨r.map fun c => UInt8.ofNat c.toNat, ?_⟩
  rw [utf8_ascii s hs]
  unfold ascii
  rw [← hr, List.map_append]

theorem described_of (T : FloatText K) (hT : NoQuotes T) (enc : Encoding) (e : Ext) (h : e.Right) :
    (hduOf K e).Described T enc := by
  obtain ⟨cards, after, hu, ⟨t1, a1, b1⟩, ⟨t2, a2, b2⟩, ⟨t3, a3, b3⟩, ⟨t4, a4, b4⟩, ⟨t5, a5, b5⟩⟩ := h.cards
  obtain ⟨p, hp, hparse⟩ := parse_last T enc e.lines cards after h.count h.lines hu
  refine ⟨?_, ascii_prefix _ (by decide) _ h.magic, ⟨p, true, e.bitpix, hparse, ?_, ?_, ?_, ?_, ?_, ?_⟩, h.full⟩
  · show (ascii e.lines).length = 2880
    rw [ascii_length _ h.lines, h.count]
  · rw [hp.1 _ _ a1, convert_int T b1]
  · rw [hp.1 _ _ a2, convert_int T b2]; rfl
  · rw [hp.1 _ _ a3, convert_int T b3]; rfl
  · rw [hp.1 _ _ a4, convert_int T b4]
  · rw [hp.1 _ _ a5, convert_str T hT b5]; rfl
  · exact itemOf_spec e.bitpix h.bitpix

end Fits
end Surfalize
