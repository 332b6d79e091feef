import Verif.Model.Cag
import Verif.Spec.Cag
/-! Lemmas on the extraction of CAG archives. -/
namespace Surfalize.Cag
open Surfalize CagSpec

theorem greedy_some {c : List Char} : ∀ {s a b : List Char}, greedy c s = some (a, b) →
    s = a ++ c ++ b ∧ a ≠ [] ∧ '\n' ∉ a ∧
      ∀ a' b', s = a' ++ c ++ b' → a' ≠ [] → '\n' ∉ a' → a'.length ≤ a.length
  | [], _, _, h => by simp [greedy] at h
  | x :: s, a, b, h => by
    unfold greedy at h
    split at h
    · cases h
    · rename_i hx
      cases hg : greedy c s with
      | some p =>
        obtain ⟨a1, b1⟩ := p
        rw [hg] at h
        obtain ⟨rfl, rfl⟩ := Prod.mk.inj (Option.some.inj h)
        obtain ⟨h1, h2, h3, h4⟩ := greedy_some hg
        refine ⟨by rw [h1]; simp, by simp, by simp only [List.mem_cons, not_or]; exact ⟨fun e => hx e.symm, h3⟩, ?_⟩
        intro a' b' e hne hn
        cases a' with
        | nil => exact absurd rfl hne
        | cons y a' =>
          simp only [List.cons_append, List.cons.injEq] at e
          by_cases ha : a' = []
          · subst ha; simp
          · have := h4 a' b' e.2 ha fun hm => hn (List.mem_cons_of_mem _ hm)
            simp; omega
      | none =>
        rw [hg] at h
        dsimp only at h
        split at h
        · rename_i hp
          obtain ⟨rfl, rfl⟩ := Prod.mk.inj (Option.some.inj h)
          obtain ⟨t, ht⟩ := List.isPrefixOf_iff_prefix.1 hp
          refine ⟨by rw [← ht]; simp, by simp, by simpa using fun e => hx e.symm, ?_⟩
          intro a' b' e hne hn
          cases a' with
          | nil => exact absurd rfl hne
          | cons y a' =>
            simp only [List.cons_append, List.cons.injEq] at e
            by_cases ha : a' = []
            · subst ha; simp
            · exfalso
              exact greedy_none hg a' b' e.2 ha fun hm => hn (List.mem_cons_of_mem _ hm)
        · cases h
where
  greedy_none {c : List Char} : ∀ {s : List Char}, greedy c s = none →
      ∀ a' b', s = a' ++ c ++ b' → a' ≠ [] → '\n' ∉ a' → False
  | [], _, a', b', e, hne, _ => by
    cases a' with
    | nil => exact hne rfl
    | cons y a' => simp at e
  | x :: s, h, a', b', e, hne, hn => by
    cases a' with
    | nil => exact hne rfl
    | cons y a' =>
      simp only [List.cons_append, List.cons.injEq] at e
      obtain ⟨rfl, e⟩ := e
      unfold greedy at h
      rw [if_neg (fun h0 => hn (by simp [h0]))] at h
      cases hg : greedy c s with
      | some p => rw [hg] at h; cases h
      | none =>
        rw [hg] at h
        dsimp only at h
        by_cases ha : a' = []
        · subst ha
          rw [if_pos] at h
          · cases h
          · rw [List.isPrefixOf_iff_prefix, e]; exact ⟨b', by simp⟩
        · exact greedy_none hg a' b' e ha fun hm => hn (List.mem_cons_of_mem _ hm)

theorem greedy_none {c s : List Char} (h : greedy c s = none) (a' b' : List Char) (e : s = a' ++ c ++ b') (hne : a' ≠ []) :
    '\n' ∈ a' := by
  by_contra hn
  exact greedy_some.greedy_none h a' b' e hne hn

/-- The rest of the text behind a line. -/
def Behind (tail : List Char) : Prop := tail = [] ∨ ∃ t, tail = '\n' :: t

theorem findall_skip {o c : List Char} {tail : List Char} : ∀ {s : List Char},
    (∀ u v, s = u ++ v → v ≠ [] → o <+: v ++ tail → greedy c ((v ++ tail).drop o.length) = none) →
    ∀ n, (s ++ tail).length ≤ n → ∃ n', tail.length ≤ n' ∧ findall o c n (s ++ tail) = findall o c n' tail
  | [], _, n, hn => ⟨n, by simpa using hn, rfl⟩
  | x :: s, h, n, hn => by
    cases n with
    | zero => simp at hn
    | succ n =>
      have ih := findall_skip (o := o) (c := c) (tail := tail) (s := s) (fun u v e => h (x :: u) v (by rw [e]; rfl)) n
        (by simpa using hn)
      obtain ⟨n', h1, h2⟩ := ih
      refine ⟨n', h1, ?_⟩
      rw [← h2, List.cons_append]
      have h0 := h [] (x :: s) rfl (by simp)
      rw [List.cons_append] at h0
      show (if o.isPrefixOf (x :: (s ++ tail)) then _ else _) = _
      by_cases hp : o <+: x :: (s ++ tail)
      · rw [if_pos (List.isPrefixOf_iff_prefix.2 hp), h0 hp]
      · rw [if_neg (fun h' => hp (List.isPrefixOf_iff_prefix.1 h'))]

theorem findall_tail {o c : List Char} (ho : ∃ h t, o = h :: t ∧ h ≠ '\n') {t : List Char} {n : Nat}
    (hn : ('\n' :: t).length ≤ n) : ∃ n', t.length ≤ n' ∧ findall o c n ('\n' :: t) = findall o c n' t := by
  cases n with
  | zero => simp at hn
  | succ n =>
    refine ⟨n, by simpa using hn, ?_⟩
    obtain ⟨h, r, rfl, hne⟩ := ho
    show (if (h :: r).isPrefixOf ('\n' :: t) then _ else _) = _
    rw [if_neg]
    simp [List.isPrefixOf, hne]

/-- A tag: it begins with a character that it does not contain otherwise, and holds no newline. -/
def IsTag (o : List Char) : Prop := ∃ h t, o = h :: t ∧ h ∉ t ∧ '\n' ∉ o

/-- An occurrence of a tag in a text with a tag at a given place is there, before or behind. -/
theorem tag_place {o u v a r : List Char} (ho : IsTag o) (e : u ++ o ++ v = a ++ o ++ r) :
    u.length + o.length ≤ a.length ∨ u.length = a.length ∨ a.length + o.length ≤ u.length := by
  by_contra hc
  simp only [not_or, Nat.not_le] at hc
  obtain ⟨h, t, rfl, hh, -⟩ := ho
  have key : ∀ {u v a r : List Char}, u ++ (h :: t) ++ v = a ++ (h :: t) ++ r → u.length < a.length →
      a.length < u.length + (h :: t).length → False := by
    intro u v a r e h1 h2
    have e1 : (u ++ (h :: t) ++ v)[a.length]? = some h := by rw [e]; simp
    have e2 : (u ++ (h :: t) ++ v)[a.length]? = t[a.length - u.length - 1]? := by
      rw [List.append_assoc, List.getElem?_append_right (by omega), List.getElem?_append_left (by omega)]
      rw [show a.length - u.length = (a.length - u.length - 1) + 1 by omega, List.getElem?_cons_succ]
      rfl
    rw [e2] at e1
    exact hh (List.mem_of_getElem? e1)
  rcases Nat.lt_trichotomy u.length a.length with h1 | h1 | h1
  · exact key e h1 hc.1
  · exact hc.2.1 h1
  · exact key e.symm h1 hc.2.2

/-- A tag that occurs in a text followed by the rest of the text occurs in the first part, unless it begins behind. -/
theorem tag_inside {o s tail u v : List Char} (ho : IsTag o) (ht : Behind tail) (e : u ++ o ++ v = s ++ tail)
    (hu : u.length ≤ s.length) : ∃ v', u ++ o ++ v' = s ∧ v = v' ++ tail := by
  have hlen : (u ++ o).length ≤ s.length := by
    by_contra hc
    rw [Nat.not_le] at hc
    rcases ht with rfl | ⟨t, rfl⟩
    · have := congrArg List.length e
      simp at this hc
      omega
    · have e1 : (u ++ o ++ v)[s.length]? = some '\n' := by rw [e]; simp
      rw [List.getElem?_append_left hc, List.getElem?_append_right hu] at e1
      obtain ⟨h, t', rfl, -, hn⟩ := ho
      exact hn (List.mem_of_getElem? e1)
  have hp : u ++ o <+: s := by
    have h1 : u ++ o <+: s ++ tail := ⟨v, e⟩
    exact List.prefix_of_prefix_length_le h1 (List.prefix_append _ _) hlen
  obtain ⟨v', hv⟩ := hp
  refine ⟨v', hv, ?_⟩
  rw [← hv] at e
  simpa using e

theorem greedy_line {c x b tail : List Char} (hc : IsTag c) (ht : Behind tail) (hx : x ≠ []) (hnx : '\n' ∉ x)
    (hnb : '\n' ∉ b) (hb : ¬ c <:+: b) : greedy c (x ++ c ++ b ++ tail) = some (x, b ++ tail) := by
  cases hg : greedy c (x ++ c ++ b ++ tail) with
  | none => exact absurd (greedy_none hg x (b ++ tail) (by simp) hx) hnx
  | some p =>
    obtain ⟨a, b'⟩ := p
    obtain ⟨h1, h2, h3, h4⟩ := greedy_some hg
    have hle := h4 x (b ++ tail) (by simp) hx hnx
    have hals : a.length ≤ (x ++ c ++ b).length := by
      by_contra hc'
      rw [Nat.not_le] at hc'
      rcases ht with rfl | ⟨t, rfl⟩
      · have := congrArg List.length h1
        simp at this hc'
        omega
      · have e1 : (a ++ c ++ b')[(x ++ c ++ b).length]? = some '\n' := by rw [← h1]; simp
        rw [List.append_assoc, List.getElem?_append_left hc'] at e1
        exact h3 (List.mem_of_getElem? e1)
    obtain ⟨v', hv, hv2⟩ := tag_inside hc ht h1.symm hals
    rcases tag_place hc hv with h5 | h5 | h5
    · obtain ⟨h, t, rfl, -⟩ := hc
      simp at h5; omega
    · have : a = x := by
        have := congrArg (List.take x.length) hv
        rw [List.append_assoc, List.append_assoc, List.take_left' h5, List.take_left' rfl] at this
        exact this
      subst this
      have : v' = b := by simpa using hv
      subst this
      rw [hv2]
    · exfalso
      apply hb
      have hpre : x ++ c <+: a := by
        have h6 : x ++ c <+: x ++ c ++ b := List.prefix_append _ _
        have h7 : a <+: x ++ c ++ b := ⟨c ++ v', by rw [← hv]; simp⟩
        exact List.prefix_of_prefix_length_le h6 h7 (by simpa using h5)
      obtain ⟨w, hw⟩ := hpre
      refine ⟨w, v', ?_⟩
      rw [← hw] at hv
      simpa [List.append_assoc] using hv

/-- One line of a text. -/
theorem findall_line {o c line tail : List Char} (ho : IsTag o) (hc : IsTag c) (hl : '\n' ∉ line) (ht : Behind tail)
    {r : Option (List Char)} (h : Holds o c line r) {n : Nat} (hn : (line ++ tail).length ≤ n) :
    ∃ n', tail.length ≤ n' ∧ findall o c n (line ++ tail) = r.toList ++ findall o c n' tail := by
  cases r with
  | none =>
    obtain ⟨n', h1, h2⟩ := findall_skip (o := o) (c := c) (tail := tail) (s := line) (by
      rintro u v rfl hv ⟨w, hw⟩
      rw [← hw, List.drop_left]
      cases hg : greedy c w with
      | none => rfl
      | some p =>
        exfalso
        obtain ⟨a, b⟩ := p
        obtain ⟨h1, h2, h3, -⟩ := greedy_some hg
        obtain ⟨w', e1, e2⟩ := tag_inside (u := u) (o := o) (v := w) (s := u ++ v) ho ht (by
          rw [List.append_assoc, hw]; simp) (by simp)
        rw [e2] at h1
        have hal : a.length ≤ w'.length := by
          by_contra hc'
          rw [Nat.not_le] at hc'
          rcases ht with rfl | ⟨t, rfl⟩
          · have := congrArg List.length h1
            simp at this; omega
          · have e3 : (a ++ c ++ b)[w'.length]? = some '\n' := by rw [← h1]; simp
            rw [List.append_assoc, List.getElem?_append_left hc'] at e3
            exact h3 (List.mem_of_getElem? e3)
        obtain ⟨b', e4, -⟩ := tag_inside hc ht h1.symm hal
        have := h u a b' (by rw [← e1, ← e4]; simp)
        exact h2 this) n hn
    exact ⟨n', h1, by rw [h2]; rfl⟩
  | some x =>
    obtain ⟨a, b, rfl, hx, ha, hb⟩ := h
    have hnx : '\n' ∉ x := fun hm => hl (by simp [hm])
    have hnb : '\n' ∉ b := fun hm => hl (by simp [hm])
    have hsplit : a ++ o ++ x ++ c ++ b ++ tail = a ++ (o ++ (x ++ c ++ b ++ tail)) := by simp
    obtain ⟨n1, h1, h2⟩ := findall_skip (o := o) (c := c) (tail := o ++ (x ++ c ++ b ++ tail)) (s := a) (by
      rintro u v rfl hv ⟨w, hw⟩
      exfalso
      have e : u ++ o ++ w = u ++ v ++ o ++ (x ++ c ++ b ++ tail) := by
        rw [List.append_assoc, hw]; simp
      rcases tag_place ho e with h5 | h5 | h5
      · apply ha
        have hp : u ++ o <+: u ++ v := by
          refine List.prefix_of_prefix_length_le (l₃ := u ++ o ++ w) (List.prefix_append _ _) ?_ (by simpa using h5)
          rw [e, List.append_assoc, List.append_assoc]
          exact ⟨_, (List.append_assoc _ _ _)⟩
        obtain ⟨t, ht'⟩ := hp
        exact ⟨u, t, ht'⟩
      · simp at h5; exact hv h5
      · have hv0 : v = [] := List.eq_nil_of_length_eq_zero (by simp at h5; omega)
        exact hv hv0) n (by rw [← hsplit]; exact hn)
    rw [hsplit, h2]
    obtain ⟨ho1, ho2, ho3, ho4, ho5⟩ := ho
    subst ho3
    cases n1 with
    | zero => simp at h1
    | succ n1 =>
      have hstep : findall (ho1 :: ho2) c (n1 + 1) (ho1 :: ho2 ++ (x ++ c ++ b ++ tail)) =
          x :: findall (ho1 :: ho2) c n1 (b ++ tail) := by
        have hp : (ho1 :: ho2).isPrefixOf (ho1 :: (ho2 ++ (x ++ c ++ b ++ tail))) = true :=
          List.isPrefixOf_iff_prefix.2 ⟨x ++ c ++ b ++ tail, rfl⟩
        rw [List.cons_append, findall, if_pos hp,
          show (ho1 :: (ho2 ++ (x ++ c ++ b ++ tail))).drop (ho1 :: ho2).length = x ++ c ++ b ++ tail by simp,
          greedy_line hc ht hx hnx hnb hb]
      rw [hstep]
      obtain ⟨n2, h3, h4⟩ := findall_skip (o := ho1 :: ho2) (c := c) (tail := tail) (s := b) (by
        rintro u v rfl hv ⟨w, hw⟩
        rw [← hw, List.drop_left]
        cases hg : greedy c w with
        | none => rfl
        | some p =>
          exfalso
          obtain ⟨a', b'⟩ := p
          obtain ⟨g1, g2, g3, -⟩ := greedy_some hg
          obtain ⟨w', e1, e2⟩ := tag_inside (u := u) (o := ho1 :: ho2) (v := w) (s := u ++ v) ⟨_, _, rfl, ho4, ho5⟩ ht (by
            rw [List.append_assoc, hw]; simp) (by simp)
          rw [e2] at g1
          have hal : a'.length ≤ w'.length := by
            by_contra hc'
            rw [Nat.not_le] at hc'
            rcases ht with rfl | ⟨t, rfl⟩
            · have := congrArg List.length g1
              simp at this; omega
            · have e3 : (a' ++ c ++ b')[w'.length]? = some '\n' := by rw [← g1]; simp
              rw [List.append_assoc, List.getElem?_append_left hc'] at e3
              exact g3 (List.mem_of_getElem? e3)
          obtain ⟨b2, e4, -⟩ := tag_inside hc ht g1.symm hal
          exact hb ⟨u ++ (ho1 :: ho2) ++ a', b2, by rw [← e1, ← e4]; simp⟩) n1 (by
        simp only [List.length_append, List.length_cons] at h1 ⊢; omega)
      exact ⟨n2, h3, by rw [h4]; rfl⟩

/-- All lines of a text. -/
theorem findall_lines {o c : List Char} (ho : IsTag o) (hc : IsTag c) {α : Type} (text : α → List Char)
    (r : α → Option (List Char)) : ∀ (ls : List α), (∀ l ∈ ls, '\n' ∉ text l ∧ Holds o c (text l) (r l)) →
    ∀ n, (join (ls.map text)).length ≤ n → findall o c n (join (ls.map text)) = ls.filterMap r
  | [], _, n, _ => by cases n <;> rfl
  | [l], h, n, hn => by
    obtain ⟨h1, h2⟩ := h l (by simp)
    obtain ⟨n', -, h4⟩ := findall_line (tail := []) ho hc h1 (.inl rfl) h2 (n := n) (by simpa [join] using hn)
    rw [List.append_nil] at h4
    show findall o c n (text l) = _
    rw [h4]
    cases n' <;> cases hr : r l <;> simp [findall, hr]
  | l :: l2 :: ls, h, n, hn => by
    obtain ⟨h1, h2⟩ := h l (by simp)
    have hj : join ((l :: l2 :: ls).map text) = text l ++ '\n' :: join ((l2 :: ls).map text) := rfl
    rw [hj] at hn ⊢
    obtain ⟨n', h3, h4⟩ := findall_line (tail := '\n' :: join ((l2 :: ls).map text)) ho hc h1 (.inr ⟨_, rfl⟩) h2 hn
    have ho' := ho
    obtain ⟨a, t, rfl, -, hnl⟩ := ho'
    obtain ⟨n2, h5, h6⟩ := findall_tail (o := a :: t) (c := c) ⟨a, t, rfl, fun e => hnl (by simp [e])⟩ h3
    have ih := findall_lines ho hc text r (l2 :: ls) (fun l' hl' => h l' (List.mem_cons_of_mem _ hl')) n2 h5
    rw [h4, h6, ih, List.filterMap_cons (a := l)]
    cases r l <;> rfl

theorem parts_ne (s : List Char) : parts s ≠ [] := by
  cases s with
  | nil => simp [parts]
  | cons x s =>
    rw [parts]
    split
    · simp
    · split <;> simp

theorem parts_append_slash (d n : List Char) : parts (d ++ '/' :: n) = parts d ++ parts n := by
  induction d with
  | nil => simp [parts]
  | cons x d ih =>
    rw [List.cons_append, parts, parts, ih]
    by_cases hx : x = '/'
    · simp [hx]
    · simp only [if_neg hx]
      cases hd : parts d with
      | nil => exact absurd hd (parts_ne d)
      | cons p ps => simp

theorem parts_plain {n : List Char} (h : '/' ∉ n) : parts n = [n] := by
  induction n with
  | nil => rfl
  | cons x n ih =>
    simp only [List.mem_cons, not_or] at h
    unfold parts
    rw [if_neg (fun e => h.1 e.symm), ih h.2]

theorem pathName_of {s n : List Char} (h : FileName s n) : pathName s = n := by
  obtain ⟨h1, h2, h3, h4⟩ := h
  have hf : ([n].filter fun p => decide (p ≠ [] ∧ p ≠ ['.'])) = [n] := by simp [h2, h3]
  unfold pathName
  rcases h4 with rfl | ⟨d, rfl⟩
  · rw [parts_plain h1, hf]; rfl
  · rw [parts_append_slash, parts_plain h1, List.filter_append, hf]
    simp

theorem parts_noslash : ∀ (s : List Char), ∀ p ∈ parts s, '/' ∉ p
  | [], p, hp => by simp [parts] at hp; simp [hp]
  | x :: s, p, hp => by
    unfold parts at hp
    have ih := parts_noslash s
    by_cases hx : x = '/'
    · rw [if_pos hx] at hp
      rcases List.mem_cons.1 hp with rfl | hp
      · simp
      · exact ih p hp
    · rw [if_neg hx] at hp
      cases hd : parts s with
      | nil => rw [hd] at hp; simp at hp; subst hp; simpa using fun e => hx e.symm
      | cons q qs =>
        rw [hd] at hp ih
        rcases List.mem_cons.1 hp with rfl | hp
        · simp only [List.mem_cons, not_or]
          exact ⟨fun e => hx e.symm, ih q (by simp)⟩
        · exact ih p (by simp [hp])

theorem pathName_noslash (s : List Char) : '/' ∉ pathName s := by
  unfold pathName
  cases h : ((parts s).filter fun p => decide (p ≠ [] ∧ p ≠ ['.'])).getLast? with
  | none => simp
  | some p =>
    have := List.mem_of_getLast? h
    exact parts_noslash s p (List.mem_filter.1 this).1

theorem lookup_of_gives {t : List (List Char × List Char)} {id n : List Char} (h : Gives t id n) :
    lookupIdx t id = some n := by
  obtain ⟨a, b, rfl, hb⟩ := h
  unfold lookupIdx
  rw [List.reverse_append, List.reverse_cons, List.append_assoc]
  have : b.reverse.lookup id = none := by
    rw [List.lookup_eq_none_iff]
    intro p hp
    have := hb p (List.mem_reverse.1 hp)
    simpa using fun e => this e.symm
  rw [List.lookup_append, this]
  simp

theorem measurement_iff {b : Bytes} : b.take 3 ∈ magics ↔ IsMeasurement b := by
  constructor
  · intro h
    rcases b with _ | ⟨x, _ | ⟨y, _ | ⟨z, r⟩⟩⟩
    · simp [magics] at h
    · simp [magics] at h
    · simp [magics] at h
    · simp [magics] at h
      rcases h with ⟨rfl, rfl, rfl⟩ | ⟨rfl, rfl, rfl⟩ | ⟨rfl, rfl, rfl⟩ | ⟨rfl, rfl, rfl⟩
      all_goals exact ⟨_, by decide, r, rfl⟩
  · rintro ⟨k, hk, r, rfl⟩
    simp only [List.mem_cons, List.not_mem_nil, or_false] at hk
    rcases hk with rfl | rfl | rfl | rfl <;> simp [magics]

end Surfalize.Cag
