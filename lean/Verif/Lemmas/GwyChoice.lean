import Verif.Spec.Gwy
import Verif.Lemmas.Text
import Verif.Lemmas.Num
/-! # The choice of the height channel -/
set_option linter.unusedSectionVars false
namespace Surfalize
namespace Gwy
open GwySpec FileArr

theorem collect_spec (p : List Char → Except Err Bool) : ∀ (l r : List (List Char)),
    collect p l = .ok r → r.Sublist l ∧ (∀ x ∈ l, ∃ b, p x = .ok b) ∧ ∀ x, x ∈ r ↔ x ∈ l ∧ p x = .ok true
  | [], r, h => by
    cases h
    simp
  | k :: l, r, h => by
    unfold collect at h
    cases hp : p k with
    | error e => rw [hp] at h; cases h
    | ok b =>
      rw [hp] at h
      dsimp only at h
      cases hc : collect p l with
      | error e => rw [hc] at h; cases h
      | ok r' =>
        rw [hc] at h
        dsimp only at h
        injection h with h
        obtain ⟨i1, i2, i3⟩ := collect_spec p l r' hc
        refine ⟨?_, ?_, ?_⟩
        · subst h
          cases b
          · exact i1.cons _
          · exact i1.cons_cons _
        · intro x hx
          rcases List.mem_cons.1 hx with rfl | hx
          · exact ⟨b, hp⟩
          · exact i2 x hx
        · intro x
          subst h
          cases b
          · simp only [Bool.false_eq_true, if_false, i3, List.mem_cons]
            constructor
            · rintro ⟨h1, h2⟩; exact ⟨.inr h1, h2⟩
            · rintro ⟨rfl | h1, h2⟩
              · rw [hp] at h2; cases h2
              · exact ⟨h1, h2⟩
          · simp only [if_true, List.mem_cons, i3]
            constructor
            · rintro (rfl | ⟨h1, h2⟩)
              · exact ⟨.inl rfl, hp⟩
              · exact ⟨.inr h1, h2⟩
            · rintro ⟨rfl | h1, h2⟩
              · exact .inl rfl
              · exact .inr ⟨h1, h2⟩

theorem collect_ok (p : List Char → Except Err Bool) : ∀ (l : List (List Char)),
    (∀ x ∈ l, ∃ b, p x = .ok b) → ∃ r, collect p l = .ok r
  | [], _ => ⟨[], rfl⟩
  | k :: l, h => by
    obtain ⟨b, hb⟩ := h k (by simp)
    obtain ⟨r, hr⟩ := collect_ok p l fun x hx => h x (List.mem_cons_of_mem _ hx)
    unfold collect
    rw [hb, hr]
    exact ⟨_, rfl⟩

/-- Two lists of the same candidates. -/
def Same (l l' : List (List Char)) : Prop := l.Nodup ∧ l'.Nodup ∧ ∀ x, x ∈ l ↔ x ∈ l'

theorem Same.perm {l l' : List (List Char)} (h : Same l l') : l.Perm l' :=
  (List.perm_ext_iff_of_nodup h.1 h.2.1).2 h.2.2

theorem collect_same {p : List Char → Except Err Bool} {l l' r : List (List Char)} (h : Same l l')
    (hr : collect p l = .ok r) : ∃ r', collect p l' = .ok r' ∧ Same r r' := by
  obtain ⟨s1, s2, s3⟩ := collect_spec p l r hr
  obtain ⟨r', hr'⟩ := collect_ok p l' fun x hx => s2 x ((h.2.2 x).2 hx)
  obtain ⟨t1, t2, t3⟩ := collect_spec p l' r' hr'
  refine ⟨r', hr', s1.nodup h.1, t1.nodup h.2.1, fun x => ?_⟩
  rw [s3, t3, h.2.2]

theorem Same.nil {r : List (List Char)} (h : Same [] r) : r = [] := by
  have := h.perm
  exact List.nil_perm.1 this

theorem Same.single {k : List Char} {r : List (List Char)} (h : Same [k] r) : r = [k] := by
  exact (List.perm_singleton.1 h.perm.symm)

theorem Same.more {r r' : List (List Char)} (h : Same r r') : r.length = r'.length := h.perm.length_eq

theorem byNumber_same {l l' : List (List Char)} (h : Same l l') : byNumber l = byNumber l' := by
  unfold byNumber
  have : (l.map digitsNat).min? = (l'.map digitsNat).min? := by
    have hp := h.perm.map digitsNat
    cases h1 : (l.map digitsNat).min? with
    | none =>
      rw [List.min?_eq_none_iff] at h1
      rw [h1] at hp
      rw [List.nil_perm.1 hp]
      rfl
    | some m =>
      symm
      rw [List.min?_eq_some_iff] at h1 ⊢
      exact ⟨hp.mem_iff.1 h1.1, fun b hb => h1.2 b (hp.mem_iff.2 hb)⟩
  rw [this]

theorem guessHeight_same (T : Units.Text) (top : Fields) {l l' : List (List Char)} (h : Same l l')
    (k : List Char) (hk : guessHeight T top l = .ok k) : guessHeight T top l' = .ok k := by
  unfold guessHeight at hk ⊢
  cases hu : byUnit top l with
  | error e => rw [hu] at hk; cases hk
  | ok c1 =>
    rw [hu] at hk
    obtain ⟨c1', hu', hs⟩ := collect_same h hu
    rw [show byUnit top l' = .ok c1' from hu']
    match c1, hk, hs with
    | [], hk, hs => cases hk
    | [a], hk, hs =>
      rw [hs.single]
      exact hk
    | a :: b :: rest, hk, hs =>
      have hlen := hs.more
      match c1', hlen, hs with
      | a' :: b' :: rest', _, hs =>
        dsimp only at hk ⊢
        unfold byName at hk ⊢
        cases hn : collect (namedHeight T top) (a :: b :: rest) with
        | error e => rw [hn] at hk; cases hk
        | ok c2 =>
          rw [hn] at hk
          obtain ⟨c2', hn', hs2⟩ := collect_same hs hn
          rw [hn']
          match c2, hk, hs2 with
          | [], hk, hs2 =>
            rw [hs2.nil]
            dsimp only at hk ⊢
            rw [← byNumber_same hs]
            exact hk
          | [c], hk, hs2 =>
            rw [hs2.single]
            exact hk
          | c :: d :: r2, hk, hs2 =>
            have hlen2 := hs2.more
            match c2', hlen2, hs2 with
            | c' :: d' :: r2', _, hs2 =>
              dsimp only at hk ⊢
              rw [← byNumber_same hs2]
              exact hk

/-- Shorter names for `f` that gives the same for both. -/
theorem collect_congr {p q : List Char → Except Err Bool} (h : ∀ x, p x = q x) (l : List (List Char)) :
    collect p l = collect q l := by
  have : p = q := funext h
  rw [this]

/-- Containers with the same lookups. -/
def Agree (f g : Fields) : Prop := ∀ key, f.get key = g.get key

theorem at_agree {f g : Fields} (h : Agree f g) (key : List Char) : f.at key = g.at key := by
  unfold Fields.at; rw [h]

theorem dataField_agree {f g : Fields} (h : Agree f g) (k r : List Char) : dataField f k r = dataField g k r := by
  unfold dataField; rw [at_agree h]

theorem guessHeight_agree (T : Units.Text) {f g : Fields} (h : Agree f g) (l : List (List Char)) :
    guessHeight T f l = guessHeight T g l := by
  have h1 : ∀ x, hasZUnit f x = hasZUnit g x := by
    intro x; unfold hasZUnit; rw [dataField_agree h]
  have h2 : ∀ x, namedHeight T f x = namedHeight T g x := by
    intro x; unfold namedHeight; rw [at_agree h]
  unfold guessHeight byUnit byName
  simp only [collect_congr h1, collect_congr h2]

theorem readChannel_agree {K : Type} [Field K] [LinearOrder K] (T : Units.Text) {f g : Fields} (h : Agree f g)
    (k : List Char) : readChannel (K := K) T f k = readChannel T g k := by
  unfold readChannel maskOf metaOf
  rw [dataField_agree h, h, dataField_agree h, h]

theorem get_isSome_iff (key : List Char) : ∀ f : Fields, (∃ v, f.get key = some v) ↔ key ∈ f.keys
  | .nil => by simp [Fields.get, Fields.keys]
  | .cons n v rest => by
    have ih := get_isSome_iff key rest
    simp only [Fields.get, Fields.keys, List.mem_cons]
    by_cases hn : n = key
    · simp [hn]
    · rw [if_neg hn, ih]
      constructor
      · exact .inr
      · rintro (h | h)
        · exact absurd h.symm hn
        · exact h

private theorem digits_slash {k cs post : List Char} (h : cs = k ++ '/' :: post) (hd : ∀ c ∈ k, c.isDigit = true) :
    cs.takeWhile Char.isDigit = k ∧ cs.dropWhile Char.isDigit = '/' :: post := by
  subst h
  induction k with
  | nil => exact ⟨rfl, rfl⟩
  | cons c k ih =>
    have hc : c.isDigit = true := hd c (by simp)
    obtain ⟨h1, h2⟩ := ih fun c hc => hd c (by simp [hc])
    simp only [List.cons_append, List.takeWhile_cons, List.dropWhile_cons, hc, if_true, h1, h2, and_self]

private theorem slash_digits {cs : List Char} (h : (cs.dropWhile Char.isDigit).head? = some '/') :
    ∃ post, cs = cs.takeWhile Char.isDigit ++ '/' :: post := by
  cases hd : cs.dropWhile Char.isDigit with
  | nil => rw [hd] at h; cases h
  | cons c post =>
    rw [hd] at h
    cases h
    exact ⟨post, by rw [← hd, List.takeWhile_append_dropWhile]⟩

private theorem digits_takeWhile (cs : List Char) : ∀ c ∈ cs.takeWhile Char.isDigit, c.isDigit = true := by
  induction cs with
  | nil => intro c hc; cases hc
  | cons a cs ih =>
    intro c hc
    rw [List.takeWhile_cons] at hc
    split at hc
    · rename_i ha
      rcases List.mem_cons.1 hc with rfl | hc
      · exact ha
      · exact ih c hc
    · cases hc

theorem layerKey_spec : ∀ key k : List Char, layerKey key = some k ↔ HasNumber key k
  | [], k => by
    constructor
    · intro h; cases h
    · rintro ⟨pre, ⟨⟨post, h⟩, -⟩, -⟩
      have := congrArg List.length h
      simp at this
  | c :: cs, k => by
    rw [layerKey]
    split
    · rename_i hc
      obtain ⟨rfl, h1, h2⟩ := hc
      obtain ⟨post, hp⟩ := slash_digits h2
      constructor
      · intro h
        cases h
        refine ⟨[], ⟨⟨post, ?_⟩, h1, digits_takeWhile cs⟩, fun _ _ _ => Nat.zero_le _⟩
        rw [List.nil_append, ← hp]
      · rintro ⟨pre, ⟨⟨post', h⟩, -, h3⟩, h4⟩
        have h0 := h4 [] _ ⟨⟨post, by rw [List.nil_append, ← hp]⟩, h1, digits_takeWhile cs⟩
        have : pre = [] := List.length_eq_zero_iff.1 (by simpa using h0)
        subst this
        rw [List.nil_append] at h
        rw [(digits_slash (List.cons.inj h).2 h3).1]
    · rename_i hc
      have hne : ∀ pre k', NumberAt (c :: cs) pre k' → ∃ pre', pre = c :: pre' ∧ NumberAt cs pre' k' := by
        rintro pre k' ⟨⟨post, h⟩, h1, h2⟩
        cases pre with
        | nil =>
          exfalso
          rw [List.nil_append] at h
          obtain ⟨rfl, h'⟩ := List.cons.inj h
          obtain ⟨h3, h4⟩ := digits_slash h' h2
          exact hc ⟨rfl, by rw [h3]; exact h1, by rw [h4]; rfl⟩
        | cons a pre =>
          obtain ⟨rfl, h'⟩ := List.cons.inj h
          exact ⟨pre, rfl, ⟨post, h'⟩, h1, h2⟩
      have hup : ∀ pre k', NumberAt cs pre k' → NumberAt (c :: cs) (c :: pre) k' := by
        rintro pre k' ⟨⟨post, h⟩, h1, h2⟩
        exact ⟨⟨post, by rw [h]; rfl⟩, h1, h2⟩
      rw [layerKey_spec cs k]
      constructor
      · rintro ⟨pre, h1, h2⟩
        refine ⟨c :: pre, hup _ _ h1, fun pre' k' h' => ?_⟩
        obtain ⟨q, rfl, hq⟩ := hne _ _ h'
        simpa using h2 q k' hq
      · rintro ⟨pre, h1, h2⟩
        obtain ⟨q, rfl, hq⟩ := hne _ _ h1
        exact ⟨q, hq, fun pre' k' h' => by simpa using h2 _ _ (hup _ _ h')⟩

theorem mem_layerKeys (f : Fields) (k : List Char) : k ∈ layerKeys f ↔ Channel f k := by
  unfold layerKeys Channel
  rw [List.mem_filterMap]
  constructor
  · rintro ⟨key, h1, h2⟩
    obtain ⟨v, hv⟩ := (get_isSome_iff key f).2 h1
    exact ⟨key, v, hv, (layerKey_spec key k).1 h2⟩
  · rintro ⟨key, v, h1, h2⟩
    exact ⟨key, (get_isSome_iff key f).1 ⟨v, h1⟩, (layerKey_spec key k).2 h2⟩

theorem channel_agree {f g : Fields} (h : Agree f g) (k : List Char) : Channel f k ↔ Channel g k := by
  unfold Channel
  simp only [h _]

/-! ## What is chosen -/

theorem at_ok {f : Fields} {key : List Char} {v : GVal} : f.at key = .ok v ↔ f.get key = some v := by
  unfold Fields.at
  cases f.get key <;> simp

theorem gat_ok {name : List Char} {v : GVal} {fs : Fields} : v.at name = .ok fs ↔ v = .obj name fs := by
  cases v with
  | obj n f =>
    simp only [GVal.at, GVal.obj.injEq]
    by_cases h : n = name
    · rw [if_pos h]; simp [h]
    · rw [if_neg h]; simp [h]
  | _ => simp [GVal.at]

theorem channelKey_eq (k : List Char) (r : String) :
    channelKey k r.toList = "/".toList ++ k ++ r.toList := rfl

theorem dataField_ok {top : Fields} {k r : List Char} {f : Fields} :
    dataField top k r = .ok f ↔ top.get (channelKey k r) = some (.obj "GwyDataField".toList f) := by
  unfold dataField
  cases h : top.at (channelKey k r) with
  | error e =>
    have hn : top.get (channelKey k r) = none := by
      unfold Fields.at at h
      cases hg : top.get (channelKey k r) with
      | none => rfl
      | some v => rw [hg] at h; cases h
    simp [hn]
  | ok v => rw [at_ok] at h; rw [h]; simp only [gat_ok, Option.some.injEq]

theorem unitStr_ok {f : Fields} {name : String} {s : List Char} :
    unitStr f name.toList = .ok (.str s) ↔ UnitOf f name s := by
  unfold unitStr UnitOf
  cases h : f.at name.toList with
  | error e =>
    have hn : f.get name.toList = none := by
      unfold Fields.at at h
      cases hg : f.get name.toList with
      | none => rfl
      | some v => rw [hg] at h; cases h
    simp [hn]
  | ok v =>
    rw [at_ok] at h
    rw [h]
    dsimp only
    cases hv : v.at "GwySIUnit".toList with
    | error e =>
      constructor
      · intro x; cases x
      · rintro ⟨u, hu, -⟩
        rw [Option.some.injEq] at hu
        rw [gat_ok.2 hu] at hv
        cases hv
    | ok u =>
      have hv' := gat_ok.1 hv
      dsimp only
      rw [at_ok]
      constructor
      · intro x; exact ⟨u, by rw [hv'], x⟩
      · rintro ⟨u', hu, x⟩
        rw [hv'] at hu
        simp only [Option.some.injEq, GVal.obj.injEq, true_and] at hu
        rw [hu]; exact x

theorem lookup_isSome {α β : Type} [BEq α] [LawfulBEq α] (l : List (α × β)) (x : α) :
    (l.lookup x).isSome = true ↔ ∃ e, (x, e) ∈ l := by
  induction l with
  | nil => simp
  | cons a l ih =>
    obtain ⟨y, b⟩ := a
    rw [List.lookup_cons]
    by_cases h : x = y
    · subst h; simp only [beq_self_eq_true, Option.isSome_some, List.mem_cons, true_iff]
      exact ⟨b, .inl rfl⟩
    · rw [beq_false_of_ne h]
      simp only [ih, List.mem_cons, Prod.mk.injEq]
      constructor
      · rintro ⟨e, he⟩; exact ⟨e, .inr he⟩
      · rintro ⟨e, ⟨h1, -⟩ | he⟩
        · exact absurd h1 h
        · exact ⟨e, he⟩

theorem hasZUnit_true (top : Fields) (k : List Char) : hasZUnit top k = .ok true ↔ IsLength top k := by
  unfold hasZUnit IsLength DataOf
  have key : ∀ f, dataField top k "/data".toList = .ok f ↔
    top.get ("/".toList ++ k ++ "/data".toList) = some (.obj "GwyDataField".toList f) := fun f => dataField_ok
  cases h : dataField top k "/data".toList with
  | error e =>
    constructor
    · intro x; cases x
    · rintro ⟨f, s, e', h1, -⟩
      rw [(key f).2 h1] at h; cases h
  | ok f =>
    have hf := (key f).1 h
    dsimp only
    have reduce : (∃ f' s e, top.get ("/".toList ++ k ++ "/data".toList) =
        some (.obj "GwyDataField".toList f') ∧ UnitOf f' "si_unit_z" s ∧ (s, e) ∈ Units.unitExponent) ↔
        ∃ s, UnitOf f "si_unit_z" s ∧ (Units.unitExponent.lookup s).isSome = true := by
      constructor
      · rintro ⟨f', s, e, h1, h2, h3⟩
        rw [hf] at h1
        simp only [Option.some.injEq, GVal.obj.injEq, true_and] at h1
        subst h1
        exact ⟨s, h2, (lookup_isSome _ _).2 ⟨e, h3⟩⟩
      · rintro ⟨s, h1, h2⟩
        obtain ⟨e, he⟩ := (lookup_isSome _ _).1 h2
        exact ⟨f, s, e, hf, h1, he⟩
    rw [reduce]
    by_cases hz : (f.get "si_unit_z".toList).isSome = true
    · rw [if_pos hz]
      cases hu : unitStr f "si_unit_z".toList with
      | error e =>
        constructor
        · intro x; cases x
        · rintro ⟨s, h1, -⟩
          rw [unitStr_ok.2 h1] at hu; cases hu
      | ok u =>
        dsimp only
        cases u with
        | str s =>
          simp only [knownUnit, Except.ok.injEq]
          constructor
          · intro hl; exact ⟨s, unitStr_ok.1 hu, hl⟩
          · rintro ⟨s', h1, h2⟩
            rw [unitStr_ok.2 h1] at hu
            simp only [Except.ok.injEq, GVal.str.injEq] at hu
            rw [← hu]; exact h2
        | _ =>
          constructor
          · intro x; simp [knownUnit] at x
          · rintro ⟨s', h1, h2⟩
            rw [unitStr_ok.2 h1] at hu
            simp at hu
    · rw [if_neg hz]
      constructor
      · intro x; simp at x
      · rintro ⟨s', ⟨u, h1, -⟩, -⟩
        rw [h1] at hz
        simp at hz

theorem contains_iff (x : List Char) : ∀ y, contains x y = true ↔ x <:+: y
  | [] => by simp [contains]
  | c :: y => by
    rw [contains, Bool.or_eq_true, List.isPrefixOf_iff_prefix, contains_iff x y, List.infix_cons_iff]

theorem namedHeight_true (T : Units.Text) (top : Fields) (k : List Char) :
    namedHeight T top k = .ok true ↔ Named T top k := by
  unfold namedHeight Named
  rw [← channelKey_eq]
  cases h : top.at (channelKey k "/data/title".toList) with
  | error e =>
    constructor
    · intro x; cases x
    · rintro ⟨t, ht, -⟩
      rw [at_ok.2 ht] at h; cases h
  | ok v =>
    rw [at_ok] at h
    rw [h]
    cases v with
    | str s =>
      simp only [Except.ok.injEq, Bool.or_eq_true, contains_iff, Option.some.injEq, GVal.str.injEq]
      constructor
      · intro x; exact ⟨s, rfl, x⟩
      · rintro ⟨t, rfl, x⟩; exact x
    | _ => simp

theorem byNumber_ok {l r : List (List Char)} (h : byNumber l = .ok r) :
    ∃ m, r = [natText m] ∧ (∃ x ∈ l, digitsNat x = m) ∧ ∀ x ∈ l, m ≤ digitsNat x := by
  unfold byNumber at h
  cases hm : (l.map digitsNat).min? with
  | none => rw [hm] at h; cases h
  | some m =>
    rw [hm] at h
    injection h with h
    rw [List.min?_eq_some_iff] at hm
    refine ⟨m, h.symm, ?_, ?_⟩
    · obtain ⟨x, hx, he⟩ := List.mem_map.1 hm.1
      exact ⟨x, hx, he⟩
    · intro x hx
      exact hm.2 _ (List.mem_map_of_mem hx)

/-- The channel chosen has a unit of length; it is named if any of them is; it has the lowest number
among those that are named as it is. -/
theorem guessHeight_spec (T : Units.Text) (top : Fields) (l : List (List Char))
    (hc : ∀ x ∈ l, ∃ n, x = natText n) (k : List Char) (h : guessHeight T top l = .ok k) :
    k ∈ l ∧ IsLength top k ∧ ∀ j ∈ l, IsLength top j → j ≠ k →
      ((Named T top j → Named T top k) ∧
        ((Named T top k → Named T top j) → digitsNat k ≤ digitsNat j)) := by
  unfold guessHeight at h
  cases hu : byUnit top l with
  | error e => rw [hu] at h; cases h
  | ok c1 =>
    rw [hu] at h
    obtain ⟨-, -, u3⟩ := collect_spec _ _ _ (show collect (hasZUnit top) l = .ok c1 from hu)
    have u4 : ∀ x, x ∈ c1 ↔ x ∈ l ∧ IsLength top x := fun x => by rw [u3, hasZUnit_true]
    match c1, h, u4 with
    | [], h, u4 => cases h
    | [a], h, u4 =>
      cases h
      obtain ⟨h1, h2⟩ := (u4 k).1 (by simp)
      refine ⟨h1, h2, fun j hj hlj hne => ?_⟩
      exact absurd (by simpa using (u4 j).2 ⟨hj, hlj⟩) hne
    | a :: b :: rest, h, u4 =>
      dsimp only at h
      unfold byName at h
      cases hn : collect (namedHeight T top) (a :: b :: rest) with
      | error e => rw [hn] at h; cases h
      | ok c2 =>
        rw [hn] at h
        obtain ⟨-, -, n3⟩ := collect_spec _ _ _ hn
        have n4 : ∀ x, x ∈ c2 ↔ (x ∈ l ∧ IsLength top x) ∧ Named T top x := fun x => by
          rw [n3, namedHeight_true, u4]
        have number : ∀ c : List (List Char), (∀ x ∈ c, x ∈ l ∧ IsLength top x) →
            (match byNumber c with
              | .error e => (.error e : Except Err (List Char))
              | .ok [k] => .ok k
              | .ok _ => .error .unsupported) = .ok k →
            k ∈ c ∧ ∀ x ∈ c, digitsNat k ≤ digitsNat x := by
          intro c hcl hb
          cases hbn : byNumber c with
          | error e => rw [hbn] at hb; cases hb
          | ok r =>
            obtain ⟨m, rfl, ⟨x, hx, hxm⟩, hmin⟩ := byNumber_ok hbn
            rw [hbn] at hb
            cases hb
            obtain ⟨n, hn⟩ := hc x (hcl x hx).1
            have hnm : n = m := by rw [← hxm, hn, digitsNat_natText]
            subst hnm
            rw [← hn]
            refine ⟨hx, fun y hy => ?_⟩
            rw [hxm]
            exact hmin y hy
        match c2, h, n4 with
        | [], h, n4 =>
          obtain ⟨h1, h2⟩ := number (a :: b :: rest) (fun x hx => (u4 x).1 hx) h
          obtain ⟨h3, h4⟩ := (u4 k).1 h1
          refine ⟨h3, h4, fun j hj hlj _ => ⟨fun hnj => ?_, fun _ => h2 j ((u4 j).2 ⟨hj, hlj⟩)⟩⟩
          have := (n4 j).2 ⟨⟨hj, hlj⟩, hnj⟩
          simp at this
        | [c], h, n4 =>
          cases h
          obtain ⟨⟨h1, h2⟩, h3⟩ := (n4 k).1 (by simp)
          refine ⟨h1, h2, fun j hj hlj hne => ⟨fun _ => h3, fun hi => ?_⟩⟩
          exact absurd (by simpa using (n4 j).2 ⟨⟨hj, hlj⟩, hi h3⟩) hne
        | c :: d :: r2, h, n4 =>
          obtain ⟨h1, h2⟩ := number (c :: d :: r2) (fun x hx => ((n4 x).1 hx).1) h
          obtain ⟨⟨h3, h4⟩, h5⟩ := (n4 k).1 h1
          exact ⟨h3, h4, fun j hj hlj _ => ⟨fun _ => h5, fun hi => h2 j ((n4 j).2 ⟨⟨hj, hlj⟩, hi h5⟩)⟩⟩

theorem byNumber_single (l : List (List Char)) (hl : l ≠ []) : ∃ k, byNumber l = .ok [k] := by
  unfold byNumber
  cases h : (l.map digitsNat).min? with
  | none =>
    rw [List.min?_eq_none_iff, List.map_eq_nil_iff] at h
    exact absurd h hl
  | some m => exact ⟨_, rfl⟩

theorem guessHeight_found (T : Units.Text) (top : Fields) (l : List (List Char))
    (h1 : ∀ x ∈ l, ∃ b, hasZUnit top x = .ok b) (h2 : ∀ x ∈ l, ∃ b, namedHeight T top x = .ok b)
    (h3 : ∃ x ∈ l, IsLength top x) : ∃ k, guessHeight T top l = .ok k := by
  unfold guessHeight
  obtain ⟨c1, hc1⟩ := collect_ok _ l h1
  obtain ⟨-, -, u3⟩ := collect_spec _ _ _ hc1
  rw [show byUnit top l = .ok c1 from hc1]
  obtain ⟨x, hx, hlx⟩ := h3
  have hx1 : x ∈ c1 := (u3 x).2 ⟨hx, (hasZUnit_true top x).2 hlx⟩
  match c1, u3, hx1 with
  | [a], _, _ => exact ⟨_, rfl⟩
  | a :: b :: rest, u3, _ =>
    dsimp only
    unfold byName
    obtain ⟨c2, hc2⟩ := collect_ok (namedHeight T top) (a :: b :: rest) fun y hy => h2 y ((u3 y).1 hy).1
    rw [hc2]
    match c2 with
    | [] =>
      dsimp only
      obtain ⟨k, hk⟩ := byNumber_single (a :: b :: rest) (by simp)
      rw [hk]
      exact ⟨k, rfl⟩
    | [c] => exact ⟨c, rfl⟩
    | c :: d :: r =>
      dsimp only
      obtain ⟨k, hk⟩ := byNumber_single (c :: d :: r) (by simp)
      rw [hk]
      exact ⟨k, rfl⟩

end Gwy
end Surfalize
