import Verif.Model.Registry
import Verif.Props.FileHandler
/-!
# C123: registered formats and their groups; C124: warnings about misnamed files
-/
set_option linter.unusedSectionVars false
namespace Surfalize
/-! ### Specification -/
namespace RegistrySpec
open Files

/-- The function registered last for a suffix. -/
def LastFor (h : List Registration) (s : List Char) (f : Nat) : Prop :=
  ∃ p r q, h = p ++ r :: q ∧ s ∈ r.suffixes ∧ r.fn = f ∧ ∀ e ∈ q, s ∉ e.suffixes

end RegistrySpec

namespace Props
open Files FilesSpec RegistrySpec
variable {R : Type}

private theorem put_spec {d : List (List Char × Nat)} (hd : (d.map Prod.fst).Nodup) (k : List Char) (v : Nat) :
    ((put k v d).map Prod.fst).Nodup ∧ ∀ x w, (x, w) ∈ put k v d ↔ (x = k ∧ w = v) ∨ (x ≠ k ∧ (x, w) ∈ d) := by
  induction d with
  | nil =>
    refine ⟨by simp [put], fun x w => ?_⟩
    simp [put]
  | cons e d ih =>
    obtain ⟨k', v'⟩ := e
    rw [List.map_cons, List.nodup_cons] at hd
    obtain ⟨i1, i2⟩ := ih hd.2
    rw [put]
    by_cases e : k' = k
    · subst e
      rw [if_pos rfl]
      refine ⟨by rw [List.map_cons, List.nodup_cons]; exact hd, fun x w => ?_⟩
      simp only [List.mem_cons, Prod.mk.injEq]
      constructor
      · rintro (h | h)
        · exact .inl h
        · refine .inr ⟨fun hx => hd.1 ?_, .inr h⟩
          rw [← hx]
          exact List.mem_map.2 ⟨_, h, rfl⟩
      · rintro (h | ⟨h1, h2 | h2⟩)
        · exact .inl h
        · exact absurd h2.1 h1
        · exact .inr h2
    · rw [if_neg e]
      refine ⟨?_, fun x w => ?_⟩
      · rw [List.map_cons, List.nodup_cons]
        refine ⟨fun hm => ?_, i1⟩
        obtain ⟨⟨x, w⟩, hx, hx2⟩ := List.mem_map.1 hm
        dsimp only at hx2
        subst hx2
        rcases (i2 x w).1 hx with h | ⟨-, h⟩
        · exact e h.1
        · exact hd.1 (List.mem_map.2 ⟨_, h, rfl⟩)
      · simp only [List.mem_cons, Prod.mk.injEq, i2]
        constructor
        · rintro (⟨rfl, rfl⟩ | h | ⟨h1, h2⟩)
          · exact .inr ⟨e, .inl ⟨rfl, rfl⟩⟩
          · exact .inl h
          · exact .inr ⟨h1, .inr h2⟩
        · rintro (h | ⟨h1, h | h⟩)
          · exact .inr (.inl h)
          · exact .inl h
          · exact .inr (.inr ⟨h1, h⟩)

private theorem puts_spec (ks : List (List Char)) (v : Nat) : ∀ {d : List (List Char × Nat)}, (d.map Prod.fst).Nodup →
    ((ks.foldl (fun d s => put s v d) d).map Prod.fst).Nodup ∧
    ∀ x w, (x, w) ∈ ks.foldl (fun d s => put s v d) d ↔ (x ∈ ks ∧ w = v) ∨ (x ∉ ks ∧ (x, w) ∈ d) := by
  induction ks with
  | nil => intro d hd; exact ⟨hd, by simp⟩
  | cons k ks ih =>
    intro d hd
    obtain ⟨p1, p2⟩ := put_spec hd k v
    obtain ⟨i1, i2⟩ := ih p1
    rw [List.foldl_cons]
    refine ⟨i1, fun x w => ?_⟩
    rw [i2, p2]
    simp only [List.mem_cons]
    tauto

private theorem table_spec (h : List Registration) : ((table h).map Prod.fst).Nodup ∧ ∀ s f, (s, f) ∈ table h ↔ LastFor h s f := by
  induction h using List.reverseRecOn with
  | nil =>
    refine ⟨List.nodup_nil, fun s f => ⟨fun h => (by cases h), ?_⟩⟩
    rintro ⟨p, r, q, e, -⟩
    simp at e
  | append_singleton h r ih =>
    have e : table (h ++ [r]) = r.suffixes.foldl (fun d s => put s r.fn d) (table h) := by
      unfold table
      rw [List.foldl_append]; rfl
    rw [e]
    obtain ⟨p1, p2⟩ := puts_spec r.suffixes r.fn ih.1
    refine ⟨p1, fun s f => ?_⟩
    rw [p2, ih.2]
    constructor
    · rintro (⟨h1, rfl⟩ | ⟨h1, p, r', q, rfl, h2, h3, h4⟩)
      · exact ⟨h, r, [], rfl, h1, rfl, by simp⟩
      · refine ⟨p, r', q ++ [r], by simp, h2, h3, fun e he => ?_⟩
        rcases List.mem_append.1 he with he | he
        · exact h4 e he
        · rw [List.mem_singleton.1 he]; exact h1
    · rintro ⟨p, r', q, e, h2, h3, h4⟩
      rcases List.eq_nil_or_concat q with rfl | ⟨q', z, rfl⟩
      · obtain ⟨-, hz⟩ := List.append_inj' e rfl
        obtain rfl : r = r' := (List.cons.inj hz).1
        exact .inl ⟨h2, h3.symm⟩
      · rw [List.concat_eq_append] at e h4
        have e' : h ++ [r] = (p ++ r' :: q') ++ [z] := by simpa using e
        obtain ⟨rfl, hz⟩ := List.append_inj' e' rfl
        obtain rfl : r = z := (List.cons.inj hz).1
        exact .inr ⟨h4 r (by simp), p, r', q', rfl, h2, h3, fun m hm => h4 m (by simp [hm])⟩

private theorem addTo_spec {G : List (Nat × List (List Char))} (hG : (G.map Prod.fst).Nodup) (f : Nat) (s : List Char) :
    ((addTo f s G).map Prod.fst).Nodup ∧ ∀ g l, (g, l) ∈ addTo f s G ↔
      (g ≠ f ∧ (g, l) ∈ G) ∨ (g = f ∧ ((∃ l', (f, l') ∈ G ∧ l = l' ++ [s]) ∨ (f ∉ G.map Prod.fst ∧ l = [s]))) := by
  induction G with
  | nil =>
    refine ⟨by simp [addTo], fun g l => ?_⟩
    simp [addTo]
  | cons e G ih =>
    obtain ⟨k, v⟩ := e
    rw [List.map_cons, List.nodup_cons] at hG
    obtain ⟨i1, i2⟩ := ih hG.2
    rw [addTo]
    have key : ∀ l, (k, l) ∉ G := fun l hl => hG.1 (List.mem_map.2 ⟨_, hl, rfl⟩)
    by_cases e : k = f
    · subst e
      rw [if_pos rfl]
      refine ⟨by rw [List.map_cons, List.nodup_cons]; exact hG, fun g l => ?_⟩
      simp only [List.mem_cons, Prod.mk.injEq, List.map_cons]
      constructor
      · rintro (⟨rfl, rfl⟩ | h)
        · exact .inr ⟨rfl, .inl ⟨v, .inl ⟨trivial, rfl⟩, rfl⟩⟩
        · exact .inl ⟨fun hg => key l (hg ▸ h), .inr h⟩
      · rintro (⟨h1, h2 | h2⟩ | ⟨rfl, ⟨l', ⟨-, rfl⟩ | h, rfl⟩ | ⟨h, -⟩⟩)
        · exact absurd h2.1 h1
        · exact .inr h2
        · exact .inl ⟨rfl, rfl⟩
        · exact absurd h (key _)
        · exact absurd (.inl trivial) h
    · rw [if_neg e]
      refine ⟨?_, fun g l => ?_⟩
      · rw [List.map_cons, List.nodup_cons]
        refine ⟨fun hm => ?_, i1⟩
        obtain ⟨⟨g, l⟩, hx, hx2⟩ := List.mem_map.1 hm
        dsimp only at hx2
        subst hx2
        rcases (i2 g l).1 hx with ⟨-, h⟩ | ⟨h, -⟩
        · exact key _ h
        · exact e h
      · simp only [List.mem_cons, Prod.mk.injEq, i2, List.map_cons]
        constructor
        · rintro (⟨rfl, rfl⟩ | ⟨h1, h2⟩ | ⟨rfl, ⟨l', h1, h2⟩ | ⟨h1, h2⟩⟩)
          · exact .inl ⟨e, .inl ⟨rfl, rfl⟩⟩
          · exact .inl ⟨h1, .inr h2⟩
          · exact .inr ⟨rfl, .inl ⟨l', .inr h1, h2⟩⟩
          · exact .inr ⟨rfl, .inr ⟨fun h => h.elim (fun h => e h.symm) h1, h2⟩⟩
        · rintro (⟨h1, h2 | h2⟩ | ⟨rfl, ⟨l', h1 | h1, h2⟩ | ⟨h1, h2⟩⟩)
          · exact .inl h2
          · exact .inr (.inl ⟨h1, h2⟩)
          · exact absurd h1.1.symm e
          · exact .inr (.inr ⟨rfl, .inl ⟨l', h1, h2⟩⟩)
          · exact .inr (.inr ⟨rfl, .inr ⟨fun h => h1 (.inr h), h2⟩⟩)

private theorem grouped_spec (d : List (List Char × Nat)) :
    ((d.foldl (fun d e => addTo e.2 e.1 d) []).map Prod.fst).Nodup ∧
    ∀ f l, (f, l) ∈ d.foldl (fun d e => addTo e.2 e.1 d) [] ↔ l = (d.filter (·.2 = f)).map Prod.fst ∧ l ≠ [] := by
  induction d using List.reverseRecOn with
  | nil => refine ⟨List.nodup_nil, fun f l => ?_⟩; simp
  | append_singleton d e ih =>
    obtain ⟨s, g⟩ := e
    rw [List.foldl_append, List.foldl_cons, List.foldl_nil]
    obtain ⟨a1, a2⟩ := addTo_spec ih.1 g s
    refine ⟨a1, fun f l => ?_⟩
    rw [a2, ih.2]
    have hkey : g ∈ (d.foldl (fun d e => addTo e.2 e.1 d) []).map Prod.fst ↔ (d.filter (·.2 = g)).map Prod.fst ≠ [] := by
      constructor
      · intro h
        obtain ⟨⟨g', l⟩, h1, h2⟩ := List.mem_map.1 h
        dsimp only at h2
        subst h2
        obtain ⟨rfl, h⟩ := (ih.2 _ _).1 h1
        exact h
      · intro h
        exact List.mem_map.2 ⟨(g, _), (ih.2 _ _).2 ⟨rfl, h⟩, rfl⟩
    rw [List.filter_append, List.map_append]
    by_cases hf : f = g
    · subst hf
      rw [List.filter_cons_of_pos (by simp)]
      simp only [ne_eq, not_true_eq_false, false_and, true_and, false_or, hkey, not_not, List.filter_nil, List.map_cons, List.map_nil]
      constructor
      · rintro (⟨l', h1, rfl⟩ | ⟨h1, rfl⟩)
        · rw [← ((ih.2 _ _).1 h1).1]; simp
        · rw [h1]; simp
      · rintro ⟨h1, -⟩
        by_cases he : (d.filter (·.2 = f)).map Prod.fst = []
        · exact .inr ⟨he, by rw [h1, he]; rfl⟩
        · exact .inl ⟨_, (ih.2 _ _).2 ⟨rfl, he⟩, h1⟩
    · rw [List.filter_cons_of_neg (by simpa using fun h => hf h.symm)]
      simp [hf]

/-- **C123** (supported formats): a suffix is supported exactly if it has been registered; each is listed once. -/
theorem C123_formats (h : List Registration) : (formats h).Nodup ∧ ∀ s, s ∈ formats h ↔ ∃ r ∈ h, s ∈ r.suffixes := by
  obtain ⟨t1, t2⟩ := table_spec h
  refine ⟨t1, fun s => ?_⟩
  constructor
  · intro hs
    obtain ⟨⟨s', f⟩, h1, h2⟩ := List.mem_map.1 hs
    dsimp only at h2
    subst h2
    obtain ⟨p, r, q, rfl, h3, -⟩ := (t2 _ _).1 h1
    exact ⟨r, by simp, h3⟩
  · intro hs
    have : ∃ f, LastFor h s f := by
      clear t1 t2
      induction h using List.reverseRecOn with
      | nil => obtain ⟨r, hr, -⟩ := hs; cases hr
      | append_singleton h z ih =>
        by_cases hz : s ∈ z.suffixes
        · exact ⟨z.fn, h, z, [], rfl, hz, rfl, by simp⟩
        · obtain ⟨r, hr, hr2⟩ := hs
          rcases List.mem_append.1 hr with hr | hr
          · obtain ⟨f, p, r', q, rfl, a1, a2, a3⟩ := ih ⟨r, hr, hr2⟩
            refine ⟨f, p, r', q ++ [z], by simp, a1, a2, fun e he => ?_⟩
            rcases List.mem_append.1 he with he | he
            · exact a3 e he
            · rw [List.mem_singleton.1 he]; exact hz
          · rw [List.mem_singleton.1 hr] at hr2; exact absurd hr2 hz
    obtain ⟨f, hf⟩ := this
    exact List.mem_map.2 ⟨(s, f), (t2 _ _).2 hf, rfl⟩

/-- **C123** (groups): after any calls the groups divide the registered suffixes by the function that was registered last for them: each group is in strictly increasing
order and not empty, no suffix is in two groups, every registered suffix is in one, and two suffixes are in the same group exactly if the same function reads them. -/
theorem C123_groups (h : List Registration) :
    (∀ g ∈ groups h, g ≠ [] ∧ g.Pairwise (· < ·)) ∧
    (groups h).Pairwise (fun a b => ∀ s ∈ a, s ∉ b) ∧
    (∀ s, (∃ g ∈ groups h, s ∈ g) ↔ ∃ r ∈ h, s ∈ r.suffixes) ∧
    ∀ g ∈ groups h, ∀ s ∈ g, ∀ t, t ∈ g ↔ ∃ f, LastFor h s f ∧ LastFor h t f := by
  obtain ⟨t1, t2⟩ := table_spec h
  obtain ⟨g1, g2⟩ := grouped_spec (table h)
  have mem : ∀ {f l}, (f, l) ∈ (table h).foldl (fun d e => addTo e.2 e.1 d) [] → ∀ s, s ∈ l ↔ LastFor h s f := by
    intro f l hl s
    rw [((g2 f l).1 hl).1]
    constructor
    · intro hs
      obtain ⟨⟨s', f'⟩, h1, h2⟩ := List.mem_map.1 hs
      dsimp only at h2
      subst h2
      obtain ⟨h3, h4⟩ := List.mem_filter.1 h1
      have : f' = f := by simpa using h4
      subst this
      exact (t2 _ _).1 h3
    · intro hs
      exact List.mem_map.2 ⟨(s, f), List.mem_filter.2 ⟨(t2 _ _).2 hs, by simp⟩, rfl⟩
  have uniq : ∀ {s f f'}, LastFor h s f → LastFor h s f' → f = f' := by
    intro s f f' a b
    have a' := (t2 _ _).2 a
    have b' := (t2 _ _).2 b
    have := lookup_of_mem t1 a'
    rw [lookup_of_mem t1 b'] at this
    exact (Option.some.inj this).symm
  refine ⟨fun g hg => ?_, ?_, fun s => ?_, fun g hg s hs t => ?_⟩
  · obtain ⟨⟨f, l⟩, h1, rfl⟩ := List.mem_map.1 hg
    obtain ⟨h2, h3⟩ := (g2 f l).1 h1
    have hp := List.perm_insertionSort (· ≤ ·) l
    refine ⟨fun e => h3 (by dsimp only at e; rw [e] at hp; exact hp.symm.eq_nil), ?_⟩
    have hn : (l.insertionSort (· ≤ ·)).Nodup := by
      rw [hp.nodup_iff, h2]
      exact (List.filter_sublist.map _).nodup t1
    exact ((List.pairwise_insertionSort (· ≤ ·) l).and hn).imp fun hab => lt_of_le_of_ne hab.1 hab.2
  · unfold groups
    rw [List.pairwise_map]
    rw [List.Nodup, List.pairwise_map] at g1
    refine g1.imp_of_mem fun {a b} ha hb hab s hs hs' => hab ?_
    rw [(List.perm_insertionSort _ _).mem_iff] at hs hs'
    exact uniq ((mem (f := a.1) (l := a.2) ha s).1 hs) ((mem (f := b.1) (l := b.2) hb s).1 hs')
  · rw [← (C123_formats h).2 s]
    constructor
    · rintro ⟨g, hg, hs⟩
      obtain ⟨⟨f, l⟩, h1, rfl⟩ := List.mem_map.1 hg
      rw [(List.perm_insertionSort _ _).mem_iff] at hs
      exact List.mem_map.2 ⟨(s, f), (t2 _ _).2 ((mem h1 s).1 hs), rfl⟩
    · intro hs
      obtain ⟨⟨s', f⟩, h1, h2⟩ := List.mem_map.1 hs
      dsimp only at h2
      subst h2
      have hl := (t2 _ _).1 h1
      have hm : s' ∈ ((table h).filter (·.2 = f)).map Prod.fst := List.mem_map.2 ⟨(s', f), List.mem_filter.2 ⟨h1, by simp⟩, rfl⟩
      refine ⟨_, List.mem_map.2 ⟨(f, _), (g2 f _).2 ⟨rfl, List.ne_nil_of_mem hm⟩, rfl⟩, ?_⟩
      rw [(List.perm_insertionSort _ _).mem_iff]
      exact hm
  · obtain ⟨⟨f, l⟩, h1, rfl⟩ := List.mem_map.1 hg
    rw [(List.perm_insertionSort _ _).mem_iff] at hs ⊢
    have hsf := (mem h1 s).1 hs
    rw [mem h1 t]
    exact ⟨fun ht => ⟨f, hsf, ht⟩, fun ⟨f', a, b⟩ => by rw [uniq hsf a]; exact b⟩

/-- **C123** (writers): a call of `register_writer` decides how files with its suffixes are saved, whatever was registered before, and changes nothing for others. -/
theorem C123_writer {S : Type} (h : List (List (List Char) × WriteFn S)) (fs : List (List Char)) (w : WriteFn S) (src : Source) (format : Option (List Char)) (s : S) :
    (target src format ∈ fs → save (writerTable (h ++ [(fs, w)])) src format s = save [(target src format, w)] src format s) ∧
    (target src format ∉ fs → save (writerTable (h ++ [(fs, w)])) src format s = save (writerTable h) src format s) := by
  have e : (writerTable (h ++ [(fs, w)])).lookup (target src format) = if target src format ∈ fs then some w else (writerTable h).lookup (target src format) := by
    unfold writerTable
    rw [List.foldl_append]
    exact lookup_fold fs w _ _
  constructor
  · intro ht
    rw [if_pos ht] at e
    have e2 : ([(target src format, w)] : List (List Char × WriteFn S)).lookup (target src format) = some w := List.lookup_cons_self
    unfold save
    simp only []
    rw [e, e2]
  · intro ht
    rw [if_neg ht] at e
    unfold save
    simp only []
    rw [e]

/-- **C123** (the package): the groups of the formats that come with the package. -/
theorem C123_package : groups packageCalls =
    [[".al3d"], [".dat"], [".fit", ".fits", ".fts"], [".gwy"], [".nms"], [".opd"], [".os3d"], [".plu"], [".plux"], [".sdf"], [".sflz"], [".sur"], [".tmd"], [".vk4"],
      [".vk6", ".vk7"], [".x3p"], [".xyz"], [".zmg"]].map fun g => g.map String.toList := by decide +kernel

/-- A reader of another package takes over one of the suffixes and adds one. -/
example : groups (packageCalls ++ [⟨[".VK7".toList, ".vk7".toList], 50⟩]) =
    [[".al3d"], [".dat"], [".fit", ".fits", ".fts"], [".gwy"], [".nms"], [".opd"], [".os3d"], [".plu"], [".plux"], [".sdf"], [".sflz"], [".sur"], [".tmd"], [".vk4"],
      [".vk6"], [".VK7", ".vk7"], [".x3p"], [".xyz"], [".zmg"]].map fun g => g.map String.toList := by decide +kernel

/-! ### C124 -/

private theorem byMagicR_package (run : Format → ReadFn R) :
    byMagicR (package run) = Format.all.flatMap fun f => f.magics.map fun m => (m, ⟨f.suffixes, f.magics, run f⟩) := by
  unfold byMagicR
  show (package run).foldl (fun d r => r.magics.foldl (fun d k => put k (id r) d) d) [] = _
  rw [fold_all Reader.magics id]
  · rw [flatMap_package]; rfl
  · simp only [List.map_nil, List.nil_append]
    rw [flatMap_package]
    exact magics_nodup

private theorem find_has (run : Format → ReadFn R) {suffix : List Char} {b : Bytes} {f : Format} (h : HasMagic f b) :
    ∃ m, magicHit (package run) (.path suffix b) = some (m, ⟨f.suffixes, f.magics, run f⟩) := by
  have pre : ∀ m : Bytes, ((Handle.mk b 0).read m.length).1 = m ↔ ∃ t, b = m ++ t := by
    intro m
    show (b.drop 0).take m.length = m ↔ _
    rw [List.drop_zero]
    constructor
    · intro e
      exact ⟨b.drop m.length, by conv_lhs => rw [← List.take_append_drop m.length b, e]⟩
    · rintro ⟨t, rfl⟩; simp
  cases hf : magicHit (package run) (.path suffix b) with
  | none =>
    obtain ⟨m, hm, ht⟩ := h
    unfold magicHit at hf
    rw [List.find?_eq_none] at hf
    have hmem : (m, (⟨f.suffixes, f.magics, run f⟩ : Reader R)) ∈ byMagicR (package run) := by
      rw [byMagicR_package]
      exact List.mem_flatMap_of_mem (all_mem f) (List.mem_map.2 ⟨m, hm, rfl⟩)
    exact absurd (decide_eq_true ((pre m).2 ht)) (hf _ hmem)
  | some e =>
    obtain ⟨m, r⟩ := e
    have hf' := hf
    unfold magicHit at hf
    have h1 := List.find?_some hf
    have h2 := List.mem_of_find?_eq_some hf
    rw [byMagicR_package] at h2
    obtain ⟨g, -, hg⟩ := List.mem_flatMap.1 h2
    obtain ⟨m', hm', he⟩ := List.mem_map.1 hg
    cases he
    have := C63_magic_unique h ⟨m, hm', (pre m).1 (of_decide_eq_true h1)⟩
    subst this
    exact ⟨m, rfl⟩

private theorem find_hasnt (run : Format → ReadFn R) {suffix : List Char} {b : Bytes} (h : ∀ f, ¬ HasMagic f b) :
    magicHit (package run) (.path suffix b) = none := by
  unfold magicHit
  rw [List.find?_eq_none]
  rintro ⟨m, r⟩ he hc
  rw [byMagicR_package] at he
  obtain ⟨g, -, hg⟩ := List.mem_flatMap.1 he
  obtain ⟨m', hm', e⟩ := List.mem_map.1 hg
  cases e
  refine h g ⟨m, hm', b.drop m.length, ?_⟩
  have : (b.drop 0).take m.length = m := of_decide_eq_true hc
  rw [List.drop_zero] at this
  conv_lhs => rw [← List.take_append_drop m.length b, this]

/-- **C124** (no warning): a file on disk that the reader asked for reads is loaded without a warning. -/
theorem C124_silent (run : Format → ReadFn R) {suffix : List Char} {b : Bytes} {format : Option (List Char)} {f : Format} {x : R}
    (ha : Asked (.path suffix b) format f) (hr : Reads run f b x) : warnings (package run) (.path suffix b) format = [] := by
  unfold warnings
  rw [byName_asked run ha]
  unfold attempt
  have : (run f ⟨b, 0⟩).1 = .ok x := hr
  cases hh : run f ⟨b, 0⟩ with
  | mk a p =>
    rw [hh] at this
    dsimp only at this
    subst this
    simp only [Source.content, Source.start, hh]

/-- **C124** (a warning): a file on disk that is loaded although its name says nothing, or something else, is loaded with one warning, which states the suffix of the file
and suffixes of the format it was read as; this is not the format asked for. -/
theorem C124_warned (run : Format → ReadFn R) {suffix : List Char} {b : Bytes} {format : Option (List Char)} {x : R}
    (hfail : ∀ g, Asked (.path suffix b) format g → ∀ y, ¬ Reads run g b y) (hl : (load (package run) (.path suffix b) format).1 = .ok x) :
    ∃ f names, Reads run f b x ∧ ¬ Asked (.path suffix b) format f ∧ names ≠ [] ∧ (∀ n ∈ names, n ∈ f.suffixes) ∧
      warnings (package run) (.path suffix b) format = [(suffix, names)] := by
  obtain ⟨e, he⟩ := byName_path run hfail
  by_cases hm : ∃ f, HasMagic f b
  · obtain ⟨f, hf⟩ := hm
    rw [C63_path_magic run hfail hf] at hl
    have hn : ¬ Asked (.path suffix b) format f := fun ha => hfail f ha x hl
    have hne : f.suffixes ≠ [] := by cases f <;> decide
    refine ⟨f, f.suffixes, hl, hn, hne, fun _ h => h, ?_⟩
    unfold warnings
    rw [he]
    dsimp only
    obtain ⟨m, h1⟩ := find_has run (suffix := suffix) hf
    rw [h1]
    dsimp only
    cases hnm : named (.path suffix b) format with
    | none => cases format <;> cases hnm
    | some s =>
      dsimp only
      rw [if_pos]
      intro e
      exact hn ((named_asked _ _ _).2 ⟨s, hnm, by rw [e]; simp⟩)
  · push Not at hm
    unfold load at hl
    rw [he] at hl
    dsimp only at hl
    rw [byMagic_hasnt run (by simpa [Source.content, Source.start] using hm)] at hl
    dsimp only at hl
    have key : ∀ d : List (List Char × ReadFn R), (probe (.path suffix b) d).1 = some x →
        ∃ s r, d.find? (fun e => Files.succeeds e.2 (.path suffix b)) = some (s, r) ∧ (r ⟨b, 0⟩).1 = .ok x := by
      intro d
      induction d with
      | nil => intro h; cases h
      | cons e d ih =>
        obtain ⟨s, r⟩ := e
        intro h
        have ha := attempt_path r suffix b
        rw [probe] at h
        rw [List.find?_cons]
        unfold Files.succeeds
        dsimp only
        rw [ha] at h ⊢
        dsimp only at h ⊢
        cases hr : (r ⟨b, 0⟩).1 with
        | ok y =>
          rw [hr] at h
          dsimp only at h ⊢
          rw [if_pos (by rfl)] at h
          dsimp only at h
          cases h
          exact ⟨s, r, rfl, hr⟩
        | error e' =>
          rw [hr] at h
          dsimp only at h ⊢
          exact ih h
    have hp : (probe (.path suffix b) (bySuffix (package run))).1 = some x := by
      cases hpp : probe (.path suffix b) (bySuffix (package run)) with
      | mk o src =>
        rw [hpp] at hl
        cases o with
        | none => cases hl
        | some y => cases hl; rfl
    obtain ⟨s, r, h1, h2⟩ := key _ hp
    have hmem := List.mem_of_find?_eq_some h1
    rw [bySuffix_package] at hmem
    obtain ⟨f, -, hf⟩ := List.mem_flatMap.1 hmem
    obtain ⟨s', hs', e'⟩ := List.mem_map.1 hf
    cases e'
    refine ⟨f, [s], h2, fun ha => hfail f ha x h2, by simp, by simpa using hs', ?_⟩
    unfold warnings
    rw [he]
    dsimp only
    rw [find_hasnt run hm]
    dsimp only
    rw [h1]

/-- **C124** (a failed load): a damaged file whose name is right raises the error of its reader, and without a warning, if its format has only one suffix. Missing: formats
with several suffixes, see `C124_own_format_violated`. -/
theorem C124_damaged_partial (run : Format → ReadFn R) {suffix : List Char} {b : Bytes} {format : Option (List Char)} {f : Format} {s : List Char} {e : Err}
    (ha : Asked (.path suffix b) format f) (hs : f.suffixes = [s]) (hm : HasMagic f b) (hr : (run f ⟨b, 0⟩).1 = .error e) :
    (load (package run) (.path suffix b) format).1 = .error e ∧ warnings (package run) (.path suffix b) format = [] := by
  have hfail : ∀ g, Asked (.path suffix b) format g → ∀ y, ¬ Reads run g b y := by
    intro g hg y hy
    rw [asked_unique hg ha] at hy
    unfold Reads at hy
    rw [hr] at hy
    cases hy
  obtain ⟨e', he⟩ := byName_path run hfail
  refine ⟨by rw [C63_path_magic run hfail hm, hr], ?_⟩
  unfold warnings
  rw [he]
  dsimp only [Source.content, Source.start]
  obtain ⟨m, h1⟩ := find_has run (suffix := suffix) hm
  rw [h1]
  obtain ⟨s', hs1, hs2⟩ := (named_asked _ _ _).1 ha
  rw [hs1]
  dsimp only
  rw [hs, List.mem_singleton] at hs2
  rw [if_neg (by rw [hs, hs2]; simp)]

/-- **Violated** (C124): a damaged file whose name is right is said to be of another type, if the format has several suffixes: FITS, VK6 and VK7. -/
theorem C124_own_format_violated (run : Format → ReadFn R) {suffix : List Char} {b : Bytes} {format : Option (List Char)} {f : Format} {e : Err}
    (ha : Asked (.path suffix b) format f) (hs : f = .fits ∨ f = .vk67) (hm : HasMagic f b) (hr : (run f ⟨b, 0⟩).1 = .error e) :
    (load (package run) (.path suffix b) format).1 = .error e ∧ warnings (package run) (.path suffix b) format = [(suffix, f.suffixes)] := by
  have hfail : ∀ g, Asked (.path suffix b) format g → ∀ y, ¬ Reads run g b y := by
    intro g hg y hy
    rw [asked_unique hg ha] at hy
    unfold Reads at hy
    rw [hr] at hy
    cases hy
  obtain ⟨e', he⟩ := byName_path run hfail
  refine ⟨by rw [C63_path_magic run hfail hm, hr], ?_⟩
  unfold warnings
  rw [he]
  dsimp only [Source.content, Source.start]
  obtain ⟨m, h1⟩ := find_has run (suffix := suffix) hm
  rw [h1]
  obtain ⟨s', hs1, hs2⟩ := (named_asked _ _ _).1 ha
  rw [hs1]
  dsimp only
  rw [if_pos]
  intro h
  have := congrArg List.length h
  rcases hs with rfl | rfl <;> cases this

/-- **C124** (buffers) are loaded without a warning, whatever they hold. -/
theorem C124_buffer (rs : List (Reader R)) (b : Bytes) (p : Nat) (format : Option (List Char)) : warnings rs (.buffer b p) format = [] := by
  unfold warnings
  have hb : ∃ r p', byName rs (.buffer b p) format = (r, .buffer b p') := by
    unfold byName
    cases named (.buffer b p) format with
    | none => exact ⟨_, p, rfl⟩
    | some s =>
      dsimp only
      cases (bySuffix rs).lookup s with
      | none => exact ⟨_, p, rfl⟩
      | some r =>
        dsimp only
        unfold attempt
        cases r ⟨(Source.buffer b p).content, (Source.buffer b p).start⟩ with
        | mk a q => cases a <;> exact ⟨_, _, rfl⟩
  obtain ⟨r, p', hb⟩ := hb
  rw [hb]
  cases r with
  | ok x => rfl
  | error e =>
    dsimp only
    split
    · rfl
    · rfl

/-- A damaged FITS file, and a text file that is called FITS. -/
example : warnings (package fun _ => fun _ => ((.error .corrupted : Except Err Nat), 0)) (.path ".fit".toList (asc "SIMPLE  =")) none =
    [(".fit".toList, [".fits".toList, ".fit".toList, ".fts".toList])] :=
  (C124_own_format_violated (f := .fits) _ (e := .corrupted) (.inr ⟨rfl, _, _, rfl, by decide +kernel⟩) (.inl rfl) ⟨asc "SIMPLE", by decide +kernel, asc "  =", by decide +kernel⟩ rfl).2

example : warnings (package fun f => fun _ => ((if f = .xyz then .ok 7 else .error .corrupted : Except Err Nat), 0)) (.path ".fit".toList (asc "1 2 3")) none =
    [(".fit".toList, [".xyz".toList])] := by decide +kernel

end Props
end Surfalize
