import Verif.Model.FileHandler
import Mathlib.Data.List.Nodup
import Mathlib.Data.List.Infix
/-! # Lemmas for C63 -/
set_option linter.unusedSectionVars false
namespace Surfalize
namespace Files
variable {α β R : Type} [DecidableEq α]

theorem put_new (k : α) (v : β) (d : List (α × β)) (h : k ∉ d.map Prod.fst) : put k v d = d ++ [(k, v)] := by
  induction d with
  | nil => rfl
  | cons e d ih =>
    obtain ⟨k', v'⟩ := e
    simp only [List.map_cons, List.mem_cons, not_or] at h
    rw [put, if_neg (fun e => h.1 e.symm), ih h.2]
    rfl

theorem fold_new (ks : List α) (v : β) : ∀ d : List (α × β), (d.map Prod.fst ++ ks).Nodup →
    ks.foldl (fun d k => put k v d) d = d ++ ks.map fun k => (k, v) := by
  induction ks with
  | nil => intro d _; simp
  | cons k ks ih =>
    intro d h
    rw [List.foldl_cons, put_new k v d]
    · rw [ih]
      · simp
      · simpa using h
    · intro hm
      rw [List.nodup_append] at h
      exact h.2.2 k hm k (by simp) rfl

theorem fold_all {γ : Type} (keys : γ → List α) (val : γ → β) (rs : List γ) :
    ∀ d : List (α × β), (d.map Prod.fst ++ rs.flatMap keys).Nodup →
    rs.foldl (fun d r => (keys r).foldl (fun d k => put k (val r) d) d) d =
      d ++ rs.flatMap fun r => (keys r).map fun k => (k, val r) := by
  induction rs with
  | nil => intro d _; simp
  | cons r rs ih =>
    intro d h
    simp only [List.flatMap_cons] at h
    rw [List.foldl_cons, fold_new]
    · rw [ih]
      · simp
      · have e : List.map Prod.fst (d ++ List.map (fun k => (k, val r)) (keys r)) =
            d.map Prod.fst ++ keys r := by
          rw [List.map_append, List.map_map]
          congr 1
          exact List.map_id'' (fun x => rfl) _
        rw [e]
        simpa using h
    · rw [← List.append_assoc] at h
      exact (List.nodup_append.1 h).1

/-- The suffixes of the formats are all different. -/
theorem suffixes_nodup : (Format.all.flatMap Format.suffixes).Nodup := by decide

/-- The magic numbers of the formats are all different. -/
theorem magics_nodup : (Format.all.flatMap Format.magics).Nodup := by decide

theorem flatMap_package {γ : Type} (run : Format → ReadFn R) (g : Reader R → List γ) :
    (package run).flatMap g = Format.all.flatMap fun f => g ⟨f.suffixes, f.magics, run f⟩ := by
  simp only [package, List.flatMap_map]

theorem bySuffix_package (run : Format → ReadFn R) :
    bySuffix (package run) = Format.all.flatMap fun f => f.suffixes.map fun s => (s, run f) := by
  unfold bySuffix
  rw [fold_all Reader.suffixes Reader.run]
  · rw [flatMap_package]; rfl
  · simp only [List.map_nil, List.nil_append]
    rw [flatMap_package]
    exact suffixes_nodup

theorem byMagic_package (run : Format → ReadFn R) :
    byMagic (package run) = Format.all.flatMap fun f => f.magics.map fun m => (m, run f) := by
  unfold byMagic
  rw [fold_all Reader.magics Reader.run]
  · rw [flatMap_package]; rfl
  · simp only [List.map_nil, List.nil_append]
    rw [flatMap_package]
    exact magics_nodup

theorem lookup_mem {α : Type} [BEq α] [LawfulBEq α] {k : α} {v : β} {d : List (α × β)} (h : d.lookup k = some v) : (k, v) ∈ d := by
  induction d with
  | nil => simp [List.lookup] at h
  | cons e d ih =>
    obtain ⟨k', v'⟩ := e
    rw [List.lookup_cons] at h
    split at h
    · rename_i hk
      simp only [beq_iff_eq] at hk
      cases h
      subst hk
      simp
    · exact List.mem_cons_of_mem _ (ih h)

theorem lookup_of_mem {α : Type} [BEq α] [LawfulBEq α] {k : α} {v : β} {d : List (α × β)}
    (hd : (d.map Prod.fst).Nodup)
    (h : (k, v) ∈ d) : d.lookup k = some v := by
  induction d with
  | nil => cases h
  | cons e d ih =>
    obtain ⟨k', v'⟩ := e
    simp only [List.map_cons, List.nodup_cons] at hd
    rw [List.lookup_cons]
    rcases List.mem_cons.1 h with h | h2
    · cases h
      simp
    · have : (k == k') = false := by
        rw [beq_eq_false_iff_ne]
        rintro rfl
        exact hd.1 (List.mem_map.2 ⟨(k, v), h2, rfl⟩)
      rw [this]
      exact ih hd.2 h2

theorem keys_package (run : Format → ReadFn R) :
    ((bySuffix (package run)).map Prod.fst) = Format.all.flatMap Format.suffixes := by
  rw [bySuffix_package, List.map_flatMap]
  congr 1
  funext f
  rw [List.map_map]
  exact List.map_id'' (fun x => rfl) _

theorem all_mem (f : Format) : f ∈ Format.all := by cases f <;> decide

theorem suffix_unique {s : List Char} {f g : Format} (hf : s ∈ f.suffixes) (hg : s ∈ g.suffixes) :
    f = g := by
  have : ∀ f ∈ Format.all, ∀ g ∈ Format.all, f ≠ g → ∀ s ∈ f.suffixes, s ∉ g.suffixes := by decide
  by_contra hne
  exact this f (all_mem f) g (all_mem g) hne s hf hg

theorem lookup_suffix (run : Format → ReadFn R) {s : List Char} {f : Format} (h : s ∈ f.suffixes) :
    (bySuffix (package run)).lookup s = some (run f) := by
  apply lookup_of_mem
  · rw [keys_package]; exact suffixes_nodup
  · rw [bySuffix_package]
    refine List.mem_flatMap_of_mem (all_mem f) ?_
    exact List.mem_map_of_mem (f := fun s => (s, run f)) h

theorem lookup_suffix_some (run : Format → ReadFn R) {s : List Char} {r : ReadFn R}
    (h : (bySuffix (package run)).lookup s = some r) : ∃ f : Format, s ∈ f.suffixes ∧ r = run f := by
  have h1 := lookup_mem h
  rw [bySuffix_package] at h1
  obtain ⟨f, -, hf⟩ := List.mem_flatMap.1 h1
  obtain ⟨s', hs', e⟩ := List.mem_map.1 hf
  simp only [Prod.mk.injEq] at e
  exact ⟨f, e.1 ▸ hs', e.2.symm⟩

/-- Comparing a magic number at a position. -/
theorem read_eq_iff (b m : Bytes) (p : Nat) :
    ((Handle.mk b p).read m.length).1 = m ↔ m <+: b.drop p := by
  simp only [Handle.read]
  rw [List.prefix_iff_eq_take, eq_comm]

/-- The magic numbers of two different formats are not prefixes of each other. -/
theorem magic_unique {b m n : Bytes} {f g : Format} (hm : m ∈ f.magics) (hn : n ∈ g.magics)
    (h1 : m <+: b) (h2 : n <+: b) : f = g := by
  have : ∀ f ∈ Format.all, ∀ g ∈ Format.all, f ≠ g → ∀ m ∈ f.magics, ∀ n ∈ g.magics,
      ¬ m <+: n ∧ ¬ n <+: m := by decide
  by_contra hne
  obtain ⟨a1, a2⟩ := this f (all_mem f) g (all_mem g) hne m hm n hn
  rcases List.prefix_or_prefix_of_prefix h1 h2 with h | h
  · exact a1 h
  · exact a2 h

/-- The outcome of the loop over the magic numbers. -/
theorem byMagicLoop_none {src : Source} {d : List (Bytes × ReadFn R)}
    (h : ∀ e ∈ d, ¬ e.1 <+: src.content.drop src.start) : byMagicLoop src d = none := by
  induction d with
  | nil => rfl
  | cons e d ih =>
    obtain ⟨m, r⟩ := e
    rw [byMagicLoop, if_neg]
    · exact ih fun e he => h e (by simp [he])
    · rw [read_eq_iff]; exact h (m, r) (by simp)

theorem byMagicLoop_some {src : Source} {d : List (Bytes × ReadFn R)} {r : ReadFn R}
    (h : ∀ e ∈ d, e.1 <+: src.content.drop src.start → e.2 = r)
    (hex : ∃ e ∈ d, e.1 <+: src.content.drop src.start) :
    byMagicLoop src d = some (match r ⟨src.content, 0⟩ with
      | (.ok x, _) => (.ok x, src)
      | (.error e, p) => (.error e, src.at_ p)) := by
  induction d with
  | nil => obtain ⟨e, he, -⟩ := hex; cases he
  | cons e d ih =>
    obtain ⟨m, r'⟩ := e
    rw [byMagicLoop]
    by_cases hm : m <+: src.content.drop src.start
    · rw [if_pos ((read_eq_iff _ _ _).2 hm)]
      have : r' = r := h (m, r') (by simp) hm
      subst this
      split <;> rename_i hh <;> rw [hh]
    · rw [if_neg (fun hh => hm ((read_eq_iff _ _ _).1 hh))]
      apply ih
      · exact fun e he => h e (by simp [he])
      · obtain ⟨e, he, hp⟩ := hex
        rcases List.mem_cons.1 he with rfl | he
        · exact absurd hp hm
        · exact ⟨e, he, hp⟩

theorem attempt_path (r : ReadFn R) (s : List Char) (b : Bytes) :
    attempt r (.path s b) = ((r ⟨b, 0⟩).1, .path s b) := by
  unfold attempt
  simp only [Source.content, Source.start]
  split <;> (rename_i h; rw [h]; try rfl)

/-- Probing a file: the first reader that reads it. -/
theorem probe_path (s : List Char) (b : Bytes) (d : List (List Char × ReadFn R)) :
    (probe (.path s b) d).2 = .path s b ∧
    ((probe (.path s b) d).1 = none ↔ ∀ e ∈ d, ∀ x, (e.2 ⟨b, 0⟩).1 ≠ .ok x) ∧
    ∀ x, (probe (.path s b) d).1 = some x → ∃ d1 e d2, d = d1 ++ e :: d2 ∧ (e.2 ⟨b, 0⟩).1 = .ok x ∧
      ∀ e' ∈ d1, ∀ y, (e'.2 ⟨b, 0⟩).1 ≠ .ok y := by
  induction d with
  | nil => simp [probe]
  | cons e d ih =>
    obtain ⟨k, r⟩ := e
    obtain ⟨ih1, ih2, ih3⟩ := ih
    rw [probe, attempt_path]
    cases hr : (r ⟨b, 0⟩).1 with
    | ok x =>
      simp only [Source.isPath, if_true, true_and]
      refine ⟨⟨fun h => (by cases h), fun h => absurd hr (h (k, r) (by simp) x)⟩, ?_⟩
      intro y hy
      cases hy
      exact ⟨[], (k, r), d, rfl, hr, by simp⟩
    | error e =>
      dsimp only
      refine ⟨ih1, ?_, ?_⟩
      · rw [ih2]
        constructor
        · intro h e' he' x
          rcases List.mem_cons.1 he' with rfl | he'
          · rw [hr]; intro hh; cases hh
          · exact h e' he' x
        · exact fun h e' he' => h e' (by simp [he'])
      · intro x hx
        obtain ⟨d1, e', d2, h1, h2, h3⟩ := ih3 x hx
        refine ⟨(k, r) :: d1, e', d2, by rw [h1]; rfl, h2, ?_⟩
        intro e'' he'' y
        rcases List.mem_cons.1 he'' with rfl | he''
        · rw [hr]; intro hh; cases hh
        · exact h3 e'' he'' y

/-- Probing a buffer never gives a result. -/
theorem probe_buffer (d : List (List Char × ReadFn R)) :
    ∀ (b : Bytes) (p : Nat), (probe (.buffer b p) d).1 = none := by
  induction d with
  | nil => intro b p; rfl
  | cons e d ih =>
    intro b p
    obtain ⟨k, r⟩ := e
    rw [probe]
    unfold attempt
    simp only [Source.content, Source.start, Source.at_, Source.isPath]
    split
    · rename_i h
      split at h
      · cases h; simp only [Bool.false_eq_true, if_false]; exact ih b p
      · cases h
    · rename_i h
      split at h
      · cases h
      · cases h; exact ih b _

/-- A buffer without a magic number is not read. -/
theorem load_buffer_none {rs : List (Reader R)} {src : Source} {format : Option (List Char)} {b : Bytes}
    {q : Nat} {e : Option Err} (h1 : byName rs src format = (.error e, .buffer b q))
    (h2 : byMagicLoop (.buffer b q) (byMagic rs) = none) :
    (load rs src format).1 = .error (e.getD .unsupported) := by
  unfold load
  rw [h1]
  dsimp only
  rw [h2]
  dsimp only
  have h3 := probe_buffer (bySuffix rs) b q
  generalize probe (.buffer b q) (bySuffix rs) = o at h3 ⊢
  obtain ⟨o, s2⟩ := o
  dsimp only at h3
  subst h3
  rfl

theorem byMagicLoop_restores {src src' : Source} {x : R} {d : List (Bytes × ReadFn R)}
    (h : byMagicLoop src d = some (.ok x, src')) : src' = src := by
  induction d with
  | nil => cases h
  | cons e d ih =>
    obtain ⟨m, r⟩ := e
    rw [byMagicLoop] at h
    split at h
    · split at h
      · cases h; rfl
      · cases h
    · exact ih h

/-- A buffer that was read after the first stage failed is where the first stage left it. -/
theorem load_buffer_some {rs : List (Reader R)} {src src' : Source} {format : Option (List Char)}
    {b : Bytes} {q : Nat} {e : Option Err} {x : R}
    (h1 : byName rs src format = (.error e, .buffer b q)) (h : load rs src format = (.ok x, src')) :
    src' = .buffer b q := by
  cases h2 : byMagicLoop (.buffer b q) (byMagic rs) with
  | none =>
    have := load_buffer_none h1 h2
    rw [h] at this
    cases this
  | some out =>
    unfold load at h
    rw [h1] at h
    dsimp only at h
    rw [h2] at h
    dsimp only at h
    subst h
    exact byMagicLoop_restores h2

theorem lookup_asked {rs : List (Reader R)} {src : Source} {format : Option (List Char)}
    {s : List Char} {r : ReadFn R} (h1 : named src format = some s) (h2 : (bySuffix rs).lookup s = some r) :
    byName rs src format =
      match attempt r src with
      | (.ok x, src') => (.ok x, src')
      | (.error e, src') => (.error (some e), src') := by
  unfold byName
  rw [h1]
  dsimp only
  rw [h2]
  dsimp only
  cases attempt r src with
  | mk a src' => cases a <;> rfl

end Files
end Surfalize
