import Verif.Lemmas.Batch
import Verif.Props.Cache

/-!
# C48–C52 — batch processing
-/
set_option linter.unusedSectionVars false
namespace Surfalize.Props
open Surfalize.CacheM Surfalize.CacheSpec Surfalize.CacheLemmas Surfalize.Batch Surfalize.BatchSpec
open Surfalize.BatchLemmas

variable {F D X A : Type}

/-! ## C48 — scheduling -/

/-- **C48.** Whatever schedule the thread pool follows, once all work items are finished the result queue holds
exactly one outcome per file, namely the outcome of processing that file alone: the queue is a permutation of the
outcomes in file order. -/
theorem C48_any_schedule (E : Env F D X A) (steps : List (Step D X A)) (ignore preserve : Bool) (files : List F)
    (sched : List Nat) (hd : (Pool.run E steps ignore preserve (Pool.start files) sched).done) :
    (Pool.run E steps ignore preserve (Pool.start files) sched).queue.Perm
      (files.map (task E steps ignore preserve)) := by
  have h := run_perm E steps ignore preserve sched (Pool.start files)
  have h0 : (Pool.run E steps ignore preserve (Pool.start files) sched).items.flatMap
      (fun it => (Item.outcome E steps ignore preserve it).toList) = [] := by
    rw [List.flatMap_eq_nil_iff]
    intro it hit
    rw [hd it hit]; rfl
  rw [h0, List.append_nil, start_outcomes] at h
  exact h

/-- **C48** (before completion). At every moment of every schedule the outcomes delivered so far, hence the rows
handed to `on_file_complete`, are outcomes of distinct files; the missing ones complete them to a permutation. -/
theorem C48_delivered_so_far (E : Env F D X A) (steps : List (Step D X A)) (ignore preserve : Bool) (files : List F)
    (sched : List Nat) : ∃ rest,
    ((Pool.run E steps ignore preserve (Pool.start files) sched).queue ++ rest).Perm
      (files.map (task E steps ignore preserve)) := by
  have h := run_perm E steps ignore preserve sched (Pool.start files)
  rw [start_outcomes] at h
  exact ⟨_, h⟩

/-- **C48.** If sequential processing succeeds then parallel processing succeeds under every schedule, with the same
rows up to order. -/
theorem C48_same_rows (E : Env F D X A) (steps : List (Step D X A)) (ignore preserve : Bool) (files : List F)
    (rows : List (Row X)) (hs : dispatchSequential E steps ignore preserve files = .ok rows) (sched : List Nat)
    (hd : (Pool.run E steps ignore preserve (Pool.start files) sched).done) :
    ∃ rows', collect (Pool.run E steps ignore preserve (Pool.start files) sched).queue = .ok rows' ∧
      rows'.Perm rows ∧ rows'.length = files.length := by
  have h := C48_any_schedule E steps ignore preserve files sched hd
  have hm := mapM_ok_inv hs
  rw [hm] at h
  obtain ⟨rows', h1, h2⟩ := collect_perm_ok h
  refine ⟨rows', h1, h2, ?_⟩
  rw [h2.length_eq]
  have := congrArg List.length hm
  simpa using this.symm

/-- **C48.** If some file fails then parallel processing fails under every schedule, with the exception of one of
the failing files, and so does sequential processing. -/
theorem C48_failure (E : Env F D X A) (steps : List (Step D X A)) (ignore preserve : Bool) (files : List F)
    (hf : ∃ f ∈ files, ∃ e, task E steps ignore preserve f = .error e) (sched : List Nat)
    (hd : (Pool.run E steps ignore preserve (Pool.start files) sched).done) :
    (∃ e, collect (Pool.run E steps ignore preserve (Pool.start files) sched).queue = .error e ∧
      ∃ f ∈ files, task E steps ignore preserve f = .error e) ∧
    (∃ e, dispatchSequential E steps ignore preserve files = .error e ∧
      ∃ f ∈ files, task E steps ignore preserve f = .error e) := by
  have h := C48_any_schedule E steps ignore preserve files sched hd
  constructor
  · obtain ⟨f, hf1, e, he⟩ := hf
    have hmem : Except.error e ∈ (Pool.run E steps ignore preserve (Pool.start files) sched).queue :=
      h.symm.subset (List.mem_map.2 ⟨f, hf1, he⟩)
    obtain ⟨e', h'⟩ := mapM_error_of_mem (f := id) ⟨_, hmem, e, rfl⟩
    refine ⟨e', h', ?_⟩
    obtain ⟨a, ha, h2⟩ := mapM_error_mem h'
    have ha' : a = .error e' := h2
    have := h.subset ha
    rw [ha', List.mem_map] at this
    obtain ⟨g, hg1, hg2⟩ := this
    exact ⟨g, hg1, hg2⟩
  · obtain ⟨e', h'⟩ := mapM_error_of_mem hf
    exact ⟨e', h', mapM_error_mem h'⟩

/-- **C48** (termination). Every schedule that gives each work item `number of steps + 2` quanta finishes: no work
item waits for another. -/
theorem C48_finishes (E : Env F D X A) (steps : List (Step D X A)) (ignore preserve : Bool) (files : List F)
    (sched : List Nat) (h : ∀ i < files.length, steps.length + 2 ≤ sched.count i) :
    (Pool.run E steps ignore preserve (Pool.start files) sched).done := by
  intro it hit
  obtain ⟨j, hj, rfl⟩ := List.getElem_of_mem hit
  have hl := run_length E steps ignore preserve sched (Pool.start files)
  have hj' : j < files.length := by rw [hl] at hj; simpa [Pool.start] using hj
  obtain ⟨it0, h0, h1⟩ := run_need E steps ignore preserve sched (Pool.start files) j _ (List.getElem?_eq_getElem hj)
  have h2 : it0 = .waiting files[j] := by
    simp only [Pool.start, List.getElem?_map, List.getElem?_eq_getElem hj', Option.map_some, Option.some.injEq] at h0
    exact h0.symm
  apply need_zero (steps := steps)
  have h3 : Item.need steps it0 = steps.length + 2 := by rw [h2]; rfl
  have := h j hj'
  omega

/-- **C48** (the table). When the rows have the same columns, the table made from the rows in any other order has the
same columns and the same rows up to order. -/
theorem C48_table (rows rows' : List (Row X)) (hp : rows'.Perm rows) (ks : List String)
    (hk : ∀ r ∈ rows, r.map Prod.fst = ks) :
    (tableOf rows').cols = (tableOf rows).cols ∧ (tableOf rows').rows.Perm (tableOf rows).rows := by
  have hf : ∀ l : List (Row X), (∀ r ∈ l, r.map Prod.fst = ks) →
      (l.flatMap fun r => r.map Prod.fst) = (List.replicate l.length ks).flatten := by
    intro l hl
    induction l with
    | nil => rfl
    | cons r l ih =>
      rw [List.flatMap_cons, hl r (by simp), ih fun r' hr' => hl r' (by simp [hr'])]
      simp [List.replicate_succ]
  have hc : columns rows' = columns rows := by
    unfold columns
    rw [hf rows hk, hf rows' (fun r hr => hk r (hp.subset hr)), hp.length_eq]
  refine ⟨hc, ?_⟩
  simp only [tableOf, hc]
  exact hp.map _

/-! ## C49 — order of operations and parameters -/

/-- **C49.** For every step list, file and mode, the row a task produces is the specified one: every parameter is
evaluated from scratch on the heights obtained by applying, in registration order, the operations registered before
it (`preserve`) or all operations (otherwise); the first exception in execution order is raised. -/
theorem C49_row (E : Env F D X A) (hK : KeyFaithful E.cls) (steps : List (Step D X A)) (hn : NoRecursion E steps)
    (ignore preserve : Bool) (f : F) : task E steps ignore preserve f = specRow E steps ignore preserve f :=
  task_spec E hK steps hn ignore preserve f

/-- **C49.** With preserved chaining order the parameters are paired with exactly the steps registered before them. -/
theorem C49_sites_chained (steps pre : List (Step D X A)) (s : Step D X A) :
    (pre, s) ∈ sites true steps ↔ s.isOp = false ∧ ∃ post, steps = pre ++ s :: post := by
  unfold sites
  rw [if_pos rfl, mem_sitesFrom]
  constructor
  · rintro ⟨h1, p, post, h2, h3⟩
    simp only [List.nil_append] at h3
    subst h3
    exact ⟨h1, post, h2⟩
  · rintro ⟨h1, post, h2⟩
    exact ⟨h1, pre, post, h2, by simp⟩

/-- **C49.** Without it they are paired with all steps. -/
theorem C49_sites_unordered (steps pre : List (Step D X A)) (s : Step D X A) :
    (pre, s) ∈ sites false steps ↔ s.isOp = false ∧ s ∈ steps ∧ pre = steps := by
  simp only [sites, Bool.false_eq_true, if_false, List.mem_map, List.mem_filter, Prod.mk.injEq]
  constructor
  · rintro ⟨a, ⟨h1, h2⟩, rfl, rfl⟩
    exact ⟨by simpa using h2, h1, rfl⟩
  · rintro ⟨h1, h2, rfl⟩
    exact ⟨s, ⟨h2, by simp [h1]⟩, rfl, rfl⟩

/-- **C49** (cells). In the row of a file, a column written by a parameter and by no later parameter holds the value
of that parameter on the heights as transformed by the operations registered before it (all operations when the
chaining order is not preserved). -/
theorem C49_cell (E : Env F D X A) (hK : KeyFaithful E.cls) (pre post : List (Step D X A)) (s : Step D X A)
    (hs : s.isOp = false) (hn : NoRecursion E (pre ++ s :: post)) (ignore preserve : Bool) (f : F) (row : Row X)
    (h : task E (pre ++ s :: post) ignore preserve f = .ok row) :
    ∃ d d' cols, E.load f = .ok d ∧
      transformed E (if preserve then pre else pre ++ s :: post) d = .ok d' ∧
      contribution E ignore d' s = .ok cols ∧
      ∀ k ∈ cols.map Prod.fst, (cols.map Prod.fst).Nodup →
        (∀ s' ∈ post, ∀ d'' cols', contribution E ignore d'' s' = .ok cols' → k ∉ cols'.map Prod.fst) →
        row.lookup k = cols.lookup k := by
  rw [C49_row E hK _ hn] at h
  obtain ⟨d, cols, d1, hl, hm, hfin, rfl⟩ := specRow_ok h
  obtain ⟨A1, A2, hsites, hA2⟩ : ∃ A1 A2, sites preserve (pre ++ s :: post)
      = A1 ++ ((if preserve then pre else pre ++ s :: post), s) :: A2 ∧ ∀ site ∈ A2, site.2 ∈ post := by
    cases preserve with
    | true =>
      refine ⟨sitesFrom [] pre, sitesFrom (pre ++ [s]) post, ?_, ?_⟩
      · simp only [sites, if_true]
        rw [sitesFrom_append]
        simp [sitesFrom, hs]
      · intro site hsite
        obtain ⟨_, p, q, h2, _⟩ := (mem_sitesFrom _ _ _).1 hsite
        rw [h2]; simp
    | false =>
      refine ⟨(pre.filter (!·.isOp)).map fun t => (pre ++ s :: post, t),
        (post.filter (!·.isOp)).map fun t => (pre ++ s :: post, t), ?_, ?_⟩
      · simp [sites, hs]
      · intro site hsite
        simp only [List.mem_map, List.mem_filter] at hsite
        obtain ⟨a, ⟨h1, _⟩, rfl⟩ := hsite
        exact h1
  rw [hsites] at hm
  obtain ⟨c1, c2, h1, h2, rfl⟩ := mapM_append_ok _ _ _ hm
  obtain ⟨c, cs, h3, hm2, rfl⟩ := mapM_append_ok [_] A2 _ h2
  have hc : siteCols E ignore d ((if preserve then pre else pre ++ s :: post), s) = .ok c.head! ∧ c = [c.head!] := by
    rw [List.mapM_cons] at h3
    cases hx : siteCols E ignore d ((if preserve then pre else pre ++ s :: post), s) with
    | error e => rw [hx] at h3; simp [bind, Except.bind] at h3
    | ok v =>
      rw [hx] at h3
      simp only [bind, Except.bind, List.mapM_nil, pure, Except.pure, Except.ok.injEq] at h3
      subst h3
      exact ⟨rfl, rfl⟩
  obtain ⟨hc1, hc2⟩ := hc
  generalize c.head! = c0 at hc1 hc2
  subst hc2
  obtain ⟨d', ht, hcon⟩ := siteCols_ok hc1
  refine ⟨d, d', c0, hl, ht, hcon, ?_⟩
  intro k hk hnd hlater
  rw [List.foldl_append, List.foldl_append, lookup_foldl_update]
  · exact lookup_update_mem _ _ _ hnd hk
  · intro c' hc'
    obtain ⟨site, hsite, hval⟩ := mapM_ok_mem hm2 c' hc'
    obtain ⟨d2, _, h5⟩ := siteCols_ok hval
    exact hlater site.2 (hA2 site hsite) d2 c' h5

/-- **C49** (whole row). When no column is written twice, the row is the file name followed by the columns of the
parameters in registration order. -/
theorem C49_row_columns (E : Env F D X A) (hK : KeyFaithful E.cls) (steps : List (Step D X A)) (hn : NoRecursion E steps)
    (ignore preserve : Bool) (f : F) (row : Row X) (h : task E steps ignore preserve f = .ok row) :
    ∃ d cols, E.load f = .ok d ∧
      List.Forall₂ (fun site c => ∃ d', transformed E site.1 d = .ok d' ∧ contribution E ignore d' site.2 = .ok c)
        (sites preserve steps) cols ∧
      ((("file" :: cols.flatten.map Prod.fst)).Nodup → row = ("file", .text (E.name f)) :: cols.flatten) := by
  rw [C49_row E hK _ hn] at h
  obtain ⟨d, cols, d1, hl, hm, hfin, rfl⟩ := specRow_ok h
  refine ⟨d, cols, hl, ?_, ?_⟩
  · have hmap := mapM_ok_inv hm
    clear hm hfin h
    generalize sites preserve steps = L at hmap
    induction L generalizing cols with
    | nil => cases cols with
      | nil => exact .nil
      | cons c cs => simp at hmap
    | cons site L ih => cases cols with
      | nil => simp at hmap
      | cons c cs =>
        simp only [List.map_cons, List.cons.injEq] at hmap
        exact .cons (siteCols_ok hmap.1) (ih cs hmap.2)
  · intro hnd
    rw [foldl_update_fresh]
    · rfl
    · simpa using hnd

/-- **C49** (file name). The row names its file unless a parameter writes a column called "file". -/
theorem C49_file_column (E : Env F D X A) (hK : KeyFaithful E.cls) (steps : List (Step D X A)) (hn : NoRecursion E steps)
    (ignore preserve : Bool) (f : F) (row : Row X) (h : task E steps ignore preserve f = .ok row)
    (hk : ∀ s ∈ steps, ∀ d cols, contribution E ignore d s = .ok cols → "file" ∉ cols.map Prod.fst) :
    row.lookup "file" = some (.text (E.name f)) := by
  rw [C49_row E hK _ hn] at h
  obtain ⟨d, cols, d1, hl, hm, hfin, rfl⟩ := specRow_ok h
  rw [lookup_foldl_update]
  · simp
  · intro c' hc'
    obtain ⟨site, hsite, hval⟩ := mapM_ok_mem hm c' hc'
    have hmem : site.2 ∈ steps := by
      cases preserve with
      | true =>
        obtain ⟨_, post, h2⟩ := (C49_sites_chained steps site.1 site.2).1 hsite
        rw [h2]; simp
      | false => exact ((C49_sites_unordered steps site.1 site.2).1 hsite).2.1
    obtain ⟨d2, _, h5⟩ := siteCols_ok hval
    exact hk site.2 hmem d2 c' h5

/-! ## C50 — registration -/

/-- **C50.** A parameter is rejected with `BatchError` exactly when a parameter of that name is registered.
Partial: this is for parameters given by name; for custom parameter functions see
`C50_custom_duplicate_wrong_error`. -/
theorem C50_duplicate_rejected_partial (steps : List (Step D X A)) (p : Param A) :
    addStep steps (.parameter p) = .error .batch ↔ ∃ s ∈ steps, s.pname = some (.str p.name) := by
  have e : addStep steps (.parameter p) = if PName.str p.name ∈ steps.filterMap Step.pname then .error .batch
      else .ok (steps ++ [.parameter p]) := rfl
  rw [e, ← List.mem_filterMap]
  by_cases h : PName.str p.name ∈ steps.filterMap Step.pname
  · rw [if_pos h]; simp [h]
  · rw [if_neg h]; simp [h]

/-- **C50.** Otherwise it is accepted and goes to the end of the steps. -/
theorem C50_accepted (steps : List (Step D X A)) (s : Step D X A)
    (h : ∀ n, s.pname = some n → ∀ t ∈ steps, t.pname ≠ some n) : addStep steps s = .ok (steps ++ [s]) := by
  unfold addStep
  cases hp : s.pname with
  | none => rfl
  | some n =>
    simp only
    rw [if_neg]
    rw [List.mem_filterMap]
    rintro ⟨t, ht, hn⟩
    exact h n hp t ht hn

/-- **C50.** Operations may repeat. -/
theorem C50_operations_repeat (steps : List (Step D X A)) (s : Step D X A) (h : s.isOp = true) :
    addStep steps s = .ok (steps ++ [s]) := by
  apply C50_accepted
  intro n hn
  cases s <;> simp_all [Step.isOp, Step.pname]

/-- A step is registered or not: `attempt` either appends it or leaves the list alone. -/
theorem attempt_eq (steps : List (Step D X A)) (s : Step D X A) :
    attempt steps s = steps ++ [s] ∨ (attempt steps s = steps ∧ ∃ n, s.pname = some n ∧ n ∈ steps.filterMap Step.pname) := by
  unfold attempt addStep
  cases hp : s.pname with
  | none => left; rfl
  | some n =>
    simp only
    by_cases h : n ∈ steps.filterMap Step.pname
    · right
      rw [if_pos h]
      cases s <;> exact ⟨rfl, n, rfl, h⟩
    · left; rw [if_neg h]

/-- **C50.** After any history of registrations, accepted or rejected, no two registered parameters have the same
name, all operations attempted are registered in order, and a parameter name is registered iff it was attempted. -/
theorem C50_history (tried : List (Step D X A)) :
    ((tried.foldl attempt []).filterMap Step.pname).Nodup ∧
    (tried.foldl attempt []).filter (·.isOp) = tried.filter (·.isOp) ∧
    (∀ n, n ∈ (tried.foldl attempt []).filterMap Step.pname ↔ n ∈ tried.filterMap Step.pname) ∧
    (tried.foldl attempt []).Sublist tried := by
  suffices H : ∀ (steps : List (Step D X A)), (steps.filterMap Step.pname).Nodup →
      ((tried.foldl attempt steps).filterMap Step.pname).Nodup ∧
      (tried.foldl attempt steps).filter (·.isOp) = steps.filter (·.isOp) ++ tried.filter (·.isOp) ∧
      (∀ n, n ∈ (tried.foldl attempt steps).filterMap Step.pname ↔
        n ∈ steps.filterMap Step.pname ∨ n ∈ tried.filterMap Step.pname) ∧
      (tried.foldl attempt steps).Sublist (steps ++ tried) by
    have := H [] (by simp)
    simpa using this
  induction tried with
  | nil => intro steps h; exact ⟨h, by simp, by simp, by simp⟩
  | cons s tried ih =>
    intro steps hnd
    rw [List.foldl_cons]
    rcases attempt_eq steps s with h | ⟨h, n, hn, hmem⟩
    · rw [h]
      have hnd' : ((steps ++ [s]).filterMap Step.pname).Nodup := by
        rw [List.filterMap_append]
        cases hp : s.pname with
        | none => simpa [hp] using hnd
        | some n =>
          have hnot : n ∉ steps.filterMap Step.pname := by
            intro hm
            have : attempt steps s = steps := by
              unfold attempt addStep
              simp only [hp]
              rw [if_pos hm]
              cases s <;> rfl
            rw [this] at h
            have := congrArg List.length h
            simp at this
          simp only [List.filterMap_cons, hp, List.filterMap_nil]
          rw [List.nodup_append]
          refine ⟨hnd, by simp, ?_⟩
          intro a ha b hb
          simp at hb; subst hb
          rintro rfl; exact hnot ha
      obtain ⟨h1, h2, h3, h4⟩ := ih (steps ++ [s]) hnd'
      refine ⟨h1, ?_, ?_, ?_⟩
      · rw [h2, List.filter_append, List.append_assoc, ← List.filter_append]; rfl
      · intro n
        rw [h3, List.filterMap_append, List.mem_append, or_assoc, ← List.mem_append, ← List.filterMap_append]
        rfl
      · simpa using h4
    · rw [h]
      obtain ⟨h1, h2, h3, h4⟩ := ih steps hnd
      have hop : s.isOp = false := by cases s <;> simp_all [Step.isOp, Step.pname]
      refine ⟨h1, ?_, ?_, ?_⟩
      · rw [h2, List.filter_cons_of_neg (by simp [hop])]
      · intro m
        rw [h3, List.filterMap_cons, hn]
        simp only [List.mem_cons]
        constructor
        · rintro (h | h) <;> tauto
        · rintro (h | rfl | h) <;> tauto
      · exact h4.trans (List.Sublist.append_left (List.sublist_cons_self _ _) _)

/-- **C50** (names and fixed arguments). `batch.Name(*args, custom_name=c, **kw)` registers the parameter under `c`,
or under the method name without `custom_name`. -/
theorem C50_custom_name (info : MethodInfo A) (h : info.isOperation = false) (name : String) (args : List A)
    (kw : List (String × A)) (c : Option String) (ck : String → A) :
    (methodStep info name args kw c ck : Step D X A).pname = some (.str (c.getD name)) := by
  simp [methodStep, h, Step.pname]

theorem lookup_setKw (kw : List (String × A)) (k k' : String) (v : A) :
    (setKw kw k v).lookup k' = if k' = k then some v else kw.lookup k' := by
  unfold setKw
  by_cases hk : k ∈ kw.map Prod.fst
  · rw [if_pos hk]
    induction kw with
    | nil => simp at hk
    | cons e kw ih =>
      obtain ⟨a, b⟩ := e
      by_cases ha : a = k
      · subst ha
        by_cases hk' : k' = a
        · subst hk'; simp
        · have hb : (k' == a) = false := by simpa using hk'
          simp only [List.map_cons, if_true, List.lookup_cons, hb, if_neg hk']
          by_cases hin : a ∈ kw.map Prod.fst
          · rw [ih hin, if_neg hk']
          · congr 1
            conv_rhs => rw [← List.map_id kw]
            apply List.map_congr_left
            intro e he
            rw [if_neg]
            · rfl
            · rintro rfl; exact hin (List.mem_map.2 ⟨e, he, rfl⟩)
      · have hin : k ∈ kw.map Prod.fst := by
          simp only [List.map_cons, List.mem_cons] at hk
          rcases hk with h | h
          · exact absurd h.symm ha
          · exact h
        simp only [List.map_cons, if_neg ha, List.lookup_cons, ih hin]
        by_cases hk' : k' = a
        · subst hk'; simp [ha]
        · have hb : (k' == a) = false := by simpa using hk'
          simp [hb]
  · rw [if_neg hk]
    induction kw with
    | nil =>
      by_cases h : k' = k
      · simp [h]
      · have hb : (k' == k) = false := by simpa using h
        simp [List.lookup_cons, hb, h]
    | cons e kw ih =>
      obtain ⟨a, b⟩ := e
      simp only [List.map_cons, List.mem_cons, not_or] at hk
      simp only [List.cons_append, List.lookup_cons, ih hk.2]
      by_cases hk' : k' = a
      · subst hk'
        have hne : ¬ k' = k := fun h => hk.1 h.symm
        simp [hne]
      · have hb : (k' == a) = false := by simpa using hk'
        simp [hb]

/-- **C50** (operations work in place). The registered call passes every fixed keyword (`inplace=True`) with its
fixed value, whatever the caller passed. -/
theorem C50_fixed_arguments (info : MethodInfo A) (hop : info.isOperation = true) (name : String) (args : List A)
    (kw : List (String × A)) (ck : String → A) (hnd : (info.fixed.map Prod.fst).Nodup) (k : String) (v : A)
    (hk : (k, v) ∈ info.fixed) :
    ∃ c : Call A, (methodStep info name args kw none ck : Step D X A) = .operation c ∧ c.name = name ∧ c.args = args ∧
      c.kwargs.lookup k = some v := by
  refine ⟨⟨name, args, info.fixed.foldl (fun kw p => setKw kw p.1 p.2) kw⟩, by simp only [methodStep, hop, if_true],
    rfl, rfl, ?_⟩
  simp only
  suffices H : ∀ (fx kw : List (String × A)), (fx.map Prod.fst).Nodup → (k, v) ∈ fx →
      (fx.foldl (fun kw p => setKw kw p.1 p.2) kw).lookup k = some v from H _ _ hnd hk
  intro fx
  induction fx with
  | nil => intro _ _ h; simp at h
  | cons p fx ih =>
    intro kw hnd hmem
    simp only [List.map_cons, List.nodup_cons] at hnd
    rw [List.foldl_cons]
    rcases List.mem_cons.1 hmem with h | h
    · subst h
      suffices H : ∀ (fx kw : List (String × A)), k ∉ fx.map Prod.fst →
          (fx.foldl (fun kw p => setKw kw p.1 p.2) kw).lookup k = kw.lookup k by
        rw [H fx _ hnd.1, lookup_setKw]; simp
      intro fx
      induction fx with
      | nil => intro _ _; rfl
      | cons q fx ih2 =>
        intro kw hq
        simp only [List.map_cons, List.mem_cons, not_or] at hq
        rw [List.foldl_cons, ih2 _ hq.2, lookup_setKw, if_neg hq.1]
    · exact ih _ hnd.2 h

/-- **C50.** Executing a batch without steps raises `BatchError`, whatever the files. -/
theorem C50_no_steps [DecidableEq X] (additional : Option (Table X)) (results : Except Err (List (Row X))) :
    execute ([] : List (Step D X A)) additional results = .error .batch := rfl

/-- **C50** fails for custom parameters: registering the same function twice raises `AttributeError`, not
`BatchError` (the error message reads an attribute that custom parameters do not have). -/
theorem C50_custom_duplicate_wrong_error (steps : List (Step D X A)) (i : Nat) (p : Prog D (Ret X) A (Row X))
    (h : ∃ s ∈ steps, s.pname = some (.id i)) :
    addStep steps (.customParameter i p) = .error .attributeError := by
  have e : addStep steps (.customParameter i p) = if PName.id i ∈ steps.filterMap Step.pname then .error .attributeError
      else .ok (steps ++ [.customParameter i p]) := rfl
  rw [e, if_pos (List.mem_filterMap.2 h)]

/-- **C50** fails for `roughness_parameters` with a repeated name: it raises `BatchError` but the parameters before
the repetition stay registered. -/
theorem C50_bulk_not_atomic (p : Param A) :
    addAll ([] : List (Step D X A)) [.parameter p, .parameter p] = ([.parameter p], some .batch) := by
  simp [addAll, addStep, Step.pname]

/-- What `roughness_parameters` registers: the names before the first repetition, in order. -/
theorem C50_bulk (steps new : List (Step D X A)) :
    ∃ k ≤ new.length, (addAll steps new).1 = steps ++ new.take k ∧
      ((addAll steps new).2 = none ↔ k = new.length) ∧
      (∀ s, new[k]? = some s → ∃ n, s.pname = some n ∧ n ∈ (steps ++ new.take k).filterMap Step.pname) := by
  induction new generalizing steps with
  | nil => exact ⟨0, by simp, by simp [addAll], by simp [addAll], by simp⟩
  | cons s new ih =>
    simp only [addAll]
    cases hs : addStep steps s with
    | error e =>
      refine ⟨0, by simp, by simp, by simp, ?_⟩
      intro t ht
      simp only [List.getElem?_cons_zero, Option.some.injEq] at ht
      subst ht
      unfold addStep at hs
      cases hp : s.pname with
      | none => rw [hp] at hs; cases hs
      | some n =>
        rw [hp] at hs
        simp only at hs
        by_cases hm : n ∈ steps.filterMap Step.pname
        · exact ⟨n, rfl, by simpa using hm⟩
        · rw [if_neg hm] at hs; cases hs
    | ok l =>
      have hl : l = steps ++ [s] := by
        unfold addStep at hs
        cases hp : s.pname with
        | none => rw [hp] at hs; simpa using hs.symm
        | some n =>
          rw [hp] at hs
          simp only at hs
          by_cases hm : n ∈ steps.filterMap Step.pname
          · rw [if_pos hm] at hs; cases s <;> cases hs
          · rw [if_neg hm] at hs; simpa using hs.symm
      subst hl
      obtain ⟨k, hk, h1, h2, h3⟩ := ih (steps ++ [s])
      refine ⟨k + 1, by simpa using hk, ?_, ?_, ?_⟩
      · rw [h1]; simp
      · rw [h2]; simp
      · intro t ht
        obtain ⟨n, hn, hm⟩ := h3 t (by simpa using ht)
        exact ⟨n, hn, by simpa using hm⟩

/-! ## C51 — failures -/

/-- **C51** (one value). A parameter without labels whose calculation fails gives NaN under its name when errors are
ignored. Partial: custom parameters do not, see `C51_custom_violates`. -/
theorem C51_failure_single_partial (E : Env F D X A) (p : Param A) (e : Err) (he : e = .calculation ∨ e = .fitting)
    (hl : E.labels p.call.name = none) : paramColumns E p true (.error e) = .ok [(p.name, .nan)] := by
  rcases he with rfl | rfl <;> simp [paramColumns, isCalculation, hl]

/-- **C51** (several values). A parameter with labels whose calculation fails gives NaN under each of its columns
`name_label` when errors are ignored. Partial: custom parameters do not, see `C51_custom_violates`. -/
theorem C51_failure_labels_partial (E : Env F D X A) (p : Param A) (e : Err) (he : e = .calculation ∨ e = .fitting)
    (ls : List String) (hl : E.labels p.call.name = some ls) (hnd : ls.Nodup) :
    paramColumns E p true (.error e) = .ok (ls.map fun l => (p.name ++ "_" ++ l, .nan)) := by
  have : labelled p.name ls (ls.map fun _ => (Cell.nan : Cell X)) = ls.map fun l => (p.name ++ "_" ++ l, .nan) := by
    rw [labelled_eq _ _ _ hnd (by simp)]
    clear hnd hl
    induction ls with
    | nil => rfl
    | cons l ls ih => simp only [List.map_cons, List.zip_cons_cons, ih]
  have e1 : paramColumns E p true (.error e : Except Err (Ret X)) = .ok (labelled p.name ls (ls.map fun _ => .nan)) := by
    rcases he with rfl | rfl <;> simp only [paramColumns, isCalculation, hl] <;> rfl
  rw [e1, this]

/-- **C51** (several values, success). A list of values becomes one column per label, in order; the number of labels
must match, and labels must be registered, else `BatchError`. -/
theorem C51_values (E : Env F D X A) (p : Param A) (ignore : Bool) (cs : List (Cell X)) :
    paramColumns E p ignore (.ok (.many cs)) =
      match E.labels p.call.name with
      | none => .error .batch
      | some ls => if cs.length = ls.length then .ok (labelled p.name ls cs) else .error .batch := by
  simp only [paramColumns]
  cases E.labels p.call.name with
  | none => rfl
  | some ls => by_cases h : cs.length = ls.length <;> simp [h]

theorem C51_values_columns (name : String) (ls : List String) (cs : List (Cell X)) (hnd : ls.Nodup)
    (hlen : cs.length = ls.length) :
    labelled name ls cs = (ls.zip cs).map fun lv => (name ++ "_" ++ lv.1, lv.2) :=
  labelled_eq name ls cs hnd hlen

/-- **C51** (same columns). Whether the calculation succeeds or fails (ignored), the column names are the same: for
one value without labels, and for several values with labels. -/
theorem C51_same_columns (E : Env F D X A) (p : Param A) (ignore : Bool) (e : Err) (he : e = .calculation ∨ e = .fitting)
    (r : Ret X) (cols bad : Row X) (hr : paramColumns E p ignore (.ok r) = .ok cols)
    (hlab : (∃ c, r = .one c) ↔ E.labels p.call.name = none) (hnd : ∀ ls, E.labels p.call.name = some ls → ls.Nodup)
    (hb : paramColumns E p true (.error e) = .ok bad) : cols.map Prod.fst = bad.map Prod.fst := by
  cases r with
  | one c =>
    have hl := hlab.1 ⟨c, rfl⟩
    rw [C51_failure_single_partial E p e he hl] at hb
    simp only [paramColumns, Except.ok.injEq] at hr hb
    subst hr hb; rfl
  | many cs =>
    cases hl : E.labels p.call.name with
    | none => obtain ⟨c, hc⟩ := hlab.2 hl; cases hc
    | some ls =>
      rw [C51_failure_labels_partial E p e he ls hl (hnd ls hl)] at hb
      rw [C51_values, hl] at hr
      simp only at hr
      by_cases hlen : cs.length = ls.length
      · rw [if_pos hlen, labelled_eq _ _ _ (hnd ls hl) hlen] at hr
        simp only [Except.ok.injEq] at hr hb
        subst hr hb
        rw [List.map_map, List.map_map]
        have : (Prod.fst ∘ fun lv : String × Cell X => (p.name ++ "_" ++ lv.1, lv.2))
            = (fun l => p.name ++ "_" ++ l) ∘ Prod.fst := rfl
        rw [this, ← List.map_map, List.map_fst_zip (by omega)]
        rfl
      · rw [if_neg hlen] at hr; cases hr

/-- **C51** (propagation). With `ignore_errors=False` every exception of a parameter or custom parameter is raised
as it is. -/
theorem C51_not_ignored (E : Env F D X A) (p : Param A) (e : Err) :
    paramColumns E p false (.error e) = .error e ∧ (customColumns false (.error e) : Except Err (Row X)) = .error e := by
  simp [paramColumns, customColumns]

/-- **C51** (only calculation errors). Exceptions that are not `CalculationError` are raised whether or not errors
are ignored: one surface with missing points (`ValueError`) interrupts the whole batch. -/
theorem C51_other_errors_raised (E : Env F D X A) (p : Param A) (ignore : Bool) (e : Err) (h1 : e ≠ .calculation)
    (h2 : e ≠ .fitting) : paramColumns E p ignore (.error e) = .error e ∧
      (customColumns ignore (.error e) : Except Err (Row X)) = .error e := by
  cases e <;> simp_all [paramColumns, customColumns, isCalculation]

/-- **C51** in the table: after a batch run with `ignore_errors`, a parameter whose calculation fails on the heights
of its file has NaN in its column (no later parameter writing the same column). -/
theorem C51_cell_nan (E : Env F D X A) (hK : KeyFaithful E.cls) (pre post : List (Step D X A)) (p : Param A)
    (hn : NoRecursion E (pre ++ .parameter p :: post)) (preserve : Bool) (f : F) (row : Row X)
    (h : task E (pre ++ .parameter p :: post) true preserve f = .ok row) (d d' : D) (hload : E.load f = .ok d)
    (ht : transformed E (if preserve then pre else pre ++ .parameter p :: post) d = .ok d') (e : Err)
    (he : e = .calculation ∨ e = .fitting) (hfail : eval E.cls E.fuel p.call d' = .error e)
    (hl : E.labels p.call.name = none)
    (hlater : ∀ s' ∈ post, ∀ d'' cols', contribution E true d'' s' = .ok cols' → p.name ∉ cols'.map Prod.fst) :
    row.lookup p.name = some .nan := by
  obtain ⟨d1, d2, cols, h1, h2, h3, h4⟩ := C49_cell E hK pre post (.parameter p) rfl hn true preserve f row h
  rw [hload] at h1
  cases h1
  rw [ht] at h2
  cases h2
  simp only [contribution, hfail] at h3
  rw [C51_failure_single_partial E p e he hl] at h3
  cases h3
  have := h4 p.name (by simp) (by simp) hlater
  simpa using this

/-- **C51** fails for custom parameters: an ignored `CalculationError` does not become NaN but
`UnboundLocalError`, which interrupts the batch. -/
theorem C51_custom_violates (e : Err) (he : e = .calculation ∨ e = .fitting) :
    (customColumns true (.error e) : Except Err (Row X)) = .error .unboundLocal := by
  rcases he with rfl | rfl <;> rfl

/-! ## C52 — joining additional data -/

/-- **C52** (no additional data). The table has one row per result in order, and the cell of a row under a column is
the value the row has for it, NaN if it has none. -/
theorem C52_plain [DecidableEq X] (results : List (Row X)) : ∃ t : Table X, constructTable none results = .ok t ∧
    t.rows.length = results.length ∧
    (∀ c, c ∈ t.cols ↔ ∃ r ∈ results, c ∈ r.map Prod.fst) ∧ t.cols.Nodup ∧
    ∀ i (hi : i < results.length) (hi' : i < t.rows.length), ∀ c ∈ t.cols,
      t.cell t.rows[i] c = (results[i].lookup c).getD .nan := by
  refine ⟨tableOf results, rfl, by simp [tableOf], ?_, ?_, ?_⟩
  · intro c
    simp only [tableOf, columns, List.mem_eraseDups, List.mem_flatMap]
  · simp only [tableOf, columns]
    exact nodup_eraseDups _
  · intro i hi hi' c hc
    have : (tableOf results).rows[i] = (columns results).map (cellOf results[i]) := by simp [tableOf]
    rw [this]
    have hc' : c ∈ columns results := hc
    show (((columns results).zip ((columns results).map (cellOf results[i]))).lookup c).getD .nan = _
    have key : ∀ (l : List String), c ∈ l → (l.zip (l.map (cellOf results[i]))).lookup c = some (cellOf results[i] c) := by
      intro l
      induction l with
      | nil => simp
      | cons a l ih =>
        intro hm
        simp only [List.map_cons, List.zip_cons_cons, List.lookup_cons]
        by_cases ha : c = a
        · subst ha; simp
        · have hb : (c == a) = false := by simpa using ha
          rw [hb]
          exact ih (by simpa [ha] using hm)
    rw [key _ hc']
    rfl

/-- **C52.** With additional data, the rows of the table are exactly the pairs of an additional row and a result row
with the same file name, the additional columns first. Partial: an empty batch raises instead, see
`C52_empty_batch_raises`. -/
theorem C52_join_rows_partial [DecidableEq X] (a : Table X) (results : List (Row X)) (t : Table X)
    (h : constructTable (some a) results = .ok t) (r : List (Cell X)) :
    r ∈ t.rows ↔ ∃ ra ∈ a.rows, ∃ rb ∈ (tableOf results).rows,
      a.cell ra "file" = (tableOf results).cell rb "file" ∧
      r = ra ++ (((tableOf results).cols.zip rb).filter fun e => decide (e.1 ≠ "file")).map Prod.snd := by
  unfold constructTable merge at h
  simp only at h
  split at h
  · cases h
  · simp only [Except.ok.injEq] at h
    subst h
    simp only [List.mem_flatMap, List.mem_map, List.mem_filter, decide_eq_true_eq]
    constructor
    · rintro ⟨ra, h1, rb, ⟨h2, h3⟩, rfl⟩
      exact ⟨ra, h1, rb, h2, h3, rfl⟩
    · rintro ⟨ra, h1, rb, h2, h3, rfl⟩
      exact ⟨ra, h1, rb, ⟨h2, h3⟩, rfl⟩

/-- **C52** (which files). A file has a row in the joined table iff it was processed and has an entry in the
additional data. -/
theorem C52_files [DecidableEq X] (a : Table X) (results : List (Row X)) (t : Table X)
    (h : constructTable (some a) results = .ok t) (name : Cell X) :
    (∃ ra ∈ a.rows, ∃ rb ∈ (tableOf results).rows, a.cell ra "file" = name ∧ (tableOf results).cell rb "file" = name ∧
      ra ++ (((tableOf results).cols.zip rb).filter fun e => decide (e.1 ≠ "file")).map Prod.snd ∈ t.rows) ↔
    (∃ ra ∈ a.rows, a.cell ra "file" = name) ∧ (∃ rb ∈ (tableOf results).rows, (tableOf results).cell rb "file" = name) := by
  constructor
  · rintro ⟨ra, h1, rb, h2, h3, h4, _⟩
    exact ⟨⟨ra, h1, h3⟩, ⟨rb, h2, h4⟩⟩
  · rintro ⟨⟨ra, h1, h3⟩, ⟨rb, h2, h4⟩⟩
    exact ⟨ra, h1, rb, h2, h3, h4, (C52_join_rows_partial a results t h _).2 ⟨ra, h1, rb, h2, by rw [h3, h4], rfl⟩⟩

theorem lookup_zip_append (c : String) (l1 l2 : List String) (r1 r2 : List (Cell X)) (hlen : r1.length = l1.length) :
    ((l1 ++ l2).zip (r1 ++ r2)).lookup c = ((l1.zip r1).lookup c).or ((l2.zip r2).lookup c) := by
  rw [List.zip_append hlen.symm]
  generalize l1.zip r1 = z
  induction z with
  | nil => simp
  | cons e z ih =>
    obtain ⟨k, v⟩ := e
    rw [List.cons_append, List.lookup_cons, List.lookup_cons, ih]
    cases c == k <;> simp

theorem lookup_filter_ne (c : String) (z : List (String × Cell X)) (hc : c ≠ "file") :
    (z.filter fun e => decide (e.1 ≠ "file")).lookup c = z.lookup c := by
  induction z with
  | nil => rfl
  | cons e z ih =>
    obtain ⟨k, v⟩ := e
    by_cases hk : k = "file"
    · subst hk
      have hb : (c == "file") = false := by simpa using hc
      rw [List.filter_cons_of_neg (by simp), ih, List.lookup_cons, hb]
    · rw [List.filter_cons_of_pos (by simpa using hk), List.lookup_cons, List.lookup_cons, ih]

/-- **C52** (both sets of columns). If the additional data and the results share no column but 'file', a joined row
has under every additional column the value of the additional data, and under every result column the value of the
result. -/
theorem C52_both_columns [DecidableEq X] (a : Table X) (results : List (Row X)) (t : Table X)
    (h : constructTable (some a) results = .ok t) (hdisj : ∀ c ∈ a.cols, c ∈ (tableOf results).cols → c = "file")
    (ra rb : List (Cell X)) (hra : ra.length = a.cols.length) (hrb : rb ∈ (tableOf results).rows) :
    (∀ c ∈ a.cols, t.cell (ra ++ (((tableOf results).cols.zip rb).filter fun e => decide (e.1 ≠ "file")).map Prod.snd) c
      = a.cell ra c) ∧
    (∀ c ∈ (tableOf results).cols, c ≠ "file" →
      t.cell (ra ++ (((tableOf results).cols.zip rb).filter fun e => decide (e.1 ≠ "file")).map Prod.snd) c
      = (tableOf results).cell rb c) := by
  have hcols : t.cols = a.cols ++ ((tableOf results).cols.filter (· ≠ "file")) := by
    unfold constructTable merge at h
    simp only at h
    split at h
    · cases h
    · simp only [Except.ok.injEq] at h
      subst h
      simp only [mergeCols]
      congr 1
      · conv_rhs => rw [← List.map_id a.cols]
        apply List.map_congr_left
        intro c hc
        rw [if_neg]
        · rfl
        · rintro ⟨h1, h2⟩; exact h1 (hdisj c hc h2)
      · conv_rhs => rw [← List.map_id ((tableOf results).cols.filter _)]
        apply List.map_congr_left
        intro c hc
        simp only [ne_eq, decide_not, List.mem_filter, Bool.not_eq_eq_eq_not, Bool.not_true, decide_eq_false_iff_not] at hc
        rw [if_neg]
        · rfl
        · intro h2; exact hc.2 (hdisj c h2 hc.1)
  have hlen : rb.length = (tableOf results).cols.length := by
    simp only [tableOf, List.mem_map] at hrb ⊢
    obtain ⟨r, _, rfl⟩ := hrb
    simp
  have hz : ∀ (cs : List String) (r : List (Cell X)), r.length = cs.length →
      (cs.filter (· ≠ "file")).zip (((cs.zip r).filter fun e => decide (e.1 ≠ "file")).map Prod.snd)
        = (cs.zip r).filter fun e => decide (e.1 ≠ "file") := by
    intro cs
    induction cs with
    | nil => simp
    | cons c cs ih =>
      intro r hr
      cases r with
      | nil => simp at hr
      | cons v r =>
        simp only [List.length_cons, Nat.add_right_cancel_iff] at hr
        by_cases hc : c = "file"
        · subst hc
          simpa using ih r hr
        · have := ih r hr
          simp only [ne_eq, List.zip_cons_cons] at this ⊢
          rw [List.filter_cons_of_pos (by simpa using hc), List.filter_cons_of_pos (by simpa using hc)]
          simp only [List.map_cons, List.zip_cons_cons, this]
  have hsome : ∀ (c : String) (cs : List String) (r : List (Cell X)), r.length = cs.length → c ∈ cs →
      ((cs.zip r).lookup c).isSome = true := by
    intro c cs
    induction cs with
    | nil => simp
    | cons b cs ih =>
      intro r hr hm
      cases r with
      | nil => simp at hr
      | cons v r =>
        simp only [List.zip_cons_cons, List.lookup_cons]
        by_cases hb : c = b
        · subst hb; simp
        · have hb' : (c == b) = false := by simpa using hb
          rw [hb']
          exact ih r (by simpa using hr) (by simpa [hb] using hm)
  constructor
  · intro c hc
    unfold Table.cell
    rw [hcols, lookup_zip_append _ _ _ _ _ hra]
    have := hsome c a.cols ra hra hc
    cases hl : (a.cols.zip ra).lookup c with
    | none => rw [hl] at this; cases this
    | some v => rfl
  · intro c hc hne
    unfold Table.cell
    rw [hcols, lookup_zip_append _ _ _ _ _ hra]
    have hnot : (a.cols.zip ra).lookup c = none := by
      rw [lookup_none_iff, List.map_fst_zip (by omega)]
      intro hm; exact hne (hdisj c hm hc)
    rw [hnot, hz _ _ hlen, lookup_filter_ne _ _ hne]
    rfl

/-- **C52** (counting). The number of rows of the joined table is the number of pairs of an additional row and a
result row with the same file name; in particular a file name that occurs twice on one side gives two rows. -/
theorem C52_join_count [DecidableEq X] (a : Table X) (results : List (Row X)) (t : Table X)
    (h : constructTable (some a) results = .ok t) :
    t.rows.length = (a.rows.map fun ra =>
      (tableOf results).rows.countP fun rb => decide (a.cell ra "file" = (tableOf results).cell rb "file")).sum := by
  unfold constructTable merge at h
  simp only at h
  split at h
  · cases h
  · simp only [Except.ok.injEq] at h
    subst h
    simp only [List.length_flatMap, List.length_map]
    congr 1
    apply List.map_congr_left
    intro ra _
    rw [List.countP_eq_length_filter]

/-- **C52** fails for an empty batch: with additional data, executing a batch without files raises `KeyError`
(the empty result table has no column 'file') instead of giving an empty table. -/
theorem C52_empty_batch_raises [DecidableEq X] (a : Table X) : constructTable (some a) [] = .error .keyError := by
  unfold constructTable merge
  simp [tableOf, columns]

/-! ## A concrete batch -/

/-- A small class: heights are integers, `Sa` (cached) is their sum, `depth` has two labelled values, `fit` always fails
with `FittingError`, `center` subtracts the number of heights. -/
def demoEnv : Env (String × List Int) (List Int) Int Int where
  cls := {
    body := fun m =>
      if m.name = "Sa" then .readData fun d => .ret (.one (.num d.sum))
      else if m.name = "depth" then .readData fun d => .ret (.many [.num d.length, .num 0])
      else .raise .fitting
    cached := fun s => s == "Sa"
    render := { strArgs := fun _ => "()", strKwargs := fun _ => "dict_items([])" } }
  ops := fun _ => .readData fun d => .ret (d.map fun x => x - d.length)
  labels := fun s => if s = "depth" then some ["mean", "std"] else none
  fuel := 3
  load := fun f => if f.2 = [] then .error .corrupted else .ok f.2
  name := fun f => f.1

/-- `batch.Sa().center().depth().Sa(custom_name="Sa2").fit()` -/
def demoSteps : List (Step (List Int) Int Int) :=
  [.parameter ⟨⟨"Sa", [], []⟩, "Sa"⟩, .operation ⟨"center", [], []⟩, .parameter ⟨⟨"depth", [], []⟩, "depth"⟩,
   .parameter ⟨⟨"Sa", [], []⟩, "Sa2"⟩, .parameter ⟨⟨"fit", [], []⟩, "fit"⟩]

theorem demoEnv_faithful : KeyFaithful demoEnv.cls := by
  intro m m' _ hn _ _
  simp [demoEnv, hn]

theorem demoEnv_noRecursion : NoRecursion demoEnv demoSteps := by
  have h1 : ∀ m d, eval demoEnv.cls demoEnv.fuel m d ≠ .error .recursion := by
    intro m d
    show evalProg _ (demoEnv.cls.body m) d ≠ _
    simp only [demoEnv]
    split
    · simp [evalProg]
    · split <;> simp [evalProg]
  refine ⟨h1, ?_, ?_⟩
  · intro s hs d
    simp only [demoSteps, List.mem_cons, List.not_mem_nil, or_false] at hs
    rcases hs with rfl | rfl | rfl | rfl | rfl <;> simp [applyStep, demoEnv, evalProg]
  · intro i p hp
    simp [demoSteps] at hp

/-- The hypotheses of C49 and C51 hold here and the rows are the expected ones: `Sa` sees the raw heights, `Sa2` the
centred ones (both, when the chaining order is not preserved), the failing fit is NaN. -/
example : task demoEnv demoSteps true true ("a.vk4", [5, 7]) = .ok
    [("file", .text "a.vk4"), ("Sa", .num 12), ("depth_mean", .num 2), ("depth_std", .num 0), ("Sa2", .num 8),
     ("fit", .nan)] := by decide +kernel

example : task demoEnv demoSteps true false ("a.vk4", [5, 7]) = .ok
    [("file", .text "a.vk4"), ("Sa", .num 8), ("depth_mean", .num 2), ("depth_std", .num 0), ("Sa2", .num 8),
     ("fit", .nan)] := by decide +kernel

example : task demoEnv demoSteps false true ("a.vk4", [5, 7]) = .error .fitting := by decide +kernel

/-- The hypotheses of C48 hold: the two files processed with alternating quanta, the second one first. -/
example : (Pool.run demoEnv demoSteps true true (Pool.start [("a.vk4", [5, 7]), ("b.vk4", [1])])
    ((List.range 7).flatMap fun _ => [1, 0])).done ∧
    (collect (Pool.run demoEnv demoSteps true true (Pool.start [("a.vk4", [5, 7]), ("b.vk4", [1])])
      ((List.range 7).flatMap fun _ => [1, 0])).queue).map (fun rs => rs.map fun r => r.lookup "file")
      = .ok [some (.text "b.vk4"), some (.text "a.vk4")] := by
  constructor
  · exact C48_finishes _ _ _ _ _ _ (by decide)
  · decide +kernel

/-- A joined table. -/
example : constructTable (some ⟨["file", "power"], [[.text "a", .num 3], [.text "c", .num 4]]⟩)
    ([[("file", .text "a"), ("Sa", .num 1)], [("file", .text "b"), ("Sa", .num 2)]] : List (Row Int))
    = .ok ⟨["file", "power", "Sa"], [[.text "a", .num 3, .num 1]]⟩ := by decide +kernel

end Surfalize.Props
