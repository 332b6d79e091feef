import Verif.Spec.Batch
import Verif.Lemmas.Cache
import Verif.Lemmas.MapM
import Mathlib.Data.List.Perm.Basic
import Mathlib.Data.List.Nodup

/-! Helper lemmas for batch processing. -/
set_option linter.unusedSectionVars false
namespace Surfalize.BatchLemmas
open Surfalize.CacheM Surfalize.CacheSpec Surfalize.CacheLemmas Surfalize.Batch Surfalize.BatchSpec

variable {F D X A : Type}

/-! ### Dictionaries -/

theorem lookup_map_self (l : Row X) (k : String) (v : Cell X) :
    (l.map fun e => if e.1 = k then (k, v) else e).lookup k = if k ∈ l.map Prod.fst then some v else none := by
  induction l with
  | nil => simp
  | cons e l ih =>
    obtain ⟨a, b⟩ := e
    by_cases h : a = k
    · subst h; simp
    · have h' : ¬ k = a := fun h' => h h'.symm
      have hb : (k == a) = false := by simpa using h'
      simp only [List.map_cons, if_neg h, List.lookup_cons, hb, ih, List.mem_cons, h', false_or]

theorem lookup_map_ne (l : Row X) (k k' : String) (v : Cell X) (hk : k' ≠ k) :
    (l.map fun e => if e.1 = k then (k, v) else e).lookup k' = l.lookup k' := by
  induction l with
  | nil => simp
  | cons e l ih =>
    obtain ⟨a, b⟩ := e
    by_cases h : a = k
    · subst h
      have hb : (k' == a) = false := by simpa using hk
      simp [List.lookup_cons, hb, ih]
    · simp [List.lookup_cons, if_neg h, ih]

theorem lookup_append_single (l : Row X) (k k' : String) (v : Cell X) :
    (l ++ [(k, v)]).lookup k' = (l.lookup k').or (if k' = k then some v else none) := by
  induction l with
  | nil =>
    by_cases h : k' = k
    · simp [h]
    · have hb : (k' == k) = false := by simpa using h
      simp [List.lookup_cons, hb, h]
  | cons e l ih =>
    obtain ⟨a, b⟩ := e
    by_cases h : k' = a
    · subst h; simp
    · have hb : (k' == a) = false := by simpa using h
      simp [List.lookup_cons, hb, ih]

theorem lookup_none_iff (l : Row X) (k : String) : l.lookup k = none ↔ k ∉ l.map Prod.fst := by
  induction l with
  | nil => simp
  | cons e l ih =>
    obtain ⟨a, b⟩ := e
    by_cases h : k = a
    · subst h; simp
    · have hb : (k == a) = false := by simpa using h
      simp only [List.lookup_cons, hb, ih, List.map_cons, List.mem_cons, h, false_or]

theorem lookup_setKey (d : Row X) (k k' : String) (v : Cell X) :
    (setKey d k v).lookup k' = if k' = k then some v else d.lookup k' := by
  unfold setKey
  by_cases hk : k ∈ d.map Prod.fst
  · rw [if_pos hk]
    by_cases h : k' = k
    · subst h; rw [lookup_map_self, if_pos hk, if_pos rfl]
    · rw [lookup_map_ne _ _ _ _ h, if_neg h]
  · rw [if_neg hk, lookup_append_single]
    by_cases h : k' = k
    · subst h
      rw [(lookup_none_iff d k').2 hk]; simp
    · simp [h]

theorem keys_setKey (d : Row X) (k : String) (v : Cell X) :
    (setKey d k v).map Prod.fst = if k ∈ d.map Prod.fst then d.map Prod.fst else d.map Prod.fst ++ [k] := by
  unfold setKey
  by_cases hk : k ∈ d.map Prod.fst
  · rw [if_pos hk, if_pos hk, List.map_map]
    apply List.map_congr_left
    intro e _
    by_cases h : e.1 = k <;> simp [h]
  · rw [if_neg hk, if_neg hk]; simp

theorem mem_keys_setKey (d : Row X) (k k' : String) (v : Cell X) :
    k' ∈ (setKey d k v).map Prod.fst ↔ k' = k ∨ k' ∈ d.map Prod.fst := by
  rw [keys_setKey]
  split
  · constructor
    · exact Or.inr
    · rintro (rfl | h) <;> assumption
  · simp [or_comm]

theorem nodup_setKey (d : Row X) (k : String) (v : Cell X) (h : (d.map Prod.fst).Nodup) :
    ((setKey d k v).map Prod.fst).Nodup := by
  rw [keys_setKey]
  split
  · exact h
  · rename_i hk
    rw [List.nodup_append]
    refine ⟨h, by simp, ?_⟩
    intro a ha b hb
    simp at hb; subst hb
    rintro rfl; exact hk ha

/-- Updating with an entry list whose keys are distinct and new appends it. -/
theorem update_fresh (d e : Row X) (h : (e.map Prod.fst).Nodup) (hd : ∀ k ∈ e.map Prod.fst, k ∉ d.map Prod.fst) :
    update d e = d ++ e := by
  induction e generalizing d with
  | nil => simp [update]
  | cons a e ih =>
    obtain ⟨k, v⟩ := a
    simp only [List.map_cons, List.nodup_cons] at h
    have hk : k ∉ d.map Prod.fst := hd k (by simp)
    have hs : setKey d k v = d ++ [(k, v)] := by unfold setKey; rw [if_neg hk]
    have := ih (d ++ [(k, v)]) h.2 (by
      intro k' hk'
      rw [List.map_append, List.mem_append]
      rintro (h1 | h1)
      · exact hd k' (by simp [hk']) h1
      · simp at h1; subst h1; exact h.1 hk')
    simp only [update, List.foldl_cons] at this ⊢
    rw [hs, this]; simp

theorem mem_keys_update (d e : Row X) (k : String) :
    k ∈ (update d e).map Prod.fst ↔ k ∈ d.map Prod.fst ∨ k ∈ e.map Prod.fst := by
  induction e generalizing d with
  | nil => simp [update]
  | cons a e ih =>
    have := ih (setKey d a.1 a.2)
    simp only [update, List.foldl_cons] at this ⊢
    rw [this, mem_keys_setKey]
    simp only [List.map_cons, List.mem_cons]
    tauto

theorem nodup_update (d e : Row X) (h : (d.map Prod.fst).Nodup) : ((update d e).map Prod.fst).Nodup := by
  induction e generalizing d with
  | nil => simpa [update] using h
  | cons a e ih =>
    simp only [update, List.foldl_cons]
    exact ih _ (nodup_setKey d _ _ h)

theorem lookup_update_not_mem (d e : Row X) (k : String) (h : k ∉ e.map Prod.fst) :
    (update d e).lookup k = d.lookup k := by
  induction e generalizing d with
  | nil => simp [update]
  | cons a e ih =>
    simp only [List.map_cons, List.mem_cons, not_or] at h
    simp only [update, List.foldl_cons]
    have := ih (setKey d a.1 a.2) h.2
    simp only [update] at this
    rw [this, lookup_setKey, if_neg h.1]

theorem lookup_update_mem (d e : Row X) (k : String) (he : (e.map Prod.fst).Nodup) (h : k ∈ e.map Prod.fst) :
    (update d e).lookup k = e.lookup k := by
  induction e generalizing d with
  | nil => simp at h
  | cons a e ih =>
    obtain ⟨a, b⟩ := a
    simp only [List.map_cons, List.nodup_cons] at he
    simp only [update, List.foldl_cons]
    by_cases hk : k = a
    · subst hk
      have := lookup_update_not_mem (setKey d k b) e k he.1
      simp only [update] at this
      rw [this, lookup_setKey]; simp
    · have hb : (k == a) = false := by simpa using hk
      simp only [List.map_cons, List.mem_cons, hk, false_or] at h
      have := ih (setKey d a b) he.2 h
      simp only [update] at this
      rw [this, List.lookup_cons, hb]

theorem nodup_labelled (name : String) (ls : List String) (vs : List (Cell X)) :
    ((labelled name ls vs).map Prod.fst).Nodup := nodup_update [] _ (by simp)

/-- With distinct labels the labelled columns are the label names in order with the values in order. -/
theorem labelled_eq (name : String) (ls : List String) (vs : List (Cell X)) (hl : ls.Nodup)
    (hlen : vs.length = ls.length) :
    labelled name ls vs = (ls.zip vs).map fun lv => (name ++ "_" ++ lv.1, lv.2) := by
  unfold labelled
  rw [update_fresh, List.nil_append]
  · rw [List.map_map]
    have : (Prod.fst ∘ fun lv : String × Cell X => (name ++ "_" ++ lv.1, lv.2))
        = (fun l => name ++ "_" ++ l) ∘ Prod.fst := rfl
    rw [this, ← List.map_map, List.map_fst_zip (by omega)]
    exact List.Nodup.map (fun a b h => by simpa using h) hl
  · simp

/-! ### Tasks -/

theorem transformed_append (E : Env F D X A) (a b : List (Step D X A)) (d : D) :
    transformed E (a ++ b) d = (transformed E a d).bind (transformed E b) := by
  induction a generalizing d with
  | nil => rfl
  | cons s a ih =>
    simp only [List.cons_append, transformed]
    cases applyStep E d s with
    | error e => rfl
    | ok d' => exact ih d'

theorem applyStep_param (E : Env F D X A) (d : D) {s : Step D X A} (h : s.isOp = false) : applyStep E d s = .ok d := by
  cases s <;> simp_all [Step.isOp, applyStep]

theorem transformed_params (E : Env F D X A) {l : List (Step D X A)} (h : ∀ s ∈ l, s.isOp = false) (d : D) :
    transformed E l d = .ok d := by
  induction l with
  | nil => rfl
  | cons s l ih =>
    simp only [transformed]
    rw [applyStep_param E d (h s (by simp))]
    exact ih fun t ht => h t (by simp [ht])

theorem transformed_filter (E : Env F D X A) (l : List (Step D X A)) (d : D) :
    transformed E (l.filter (·.isOp)) d = transformed E l d := by
  induction l generalizing d with
  | nil => rfl
  | cons s l ih =>
    by_cases h : s.isOp = true
    · rw [List.filter_cons_of_pos h]
      simp only [transformed]
      cases applyStep E d s with
      | error e => rfl
      | ok d' => exact ih d'
    · rw [List.filter_cons_of_neg (by simpa using h), ih]
      simp only [transformed]
      rw [applyStep_param E d (by simpa using h)]
      rfl

theorem sitesFrom_prefix (before : List (Step D X A)) (ss : List (Step D X A)) :
    ∀ site ∈ sitesFrom before ss, before <+: site.1 := by
  induction ss generalizing before with
  | nil => simp [sitesFrom]
  | cons s ss ih =>
    intro site hs
    simp only [sitesFrom] at hs
    have key : site ∈ sitesFrom (before ++ [s]) ss → before <+: site.1 :=
      fun h => List.IsPrefix.trans (List.prefix_append _ _) (ih _ site h)
    split at hs
    · exact key hs
    · rcases List.mem_cons.1 hs with rfl | hs
      · exact List.prefix_refl _
      · exact key hs

theorem mapM_all_error {α β ε : Type} {f : α → Except ε β} {e : ε} (l : List α) (h : ∀ a ∈ l, f a = .error e) :
    l.mapM f = .ok [] ∧ l = [] ∨ l.mapM f = .error e := by
  cases l with
  | nil => exact .inl ⟨rfl, rfl⟩
  | cons a l => right; rw [List.mapM_cons, h a (by simp)]; rfl

/-- The contribution of a site. -/
def siteCols (E : Env F D X A) (ignore : Bool) (d : D) (site : List (Step D X A) × Step D X A) : Except Err (Row X) :=
  (transformed E site.1 d).bind fun d' => contribution E ignore d' site.2

theorem execSteps_spec (E : Env F D X A) (hK : KeyFaithful E.cls) (ignore : Bool) (d0 : D)
    (ss : List (Step D X A)) (hn : NoRecursion E ss) (before : List (Step D X A)) (o : Obj D (Ret X)) (row : Row X)
    (hb : transformed E before d0 = .ok o.data) (hg : Good E.cls o.data o.cache) :
    execSteps E ignore ss o row =
      ((sitesFrom before ss).mapM (siteCols E ignore d0)).bind fun cols =>
      (transformed E (before ++ ss) d0).bind fun _ => .ok (cols.foldl update row) := by
  induction ss generalizing before o row with
  | nil =>
    simp only [execSteps, sitesFrom, List.mapM_nil, pure, Except.pure, Except.bind, List.append_nil, hb, List.foldl_nil]
  | cons s ss ih =>
    obtain ⟨hn1, hn2, hn3⟩ := hn
    have hn' : NoRecursion E ss := ⟨hn1, fun t ht => hn2 t (by simp [ht]), fun i p hp => hn3 i p (by simp [hp])⟩
    have hsplit : before ++ s :: ss = (before ++ [s]) ++ ss := by simp
    have tb : transformed E (before ++ [s]) d0 = applyStep E o.data s := by
      rw [transformed_append, hb]
      simp only [Except.bind, transformed]
      cases applyStep E o.data s <;> rfl
    -- operations
    have opcase : ∀ (p : Prog D (Ret X) A D), s.isOp = true →
        applyStep E o.data s = evalProg (eval E.cls E.fuel) p o.data →
        execStep E ignore s o row = (match runProg (invoke E.cls E.fuel) p o.data o.cache with
          | (.ok d, _) => .ok ({ data := d, cache := [] }, row)
          | (.error e, _) => .error e) →
        execSteps E ignore (s :: ss) o row =
          ((sitesFrom before (s :: ss)).mapM (siteCols E ignore d0)).bind fun cols =>
          (transformed E (before ++ s :: ss) d0).bind fun _ => .ok (cols.foldl update row) := by
      intro p hop happ hex
      have hne : evalProg (eval E.cls E.fuel) p o.data ≠ .error .recursion := by
        rw [← happ]; exact hn2 s (by simp) _
      have hr := runProg_ok E.cls (f := eval E.cls E.fuel) (g := invoke E.cls E.fuel) (d := o.data)
        (fun m c hc hr => invoke_ok E.cls hK o.data E.fuel m c hc hr) p o.cache hg hne
      simp only [execSteps, hex, sitesFrom, hop, if_true, hsplit]
      rcases hrun : runProg (invoke E.cls E.fuel) p o.data o.cache with ⟨r, c⟩
      rw [hrun] at hr
      have hr1 : r = evalProg (eval E.cls E.fuel) p o.data := hr.1
      cases r with
      | ok d' =>
        exact ih hn' (before ++ [s]) ⟨d', []⟩ row (by rw [tb, happ, ← hr1]) (good_nil _ _)
      | error e =>
        have he : transformed E (before ++ [s]) d0 = .error e := by rw [tb, happ, ← hr1]
        have hall : ∀ site ∈ sitesFrom (before ++ [s]) ss, siteCols E ignore d0 site = .error e := by
          intro site hs
          obtain ⟨t, ht⟩ := sitesFrom_prefix _ _ site hs
          unfold siteCols
          rw [← ht, transformed_append, he]; rfl
        rcases mapM_all_error _ hall with ⟨h1, _⟩ | h1
        · rw [h1, transformed_append, he]; rfl
        · rw [h1]; rfl
    -- parameters
    have parcase : ∀ (r : Except Err (Row X)) (c : Cache (Ret X)), s.isOp = false →
        contribution E ignore o.data s = r → Good E.cls o.data c →
        execStep E ignore s o row = (match r with
          | .ok cols => .ok ({ o with cache := c }, update row cols)
          | .error e => .error e) →
        execSteps E ignore (s :: ss) o row =
          ((sitesFrom before (s :: ss)).mapM (siteCols E ignore d0)).bind fun cols =>
          (transformed E (before ++ s :: ss) d0).bind fun _ => .ok (cols.foldl update row) := by
      intro r c hop hc hgc hex
      have hsite : siteCols E ignore d0 (before, s) = r := by
        unfold siteCols; simp only [hb, Except.bind]; exact hc
      simp only [execSteps, hex, sitesFrom, hop, hsplit, Bool.false_eq_true, if_false, List.mapM_cons, hsite]
      cases r with
      | error e => rfl
      | ok cols =>
        have := ih hn' (before ++ [s]) { o with cache := c } (update row cols)
          (by rw [tb, applyStep_param E _ hop]) hgc
        refine Eq.trans this ?_
        cases (sitesFrom (before ++ [s]) ss).mapM (siteCols E ignore d0) with
        | error e => rfl
        | ok cs => rfl
    cases s with
    | operation c => exact opcase (E.ops c) rfl rfl rfl
    | customOperation p => exact opcase p rfl rfl rfl
    | parameter p =>
      have hi := invoke_ok E.cls hK o.data E.fuel p.call o.cache hg (hn1 _ _)
      refine parcase (paramColumns E p ignore (eval E.cls E.fuel p.call o.data))
        (invoke E.cls E.fuel p.call o.data o.cache).2 rfl rfl hi.2 ?_
      simp only [execStep]
      rw [← hi.1]
      rfl
    | customParameter i p =>
      have hr := runProg_ok E.cls (f := eval E.cls E.fuel) (g := invoke E.cls E.fuel) (d := o.data)
        (fun m c hc hr => invoke_ok E.cls hK o.data E.fuel m c hc hr) p o.cache hg (hn3 i p (by simp) _)
      refine parcase (customColumns ignore (evalProg (eval E.cls E.fuel) p o.data))
        (runProg (invoke E.cls E.fuel) p o.data o.cache).2 rfl rfl hr.2 ?_
      simp only [execStep]
      rw [← hr.1]
      rfl

theorem noRecursion_order {E : Env F D X A} {steps : List (Step D X A)} (h : NoRecursion E steps) (preserve : Bool) :
    NoRecursion E (orderSteps preserve steps) := by
  have hm : ∀ s ∈ orderSteps preserve steps, s ∈ steps := by
    intro s hs
    unfold orderSteps at hs
    split at hs
    · exact hs
    · simp only [List.mem_append, List.mem_filter] at hs
      tauto
  exact ⟨h.1, fun s hs => h.2.1 s (hm s hs), fun i p hp => h.2.2 i p (hm _ hp)⟩

theorem sitesFrom_ops (before ops rest : List (Step D X A)) (h : ∀ s ∈ ops, s.isOp = true) :
    sitesFrom before (ops ++ rest) = sitesFrom (before ++ ops) rest := by
  induction ops generalizing before with
  | nil => simp
  | cons s ops ih =>
    simp only [List.cons_append, sitesFrom, h s (by simp), if_true]
    rw [ih _ fun t ht => h t (by simp [ht])]; simp

theorem mapM_sites_params (E : Env F D X A) (ignore : Bool) (d0 : D) (steps before ps : List (Step D X A))
    (hp : ∀ s ∈ ps, s.isOp = false) (hb : ∀ d, transformed E before d = transformed E steps d) :
    (sitesFrom before ps).mapM (siteCols E ignore d0) = (ps.map fun s => (steps, s)).mapM (siteCols E ignore d0) := by
  induction ps generalizing before with
  | nil => rfl
  | cons s ps ih =>
    have hs : s.isOp = false := hp s (by simp)
    simp only [sitesFrom, hs, Bool.false_eq_true, if_false, List.map_cons, List.mapM_cons]
    rw [ih (before ++ [s]) (fun t ht => hp t (by simp [ht]))]
    · have : siteCols E ignore d0 (before, s) = siteCols E ignore d0 (steps, s) := by
        unfold siteCols; rw [hb]
      rw [this]
    · intro d
      rw [transformed_append, ← hb]
      cases transformed E before d with
      | error e => rfl
      | ok d' =>
        simp only [Except.bind, transformed]
        rw [applyStep_param E _ hs]

/-- A task computes the specified row. -/
theorem task_spec (E : Env F D X A) (hK : KeyFaithful E.cls) (steps : List (Step D X A)) (hn : NoRecursion E steps)
    (ignore preserve : Bool) (f : F) : task E steps ignore preserve f = specRow E steps ignore preserve f := by
  unfold task specRow
  cases E.load f with
  | error e => rfl
  | ok d =>
    simp only [Except.bind]
    have h := execSteps_spec E hK ignore d (orderSteps preserve steps) (noRecursion_order hn preserve) []
      (fresh d) [("file", .text (E.name f))] rfl (good_nil _ _)
    rw [h]
    cases preserve with
    | true => rfl
    | false =>
      have ht : transformed E ([] ++ orderSteps false steps) d = transformed E steps d := by
        simp only [orderSteps, Bool.false_eq_true, if_false, List.nil_append]
        rw [transformed_append, transformed_filter]
        cases transformed E steps d with
        | error e => rfl
        | ok d' => exact transformed_params E (by simp) d'
      have hs : (sitesFrom [] (orderSteps false steps)).mapM (siteCols E ignore d)
          = (sites false steps).mapM (siteCols E ignore d) := by
        simp only [orderSteps, sites, Bool.false_eq_true, if_false]
        rw [sitesFrom_ops _ _ _ (by simp)]
        apply mapM_sites_params
        · simp
        · intro d'; rw [List.nil_append, transformed_filter]
      rw [ht, hs]
      rfl

/-! ### The pool -/

/-- What an unfinished item will put on the queue. -/
def Item.outcome (E : Env F D X A) (steps : List (Step D X A)) (ignore preserve : Bool) :
    Item F D X A → Option (Except Err (Row X))
  | .waiting f => some (task E steps ignore preserve f)
  | .running o row ss => some (execSteps E ignore ss o row)
  | .finished => none

theorem tick_outcome (E : Env F D X A) (steps : List (Step D X A)) (ignore preserve : Bool) (it : Item F D X A) :
    (it.tick E steps ignore preserve).2.toList ++
      (Item.outcome E steps ignore preserve (it.tick E steps ignore preserve).1).toList
      = (Item.outcome E steps ignore preserve it).toList := by
  cases it with
  | finished => rfl
  | waiting f =>
    simp only [Item.tick, Item.outcome, task]
    cases E.load f <;> rfl
  | running o row ss =>
    cases ss with
    | nil => rfl
    | cons s ss =>
      simp only [Item.tick, Item.outcome, execSteps]
      cases execStep E ignore s o row with
      | error e => rfl
      | ok p => rfl

theorem perm_set {α β : Type} (g : α → List β) (l : List α) (i : Nat) (a : α) (h : l[i]? = some a) (a' : α) (out : List β)
    (hg : out ++ g a' = g a) (q : List β) :
    ((q ++ out) ++ (l.set i a').flatMap g).Perm (q ++ l.flatMap g) := by
  rw [List.append_assoc]
  apply List.Perm.append_left
  induction l generalizing i with
  | nil => simp at h
  | cons b l ih =>
    cases i with
    | zero =>
      simp only [List.getElem?_cons_zero, Option.some.injEq] at h
      subst h
      simp only [List.set_cons_zero, List.flatMap_cons]
      rw [← List.append_assoc, hg]
    | succ i =>
      simp only [List.getElem?_cons_succ] at h
      simp only [List.set_cons_succ, List.flatMap_cons]
      have := ih i h
      calc (out ++ (g b ++ (l.set i a').flatMap g)).Perm (g b ++ (out ++ (l.set i a').flatMap g)) := by
            rw [← List.append_assoc, ← List.append_assoc]
            exact List.Perm.append_right _ List.perm_append_comm
        _ |>.Perm (g b ++ l.flatMap g) := this.append_left _

theorem advance_perm (E : Env F D X A) (steps : List (Step D X A)) (ignore preserve : Bool) (P : Pool F D X A) (i : Nat) :
    ((P.advance E steps ignore preserve i).queue ++ (P.advance E steps ignore preserve i).items.flatMap
        fun it => (Item.outcome E steps ignore preserve it).toList).Perm
      (P.queue ++ P.items.flatMap fun it => (Item.outcome E steps ignore preserve it).toList) := by
  unfold Pool.advance
  cases h : P.items[i]? with
  | none => exact List.Perm.refl _
  | some it =>
    exact perm_set (fun it => (Item.outcome E steps ignore preserve it).toList) P.items i it h _ _
      (tick_outcome E steps ignore preserve it) P.queue

theorem run_perm (E : Env F D X A) (steps : List (Step D X A)) (ignore preserve : Bool) (sched : List Nat)
    (P : Pool F D X A) :
    ((P.run E steps ignore preserve sched).queue ++ (P.run E steps ignore preserve sched).items.flatMap
        fun it => (Item.outcome E steps ignore preserve it).toList).Perm
      (P.queue ++ P.items.flatMap fun it => (Item.outcome E steps ignore preserve it).toList) := by
  induction sched generalizing P with
  | nil => exact List.Perm.refl _
  | cons i sched ih => exact (ih (P.advance E steps ignore preserve i)).trans (advance_perm E steps ignore preserve P i)

/-- How many quanta an item still needs. -/
def Item.need (steps : List (Step D X A)) : Item F D X A → Nat
  | .waiting _ => steps.length + 2
  | .running _ _ ss => ss.length + 1
  | .finished => 0

theorem length_orderSteps (preserve : Bool) (steps : List (Step D X A)) :
    (orderSteps preserve steps).length = steps.length := by
  unfold orderSteps
  split
  · rfl
  · induction steps with
    | nil => rfl
    | cons s l ih =>
      simp only [List.filter_cons, List.length_append] at ih ⊢
      cases s.isOp <;> simp_all <;> omega

theorem tick_need (E : Env F D X A) (steps : List (Step D X A)) (ignore preserve : Bool) (it : Item F D X A) :
    Item.need steps (it.tick E steps ignore preserve).1 ≤ Item.need steps it - 1 := by
  cases it with
  | finished => simp [Item.tick, Item.need]
  | waiting f =>
    simp only [Item.tick, Item.need]
    cases E.load f with
    | error e => simp
    | ok d => simp [length_orderSteps]
  | running o row ss =>
    cases ss with
    | nil => simp [Item.tick, Item.need]
    | cons s ss =>
      simp only [Item.tick, Item.need]
      cases execStep E ignore s o row with
      | error e => simp
      | ok p => simp

theorem need_zero {steps : List (Step D X A)} {it : Item F D X A} (h : Item.need steps it = 0) : it = .finished := by
  cases it <;> simp_all [Item.need]

theorem advance_get (E : Env F D X A) (steps : List (Step D X A)) (ignore preserve : Bool) (P : Pool F D X A) (i j : Nat) :
    (P.advance E steps ignore preserve i).items[j]? =
      if i = j then P.items[j]?.map fun it => (it.tick E steps ignore preserve).1 else P.items[j]? := by
  unfold Pool.advance
  cases h : P.items[i]? with
  | none =>
    simp only
    by_cases hij : i = j
    · subst hij; simp [h]
    · rw [if_neg hij]
  | some it =>
    simp only
    by_cases hij : i = j
    · subst hij
      rw [if_pos rfl, h, List.getElem?_set]
      have : i < P.items.length := by
        by_contra hlt; rw [List.getElem?_eq_none (by omega)] at h; cases h
      simp [this]
    · rw [if_neg hij, List.getElem?_set_ne hij]

theorem run_need (E : Env F D X A) (steps : List (Step D X A)) (ignore preserve : Bool) (sched : List Nat)
    (P : Pool F D X A) (j : Nat) (it : Item F D X A) (hj : (P.run E steps ignore preserve sched).items[j]? = some it) :
    ∃ it0, P.items[j]? = some it0 ∧ Item.need steps it ≤ Item.need steps it0 - sched.count j := by
  induction sched generalizing P with
  | nil => exact ⟨it, hj, by simp⟩
  | cons i sched ih =>
    obtain ⟨it1, h1, h2⟩ := ih (P.advance E steps ignore preserve i) hj
    rw [advance_get] at h1
    by_cases hij : i = j
    · rw [if_pos hij] at h1
      cases h0 : P.items[j]? with
      | none => rw [h0] at h1; simp at h1
      | some it0 =>
        rw [h0] at h1
        simp only [Option.map_some, Option.some.injEq] at h1
        subst h1
        have := tick_need E steps ignore preserve it0
        refine ⟨it0, rfl, ?_⟩
        rw [hij, List.count_cons_self]
        omega
    · rw [if_neg hij] at h1
      refine ⟨it1, h1, ?_⟩
      rw [List.count_cons_of_ne hij]
      exact h2

theorem run_length (E : Env F D X A) (steps : List (Step D X A)) (ignore preserve : Bool) (sched : List Nat)
    (P : Pool F D X A) : (P.run E steps ignore preserve sched).items.length = P.items.length := by
  induction sched generalizing P with
  | nil => rfl
  | cons i sched ih =>
    have := ih (P.advance E steps ignore preserve i)
    simp only [Pool.run, List.foldl_cons] at this ⊢
    rw [this]
    unfold Pool.advance
    cases P.items[i]? <;> simp

theorem mapM_id_map {α β ε : Type} (f : α → Except ε β) (l : List α) : (l.map f).mapM id = l.mapM f := by
  induction l with
  | nil => rfl
  | cons a l ih => simp only [List.map_cons, List.mapM_cons, ih, id]

theorem collect_perm_ok {q : List (Except Err (Row X))} {rows : List (Row X)} (h : q.Perm (rows.map .ok)) :
    ∃ rows', collect q = .ok rows' ∧ rows'.Perm rows := by
  have hall : ∀ a ∈ q, ∃ r, a = .ok r := by
    intro a ha
    have := h.subset ha
    simp only [List.mem_map] at this
    obtain ⟨r, _, rfl⟩ := this
    exact ⟨r, rfl⟩
  obtain ⟨rows', hr⟩ : ∃ rows' : List (Row X), q = rows'.map .ok := by
    clear h
    induction q with
    | nil => exact ⟨[], rfl⟩
    | cons a q ih =>
      obtain ⟨r, rfl⟩ := hall a (by simp)
      obtain ⟨rs, rfl⟩ := ih fun b hb => hall b (by simp [hb])
      exact ⟨r :: rs, rfl⟩
  subst hr
  refine ⟨rows', ?_, ?_⟩
  · unfold collect; rw [mapM_id_map]
    have := mapM_ok_of (ε := Err) (f := fun r : Row X => .ok r) (g := id) (l := rows') (by simp)
    simpa using this
  · exact (List.map_perm_map_iff (fun a b h => by simpa using h)).1 h

theorem mapM_error_mem {α β ε : Type} {f : α → Except ε β} {e : ε} : ∀ {l : List α}, l.mapM f = .error e → ∃ a ∈ l, f a = .error e
  | [], h => by simp [pure, Except.pure] at h
  | a :: l, h => by
    rw [List.mapM_cons] at h
    cases ha : f a with
    | error e' => rw [ha] at h; simp only [bind, Except.bind, Except.error.injEq] at h; subst h; exact ⟨a, by simp, ha⟩
    | ok b =>
      rw [ha] at h
      cases hl : l.mapM f with
      | error e' =>
        rw [hl] at h; simp only [bind, Except.bind, Except.error.injEq] at h; subst h
        obtain ⟨c, hc, h'⟩ := mapM_error_mem hl
        exact ⟨c, by simp [hc], h'⟩
      | ok bs => rw [hl] at h; simp [bind, Except.bind, pure, Except.pure] at h

theorem mapM_error_of_mem {α β ε : Type} {f : α → Except ε β} {l : List α} (h : ∃ a ∈ l, ∃ e, f a = .error e) :
    ∃ e, l.mapM f = .error e := by
  induction l with
  | nil => simp at h
  | cons a l ih =>
    rw [List.mapM_cons]
    cases ha : f a with
    | error e => exact ⟨e, rfl⟩
    | ok b =>
      obtain ⟨c, hc, e, he⟩ := h
      rcases List.mem_cons.1 hc with rfl | hc
      · rw [ha] at he; cases he
      · obtain ⟨e', h'⟩ := ih ⟨c, hc, e, he⟩
        exact ⟨e', by rw [h']; rfl⟩

theorem mapM_ok_inv {α β ε : Type} {f : α → Except ε β} : ∀ {l : List α} {r : List β}, l.mapM f = .ok r → l.map f = r.map .ok
  | [], r, h => by
    simp only [List.mapM_nil, pure, Except.pure, Except.ok.injEq] at h; subst h; rfl
  | a :: l, r, h => by
    rw [List.mapM_cons] at h
    cases ha : f a with
    | error e => rw [ha] at h; simp [bind, Except.bind] at h
    | ok v =>
      rw [ha] at h
      cases hl : l.mapM f with
      | error e => rw [hl] at h; simp [bind, Except.bind] at h
      | ok vs =>
        rw [hl] at h
        simp only [bind, Except.bind, pure, Except.pure, Except.ok.injEq] at h
        subst h
        simp [ha, mapM_ok_inv hl]

theorem start_outcomes (E : Env F D X A) (steps : List (Step D X A)) (ignore preserve : Bool) (files : List F) :
    (Pool.start files : Pool F D X A).queue ++ (Pool.start files : Pool F D X A).items.flatMap
      (fun it => (Item.outcome E steps ignore preserve it).toList) = files.map (task E steps ignore preserve) := by
  simp only [Pool.start, List.nil_append]
  induction files with
  | nil => rfl
  | cons f fs ih =>
    simp only [List.map_cons, List.flatMap_cons, ih]
    rfl

theorem sitesFrom_append (before a b : List (Step D X A)) :
    sitesFrom before (a ++ b) = sitesFrom before a ++ sitesFrom (before ++ a) b := by
  induction a generalizing before with
  | nil => simp [sitesFrom]
  | cons s a ih =>
    simp only [List.cons_append, sitesFrom]
    rw [ih]
    split <;> simp

theorem mem_sitesFrom (before ss : List (Step D X A)) (site : List (Step D X A) × Step D X A) :
    site ∈ sitesFrom before ss ↔
      site.2.isOp = false ∧ ∃ pre post, ss = pre ++ site.2 :: post ∧ site.1 = before ++ pre := by
  induction ss generalizing before with
  | nil => simp [sitesFrom]
  | cons s ss ih =>
    obtain ⟨p, t⟩ := site
    have key : (p, t) ∈ sitesFrom (before ++ [s]) ss ↔
        t.isOp = false ∧ ∃ pre post, s :: ss = (s :: pre) ++ t :: post ∧ p = before ++ (s :: pre) := by
      rw [ih]
      constructor
      · rintro ⟨h1, pre, post, h2, h3⟩
        exact ⟨h1, pre, post, by rw [h2]; rfl, by simpa using h3⟩
      · rintro ⟨h1, pre, post, h2, h3⟩
        refine ⟨h1, pre, post, ?_, by rw [h3]; simp⟩
        simpa using h2
    simp only [sitesFrom]
    by_cases hs : s.isOp = true
    · rw [if_pos hs, key]
      constructor
      · rintro ⟨h1, pre, post, h2, h3⟩
        exact ⟨h1, s :: pre, post, h2, h3⟩
      · rintro ⟨h1, pre, post, h2, h3⟩
        cases pre with
        | nil =>
          simp only [List.nil_append, List.cons.injEq] at h2
          rw [h2.1] at hs; rw [hs] at h1; cases h1
        | cons a pre =>
          have ha : a = s := by
            simp only [List.cons_append, List.cons.injEq] at h2; exact h2.1.symm
          subst ha
          exact ⟨h1, pre, post, h2, h3⟩
    · rw [if_neg hs, List.mem_cons, key]
      constructor
      · rintro (h | ⟨h1, pre, post, h2, h3⟩)
        · simp only [Prod.mk.injEq] at h
          obtain ⟨rfl, rfl⟩ := h
          exact ⟨by simpa using hs, [], ss, rfl, by simp⟩
        · exact ⟨h1, s :: pre, post, h2, h3⟩
      · rintro ⟨h1, pre, post, h2, h3⟩
        cases pre with
        | nil =>
          simp only [List.nil_append, List.cons.injEq] at h2
          left
          simp only [List.append_nil] at h3
          rw [h3, h2.1]
        | cons a pre =>
          have ha : a = s := by
            simp only [List.cons_append, List.cons.injEq] at h2; exact h2.1.symm
          subst ha
          right
          exact ⟨h1, pre, post, h2, h3⟩

theorem lookup_foldl_update (k : String) (cs : List (Row X)) (row : Row X) (h : ∀ c ∈ cs, k ∉ c.map Prod.fst) :
    (cs.foldl update row).lookup k = row.lookup k := by
  induction cs generalizing row with
  | nil => rfl
  | cons c cs ih =>
    rw [List.foldl_cons, ih _ fun c' hc' => h c' (by simp [hc']), lookup_update_not_mem _ _ _ (h c (by simp))]

theorem nodup_foldl_update (cs : List (Row X)) (row : Row X) (h : (row.map Prod.fst).Nodup) :
    ((cs.foldl update row).map Prod.fst).Nodup := by
  induction cs generalizing row with
  | nil => exact h
  | cons c cs ih => exact ih _ (nodup_update _ _ h)

theorem foldl_update_fresh (cs : List (Row X)) (row : Row X)
    (h : ((row ++ cs.flatten).map Prod.fst).Nodup) : cs.foldl update row = row ++ cs.flatten := by
  induction cs generalizing row with
  | nil => simp
  | cons c cs ih =>
    have h' := h
    simp only [List.flatten_cons, List.map_append, List.nodup_append, List.mem_append] at h'
    rw [List.foldl_cons, update_fresh row c h'.2.1.1 (fun k hk hr => h'.2.2 k hr k (.inl hk) rfl), ih]
    · simp
    · simpa using h

theorem mapM_append_ok {α β ε : Type} {f : α → Except ε β} (a b : List α) (r : List β) (h : (a ++ b).mapM f = .ok r) :
    ∃ r1 r2, a.mapM f = .ok r1 ∧ b.mapM f = .ok r2 ∧ r = r1 ++ r2 := by
  induction a generalizing r with
  | nil => exact ⟨[], r, rfl, h, rfl⟩
  | cons x a ih =>
    rw [List.cons_append, List.mapM_cons] at h
    rw [List.mapM_cons]
    cases hx : f x with
    | error e => rw [hx] at h; simp [bind, Except.bind] at h
    | ok v =>
      rw [hx] at h
      cases hl : (a ++ b).mapM f with
      | error e => rw [hl] at h; simp [bind, Except.bind] at h
      | ok vs =>
        rw [hl] at h
        simp only [bind, Except.bind, pure, Except.pure, Except.ok.injEq] at h
        subst h
        obtain ⟨r1, r2, h1, h2, rfl⟩ := ih vs hl
        exact ⟨v :: r1, r2, by rw [h1]; rfl, h2, rfl⟩

theorem nodup_eraseDups {α : Type} [BEq α] [LawfulBEq α] (l : List α) : l.eraseDups.Nodup := by
  generalize hn : l.length = n
  induction n using Nat.strongRecOn generalizing l with
  | ind n ih =>
    cases l with
    | nil => simp
    | cons a l =>
      rw [List.eraseDups_cons, List.nodup_cons]
      constructor
      · simp
      · exact ih _ (by subst hn; simp only [List.length_cons]; exact Nat.lt_succ_of_le (List.length_filter_le _ _)) _ rfl

theorem specRow_ok {E : Env F D X A} {steps : List (Step D X A)} {ignore preserve : Bool} {f : F} {row : Row X}
    (h : specRow E steps ignore preserve f = .ok row) :
    ∃ d cols d1, E.load f = .ok d ∧ (sites preserve steps).mapM (siteCols E ignore d) = .ok cols ∧
      transformed E steps d = .ok d1 ∧ row = cols.foldl update [("file", .text (E.name f))] := by
  unfold specRow at h
  cases hl : E.load f with
  | error e => rw [hl] at h; simp [Except.bind] at h
  | ok d =>
    rw [hl] at h
    have h' : ((sites preserve steps).mapM (siteCols E ignore d)).bind (fun cols =>
        (transformed E steps d).bind fun _ => .ok (cols.foldl update [("file", .text (E.name f))])) = .ok row := h
    cases hm : (sites preserve steps).mapM (siteCols E ignore d) with
    | error e => rw [hm] at h'; simp [Except.bind] at h'
    | ok cols =>
      rw [hm] at h'
      cases ht : transformed E steps d with
      | error e => rw [ht] at h'; simp [Except.bind] at h'
      | ok d1 =>
        rw [ht] at h'
        simp only [Except.bind, Except.ok.injEq] at h'
        exact ⟨d, cols, d1, rfl, hm, ht, h'.symm⟩

theorem siteCols_ok {E : Env F D X A} {ignore : Bool} {d : D} {site : List (Step D X A) × Step D X A} {c : Row X}
    (h : siteCols E ignore d site = .ok c) :
    ∃ d', transformed E site.1 d = .ok d' ∧ contribution E ignore d' site.2 = .ok c := by
  unfold siteCols at h
  cases ht : transformed E site.1 d with
  | error e => rw [ht] at h; simp [Except.bind] at h
  | ok d' => rw [ht] at h; exact ⟨d', rfl, h⟩

end Surfalize.BatchLemmas
