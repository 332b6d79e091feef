import Verif.Lemmas.Cache

/-!
# C01, C02 — the method cache is transparent and failures leave no trace
-/
namespace Surfalize.Props
open Surfalize.CacheM Surfalize.CacheSpec Surfalize.CacheLemmas

/-- **C01.** For every class whose call keys determine the computation, every history of method calls,
data assignments, item assignments, in-place operations and cache clears on a fresh object produces
exactly the observations, and leaves exactly the heights, of the same history on an object without any
cache. (The history must not exceed the recursion limit when nothing is cached.) -/
theorem C01_cache_transparent {D V A : Type} (K : Cls D V A) (hK : KeyFaithful K) (n : Nat) (d : D)
    (ops : List (Op D V A)) (hr : ∀ x ∈ (specRun K n d ops).2, x ≠ .exn .recursion) :
    (run K n (fresh d) ops).2 = (specRun K n d ops).2 ∧
    (run K n (fresh d) ops).1.data = (specRun K n d ops).1 := by
  have h := run_ok K hK n ops (fresh d) (good_nil K _) hr
  exact ⟨h.1, h.2.1⟩

/-- **C01**, read form: after any history, a parameter read returns what evaluating it from scratch on
the heights the object then holds returns. -/
theorem C01_read_is_fresh {D V A : Type} (K : Cls D V A) (hK : KeyFaithful K) (n : Nat) (d : D)
    (ops : List (Op D V A)) (hr : ∀ x ∈ (specRun K n d ops).2, x ≠ .exn .recursion)
    (m : Call A) (hm : eval K n m (run K n (fresh d) ops).1.data ≠ .error .recursion) :
    (invoke K n m (run K n (fresh d) ops).1.data (run K n (fresh d) ops).1.cache).1
      = eval K n m (run K n (fresh d) ops).1.data :=
  (invoke_ok K hK _ n m _ (run_ok K hK n ops (fresh d) (good_nil K _) hr).2.2 hm).1

/-- **C01**, assignment: a data assignment, item assignment or in-place operation that succeeds leaves
an empty cache, whatever was cached before. -/
theorem C01_mutation_clears {D V A : Type} (K : Cls D V A) (n : Nat) (o : Obj D V) (op : Op D V A)
    (hop : ∀ m, op ≠ .read m) (hdone : (step K n o op).2 = .done) : (step K n o op).1.cache = [] := by
  cases op with
  | read m => exact absurd rfl (hop m)
  | assign d => rfl
  | setitem f =>
    simp only [step] at hdone ⊢
    cases hf : f o.data with
    | ok d => rfl
    | error e => rw [hf] at hdone; simp at hdone
  | inplace p =>
    simp only [step] at hdone ⊢
    rcases hp : runProg (invoke K n) p o.data o.cache with ⟨r, c⟩
    rw [hp] at hdone
    cases r with
    | ok d => rfl
    | error e => simp at hdone
  | clear => rfl

/-- **C01**, hit: once a cached method has returned a value, calling it again with the same arguments
returns the same value and evaluates nothing (the cache is left as it is). -/
theorem C01_second_call_hits {D V A : Type} (K : Cls D V A) (n : Nat) (m : Call A) (d : D) (c : Cache V)
    (v : V) (hc : K.cached m.name = true) (h : (invoke K (n + 1) m d c).1 = .ok v) (k : Nat) :
    invoke K (k + 1) m d (invoke K (n + 1) m d c).2 = (.ok v, (invoke K (n + 1) m d c).2) := by
  have key : Cache.get? (invoke K (n + 1) m d c).2 (K.render.key m) = some v := by
    simp only [invoke, hc, if_true] at h ⊢
    cases hl : Cache.get? c (K.render.key m) with
    | some w => rw [hl] at h; simp only at h ⊢; rw [hl]; simpa using h
    | none =>
      rw [hl] at h
      rcases hp : runProg (invoke K n) (K.body m) d c with ⟨r, c'⟩
      rw [hp] at h
      cases r with
      | ok w => simp only at h ⊢; cases h; simp [Cache.get?, Cache.set]
      | error e => simp at h
  generalize (invoke K (n + 1) m d c).2 = c1 at key ⊢
  simp only [invoke, hc, if_true, key]

/-- **C02.** After any history, a cached call that raises stores nothing under its key: the key is absent
from the cache before and after the call. -/
theorem C02_failure_not_cached {D V A : Type} (K : Cls D V A) (hK : KeyFaithful K) (n : Nat) (d : D)
    (ops : List (Op D V A)) (hr : ∀ x ∈ (specRun K n d ops).2, x ≠ .exn .recursion)
    (m : Call A) (e : Err) (he : e ≠ .recursion) (hc : K.cached m.name = true)
    (hm : eval K n m (run K n (fresh d) ops).1.data = .error e) :
    Cache.get? (run K n (fresh d) ops).1.cache (K.render.key m) = none ∧
    Cache.get? (step K n (run K n (fresh d) ops).1 (.read m)).1.cache (K.render.key m) = none ∧
    (step K n (run K n (fresh d) ops).1 (.read m)).2 = .exn e := by
  obtain ⟨_, _, hg⟩ := run_ok K hK n ops (fresh d) (good_nil K _) hr
  generalize (run K n (fresh d) ops).1 = o at hm hg
  have hne : eval K n m o.data ≠ .error .recursion := by rw [hm]; simpa using he
  have absent : ∀ c, Good K o.data c → Cache.get? c (K.render.key m) = none := by
    intro c hgc
    cases hl : Cache.get? c (K.render.key m) with
    | none => rfl
    | some v =>
      obtain ⟨N, hN⟩ := hgc m v hc hl
      have := eval_agree K m o.data hne (N := N) (by rw [hN]; simp)
      rw [hm, hN] at this; cases this
  have hspec : (specStep K n o.data (.read m)).2 = .exn e := by simp [specStep, hm]
  have hst := step_ok K hK n o (.read m) hg (by rw [hspec]; simpa using he)
  have hdata : (step K n o (.read m)).1.data = o.data := by
    rw [hst.2.1]; simp [specStep, hm]
  refine ⟨absent _ hg, absent _ ?_, by rw [hst.1, hspec]⟩
  have := hst.2.2
  rwa [hdata] at this

/-- **C02.** A call whose body raises without calling other methods (such as a parameter rejecting
non-measured points, base.py:32-37) leaves the cache exactly as it was. -/
theorem C02_guard_leaves_cache {D V A : Type} (K : Cls D V A) (n : Nat) (m : Call A) (d : D) (c : Cache V)
    (e : Err) (k : D → Prog D V A V) (hbody : K.body m = .readData k) (hk : k d = .raise e)
    (hmiss : Cache.get? c (K.render.key m) = none) :
    invoke K (n + 1) m d c = (.error e, c) := by
  simp only [invoke, hbody, runProg, hk, hmiss]
  split <;> rfl

/-- **C02.** In every history, repeating a failed call at once fails with the same exception, and after the data
has been repaired the call returns what a fresh evaluation on the repaired data returns. -/
theorem C02_retry {D V A : Type} (K : Cls D V A) (hK : KeyFaithful K) (n : Nat) (d : D)
    (ops : List (Op D V A)) (hr : ∀ x ∈ (specRun K n d ops).2, x ≠ .exn .recursion)
    (m : Call A) (e : Err) (he : e ≠ .recursion)
    (hm : eval K n m (run K n (fresh d) ops).1.data = .error e) (d' : D) (v : V)
    (hv : eval K n m d' = .ok v) :
    (run K n (run K n (fresh d) ops).1 [.read m, .read m, .assign d', .read m]).2
      = [.exn e, .exn e, .done, .value v] := by
  obtain ⟨_, _, hg⟩ := run_ok K hK n ops (fresh d) (good_nil K _) hr
  generalize (run K n (fresh d) ops).1 = o at hm hg
  have hspec : (specRun K n o.data [.read m, .read m, .assign d', .read m]).2
      = [.exn e, .exn e, .done, .value v] := by
    simp [specRun, specStep, hm, hv]
  rw [(run_ok K hK n _ o hg (by rw [hspec]; simp [he])).1, hspec]

/-! ## Non-vacuity: a two-method class in the shape of `Sa` / `height_parameters` -/

/-- Heights are a list of integers with `none` for a non-measured point; `hp` (cached) fails on
non-measured points and otherwise sums; `Sa` (not cached) calls it; `Vm` (cached) takes a flag. -/
def demoCls0 : Cls (List (Option Int)) Int Bool where
  body := fun m =>
    if m.name = "hp" then .readData fun d => if d.any (·.isNone) then .raise .valueError
      else .ret ((d.map (·.getD 0)).sum)
    else if m.name = "Sa" then .call ⟨"hp", [], []⟩ fun v => .ret (v + 1)
    else .readData fun d => .ret (if m.args = [true] then d.length else 0)
  cached := fun s => s == "hp" || s == "Vm"
  render := { strArgs := fun l => String.ofList (l.map fun b => if b then 'T' else 'F'),
              strKwargs := fun _ => "dict_items([])" }

theorem demo0_faithful : KeyFaithful demoCls0 := by
  intro m m' _ hn h _
  have ha : String.ofList (m.args.map fun b => if b then 'T' else 'F')
      = String.ofList (m'.args.map fun b => if b then 'T' else 'F') := h
  have hinj : Function.Injective (fun b : Bool => if b then 'T' else 'F') := by
    intro a b; cases a <;> cases b <;> simp
  have ha' : m.args = m'.args := by
    have := String.ofList_injective ha
    exact List.map_inj_right (fun a b hab => hinj hab) |>.1 this
  simp [demoCls0, hn, ha']

/-- The hypotheses of `C01_cache_transparent` hold for a concrete history mixing reads, an item
assignment and a failing read, and the cached run gives the expected observations. -/
example :
    (run demoCls0 5 (fresh [some 1, none]) [.read ⟨"Sa", [], []⟩, .setitem (fun _ => .ok [some 1, some 2]),
      .read ⟨"Sa", [], []⟩, .read ⟨"hp", [], []⟩, .assign [some 7], .read ⟨"hp", [], []⟩,
      .read ⟨"Vm", [true], []⟩, .read ⟨"Vm", [false], []⟩]).2
    = [.exn .valueError, .done, .value 4, .value 3, .done, .value 7, .value 1, .value 0] := by decide

example : KeyFaithful demoCls0 ∧
    ∀ x ∈ (specRun demoCls0 5 [some 1, none] [.read ⟨"Sa", [], []⟩, .read ⟨"hp", [], []⟩]).2,
      x ≠ .exn .recursion := ⟨demo0_faithful, by decide⟩

/-- The assumption on keys is needed: with a rendering that forgets the argument the cache returns a
value computed for another argument. -/
theorem C01_needs_faithful_keys : ∃ (K : Cls Unit Int Int) (m m' : Call Int),
    K.render.key m = K.render.key m' ∧
    (run K 5 (fresh ()) [.read m, .read m']).2 ≠ (specRun K 5 () [.read m, .read m']).2 :=
  ⟨{ body := fun m => .ret (m.args.headD 0), cached := fun _ => true,
     render := { strArgs := fun _ => "", strKwargs := fun _ => "" } },
   ⟨"Vm", [1], []⟩, ⟨"Vm", [2], []⟩, rfl, by decide⟩

end Surfalize.Props
