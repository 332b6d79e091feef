import Verif.Model.Roughness
import Verif.Lemmas.Cache
import Mathlib.Data.List.Basic

/-!
# C54 — `roughness_parameters` evaluates exactly the requested names
-/
set_option linter.unusedSectionVars false
namespace Surfalize.Props
open Surfalize.CacheM Surfalize.CacheSpec Surfalize.CacheLemmas Surfalize.Roughness

variable {D V A : Type}

/-! ## Helper lemmas -/

private theorem keys_set (d : Dict V) (k : String) (v : V) :
    (Dict.set d k v).map Prod.fst = if k ∈ d.map Prod.fst then d.map Prod.fst else d.map Prod.fst ++ [k] := by
  unfold Dict.set
  by_cases h : k ∈ d.map Prod.fst
  · rw [if_pos h, if_pos h, List.map_map]
    apply List.map_congr_left
    intro e _
    simp only [Function.comp]
    by_cases he : e.1 = k
    · rw [if_pos he]; exact he.symm
    · rw [if_neg he]
  · rw [if_neg h, if_neg h]; simp

private theorem mem_set {d : Dict V} {k : String} {v : V} {e : String × V} (h : e ∈ Dict.set d k v) :
    e = (k, v) ∨ e ∈ d := by
  unfold Dict.set at h
  by_cases hk : k ∈ d.map Prod.fst
  · rw [if_pos hk, List.mem_map] at h
    obtain ⟨a, ha, rfl⟩ := h
    by_cases he : a.1 = k
    · rw [if_pos he]; exact .inl rfl
    · rw [if_neg he]; exact .inr ha
  · rw [if_neg hk, List.mem_append] at h
    rcases h with h | h
    · exact .inr h
    · exact .inl (by simpa using h)

/-- The names of the dictionary after the remaining names have been processed. -/
private def after (ks : List String) : List String → List String
  | [] => ks
  | p :: ps => after (if p ∈ ks then ks else ks ++ [p]) ps

private theorem after_eq (ks ps : List String) : after ks ps = ks ++ (ps.filter (· ∉ ks)).eraseDups := by
  induction ps generalizing ks with
  | nil => simp [after]
  | cons p ps ih =>
    unfold after
    by_cases h : p ∈ ks
    · rw [if_pos h, ih, List.filter_cons_of_neg (by simpa using h)]
    · rw [if_neg h, ih, List.filter_cons_of_pos (by simpa using h), List.eraseDups_cons, List.append_assoc,
        List.singleton_append, List.filter_filter]
      congr 3
      apply List.filter_congr
      intro x _
      by_cases hx : x = p <;> simp [hx, List.mem_append]

private theorem loop_spec (K : Cls D V A) (hK : KeyFaithful K) (n : Nat) (avail : List String) (d : D) (ps : List String)
    (hr : ∀ p ∈ ps, eval K n (bare p) d ≠ .error .recursion) (res : Dict V) (c : Cache V) (hg : Good K d c)
    (hres : ∀ kv ∈ res, eval K n (bare kv.1) d = .ok kv.2) :
    Good K d (loop K n avail d ps res c).2 ∧
    (∀ r, (loop K n avail d ps res c).1 = .ok r →
      (∀ p ∈ ps, p ∈ avail ∧ ∃ v, eval K n (bare p) d = .ok v) ∧ r.map Prod.fst = after (res.map Prod.fst) ps ∧
      ∀ kv ∈ r, eval K n (bare kv.1) d = .ok kv.2) ∧
    (∀ e, (loop K n avail d ps res c).1 = .error e → ∃ pre p post, ps = pre ++ p :: post ∧
      (∀ q ∈ pre, q ∈ avail ∧ ∃ v, eval K n (bare q) d = .ok v) ∧
      ((p ∉ avail ∧ e = .valueError) ∨ (p ∈ avail ∧ eval K n (bare p) d = .error e))) := by
  induction ps generalizing res c with
  | nil =>
    refine ⟨hg, ?_, ?_⟩
    · intro r h
      simp only [loop, Except.ok.injEq] at h
      subst h
      exact ⟨by simp, rfl, hres⟩
    · intro e h; simp [loop] at h
  | cons p ps ih =>
    by_cases hp : p ∈ avail
    · obtain ⟨h1, h2⟩ := invoke_ok K hK d n (bare p) c hg (hr p (by simp))
      rcases hi : invoke K n (bare p) d c with ⟨x, c'⟩
      rw [hi] at h1 h2
      cases x with
      | ok v =>
        have hl : loop K n avail d (p :: ps) res c = loop K n avail d ps (Dict.set res p v) c' := by
          rw [loop, if_pos hp, hi]
        have hv : eval K n (bare p) d = .ok v := h1.symm
        have hres' : ∀ kv ∈ Dict.set res p v, eval K n (bare kv.1) d = .ok kv.2 := by
          intro kv hkv
          rcases mem_set hkv with rfl | h
          · exact hv
          · exact hres kv h
        obtain ⟨i1, i2, i3⟩ := ih (fun q hq => hr q (by simp [hq])) (Dict.set res p v) c' h2 hres'
        rw [hl]
        refine ⟨i1, ?_, ?_⟩
        · intro r h
          obtain ⟨a, b, c⟩ := i2 r h
          refine ⟨?_, ?_, c⟩
          · intro q hq
            rcases List.mem_cons.1 hq with rfl | hq
            · exact ⟨hp, v, hv⟩
            · exact a q hq
          · rw [b, keys_set]; rfl
        · intro e h
          obtain ⟨pre, q, post, e1, e2, e3⟩ := i3 e h
          refine ⟨p :: pre, q, post, by rw [e1]; rfl, ?_, e3⟩
          intro x hx
          rcases List.mem_cons.1 hx with rfl | hx
          · exact ⟨hp, v, hv⟩
          · exact e2 x hx
      | error e =>
        have hl : loop K n avail d (p :: ps) res c = (.error e, c') := by rw [loop, if_pos hp, hi]
        rw [hl]
        refine ⟨h2, by intro r h; simp at h, ?_⟩
        intro e' h
        simp only [Except.error.injEq] at h
        subst h
        exact ⟨[], p, ps, rfl, by simp, .inr ⟨hp, h1.symm⟩⟩
    · have hl : loop K n avail d (p :: ps) res c = (.error .valueError, c) := by rw [loop, if_neg hp]
      rw [hl]
      refine ⟨hg, by intro r h; simp at h, ?_⟩
      intro e h
      simp only [Except.error.injEq] at h
      exact ⟨[], p, ps, rfl, by simp, .inl ⟨hp, h.symm⟩⟩

/-! ## Theorems -/

/-- **C54** (success). After any history, `roughness_parameters(names)` returns a dictionary iff every requested name
is available and its method evaluates; the dictionary then has one entry per distinct name in order of first
occurrence, each holding what calling that method without arguments on the current heights from scratch returns. -/
theorem C54_success (K : Cls D V A) (hK : KeyFaithful K) (n : Nat) (iso avail : List String) (d : D)
    (ops : List (Op D V A)) (hr : ∀ x ∈ (specRun K n d ops).2, x ≠ .exn .recursion) (names : List String)
    (hn : ∀ p ∈ names, eval K n (bare p) (run K n (fresh d) ops).1.data ≠ .error .recursion) :
    (∀ r, (roughnessParameters K n iso avail (some names) (run K n (fresh d) ops).1).1 = .ok r →
      r.map Prod.fst = names.eraseDups ∧
      ∀ kv ∈ r, eval K n ⟨kv.1, [], []⟩ (run K n (fresh d) ops).1.data = .ok kv.2) ∧
    ((∃ r, (roughnessParameters K n iso avail (some names) (run K n (fresh d) ops).1).1 = .ok r) ↔
      ∀ p ∈ names, p ∈ avail ∧ ∃ v, eval K n ⟨p, [], []⟩ (run K n (fresh d) ops).1.data = .ok v) := by
  obtain ⟨_, h2, h3⟩ := loop_spec K hK n avail (run K n (fresh d) ops).1.data names hn [] (run K n (fresh d) ops).1.cache
    (run_ok K hK n ops (fresh d) (good_nil K _) hr).2.2 (by simp)
  refine ⟨?_, ?_, ?_⟩
  · intro r h
    obtain ⟨_, b, c⟩ := h2 r h
    refine ⟨?_, c⟩
    rw [b, after_eq]
    simp only [List.map_nil, List.nil_append]
    congr 1
    rw [List.filter_eq_self]
    simp
  · rintro ⟨r, h⟩
    exact (h2 r h).1
  · intro hall
    cases hx : (roughnessParameters K n iso avail (some names) (run K n (fresh d) ops).1).1 with
    | ok r => exact ⟨r, rfl⟩
    | error e =>
      obtain ⟨pre, p, post, e1, _, e3⟩ := h3 e hx
      obtain ⟨ha, v, hv⟩ := hall p (by rw [e1]; simp)
      rcases e3 with ⟨hna, _⟩ | ⟨_, he⟩
      · exact absurd ha hna
      · have : eval K n (bare p) (run K n (fresh d) ops).1.data = .ok v := hv
        rw [this] at he; cases he

/-- **C54** (failure). The exception raised is that of the first name in the list that is not available, a `ValueError`,
or whose method raises, its own exception. -/
theorem C54_failure (K : Cls D V A) (hK : KeyFaithful K) (n : Nat) (iso avail : List String) (d : D)
    (ops : List (Op D V A)) (hr : ∀ x ∈ (specRun K n d ops).2, x ≠ .exn .recursion) (names : List String)
    (hn : ∀ p ∈ names, eval K n (bare p) (run K n (fresh d) ops).1.data ≠ .error .recursion) (e : Err) :
    (roughnessParameters K n iso avail (some names) (run K n (fresh d) ops).1).1 = .error e ↔
      ∃ pre p post, names = pre ++ p :: post ∧
        (∀ q ∈ pre, q ∈ avail ∧ ∃ v, eval K n ⟨q, [], []⟩ (run K n (fresh d) ops).1.data = .ok v) ∧
        ((p ∉ avail ∧ e = .valueError) ∨
          (p ∈ avail ∧ eval K n ⟨p, [], []⟩ (run K n (fresh d) ops).1.data = .error e)) := by
  obtain ⟨_, h2, h3⟩ := loop_spec K hK n avail (run K n (fresh d) ops).1.data names hn [] (run K n (fresh d) ops).1.cache
    (run_ok K hK n ops (fresh d) (good_nil K _) hr).2.2 (by simp)
  refine ⟨h3 e, ?_⟩
  rintro ⟨pre, p, post, e1, e2, e3⟩
  have key : ∀ e', (roughnessParameters K n iso avail (some names) (run K n (fresh d) ops).1).1 = .error e' → e' = e := by
    intro e' h
    obtain ⟨pre', p', post', f1, f2, f3⟩ := h3 e' h
    have hsplit : pre = pre' ∧ p = p' := by
      rw [e1] at f1
      rcases List.append_eq_append_iff.1 f1 with ⟨l, hl, hr'⟩ | ⟨l, hl, hr'⟩
      · cases l with
        | nil => simp at hl hr'; exact ⟨hl.symm, hr'.1⟩
        | cons a l =>
          exfalso
          simp only [List.cons_append, List.cons.injEq] at hr'
          obtain ⟨ha, v, hv⟩ := f2 p (by rw [hl, hr'.1]; simp)
          rcases e3 with ⟨hna, _⟩ | ⟨_, he⟩
          · exact hna ha
          · have hv' : eval K n ⟨p, [], []⟩ (run K n (fresh d) ops).1.data = .ok v := hv
            rw [hv'] at he; cases he
      · cases l with
        | nil => simp at hl hr'; exact ⟨hl, hr'.1.symm⟩
        | cons a l =>
          exfalso
          simp only [List.cons_append, List.cons.injEq] at hr'
          obtain ⟨ha, v, hv⟩ := e2 p' (by rw [hl, hr'.1]; simp)
          rcases f3 with ⟨hna, _⟩ | ⟨_, he⟩
          · exact hna ha
          · have hv' : eval K n (bare p') (run K n (fresh d) ops).1.data = .ok v := hv
            rw [hv'] at he; cases he
    obtain ⟨rfl, rfl⟩ := hsplit
    rcases e3 with ⟨hna, h4⟩ | ⟨ha, h4⟩ <;> rcases f3 with ⟨hna', h5⟩ | ⟨ha', h5⟩
    · rw [h4, h5]
    · exact absurd ha' hna
    · exact absurd ha hna'
    · have h4' : eval K n (bare p) (run K n (fresh d) ops).1.data = .error e := h4
      rw [h4'] at h5; cases h5; rfl
  cases hx : (roughnessParameters K n iso avail (some names) (run K n (fresh d) ops).1).1 with
  | error e' => rw [key e' hx]
  | ok r =>
    exfalso
    obtain ⟨ha, v, hv⟩ := (h2 r hx).1 p (by rw [e1]; simp)
    rcases e3 with ⟨hna, _⟩ | ⟨_, he⟩
    · exact hna ha
    · have hv' : eval K n ⟨p, [], []⟩ (run K n (fresh d) ops).1.data = .ok v := hv
      rw [hv'] at he; cases he

/-- **C54** (no trace). Whether it returns or raises, the call leaves the heights alone, and every later method call
returns what evaluating it from scratch returns. -/
theorem C54_no_trace (K : Cls D V A) (hK : KeyFaithful K) (n : Nat) (iso avail : List String) (d : D)
    (ops : List (Op D V A)) (hr : ∀ x ∈ (specRun K n d ops).2, x ≠ .exn .recursion) (names : List String)
    (hn : ∀ p ∈ names, eval K n (bare p) (run K n (fresh d) ops).1.data ≠ .error .recursion)
    (o' : Obj D V) (ho : o' = (roughnessParameters K n iso avail (some names) (run K n (fresh d) ops).1).2) (m : Call A)
    (hm : eval K n m o'.data ≠ .error .recursion) :
    o'.data = (run K n (fresh d) ops).1.data ∧ (invoke K n m o'.data o'.cache).1 = eval K n m o'.data := by
  subst ho
  exact ⟨rfl, (invoke_ok K hK _ n m _ (loop_spec K hK n avail (run K n (fresh d) ops).1.data names hn [] (run K n (fresh d) ops).1.cache
    (run_ok K hK n ops (fresh d) (good_nil K _) hr).2.2 (by simp)).1 hm).1⟩

/-- **C54** (default). Without an argument the ISO parameters of the class are evaluated; all of them are available and
distinct, for surfaces and for profiles, so that the default never fails because of a name. -/
theorem C54_default (K : Cls D V A) (n : Nat) (iso avail : List String) (o : Obj D V) :
    roughnessParameters K n iso avail none o = roughnessParameters K n iso avail (some iso) o ∧
    (∀ p ∈ surfaceIso, p ∈ surfaceAvailable) ∧ surfaceIso.eraseDups = surfaceIso ∧
    (∀ p ∈ profileIso, p ∈ profileAvailable) ∧ profileIso.eraseDups = profileIso := by
  refine ⟨rfl, fun p hp => List.mem_append_left _ hp, by decide, fun p hp => List.mem_append_left _ hp, by decide⟩

/-! ## The documented parameters -/

/-- README.md:80-111, the parameters of surfaces that need no argument. -/
def documentedSurface : List String :=
  ["Sa", "Sq", "Sp", "Sv", "Sz", "Ssk", "Sku", "Sdr", "Sdq", "Sal", "Str", "Std", "Ssw", "Sk", "Spk", "Svk", "Spkx", "Svkx",
   "Sak1", "Sak2", "Smr1", "Smr2", "Sxp", "Sdc", "Vmp", "Vmc", "Vvv", "Vvc"]

/-- README.md:124-136, the parameters of profiles that need no argument. -/
def documentedProfile : List String :=
  ["Ra", "Rq", "Rp", "Rv", "Rz", "Rt", "Rsk", "Rku", "Rdq", "Rk", "Rpk", "Rvk", "Rpkx", "Rvkx", "Rak1", "Rak2", "Rmr1", "Rmr2",
   "Rxp", "Rdc", "Vmp", "Vmc", "Vvv", "Vvc"]

/-- README.md:143-149, the parameters of periodic surfaces, by the names of the methods. -/
def documentedPeriodic : List String := ["period", "depth", "aspect_ratio", "homogeneity", "orientation"]

/-- **C54**, as documented: without an argument exactly the parameters that the README lists for surfaces are evaluated, with
the exception of `Std`; for profiles with the exception of `Rt`, which is evaluated on request. Of the parameters of
periodic surfaces all but the orientation can be requested; so can `stepheight` and `cavity_volume`, and the period of a
profile. Nothing else can. -/
theorem C54_documented :
    (∀ p, p ∈ surfaceIso ↔ p ∈ documentedSurface ∧ p ≠ "Std") ∧
    (∀ p, p ∈ profileIso ↔ p ∈ documentedProfile ∧ p ≠ "Rt") ∧
    (∀ p, p ∈ surfaceAvailable ↔ p ∈ documentedSurface ++ documentedPeriodic ++ ["stepheight", "cavity_volume"] ∧ p ≠ "Std" ∧ p ≠ "orientation") ∧
    (∀ p, p ∈ profileAvailable ↔ p ∈ documentedProfile ++ ["period"]) := by
  refine ⟨fun p => ⟨fun h => ?_, fun h => ?_⟩, fun p => ⟨fun h => ?_, fun h => ?_⟩, fun p => ⟨fun h => ?_, fun h => ?_⟩,
    fun p => ⟨fun h => ?_, fun h => ?_⟩⟩
  · exact (show ∀ p ∈ surfaceIso, p ∈ documentedSurface ∧ p ≠ "Std" by decide +kernel) p h
  · exact (show ∀ p ∈ documentedSurface, p ≠ "Std" → p ∈ surfaceIso by decide +kernel) p h.1 h.2
  · exact (show ∀ p ∈ profileIso, p ∈ documentedProfile ∧ p ≠ "Rt" by decide +kernel) p h
  · exact (show ∀ p ∈ documentedProfile, p ≠ "Rt" → p ∈ profileIso by decide +kernel) p h.1 h.2
  · exact (show ∀ p ∈ surfaceAvailable, p ∈ documentedSurface ++ documentedPeriodic ++ ["stepheight", "cavity_volume"] ∧ p ≠ "Std" ∧ p ≠ "orientation"
      by decide +kernel) p h
  · exact (show ∀ p ∈ documentedSurface ++ documentedPeriodic ++ ["stepheight", "cavity_volume"], p ≠ "Std" → p ≠ "orientation" → p ∈ surfaceAvailable
      by decide +kernel) p h.1 h.2.1 h.2.2
  · exact (show ∀ p ∈ profileAvailable, p ∈ documentedProfile ++ ["period"] by decide +kernel) p h
  · exact (show ∀ p ∈ documentedProfile ++ ["period"], p ∈ profileAvailable by decide +kernel) p h

/-- **C54** (finding). The texture direction `Std` and the orientation are listed among the supported parameters, the class has methods
for them, but a request that names one of them is always refused with ValueError, whatever the surface; so are the
current ISO names `Smrk1` and `Smrk2` of the material ratios. -/
theorem C54_documented_refused (K : Cls D V A) (n : Nat) (o : Obj D V) (p : String)
    (hp : p ∈ ["Std", "orientation", "Smrk1", "Smrk2"]) (ps : List String) :
    (roughnessParameters K n surfaceIso surfaceAvailable (some (p :: ps)) o).1 = .error .valueError := by
  have h : ∀ p ∈ ["Std", "orientation", "Smrk1", "Smrk2"], p ∉ surfaceAvailable := by decide +kernel
  simp only [roughnessParameters, Option.getD_some, loop]
  rw [if_neg (h p hp)]

/-! ## Non-vacuity -/

/-- A class on a list of heights: `Sa` reads the heights, `Sz` calls `Sa`, `Sku` raises on empty heights. -/
private def demo : Cls (List Nat) Nat Unit where
  body c :=
    if c.name = "Sa" then .readData fun d => .ret d.sum
    else if c.name = "Sz" then .call (bare "Sa") fun v => .ret (v + 1)
    else if c.name = "Sku" then .readData fun d => if d = [] then .raise .valueError else .ret d.length
    else .raise .attributeError
  cached _ := true
  render := ⟨fun l => toString l.length, fun l => toString l.length⟩

example : KeyFaithful demo := by
  intro m m' _ hn _ _
  simp only [demo]
  rw [hn]

/-- Repeated names, both orders, a cache filled by an earlier read, an unknown name. -/
example :
    (roughnessParameters demo 5 surfaceIso surfaceAvailable (some ["Sz", "Sa", "Sz"])
      (run demo 5 (fresh [3, 4]) [.read (bare "Sa")]).1).1 = .ok [("Sz", 8), ("Sa", 7)] ∧
    (roughnessParameters demo 5 surfaceIso surfaceAvailable (some ["Sz", "Sx", "Sa"])
      (run demo 5 (fresh [3, 4]) [.read (bare "Sa")]).1).1 = .error .valueError ∧
    (∀ p ∈ ["Sz", "Sa", "Sz"], eval demo 5 (bare p) [3, 4] ≠ .error .recursion) ∧
    (∀ x ∈ (specRun demo 5 [3, 4] [.read (bare "Sa")]).2, x ≠ .exn .recursion) := by
  refine ⟨by decide, by decide, by decide, by decide⟩

end Surfalize.Props
