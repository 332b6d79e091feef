import Verif.Spec.Cache

/-! Helper lemmas for the cache properties. -/
namespace Surfalize.CacheLemmas
open Surfalize.CacheM Surfalize.CacheSpec

variable {D V A R : Type}

/-- Every entry is what evaluating any call with that key on `d` gives. -/
def Good (K : Cls D V A) (d : D) (c : Cache V) : Prop :=
  ∀ m v, K.cached m.name = true → Cache.get? c (K.render.key m) = some v → ∃ N, eval K N m d = .ok v

theorem good_nil (K : Cls D V A) (d : D) : Good K d [] := by
  intro m v _ h; simp [Cache.get?] at h

theorem evalProg_mono {f g : Call A → D → Except Err V} {d : D}
    (hfg : ∀ m, f m d ≠ .error .recursion → g m d = f m d) (p : Prog D V A R)
    (hp : evalProg f p d ≠ .error .recursion) : evalProg g p d = evalProg f p d := by
  induction p with
  | ret r => rfl
  | raise e => rfl
  | readData k ih => exact ih d hp
  | call m k ih =>
    simp only [evalProg] at hp ⊢
    cases hf : f m d with
    | ok v =>
      rw [hf] at hp
      rw [hfg m (by rw [hf]; simp), hf]
      exact ih v hp
    | error e =>
      rw [hf] at hp
      have : f m d ≠ .error .recursion := by rw [hf]; simpa using hp
      rw [hfg m this, hf]

theorem eval_succ (K : Cls D V A) (n : Nat) (m : Call A) (d : D)
    (h : eval K n m d ≠ .error .recursion) : eval K (n + 1) m d = eval K n m d := by
  induction n generalizing m with
  | zero => simp [eval] at h
  | succ n ih =>
    have : evalProg (eval K n) (K.body m) d ≠ .error .recursion := h
    exact evalProg_mono (fun m' hm' => ih m' hm') (K.body m) this

theorem eval_mono (K : Cls D V A) {n N : Nat} (hN : n ≤ N) (m : Call A) (d : D)
    (h : eval K n m d ≠ .error .recursion) : eval K N m d = eval K n m d := by
  induction hN with
  | refl => rfl
  | step _ ih => rw [eval_succ K _ m d (by rw [ih]; exact h), ih]

theorem eval_agree (K : Cls D V A) {n N : Nat} (m : Call A) (d : D)
    (h : eval K n m d ≠ .error .recursion) (H : eval K N m d ≠ .error .recursion) :
    eval K n m d = eval K N m d := by
  rcases Nat.le_total n N with h1 | h1
  · exact (eval_mono K h1 m d h).symm
  · exact eval_mono K h1 m d H

theorem eval_key (K : Cls D V A) (hK : KeyFaithful K) {m m' : Call A} (hc : K.cached m.name = true)
    (hk : K.render.key m = K.render.key m') (n : Nat) (d : D) : eval K n m d = eval K n m' d := by
  cases n with
  | zero => rfl
  | succ n => simp only [eval]; rw [hK m m' hc (congrArg Key.name hk) (congrArg Key.args hk) (congrArg Key.kwargs hk)]

theorem good_set (K : Cls D V A) (hK : KeyFaithful K) {d : D} {c : Cache V} (hg : Good K d c)
    {m : Call A} {v : V} {n : Nat} (hv : eval K n m d = .ok v) :
    Good K d (Cache.set c (K.render.key m) v) := by
  intro m' v' hc' h
  simp only [Cache.get?, Cache.set, List.lookup_cons] at h
  by_cases hk : K.render.key m' = K.render.key m
  · rw [hk] at h; simp at h; subst h
    exact ⟨n, by rw [eval_key K hK hc' hk]; exact hv⟩
  · have : (K.render.key m' == K.render.key m) = false := by simpa using hk
    rw [this] at h
    exact hg m' v' hc' h

theorem runProg_ok (K : Cls D V A) {d : D} {f : Call A → D → Except Err V}
    {g : Call A → D → Cache V → Res V V}
    (hfg : ∀ m c, Good K d c → f m d ≠ .error .recursion →
      (g m d c).1 = f m d ∧ Good K d (g m d c).2)
    (p : Prog D V A R) (c : Cache V) (hc : Good K d c) (hp : evalProg f p d ≠ .error .recursion) :
    (runProg g p d c).1 = evalProg f p d ∧ Good K d (runProg g p d c).2 := by
  induction p generalizing c with
  | ret r => exact ⟨rfl, hc⟩
  | raise e => exact ⟨rfl, hc⟩
  | readData k ih => exact ih d c hc hp
  | call m k ih =>
    simp only [evalProg, runProg] at hp ⊢
    cases hf : f m d with
    | ok v =>
      rw [hf] at hp
      obtain ⟨h1, h2⟩ := hfg m c hc (by rw [hf]; simp)
      rcases hg : g m d c with ⟨r, c'⟩
      rw [hg] at h1 h2
      simp only at h1 h2
      rw [hf] at h1
      subst h1
      exact ih v c' h2 hp
    | error e =>
      rw [hf] at hp
      obtain ⟨h1, h2⟩ := hfg m c hc (by rw [hf]; simpa using hp)
      rcases hg : g m d c with ⟨r, c'⟩
      rw [hg] at h1 h2
      simp only at h1 h2
      rw [hf] at h1
      subst h1
      exact ⟨rfl, h2⟩

theorem invoke_ok (K : Cls D V A) (hK : KeyFaithful K) (d : D) (n : Nat) (m : Call A) (c : Cache V)
    (hc : Good K d c) (hr : eval K n m d ≠ .error .recursion) :
    (invoke K n m d c).1 = eval K n m d ∧ Good K d (invoke K n m d c).2 := by
  induction n generalizing m c with
  | zero => simp [eval] at hr
  | succ n ih =>
    have hbody := runProg_ok K (f := eval K n) (g := invoke K n) (d := d)
      (fun m c hc hr => ih m c hc hr) (K.body m) c hc hr
    by_cases hcd : K.cached m.name = true
    · simp only [invoke, hcd, if_true]
      cases hl : Cache.get? c (K.render.key m) with
      | some v =>
        obtain ⟨N, hN⟩ := hc m v hcd hl
        refine ⟨?_, hc⟩
        rw [eval_agree K m d hr (N := N) (by rw [hN]; simp), hN]
      | none =>
        rcases hrun : runProg (invoke K n) (K.body m) d c with ⟨r, c'⟩
        rw [hrun] at hbody
        obtain ⟨h1, h2⟩ := hbody
        simp only at h1 h2
        have he : eval K (n + 1) m d = r := h1.symm
        cases r with
        | ok v => exact ⟨he.symm, good_set K hK h2 he⟩
        | error e => exact ⟨he.symm, h2⟩
    · simp only [invoke, hcd]
      exact hbody

theorem step_ok (K : Cls D V A) (hK : KeyFaithful K) (n : Nat) (o : Obj D V) (op : Op D V A)
    (hg : Good K o.data o.cache) (hr : (specStep K n o.data op).2 ≠ .exn .recursion) :
    (step K n o op).2 = (specStep K n o.data op).2 ∧
    (step K n o op).1.data = (specStep K n o.data op).1 ∧
    Good K (step K n o op).1.data (step K n o op).1.cache := by
  cases op with
  | read m =>
    simp only [specStep] at hr ⊢
    have hne : eval K n m o.data ≠ .error .recursion := by
      intro h; rw [h] at hr; exact hr rfl
    have h := invoke_ok K hK o.data n m o.cache hg hne
    simp only [step]
    rcases hi : invoke K n m o.data o.cache with ⟨r, c⟩
    rw [hi] at h
    obtain ⟨h1, h2⟩ := h
    simp only at h1 h2
    cases r with
    | ok v => rw [← h1]; exact ⟨rfl, rfl, h2⟩
    | error e => rw [← h1]; exact ⟨rfl, rfl, h2⟩
  | assign d => exact ⟨rfl, rfl, good_nil K _⟩
  | setitem f =>
    simp only [specStep, step]
    cases f o.data with
    | ok d => exact ⟨rfl, rfl, good_nil K _⟩
    | error e => exact ⟨rfl, rfl, hg⟩
  | inplace p =>
    simp only [specStep] at hr ⊢
    have hne : evalProg (eval K n) p o.data ≠ .error .recursion := by
      intro h; rw [h] at hr; exact hr rfl
    have h := runProg_ok K (f := eval K n) (g := invoke K n) (d := o.data)
      (fun m c hc hr => invoke_ok K hK o.data n m c hc hr) p o.cache hg hne
    simp only [step]
    rcases hi : runProg (invoke K n) p o.data o.cache with ⟨r, c⟩
    rw [hi] at h
    obtain ⟨h1, h2⟩ := h
    simp only at h1 h2
    cases r with
    | ok v => rw [← h1]; exact ⟨rfl, rfl, good_nil K _⟩
    | error e => rw [← h1]; exact ⟨rfl, rfl, h2⟩
  | clear => exact ⟨rfl, rfl, good_nil K _⟩

theorem run_ok (K : Cls D V A) (hK : KeyFaithful K) (n : Nat) (ops : List (Op D V A)) (o : Obj D V)
    (hg : Good K o.data o.cache) (hr : ∀ x ∈ (specRun K n o.data ops).2, x ≠ .exn .recursion) :
    (run K n o ops).2 = (specRun K n o.data ops).2 ∧
    (run K n o ops).1.data = (specRun K n o.data ops).1 ∧
    Good K (run K n o ops).1.data (run K n o ops).1.cache := by
  induction ops generalizing o with
  | nil => exact ⟨rfl, rfl, hg⟩
  | cons op ops ih =>
    simp only [specRun, run] at hr ⊢
    have h1 := step_ok K hK n o op hg (hr _ (by simp))
    rcases hs : step K n o op with ⟨o', out⟩
    rw [hs] at h1
    obtain ⟨h1a, h1b, h1c⟩ := h1
    simp only at h1a h1b h1c
    rw [← h1b] at hr ⊢
    have h2 := ih o' h1c (fun x hx => hr x (by simp [hx]))
    obtain ⟨h2a, h2b, h2c⟩ := h2
    exact ⟨by simp only; rw [h2a, h1a], h2b, h2c⟩

/-- `c'` still answers every look-up that `c` answers, with the same value. -/
def Extends {V : Type} (c c' : Cache V) : Prop :=
  ∀ k v, Cache.get? c k = some v → Cache.get? c' k = some v

theorem extends_runProg {g : Call A → D → Cache V → Res V V} {d : D}
    (hg : ∀ m c, Extends c (g m d c).2) (p : Prog D V A R) (c : Cache V) :
    Extends c (runProg g p d c).2 := by
  induction p generalizing c with
  | ret r => exact fun _ _ h => h
  | raise e => exact fun _ _ h => h
  | readData k ih => exact ih d c
  | call m k ih =>
    simp only [runProg]
    have h1 := hg m c
    rcases hgm : g m d c with ⟨r, c'⟩
    rw [hgm] at h1
    cases r with
    | ok v => exact fun k' v' h => ih v c' k' v' (h1 k' v' h)
    | error e => exact h1

end Surfalize.CacheLemmas
