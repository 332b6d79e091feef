import Verif.Spec.Analysis
import Verif.Lemmas.Cache
import Verif.Props.Fourier
import Verif.Props.Abbott

/-!
# C107: analysis objects describe the surface
-/
set_option linter.unusedSectionVars false
namespace Surfalize.Props
open Surfalize CacheM CacheSpec CacheLemmas Analysis AnalysisSpec

section Generic
variable {D S V A : Type}

/-! ## Lemmas -/

/-- Object `i` is up to date. -/
def Current (T : Tool D S V A) (w : Analysis.World D S V) (i : Nat) : Prop :=
  ∃ v, w.views[i]? = some v ∧ T.build w.state = .ok v.snap ∧ Good T.cls (v.snap, w.state) v.cache

structure AInv (T : Tool D S V A) (F : Face A) (n : Nat) (w : Analysis.World D S V) : Prop where
  slot : ∀ i, w.slot = some i → Current T w i
  params : ∀ c v, F.cached c.name = true → Cache.get? w.params (F.render.key c) = some v → answer T n w.state (F.deleg c) = .ok v

theorem get_current {T : Tool D S V A} {w : Analysis.World D S V} (hs : ∀ i, w.slot = some i → Current T w i) :
    (∃ e, Analysis.get T w = (w, .error e) ∧ T.build w.state = .error e) ∨
      ∃ w' i, Analysis.get T w = (w', .ok i) ∧ w'.state = w.state ∧ w'.params = w.params ∧ w'.slot = some i ∧ Current T w' i ∧
        ∀ j, Current T w j → Current T w' j := by
  unfold Analysis.get
  cases h : w.slot with
  | some i => exact .inr ⟨w, i, rfl, rfl, rfl, h, hs i h, fun _ h => h⟩
  | none =>
    dsimp only
    cases hb : T.build w.state with
    | error e => exact .inl ⟨e, rfl, rfl⟩
    | ok s =>
      refine .inr ⟨_, _, rfl, rfl, rfl, rfl, ⟨⟨s, []⟩, by simp, hb, good_nil _ _⟩, ?_⟩
      rintro j ⟨v, hv, h1, h2⟩
      exact ⟨v, by rw [List.getElem?_append_left (List.getElem?_eq_some_iff.1 hv).1]; exact hv, h1, h2⟩

theorem ask_current {T : Tool D S V A} (hK : KeyFaithful T.cls) {n : Nat} (hn : Shallow T n) {w : Analysis.World D S V} {i : Nat}
    (hi : Current T w i) (m : Call A) :
    (ask T n w i m).2 = answer T n w.state m ∧ ∀ j, Current T w j → Current T (ask T n w i m).1 j := by
  obtain ⟨v, hv, hb, hg⟩ := hi
  have h := invoke_ok T.cls hK (v.snap, w.state) n m v.cache hg (hn _ _)
  unfold ask
  rw [hv]
  dsimp only
  refine ⟨by rw [h.1]; unfold answer; rw [hb], ?_⟩
  rintro j ⟨u, hu, h1, h2⟩
  by_cases hij : i = j
  · subst hij
    refine ⟨⟨v.snap, (invoke T.cls n m (v.snap, w.state) v.cache).2⟩, ?_, hb, h.2⟩
    rw [List.getElem?_set_self (List.getElem?_eq_some_iff.1 hv).1]
  · exact ⟨u, by rw [List.getElem?_set_ne hij]; exact hu, h1, h2⟩

theorem ask_other {T : Tool D S V A} {n : Nat} {w : Analysis.World D S V} (i : Nat) (m : Call A) :
    (ask T n w i m).1.state = w.state ∧ (ask T n w i m).1.slot = w.slot ∧ (ask T n w i m).1.params = w.params := by
  unfold ask
  cases w.views[i]? with
  | none => exact ⟨rfl, rfl, rfl⟩
  | some v => exact ⟨rfl, rfl, rfl⟩

/-- Asking any object keeps every up-to-date object up to date. -/
theorem ask_keeps {T : Tool D S V A} (hK : KeyFaithful T.cls) {n : Nat} (hn : Shallow T n) {w : Analysis.World D S V} (i : Nat) (m : Call A)
    {j : Nat} (hj : Current T w j) : Current T (ask T n w i m).1 j := by
  by_cases hij : i = j
  · subst hij
    exact (ask_current hK hn hj m).2 i hj
  · obtain ⟨u, hu, h1, h2⟩ := hj
    unfold ask
    cases hv : w.views[i]? with
    | none => exact ⟨u, hu, h1, h2⟩
    | some v => exact ⟨u, by dsimp only; rw [List.getElem?_set_ne hij]; exact hu, h1, h2⟩

theorem param_ok {T : Tool D S V A} {F : Face A} (hK : KeyFaithful T.cls) (hF : FaceFaithful F) {n : Nat} (hn : Shallow T n)
    {w : Analysis.World D S V} (hw : AInv T F n w) (c : Call A) :
    (param T F n w c).2 = answer T n w.state (F.deleg c) ∧ (param T F n w c).1.state = w.state ∧ AInv T F n (param T F n w c).1 ∧
      ∀ j, Current T w j → Current T (param T F n w c).1 j := by
  unfold param
  cases hc : (if F.cached c.name then Cache.get? w.params (F.render.key c) else none) with
  | some v =>
    dsimp only
    split at hc
    · rename_i hcc
      exact ⟨(hw.params c v hcc hc).symm, rfl, hw, fun _ h => h⟩
    · cases hc
  | none =>
    dsimp only
    rcases get_current hw.slot with ⟨e, h1, h2⟩ | ⟨w', i, h1, h2, h3, h4, h5, h6⟩
    · rw [h1]
      dsimp only
      exact ⟨by unfold answer; rw [h2], rfl, hw, fun _ h => h⟩
    · rw [h1]
      dsimp only
      have hq := ask_current hK hn h5 (F.deleg c)
      have ho := ask_other (T := T) (n := n) (w := w') i (F.deleg c)
      rcases ha : ask T n w' i (F.deleg c) with ⟨w'', r⟩
      rw [ha] at hq ho
      dsimp only at hq ho
      have hbase : AInv T F n w'' := by
        refine ⟨fun k hk => ?_, fun d v hd hv => ?_⟩
        · rw [ho.2.1, h4] at hk
          injection hk with hk
          subst hk
          exact hq.2 i h5
        · rw [ho.2.2, h3] at hv
          rw [ho.1, h2]
          exact hw.params d v hd hv
      rw [h2] at hq
      cases r with
      | error e => exact ⟨hq.1, ho.1.trans h2, hbase, fun j hj => hq.2 j (h6 j hj)⟩
      | ok v =>
        dsimp only
        refine ⟨hq.1, ?_, ?_, ?_⟩
        · split
          · exact ho.1.trans h2
          · exact ho.1.trans h2
        · split
          · rename_i hcc
            refine ⟨fun k hk => hbase.slot k hk, fun d u hd hu => ?_⟩
            dsimp only at hu ⊢
            simp only [Cache.get?, Cache.set, List.lookup_cons] at hu
            by_cases hk : F.render.key d = F.render.key c
            · rw [hk] at hu
              simp at hu
              subst hu
              rw [hF d c hd hk, ho.1, h2]
              exact hq.1.symm
            · have : (F.render.key d == F.render.key c) = false := by simpa using hk
              rw [this] at hu
              exact hbase.params d u hd hu
          · exact hbase
        · intro j hj
          split
          · exact hq.2 j (h6 j hj)
          · exact hq.2 j (h6 j hj)

theorem step_inv {T : Tool D S V A} {F : Face A} (hK : KeyFaithful T.cls) (hF : FaceFaithful F) {n : Nat} (hn : Shallow T n)
    {w : Analysis.World D S V} (hw : AInv T F n w) (op : Analysis.Op D A) : AInv T F n (Analysis.step T F n w op).1 := by
  cases op with
  | get =>
    rcases get_current hw.slot with ⟨e, h1, h2⟩ | ⟨w', i, h1, h2, h3, h4, h5, h6⟩
    · simp only [Analysis.step, h1]; exact hw
    · simp only [Analysis.step, h1]
      refine ⟨fun k hk => ?_, fun d v hd hv => ?_⟩
      · rw [h4] at hk; injection hk with hk; subst hk; exact h5
      · rw [h3] at hv; rw [h2]; exact hw.params d v hd hv
  | ask i m =>
    have ho := ask_other (T := T) (n := n) (w := w) i m
    refine ⟨fun k hk => ?_, fun d v hd hv => ?_⟩
    · exact ask_keeps hK hn i m (hw.slot k (by rw [← ho.2.1]; exact hk))
    · have hv' : Cache.get? w.params (F.render.key d) = some v := by rw [← ho.2.2]; exact hv
      show answer T n (ask T n w i m).1.state _ = _
      rw [ho.1]
      exact hw.params d v hd hv'
  | param c => exact (param_ok hK hF hn hw c).2.2.1
  | change f =>
    cases hf : f w.state with
    | error e => simp only [Analysis.step, hf]; exact hw
    | ok d => simp only [Analysis.step, hf]; exact ⟨fun k hk => (by cases hk), fun c v _ hv => (by simp [Cache.get?] at hv)⟩
  | clear => simp only [Analysis.step]; exact ⟨fun k hk => (by cases hk), fun c v _ hv => (by simp [Cache.get?] at hv)⟩

theorem run_inv {T : Tool D S V A} {F : Face A} (hK : KeyFaithful T.cls) (hF : FaceFaithful F) {n : Nat} (hn : Shallow T n)
    (ops : List (Analysis.Op D A)) {w : Analysis.World D S V} (hw : AInv T F n w) : AInv T F n (Analysis.run T F n w ops).1 := by
  induction ops generalizing w with
  | nil => exact hw
  | cons op ops ih => exact ih (step_inv hK hF hn hw op)

theorem fresh_inv (T : Tool D S V A) (F : Face A) (n : Nat) (d : D) : AInv T F n (Analysis.fresh d) :=
  ⟨fun _ h => (by cases h), fun _ _ _ h => (by simp [Analysis.fresh, Cache.get?] at h)⟩

theorem step_keeps {T : Tool D S V A} {F : Face A} (hK : KeyFaithful T.cls) (hF : FaceFaithful F) {n : Nat} (hn : Shallow T n)
    {w : Analysis.World D S V} (hw : AInv T F n w) (op : Analysis.Op D A) (hop : KeepsHeights op) :
    (Analysis.step T F n w op).1.state = w.state ∧ ∀ j, Current T w j → Current T (Analysis.step T F n w op).1 j := by
  cases op with
  | get =>
    rcases get_current hw.slot with ⟨e, h1, h2⟩ | ⟨w', i, h1, h2, h3, h4, h5, h6⟩
    · simp only [Analysis.step, h1]; exact ⟨trivial, fun _ h => h⟩
    · simp only [Analysis.step, h1]; exact ⟨h2, h6⟩
  | ask i m => exact ⟨(ask_other i m).1, fun j hj => ask_keeps hK hn i m hj⟩
  | param c => exact ⟨(param_ok hK hF hn hw c).2.1, (param_ok hK hF hn hw c).2.2.2⟩
  | change f => exact hop.elim
  | clear => exact ⟨rfl, fun _ h => h⟩

theorem run_keeps {T : Tool D S V A} {F : Face A} (hK : KeyFaithful T.cls) (hF : FaceFaithful F) {n : Nat} (hn : Shallow T n)
    (ops : List (Analysis.Op D A)) (hops : ∀ op ∈ ops, KeepsHeights op) {w : Analysis.World D S V} (hw : AInv T F n w) :
    (Analysis.run T F n w ops).1.state = w.state ∧ ∀ j, Current T w j → Current T (Analysis.run T F n w ops).1 j := by
  induction ops generalizing w with
  | nil => exact ⟨rfl, fun _ h => h⟩
  | cons op ops ih =>
    have h1 := step_keeps hK hF hn hw op (hops op (by simp))
    have h2 := ih (fun o ho => hops o (by simp [ho])) (step_inv hK hF hn hw op)
    exact ⟨h2.1.trans h1.1, fun j hj => h2.2 j (h1.2 j hj)⟩

end Generic

/-! ## The property -/

section Main
variable {D S V A : Type}

/-- **C107** (parameters of the surface). After any history of making analysis objects, asking them, reading parameters, storing heights and
clearing the cache, a parameter that the surface takes from an analysis object has the value that a new object for the present
heights and steps gives, or raises what that raises. -/
theorem C107_params (T : Tool D S V A) (F : Face A) (hK : KeyFaithful T.cls) (hF : FaceFaithful F) {n : Nat} (hn : Shallow T n) (d : D)
    (ops : List (Analysis.Op D A)) (c : Call A) :
    (Analysis.step T F n (Analysis.run T F n (Analysis.fresh d) ops).1 (.param c)).2 =
      Out.ofVal (answer T n (Analysis.run T F n (Analysis.fresh d) ops).1.state (F.deleg c)) := by
  rw [← (param_ok hK hF hn (run_inv hK hF hn ops (fresh_inv T F n d)) c).1]
  rfl

/-- **C107** (objects, as long as the heights stay). An object handed out after any history answers every question as a new object for the
heights of that moment would, whatever else is asked or read in between, until heights are stored. -/
theorem C107_held_partial (T : Tool D S V A) (F : Face A) (hK : KeyFaithful T.cls) (hF : FaceFaithful F) {n : Nat} (hn : Shallow T n) (d : D)
    (ops ops' : List (Analysis.Op D A)) (i : Nat)
    (hi : (Analysis.step T F n (Analysis.run T F n (Analysis.fresh d) ops).1 .get).2 = .object i)
    (hops : ∀ op ∈ ops', KeepsHeights op) (m : Call A) :
    (Analysis.step T F n (Analysis.run T F n (Analysis.step T F n (Analysis.run T F n (Analysis.fresh d) ops).1 .get).1 ops').1 (.ask i m)).2 =
      Out.ofVal (answer T n (Analysis.run T F n (Analysis.fresh d) ops).1.state m) := by
  have hw := run_inv hK hF hn ops (fresh_inv T F n d)
  generalize (Analysis.run T F n (Analysis.fresh d) ops).1 = w at hi hw ⊢
  have hw1 := step_inv hK hF hn hw .get
  have hst := (step_keeps hK hF hn hw .get trivial).1
  have hcur : Current T (Analysis.step T F n w .get).1 i := by
    rcases get_current hw.slot with ⟨e, h1, h2⟩ | ⟨w', k, h1, h2, h3, h4, h5, h6⟩
    · simp only [Analysis.step, h1] at hi; cases hi
    · simp only [Analysis.step, h1] at hi ⊢; injection hi with hi; subst hi; exact h5
  have hr := run_keeps hK hF hn ops' hops hw1
  have := (ask_current hK hn (hr.2 i hcur) m).1
  show Out.ofVal (ask T n _ i m).2 = _
  rw [this, hr.1, hst]

theorem slot_step (T : Tool D S V A) (F : Face A) (n : Nat) (w : Analysis.World D S V) {i : Nat} (h : w.slot = some i) (op : Analysis.Op D A)
    (hop : KeepsCache op) : (Analysis.step T F n w op).1.slot = some i := by
  have hg : Analysis.get T w = (w, .ok i) := by unfold Analysis.get; rw [h]
  cases op with
  | get => simp only [Analysis.step, hg]; exact h
  | ask j m => exact (ask_other j m).2.1.trans h
  | param c =>
    show (param T F n w c).1.slot = some i
    unfold param
    split
    · exact h
    · rw [hg]
      dsimp only
      have h2 := (ask_other (T := T) (n := n) (w := w) i (F.deleg c)).2.1
      rcases ha : ask T n w i (F.deleg c) with ⟨w'', r⟩
      rw [ha] at h2
      cases r with
      | error e => exact h2.trans h
      | ok v =>
        dsimp only
        split
        · exact h2.trans h
        · exact h2.trans h
  | change f => exact hop.elim
  | clear => exact hop.elim

/-- **C107** (the same object). As long as no heights are stored and the cache is not cleared, the surface hands out the same object. -/
theorem C107_same (T : Tool D S V A) (F : Face A) (n : Nat) (w w' : Analysis.World D S V) (i : Nat)
    (hi : Analysis.step T F n w .get = (w', .object i)) (ops : List (Analysis.Op D A)) (hops : ∀ op ∈ ops, KeepsCache op) :
    (Analysis.step T F n (Analysis.run T F n w' ops).1 .get).2 = .object i := by
  have h0 : w'.slot = some i := by
    unfold Analysis.step Analysis.get at hi
    cases hs : w.slot with
    | some k =>
      rw [hs] at hi
      simp only [Prod.mk.injEq, Out.object.injEq] at hi
      rw [← hi.1, hs, hi.2]
    | none =>
      rw [hs] at hi
      dsimp only at hi
      cases hb : T.build w.state with
      | error e => rw [hb] at hi; simp at hi
      | ok s =>
        rw [hb] at hi
        simp only [Prod.mk.injEq, Out.object.injEq] at hi
        rw [← hi.1, ← hi.2]
  have h1 : (Analysis.run T F n w' ops).1.slot = some i := by
    clear hi
    induction ops generalizing w' with
    | nil => exact h0
    | cons op ops ih =>
      exact ih _ (fun o ho => hops o (by simp [ho])) (slot_step T F n w' h0 op (hops op (by simp)))
  simp only [Analysis.step, Analysis.get, h1]

/-! ## Objects kept after the heights have changed -/

theorem extends_invoke (K : Cls D V A) (n : Nat) (m : Call A) (d : D) (c : Cache V) : CacheLemmas.Extends c (invoke K n m d c).2 := by
  induction n generalizing m c with
  | zero => exact fun _ _ h => h
  | succ n ih =>
    have hb := extends_runProg (g := invoke K n) (d := d) (fun m c => ih m c) (K.body m) c
    simp only [invoke]
    split
    · cases hl : Cache.get? c (K.render.key m) with
      | some v => exact fun _ _ h => h
      | none =>
        dsimp only
        rcases hr : runProg (invoke K n) (K.body m) d c with ⟨r, c'⟩
        rw [hr] at hb
        cases r with
        | error e => exact hb
        | ok v =>
          intro k u hu
          have h2 := hb k u hu
          by_cases hk : k = K.render.key m
          · rw [hk, hl] at hu; cases hu
          · have hkk : (k == K.render.key m) = false := by simpa using hk
            simp only [Cache.get?, Cache.set, List.lookup_cons, hkk]
            exact h2
    · exact hb

/-- Object `i` remembers what it knew. -/
def Remembers (i : Nat) (w w' : Analysis.World D S V) : Prop :=
  ∀ v, w.views[i]? = some v → ∃ v', w'.views[i]? = some v' ∧ v'.snap = v.snap ∧ CacheLemmas.Extends v.cache v'.cache

theorem remembers_refl (i : Nat) (w : Analysis.World D S V) : Remembers i w w := fun v h => ⟨v, h, rfl, fun _ _ h => h⟩

theorem remembers_trans {i : Nat} {u v w : Analysis.World D S V} (h1 : Remembers i u v) (h2 : Remembers i v w) : Remembers i u w := by
  intro x hx
  obtain ⟨y, hy, e1, g1⟩ := h1 x hx
  obtain ⟨z, hz, e2, g2⟩ := h2 y hy
  exact ⟨z, hz, e2.trans e1, fun k v h => g2 k v (g1 k v h)⟩

theorem remembers_ask (T : Tool D S V A) (n : Nat) (w : Analysis.World D S V) (i j : Nat) (m : Call A) : Remembers i w (ask T n w j m).1 := by
  intro v hv
  unfold ask
  by_cases hij : j = i
  · subst hij
    rw [hv]
    dsimp only
    exact ⟨_, List.getElem?_set_self (List.getElem?_eq_some_iff.1 hv).1, rfl, extends_invoke _ _ _ _ _⟩
  · cases hj : w.views[j]? with
    | none => exact ⟨v, hv, rfl, fun _ _ h => h⟩
    | some u => exact ⟨v, by dsimp only; rw [List.getElem?_set_ne hij]; exact hv, rfl, fun _ _ h => h⟩

theorem remembers_get (T : Tool D S V A) (w : Analysis.World D S V) (i : Nat) : Remembers i w (Analysis.get T w).1 := by
  intro v hv
  unfold Analysis.get
  cases w.slot with
  | some k => exact ⟨v, hv, rfl, fun _ _ h => h⟩
  | none =>
    dsimp only
    cases T.build w.state with
    | error e => exact ⟨v, hv, rfl, fun _ _ h => h⟩
    | ok s =>
      refine ⟨v, ?_, rfl, fun _ _ h => h⟩
      dsimp only
      rw [List.getElem?_append_left (List.getElem?_eq_some_iff.1 hv).1]
      exact hv

theorem remembers_step (T : Tool D S V A) (F : Face A) (n : Nat) (w : Analysis.World D S V) (i : Nat) (op : Analysis.Op D A) :
    Remembers i w (Analysis.step T F n w op).1 := by
  cases op with
  | get =>
    have h := remembers_get T w i
    unfold Analysis.step
    rcases hg : Analysis.get T w with ⟨w', r⟩
    rw [hg] at h
    cases r <;> exact h
  | ask j m => exact remembers_ask T n w i j m
  | param c =>
    show Remembers i w (param T F n w c).1
    unfold param
    split
    · exact remembers_refl i w
    · have h := remembers_get T w i
      rcases hg : Analysis.get T w with ⟨w', r⟩
      rw [hg] at h
      cases r with
      | error e => exact h
      | ok j =>
        dsimp only
        have h2 := remembers_ask T n w' i j (F.deleg c)
        rcases ha : ask T n w' j (F.deleg c) with ⟨w'', r⟩
        rw [ha] at h2
        cases r with
        | error e => exact remembers_trans h h2
        | ok v =>
          dsimp only
          split
          · exact remembers_trans h h2
          · exact remembers_trans h h2
  | change f =>
    cases hf : f w.state with
    | error e => simp only [Analysis.step, hf]; exact remembers_refl i w
    | ok d => simp only [Analysis.step, hf]; exact fun v hv => ⟨v, hv, rfl, fun _ _ h => h⟩
  | clear => exact fun v hv => ⟨v, hv, rfl, fun _ _ h => h⟩

theorem remembers_run (T : Tool D S V A) (F : Face A) (n : Nat) (w : Analysis.World D S V) (i : Nat) (ops : List (Analysis.Op D A)) :
    Remembers i w (Analysis.run T F n w ops).1 := by
  induction ops generalizing w with
  | nil => exact remembers_refl i w
  | cons op ops ih => exact remembers_trans (remembers_step T F n w i op) (ih _)

/-- **C107** (what an object has answered it answers for ever). An answer once given by a cached method of an analysis object is repeated
after every history, also after the heights have changed and after the surface's cache has been cleared. -/
theorem C107_stale (T : Tool D S V A) (F : Face A) (n : Nat) (w : Analysis.World D S V) (i : Nat) (m : Call A) (v : V)
    (hc : T.cls.cached m.name = true) (h : (ask T (n + 1) w i m).2 = .ok v) (ops : List (Analysis.Op D A)) :
    (ask T (n + 1) (Analysis.run T F (n + 1) (ask T (n + 1) w i m).1 ops).1 i m).2 = .ok v := by
  cases hv : w.views[i]? with
  | none => unfold ask at h; rw [hv] at h; cases h
  | some u =>
    have key : ∃ u', (ask T (n + 1) w i m).1.views[i]? = some u' ∧ Cache.get? u'.cache (T.cls.render.key m) = some v := by
      unfold ask at h ⊢
      rw [hv] at h ⊢
      dsimp only at h ⊢
      refine ⟨_, List.getElem?_set_self (List.getElem?_eq_some_iff.1 hv).1, ?_⟩
      dsimp only
      simp only [invoke, hc, if_true] at h ⊢
      cases hl : Cache.get? u.cache (T.cls.render.key m) with
      | some x => rw [hl] at h; simp only at h ⊢; rw [hl]; simpa using h
      | none =>
        rw [hl] at h
        dsimp only at h ⊢
        rcases hp : runProg (invoke T.cls n) (T.cls.body m) (u.snap, w.state) u.cache with ⟨r, c'⟩
        rw [hp] at h
        cases r with
        | ok x => simp only at h ⊢; cases h; simp [Cache.get?, Cache.set]
        | error e => simp at h
    obtain ⟨u', h1, h2⟩ := key
    obtain ⟨u'', h3, -, h4⟩ := remembers_run T F (n + 1) _ i ops u' h1
    generalize (Analysis.run T F (n + 1) (ask T (n + 1) w i m).1 ops).1 = w' at h3 ⊢
    unfold ask
    rw [h3]
    dsimp only
    simp only [invoke, hc, if_true, h4 _ _ h2]

/-- **C107** (what an object has not been asked it takes from the present surface). A new object, first asked after the heights have changed,
mixes: it evaluates on what it computed when it was made together with the surface as it is now. -/
theorem C107_mixed (T : Tool D S V A) (F : Face A) (hK : KeyFaithful T.cls) {n : Nat} (hn : Shallow T n) (d d' : D) (s : S)
    (hs : T.build d = .ok s) (m : Call A) :
    (Analysis.run T F n (Analysis.fresh d) [.get, .change fun _ => .ok d', .ask 0 m]).2 =
      [.object 0, .done, Out.ofVal (eval T.cls n m (s, d'))] := by
  have hg : Analysis.step T F n (Analysis.fresh d) .get = (⟨d, some 0, [], [⟨s, []⟩]⟩, .object 0) := by
    simp [Analysis.step, Analysis.get, Analysis.fresh, hs]
  simp only [Analysis.run, hg]
  simp [Analysis.step, ask, (invoke_ok T.cls hK (s, d') n m [] (good_nil _ _) (hn _ _)).1]

end Main

/-! ## The three classes -/

theorem render_eq {A : Type} {R : Render A} (hR : Injective R) {m m' : Call A} (hn : m.name = m'.name) (ha : R.strArgs m.args = R.strArgs m'.args)
    (hk : R.strKwargs m.kwargs = R.strKwargs m'.kwargs) : m = m' := by
  cases m
  cases m'
  simp only at hn ha hk
  rw [hn, hR.args _ _ ha, hR.kwargs _ _ hk]

theorem fourier_faithful (argsort : Fourier.Argsort) (g : String → Topo → Val) {R : Render Arg} (hR : Injective R) :
    KeyFaithful (fourierTool argsort g R).cls := fun _ _ _ hn ha hk => by rw [render_eq hR hn ha hk]

theorem acf_faithful (line : Autocorr.LineInterp) {R : Render Arg} (hR : Injective R) : KeyFaithful (acfTool line R).cls :=
  fun _ _ _ hn ha hk => by rw [render_eq hR hn ha hk]

theorem face_faithful {A : Type} {F : Face A} (hR : Injective F.render) : FaceFaithful F := by
  intro c c' _ h
  rw [render_eq hR (congrArg Key.name h) (congrArg Key.args h) (congrArg Key.kwargs h)]

theorem eval_two {D V A : Type} (K : Cls D V A) (n : Nat) (m : Call A) (d : D) :
    eval K (n + 2) m d = evalProg (fun m d => evalProg (eval K n) (K.body m) d) (K.body m) d := rfl

/-- A body without calls that does not itself raise RecursionError. -/
def Plain {D V A R : Type} : Prog D V A R → Prop
  | .ret _ => True
  | .raise e => e ≠ .recursion
  | .readData k => ∀ d, Plain (k d)
  | .call _ _ => False

theorem plain_eval {D V A R : Type} {p : Prog D V A R} (hp : Plain p) (f : Call A → D → Except Err V) (d : D) :
    evalProg f p d ≠ .error .recursion := by
  induction p with
  | ret r => intro h; cases h
  | raise e => intro h; injection h with h; exact hp h
  | readData k ih => exact ih d (hp d)
  | call m k ih => exact hp.elim

/-- A body that calls at most one method with a plain body and continues plainly. -/
def Flat1 {D V A R : Type} (K : Cls D V A) : Prog D V A R → Prop
  | .call m k => Plain (K.body m) ∧ ∀ v, Plain (k v)
  | p => Plain p

theorem shallow_of_flat {D S V A : Type} (T : Tool D S V A) (h : ∀ m, Flat1 T.cls (T.cls.body m)) (n : Nat) : Shallow T (n + 2) := by
  intro m sd
  have hm := h m
  show evalProg (eval T.cls (n + 1)) (T.cls.body m) sd ≠ _
  cases hb : T.cls.body m with
  | ret r => rw [hb] at hm; exact plain_eval hm _ _
  | raise e => rw [hb] at hm; exact plain_eval hm _ _
  | readData k => rw [hb] at hm; exact plain_eval hm _ _
  | call q k =>
    rw [hb] at hm
    simp only [evalProg]
    have h1 : eval T.cls (n + 1) q sd ≠ .error .recursion := plain_eval hm.1 _ _
    cases he : eval T.cls (n + 1) q sd with
    | ok v => exact plain_eval (hm.2 v) _ _
    | error e => rw [he] at h1; exact h1

theorem peakDxDy_not_recursion (argsort : Fourier.Argsort) (g : Grid (Option ℝ)) (W H : ℝ) : Fourier.peakDxDy argsort g W H ≠ .error .recursion := by
  unfold Fourier.peakDxDy
  split
  · intro h; cases h
  · split
    · intro h; cases h
    · split
      · intro h; cases h
      · intro h; cases h

theorem fourier_peak_plain (argsort : Fourier.Argsort) (g : String → Topo → Val) (a : List Arg) (b : List (String × Arg)) :
    Plain (fourierBody argsort g ⟨"_get_peak_dx_dy", a, b⟩) := by
  intro st
  dsimp only
  split
  · trivial
  · cases h : Fourier.peakDxDy argsort st.2.grid st.2.width st.2.height with
    | ok p => trivial
    | error e => rintro rfl; exact peakDxDy_not_recursion _ _ _ _ h

theorem fourier_angular_plain (argsort : Fourier.Argsort) (g : String → Topo → Val) (a : List Arg) (b : List (String × Arg)) :
    Plain (fourierBody argsort g ⟨"_angular_spectrum", a, b⟩) := by
  simp only [fourierBody]
  rw [if_neg (by decide), if_neg (by decide), if_neg (by decide), if_neg (by decide), if_neg (by decide), if_pos trivial]
  split
  · intro st
    dsimp only
    split
    · trivial
    · split
      · trivial
      · rename_i e h
        unfold Fourier.angularSpectrum at h
        repeat' split at h
        all_goals first | (cases h; exact fun h => by cases h) | cases h
  · exact fun h => by cases h

theorem fourier_shallow (argsort : Fourier.Argsort) (g : String → Topo → Val) (R : Render Arg) (n : Nat) :
    Shallow (fourierTool argsort g R) (n + 2) := by
  apply shallow_of_flat
  intro m
  show Flat1 _ (fourierBody argsort g m)
  unfold fourierBody
  by_cases h1 : m.name = "_get_peak_dx_dy"
  · have := fourier_peak_plain argsort g m.args m.kwargs
    rw [← h1] at this
    have hm : (⟨m.name, m.args, m.kwargs⟩ : Call Arg) = m := rfl
    rw [hm] at this
    unfold fourierBody at this
    rw [if_pos h1] at this ⊢
    exact this
  rw [if_neg h1]
  by_cases h2 : m.name = "period"
  · rw [if_pos h2]
    refine ⟨fourier_peak_plain argsort g [] [], fun v => ?_⟩
    dsimp only
    split
    · trivial
    · exact fun h => by cases h
  rw [if_neg h2]
  by_cases h3 : m.name = "period_x_y"
  · rw [if_pos h3]
    refine ⟨fourier_peak_plain argsort g [] [], fun v => ?_⟩
    dsimp only
    split
    · trivial
    · exact fun h => by cases h
  rw [if_neg h3]
  by_cases h4 : m.name = "orientation"
  · rw [if_pos h4]
    refine ⟨fourier_peak_plain argsort g [] [], fun v => ?_⟩
    dsimp only
    split
    · trivial
    · exact fun h => by cases h
  rw [if_neg h4]
  by_cases h5 : m.name = "dominant_wavelength"
  · rw [if_pos h5]
    intro st
    dsimp only
    split
    · trivial
    · unfold ofNum
      split
      · trivial
      · rename_i e h
        unfold Fourier.dominantWavelength at h
        repeat' split at h
        all_goals first | (cases h; exact fun h => by cases h) | cases h
  rw [if_neg h5]
  by_cases h6 : m.name = "_angular_spectrum"
  · have := fourier_angular_plain argsort g m.args m.kwargs
    rw [← h6] at this
    have hm : (⟨m.name, m.args, m.kwargs⟩ : Call Arg) = m := rfl
    rw [hm] at this
    unfold fourierBody at this
    rw [if_neg h1, if_neg h2, if_neg h3, if_neg h4, if_neg h5] at this
    rw [if_pos h6] at this ⊢
    split at this
    · exact this
    · exact this
  rw [if_neg h6]
  by_cases h7 : m.name = "angular_power_spectrum"
  · rw [if_pos h7]
    split
    · rename_i step _
      exact ⟨fourier_angular_plain argsort g [.num step] [("squared", .flag true)], fun _ => trivial⟩
    · exact fun h => by cases h
  rw [if_neg h7]
  by_cases h8 : m.name = "Std"
  · rw [if_pos h8]
    split
    · rename_i step _
      refine ⟨fourier_angular_plain argsort g [.num step] [("squared", .flag true)], fun v => ?_⟩
      dsimp only
      split
      · trivial
      · exact fun h => by cases h
    · exact fun h => by cases h
  rw [if_neg h8]
  exact fun h => by cases h

/-- What a new `FourierTransform` answers is what `Fourier.period`, `Fourier.dominantWavelength`, `Fourier.orientation` and `Fourier.std` compute. -/
theorem fourier_answers (argsort : Fourier.Argsort) (g : String → Topo → Val) (R : Render Arg) (n : Nat) (t : Topo) :
    answer (fourierTool argsort g R) (n + 2) t ⟨"period", [], []⟩ = (Fourier.period argsort t.grid t.width t.height).map Val.num ∧
      answer (fourierTool argsort g R) (n + 2) t ⟨"dominant_wavelength", [], []⟩ =
        (Fourier.dominantWavelength t.grid t.width t.height).map Val.num ∧
      answer (fourierTool argsort g R) (n + 2) t ⟨"period_x_y", [], []⟩ =
        (Fourier.periodXY argsort t.grid t.width t.height).map (fun p => Val.pair p.1 p.2) ∧
      answer (fourierTool argsort g R) (n + 2) t ⟨"orientation", [], []⟩ =
        (Fourier.orientation argsort t.grid t.width t.height).map (fun x => Val.num (some x)) ∧
      ∀ step : ℚ, answer (fourierTool argsort g R) (n + 2) t ⟨"Std", [.num step], []⟩ =
        (Fourier.std t.grid t.width t.height step).map (fun x => Val.num (some x)) := by
  by_cases hm : BaseOps.hasMissing t.grid = true
  · have hb : (fourierTool argsort g R).build t = .error .valueError := by simp [fourierTool, hm]
    simp only [answer, hb]
    simp [Fourier.period, Fourier.peakDxDy, Fourier.dominantWavelength, Fourier.periodXY, Fourier.orientation, Fourier.std,
      Fourier.angularSpectrum, hm, Except.map]
  · have hb : (fourierTool argsort g R).build t = .ok () := by simp [fourierTool, hm]
    have hm' : BaseOps.hasMissing t.grid = false := by simpa using hm
    have pk : eval (fourierTool argsort g R).cls (n + 1) ⟨"_get_peak_dx_dy", [], []⟩ ((), t) =
        (Fourier.peakDxDy argsort t.grid t.width t.height).map fun p => Val.pair (some p.1) (some p.2) := by
      simp only [eval, fourierTool, fourierBody, if_true, evalProg, hm', Bool.false_eq_true, if_false]
      cases Fourier.peakDxDy argsort t.grid t.width t.height <;> rfl
    have an : ∀ step : ℚ, eval (fourierTool argsort g R).cls (n + 1) ⟨"_angular_spectrum", [.num step], [("squared", .flag true)]⟩ ((), t) =
        (Fourier.angularSpectrum t.grid t.width t.height step true).map fun p => Val.spectrum p.1 p.2 := by
      intro step
      have e : (fourierTool argsort g R).cls.body ⟨"_angular_spectrum", [.num step], [("squared", .flag true)]⟩ =
          .readData fun st => if BaseOps.hasMissing st.2.grid then .ret (g "_angular_spectrum" st.2) else
            match Fourier.angularSpectrum st.2.grid st.2.width st.2.height step true with
            | .ok s => .ret (.spectrum s.1 s.2)
            | .error e => .raise e := by
        simp [fourierTool, fourierBody]
        rfl
      show evalProg _ ((fourierTool argsort g R).cls.body _) _ = _
      rw [e]
      simp only [evalProg, hm', Bool.false_eq_true, if_false]
      cases Fourier.angularSpectrum t.grid t.width t.height step true <;> rfl
    simp only [answer, hb]
    refine ⟨?_, ?_, ?_, ?_, fun step => ?_⟩
    · show evalProg (eval _ (n + 1)) (fourierBody argsort g ⟨"period", [], []⟩) _ = _
      simp only [fourierBody, if_true, evalProg, pk, Fourier.period, String.reduceEq, if_false]
      cases Fourier.peakDxDy argsort t.grid t.width t.height <;> rfl
    · show evalProg (eval _ (n + 1)) (fourierBody argsort g ⟨"dominant_wavelength", [], []⟩) _ = _
      simp only [fourierBody, if_true, evalProg, String.reduceEq, if_false, hm', Bool.false_eq_true, ofNum]
      cases Fourier.dominantWavelength t.grid t.width t.height <;> rfl
    · show evalProg (eval _ (n + 1)) (fourierBody argsort g ⟨"period_x_y", [], []⟩) _ = _
      simp only [fourierBody, if_true, evalProg, pk, Fourier.periodXY, String.reduceEq, if_false]
      cases Fourier.peakDxDy argsort t.grid t.width t.height <;> rfl
    · show evalProg (eval _ (n + 1)) (fourierBody argsort g ⟨"orientation", [], []⟩) _ = _
      simp only [fourierBody, if_true, evalProg, pk, Fourier.orientation, String.reduceEq, if_false]
      cases Fourier.peakDxDy argsort t.grid t.width t.height <;> rfl
    · show evalProg (eval _ (n + 1)) (fourierBody argsort g ⟨"Std", [.num step], []⟩) _ = _
      simp only [fourierBody, if_true, evalProg, argOr, an, Fourier.std, String.reduceEq, if_false]
      cases Fourier.angularSpectrum t.grid t.width t.height step true <;> rfl


theorem acf_shallow (line : Autocorr.LineInterp) (R : Render Arg) (n : Nat) : Shallow (acfTool line R) (n + 2) := by
  have hp : ∀ s : ℚ, Plain (acfBody line ⟨"_calculate_decay_lengths", [.num s], []⟩) := by
    intro s st
    dsimp only
    split
    · trivial
    · rename_i e h
      rintro rfl
      unfold Autocorr.decayLengths at h
      dsimp only at h
      unfold Interp.argminAll Interp.argmaxAll at h
      by_cases hd : (List.map (fun p => some (Autocorr.lagLength st.1 st.2.stepX st.2.stepY p))
          (Autocorr.edgeIdx st.1 (↑s * st.1.val (Autocorr.centerIdx st.1).1 (Autocorr.centerIdx st.1).2))) = []
      · rw [if_pos hd, if_pos hd] at h; cases h
      · rw [if_neg hd, if_neg hd] at h; cases h
  apply shallow_of_flat
  intro m
  show Flat1 _ (acfBody line m)
  unfold acfBody
  by_cases h1 : m.name = "_calculate_decay_lengths"
  · rw [if_pos h1]
    split
    · rename_i s _ _
      exact hp s
    · exact fun h => by cases h
  rw [if_neg h1]
  by_cases h2 : m.name = "Sal"
  · rw [if_pos h2]
    split
    · rename_i s _
      refine ⟨hp s, fun v => ?_⟩
      dsimp only
      split
      · trivial
      · exact fun h => by cases h
    · exact fun h => by cases h
  rw [if_neg h2]
  by_cases h3 : m.name = "Str"
  · rw [if_pos h3]
    split
    · rename_i s _
      refine ⟨hp s, fun v => ?_⟩
      dsimp only
      split
      · trivial
      · exact fun h => by cases h
    · exact fun h => by cases h
  rw [if_neg h3]
  exact fun h => by cases h

/-- `Sal` evaluated on an array of autocorrelations and the steps of a surface. -/
theorem acf_sal_eval (line : Autocorr.LineInterp) (R : Render Arg) (n : Nat) (A : Grid (Option ℝ)) (t : Topo) (s : ℚ) :
    eval (acfTool line R).cls (n + 2) ⟨"Sal", [.num s], []⟩ (A, t) =
      (Autocorr.decayLengths line A t.stepX t.stepY s).map fun p => Val.num (some p.1) := by
  have pk : eval (acfTool line R).cls (n + 1) ⟨"_calculate_decay_lengths", [.num s], []⟩ (A, t) =
      (Autocorr.decayLengths line A t.stepX t.stepY s).map fun p => Val.pair (some p.1) (some p.2) := by
    simp only [eval, acfTool, acfBody, if_true, evalProg]
    cases Autocorr.decayLengths line A t.stepX t.stepY s <;> rfl
  show evalProg (eval _ (n + 1)) (acfBody line ⟨"Sal", [.num s], []⟩) _ = _
  simp only [acfBody, evalProg, argOr, pk, String.reduceEq, if_false, if_true]
  cases Autocorr.decayLengths line A t.stepX t.stepY s <;> rfl

theorem acf_str_eval (line : Autocorr.LineInterp) (R : Render Arg) (n : Nat) (A : Grid (Option ℝ)) (t : Topo) (s : ℚ) :
    eval (acfTool line R).cls (n + 2) ⟨"Str", [.num s], []⟩ (A, t) =
      (Autocorr.decayLengths line A t.stepX t.stepY s).map fun p => Val.num (if p.2 = 0 then none else some (p.1 / p.2)) := by
  have pk : eval (acfTool line R).cls (n + 1) ⟨"_calculate_decay_lengths", [.num s], []⟩ (A, t) =
      (Autocorr.decayLengths line A t.stepX t.stepY s).map fun p => Val.pair (some p.1) (some p.2) := by
    simp only [eval, acfTool, acfBody, if_true, evalProg]
    cases Autocorr.decayLengths line A t.stepX t.stepY s <;> rfl
  show evalProg (eval _ (n + 1)) (acfBody line ⟨"Str", [.num s], []⟩) _ = _
  simp only [acfBody, evalProg, argOr, pk, String.reduceEq, if_false, if_true]
  cases Autocorr.decayLengths line A t.stepX t.stepY s <;> rfl

/-- What a new `AutocorrelationFunction` answers is what `Autocorr.sal` and `Autocorr.str` compute. -/
theorem acf_answers (line : Autocorr.LineInterp) (R : Render Arg) (n : Nat) (t : Topo) (s : ℚ) :
    answer (acfTool line R) (n + 2) t ⟨"Sal", [.num s], []⟩ = (Autocorr.sal line t.grid t.stepX t.stepY s).map (fun x => Val.num (some x)) ∧
      answer (acfTool line R) (n + 2) t ⟨"Str", [.num s], []⟩ = (Autocorr.str line t.grid t.stepX t.stepY s).map Val.num := by
  unfold answer Autocorr.sal Autocorr.str
  have hb : (acfTool line R).build t = Autocorr.acf t.grid := rfl
  rw [hb]
  cases Autocorr.acf t.grid with
  | error e => exact ⟨rfl, rfl⟩
  | ok A =>
    dsimp only
    rw [acf_sal_eval, acf_str_eval]
    simp only [Except.bind]
    cases Autocorr.decayLengths line A t.stepX t.stepY s <;> exact ⟨rfl, rfl⟩

/-- **C107** (period, orientation, Std, Ssw). After any history, the parameters taken from the Fourier transform are those of the present
heights and steps. -/
theorem C107_fourier (argsort : Fourier.Argsort) (g : String → Topo → Val) {R : Render Arg} (hR : Injective R) (n : Nat) (d : Topo)
    (ops : List (Analysis.Op Topo Arg)) {w : Analysis.World Topo Unit Val}
    (hw : w = (Analysis.run (fourierTool argsort g R) (fourierFace R) (n + 2) (Analysis.fresh d) ops).1) :
    let read := fun c => (Analysis.step (fourierTool argsort g R) (fourierFace R) (n + 2) w (.param c)).2
    let t := w.state
    read ⟨"period", [], []⟩ = Out.ofVal ((Fourier.period argsort t.grid t.width t.height).map Val.num) ∧
      read ⟨"period_x_y", [], []⟩ = Out.ofVal ((Fourier.periodXY argsort t.grid t.width t.height).map fun p => Val.pair p.1 p.2) ∧
      read ⟨"orientation", [], []⟩ = Out.ofVal ((Fourier.orientation argsort t.grid t.width t.height).map fun x => Val.num (some x)) ∧
      read ⟨"Ssw", [], []⟩ = Out.ofVal ((Fourier.dominantWavelength t.grid t.width t.height).map Val.num) ∧
      (∀ s : ℚ, read ⟨"Std", [.num s], []⟩ = Out.ofVal ((Fourier.std t.grid t.width t.height s).map fun x => Val.num (some x))) ∧
      read ⟨"Std", [], []⟩ = Out.ofVal ((Fourier.std t.grid t.width t.height ((1 / 2 : ℚ) : ℝ)).map fun x => Val.num (some x)) := by
  intro read t
  have key : ∀ c, read c = Out.ofVal (answer (fourierTool argsort g R) (n + 2) t ((fourierFace R).deleg c)) := by
    intro c
    have := C107_params (fourierTool argsort g R) (fourierFace R) (fourier_faithful argsort g hR) (face_faithful hR)
      (fourier_shallow argsort g R n) d ops c
    rw [← hw] at this
    exact this
  obtain ⟨a1, a2, a3, a4, a5⟩ := fourier_answers argsort g R n t
  have std : ∀ s : ℚ, answer (fourierTool argsort g R) (n + 2) t ⟨"Std", [], [("angle_step", .num s)]⟩ =
      answer (fourierTool argsort g R) (n + 2) t ⟨"Std", [.num s], []⟩ := by
    intro s
    unfold answer
    cases (fourierTool argsort g R).build t with
    | error e => rfl
    | ok u =>
      dsimp only
      have hb : (fourierTool argsort g R).cls.body ⟨"Std", [], [("angle_step", .num s)]⟩ = (fourierTool argsort g R).cls.body ⟨"Std", [.num s], []⟩ := by
        simp [fourierTool, fourierBody, argOr]
      simp only [eval, hb]
  refine ⟨?_, ?_, ?_, ?_, fun s => ?_, ?_⟩
  · rw [key, ← a1]; rfl
  · rw [key, ← a3]; rfl
  · rw [key, ← a4]; rfl
  · rw [key, ← a2]; rfl
  · rw [key, ← a5, ← std]; rfl
  · rw [key, ← a5, ← std]; rfl

/-- **C107** (Sal and Str). -/
theorem C107_acf (line : Autocorr.LineInterp) {R : Render Arg} (hR : Injective R) (n : Nat) (d : Topo)
    (ops : List (Analysis.Op Topo Arg)) {w : Analysis.World Topo (Grid (Option ℝ)) Val}
    (hw : w = (Analysis.run (acfTool line R) (acfFace R) (n + 2) (Analysis.fresh d) ops).1) :
    let read := fun c => (Analysis.step (acfTool line R) (acfFace R) (n + 2) w (.param c)).2
    let t := w.state
    (∀ s : ℚ, read ⟨"Sal", [.num s], []⟩ = Out.ofVal ((Autocorr.sal line t.grid t.stepX t.stepY s).map fun x => Val.num (some x)) ∧
      read ⟨"Str", [.num s], []⟩ = Out.ofVal ((Autocorr.str line t.grid t.stepX t.stepY s).map Val.num)) ∧
    read ⟨"Sal", [], []⟩ = Out.ofVal ((Autocorr.sal line t.grid t.stepX t.stepY ((1 / 5 : ℚ) : ℝ)).map fun x => Val.num (some x)) ∧
      read ⟨"Str", [], []⟩ = Out.ofVal ((Autocorr.str line t.grid t.stepX t.stepY ((1 / 5 : ℚ) : ℝ)).map Val.num) := by
  intro read t
  have key : ∀ c, read c = Out.ofVal (answer (acfTool line R) (n + 2) t ((acfFace R).deleg c)) := by
    intro c
    have := C107_params (acfTool line R) (acfFace R) (acf_faithful line hR) (face_faithful hR) (acf_shallow line R n) d ops c
    rw [← hw] at this
    exact this
  have kw : ∀ (q : String) (s : ℚ), (q = "Sal" ∨ q = "Str") → answer (acfTool line R) (n + 2) t ⟨q, [], [("s", .num s)]⟩ =
      answer (acfTool line R) (n + 2) t ⟨q, [.num s], []⟩ := by
    intro q s hq
    unfold answer
    cases (acfTool line R).build t with
    | error e => rfl
    | ok u =>
      dsimp only
      have hb : (acfTool line R).cls.body ⟨q, [], [("s", .num s)]⟩ = (acfTool line R).cls.body ⟨q, [.num s], []⟩ := by
        rcases hq with rfl | rfl <;> simp [acfTool, acfBody, argOr]
      simp only [eval, hb]
  refine ⟨fun s => ⟨?_, ?_⟩, ?_, ?_⟩
  · rw [key, ← (acf_answers line R n t s).1, ← kw _ _ (.inl rfl)]; rfl
  · rw [key, ← (acf_answers line R n t s).2, ← kw _ _ (.inr rfl)]; rfl
  · rw [key, ← (acf_answers line R n t _).1, ← kw _ _ (.inl rfl)]; rfl
  · rw [key, ← (acf_answers line R n t _).2, ← kw _ _ (.inr rfl)]; rfl

theorem key_ne {A : Type} (R : Render A) {m m' : Call A} (h : m.name ≠ m'.name) : (R.key m == R.key m') = false := by
  rw [beq_eq_false_iff_ne]
  exact fun e => h (congrArg Key.name e)

theorem fourier_period_invoke (argsort : Fourier.Argsort) (g : String → Topo → Val) (R : Render Arg) (n : Nat) {t : Topo} {P : ℝ}
    (ht : BaseOps.hasMissing t.grid = false) (hP : Fourier.period argsort t.grid t.width t.height = .ok (some P)) :
    ∃ q, invoke (fourierTool argsort g R).cls (n + 2) ⟨"period", [], []⟩ ((), t) [] =
      (.ok (.num (some P)), [(R.key ⟨"period", [], []⟩, .num (some P)), (R.key ⟨"_get_peak_dx_dy", [], []⟩, q)]) := by
  unfold Fourier.period at hP
  cases hpk : Fourier.peakDxDy argsort t.grid t.width t.height with
  | error e => rw [hpk] at hP; cases hP
  | ok p =>
    rw [hpk] at hP
    refine ⟨.pair (some p.1) (some p.2), ?_⟩
    have h1 : invoke (fourierTool argsort g R).cls (n + 1) ⟨"_get_peak_dx_dy", [], []⟩ ((), t) [] =
        (.ok (.pair (some p.1) (some p.2)), [(R.key ⟨"_get_peak_dx_dy", [], []⟩, .pair (some p.1) (some p.2))]) := by
      simp [invoke, fourierTool, fourierBody, Cache.get?, Cache.set, runProg, ht, hpk]
    have hP' : (if Real.sqrt (p.1 ^ 2 + p.2 ^ 2) = 0 then none else some (2 / Real.sqrt (p.1 ^ 2 + p.2 ^ 2))) = some P := by
      simpa [Except.map] using hP
    have h2 : (fourierTool argsort g R).cls.body ⟨"period", [], []⟩ = .call ⟨"_get_peak_dx_dy", [], []⟩ fun
        | .pair (some dx) (some dy) =>
          let h := Real.sqrt (dx ^ 2 + dy ^ 2)
          .ret (.num (if h = 0 then none else some (2 / h)))
        | _ => .raise .typeError := by
      simp [fourierTool, fourierBody]
      rfl
    rw [invoke, if_pos (by simp [fourierTool])]
    simp only [Cache.get?, List.lookup_nil, h2, runProg, h1, hP', Cache.set]
    rfl

theorem fourier_dominant_invoke (argsort : Fourier.Argsort) (g : String → Topo → Val) (R : Render Arg) (n : Nat) {t : Topo} {P : ℝ}
    (ht : BaseOps.hasMissing t.grid = false) (hP : Fourier.dominantWavelength t.grid t.width t.height = .ok (some P)) {c : Cache Val}
    (hc : Cache.get? c (R.key ⟨"dominant_wavelength", [], []⟩) = none) :
    invoke (fourierTool argsort g R).cls (n + 2) ⟨"dominant_wavelength", [], []⟩ ((), t) c =
      (.ok (.num (some P)), (R.key ⟨"dominant_wavelength", [], []⟩, .num (some P)) :: c) := by
  have h2 : (fourierTool argsort g R).cls.body ⟨"dominant_wavelength", [], []⟩ =
      .readData fun st => if BaseOps.hasMissing st.2.grid then .ret (g "dominant_wavelength" st.2) else
        ofNum (Fourier.dominantWavelength st.2.grid st.2.width st.2.height) := by
    simp [fourierTool, fourierBody]
  rw [invoke, if_pos (by simp [fourierTool])]
  have hr : (fourierTool argsort g R).cls.render = R := rfl
  rw [hr, hc, h2]
  simp only [runProg, ht, Bool.false_eq_true, if_false, hP, ofNum, Cache.set]

/-- **C107 is violated** by a `FourierTransform` that is kept while the heights change: with gratings `A` and `B`, after the period has been asked,
the change gives an object that tells the wavelength of `B` and the period of `A`. The surface itself tells the period of `B`. -/
theorem C107_fourier_violated {argsort : Fourier.Argsort} (hs : Spec.IsArgsort argsort) (g : String → Topo → Val) (R : Render Arg)
    (n : Nat) {A B : Topo} {cA aA φA cB aB φB : ℝ} {yA xA yB xB : Int} (hA : Spec.Grating A.grid cA aA φA yA xA)
    (hB : Spec.Grating B.grid cB aB φB yB xB) (wA : 0 < A.width) (eA : 0 < A.height) (wB : 0 < B.width) (eB : 0 < B.height) :
    let PA := 1 / Real.sqrt ((xA / A.width) ^ 2 + (yA / A.height) ^ 2)
    let PB := 1 / Real.sqrt ((xB / B.width) ^ 2 + (yB / B.height) ^ 2)
    (Analysis.run (fourierTool argsort g R) (fourierFace R) (n + 2) (Analysis.fresh A)
      [.get, .ask 0 ⟨"period", [], []⟩, .change fun _ => .ok B, .ask 0 ⟨"dominant_wavelength", [], []⟩, .ask 0 ⟨"period", [], []⟩,
        .param ⟨"period", [], []⟩]).2 =
      [.object 0, .value (.num (some PA)), .done, .value (.num (some PB)), .value (.num (some PA)), .value (.num (some PB))] := by
  intro PA PB
  obtain ⟨pA, -⟩ := C76_grating_partial hs hA wA eA
  obtain ⟨pB, dB, -⟩ := C76_grating_partial hs hB wB eB
  have mA : BaseOps.hasMissing A.grid = false := by
    cases h : BaseOps.hasMissing A.grid with
    | false => rfl
    | true => simp [Fourier.period, Fourier.peakDxDy, h, Except.map] at pA
  have mB : BaseOps.hasMissing B.grid = false := by
    cases h : BaseOps.hasMissing B.grid with
    | false => rfl
    | true => simp [Fourier.period, Fourier.peakDxDy, h, Except.map] at pB
  obtain ⟨qA, iA⟩ := fourier_period_invoke argsort g R n mA pA
  obtain ⟨qB, iB⟩ := fourier_period_invoke argsort g R n mB pB
  have iD : ∀ c, Cache.get? c (R.key ⟨"dominant_wavelength", [], []⟩) = none → _ := fun c hc => fourier_dominant_invoke argsort g R n mB dB hc
  have bA : (fourierTool argsort g R).build A = .ok () := by simp [fourierTool, mA]
  have bB : (fourierTool argsort g R).build B = .ok () := by simp [fourierTool, mB]
  have hr : (fourierTool argsort g R).cls.render = R := rfl
  have hc : (fourierTool argsort g R).cls.cached "period" = true := by simp [fourierTool]
  have hdel : (fourierFace R).deleg ⟨"period", [], []⟩ = ⟨"period", [], []⟩ := by simp [fourierFace]
  have k1 : (R.key ⟨"dominant_wavelength", [], []⟩ == R.key ⟨"period", [], []⟩) = false := key_ne R (by decide)
  have k2 : (R.key ⟨"dominant_wavelength", [], []⟩ == R.key ⟨"_get_peak_dx_dy", [], []⟩) = false := key_ne R (by decide)
  have k3 : (R.key ⟨"period", [], []⟩ == R.key ⟨"dominant_wavelength", [], []⟩) = false := key_ne R (by decide)
  have iD' := iD [(R.key ⟨"period", [], []⟩, .num (some PA)), (R.key ⟨"_get_peak_dx_dy", [], []⟩, qA)]
    (by simp only [Cache.get?, List.lookup, k1, k2])
  change invoke _ _ _ _ _ = (Except.ok (Val.num (some PA)), [(_, Val.num (some PA)), _]) at iA
  change invoke _ _ _ _ _ = (Except.ok (Val.num (some PB)), [(_, Val.num (some PB)), _]) at iB
  change invoke _ _ _ _ _ = (Except.ok (Val.num (some PB)), (_, Val.num (some PB)) :: _) at iD'
  clear iD dB pA pB
  clear_value PA PB
  generalize fourierTool argsort g R = T at *
  generalize fourierFace R = F at *
  have iP : invoke T.cls (n + 2) ⟨"period", [], []⟩ ((), B) [(R.key ⟨"dominant_wavelength", [], []⟩, .num (some PB)),
      (R.key ⟨"period", [], []⟩, .num (some PA)), (R.key ⟨"_get_peak_dx_dy", [], []⟩, qA)] =
      (.ok (.num (some PA)), [(R.key ⟨"dominant_wavelength", [], []⟩, .num (some PB)), (R.key ⟨"period", [], []⟩, .num (some PA)),
        (R.key ⟨"_get_peak_dx_dy", [], []⟩, qA)]) := by
    rw [invoke, if_pos hc, hr]
    simp only [Cache.get?, List.lookup, k3, beq_self_eq_true]
  simp [Analysis.run, Analysis.step, Analysis.get, ask, param, Analysis.fresh, bA, bB, iA, iD', iP, iB, hdel, Out.ofVal, Cache.get?]

/-- **C107** (Sal of an `AutocorrelationFunction` kept while the surface changes). First asked after the change, it takes the autocorrelation
of the old heights with the steps of the new surface. -/
theorem C107_acf_violated (line : Autocorr.LineInterp) {R : Render Arg} (hR : Injective R) (n : Nat) (A B : Topo) {G : Grid (Option ℝ)}
    (hG : Autocorr.acf A.grid = .ok G) (s : ℚ) :
    (Analysis.run (acfTool line R) (acfFace R) (n + 2) (Analysis.fresh A) [.get, .change fun _ => .ok B, .ask 0 ⟨"Sal", [.num s], []⟩]).2 =
      [.object 0, .done, Out.ofVal ((Autocorr.decayLengths line G B.stepX B.stepY s).map fun p => Val.num (some p.1))] := by
  rw [C107_mixed (acfTool line R) (acfFace R) (acf_faithful line hR) (acf_shallow line R n) A B G hG, acf_sal_eval]

/-- **C107** (an `AutocorrelationFunction` kept repeats its answer). A value of Sal or Str once given by the object is given again after every
history, whatever has become of the surface. -/
theorem C107_acf_stale (line : Autocorr.LineInterp) (R : Render Arg) (n : Nat) (w : Analysis.World Topo (Grid (Option ℝ)) Val) (i : Nat)
    (q : String) (s : ℚ) (v : Val) (h : (ask (acfTool line R) (n + 1) w i ⟨q, [.num s], []⟩).2 = .ok v)
    (ops : List (Analysis.Op Topo Arg)) :
    (ask (acfTool line R) (n + 1)
      (Analysis.run (acfTool line R) (acfFace R) (n + 1) (ask (acfTool line R) (n + 1) w i ⟨q, [.num s], []⟩).1 ops).1 i ⟨q, [.num s], []⟩).2 =
      .ok v :=
  C107_stale (acfTool line R) (acfFace R) n w i _ v rfl h ops

section AbbottObject
open Abbott
variable {K : Type} [Field K] [LinearOrder K] [FloorRing K]

theorem abbott_faithful (lstsq : Detrend.Lstsq K) (nbins : Nat) (sort : Interp.PtSort K) : KeyFaithful (abbottTool lstsq nbins sort).cls := by
  intro m m' _ hn _ _
  show abbottBody sort m = abbottBody sort m'
  unfold abbottBody
  rw [hn]

theorem abbott_face_faithful : FaceFaithful abbottFace := fun _ _ h => by cases h

theorem abbott_plain (sort : Interp.PtSort K) (m : Call Unit) : Plain (abbottBody sort m) := by
  intro st
  dsimp only
  repeat' split
  all_goals first | trivial | exact fun h => by cases h

theorem abbott_shallow (lstsq : Detrend.Lstsq K) (nbins : Nat) (sort : Interp.PtSort K) (n : Nat) : Shallow (abbottTool lstsq nbins sort) (n + 1) :=
  fun m sd => plain_eval (abbott_plain sort m) _ sd

theorem abbott_ofCurve (sort : Interp.PtSort K) {c : Curve K} {name : String} {v : Option K} (h : ofCurve sort c name = some v) (m : Call Unit)
    (hm : m.name = name) {f : Call Unit → Curve K × List (Option K) → Cache (Option K) → Res (Option K) (Option K)} (d : List (Option K))
    (ca : Cache (Option K)) : runProg f (abbottBody sort m) (c, d) ca = (.ok v, ca) := by
  unfold abbottBody
  simp only [runProg, hm]
  unfold ofCurve at h
  split at h
  all_goals first
    | (cases h; simp [runProg])
    | cases h

/-- The cache of an object about the curve `c` contains nothing else about the curve. -/
def CurveGood (lstsq : Detrend.Lstsq K) (nbins : Nat) (sort : Interp.PtSort K) (v : View (Curve K) (Option K)) : Prop :=
  ∀ (m : Call Unit) x y, Cache.get? v.cache ((abbottTool lstsq nbins sort).cls.render.key m) = some x → ofCurve sort v.snap m.name = some y → x = y

theorem abbott_invoke_good (lstsq : Detrend.Lstsq K) (nbins : Nat) (sort : Interp.PtSort K) (n : Nat) (m : Call Unit)
    (v : View (Curve K) (Option K)) (d : List (Option K)) (hv : CurveGood lstsq nbins sort v) :
    CurveGood lstsq nbins sort ⟨v.snap, (invoke (abbottTool lstsq nbins sort).cls n m (v.snap, d) v.cache).2⟩ ∧
      ∀ y, ofCurve sort v.snap m.name = some y → (invoke (abbottTool lstsq nbins sort).cls (n + 1) m (v.snap, d) v.cache).1 = .ok y := by
  have hrun : ∀ f, ∃ r, runProg f ((abbottTool lstsq nbins sort).cls.body m) (v.snap, d) v.cache = (r, v.cache) := by
    intro f
    show ∃ r, runProg f (abbottBody sort m) (v.snap, d) v.cache = (r, v.cache)
    unfold abbottBody
    simp only [runProg]
    repeat' split
    all_goals exact ⟨_, rfl⟩
  refine ⟨?_, fun y hy => ?_⟩
  · cases n with
    | zero => exact hv
    | succ n =>
      rw [invoke, if_pos (show (abbottTool lstsq nbins sort).cls.cached m.name = true from rfl)]
      cases hl : Cache.get? v.cache ((abbottTool lstsq nbins sort).cls.render.key m) with
      | some x => exact hv
      | none =>
        dsimp only
        obtain ⟨r, hr⟩ := hrun (invoke (abbottTool lstsq nbins sort).cls n)
        rw [hr]
        cases r with
        | error e => exact hv
        | ok x =>
          intro m' a b ha hb
          simp only [Cache.get?, Cache.set, List.lookup_cons] at ha
          by_cases hk : (abbottTool lstsq nbins sort).cls.render.key m' = (abbottTool lstsq nbins sort).cls.render.key m
          · rw [hk] at ha
            simp at ha
            subst ha
            have h2 := abbott_ofCurve sort hb m (congrArg Key.name hk).symm (f := invoke (abbottTool lstsq nbins sort).cls n) d v.cache
            have h3 : runProg (invoke (abbottTool lstsq nbins sort).cls n) (abbottBody sort m) (v.snap, d) v.cache = (.ok x, v.cache) := hr
            rw [h3] at h2
            injection h2 with h2
            injection h2
          · have : ((abbottTool lstsq nbins sort).cls.render.key m' == (abbottTool lstsq nbins sort).cls.render.key m) = false := by simpa using hk
            rw [this] at ha
            exact hv m' a b ha hb
  · rw [invoke, if_pos (show (abbottTool lstsq nbins sort).cls.cached m.name = true from rfl)]
    cases hl : Cache.get? v.cache ((abbottTool lstsq nbins sort).cls.render.key m) with
    | some x => rw [hv m x y hl hy]
    | none =>
      dsimp only
      have h2 := abbott_ofCurve sort hy m rfl (f := invoke (abbottTool lstsq nbins sort).cls n) d v.cache
      have h3 : runProg (invoke (abbottTool lstsq nbins sort).cls n) ((abbottTool lstsq nbins sort).cls.body m) (v.snap, d) v.cache = (.ok y, v.cache) := h2
      rw [h3]

/-- All objects are good. -/
def AllGood (lstsq : Detrend.Lstsq K) (nbins : Nat) (sort : Interp.PtSort K) (w : Analysis.World (List (Option K)) (Curve K) (Option K)) : Prop :=
  ∀ v ∈ w.views, CurveGood lstsq nbins sort v

theorem allGood_get {lstsq : Detrend.Lstsq K} {nbins : Nat} {sort : Interp.PtSort K} {w : Analysis.World (List (Option K)) (Curve K) (Option K)}
    (h : AllGood lstsq nbins sort w) : AllGood lstsq nbins sort (Analysis.get (abbottTool lstsq nbins sort) w).1 := by
  unfold Analysis.get
  cases w.slot with
  | some i => exact h
  | none =>
    dsimp only
    cases (abbottTool lstsq nbins sort).build w.state with
    | error e => exact h
    | ok s =>
      intro v hv
      rcases List.mem_append.1 hv with hv | hv
      · exact h v hv
      · rw [List.mem_singleton] at hv
        subst hv
        intro m x y hx
        simp [Cache.get?] at hx

theorem allGood_ask {lstsq : Detrend.Lstsq K} {nbins : Nat} {sort : Interp.PtSort K} {w : Analysis.World (List (Option K)) (Curve K) (Option K)}
    (h : AllGood lstsq nbins sort w) (n i : Nat) (m : Call Unit) : AllGood lstsq nbins sort (ask (abbottTool lstsq nbins sort) n w i m).1 := by
  unfold ask
  cases hi : w.views[i]? with
  | none => exact h
  | some v =>
    intro u hu
    rcases List.mem_or_eq_of_mem_set hu with hu | hu
    · exact h u hu
    · rw [hu]
      exact (abbott_invoke_good lstsq nbins sort n m v w.state (h v (List.mem_of_getElem? hi))).1

theorem allGood_step {lstsq : Detrend.Lstsq K} {nbins : Nat} {sort : Interp.PtSort K} {w : Analysis.World (List (Option K)) (Curve K) (Option K)}
    (h : AllGood lstsq nbins sort w) (n : Nat) (op : Analysis.Op (List (Option K)) Unit) :
    AllGood lstsq nbins sort (Analysis.step (abbottTool lstsq nbins sort) abbottFace n w op).1 := by
  cases op with
  | get =>
    have := allGood_get h
    unfold Analysis.step
    rcases hg : Analysis.get (abbottTool lstsq nbins sort) w with ⟨w', r⟩
    rw [hg] at this
    cases r <;> exact this
  | ask i m => exact allGood_ask h n i m
  | param c =>
    show AllGood lstsq nbins sort (param (abbottTool lstsq nbins sort) abbottFace n w c).1
    unfold param
    rw [if_neg (by simp [abbottFace])]
    dsimp only
    have := allGood_get h
    rcases hg : Analysis.get (abbottTool lstsq nbins sort) w with ⟨w', r⟩
    rw [hg] at this
    cases r with
    | error e => exact this
    | ok i =>
      dsimp only
      have h2 := allGood_ask this n i (abbottFace.deleg c)
      rcases ha : ask (abbottTool lstsq nbins sort) n w' i (abbottFace.deleg c) with ⟨w'', r⟩
      rw [ha] at h2
      cases r with
      | error e => exact h2
      | ok v => exact h2
  | change f =>
    cases hf : f w.state with
    | error e => simp only [Analysis.step, hf]; exact h
    | ok d => simp only [Analysis.step, hf]; exact h
  | clear => exact h

theorem allGood_run {lstsq : Detrend.Lstsq K} {nbins : Nat} {sort : Interp.PtSort K} (n : Nat) (ops : List (Analysis.Op (List (Option K)) Unit))
    {w : Analysis.World (List (Option K)) (Curve K) (Option K)} (h : AllGood lstsq nbins sort w) :
    AllGood lstsq nbins sort (Analysis.run (abbottTool lstsq nbins sort) abbottFace n w ops).1 := by
  induction ops generalizing w with
  | nil => exact h
  | cons op ops ih => exact ih (allGood_step h n op)

/-- **C107** (Abbott-Firestone curves keep). The functional parameters `k`, `mr1`, `mr2`, `pk`, `vk`, `ak1` and `ak2` of a curve handed out after any
history are those of the heights of that moment for ever: after any further history, changes of the heights included. -/
theorem C107_abbott_kept (lstsq : Detrend.Lstsq K) (nbins : Nat) (sort : Interp.PtSort K) (n : Nat) (d : List (Option K))
    (ops ops' : List (Analysis.Op (List (Option K)) Unit)) (i : Nat) {w w' : Analysis.World (List (Option K)) (Curve K) (Option K)} {c : Curve K}
    (hw : w = (Analysis.run (abbottTool lstsq nbins sort) abbottFace (n + 1) (Analysis.fresh d) ops).1)
    (hi : Analysis.step (abbottTool lstsq nbins sort) abbottFace (n + 1) w .get = (w', .object i))
    (hc : build lstsq nbins w.state = .ok c) (m : Call Unit) {y : Option K} (hy : ofCurve sort c m.name = some y) :
    (Analysis.step (abbottTool lstsq nbins sort) abbottFace (n + 1)
      (Analysis.run (abbottTool lstsq nbins sort) abbottFace (n + 1) w' ops').1 (.ask i m)).2 = .value y := by
  have hinv : AInv (abbottTool lstsq nbins sort) abbottFace (n + 1) w := by
    rw [hw]
    exact run_inv (abbott_faithful lstsq nbins sort) abbott_face_faithful (abbott_shallow lstsq nbins sort n) ops (fresh_inv _ _ _ d)
  have hall : AllGood lstsq nbins sort w' := by
    have := allGood_step (n := n + 1) (op := .get) (w := w) (lstsq := lstsq) (nbins := nbins) (sort := sort) (by
      rw [hw]
      exact allGood_run (n + 1) ops (fun v hv => by cases hv))
    rw [hi] at this
    exact this
  have hcur : ∃ v, w'.views[i]? = some v ∧ v.snap = c := by
    rcases get_current hinv.slot with ⟨e, h1, h2⟩ | ⟨w1, k, h1, h2, h3, h4, ⟨v, h5, h6, -⟩, -⟩
    · simp only [Analysis.step, h1] at hi; cases hi
    · simp only [Analysis.step, h1] at hi
      injection hi with hi1 hi2
      injection hi2 with hi2
      subst hi1 hi2
      refine ⟨v, h5, ?_⟩
      rw [h2] at h6
      have : build lstsq nbins w.state = .ok v.snap := h6
      rw [hc] at this
      injection this with this
      exact this.symm
  obtain ⟨v, hv, hsn⟩ := hcur
  obtain ⟨v', hv', hs', -⟩ := remembers_run (abbottTool lstsq nbins sort) abbottFace (n + 1) w' i ops' v hv
  have hall' := allGood_run (n + 1) ops' hall
  generalize (Analysis.run (abbottTool lstsq nbins sort) abbottFace (n + 1) w' ops').1 = w2 at hv' hall' ⊢
  show Out.ofVal (ask (abbottTool lstsq nbins sort) (n + 1) w2 i m).2 = _
  unfold ask
  rw [hv']
  dsimp only
  rw [(abbott_invoke_good lstsq nbins sort n m v' w2.state (hall' v' (List.mem_of_getElem? hv'))).2 y (by rw [hs', hsn]; exact hy)]
  rfl

variable [IsStrictOrderedRing K]

/-- **C107** (functional parameters). After any history, Sk, Smr1, Smr2, Spk, Svk, Sak1, Sak2, Spkx and Svkx are those of the curve of the present heights. -/
theorem C107_abbott (lstsq : Detrend.Lstsq K) (nbins : Nat) (sort : Interp.PtSort K) (n : Nat) (d : List (Option K))
    (ops : List (Analysis.Op (List (Option K)) Unit)) {w : Analysis.World (List (Option K)) (Curve K) (Option K)}
    (hw : w = (Analysis.run (abbottTool lstsq nbins sort) abbottFace (n + 1) (Analysis.fresh d) ops).1)
    {name : String} {f : Curve K → Option K} (hf : (name, f) ∈ [("Sk", fun c => some c.k), ("Smr1", fun c => some (c.mr1 sort)),
      ("Smr2", fun c => some (c.mr2 sort)), ("Spk", fun c => c.pk sort), ("Svk", fun c => c.vk sort), ("Sak1", fun c => c.ak1 sort),
      ("Sak2", fun c => c.ak2 sort), ("Spkx", fun c => some c.pkx), ("Svkx", fun c => some c.vkx)]) :
    (Analysis.step (abbottTool lstsq nbins sort) abbottFace (n + 1) w (.param ⟨name, [], []⟩)).2 =
      Out.ofVal ((build lstsq nbins w.state).map f) := by
  have := C107_params (abbottTool lstsq nbins sort) abbottFace (abbott_faithful lstsq nbins sort) abbott_face_faithful
    (abbott_shallow lstsq nbins sort n) d ops ⟨name, [], []⟩
  rw [← hw] at this
  rw [this]
  congr 1
  unfold answer
  have hb : (abbottTool lstsq nbins sort).build w.state = build lstsq nbins w.state := rfl
  rw [hb]
  cases hc : build lstsq nbins w.state with
  | error e => rfl
  | ok c =>
    obtain ⟨g1, g2, e1, -, -⟩ := build_fields hc
    have hsame : ({ c with data := measured w.state } : Curve K) = c := by rw [← e1]
    show evalProg (eval (abbottTool lstsq nbins sort).cls n) (abbottBody sort (abbottFace.deleg ⟨name, [], []⟩)) (c, w.state) = .ok (f c)
    have d1 : ("Sk".drop 1).toString = "k" := by decide +kernel
    have d2 : ("Smr1".drop 1).toString = "mr1" := by decide +kernel
    have d3 : ("Smr2".drop 1).toString = "mr2" := by decide +kernel
    have d4 : ("Spk".drop 1).toString = "pk" := by decide +kernel
    have d5 : ("Svk".drop 1).toString = "vk" := by decide +kernel
    have d6 : ("Sak1".drop 1).toString = "ak1" := by decide +kernel
    have d7 : ("Sak2".drop 1).toString = "ak2" := by decide +kernel
    have d8 : ("Spkx".drop 1).toString = "pkx" := by decide +kernel
    have d9 : ("Svkx".drop 1).toString = "vkx" := by decide +kernel
    simp only [List.mem_cons, Prod.mk.injEq, List.not_mem_nil, or_false] at hf
    rcases hf with ⟨rfl, rfl⟩ | ⟨rfl, rfl⟩ | ⟨rfl, rfl⟩ | ⟨rfl, rfl⟩ | ⟨rfl, rfl⟩ | ⟨rfl, rfl⟩ | ⟨rfl, rfl⟩ | ⟨rfl, rfl⟩ | ⟨rfl, rfl⟩
    all_goals simp only [abbottFace, abbottBody, evalProg, d1, d2, d3, d4, d5, d6, d7, d8, d9, String.reduceEq, if_true, if_false, hsame, g1]

/-- **C107 is violated** by the `Spkx` of a curve kept while the heights are lowered by more than `Spkx`: it is negative, while `Sk` of the same object, and
`Spkx` of the surface, stay what they were. -/
theorem C107_abbott_violated {lstsq : Detrend.Lstsq K} (hl : Spec.IsLstsq lstsq) {sort : Interp.PtSort K} (hso : Spec.ComparesOnly sort) {nbins : Nat}
    (hn : 4 ≤ nbins) (n : Nat) {d : List (Option K)} {c : Curve K} (hc : build lstsq nbins d = .ok c) {t : K} (ht : c.pkx < t) :
    (Analysis.run (abbottTool lstsq nbins sort) abbottFace (n + 1) (Analysis.fresh d)
      [.get, .change fun d => .ok (d.map fun x => x.map fun z => z - t), .ask 0 ⟨"pkx", [], []⟩, .ask 0 ⟨"k", [], []⟩,
        .param ⟨"Spkx", [], []⟩]).2 =
      [.object 0, .done, .value (some (c.pkx - t)), .value (some c.k), .value (some c.pkx)] ∧ c.pkx - t < 0 := by
  refine ⟨?_, by linarith⟩
  have hfd : (fun d : List (Option K) => (Except.ok (d.map fun x => x.map fun z => z - t) : Except Err (List (Option K)))) d =
      .ok (d.map fun x => x.map fun z => 1 * z + -t) := by
    have : (fun z : K => z - t) = fun z => 1 * z + -t := by funext z; ring
    dsimp only
    rw [this]
  generalize (fun d : List (Option K) => (Except.ok (d.map fun x => x.map fun z => z - t) : Except Err (List (Option K)))) = f at hfd ⊢
  obtain ⟨c', h', -, -, -, -, -, -, -, hp, -⟩ := C74_affine hl hso hn (t := -t) one_pos hc
  obtain ⟨g1, g2, e1, -, -⟩ := build_fields hc
  obtain ⟨g1', g2', e1', -, -⟩ := build_fields h'
  rw [one_mul] at hp
  have hmax : Curve.pkx { c with data := measured (d.map fun x => x.map fun z => 1 * z + -t) } = c.pkx - t := by
    have hme : measured (d.map fun x => x.map fun z => 1 * z + -t) = (measured d).map fun z => 1 * z + -t := by
      unfold measured
      rw [List.filterMap_map, List.map_filterMap]
      rfl
    obtain ⟨M, hM⟩ := exists_max? (measured_ne g1 g2)
    have hM2 : (measured (d.map fun x => x.map fun z => 1 * z + -t)).max? = some (1 * M + -t) := by
      rw [hme]
      obtain ⟨a1, a2⟩ := max?_spec.1 hM
      refine max?_spec.2 ⟨List.mem_map.2 ⟨M, a1, rfl⟩, ?_⟩
      intro b hb
      obtain ⟨x, hx, rfl⟩ := List.mem_map.1 hb
      have := a2 x hx
      linarith
    unfold Curve.pkx
    rw [hM2, e1, hM]
    simp only [Option.getD_some, Curve.yupper]
    ring
  have hbd : (abbottTool lstsq nbins sort).build d = .ok c := hc
  have hbd' : (abbottTool lstsq nbins sort).build (d.map fun x => x.map fun z => 1 * z + -t) = .ok c' := h'
  have hsame : ({ c' with data := measured (d.map fun x => x.map fun z => 1 * z + -t) } : Curve K) = c' := by rw [← e1']
  generalize hB : (d.map fun x => x.map fun z => 1 * z + -t) = B at *
  have i1 : invoke (abbottTool lstsq nbins sort).cls (n + 1) ⟨"pkx", [], []⟩ (c, B) [] =
      (.ok (some (c.pkx - t)), [(⟨"pkx", "()", "dict_items([])"⟩, some (c.pkx - t))]) := by
    simp [invoke, abbottTool, abbottBody, Cache.get?, Cache.set, runProg, Render.key, g1', hmax]
  have i2 : invoke (abbottTool lstsq nbins sort).cls (n + 1) ⟨"k", [], []⟩ (c, B) [(⟨"pkx", "()", "dict_items([])"⟩, some (c.pkx - t))] =
      (.ok (some c.k), [(⟨"k", "()", "dict_items([])"⟩, some c.k), (⟨"pkx", "()", "dict_items([])"⟩, some (c.pkx - t))]) := by
    have hk : ((⟨"k", "()", "dict_items([])"⟩ : Key) == ⟨"pkx", "()", "dict_items([])"⟩) = false := by decide
    simp [invoke, abbottTool, abbottBody, Cache.get?, Cache.set, runProg, Render.key, List.lookup, hk]
  have i3 : invoke (abbottTool lstsq nbins sort).cls (n + 1) ⟨"pkx", [], []⟩ (c', B) [] =
      (.ok (some c.pkx), [(⟨"pkx", "()", "dict_items([])"⟩, some c.pkx)]) := by
    simp [invoke, abbottTool, abbottBody, Cache.get?, Cache.set, runProg, Render.key, g1', hsame, hp]
  have hdel : abbottFace.deleg ⟨"Spkx", [], []⟩ = ⟨"pkx", [], []⟩ := by
    have : ("Spkx".drop 1).toString = "pkx" := by decide +kernel
    simp only [abbottFace, this]
  have hfc : abbottFace.cached "Spkx" = false := rfl
  generalize abbottTool lstsq nbins sort = T at *
  simp [Analysis.run, Analysis.step, Analysis.get, ask, param, Analysis.fresh, hbd, hbd', hfd, i1, i2, i3, hdel, hfc, Out.ofVal]

end AbbottObject

/-! ## The hypotheses can be met -/

/-- Printing that tells all arguments apart exists. -/
theorem C107_render_exists : ∃ R : Render Arg, Injective R := by
  have e : Function.Injective (fun a : Arg => match a with | .num x => (some x, false) | .flag b => ((none : Option ℚ), b)) := by
    intro a b h
    cases a <;> cases b <;> simp at h <;> simp [h]
  have enc : ∀ {α : Type} [Countable α], ∃ f : α → String, Function.Injective f := by
    intro α _
    obtain ⟨f, hf⟩ := exists_injective_nat α
    refine ⟨fun a => String.ofList (List.replicate (f a) 'a'), fun a b h => hf ?_⟩
    have := congrArg (fun s => s.toList.length) h
    simpa using this
  have : Countable Arg := e.countable
  have hch : Function.Injective Char.toNat := fun a b h => Char.ext (UInt32.toNat_inj.1 h)
  have : Countable Char := hch.countable
  have hst : Function.Injective String.toList := fun a b h => String.toList_inj.1 h
  have : Countable String := hst.countable
  obtain ⟨f, hf⟩ := enc (α := List Arg)
  obtain ⟨k, hk⟩ := enc (α := List (String × Arg))
  exact ⟨⟨f, k⟩, fun _ _ h => hf h, fun _ _ h => hk h⟩

/-- Two gratings with different periods. -/
theorem two_gratings : ∃ A B : Topo, Spec.Grating A.grid 1 2 0 0 1 ∧ Spec.Grating B.grid 1 2 0 0 2 ∧ A.width = 8 ∧ A.height = 2 ∧ B.width = 8 ∧ B.height = 2 := by
  have hg : ∀ k : Int, 2 * |k| < 9 → k ≠ 0 → Spec.Grating (Grid.ofFn 3 9 fun i j => some (1 + 2 * Real.cos
      (2 * Real.pi * (((0 : Int) : ℝ) * i / (3 : Nat) + (k : ℝ) * j / (9 : Nat)) + 0))) 1 2 0 0 k := by
    intro k hk h0
    refine ⟨ofFn_wf _ _ _, ?_, two_ne_zero, Or.inr h0, ?_, ?_⟩
    · intro i hi j hj
      rw [ofFn_ny] at hi ⊢
      rw [ofFn_nx] at hj ⊢
      rw [get_ofFn _ hi hj]
    · rw [ofFn_ny]; norm_num
    · rw [ofFn_nx]; exact_mod_cast hk
  refine ⟨⟨_, 1, 1⟩, ⟨_, 1, 1⟩, hg 1 (by norm_num) (by norm_num), hg 2 (by norm_num) (by norm_num), ?_, ?_, ?_, ?_⟩
  · show (((9 : Nat) : ℝ) - 1) * 1 = 8
    norm_num
  · show (((3 : Nat) : ℝ) - 1) * 1 = 2
    norm_num
  · show (((9 : Nat) : ℝ) - 1) * 1 = 8
    norm_num
  · show (((3 : Nat) : ℝ) - 1) * 1 = 2
    norm_num

/-- The hypotheses of `C107_fourier_violated` are met, with periods 8 and 4. -/
example : ∃ (argsort : Fourier.Argsort) (R : Render Arg) (A B : Topo),
    (Analysis.run (fourierTool argsort (fun _ _ => .num none) R) (fourierFace R) 2 (Analysis.fresh A)
      [.get, .ask 0 ⟨"period", [], []⟩, .change fun _ => .ok B, .ask 0 ⟨"dominant_wavelength", [], []⟩, .ask 0 ⟨"period", [], []⟩,
        .param ⟨"period", [], []⟩]).2 =
      [.object 0, .value (.num (some 8)), .done, .value (.num (some 4)), .value (.num (some 8)), .value (.num (some 4))] := by
  obtain ⟨argsort, hs⟩ := C43_argsort_exists
  obtain ⟨R, -⟩ := C107_render_exists
  obtain ⟨A, B, hA, hB, a1, a2, b1, b2⟩ := two_gratings
  refine ⟨argsort, R, A, B, ?_⟩
  have h := C107_fourier_violated hs (fun _ _ => .num none) R 0 hA hB (by rw [a1]; norm_num) (by rw [a2]; norm_num) (by rw [b1]; norm_num) (by rw [b2]; norm_num)
  rw [a1, a2, b1, b2] at h
  have e1 : Real.sqrt ((((1 : Int) : ℝ) / 8) ^ 2 + (((0 : Int) : ℝ) / 2) ^ 2) = 1 / 8 := by
    rw [show ((((1 : Int) : ℝ) / 8) ^ 2 + (((0 : Int) : ℝ) / 2) ^ 2) = (1 / 8) ^ 2 by push_cast; ring, Real.sqrt_sq (by norm_num)]
  have e2 : Real.sqrt ((((2 : Int) : ℝ) / 8) ^ 2 + (((0 : Int) : ℝ) / 2) ^ 2) = 1 / 4 := by
    rw [show ((((2 : Int) : ℝ) / 8) ^ 2 + (((0 : Int) : ℝ) / 2) ^ 2) = (1 / 4) ^ 2 by push_cast; ring, Real.sqrt_sq (by norm_num)]
  rw [e1, e2] at h
  norm_num at h
  exact h

/-- The hypotheses of `C107_fourier`, `C107_acf`, `C107_params` and `C107_held_partial` are met: a history that makes an object, asks it, changes the heights,
and shows a new object. -/
example : ∃ (argsort : Fourier.Argsort) (R : Render Arg) (A B : Topo), Injective R ∧ Spec.IsArgsort argsort ∧
    (Analysis.run (fourierTool argsort (fun _ _ => .num none) R) (fourierFace R) 2 (Analysis.fresh A) [.get, .change fun _ => .ok B, .get]).2 =
      [.object 0, .done, .object 1] ∧ FaceFaithful (fourierFace R) ∧ FaceFaithful (acfFace R) := by
  obtain ⟨argsort, hs⟩ := C43_argsort_exists
  obtain ⟨R, hR⟩ := C107_render_exists
  refine ⟨argsort, R, ⟨⟨[], 0⟩, 1, 1⟩, ⟨⟨[], 0⟩, 1, 2⟩, hR, hs, ?_, face_faithful hR, face_faithful hR⟩
  simp [Analysis.run, Analysis.step, Analysis.get, Analysis.fresh, fourierTool, BaseOps.hasMissing, Container.flat]

/-- The hypotheses of `C107_abbott_violated` are met. -/
example : ∃ c : Abbott.Curve ℚ, Abbott.build (Classical.choose Detrend.exists_lstsq) 5 [some 3, some 1, some 2] = .ok c ∧ c.pkx < c.pkx + 1 := by
  obtain ⟨c, hc⟩ := C36_defined (K := ℚ) (n := 5) (data := [some 3, some 1, some 2]) (Classical.choose_spec Detrend.exists_lstsq) (by norm_num) (by decide) (by decide)
  exact ⟨c, hc, by linarith⟩

end Surfalize.Props
