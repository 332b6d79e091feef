import Verif.Model.BatchCall
import Verif.Spec.BatchCall
import Verif.Props.Batch
/-!
# C92 — A batch method runs the method of the surface with the arguments of the call
-/
namespace Surfalize.Props
open Surfalize Batch BatchCall CallSpec

set_option linter.unusedSectionVars false

variable {A : Type}

private theorem lookup_none_iff (kw : List (String × A)) (n : String) : kw.lookup n = none ↔ n ∉ kw.map Prod.fst := by
  rw [List.lookup_eq_none_iff]
  simp only [List.mem_map, not_exists, not_and, bne_iff_ne, ne_eq]
  exact ⟨fun h p hp e => h p hp e.symm, fun h p hp e => h p hp e.symm⟩

private theorem bindGo_iff (kw : List (String × A)) : ∀ (sig : Sig A) (args : List A) (b : List (String × A)),
    bindGo kw sig args = .ok b ↔
      (b.map Prod.fst = sig.map Prod.fst ∧ args.length ≤ sig.length ∧
      (∀ (i : Nat) (n : String) (v : A), i < args.length → b[i]? = some (n, v) →
        args[i]? = some v ∧ n ∉ kw.map Prod.fst) ∧
      (∀ (i : Nat) (n : String) (v : A), args.length ≤ i → b[i]? = some (n, v) →
        kw.lookup n = some v ∨ (n ∉ kw.map Prod.fst ∧ sig[i]? = some (n, some v))))
  | [], [], b => by
    constructor
    · intro h
      obtain rfl := Except.ok.inj h
      simp
    · rintro ⟨h, -⟩
      obtain rfl : b = [] := by simpa using h
      rfl
  | [], a :: as, b => by
    constructor
    · intro h; cases h
    · rintro ⟨-, h, -⟩; simp at h
  | (n, d) :: ps, a :: as, b => by
    unfold bindGo
    have ih := bindGo_iff kw ps as
    by_cases hn : n ∈ kw.map Prod.fst
    · rw [if_pos hn]
      constructor
      · intro h; cases h
      · rintro ⟨h1, -, h3, -⟩
        cases b with
        | nil => simp at h1
        | cons e b =>
          obtain ⟨m, v⟩ := e
          simp only [List.map_cons, List.cons.injEq] at h1
          obtain ⟨rfl, -⟩ := h1
          exact absurd hn (h3 0 m v (by simp) rfl).2
    · rw [if_neg hn]
      constructor
      · intro h
        cases hb : bindGo kw ps as with
        | error e => rw [hb] at h; cases h
        | ok r =>
          rw [hb] at h
          obtain rfl := Except.ok.inj h
          obtain ⟨h1, h2, h3, h4⟩ := (ih r).1 hb
          refine ⟨by simp [h1], by simpa using h2, ?_, ?_⟩
          · intro i m v hi hv
            cases i with
            | zero =>
              simp only [List.getElem?_cons_zero, Option.some.injEq, Prod.mk.injEq] at hv
              obtain ⟨rfl, rfl⟩ := hv
              exact ⟨rfl, hn⟩
            | succ i =>
              simp only [List.getElem?_cons_succ] at hv ⊢
              exact h3 i m v (by simpa using hi) hv
          · intro i m v hi hv
            cases i with
            | zero => simp at hi
            | succ i =>
              simp only [List.getElem?_cons_succ] at hv ⊢
              exact h4 i m v (by simpa using hi) hv
      · rintro ⟨h1, h2, h3, h4⟩
        cases b with
        | nil => simp at h1
        | cons e b =>
          obtain ⟨m, v⟩ := e
          simp only [List.map_cons, List.cons.injEq] at h1
          obtain ⟨rfl, h1⟩ := h1
          have hv : v = a := by
            have := (h3 0 m v (by simp) rfl).1
            simpa using this.symm
          subst hv
          rw [(ih b).2 ⟨h1, by simpa using h2, fun i m' v' hi hv => by
            have := h3 (i + 1) m' v' (by simpa using hi) (by simpa using hv)
            simpa using this, fun i m' v' hi hv => by
            have := h4 (i + 1) m' v' (by simpa using hi) (by simpa using hv)
            simpa using this⟩]
          rfl
  | (n, d) :: ps, [], b => by
    unfold bindGo
    have ih := bindGo_iff kw ps []
    cases hl : (kw.lookup n).or d with
    | none =>
      constructor
      · intro h; cases h
      · rintro ⟨h1, -, -, h4⟩
        cases b with
        | nil => simp at h1
        | cons e b =>
          obtain ⟨m, v⟩ := e
          simp only [List.map_cons, List.cons.injEq] at h1
          obtain ⟨rfl, -⟩ := h1
          rcases h4 0 m v (by simp) rfl with h | ⟨-, h⟩
          · rw [h] at hl; cases hl
          · simp only [List.getElem?_cons_zero, Option.some.injEq, Prod.mk.injEq, true_and] at h
            subst h
            cases hk : kw.lookup m <;> rw [hk] at hl <;> cases hl
    | some w =>
      dsimp only
      constructor
      · intro h
        cases hb : bindGo kw ps [] with
        | error e => rw [hb] at h; cases h
        | ok r =>
          rw [hb] at h
          obtain rfl := Except.ok.inj h
          obtain ⟨h1, h2, h3, h4⟩ := (ih r).1 hb
          refine ⟨by simp [h1], by simp, fun i m v hi => by simp at hi, ?_⟩
          intro i m v hi hv
          cases i with
          | zero =>
            simp only [List.getElem?_cons_zero, Option.some.injEq, Prod.mk.injEq] at hv
            obtain ⟨rfl, rfl⟩ := hv
            cases hk : kw.lookup n with
            | some x =>
              rw [hk] at hl
              left; simpa using hl
            | none =>
              rw [hk] at hl
              right
              refine ⟨(lookup_none_iff _ _).1 hk, ?_⟩
              simp only [Option.none_or] at hl
              simp [hl]
          | succ i =>
            simp only [List.getElem?_cons_succ] at hv ⊢
            exact h4 i m v (by simp) hv
      · rintro ⟨h1, h2, h3, h4⟩
        cases b with
        | nil => simp at h1
        | cons e b =>
          obtain ⟨m, v⟩ := e
          simp only [List.map_cons, List.cons.injEq] at h1
          obtain ⟨rfl, h1⟩ := h1
          have hv : v = w := by
            rcases h4 0 m v (by simp) rfl with h | ⟨h0, h⟩
            · rw [h] at hl; simpa using hl
            · simp only [List.getElem?_cons_zero, Option.some.injEq, Prod.mk.injEq, true_and] at h
              subst h
              rw [(lookup_none_iff _ _).2 h0] at hl
              simpa using hl
          subst hv
          rw [(ih b).2 ⟨h1, by simp, fun i m' v' hi => by simp at hi, fun i m' v' hi hv => by
            have := h4 (i + 1) m' v' (by simp) (by simpa using hv)
            simpa using this⟩]
          rfl

/-- The model of Python's argument passing is the specification: calls that are not allowed raise a TypeError. -/
theorem C92_bind (sig : Sig A) (args : List A) (kw : List (String × A)) :
    (∀ b, BatchCall.bind sig args kw = .ok b ↔ Bound sig args kw b) ∧
    ∀ e, BatchCall.bind sig args kw = .error e → e = .typeError := by
  constructor
  · intro b
    unfold BatchCall.bind
    by_cases h : ∃ k ∈ kw.map Prod.fst, k ∉ sig.map Prod.fst
    · rw [if_pos h]
      constructor
      · intro h; cases h
      · intro hb
        obtain ⟨k, h1, h2⟩ := h
        exact absurd (hb.known k h1) h2
    · rw [if_neg h, bindGo_iff]
      constructor
      · rintro ⟨h1, h2, h3, h4⟩
        exact ⟨h1, h2, fun k hk => by_contra fun hc => h ⟨k, hk, hc⟩, h3, h4⟩
      · intro hb
        exact ⟨hb.names, hb.count, hb.positional, hb.keyword⟩
  · intro e
    unfold BatchCall.bind
    by_cases h : ∃ k ∈ kw.map Prod.fst, k ∉ sig.map Prod.fst
    · rw [if_pos h]; intro h; cases h; rfl
    · rw [if_neg h]
      clear h
      induction sig generalizing args with
      | nil => cases args <;> intro h <;> cases h; rfl
      | cons p ps ih =>
        obtain ⟨n, d⟩ := p
        cases args with
        | nil =>
          unfold bindGo
          cases (kw.lookup n).or d with
          | none => intro h; cases h; rfl
          | some v =>
            dsimp only
            cases hb : bindGo kw ps [] with
            | ok r => intro h; cases h
            | error e' => intro h; cases h; exact ih [] hb
        | cons a as =>
          unfold bindGo
          by_cases hn : n ∈ kw.map Prod.fst
          · rw [if_pos hn]; intro h; cases h; rfl
          · rw [if_neg hn]
            cases hb : bindGo kw ps as with
            | ok r => intro h; cases h
            | error e' => intro h; cases h; exact ih as hb

private theorem lookup_fixed : ∀ (fx kw : List (String × A)), (fx.map Prod.fst).Nodup → ∀ k,
    (fx.foldl (fun kw p => setKw kw p.1 p.2) kw).lookup k = (fx.lookup k).or (kw.lookup k)
  | [], kw, _, k => by simp
  | p :: fx, kw, hnd, k => by
    simp only [List.map_cons, List.nodup_cons] at hnd
    rw [List.foldl_cons, lookup_fixed fx _ hnd.2, lookup_setKw, List.lookup_cons]
    by_cases hk : k = p.1
    · subst hk
      rw [(lookup_none_iff fx p.1).2 hnd.1]
      simp
    · have : (k == p.1) = false := by simpa using hk
      rw [if_neg hk, this]

private theorem mem_fixed {fx kw : List (String × A)} (hnd : (fx.map Prod.fst).Nodup) (k : String) :
    k ∈ (fx.foldl (fun kw p => setKw kw p.1 p.2) kw).map Prod.fst ↔ k ∈ fx.map Prod.fst ∨ k ∈ kw.map Prod.fst := by
  rw [← not_iff_not, ← lookup_none_iff, lookup_fixed fx kw hnd, Option.or_eq_none_iff, lookup_none_iff, lookup_none_iff,
    not_or]

private theorem call_go {fx kw : List (String × A)} (hnd : (fx.map Prod.fst).Nodup) : ∀ (sig : Sig A) (args : List A)
    (b : List (String × A)), (∀ i, i < args.length → ∀ n d, sig[i]? = some (n, d) → n ∉ fx.map Prod.fst) →
    bindGo kw (shown sig fx) args = .ok b →
    ∃ b', bindGo (fx.foldl (fun kw p => setKw kw p.1 p.2) kw) sig args = .ok b' ∧
      b'.map Prod.fst = sig.map Prod.fst ∧
      b'.filter (fun p => decide (p.1 ∉ fx.map Prod.fst)) = b ∧ ∀ p ∈ b', p.1 ∈ fx.map Prod.fst → p ∈ fx
  | [], args, b, _, h => by
    cases args with
    | nil =>
      obtain rfl := Except.ok.inj h
      exact ⟨[], rfl, rfl, rfl, by simp⟩
    | cons a as => cases h
  | (n, d) :: ps, args, b, hpos, h => by
    by_cases hn : n ∈ fx.map Prod.fst
    · have hs : shown ((n, d) :: ps) fx = shown ps fx := by
        unfold shown; rw [List.filter_cons, if_neg (by simpa using hn)]
      rw [hs] at h
      have ha : args = [] := by
        cases args with
        | nil => rfl
        | cons a as => exact absurd hn (hpos 0 (by simp) n d rfl)
      subst ha
      obtain ⟨b', h1, h2, h3, h4⟩ := call_go hnd ps [] b (fun i hi => by simp at hi) h
      obtain ⟨v, hv⟩ : ∃ v, fx.lookup n = some v := by
        cases hl : fx.lookup n with
        | none => exact absurd hn ((lookup_none_iff _ _).1 hl)
        | some v => exact ⟨v, rfl⟩
      refine ⟨(n, v) :: b', ?_, by simp [h2], ?_, ?_⟩
      · rw [bindGo, lookup_fixed fx kw hnd, hv]
        simp only [Option.some_or]
        rw [h1]; rfl
      · rw [List.filter_cons, if_neg (by simpa using hn)]
        exact h3
      · intro p hp hpf
        rcases List.mem_cons.1 hp with rfl | hp
        · obtain ⟨l1, l2, e, -⟩ := List.lookup_eq_some_iff.1 hv
          rw [e]; simp
        · exact h4 p hp hpf
    · have hs : shown ((n, d) :: ps) fx = (n, d) :: shown ps fx := by
        unfold shown; rw [List.filter_cons, if_pos (by simpa using hn)]
      rw [hs] at h
      cases args with
      | cons a as =>
        unfold bindGo at h
        by_cases hk : n ∈ kw.map Prod.fst
        · rw [if_pos hk] at h; cases h
        · rw [if_neg hk] at h
          cases hb : bindGo kw (shown ps fx) as with
          | error e => rw [hb] at h; cases h
          | ok r =>
            rw [hb] at h
            obtain rfl := Except.ok.inj h
            obtain ⟨b', h1, h2, h3, h4⟩ := call_go hnd ps as r (fun i hi m d' hm => hpos (i + 1) (by simpa using hi) m d' (by simpa using hm)) hb
            refine ⟨(n, a) :: b', ?_, by simp [h2], ?_, ?_⟩
            · rw [bindGo, if_neg (by rw [mem_fixed hnd]; tauto), h1]; rfl
            · rw [List.filter_cons, if_pos (by simpa using hn), h3]
            · intro p hp hpf
              rcases List.mem_cons.1 hp with rfl | hp
              · exact absurd hpf hn
              · exact h4 p hp hpf
      | nil =>
        unfold bindGo at h
        cases hl : (kw.lookup n).or d with
        | none => rw [hl] at h; cases h
        | some v =>
          rw [hl] at h
          dsimp only at h
          cases hb : bindGo kw (shown ps fx) [] with
          | error e => rw [hb] at h; cases h
          | ok r =>
            rw [hb] at h
            obtain rfl := Except.ok.inj h
            obtain ⟨b', h1, h2, h3, h4⟩ := call_go hnd ps [] r (fun i hi => by simp at hi) hb
            refine ⟨(n, v) :: b', ?_, by simp [h2], ?_, ?_⟩
            · rw [bindGo, lookup_fixed fx kw hnd, (lookup_none_iff fx n).2 hn, Option.none_or, hl]
              dsimp only
              rw [h1]; rfl
            · rw [List.filter_cons, if_pos (by simpa using hn), h3]
            · intro p hp hpf
              rcases List.mem_cons.1 hp with rfl | hp
              · exact absurd hpf hn
              · exact h4 p hp hpf

/-- **C92**: a call that the signature shown for the batch method allows runs the method with exactly the values the call
gives to the shown parameters, and the fixed parameters at their fixed values – if no fixed parameter comes before one
given by position. Missing: the other calls (`C92_positional_violated`). -/
theorem C92_call_partial (m : Method A) (info : MethodInfo A) (hi : m.info = some info)
    (hnd : (info.fixed.map Prod.fst).Nodup) (args : List A) (kw b : List (String × A))
    (hb : Bound (shown m.sig info.fixed) args kw b)
    (hpos : ∀ i, i < args.length → ∀ n d, m.sig[i]? = some (n, d) → n ∉ info.fixed.map Prod.fst) :
    ∃ b', executed m info args kw = .ok b' ∧ b'.map Prod.fst = m.sig.map Prod.fst ∧
      b'.filter (fun p => decide (p.1 ∉ info.fixed.map Prod.fst)) = b ∧
      ∀ p ∈ b', p.1 ∈ info.fixed.map Prod.fst → p ∈ info.fixed := by
  have hsub : ∀ k ∈ info.fixed.map Prod.fst, k ∈ m.sig.map Prod.fst := by
    unfold Method.info at hi
    cases hm : m.mark with
    | none => rw [hm] at hi; cases hi
    | some p =>
      rw [hm] at hi
      obtain rfl := Option.some.inj hi
      intro k hk
      obtain ⟨f, hf, rfl⟩ := List.mem_map.1 hk
      simpa using (List.mem_filter.1 hf).2
  have h := ((C92_bind _ _ _).1 b).2 hb
  unfold BatchCall.bind at h
  split at h
  · cases h
  · obtain ⟨b', h1, h2⟩ := call_go hnd m.sig args b hpos h
    refine ⟨b', ?_, h2⟩
    unfold executed BatchCall.bind
    rw [if_neg, h1]
    rintro ⟨k, hk, hk'⟩
    rcases (mem_fixed hnd k).1 hk with h | h
    · exact hk' (hsub k h)
    · have := hb.known k h
      obtain ⟨p, hp, rfl⟩ := List.mem_map.1 this
      exact hk' (List.mem_map.2 ⟨p, (List.mem_filter.1 hp).1, rfl⟩)

/-- Every call that gives a parameter behind a fixed one by position fails, although the signature shown allows it: the
argument meets the fixed parameter. The failure comes when the batch is executed. -/
theorem C92_positional_violated (m : Method A) (info : MethodInfo A) (hnd : (info.fixed.map Prod.fst).Nodup)
    (args : List A) (kw : List (String × A)) (i : Nat) (n : String) (d : Option A) (hi : i < args.length)
    (hn : m.sig[i]? = some (n, d)) (hf : n ∈ info.fixed.map Prod.fst) :
    executed m info args kw = .error .typeError := by
  cases h : executed m info args kw with
  | error e => rw [(C92_bind _ _ _).2 e h]
  | ok b =>
    have hb := ((C92_bind _ _ _).1 b).1 h
    have hlt : i < b.length := by
      have h1 := congrArg List.length hb.names
      simp only [List.length_map] at h1
      rw [h1]
      exact (List.getElem?_eq_some_iff.1 hn).1
    obtain ⟨⟨n', v⟩, he⟩ : ∃ e, b[i]? = some e := ⟨b[i], List.getElem?_eq_getElem hlt⟩
    have h2 := (hb.positional i n' v hi he).2
    have hnn : n' = n := by
      have h1 := congrArg (fun l => l[i]?) hb.names
      simp only [List.getElem?_map, he, hn, Option.map_some, Option.some.injEq] at h1
      exact h1
    subst hnn
    exact absurd ((mem_fixed hnd n').2 (.inl hf)) h2

/-- The arguments `batch_method` fixes for an operation. -/
def opInfo (o : Operation) : MethodInfo Val := ⟨true, ((o.method.info).map MethodInfo.fixed).getD []⟩

theorem opInfo_eq (o : Operation) : o.method.info = some (opInfo o) := by cases o <;> rfl

/-- **C92** for the operations of the package: every call the shown signature allows works in place on the surface with
these arguments, for every operation but `filter`, and for `filter` unless `endeffect_mode` is given by position. -/
theorem C92_operations_partial (o : Operation) (args : List Val) (kw b : List (String × Val))
    (hb : Bound (shown o.method.sig (opInfo o).fixed) args kw b) (ho : o = .filter → args.length ≤ 3) :
    ∃ b', executed o.method (opInfo o) args kw = .ok b' ∧ ("inplace", Val.bool true) ∈ b' ∧
      (∀ v, ("return_trend", v) ∈ b' → v = .bool false) ∧
      b'.filter (fun p => decide (p.1 ≠ "inplace" ∧ p.1 ≠ "return_trend")) = b := by
  have hfix : ∀ k, k ∈ (opInfo o).fixed.map Prod.fst ↔ k ∈ o.method.sig.map Prod.fst ∧ (k = "inplace" ∨ k = "return_trend") := by
    intro k
    have h1 : ∀ s ∈ o.method.sig.map Prod.fst, (s ∈ (opInfo o).fixed.map Prod.fst ↔ s = "inplace" ∨ s = "return_trend") := by
      cases o <;> decide +kernel
    have h2 : ∀ s ∈ (opInfo o).fixed.map Prod.fst, s ∈ o.method.sig.map Prod.fst := by cases o <;> decide +kernel
    exact ⟨fun h => ⟨h2 k h, (h1 k (h2 k h)).1 h⟩, fun h => (h1 k h.1).2 h.2⟩
  have hval : ∀ p ∈ (opInfo o).fixed, p = ("inplace", Val.bool true) ∨ p = ("return_trend", Val.bool false) := by
    cases o <;> decide +kernel
  have hin : "inplace" ∈ o.method.sig.map Prod.fst := by cases o <;> decide +kernel
  obtain ⟨b', h1, h2, h3, h4⟩ := C92_call_partial o.method (opInfo o) (opInfo_eq o) (by cases o <;> decide +kernel) args kw b hb (by
    intro i hi n d hn
    have hc := hb.count
    have H : ∀ j, j < (shown o.method.sig (opInfo o).fixed).length → (o = .filter → j < 3) → ∀ e, o.method.sig[j]? = some e →
        e.1 ∉ (opInfo o).fixed.map Prod.fst := by
      intro j hj hf e he
      have hj5 : j < 5 := by
        have : (shown o.method.sig (opInfo o).fixed).length ≤ 5 := by cases o <;> decide +kernel
        omega
      have hall : ∀ j < 5, j < (shown o.method.sig (opInfo o).fixed).length → (o = .filter → j < 3) →
          ((o.method.sig[j]?).all fun e => decide (e.1 ∉ (opInfo o).fixed.map Prod.fst)) = true := by
        cases o <;> decide +kernel
      have := hall j hj5 hj hf
      rw [he] at this
      simpa using this
    exact H i (by omega) (fun h => by have := ho h; omega) (n, d) hn)
  have hmem : ∀ k, k ∈ b'.map Prod.fst → k ∈ o.method.sig.map Prod.fst := by rw [h2]; exact fun _ h => h
  refine ⟨b', h1, ?_, ?_, ?_⟩
  · rw [← h2] at hin
    obtain ⟨p, hp, hpn⟩ := List.mem_map.1 hin
    have := h4 p hp ((hfix _).2 ⟨hmem _ (List.mem_map.2 ⟨p, hp, rfl⟩), .inl hpn⟩)
    rcases hval p this with rfl | rfl
    · exact hp
    · exact absurd hpn (by decide)
  · intro v hv
    have := h4 _ hv ((hfix _).2 ⟨hmem _ (List.mem_map.2 ⟨_, hv, rfl⟩), .inr rfl⟩)
    rcases hval _ this with h | h
    · exact absurd (Prod.mk.inj h).1 (by decide)
    · exact congrArg Prod.snd h
  · rw [← h3]
    apply List.filter_congr
    intro p hp
    have := hfix p.1
    have hm := hmem _ (List.mem_map.2 ⟨p, hp, rfl⟩)
    by_cases h : p.1 ∈ (opInfo o).fixed.map Prod.fst
    · rw [decide_eq_false (not_not.2 h), decide_eq_false]
      rcases (this.1 h).2 with e | e <;> simp [e]
    · rw [decide_eq_true h, decide_eq_true]
      constructor
      · exact fun e => h (this.2 ⟨hm, .inl e⟩)
      · exact fun e => h (this.2 ⟨hm, .inr e⟩)

/-- `batch.filter('lowpass', 5, None, 'nearest')` is a call the shown signature allows; executing it is a TypeError. -/
theorem C92_filter_violated :
    Bound (shown Operation.filter.method.sig (opInfo .filter).fixed) [.str "lowpass", .num 5, .none, .str "nearest"] []
      [("filter_type", .str "lowpass"), ("cutoff", .num 5), ("cutoff2", .none), ("endeffect_mode", .str "nearest")] ∧
    ∀ (a1 a2 a3 a4 : Val) (rest : List Val) (kw : List (String × Val)),
      executed Operation.filter.method (opInfo .filter) (a1 :: a2 :: a3 :: a4 :: rest) kw = .error .typeError := by
  constructor
  · apply ((C92_bind _ _ _).1 _).1
    rfl
  · intro a1 a2 a3 a4 rest kw
    exact C92_positional_violated _ _ (by decide +kernel) _ _ 3 "inplace" _ (by simp) rfl (by decide +kernel)

/-- A call that meets the conditions: `batch.crop(box, in_units=False)`. -/
example (box : Val) : Bound (shown Operation.crop.method.sig (opInfo .crop).fixed) [box] [("in_units", .bool false)]
    [("box", box), ("in_units", .bool false)] := by
  apply ((C92_bind _ _ _).1 _).1
  rfl

/-- What runs is `surface.crop(box, in_units=False, inplace=True)`. -/
example (box : Val) : executed Operation.crop.method (opInfo .crop) [box] [("in_units", .bool false)] =
    .ok [("box", box), ("in_units", .bool false), ("inplace", .bool true)] := rfl

private theorem register_iff (n : String) (i : MethodInfo A) : ∀ (l : List (String × Method A)) (seen : List String),
    (n, i) ∈ registerGo seen l ↔ n ∉ seen ∧ ∃ m, l.lookup n = some m ∧ m.info = some i
  | [], seen => by simp [registerGo]
  | (a, m) :: c, seen => by
    rw [registerGo, List.lookup_cons]
    by_cases ha : a ∈ seen
    · rw [if_pos ha, register_iff n i c seen]
      apply and_congr_right
      intro hn
      have hna : (n == a) = false := by
        have : n ≠ a := fun e => hn (e ▸ ha)
        simpa using this
      rw [hna]
    · rw [if_neg ha]
      by_cases hna : n = a
      · subst hna
        simp only [beq_self_eq_true, Option.some.injEq]
        cases hm : m.info with
        | none =>
          simp only [register_iff n i c (n :: seen), List.mem_cons, true_or, not_true_eq_false, false_and, exists_eq_left', hm,
            false_iff]
          simp
        | some j =>
          simp only [List.mem_cons, register_iff n i c (n :: seen), true_or, not_true_eq_false, false_and, or_false,
            exists_eq_left', hm, Prod.mk.injEq, true_and, Option.some.injEq]
          constructor
          · rintro rfl; exact ⟨ha, rfl⟩
          · rintro ⟨-, rfl⟩; rfl
      · have hb : (n == a) = false := by simpa using hna
        simp only [hb]
        cases hm : m.info with
        | none =>
          simp only [register_iff n i c (a :: seen), List.mem_cons, hna, false_or]
        | some j =>
          simp only [List.mem_cons, register_iff n i c (a :: seen), Prod.mk.injEq, hna, false_and, false_or]

private theorem resolves_iff (n : String) (m : Method A) : ∀ (mro : List (List (String × Method A))),
    (∀ c ∈ mro, (c.map Prod.fst).Nodup) → (Resolves mro n m ↔ mro.flatten.lookup n = some m) := by
  intro mro h
  rw [List.lookup_eq_some_iff]
  constructor
  · rintro ⟨before, c, after, rfl, h1, h2⟩
    obtain ⟨l1, l2, e⟩ := List.append_of_mem h1
    subst e
    refine ⟨before.flatten ++ l1, l2 ++ after.flatten, by simp, ?_⟩
    have hnd := h (l1 ++ (n, m) :: l2) (by simp)
    intro p hp
    simp only [bne_iff_ne, ne_eq]
    intro e
    rcases List.mem_append.1 hp with hp | hp
    · obtain ⟨c', hc', hpc⟩ := List.mem_flatten.1 hp
      exact h2 c' hc' (List.mem_map.2 ⟨p, hpc, e.symm⟩)
    · rw [List.map_append, List.nodup_append] at hnd
      exact hnd.2.2 p.1 (List.mem_map.2 ⟨p, hp, rfl⟩) n (by simp) e.symm
  · rintro ⟨l1, l2, e, h2⟩
    induction mro generalizing l1 with
    | nil => simp at e
    | cons c mro ih =>
      by_cases hc : n ∈ c.map Prod.fst
      · obtain ⟨⟨n', m'⟩, hp, hpn⟩ := List.mem_map.1 hc
        dsimp only at hpn
        subst hpn
        refine ⟨[], c, mro, rfl, ?_, by simp⟩
        rw [List.flatten_cons, List.append_eq_append_iff] at e
        rcases e with ⟨a, e1, e2⟩ | ⟨a, e1, e2⟩
        · have := h2 (n', m') (by rw [e1]; simp [hp])
          simp at this
        · cases a with
          | nil =>
            have := h2 (n', m') (by
              rw [List.append_nil] at e1; rw [← e1]; exact hp)
            simp at this
          | cons x a =>
            obtain ⟨ex, -⟩ := List.cons.inj e2
            rw [e1, ← ex]; simp
      · rw [List.flatten_cons, List.append_eq_append_iff] at e
        have hlt : ∃ a, l1 = c ++ a ∧ mro.flatten = a ++ (n, m) :: l2 := by
          rcases e with ⟨a, e1, e2⟩ | ⟨a, e1, e2⟩
          · exact ⟨a, e1, e2⟩
          · cases a with
            | nil => exact ⟨[], by rw [e1]; simp, by simpa using e2.symm⟩
            | cons x a =>
              obtain ⟨ex, -⟩ := List.cons.inj e2
              exact absurd (List.mem_map.2 ⟨(n, m), by rw [e1, ← ex]; simp, rfl⟩) hc
        obtain ⟨a, rfl, e2⟩ := hlt
        obtain ⟨before, c', after, rfl, k1, k2⟩ := ih (fun c hc => h c (by simp [hc])) a e2 (fun p hp => h2 p (by simp [hp]))
        refine ⟨c :: before, c', after, rfl, k1, ?_⟩
        intro y hy
        rcases List.mem_cons.1 hy with rfl | hy
        · exact hc
        · exact k2 y hy

/-- **C92**, the methods of a batch: for every class hierarchy, a batch has a method of a name exactly if the method that
Python finds on the surface under this name is marked, and it is made from that one. -/
theorem C92_methods (mro : List (List (String × Method A))) (h : ∀ c ∈ mro, (c.map Prod.fst).Nodup) (n : String)
    (i : MethodInfo A) : (n, i) ∈ register mro ↔ ∃ m, Resolves mro n m ∧ m.info = some i := by
  unfold register
  rw [register_iff]
  simp only [List.not_mem_nil, not_false_eq_true, true_and, resolves_iff n _ mro h]

/-- A class that replaces a marked method by an unmarked one takes it from the batch; other methods of the base class
stay. -/
example : register [[("Sa", (⟨[], none⟩ : Method Val)), ("x", ⟨[], none⟩)],
    [("Sa", ⟨[], some (false, [])⟩), ("center", Operation.center.method)]] = [("center", opInfo .center)] := rfl

end Surfalize.Props
