import Verif.Spec.Editing
import Verif.Lemmas.GridFn
import Verif.Props.Geometry

set_option linter.unusedSectionVars false
namespace Surfalize.Heap
open Surfalize Container Geometry Spec EditSpec

variable {K V : Type} {α : Type}

theorem getElem?_append_one {α : Type} (l : List α) (a : α) (i : Nat) (x : α) (h : (l ++ [a])[i]? = some x) :
    l[i]? = some x ∨ (i = l.length ∧ x = a) := by
  rcases Nat.lt_trichotomy i l.length with hi | hi | hi
  · left; rwa [List.getElem?_append_left hi] at h
  · right
    subst hi
    simp at h
    exact ⟨rfl, h.symm⟩
  · exfalso
    rw [List.getElem?_eq_none (by simp; omega)] at h
    cases h

theorem getElem?_set_cases {α : Type} (l : List α) (a : α) (k i : Nat) (x : α) (h : (l.set k a)[i]? = some x) :
    (i = k ∧ x = a) ∨ (i ≠ k ∧ l[i]? = some x) := by
  by_cases hik : k = i
  · subst hik
    left
    by_cases hlt : k < l.length
    · rw [List.getElem?_set_self hlt] at h
      exact ⟨rfl, (Option.some.inj h).symm⟩
    · rw [List.getElem?_eq_none (by simp; omega)] at h; cases h
  · right
    rw [List.getElem?_set_ne hik] at h
    exact ⟨fun e => hik e.symm, h⟩

/-! ## Views -/

theorem readView_append (bufs : List (List (Option K))) (b : List (Option K)) (v : View) (h : v.buf < bufs.length) :
    readView (bufs ++ [b]) v = readView bufs v := by
  unfold readView
  rw [List.getElem?_append_left h]

theorem readView_modify_ne (bufs : List (List (Option K))) (f : List (Option K) → List (Option K)) (k : Nat) (v : View)
    (h : v.buf ≠ k) : readView (bufs.modify k f) v = readView bufs v := by
  unfold readView
  rw [List.getElem?_modify_ne _ _ (Ne.symm h)]

theorem at?_map {β : Type} (f : α → β) (g : Grid α) (i j : Nat) : at? (Container.map f g) i j = (at? g i j).map f := by
  show ((g.rows.map (List.map f))[i]?).bind (fun r => r[j]?) = _
  unfold at?
  rw [List.getElem?_map]
  cases g.rows[i]? with
  | none => rfl
  | some r => simp

/-- the height seen through a view -/
theorem at?_readView (bufs : List (List (Option K))) (v : View) (i j : Nat) :
    at? (readView bufs v) i j = (at? v.idx i j).map fun k => (((bufs[v.buf]?).getD [])[k]?).getD none := by
  unfold readView; rw [at?_map]

/-- distinct points are distinct cells -/
def Inj (g : Grid Nat) : Prop := ∀ i j i' j' k, at? g i j = some k → at? g i' j' = some k → i = i' ∧ j = j'

/-- every cell exists -/
def Below (g : Grid Nat) (n : Nat) : Prop := ∀ i j k, at? g i j = some k → k < n

/-- `h` consists of points of `g`, each at most once -/
def Sub (h g : Grid α) : Prop :=
  ∃ (φ : Nat → Option Nat) (ψ : Nat → Nat → Option Nat),
    (∀ i i' a, φ i = some a → φ i' = some a → i = i') ∧ (∀ a j j' b, ψ a j = some b → ψ a j' = some b → j = j') ∧
    ∀ i j, at? h i j = (φ i).bind fun a => (ψ a j).bind fun b => at? g a b

theorem Sub.inj {h g : Grid Nat} (hs : Sub h g) (hg : Inj g) : Inj h := by
  obtain ⟨φ, ψ, h1, h2, h3⟩ := hs
  intro i j i' j' k hk hk'
  rw [h3] at hk hk'
  obtain ⟨a, ha, hk⟩ := Option.bind_eq_some_iff.1 hk
  obtain ⟨b, hb, hk⟩ := Option.bind_eq_some_iff.1 hk
  obtain ⟨a', ha', hk'⟩ := Option.bind_eq_some_iff.1 hk'
  obtain ⟨b', hb', hk'⟩ := Option.bind_eq_some_iff.1 hk'
  obtain ⟨e1, e2⟩ := hg _ _ _ _ _ hk hk'
  subst e1
  subst e2
  exact ⟨h1 _ _ _ ha ha', h2 _ _ _ _ hb hb'⟩

theorem Sub.below {h g : Grid Nat} (hs : Sub h g) {n : Nat} (hg : Below g n) : Below h n := by
  obtain ⟨φ, ψ, h1, h2, h3⟩ := hs
  intro i j k hk
  rw [h3] at hk
  obtain ⟨a, ha, hk⟩ := Option.bind_eq_some_iff.1 hk
  obtain ⟨b, hb, hk⟩ := Option.bind_eq_some_iff.1 hk
  exact hg _ _ _ hk

/-- selecting rows and then points of each row -/
theorem sub_of {g h : Grid α} (φ : Nat → Option Nat) (ψ : Nat → Nat → Option Nat) (F : List α → List α)
    (sel : List (List α)) (hrows : h.rows = sel.map F) (hsel : ∀ i, sel[i]? = (φ i).bind fun a => g.rows[a]?)
    (hF : ∀ r j, (F r)[j]? = (ψ r.length j).bind fun b => r[b]?)
    (h1 : ∀ i i' a, φ i = some a → φ i' = some a → i = i')
    (h2 : ∀ n j j' b, ψ n j = some b → ψ n j' = some b → j = j') : Sub h g := by
  refine ⟨φ, fun a j => (g.rows[a]?).bind fun r => ψ r.length j, h1, ?_, ?_⟩
  · intro a j j' b hb hb'
    beta_reduce at hb hb'
    cases hr : g.rows[a]? with
    | none => rw [hr] at hb; cases hb
    | some r => rw [hr] at hb hb'; exact h2 _ _ _ _ hb hb'
  · intro i j
    unfold at?
    rw [hrows, List.getElem?_map, hsel]
    cases hφ : φ i with
    | none => rfl
    | some a =>
      simp only [Option.bind_some]
      cases hr : g.rows[a]? with
      | none => rfl
      | some r =>
        simp only [Option.map_some, Option.bind_some]
        exact hF r j

theorem sliceIdx_inj (n : Nat) (s : PySlice) (hk : s.step ≠ some 0) (i i' a : Nat) (h : sliceIdx n s i = some a)
    (h' : sliceIdx n s i' = some a) : i = i' := by
  have := Props.sliceIdx_diff n s h h'
  have h0 : s.step.getD 1 ≠ 0 := by
    cases hs : s.step with
    | none => simp
    | some k => simp; intro e; exact hk (by rw [hs, e])
  have : ((i' : Int) - i) * s.step.getD 1 = 0 := by omega
  rcases Int.mul_eq_zero.1 this with h | h
  · omega
  · exact absurd h h0

theorem getitem_sub (g : Grid α) (i : Index) (r : Grid α × Rat × Rat) (h : Geometry.getitem (K := Rat) g 1 1 i = .ok r) :
    Sub r.1 g := by
  unfold Geometry.getitem at h
  split at h
  · cases h
  · rename_i s
    split at h
    · cases h
    · rename_i rows hr
      have := Except.ok.inj h
      subst this
      have hk : s.step ≠ some 0 := fun e => by rw [(apply_none_iff s g.rows).2 e] at hr; cases hr
      exact sub_of (fun i => sliceIdx g.rows.length s i) (fun _ j => some j) id rows (by simp)
        (fun i => apply_getElem? s _ _ hr i) (fun r j => rfl)
        (fun i i' a => sliceIdx_inj _ s hk i i' a) (fun _ _ _ _ e e' => (Option.some.inj e).trans (Option.some.inj e').symm)
  · rename_i sy sx
    split at h
    · rename_i rows cols hr hc
      have := Except.ok.inj h
      subst this
      have hk : sy.step ≠ some 0 := fun e => by rw [(apply_none_iff sy g.rows).2 e] at hr; cases hr
      have hk' : sx.step ≠ some 0 := fun e => by rw [(apply_none_iff sx _).2 e] at hc; cases hc
      refine sub_of (fun i => sliceIdx g.rows.length sy i) (fun n j => sliceIdx n sx j) (fun r => (sx.apply r).getD []) rows rfl
        (fun i => apply_getElem? sy _ _ hr i) (fun r j => ?_)
        (fun i i' a => sliceIdx_inj _ sy hk i i' a) (fun n j j' b => sliceIdx_inj _ sx hk' j j' b)
      cases ha : sx.apply r with
      | none => exact absurd ((apply_none_iff sx r).1 ha) hk'
      | some q => exact apply_getElem? sx _ _ ha j
    · cases h
  all_goals first
    | cases h
    | (split at h <;> cases h)

/-- positions kept by `l[a:b]` -/
def sliceAt (n : Nat) (a b : Int) (i : Nat) : Option Nat :=
  if normIdx n a + i < normIdx n b then some (normIdx n a + i) else none

theorem pySlice_at (l : List α) (a b : Int) (i : Nat) :
    (pySlice l a b)[i]? = (sliceAt l.length a b i).bind fun x => l[x]? := by
  unfold pySlice sliceAt
  rw [List.getElem?_drop, List.getElem?_take]
  split <;> rfl

theorem sliceAt_inj (n : Nat) (a b : Int) (i i' x : Nat) (h : sliceAt n a b i = some x) (h' : sliceAt n a b i' = some x) :
    i = i' := by
  unfold sliceAt at h h'
  split at h
  · split at h'
    · have := Option.some.inj h
      have := Option.some.inj h'
      omega
    · cases h'
  · cases h

theorem pySlice_sub (g h : Grid α) (a b c d : Int) (hr : h.rows = (pySlice g.rows a b).map fun r => pySlice r c d) :
    Sub h g :=
  sub_of (sliceAt g.rows.length a b) (fun n => sliceAt n c d) _ _ hr (fun i => pySlice_at _ _ _ i)
    (fun r j => pySlice_at r c d j) (fun i i' x => sliceAt_inj _ _ _ i i' x) (fun _ j j' x => sliceAt_inj _ _ _ j j' x)

theorem cropPx_sub (g h : Grid α) (x0 x1 y0 y1 : Int) (hc : cropPx g x0 x1 y0 y1 = .ok h) : Sub h g := by
  unfold cropPx at hc
  split at hc
  · cases hc
  · have := Except.ok.inj hc
    subst this
    exact pySlice_sub _ _ _ _ _ _ rfl

theorem zoom_sub (g h : Grid α) (f : Rat) (hc : Geometry.zoom g f = .ok h) : Sub h g := by
  unfold Geometry.zoom at hc
  split at hc
  · cases hc
  · have := Except.ok.inj hc
    subst this
    exact pySlice_sub _ _ _ _ _ _ rfl

/-! ## Fresh arrays -/

theorem number_at (rows : List (List α)) (n i j : Nat) :
    ((freshIdx.number n rows)[i]?).bind (fun r => r[j]?) =
      ((rows[i]?).bind fun r => r[j]?).map fun _ => n + ((rows.take i).map List.length).sum + j := by
  induction rows generalizing n i with
  | nil => simp [freshIdx.number]
  | cons r rs ih =>
    cases i with
    | zero =>
      simp only [freshIdx.number, List.getElem?_cons_zero, Option.bind_some, List.take_zero, List.map_nil, List.sum_nil,
        Nat.add_zero]
      by_cases hj : j < r.length
      · simp [hj]
      · rw [List.getElem?_eq_none (by simp; omega), List.getElem?_eq_none (by omega)]; rfl
    | succ i =>
      simp only [freshIdx.number, List.getElem?_cons_succ, List.take_succ_cons, List.map_cons, List.sum_cons]
      rw [ih]
      congr 1
      funext _
      omega

theorem at?_fresh (g : Grid α) (i j : Nat) :
    at? (freshIdx g) i j = (at? g i j).map fun _ => ((g.rows.take i).map List.length).sum + j := by
  unfold at? freshIdx
  rw [number_at]
  simp

theorem flatten_at (rows : List (List α)) (i j : Nat) (x : α) (h : ((rows[i]?).bind fun r => r[j]?) = some x) :
    rows.flatten[((rows.take i).map List.length).sum + j]? = some x := by
  induction rows generalizing i with
  | nil => simp at h
  | cons r rs ih =>
    cases i with
    | zero =>
      simp only [List.getElem?_cons_zero, Option.bind_some] at h
      have hj : j < r.length := (List.getElem?_eq_some_iff.1 h).1
      simp only [List.take_zero, List.map_nil, List.sum_nil, Nat.zero_add, List.flatten_cons]
      rw [List.getElem?_append_left hj]; exact h
    | succ i =>
      simp only [List.getElem?_cons_succ] at h
      simp only [List.take_succ_cons, List.map_cons, List.sum_cons, List.flatten_cons]
      rw [List.getElem?_append_right (by omega)]
      have := ih i h
      convert this using 2
      omega

theorem off_mono (rows : List (List α)) (i i' j : Nat) (r : List α) (hr : rows[i]? = some r) (hj : j < r.length) (hi : i < i') :
    ((rows.take i).map List.length).sum + j < ((rows.take i').map List.length).sum := by
  induction rows generalizing i i' with
  | nil => simp at hr
  | cons q rs ih =>
    obtain ⟨i', rfl⟩ : ∃ k, i' = k + 1 := ⟨i' - 1, by omega⟩
    cases i with
    | zero =>
      simp only [List.getElem?_cons_zero, Option.some.injEq] at hr
      subst hr
      simp only [List.take_zero, List.map_nil, List.sum_nil, List.take_succ_cons, List.map_cons, List.sum_cons]
      omega
    | succ i =>
      simp only [List.getElem?_cons_succ] at hr
      simp only [List.take_succ_cons, List.map_cons, List.sum_cons]
      have := ih i i' hr (by omega)
      omega

theorem fresh_inj (g : Grid α) : Inj (freshIdx g) := by
  intro i j i' j' k h h'
  rw [at?_fresh] at h h'
  obtain ⟨x, hx, e⟩ := Option.map_eq_some_iff.1 h
  obtain ⟨x', hx', e'⟩ := Option.map_eq_some_iff.1 h'
  obtain ⟨r, hr, hj⟩ := Option.bind_eq_some_iff.1 (show ((g.rows[i]?).bind fun r => r[j]?) = some x from hx)
  obtain ⟨r', hr', hj'⟩ := Option.bind_eq_some_iff.1 (show ((g.rows[i']?).bind fun r => r[j']?) = some x' from hx')
  have l1 := (List.getElem?_eq_some_iff.1 hj).1
  have l2 := (List.getElem?_eq_some_iff.1 hj').1
  rcases Nat.lt_trichotomy i i' with hi | hi | hi
  · have := off_mono g.rows i i' j r hr l1 hi; omega
  · subst hi; exact ⟨rfl, by omega⟩
  · have := off_mono g.rows i' i j' r' hr' l2 hi; omega

theorem fresh_below (g : Grid α) : Below (freshIdx g) (flat g).length := by
  intro i j k h
  rw [at?_fresh] at h
  obtain ⟨x, hx, e⟩ := Option.map_eq_some_iff.1 h
  have := flatten_at g.rows i j x hx
  rw [e] at this
  exact (List.getElem?_eq_some_iff.1 this).1

/-- a new array shows the heights it was made from -/
theorem read_fresh (bufs : List (List (Option K))) (g : Grid (Option K)) (i j : Nat) :
    at? (readView (bufs ++ [flat g]) { buf := bufs.length, idx := freshIdx g, writable := true }) i j = at? g i j := by
  rw [at?_readView, at?_fresh]
  cases h : at? g i j with
  | none => rfl
  | some x =>
    have := flatten_at g.rows i j x h
    simp only [Option.map_some]
    have e : ((bufs ++ [flat g])[bufs.length]?).getD [] = g.rows.flatten := by simp; rfl
    rw [e, this]; rfl

/-! ## Writing cells -/

theorem foldl_set_length (cells : List Nat) (z : Option K) (b : List (Option K)) :
    (cells.foldl (fun b k => b.set k z) b).length = b.length := by
  induction cells generalizing b with
  | nil => rfl
  | cons c cs ih => rw [List.foldl_cons, ih]; simp

theorem foldl_set_get (cells : List Nat) (z : Option K) (b : List (Option K)) (k : Nat) (hk : k < b.length) :
    (cells.foldl (fun b k => b.set k z) b)[k]? = if k ∈ cells then some z else b[k]? := by
  induction cells generalizing b with
  | nil => simp
  | cons c cs ih =>
    rw [List.foldl_cons, ih _ (by simpa using hk)]
    by_cases hc : k ∈ cs
    · rw [if_pos hc, if_pos (by simp [hc])]
    · rw [if_neg hc]
      by_cases hkc : c = k
      · subst hkc
        rw [List.getElem?_set_self hk, if_pos (by simp)]
      · rw [List.getElem?_set_ne hkc, if_neg (by simp [hc]; exact fun e => hkc e.symm)]

theorem pick_spec (l : List α) (it : Item) :
    (ValidItem l.length it ↔ ∃ r, pick l it = .ok r) ∧
    ∀ r, pick l it = .ok r → ∀ x, x ∈ r ↔ ∃ a, Selects l.length it a ∧ l[a]? = some x := by
  cases it with
  | idx i =>
    simp only [ValidItem, pick, Selects]
    by_cases h0 : 0 ≤ i
    · rw [if_pos h0]
      cases hl : l[i.toNat]? with
      | none =>
        rw [List.getElem?_eq_none_iff] at hl
        refine ⟨⟨fun h => absurd h.2 (by omega), fun ⟨r, h⟩ => by cases h⟩, fun r h => by cases h⟩
      | some y =>
        have hlt := (List.getElem?_eq_some_iff.1 hl).1
        refine ⟨⟨fun _ => ⟨[y], rfl⟩, fun _ => ⟨by omega, by omega⟩⟩, fun r h x => ?_⟩
        have e := Except.ok.inj h
        subst e
        constructor
        · intro hx
          have : x = y := by simpa using hx
          subst this
          exact ⟨i.toNat, .inl (by omega), hl⟩
        · rintro ⟨a, ha, hx⟩
          have hal := (List.getElem?_eq_some_iff.1 hx).1
          have : a = i.toNat := by omega
          subst this
          rw [hl] at hx
          simp [Option.some.inj hx]
    · rw [if_neg h0]
      by_cases h1 : -i ≤ (l.length : Int)
      · rw [if_pos h1]
        have hlt : (i + l.length).toNat < l.length := by omega
        obtain ⟨y, hl⟩ : ∃ y, l[(i + l.length).toNat]? = some y := ⟨_, List.getElem?_eq_getElem hlt⟩
        rw [hl]
        refine ⟨⟨fun _ => ⟨[y], rfl⟩, fun _ => ⟨by omega, by omega⟩⟩, fun r h x => ?_⟩
        have e := Except.ok.inj h
        subst e
        constructor
        · intro hx
          have : x = y := by simpa using hx
          subst this
          exact ⟨_, .inr (by omega), hl⟩
        · rintro ⟨a, ha, hx⟩
          have : a = (i + l.length).toNat := by omega
          subst this
          rw [hl] at hx
          simp [Option.some.inj hx]
      · rw [if_neg h1]
        exact ⟨⟨fun h => absurd h.1 (by omega), fun ⟨r, h⟩ => by cases h⟩, fun r h => by cases h⟩
  | sl s =>
    simp only [ValidItem, pick, Selects]
    cases ha : s.apply l with
    | none =>
      have := (apply_none_iff s l).1 ha
      exact ⟨⟨fun h => absurd this h, fun ⟨r, h⟩ => by cases h⟩, fun r h => by cases h⟩
    | some q =>
      refine ⟨⟨fun _ => ⟨q, rfl⟩, fun _ e => by rw [(apply_none_iff s l).2 e] at ha; cases ha⟩, fun r h x => ?_⟩
      have e := Except.ok.inj h
      subst e
      rw [List.mem_iff_getElem?]
      constructor
      · rintro ⟨t, ht⟩
        rw [apply_getElem? s _ _ ha] at ht
        obtain ⟨a, h1, h2⟩ := Option.bind_eq_some_iff.1 ht
        exact ⟨a, ⟨t, h1⟩, h2⟩
      · rintro ⟨a, ⟨t, h1⟩, h2⟩
        exact ⟨t, by rw [apply_getElem? s _ _ ha, h1]; exact h2⟩

theorem select_spec (g : Grid Nat) (it : Index) :
    (Valid g.ny g.nx it ↔ ∃ c, select g it = .ok c) ∧
    ∀ c, select g it = .ok c → Inj g →
      ∀ a b k, at? g a b = some k → b < g.nx → (k ∈ c ↔ Addressed g.ny g.nx it a b) := by
  cases it with
  | one iy =>
    obtain ⟨p1, p2⟩ := pick_spec g.rows iy
    simp only [Valid, select, Addressed]
    cases hp : pick g.rows iy with
    | error e =>
      exact ⟨p1.trans ⟨fun ⟨r, h⟩ => (by rw [hp] at h; cases h), fun ⟨c, h⟩ => (by cases h)⟩, fun c h => (by cases h)⟩
    | ok rows =>
      refine ⟨⟨fun _ => ⟨_, rfl⟩, fun _ => p1.2 ⟨rows, hp⟩⟩, fun c h hinj a b k hk hnx => ?_⟩
      have e := Except.ok.inj h
      subst e
      rw [List.mem_flatten]
      constructor
      · rintro ⟨r, hr, hkr⟩
        obtain ⟨a', ha', hr'⟩ := (p2 rows hp r).1 hr
        obtain ⟨b', hb'⟩ := List.mem_iff_getElem?.1 hkr
        have := hinj a b a' b' k hk (by unfold at?; rw [hr']; exact hb')
        rw [this.1]; exact ha'
      · intro ha
        obtain ⟨r, hr, hkr⟩ := Option.bind_eq_some_iff.1 (show ((g.rows[a]?).bind fun r => r[b]?) = some k from hk)
        exact ⟨r, (p2 rows hp r).2 ⟨a, ha, hr⟩, List.mem_iff_getElem?.2 ⟨b, hkr⟩⟩
  | two iy ix =>
    obtain ⟨p1, p2⟩ := pick_spec g.rows iy
    obtain ⟨q1, q2⟩ := pick_spec (List.range g.nx) ix
    simp only [List.length_range] at q1 q2
    simp only [Valid, select, Addressed]
    cases hp : pick g.rows iy with
    | error e =>
      exact ⟨⟨fun h => (by obtain ⟨r, h⟩ := p1.1 h.1; rw [hp] at h; cases h), fun ⟨c, h⟩ => (by cases h)⟩, fun c h => (by cases h)⟩
    | ok rows =>
      dsimp only
      cases hq : pick (List.range g.nx) ix with
      | error e =>
        exact ⟨⟨fun h => (by obtain ⟨r, h⟩ := q1.1 h.2; rw [hq] at h; cases h), fun ⟨c, h⟩ => (by cases h)⟩, fun c h => (by cases h)⟩
      | ok cols =>
        refine ⟨⟨fun _ => ⟨_, rfl⟩, fun _ => ⟨p1.2 ⟨rows, hp⟩, q1.2 ⟨cols, hq⟩⟩⟩, fun c h hinj a b k hk hnx => ?_⟩
        have e := Except.ok.inj h
        subst e
        rw [List.mem_flatMap]
        constructor
        · rintro ⟨r, hr, hkr⟩
          obtain ⟨a', ha', hr'⟩ := (p2 rows hp r).1 hr
          obtain ⟨b', hb', hkb⟩ := List.mem_filterMap.1 hkr
          obtain ⟨e1, e2⟩ := hinj a b a' b' k hk (by unfold at?; rw [hr']; exact hkb)
          subst e1
          subst e2
          obtain ⟨b'', hs, hb''⟩ := (q2 cols hq b).1 hb'
          rw [List.getElem?_eq_some_iff] at hb''
          obtain ⟨hl, hb''⟩ := hb''
          rw [List.getElem_range] at hb''
          subst hb''
          exact ⟨ha', hs⟩
        · rintro ⟨ha, hb⟩
          obtain ⟨r, hr, hkr⟩ := Option.bind_eq_some_iff.1 (show ((g.rows[a]?).bind fun r => r[b]?) = some k from hk)
          refine ⟨r, (p2 rows hp r).2 ⟨a, ha, hr⟩, List.mem_filterMap.2 ⟨b, ?_, hkr⟩⟩
          exact (q2 cols hq b).2 ⟨b, hb, by rw [List.getElem?_range hnx]⟩

end Surfalize.Heap
