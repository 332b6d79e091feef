import Verif.Model.Indexing
import Verif.Spec.Geometry
import Verif.Lemmas.Geometry
import Verif.Lemmas.Lying
import Verif.Lemmas.Heap
import Verif.Spec.Indexing
/-!
# Indexing and assignment
-/
set_option linter.unusedSectionVars false
namespace Surfalize.Indexing
open Surfalize Surfalize.Spec

section Put
variable {α : Type}

theorem at?_put (g : Grid α) (p : Nat × Nat) (z : α) (i j : Nat) :
    at? (put g p z) i j = if p = (i, j) then (at? g i j).map fun _ => z else at? g i j := by
  obtain ⟨a, b⟩ := p
  unfold at? put
  simp only [List.getElem?_modify, Prod.mk.injEq]
  by_cases ha : a = i
  · subst ha
    simp only [if_true, true_and]
    cases g.rows[a]? with
    | none => simp
    | some r =>
      simp only [Option.map_eq_map, Option.map_some, Option.bind_some, List.getElem?_set]
      by_cases hb : b = j
      · subst hb
        by_cases hl : b < r.length
        · simp [hl]
        · simp [hl]
      · simp [hb]
  · cases g.rows[i]? <;> simp [ha]

theorem put_ny (g : Grid α) (p : Nat × Nat) (z : α) : (put g p z).ny = g.ny := by unfold put Grid.ny; simp

theorem put_wf {g : Grid α} (hg : g.WF) (p : Nat × Nat) (z : α) : (put g p z).WF := by
  intro r hr
  obtain ⟨k, hk, rfl⟩ := List.mem_iff_getElem.1 hr
  have h1 : k < g.rows.length := by have := hk; unfold put at this; simpa using this
  have : (put g p z).rows[k] = if p.1 = k then g.rows[k].set p.2 z else g.rows[k] := by
    exact List.getElem_modify _ _ _ _ hk
  rw [this]
  split
  · rw [List.length_set]; exact hg _ (List.getElem_mem h1)
  · exact hg _ (List.getElem_mem h1)

theorem at?_some {g : Grid α} (hg : g.WF) {i j : Nat} (hi : i < g.ny) (hj : j < g.nx) : ∃ z, at? g i j = some z := by
  unfold at?
  have hr := hg _ (List.getElem_mem hi)
  rw [List.getElem?_eq_getElem hi, Option.bind_some, List.getElem?_eq_getElem (by rw [hr]; exact hj)]
  exact ⟨_, rfl⟩

theorem at?_lt {g : Grid α} (hg : g.WF) {i j : Nat} {z : α} (h : at? g i j = some z) : i < g.ny ∧ j < g.nx := by
  unfold at? at h
  cases hr : g.rows[i]? with
  | none => rw [hr] at h; cases h
  | some r =>
    rw [hr, Option.bind_some] at h
    obtain ⟨hi, rfl⟩ := List.getElem?_eq_some_iff.1 hr
    obtain ⟨hj, -⟩ := List.getElem?_eq_some_iff.1 h
    rw [hg _ (List.getElem_mem hi)] at hj
    exact ⟨hi, hj⟩

theorem grid_ext_at {g h : Grid α} (hg : g.WF) (hh : h.WF) (hy : g.ny = h.ny) (hx : g.nx = h.nx) (e : ∀ i j, at? g i j = at? h i j) : g = h := by
  obtain ⟨rg, ng⟩ := g
  obtain ⟨rh, nh⟩ := h
  obtain rfl : ng = nh := hx
  congr 1
  refine List.ext_getElem hy fun i h1 h2 => List.ext_getElem? fun j => ?_
  have := e i j
  unfold at? at this
  simp only at this
  rw [List.getElem?_eq_getElem h1, List.getElem?_eq_getElem h2] at this
  exact this

/-- The value written last to a point. -/
def lastTo (ws : List ((Nat × Nat) × α)) (p : Nat × Nat) : Option α := (ws.reverse.find? fun w => decide (w.1 = p)).map Prod.snd

theorem lastTo_concat (ws : List ((Nat × Nat) × α)) (w : (Nat × Nat) × α) (p : Nat × Nat) :
    lastTo (ws ++ [w]) p = if w.1 = p then some w.2 else lastTo ws p := by
  unfold lastTo
  rw [List.reverse_append, List.reverse_singleton, List.singleton_append, List.find?_cons]
  by_cases h : w.1 = p
  · simp [h]
  · simp [h]

/-- What an assignment leaves. -/
theorem at?_writes (g : Grid α) (ws : List ((Nat × Nat) × α)) (i j : Nat) :
    at? (ws.foldl (fun g w => put g w.1 w.2) g) i j = match lastTo ws (i, j) with
      | some z => (at? g i j).map fun _ => z
      | none => at? g i j := by
  induction ws using List.reverseRecOn with
  | nil => rfl
  | append_singleton ws w ih =>
    rw [List.foldl_append, List.foldl_cons, List.foldl_nil, at?_put, lastTo_concat, ih]
    by_cases h : w.1 = (i, j)
    · rw [if_pos h, if_pos h]
      cases lastTo ws (i, j) with
      | none => rfl
      | some z => simp [Function.comp_def]
    · rw [if_neg h, if_neg h]

theorem writes_ny (g : Grid α) (ws : List ((Nat × Nat) × α)) : (ws.foldl (fun g w => put g w.1 w.2) g).ny = g.ny := by
  induction ws generalizing g with
  | nil => rfl
  | cons w ws ih => rw [List.foldl_cons, ih, put_ny]

theorem writes_nx (g : Grid α) (ws : List ((Nat × Nat) × α)) : (ws.foldl (fun g w => put g w.1 w.2) g).nx = g.nx := by
  induction ws generalizing g with
  | nil => rfl
  | cons w ws ih => rw [List.foldl_cons, ih]; rfl

theorem writes_wf {g : Grid α} (hg : g.WF) (ws : List ((Nat × Nat) × α)) : (ws.foldl (fun g w => put g w.1 w.2) g).WF := by
  induction ws generalizing g with
  | nil => exact hg
  | cons w ws ih => rw [List.foldl_cons]; exact ih (put_wf hg _ _)

theorem lastTo_none {ws : List ((Nat × Nat) × α)} {p : Nat × Nat} (h : ∀ w ∈ ws, w.1 ≠ p) : lastTo ws p = none := by
  unfold lastTo
  rw [List.find?_eq_none.2]
  · rfl
  · intro w hw; simpa using h w (List.mem_reverse.1 hw)

theorem lastTo_mem {ws : List ((Nat × Nat) × α)} {p : Nat × Nat} {z : α} (h : lastTo ws p = some z) : (p, z) ∈ ws := by
  unfold lastTo at h
  obtain ⟨w, hw, rfl⟩ := Option.map_eq_some_iff.1 h
  have h1 := List.find?_some hw
  have h2 := List.mem_of_find?_eq_some hw
  simp only [decide_eq_true_eq] at h1
  subst h1
  exact List.mem_reverse.1 h2

/-- The value written at step `k` stays if the point is not written to later. -/
theorem lastTo_zip {ps : List (Nat × Nat)} {vs : List α} (hl : ps.length = vs.length) {k : Nat} {p : Nat × Nat} (hp : ps[k]? = some p)
    (later : ∀ k' > k, ps[k']? ≠ some p) : lastTo (ps.zip vs) p = vs[k]? := by
  induction ps using List.reverseRecOn generalizing vs with
  | nil => simp at hp
  | append_singleton ps q ih =>
    rcases List.eq_nil_or_concat' vs with rfl | ⟨vs, v, rfl⟩
    · simp at hl
    have hl' : ps.length = vs.length := by simpa using hl
    rw [List.zip_append hl', List.zip_cons_cons, List.zip_nil_right, lastTo_concat]
    by_cases hk : k = ps.length
    · subst hk
      simp only [List.getElem?_append_right (Nat.le_refl _), Nat.sub_self, List.getElem?_cons_zero, Option.some.injEq] at hp
      rw [if_pos hp, hl', List.getElem?_append_right (Nat.le_refl _)]
      simp
    · have hlt : k < ps.length := by
        have := (List.getElem?_eq_some_iff.1 hp).1
        simp at this; omega
      have hq : q ≠ p := by
        intro e
        exact later ps.length hlt (by simp [e])
      rw [if_neg hq, List.getElem?_append_left (by omega)]
      refine ih hl' ?_ fun k' hk' e => ?_
      · rwa [List.getElem?_append_left hlt] at hp
      · have hlt' := (List.getElem?_eq_some_iff.1 e).1
        exact later k' hk' (by rw [List.getElem?_append_left hlt']; exact e)

theorem lastTo_nodup {ps : List (Nat × Nat)} {vs : List α} (hn : ps.Nodup) (hl : ps.length = vs.length) {k : Nat} {p : Nat × Nat}
    (hp : ps[k]? = some p) : lastTo (ps.zip vs) p = vs[k]? := by
  refine lastTo_zip hl hp fun k' hk' e => ?_
  obtain ⟨a, ha⟩ := List.getElem?_eq_some_iff.1 hp
  obtain ⟨b, hb⟩ := List.getElem?_eq_some_iff.1 e
  have := (List.Nodup.getElem_inj_iff hn).1 (ha.trans hb.symm)
  omega

theorem lastTo_zip_none {ps : List (Nat × Nat)} {vs : List α} {p : Nat × Nat} (h : p ∉ ps) : lastTo (ps.zip vs) p = none := by
  refine lastTo_none fun w hw e => h ?_
  have := (List.of_mem_zip (show (w.1, w.2) ∈ ps.zip vs from hw)).1
  rwa [e] at this

end Put

section Select

/-- The positions of a component. -/
def Axis.list : Axis → List Nat
  | .fixed i => [i]
  | .range l => l
  | .array l => l

theorem position_lt {n : Nat} {i : Int} {k : Nat} (h : position n i = .ok k) : k < n ∧ ((k : Int) = i ∨ (k : Int) = i + n) := by
  unfold position at h
  split at h
  · split at h
    · cases h; omega
    · cases h
  · split at h
    · cases h; omega
    · cases h

theorem slice_lt {n : Nat} {s : PySlice} {l : List Nat} (h : s.apply (List.range n) = some l) {k : Nat} (hk : k ∈ l) : k < n := by
  obtain ⟨i, hi⟩ := List.mem_iff_getElem?.1 hk
  have := Geometry.apply_getElem? s _ _ h i
  rw [hi] at this
  cases hs : sliceIdx (List.range n).length s i with
  | none => rw [hs] at this; cases this
  | some x =>
    rw [hs, Option.bind_some] at this
    have := List.mem_of_getElem? this.symm
    exact List.mem_range.1 this

theorem mapM_position {n : Nat} {l : List Int} {r : List Nat} (h : l.mapM (position n) = .ok r) :
    r.length = l.length ∧ ∀ k < l.length, ∃ i q, l[k]? = some i ∧ r[k]? = some q ∧ position n i = .ok q := by
  induction l generalizing r with
  | nil => cases h; exact ⟨rfl, fun k hk => absurd hk (by simp)⟩
  | cons a l ih =>
    rw [List.mapM_cons] at h
    cases ha : position n a with
    | error e => rw [ha] at h; cases h
    | ok q =>
      cases hl : l.mapM (position n) with
      | error e => rw [ha, hl] at h; cases h
      | ok r' =>
        rw [ha, hl] at h
        cases h
        obtain ⟨h1, h2⟩ := ih hl
        refine ⟨by simp [h1], fun k hk => ?_⟩
        cases k with
        | zero => exact ⟨a, q, rfl, rfl, ha⟩
        | succ k => exact h2 k (by simpa using hk)

theorem resolve_lt {n : Nat} {it : Item} {ax : Axis} (h : resolve n it = .ok ax) : ∀ k ∈ ax.list, k < n := by
  cases it with
  | int i =>
    simp only [resolve] at h
    cases hp : position n i with
    | error e => rw [hp] at h; cases h
    | ok q =>
      rw [hp] at h; cases h
      intro k hk
      rw [Axis.list, List.mem_singleton] at hk
      exact hk ▸ (position_lt hp).1
  | slice s =>
    simp only [resolve] at h
    cases hs : s.apply (List.range n) with
    | none => rw [hs] at h; cases h
    | some l => rw [hs] at h; cases h; exact fun k hk => slice_lt hs hk
  | ints l =>
    simp only [resolve] at h
    cases hp : l.mapM (position n) with
    | error e => rw [hp] at h; cases h
    | ok r =>
      rw [hp] at h; cases h
      intro k hk
      obtain ⟨j, hj⟩ := List.mem_iff_getElem?.1 hk
      obtain ⟨h1, h2⟩ := mapM_position hp
      obtain ⟨i, q, -, hq, e⟩ := h2 j (h1 ▸ (List.getElem?_eq_some_iff.1 hj).1)
      have : k = q := by
        have : r[j]? = some k := hj
        rw [this] at hq; exact Option.some.inj hq
      exact this ▸ (position_lt e).1
  | mask l =>
    simp only [resolve] at h
    split at h
    · rename_i hl
      cases h
      intro k hk
      rw [← hl]
      exact List.mem_range.1 (List.mem_filter.1 hk).1
    · cases h
  | ellipsis => cases h
  | mask2 m => cases h

/-- What a selection of two axes is made of. -/
theorem block_lt {ny nx : Nat} {l : List Item} {r c : List Nat} (h : select ny nx l = .ok (.block r c)) :
    (∀ i ∈ r, i < ny) ∧ ∀ j ∈ c, j < nx := by
  unfold select at h
  split at h
  · cases h
  · split at h <;> cases h
  · rename_i a b _
    cases ha : resolve ny a with
    | error e => rw [ha] at h; cases h
    | ok x =>
      cases hb : resolve nx b with
      | error e => rw [ha, hb] at h; cases x <;> cases h
      | ok y =>
        rw [ha, hb] at h
        have ra := resolve_lt ha
        have rb := resolve_lt hb
        cases x <;> cases y <;> try cases h
        all_goals first
          | exact ⟨ra, rb⟩
          | (rename_i u v; cases ht : together u v with
             | error e => simp only [ht] at h; cases h
             | ok w => simp only [ht] at h; cases h)
  · cases h

theorem expand_mask2 (m : Grid Bool) : expand [.mask2 m] = .ok [.mask2 m] := rfl
theorem expand_pair {a b : Item} (ha : a.width = 1) (hb : b.width = 1) : expand [a, b] = .ok [a, b] := by
  cases a <;> cases ha <;> cases b <;> cases hb <;> rfl
theorem expand_one {a : Item} (ha : a.width = 1) : expand [a] = .ok [a, full] := by cases a <;> cases ha <;> rfl
theorem expand_ellipsis : expand [.ellipsis] = .ok [full, full] := rfl
theorem expand_nil : expand [] = .ok [full, full] := rfl

theorem full_apply {β : Type} (l : List β) : (⟨none, none, none⟩ : PySlice).apply l = some l := by
  simp [PySlice.apply, stride_one]

theorem resolve_full (n : Nat) : resolve n full = .ok (.range (List.range n)) := by
  show (match (⟨none, none, none⟩ : PySlice).apply (List.range n) with
    | some l => Except.ok (Axis.range l)
    | none => Except.error Err.valueError) = _
  rw [full_apply]

theorem select_mask2 {ny nx : Nat} (m : Grid Bool) :
    select ny nx [.mask2 m] = if m.ny = ny ∧ m.nx = nx then .ok (.line true (maskPoints m)) else .error .indexError := by
  unfold select
  rw [expand_mask2]
  simp

theorem mem_maskPoints {m : Grid Bool} (hm : m.WF) {p : Nat × Nat} : p ∈ maskPoints m ↔ at? m p.1 p.2 = some true := by
  unfold maskPoints
  rw [List.mem_filter, decide_eq_true_eq]
  refine ⟨fun h => h.2, fun h => ⟨mem_pixels.2 (at?_lt hm h), h⟩⟩

theorem maskPoints_nodup (m : Grid Bool) : (maskPoints m).Nodup := (Lying.pixels_nodup _ _).filter _

open IndexingSpec

theorem position_iff {n : Nat} {i : Int} {k : Nat} : position n i = .ok k ↔ IsAt n i k := by
  unfold position IsAt
  split
  · split
    · rw [Except.ok.injEq]; omega
    · simp only [reduceCtorEq, false_iff]; omega
  · split
    · rw [Except.ok.injEq]; omega
    · simp only [reduceCtorEq, false_iff]; omega

theorem position_error {n : Nat} {i : Int} (h : ∀ k, ¬ IsAt n i k) : position n i = .error .indexError := by
  cases hp : position n i with
  | ok k => exact absurd (position_iff.1 hp) (h k)
  | error e =>
    unfold position at hp
    split at hp
    · split at hp
      · cases hp
      · exact hp.symm
    · split at hp
      · cases hp
      · exact hp.symm

theorem mapM_position_ok {n : Nat} {l : List Int} (h : ∀ i ∈ l, ∃ k, IsAt n i k) : ∃ r, l.mapM (position n) = .ok r := by
  induction l with
  | nil => exact ⟨[], rfl⟩
  | cons a l ih =>
    obtain ⟨k, hk⟩ := h a (by simp)
    obtain ⟨r, hr⟩ := ih fun i hi => h i (by simp [hi])
    refine ⟨k :: r, ?_⟩
    rw [List.mapM_cons, position_iff.2 hk, hr]; rfl

theorem mapM_position_error {n : Nat} {l : List Int} (h : ∃ i ∈ l, ∀ k, ¬ IsAt n i k) : l.mapM (position n) = .error .indexError := by
  induction l with
  | nil => obtain ⟨i, hi, -⟩ := h; cases hi
  | cons a l ih =>
    rw [List.mapM_cons]
    cases ha : position n a with
    | error e =>
      have : e = .indexError := by
        unfold position at ha
        split at ha
        · split at ha
          · cases ha
          · cases ha; rfl
        · split at ha
          · cases ha
          · cases ha; rfl
      rw [this]; rfl
    | ok k =>
      obtain ⟨i, hi, hn⟩ := h
      rcases List.mem_cons.1 hi with rfl | hi
      · exact absurd (position_iff.1 ha) (hn k)
      · rw [ih ⟨i, hi, hn⟩]; rfl

theorem sliceIdx_lt {n : Nat} {s : PySlice} {i x : Nat} (h : sliceIdx n s i = some x) : x < n := by
  obtain ⟨sa, sb, sk⟩ := s
  unfold sliceIdx at h
  simp only at h
  by_cases hk : 0 < sk.getD 1
  · rw [if_pos hk] at h
    have : (0 : Int) ≤ (i : Int) * sk.getD 1 := mul_nonneg (by omega) hk.le
    cases sa <;> cases sb <;> simp only [Option.ite_none_right_eq_some, Option.some.injEq] at h <;> omega
  · rw [if_neg hk] at h
    have : (i : Int) * sk.getD 1 ≤ 0 := mul_nonpos_of_nonneg_of_nonpos (by omega) (by omega)
    cases sa <;> cases sb <;> simp only [Option.ite_none_right_eq_some, Option.some.injEq] at h <;> omega

theorem slice_range {n : Nat} {s : PySlice} {r : List Nat} (h : s.apply (List.range n) = some r) (a : Nat) : r[a]? = sliceIdx n s a := by
  rw [Geometry.apply_getElem? s _ _ h a, List.length_range]
  cases hs : sliceIdx n s a with
  | none => rfl
  | some x => rw [Option.bind_some, List.getElem?_range (sliceIdx_lt hs)]

theorem slice_some {n : Nat} {s : PySlice} (h : s.step ≠ some 0) : ∃ r, s.apply (List.range n) = some r :=
  Option.ne_none_iff_exists'.1 fun hn => h ((Geometry.apply_none_iff _ _).1 hn)

theorem slice_nodup {n : Nat} {s : PySlice} (hk : s.step ≠ some 0) {r : List Nat} (h : s.apply (List.range n) = some r) : r.Nodup := by
  rw [List.nodup_iff_getElem?_ne_getElem?]
  intro i j hij hj e
  rw [slice_range h, slice_range h] at e
  cases hs : sliceIdx n s i with
  | none =>
    have h1 := slice_range h i
    rw [hs, List.getElem?_eq_none_iff] at h1
    omega
  | some x =>
    rw [hs] at e
    exact absurd (Heap.sliceIdx_inj n s hk i j x hs e.symm) (by omega)

theorem select_slices {ny nx : Nat} {sy sx : PySlice} {r c : List Nat} (hr : sy.apply (List.range ny) = some r) (hc : sx.apply (List.range nx) = some c) :
    select ny nx [.slice sy, .slice sx] = .ok (.block r c) := by
  unfold select
  rw [expand_pair rfl rfl]
  simp only [resolve, hr, hc]

/-- Row by row. -/
theorem flat_get {β : Type} {q : Nat} {L : List (List β)} (h : ∀ x ∈ L, x.length = q) {b : Nat} (hb : b < q) (a : Nat) :
    L.flatten[a * q + b]? = (L[a]?).bind fun x => x[b]? := by
  induction L generalizing a with
  | nil => simp
  | cons x L ih =>
    have hx := h x (by simp)
    rw [List.flatten_cons]
    cases a with
    | zero =>
      rw [Nat.zero_mul, Nat.zero_add, List.getElem?_append_left (by omega)]; rfl
    | succ a =>
      rw [List.getElem?_append_right (by rw [hx]; nlinarith), hx, show (a + 1) * q + b - q = a * q + b by
        rw [Nat.add_mul, Nat.one_mul]; omega, ih fun y hy => h y (by simp [hy])]
      rfl

theorem block_points (r c : List Nat) : (Sel.block r c).points = (r.map fun i => c.map fun j => (i, j)).flatten := by
  show r.flatMap _ = _
  rw [List.flatMap_def]

theorem block_get {r c : List Nat} {a b i j : Nat} (ha : r[a]? = some i) (hb : c[b]? = some j) :
    (Sel.block r c).points[a * c.length + b]? = some (i, j) := by
  rw [block_points, flat_get (q := c.length) (by simp) (List.getElem?_eq_some_iff.1 hb).1, List.getElem?_map, ha]
  simp [hb]

theorem mem_block {r c : List Nat} {i j : Nat} : (i, j) ∈ (Sel.block r c).points ↔ i ∈ r ∧ j ∈ c := by
  unfold Sel.points
  simp

theorem block_nodup {r c : List Nat} (hr : r.Nodup) (hc : c.Nodup) : (Sel.block r c).points.Nodup := by
  unfold Sel.points
  refine List.nodup_flatMap.2 ⟨fun i _ => hc.map fun a b e => by simpa using e, ?_⟩
  refine hr.imp fun {i j} hij => ?_
  intro p hp hq
  obtain ⟨_, _, rfl⟩ := List.mem_map.1 hp
  obtain ⟨_, _, e⟩ := List.mem_map.1 hq
  rw [Prod.mk.injEq] at e
  exact hij e.1.symm

theorem spread_self {α : Type} (l : List α) : spread l.length l = .ok l := by unfold spread; rw [if_pos rfl]

theorem mapM_spread_self {α : Type} {q : Nat} {L : List (List α)} (h : ∀ x ∈ L, x.length = q) : L.mapM (spread q) = .ok L := by
  induction L with
  | nil => rfl
  | cons x L ih =>
    rw [List.mapM_cons, ih fun y hy => h y (by simp [hy]), ← h x (by simp), spread_self]; rfl

theorem values_mat {α : Type} {r c : List Nat} {m : Grid α} (hm : m.WF) (hy : m.ny = r.length) (hx : m.nx = c.length) :
    values (.block r c) (.mat m) = .ok m.rows.flatten := by
  simp only [values, spreadBlock]
  have e : spread r.length m.rows = .ok m.rows := by rw [← hy]; exact spread_self _
  rw [if_pos (Or.inl hx), e]
  simp only [mapM_spread_self (q := c.length) fun x hx' => (hm x hx').trans hx]

end Select
end Surfalize.Indexing
