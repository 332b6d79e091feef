import Verif.Spec.Indexing
import Verif.Lemmas.Indexing
import Verif.Props.Geometry
import Mathlib.Data.Rat.Cast.Defs
import Mathlib.Tactic.NormNum
/-!
# C120 — heights selected and assigned through masks, lists of indices, slices and `...`
-/
set_option linter.unusedSectionVars false
namespace Surfalize.Props
open Surfalize Spec Indexing IndexingSpec

section Assign
variable {α K V : Type}

private theorem setitem_ok {o : Obj α K V} {k : Key} {v : Value α} (h : (setitem o k v).1 = .ok ()) :
    ∃ s l, o.writable = true ∧ select o.data.ny o.data.nx k.items = .ok s ∧ values s v = .ok l ∧
      (setitem o k v).2 = { o with data := (s.points.zip l).foldl (fun g w => put g w.1 w.2) o.data, cache := none } := by
  unfold setitem at h ⊢
  cases hw : o.writable with
  | false => rw [if_pos hw] at h; cases h
  | true =>
    rw [if_neg (by simp [hw])] at h ⊢
    cases hs : select o.data.ny o.data.nx k.items with
    | error e => rw [hs] at h; cases h
    | ok s =>
      rw [hs] at h
      dsimp only at h
      cases hv : values s v with
      | error e => rw [hv] at h; cases h
      | ok l => exact ⟨s, l, rfl, rfl, hv, by simp only [hv]⟩

private theorem setitem_of {o : Obj α K V} {k : Key} {v : Value α} {s : Sel} {l : List α} (hw : o.writable = true)
    (hs : select o.data.ny o.data.nx k.items = .ok s) (hv : values s v = .ok l) :
    setitem o k v = (.ok (), { o with data := (s.points.zip l).foldl (fun g w => put g w.1 w.2) o.data, cache := none }) := by
  unfold setitem
  rw [if_neg (by simp [hw]), hs]
  simp only [hv]

/-- **C120** (refused): an assignment that raises an error leaves the surface as it was, the kept parameters included. Arrays that are not writable
refuse every assignment. -/
theorem C120_refused (o : Obj α K V) (k : Key) (v : Value α) :
    (∀ e, (setitem o k v).1 = .error e → (setitem o k v).2 = o) ∧ (o.writable = false → (setitem o k v).1 = .error .readOnly) := by
  refine ⟨fun e h => ?_, fun h => by unfold setitem; rw [if_pos h]⟩
  unfold setitem at h ⊢
  split at h
  · rename_i hw; rw [if_pos hw]
  · rename_i hw; rw [if_neg hw]
    split at h
    · rfl
    · split at h
      · rfl
      · cases h

/-- The values among which the new heights are. -/
def entries : Value α → List α
  | .scalar z => [z]
  | .vec l => l
  | .mat m => m.rows.flatten

private theorem spread_mem {n : Nat} {l r : List α} (h : spread n l = .ok r) : r.length = n ∧ ∀ z ∈ r, z ∈ l := by
  unfold spread at h
  split at h
  · rename_i hl; cases h; exact ⟨hl, fun _ h => h⟩
  · split at h
    · cases h
      exact ⟨by simp, fun z hz => by rw [List.eq_of_mem_replicate hz]; simp⟩
    · cases h

private theorem mapM_spread {q : Nat} {l r : List (List α)} (h : l.mapM (spread q) = .ok r) :
    r.length = l.length ∧ (∀ x ∈ r, x.length = q) ∧ ∀ x ∈ r, ∀ z ∈ x, ∃ y ∈ l, z ∈ y := by
  induction l generalizing r with
  | nil => cases h; exact ⟨rfl, by simp, by simp⟩
  | cons a l ih =>
    rw [List.mapM_cons] at h
    cases ha : spread q a with
    | error e => rw [ha] at h; cases h
    | ok x =>
      cases hl : l.mapM (spread q) with
      | error e => rw [ha, hl] at h; cases h
      | ok r' =>
        rw [ha, hl] at h
        cases h
        obtain ⟨h1, h2, h3⟩ := ih hl
        obtain ⟨a1, a2⟩ := spread_mem ha
        refine ⟨by simp [h1], fun y hy => ?_, fun y hy z hz => ?_⟩
        · rcases List.mem_cons.1 hy with rfl | hy
          · exact a1
          · exact h2 y hy
        · rcases List.mem_cons.1 hy with rfl | hy
          · exact ⟨a, by simp, a2 z hz⟩
          · obtain ⟨w, hw, h⟩ := h3 y hy z hz
            exact ⟨w, by simp [hw], h⟩

private theorem flatten_length {q : Nat} {l : List (List α)} (h : ∀ x ∈ l, x.length = q) : l.flatten.length = l.length * q := by
  induction l with
  | nil => simp
  | cons a l ih =>
    rw [List.flatten_cons, List.length_append, ih fun x hx => h x (by simp [hx]), h a (by simp), List.length_cons]
    ring

private theorem values_mem {s : Sel} {v : Value α} {l : List α} (h : values s v = .ok l) :
    l.length = s.points.length ∧ ∀ z ∈ l, z ∈ entries v := by
  cases s with
  | point p =>
    cases v with
    | scalar z => cases h; exact ⟨rfl, fun _ h => h⟩
    | vec x =>
      simp only [values] at h
      split at h
      · cases h; exact ⟨rfl, fun _ h => h⟩
      · cases h
    | mat m =>
      simp only [values] at h
      split at h
      · rename_i e; cases h; refine ⟨rfl, fun z hz => ?_⟩; rw [entries, e]; simpa using hz
      · cases h
  | line mask ps =>
    cases v with
    | scalar z => cases h; exact ⟨by simp [Sel.points], fun z hz => by rw [List.eq_of_mem_replicate hz]; simp [entries]⟩
    | vec x => exact spread_mem h
    | mat m =>
      simp only [values, spreadLine] at h
      split at h
      · rename_i r _ e
        obtain ⟨h1, h2⟩ := spread_mem h
        exact ⟨h1, fun z hz => by rw [entries, e]; simpa using h2 z hz⟩
      · cases h
  | block r c =>
    have hl : (Sel.block r c).points.length = r.length * c.length := by
      simp [Sel.points, List.length_flatMap]
    rw [hl]
    cases v with
    | scalar z => cases h; exact ⟨by simp, fun z hz => by rw [List.eq_of_mem_replicate hz]; simp [entries]⟩
    | vec x =>
      simp only [values, spreadBlock] at h
      cases hs : spread c.length x with
      | error e => rw [hs] at h; cases h
      | ok y =>
        rw [hs] at h; cases h
        obtain ⟨h1, h2⟩ := spread_mem hs
        refine ⟨?_, fun z hz => ?_⟩
        · rw [flatten_length (q := c.length) fun x hx => by rw [List.eq_of_mem_replicate hx]; exact h1]; simp
        · obtain ⟨x, hx, hz⟩ := List.mem_flatten.1 hz
          rw [List.eq_of_mem_replicate hx] at hz
          exact h2 z hz
    | mat m =>
      simp only [values, spreadBlock] at h
      split at h
      · cases hs : spread r.length m.rows with
        | error e => rw [hs] at h; cases h
        | ok y =>
          rw [hs] at h
          dsimp only at h
          cases ht : y.mapM (spread c.length) with
          | error e => rw [ht] at h; cases h
          | ok w =>
            rw [ht] at h; cases h
            obtain ⟨h1, h2⟩ := spread_mem hs
            obtain ⟨t1, t2, t3⟩ := mapM_spread ht
            refine ⟨by rw [flatten_length t2, t1, h1], fun z hz => ?_⟩
            obtain ⟨x, hx, hz⟩ := List.mem_flatten.1 hz
            obtain ⟨u, hu, hz⟩ := t3 x hx z hz
            exact List.mem_flatten.2 ⟨u, h2 u hu, hz⟩
      · cases h

/-- **C120** (accepted): whatever the key and the value, an assignment that succeeds keeps size and step sizes, every height is the old one or one of
the assigned values, and parameters read afterwards are those of the new heights. -/
theorem C120_accepted {o : Obj α K V} (ho : o.data.WF) {k : Key} {v : Value α} (h : (setitem o k v).1 = .ok ()) :
    (setitem o k v).2.data.WF ∧ (setitem o k v).2.data.ny = o.data.ny ∧ (setitem o k v).2.data.nx = o.data.nx ∧
    (setitem o k v).2.stepY = o.stepY ∧ (setitem o k v).2.stepX = o.stepX ∧ (setitem o k v).2.writable = true ∧
    (∀ i j, at? (setitem o k v).2.data i j = at? o.data i j ∨ ∃ z ∈ entries v, at? (setitem o k v).2.data i j = some z) ∧
    ∀ P, (Indexing.read P (setitem o k v).2).1 = P (setitem o k v).2.data := by
  obtain ⟨s, l, hw, hs, hv, e⟩ := setitem_ok h
  rw [e]
  refine ⟨writes_wf ho _, writes_ny _ _, writes_nx _ _, rfl, rfl, hw, fun i j => ?_, fun P => rfl⟩
  rw [at?_writes]
  cases hl : lastTo (s.points.zip l) (i, j) with
  | none => exact Or.inl rfl
  | some z =>
    cases hg : at? o.data i j with
    | none => exact Or.inl rfl
    | some y => exact Or.inr ⟨z, (values_mem hv).2 z (List.of_mem_zip (lastTo_mem hl)).2, rfl⟩

/-- **C120** (`s[mask] = z`): the heights where the mask is `true` become `z`, all others stay. -/
theorem C120_mask {o : Obj α K V} (ho : o.data.WF) (hw : o.writable = true) {m : Grid Bool} (hm : m.WF) (hs : m.ny = o.data.ny ∧ m.nx = o.data.nx) (z : α) :
    (setitem o (.one (.mask2 m)) (.scalar z)).1 = .ok () ∧
    ∀ i < o.data.ny, ∀ j < o.data.nx, at? (setitem o (.one (.mask2 m)) (.scalar z)).2.data i j =
      if at? m i j = some true then some z else at? o.data i j := by
  have hsel : select o.data.ny o.data.nx (Key.one (.mask2 m)).items = .ok (.line true (maskPoints m)) := by
    show select _ _ [.mask2 m] = _
    rw [select_mask2, if_pos hs]
  rw [setitem_of hw hsel rfl]
  refine ⟨rfl, fun i hi j hj => ?_⟩
  show at? (((maskPoints m).zip _).foldl _ _) i j = _
  rw [at?_writes]
  by_cases h : at? m i j = some true
  · rw [if_pos h]
    obtain ⟨k, hk⟩ := List.mem_iff_getElem?.1 ((mem_maskPoints hm (p := (i, j))).2 h)
    have hlt := (List.getElem?_eq_some_iff.1 hk).1
    rw [lastTo_nodup (maskPoints_nodup m) (by simp) hk, List.getElem?_replicate, if_pos hlt]
    obtain ⟨y, hy⟩ := at?_some ho hi hj
    rw [hy]; rfl
  · rw [if_neg h, lastTo_zip_none fun hn => h ((mem_maskPoints hm).1 hn)]

/-- **C120** (`s[mask] = values`): the values are given out to the marked points row by row, from the left to the right; all others stay. With another number
of values than marked points (and more than one or none) nothing is assigned. -/
theorem C120_mask_array {o : Obj α K V} (ho : o.data.WF) (hw : o.writable = true) {m : Grid Bool} (hm : m.WF) (hs : m.ny = o.data.ny ∧ m.nx = o.data.nx)
    (l : List α) :
    (l.length = (marked m).length → (setitem o (.one (.mask2 m)) (.vec l)).1 = .ok () ∧
      heightsAt (setitem o (.one (.mask2 m)) (.vec l)).2.data (marked m) = l.map some ∧
      ∀ i j, at? m i j ≠ some true → at? (setitem o (.one (.mask2 m)) (.vec l)).2.data i j = at? o.data i j) ∧
    (l.length ≠ (marked m).length → l.length ≠ 1 → setitem o (.one (.mask2 m)) (.vec l) = (.error .valueError, o)) := by
  have hsel : select o.data.ny o.data.nx (Key.one (.mask2 m)).items = .ok (.line true (maskPoints m)) := by
    show select _ _ [.mask2 m] = _
    rw [select_mask2, if_pos hs]
  have hmk : marked m = maskPoints m := rfl
  rw [hmk]
  refine ⟨fun hl => ?_, fun hl h1 => ?_⟩
  · rw [setitem_of hw hsel (show values (.line true (maskPoints m)) (.vec l) = .ok l from by show spread _ l = _; rw [← hl]; exact spread_self l)]
    refine ⟨rfl, ?_, fun i j h => ?_⟩
    · refine List.ext_getElem? fun k => ?_
      unfold heightsAt
      rw [List.getElem?_map, List.getElem?_map]
      cases hk : (maskPoints m)[k]? with
      | none =>
        have : l[k]? = none := by rw [List.getElem?_eq_none_iff] at hk ⊢; omega
        rw [this]; rfl
      | some p =>
        have hlt := (List.getElem?_eq_some_iff.1 hk).1
        have hp := at?_lt hm ((mem_maskPoints hm).1 (List.mem_of_getElem? hk))
        obtain ⟨y, hy⟩ := at?_some ho (hs.1 ▸ hp.1) (hs.2 ▸ hp.2)
        show some (at? (((maskPoints m).zip l).foldl _ _) p.1 p.2) = _
        rw [at?_writes, lastTo_nodup (maskPoints_nodup m) hl.symm hk, List.getElem?_eq_getElem (by omega), hy]
        rfl
    · show at? (((maskPoints m).zip l).foldl _ _) i j = _
      rw [at?_writes, lastTo_zip_none fun hn => h ((mem_maskPoints hm).1 hn)]
  · unfold setitem
    rw [if_neg (by simp [hw]), hsel]
    have : values (.line true (maskPoints m)) (.vec l) = .error .valueError := by
      show spread _ l = _
      unfold spread
      rw [if_neg hl]
      match l, h1 with
      | [], _ => rfl
      | [_], h => exact absurd rfl h
      | _ :: _ :: _, _ => rfl
    simp only [this]

/-- **C120** (a mask and a two-dimensional array): ValueError, whatever the shape of the array; nothing is assigned. -/
theorem C120_mask_matrix {o : Obj α K V} (hw : o.writable = true) {m : Grid Bool} (hs : m.ny = o.data.ny ∧ m.nx = o.data.nx) (a : Grid α) :
    setitem o (.one (.mask2 m)) (.mat a) = (.error .valueError, o) := by
  have hsel : select o.data.ny o.data.nx (Key.one (.mask2 m)).items = .ok (.line true (maskPoints m)) := by
    show select _ _ [.mask2 m] = _
    rw [select_mask2, if_pos hs]
  unfold setitem
  rw [if_neg (by simp [hw]), hsel]
  have : values (.line true (maskPoints m)) (.mat a) = .error .valueError := by
    show spreadLine true (maskPoints m).length (.mat a) = _
    unfold spreadLine
    rfl
  simp only [this]

/-- **C120** (a mask of another shape): nothing is assigned. -/
theorem C120_mask_shape {o : Obj α K V} (hw : o.writable = true) {m : Grid Bool} (hs : ¬ (m.ny = o.data.ny ∧ m.nx = o.data.nx)) (v : Value α) :
    setitem o (.one (.mask2 m)) v = (.error .indexError, o) := by
  unfold setitem
  rw [if_neg (by simp [hw])]
  show (match select _ _ [.mask2 m] with
    | .error e => _
    | .ok s => _) = _
  rw [select_mask2, if_neg hs]

/-- **C120** (`s[a:b:c, d:e:f] = array`): entry `(a, b)` of the array goes to the point the slices select in place `a`, `b`; all others stay. -/
theorem C120_slices {o : Obj α K V} (ho : o.data.WF) (hw : o.writable = true) {sy sx : PySlice} (hy : sy.step ≠ some 0) (hx : sx.step ≠ some 0)
    {m : Grid α} (hm : m.WF) (ha : ∀ a, (sliceIdx o.data.ny sy a).isSome ↔ a < m.ny) (hb : ∀ b, (sliceIdx o.data.nx sx b).isSome ↔ b < m.nx) :
    (setitem o (.tuple [.slice sy, .slice sx]) (.mat m)).1 = .ok () ∧
    (∀ a b y x, sliceIdx o.data.ny sy a = some y → sliceIdx o.data.nx sx b = some x →
      at? (setitem o (.tuple [.slice sy, .slice sx]) (.mat m)).2.data y x = at? m a b) ∧
    ∀ y x, (∀ a, sliceIdx o.data.ny sy a ≠ some y) ∨ (∀ b, sliceIdx o.data.nx sx b ≠ some x) →
      at? (setitem o (.tuple [.slice sy, .slice sx]) (.mat m)).2.data y x = at? o.data y x := by
  obtain ⟨r, hr⟩ := slice_some (n := o.data.ny) hy
  obtain ⟨c, hc⟩ := slice_some (n := o.data.nx) hx
  have len : ∀ {n k : Nat} {s : PySlice} {l : List Nat}, s.apply (List.range n) = some l → (∀ a, (sliceIdx n s a).isSome ↔ a < k) → k = l.length := by
    intro n k s l hl hk
    rcases Nat.lt_trichotomy k l.length with h | h | h
    · have := (hk k).1 (by rw [← slice_range hl, List.getElem?_eq_getElem h]; rfl)
      omega
    · exact h
    · have := (hk l.length).2 h
      rw [← slice_range hl] at this
      simp at this
  have e1 := len hr ha
  have e2 := len hc hb
  have hv := values_mat hm e1 e2
  rw [setitem_of (k := .tuple [.slice sy, .slice sx]) hw (select_slices hr hc) hv]
  have hl := (values_mem hv).1
  have nd := block_nodup (slice_nodup hy hr) (slice_nodup hx hc)
  refine ⟨rfl, fun a b y x h1 h2 => ?_, fun y x h => ?_⟩
  · show at? ((Sel.points _ |>.zip _).foldl _ _) y x = _
    rw [← slice_range hr] at h1
    rw [← slice_range hc] at h2
    have hblt := (List.getElem?_eq_some_iff.1 h2).1
    rw [at?_writes, lastTo_nodup nd hl.symm (block_get h1 h2), flat_get (q := c.length) (fun x hx => (hm x hx).trans e2) hblt]
    obtain ⟨z, hz⟩ := at?_some hm (e1 ▸ (List.getElem?_eq_some_iff.1 h1).1) (e2 ▸ hblt)
    have hz' : (m.rows[a]?.bind fun x => x[b]?) = some z := hz
    rw [hz', hz]
    obtain ⟨u, hu⟩ := at?_some ho (sliceIdx_lt ((slice_range hr a).symm.trans h1)) (sliceIdx_lt ((slice_range hc b).symm.trans h2))
    rw [hu]; rfl
  · show at? ((Sel.points _ |>.zip _).foldl _ _) y x = _
    rw [at?_writes, lastTo_zip_none]
    intro hn
    obtain ⟨n1, n2⟩ := mem_block.1 hn
    obtain ⟨a, ha'⟩ := List.mem_iff_getElem?.1 n1
    obtain ⟨b, hb'⟩ := List.mem_iff_getElem?.1 n2
    rw [slice_range hr] at ha'
    rw [slice_range hc] at hb'
    rcases h with h | h
    · exact h a ha'
    · exact h b hb'

private theorem select_ints {ny nx : Nat} {r c : List Int} (hl : r.length = c.length) (hr : ∀ i ∈ r, ∃ y, IsAt ny i y) (hc : ∀ i ∈ c, ∃ x, IsAt nx i x) :
    ∃ r' c', r.mapM (position ny) = .ok r' ∧ c.mapM (position nx) = .ok c' ∧ r'.length = c'.length ∧
      select ny nx [.ints r, .ints c] = .ok (.line false (r'.zip c')) := by
  obtain ⟨r', hr'⟩ := mapM_position_ok hr
  obtain ⟨c', hc'⟩ := mapM_position_ok hc
  have e : r'.length = c'.length := by rw [(mapM_position hr').1, (mapM_position hc').1, hl]
  refine ⟨r', c', hr', hc', e, ?_⟩
  unfold select
  rw [expand_pair rfl rfl]
  simp only [resolve, hr', hc', Except.map]
  unfold together
  rw [if_pos e]

private theorem at_unique {n : Nat} {i : Int} {a b : Nat} (h : IsAt n i a) (h' : IsAt n i b) : a = b := by
  unfold IsAt at h h'; omega

/-- **C120** (`s[rows, columns] = values` with lists of indices): value `k` goes to the point in row `rows[k]` and column `columns[k]`; if a point is named
several times the last value stays; all others keep their heights. -/
theorem C120_points {o : Obj α K V} (ho : o.data.WF) (hw : o.writable = true) {r c : List Int} {l : List α} (hl : r.length = c.length)
    (hv : l.length = r.length) (hr : ∀ i ∈ r, ∃ y, IsAt o.data.ny i y) (hc : ∀ i ∈ c, ∃ x, IsAt o.data.nx i x) :
    (setitem o (.tuple [.ints r, .ints c]) (.vec l)).1 = .ok () ∧
    (∀ (k : Nat) (i j : Int) (y x : Nat), r[k]? = some i → c[k]? = some j → IsAt o.data.ny i y → IsAt o.data.nx j x →
      (∀ k' > k, ∀ (i' j' : Int), r[k']? = some i' → c[k']? = some j' → ¬ (IsAt o.data.ny i' y ∧ IsAt o.data.nx j' x)) →
      at? (setitem o (.tuple [.ints r, .ints c]) (.vec l)).2.data y x = l[k]?) ∧
    ∀ y x, (∀ (k : Nat) (i j : Int), r[k]? = some i → c[k]? = some j → ¬ (IsAt o.data.ny i y ∧ IsAt o.data.nx j x)) →
      at? (setitem o (.tuple [.ints r, .ints c]) (.vec l)).2.data y x = at? o.data y x := by
  obtain ⟨r', c', hr', hc', e, hs⟩ := select_ints hl hr hc
  obtain ⟨lr, gr⟩ := mapM_position hr'
  obtain ⟨lc, gc⟩ := mapM_position hc'
  have hlen : (r'.zip c').length = l.length := by rw [List.length_zip]; omega
  have hval : values (.line false (r'.zip c')) (.vec l) = .ok l := by
    show spread _ l = _
    rw [hlen]; exact spread_self l
  rw [setitem_of (k := .tuple [.ints r, .ints c]) hw hs hval]
  have key : ∀ (k y x : Nat), (r'.zip c')[k]? = some (y, x) → ∃ i j, r[k]? = some i ∧ c[k]? = some j ∧ IsAt o.data.ny i y ∧ IsAt o.data.nx j x := by
    intro k y x h
    rw [List.getElem?_zip_eq_some] at h
    obtain ⟨h1, h2⟩ := h
    obtain ⟨i, q, a1, a2, a3⟩ := gr k (by rw [← lr]; exact (List.getElem?_eq_some_iff.1 h1).1)
    obtain ⟨j, q', b1, b2, b3⟩ := gc k (by rw [← lc]; exact (List.getElem?_eq_some_iff.1 h2).1)
    rw [h1] at a2; rw [h2] at b2
    cases a2; cases b2
    exact ⟨i, j, a1, b1, position_iff.1 a3, position_iff.1 b3⟩
  refine ⟨rfl, fun k i j y x h1 h2 h3 h4 later => ?_, fun y x h => ?_⟩
  · show at? (((r'.zip c').zip l).foldl _ _) y x = _
    have hk : (r'.zip c')[k]? = some (y, x) := by
      rw [List.getElem?_zip_eq_some]
      obtain ⟨i', q, a1, a2, a3⟩ := gr k (List.getElem?_eq_some_iff.1 h1).1
      obtain ⟨j', q', b1, b2, b3⟩ := gc k (List.getElem?_eq_some_iff.1 h2).1
      rw [h1] at a1; rw [h2] at b1
      cases a1; cases b1
      exact ⟨a2.trans (congrArg some (at_unique (position_iff.1 a3) h3)), b2.trans (congrArg some (at_unique (position_iff.1 b3) h4))⟩
    rw [at?_writes, lastTo_zip hlen hk fun k' hk' e => by
      obtain ⟨i', j', a1, a2, a3, a4⟩ := key k' y x e
      exact later k' hk' i' j' a1 a2 ⟨a3, a4⟩]
    have : k < l.length := by rw [hv]; exact (List.getElem?_eq_some_iff.1 h1).1
    rw [List.getElem?_eq_getElem this]
    obtain ⟨u, hu⟩ := at?_some ho h3.1 h4.1
    rw [hu]; rfl
  · show at? (((r'.zip c').zip l).foldl _ _) y x = _
    rw [at?_writes, lastTo_zip_none]
    intro hn
    obtain ⟨k, hk⟩ := List.mem_iff_getElem?.1 hn
    obtain ⟨i, j, a1, a2, a3, a4⟩ := key k y x hk
    exact h k i j a1 a2 ⟨a3, a4⟩

private theorem mapM_replicate {n : Nat} {i : Int} (k : Nat) : (List.replicate (k + 1) i).mapM (position n) = (position n i).map (List.replicate (k + 1)) := by
  induction k with
  | zero => cases h : position n i <;> simp [h] <;> rfl
  | succ k ih =>
    rw [List.replicate_succ, List.mapM_cons, ih]
    cases position n i <;> rfl

private theorem together_row (i : Nat) (c : List Nat) : together [i] c = together (List.replicate c.length i) c := by
  have e : together (List.replicate c.length i) c = .ok (c.map fun j => (i, j)) := by
    unfold together
    rw [if_pos (by simp)]
    congr 1
    induction c with
    | nil => rfl
    | cons j c ih => rw [List.length_cons, List.replicate_succ, List.zip_cons_cons, ih]; rfl
  rw [e]
  unfold together
  by_cases h : [i].length = c.length
  · rw [if_pos h]
    match c, h with
    | [j], _ => rfl
  · rw [if_neg h]

private theorem together_column (j : Nat) (r : List Nat) : together r [j] = together r (List.replicate r.length j) := by
  have e : together r (List.replicate r.length j) = .ok (r.map fun i => (i, j)) := by
    unfold together
    rw [if_pos (by simp)]
    congr 1
    induction r with
    | nil => rfl
    | cons i r ih => rw [List.length_cons, List.replicate_succ, List.zip_cons_cons, ih]; rfl
  rw [e]
  unfold together
  by_cases h : r.length = [j].length
  · rw [if_pos h]
    match r, h with
    | [i], _ => rfl
  · rw [if_neg h]
    match r, h with
    | [], _ => rfl
    | [i], h => exact absurd rfl h
    | _ :: _ :: _, _ => rfl

/-- **C120** (one row and several columns, one column and several rows): a list with one index means this index again and again. -/
theorem C120_points_repeat (o : Obj α K V) (i : Int) (l : List Int) (hl : l ≠ []) (v : Value α) :
    setitem o (.tuple [.ints [i], .ints l]) v = setitem o (.tuple [.ints (List.replicate l.length i), .ints l]) v ∧
    setitem o (.tuple [.ints l, .ints [i]]) v = setitem o (.tuple [.ints l, .ints (List.replicate l.length i)]) v := by
  obtain ⟨k, hk⟩ : ∃ k, l.length = k + 1 := ⟨l.length - 1, by have := List.length_pos_iff.2 hl; omega⟩
  have sel : ∀ a b : List Int, select o.data.ny o.data.nx [.ints a, .ints b] = match a.mapM (position o.data.ny), b.mapM (position o.data.nx) with
      | .error e, _ => .error e
      | _, .error e => .error e
      | .ok r, .ok c => (together r c).map (.line false) := by
    intro a b
    unfold select
    rw [expand_pair rfl rfl]
    simp only [resolve]
    cases a.mapM (position o.data.ny) <;> cases b.mapM (position o.data.nx) <;> rfl
  have one : ∀ n, [i].mapM (position n) = (position n i).map fun y => [y] := by
    intro n
    rw [List.mapM_cons]
    cases position n i <;> rfl
  have e1 : select o.data.ny o.data.nx [.ints [i], .ints l] = select o.data.ny o.data.nx [.ints (List.replicate l.length i), .ints l] := by
    rw [sel, sel, hk, mapM_replicate, one]
    cases h1 : position o.data.ny i with
    | error e => rfl
    | ok y =>
      cases h2 : l.mapM (position o.data.nx) with
      | error e => rfl
      | ok c =>
        have hc : c.length = k + 1 := (mapM_position h2).1.trans hk
        show (together [y] c).map _ = (together (List.replicate (k + 1) y) c).map _
        rw [together_row, hc]
  have e2 : select o.data.ny o.data.nx [.ints l, .ints [i]] = select o.data.ny o.data.nx [.ints l, .ints (List.replicate l.length i)] := by
    rw [sel, sel, hk, mapM_replicate, one]
    cases h2 : l.mapM (position o.data.ny) with
    | error e => rfl
    | ok c =>
      cases h1 : position o.data.nx i with
      | error e => rfl
      | ok y =>
        have hc : c.length = k + 1 := (mapM_position h2).1.trans hk
        show (together c [y]).map _ = (together c (List.replicate (k + 1) y)).map _
        rw [together_column, hc]
  constructor
  · unfold setitem
    show (if _ then _ else match select _ _ [.ints [i], .ints l] with | .error e => _ | .ok s => _) = _
    rw [e1]; rfl
  · unfold setitem
    show (if _ then _ else match select _ _ [.ints l, .ints [i]] with | .error e => _ | .ok s => _) = _
    rw [e2]; rfl

/-- **C120** (an index outside the surface): nothing is assigned, not even at the other points. -/
theorem C120_points_outside {o : Obj α K V} (hw : o.writable = true) {r c : List Int} (h : (∃ i ∈ r, ∀ y, ¬ IsAt o.data.ny i y) ∨
    (∃ j ∈ c, ∀ x, ¬ IsAt o.data.nx j x)) (v : Value α) : setitem o (.tuple [.ints r, .ints c]) v = (.error .indexError, o) := by
  have hs : select o.data.ny o.data.nx [.ints r, .ints c] = .error .indexError := by
    unfold select
    rw [expand_pair rfl rfl]
    simp only [resolve]
    by_cases hr : ∃ i ∈ r, ∀ y, ¬ IsAt o.data.ny i y
    · rw [mapM_position_error hr]; rfl
    · obtain ⟨r', hr'⟩ := mapM_position_ok (l := r) (n := o.data.ny) fun i hi => by
        by_contra hn; exact hr ⟨i, hi, fun y hy => hn ⟨y, hy⟩⟩
      rw [hr', mapM_position_error (h.resolve_left hr)]; rfl
  unfold setitem
  rw [if_neg (by simp [hw])]
  show (match select o.data.ny o.data.nx [.ints r, .ints c] with
    | .error e => _
    | .ok s => _) = _
  rw [hs]

end Assign

section Select
variable {α K V : Type} [Ring K]

private theorem getitem_ok {g h : Grid α} {stepY stepX ty tx : K} {k : Key} (e : Indexing.getitem g stepY stepX k = .ok (h, ty, tx)) :
    steps stepY stepX k = .ok (ty, tx) ∧ ∃ r c, select g.ny g.nx k.items = .ok (.block r c) ∧
      h = { rows := r.map fun i => c.filterMap fun j => (g.rows[i]?).bind fun x => x[j]?, nx := c.length } := by
  unfold Indexing.getitem at e
  cases hs : steps stepY stepX k with
  | error x => rw [hs] at e; cases e
  | ok t =>
    obtain ⟨a, b⟩ := t
    rw [hs] at e
    dsimp only at e
    split at e
    · cases e
    · rename_i r c hsel
      cases e
      exact ⟨rfl, r, c, hsel, rfl⟩
    · cases e

private theorem getitem_of {g : Grid α} {stepY stepX ty tx : K} {k : Key} {r c : List Nat} (hs : steps stepY stepX k = .ok (ty, tx))
    (h : select g.ny g.nx k.items = .ok (.block r c)) : Indexing.getitem g stepY stepX k =
      .ok ({ rows := r.map fun i => c.filterMap fun j => (g.rows[i]?).bind fun x => x[j]?, nx := c.length }, ty, tx) := by
  unfold Indexing.getitem
  rw [hs]
  dsimp only
  rw [h]

private theorem row_get {g : Grid α} (hg : g.WF) {i : Nat} (hi : i < g.ny) {c : List Nat} (hc : ∀ j ∈ c, j < g.nx) :
    (c.filterMap fun j => (g.rows[i]?).bind fun x => x[j]?).length = c.length ∧
    ∀ b : Nat, (c.filterMap fun j => (g.rows[i]?).bind fun x => x[j]?)[b]? = (c[b]?).bind fun j => at? g i j := by
  induction c with
  | nil => exact ⟨rfl, by simp⟩
  | cons j c ih =>
    obtain ⟨h1, h2⟩ := ih fun j hj => hc j (by simp [hj])
    obtain ⟨z, hz⟩ := at?_some hg hi (hc j (by simp))
    have hz' : ((g.rows[i]?).bind fun x => x[j]?) = some z := hz
    rw [List.filterMap_cons, hz']
    refine ⟨by simp [h1], fun b => ?_⟩
    cases b with
    | zero => simp [hz]
    | succ b => simpa using h2 b

private theorem block_wf {g : Grid α} (hg : g.WF) {r c : List Nat} (hr : ∀ i ∈ r, i < g.ny) (hc : ∀ j ∈ c, j < g.nx) :
    ({ rows := r.map fun i => c.filterMap fun j => (g.rows[i]?).bind fun x => x[j]?, nx := c.length } : Grid α).WF ∧
    ∀ a b, at? ({ rows := r.map fun i => c.filterMap fun j => (g.rows[i]?).bind fun x => x[j]?, nx := c.length } : Grid α) a b =
      (r[a]?).bind fun i => (c[b]?).bind fun j => at? g i j := by
  refine ⟨fun x hx => ?_, fun a b => ?_⟩
  · obtain ⟨i, hi, rfl⟩ := List.mem_map.1 hx
    exact (row_get hg (hr i hi) hc).1
  · show (((r.map _)[a]?).bind fun x => x[b]?) = _
    rw [List.getElem?_map]
    cases ha : r[a]? with
    | none => rfl
    | some i => exact (row_get hg (hr i (List.mem_of_getElem? ha)) hc).2 b

/-- **C120** (putting back what was taken out): whenever `s[key]` is a surface, assigning its heights to the same key succeeds and changes no height. -/
theorem C120_put_back {o : Obj α K V} (ho : o.data.WF) (hw : o.writable = true) {k : Key} {h : Grid α} {stepY stepX ty tx : K}
    (e : Indexing.getitem o.data stepY stepX k = .ok (h, ty, tx)) :
    (setitem o k (.mat h)).1 = .ok () ∧ (setitem o k (.mat h)).2.data = o.data := by
  obtain ⟨-, r, c, hs, rfl⟩ := getitem_ok e
  obtain ⟨hr, hc⟩ := block_lt hs
  obtain ⟨wf, gt⟩ := block_wf ho hr hc
  have hv := values_mat (r := r) (c := c) wf (by simp [Grid.ny]) rfl
  rw [setitem_of hw hs hv]
  refine ⟨rfl, ?_⟩
  refine grid_ext_at (writes_wf ho _) ho (writes_ny _ _) (writes_nx _ _) fun i j => ?_
  rw [at?_writes]
  cases hl : lastTo _ (i, j) with
  | none => rfl
  | some z =>
    have hm := lastTo_mem hl
    obtain ⟨n, hn⟩ := List.mem_iff_getElem?.1 hm
    rw [List.getElem?_zip_eq_some] at hn
    obtain ⟨n1, n2⟩ := hn
    dsimp only at n1 n2
    have hq : 0 < c.length := by
      rcases Nat.eq_zero_or_pos c.length with h0 | h0
      · rw [List.length_eq_zero_iff.1 h0] at n1; simp [Sel.points] at n1
      · exact h0
    have hd : n / c.length * c.length + n % c.length = n := Nat.div_add_mod' n c.length
    have hb := Nat.mod_lt n hq
    rw [← hd, block_points, flat_get (q := c.length) (by simp) hb, List.getElem?_map] at n1
    rw [← hd, flat_get (q := c.length) wf hb] at n2
    have g2 := gt (n / c.length) (n % c.length)
    unfold at? at g2
    rw [n2] at g2
    cases ha : r[n / c.length]? with
    | none => rw [ha] at n1; cases n1
    | some i' =>
      rw [ha] at n1 g2
      simp only [Option.map_some, Option.bind_some, List.getElem?_map] at n1 g2
      cases hb' : c[n % c.length]? with
      | none => rw [hb'] at n1; cases n1
      | some j' =>
        rw [hb'] at n1 g2
        simp only [Option.map_some, Option.some.injEq, Prod.mk.injEq, Option.bind_some] at n1 g2
        obtain ⟨rfl, rfl⟩ := n1
        have g3 : at? o.data i' j' = some z := g2.symm
        rw [g3]; rfl

/-- **C120** (`s[[i, j, …]]`): the rows named by the list, in its order and as often as named, with the step sizes of the surface. -/
theorem C120_rows {g : Grid α} (hg : g.WF) (stepY stepX : K) {l : List Int} (hl : ∀ i ∈ l, ∃ y, IsAt g.ny i y) :
    ∃ h, Indexing.getitem g stepY stepX (.one (.ints l)) = .ok (h, stepY, stepX) ∧ h.WF ∧ h.ny = l.length ∧ h.nx = g.nx ∧
      ∀ (k : Nat) (i : Int) (y : Nat), l[k]? = some i → IsAt g.ny i y → ∀ j, at? h k j = at? g y j := by
  obtain ⟨r, hr⟩ := mapM_position_ok hl
  obtain ⟨lr, gr⟩ := mapM_position hr
  have hs : select g.ny g.nx (Key.one (.ints l)).items = .ok (.block r (List.range g.nx)) := by
    show select _ _ [.ints l] = _
    unfold select
    rw [expand_one rfl]
    simp only [resolve_full]
    simp only [resolve, hr, Except.map]
  obtain ⟨b1, b2⟩ := block_lt hs
  obtain ⟨wf, gt⟩ := block_wf hg b1 b2
  refine ⟨_, ?_, wf, ?_, ?_, fun k i y hk hi j => ?_⟩
  · unfold Indexing.getitem
    simp only [steps, newStep, hs]
  · simp [Grid.ny, lr]
  · simp
  · obtain ⟨i', q, a1, a2, a3⟩ := gr k (List.getElem?_eq_some_iff.1 hk).1
    rw [hk] at a1; cases a1
    rw [gt, a2, at_unique (position_iff.1 a3) hi, Option.bind_some]
    by_cases hj : j < g.nx
    · rw [List.getElem?_range hj]; rfl
    · rw [List.getElem?_eq_none (by simp; omega)]
      cases hz : at? g y j with
      | none => rfl
      | some z => exact absurd (at?_lt hg hz).2 hj

/-- **C120** (violated, distances of listed rows): the step size does not follow the listed rows. `s[[0, 2]]` keeps `step_y`, although its rows are two steps apart;
`s[::2]` has the right one. -/
theorem C120_rows_step_violated (a b c : α) (stepY stepX : K) (h0 : stepY ≠ 0) :
    ∃ h ty ty', Indexing.getitem ⟨[[a], [b], [c]], 1⟩ stepY stepX (.one (.ints [0, 2])) = .ok (h, ty, stepX) ∧
      Indexing.getitem ⟨[[a], [b], [c]], 1⟩ stepY stepX (.one (.slice ⟨none, none, some 2⟩)) = .ok (h, ty', stepX) ∧ ty ≠ ty' := by
  refine ⟨⟨[[a], [c]], 1⟩, stepY, 2 * stepY, ?_, ?_, ?_⟩
  · exact getitem_of (r := [0, 2]) (c := [0]) rfl (show select 3 1 [.ints [0, 2]] = .ok (.block [0, 2] [0]) by decide +kernel)
  · refine getitem_of (r := [0, 2]) (c := [0]) ?_ (show select 3 1 [.slice ⟨none, none, some 2⟩] = .ok (.block [0, 2] [0]) by decide +kernel)
    simp [steps, newStep]
  · intro e
    rw [two_mul] at e
    exact h0 (left_eq_add.1 e)

/-- **C120** (violated, `...`): the steps of slices behind `...` are given to the wrong axes. `s[..., ::2, ::3]` takes every second row and every third column but multiplies
`step_x` by 2 and leaves `step_y`. -/
theorem C120_ellipsis_steps_violated (g : Grid α) (stepY stepX : K) (a b : Int) :
    (steps stepY stepX (.tuple [.ellipsis, .slice ⟨none, none, some a⟩, .slice ⟨none, none, some b⟩]) = .ok (stepY, (a : K) * stepX)) ∧
    select g.ny g.nx (Key.tuple [.ellipsis, .slice ⟨none, none, some a⟩, .slice ⟨none, none, some b⟩]).items =
      select g.ny g.nx (Key.tuple [.slice ⟨none, none, some a⟩, .slice ⟨none, none, some b⟩]).items := ⟨rfl, rfl⟩

/-- **C120** (violated, tuples of one component): `s[(key,)]` raises IndexError, whatever the key, although numpy takes it for `s[key]` and an assignment to it works. -/
theorem C120_one_tuple_violated (g : Grid α) (stepY stepX : K) (i : Item) :
    Indexing.getitem g stepY stepX (.tuple [i]) = .error .indexError ∧ Indexing.getitem g stepY stepX (.tuple []) = .error .indexError ∧
    ∀ (o : Obj α K V) v, setitem o (.tuple [i]) v = setitem o (.one i) v := ⟨rfl, rfl, fun _ _ => rfl⟩

/-- **C120** (masks and lists of points): a mask of the shape of the surface, or a list of rows with a list of columns, never selects a surface. -/
theorem C120_no_surface (g : Grid α) (stepY stepX : K) (m : Grid Bool) (r c : List Int) :
    Indexing.getitem g stepY stepX (.one (.mask2 m)) = .error .indexError ∧
    Indexing.getitem g stepY stepX (.tuple [.ints r, .ints c]) = .error .indexError := by
  constructor
  · unfold Indexing.getitem
    show (match select _ _ [.mask2 m] with
      | .error e => _
      | .ok (.block r c) => _
      | .ok _ => _) = _
    rw [select_mask2]
    split <;> rename_i h <;> split at h <;> cases h <;> rfl
  · unfold Indexing.getitem
    show (match select _ _ [.ints r, .ints c] with
      | .error e => _
      | .ok (.block r c) => _
      | .ok _ => _) = _
    unfold select
    rw [expand_pair rfl rfl]
    simp only [resolve]
    have er : ∀ n (l : List Int), (∃ k, l.mapM (position n) = .ok k) ∨ l.mapM (position n) = .error .indexError := by
      intro n l
      by_cases h : ∃ i ∈ l, ∀ k, ¬ IsAt n i k
      · exact Or.inr (mapM_position_error h)
      · refine Or.inl (mapM_position_ok fun i hi => ?_)
        by_contra hn; exact h ⟨i, hi, fun k hk => hn ⟨k, hk⟩⟩
    rcases er g.ny r with ⟨k, hk⟩ | hk <;> rcases er g.nx c with ⟨k', hk'⟩ | hk' <;> rw [hk, hk'] <;> try rfl
    have : (∃ w, together k k' = .ok w) ∨ together k k' = .error .indexError := by
      unfold together
      split
      · exact Or.inl ⟨_, rfl⟩
      · split
        · exact Or.inl ⟨_, rfl⟩
        · exact Or.inl ⟨_, rfl⟩
        · exact Or.inr rfl
    rcases this with ⟨w, h⟩ | h <;> simp only [Except.map, h]

private theorem trues_concat (l : List Bool) (b : Bool) : trues (l ++ [b]) = trues l ++ if b then [l.length] else [] := by
  unfold trues
  rw [List.length_append, List.length_singleton, List.range_succ, List.filter_append]
  congr 1
  · refine List.filter_congr fun i hi => ?_
    rw [List.getElem?_append_left (List.mem_range.1 hi)]
  · cases b <;> simp

private theorem trues_rows : ∀ (l : List Bool) (rows : List (List α)), l.length = rows.length →
    ((rows.zip l).filter (·.2)).map (·.1) = (trues l).filterMap fun i => rows[i]? := by
  intro l
  induction l using List.reverseRecOn with
  | nil => intro rows _; simp [trues]
  | append_singleton l b ih =>
    intro rows h
    rcases List.eq_nil_or_concat' rows with rfl | ⟨rows, x, rfl⟩
    · simp at h
    have hl : l.length = rows.length := by simpa using h
    rw [List.zip_append hl.symm, List.filter_append, List.map_append, ih rows hl, trues_concat, List.filterMap_append]
    congr 1
    · refine List.filterMap_congr fun i hi => ?_
      rw [List.getElem?_append_left (by rw [← hl]; exact List.mem_range.1 (List.mem_filter.1 hi).1)]
    · cases b <;> simp [hl]

/-- **C120** (`s[mask]` with one truth value per row): the marked rows in their order. -/
theorem C120_mask_rows {g : Grid α} (hg : g.WF) (stepY stepX : K) {l : List Bool} (hl : l.length = g.ny) :
    Indexing.getitem g stepY stepX (.one (.mask l)) = .ok (⟨((g.rows.zip l).filter (·.2)).map (·.1), g.nx⟩, stepY, stepX) := by
  have hs : select g.ny g.nx (Key.one (.mask l)).items = .ok (.block (trues l) (List.range g.nx)) := by
    show select _ _ [.mask l] = _
    unfold select
    rw [expand_one rfl]
    simp only [resolve_full]
    simp only [resolve]
    rw [if_pos hl]
  rw [getitem_of (ty := stepY) (tx := stepX) rfl hs, trues_rows l g.rows hl]
  obtain ⟨b1, b2⟩ := block_lt hs
  congr 2
  rw [List.length_range]
  congr 1
  rw [← List.filterMap_eq_map]
  refine List.filterMap_congr fun i hi => ?_
  have hi' := b1 i hi
  have e : g.rows[i]? = some g.rows[i] := List.getElem?_eq_getElem hi'
  rw [Function.comp_apply, e]
  congr 1
  obtain ⟨r1, r2⟩ := row_get hg hi' b2
  rw [e] at r1 r2
  refine List.ext_getElem? fun b => ?_
  rw [r2]
  by_cases hb : b < g.nx
  · rw [List.getElem?_range hb, Option.bind_some]; unfold at?; rw [e]; rfl
  · rw [List.getElem?_eq_none (by simp; omega)]
    have := hg _ (List.getElem_mem hi')
    rw [List.getElem?_eq_none (by omega)]; rfl

/-- **C120** (a mask with the wrong number of truth values) selects nothing: IndexError. -/
theorem C120_mask_rows_length (g : Grid α) (stepY stepX : K) {l : List Bool} (hl : l.length ≠ g.ny) :
    Indexing.getitem g stepY stepX (.one (.mask l)) = .error .indexError := by
  have hs : select g.ny g.nx [.mask l] = .error .indexError := by
    unfold select
    rw [expand_one rfl]
    simp only [resolve]
    rw [if_neg hl]
  unfold Indexing.getitem Key.items
  simp only [steps]
  rw [hs]

/-- **C120** (keys that ask for too much): a tuple in which three components, none of them `...`, stand beside others, a mask of the shape of the surface beside another
index, or `...` twice, is an IndexError: nothing is selected and nothing assigned. -/
theorem C120_too_many {o : Obj α K V} (hw : o.writable = true) (stepY stepX : K) (l : List Item)
    (h : (∃ a b c, [a, b, c].Sublist l ∧ a.isEllipsis = false ∧ b.isEllipsis = false ∧ c.isEllipsis = false) ∨
      (∃ m b, ([.mask2 m, b].Sublist l ∨ [b, .mask2 m].Sublist l) ∧ b.isEllipsis = false) ∨ [.ellipsis, .ellipsis].Sublist l) :
    Indexing.getitem o.data stepY stepX (.tuple l) = .error .indexError ∧ ∀ v, setitem o (.tuple l) v = (.error .indexError, o) := by
  have w1 : ∀ a : Item, a.isEllipsis = false → 1 ≤ a.width := fun a ha => by cases a <;> simp_all [Item.isEllipsis, Item.width]
  have he : expand l = .error .indexError := by
    unfold expand
    have sub : ∀ {l' : List Item}, l'.Sublist l → (l'.map Item.width).sum ≤ (l.map Item.width).sum := fun hs =>
      (hs.map Item.width).sum_le_sum (by simp)
    rcases h with ⟨a, b, c, hs, ha, hb, hc⟩ | ⟨m, b, hs, hb⟩ | hs
    · have := sub hs
      simp only [List.map_cons, List.map_nil, List.sum_cons, List.sum_nil] at this
      have := w1 a ha; have := w1 b hb; have := w1 c hc
      have c : 2 < (l.map Item.width).sum := by omega
      rw [if_pos c]
    · have hb := w1 b hb
      have c : 2 < (l.map Item.width).sum := by
        have hm : (Item.mask2 m).width = 2 := rfl
        rcases hs with hs | hs <;> (have := sub hs; simp only [List.map_cons, List.map_nil, List.sum_cons, List.sum_nil, hm] at this; omega)
      rw [if_pos c]
    · have c : 1 < l.countP Item.isEllipsis := by
        have := hs.countP_le (p := Item.isEllipsis)
        have e : [Item.ellipsis, Item.ellipsis].countP Item.isEllipsis = 2 := rfl
        omega
      rw [if_pos c, ite_self]
  have hsel : ∀ ny nx, select ny nx l = .error .indexError := fun ny nx => by unfold select; rw [he]
  constructor
  · unfold Indexing.getitem
    show (match steps stepY stepX (.tuple l) with
      | .error e => _
      | .ok (ty, tx) => match select _ _ l with
        | .error e => _
        | .ok (.block r c) => _
        | .ok _ => _) = _
    rw [hsel]
    rcases l with _ | ⟨a, _ | ⟨b, l⟩⟩ <;> rfl
  · intro v
    unfold setitem
    rw [if_neg (by simp [hw])]
    show (match select _ _ l with
      | .error e => _
      | .ok s => _) = _
    rw [hsel]

example (v : Value ℚ) : setitem (⟨⟨[[1, 2], [3, 4]], 2⟩, true, 1, 1, none⟩ : Obj ℚ ℚ ℚ) (.tuple [.int 0, .ellipsis, .int 1, .int 0]) v = (.error .indexError, ⟨⟨[[1, 2], [3, 4]], 2⟩, true, 1, 1, none⟩) :=
  (C120_too_many rfl (1 : ℚ) 1 _ (.inl ⟨.int 0, .int 1, .int 0, by simp, rfl, rfl, rfl⟩)).2 v

end Select

/-- **C120** (slices): for slices the model of this file and the one of C24 are the same, with and without `...`. -/
theorem C120_slices_select {α K : Type} [Field K] [LinearOrder K] [IsStrictOrderedRing K] [FloorRing K] {g : Grid α} (hg : g.WF) (stepY stepX : K) {sy sx : PySlice}
    (hy : sy.step ≠ some 0) (hx : sx.step ≠ some 0) :
    Indexing.getitem g stepY stepX (.tuple [.slice sy, .slice sx]) = Geometry.getitem g stepY stepX (.two (.sl sy) (.sl sx)) ∧
    Indexing.getitem g stepY stepX (.tuple [.slice sy, .ellipsis]) = Indexing.getitem g stepY stepX (.one (.slice sy)) ∧
    Indexing.getitem g stepY stepX (.one .ellipsis) = .ok (g, stepY, stepX) := by
  obtain ⟨r, hr⟩ := slice_some (n := g.ny) hy
  obtain ⟨c, hc⟩ := slice_some (n := g.nx) hx
  have ns : ∀ (t : K) (s : PySlice), Indexing.newStep t (.slice s) = Geometry.newStep t (.sl s) := by
    intro t s; obtain ⟨a, b, k⟩ := s; cases k <;> rfl
  refine ⟨?_, rfl, ?_⟩
  · obtain ⟨rows, hrows⟩ : ∃ q, sy.apply g.rows = some q := Option.ne_none_iff_exists'.1 fun hn => hy ((Geometry.apply_none_iff _ _).1 hn)
    obtain ⟨cols, hcols⟩ : ∃ q, sx.apply (List.replicate g.nx ()) = some q := Option.ne_none_iff_exists'.1 fun hn => hx ((Geometry.apply_none_iff _ _).1 hn)
    obtain ⟨h, ty, tx, e, wf, ga⟩ := C24_slice_points g hg stepY stepX sy sx hy hx
    have hsel := select_slices hr hc
    rw [getitem_of (k := .tuple [.slice sy, .slice sx]) (ty := Indexing.newStep stepY (.slice sy)) (tx := Indexing.newStep stepX (.slice sx)) rfl hsel, e]
    have e' := e
    simp only [Geometry.getitem, hrows, hcols, Except.ok.injEq, Prod.mk.injEq] at e'
    obtain ⟨rfl, rfl, rfl⟩ := e'
    obtain ⟨b1, b2⟩ := block_lt hsel
    obtain ⟨wf', gt⟩ := block_wf hg b1 b2
    rw [ns, ns]
    congr 2
    refine grid_ext_at wf' wf ?_ ?_ fun a b => ?_
    · show (r.map _).length = (rows.map _).length
      rw [List.length_map, List.length_map]
      exact Geometry.apply_length_congr sy _ _ (by simp [Grid.ny]) _ _ hr hrows
    · exact Geometry.apply_length_congr sx _ _ (by simp) _ _ hc hcols
    · rw [gt, ga, slice_range hr]
      cases sliceIdx g.ny sy a with
      | none => rfl
      | some y => rw [Option.bind_some, Option.bind_some, slice_range hc]
  · have hs : select g.ny g.nx (Key.one .ellipsis).items = .ok (.block (List.range g.ny) (List.range g.nx)) := by
      show select _ _ [.ellipsis] = _
      unfold select
      rw [expand_ellipsis]
      simp only [resolve_full]
    rw [getitem_of (ty := stepY) (tx := stepX) rfl hs]
    obtain ⟨b1, b2⟩ := block_lt hs
    obtain ⟨wf', gt⟩ := block_wf hg b1 b2
    congr 2
    refine grid_ext_at wf' hg (by simp [Grid.ny]) (by simp) fun a b => ?_
    rw [gt]
    by_cases h : a < g.ny ∧ b < g.nx
    · rw [List.getElem?_range h.1, List.getElem?_range h.2]; rfl
    · have : at? g a b = none := by
        cases hz : at? g a b with
        | none => rfl
        | some z => exact absurd (at?_lt hg hz) h
      rw [this]
      by_cases h1 : a < g.ny
      · rw [List.getElem?_range h1, List.getElem?_eq_none (by simp; omega)]; rfl
      · rw [List.getElem?_eq_none (by simp; omega)]; rfl

/-! ## Examples: a surface of two rows and three columns -/

private def sample : Obj Nat Nat Nat := ⟨⟨[[1, 2, 3], [4, 5, 6]], 3⟩, true, 10, 20, some 7⟩

/-- A mask that marks three points. -/
example : sample.data.WF ∧ (setitem sample (.one (.mask2 ⟨[[true, false, true], [false, true, false]], 3⟩)) (.vec [7, 8, 9])).2.data.rows = [[7, 2, 8], [4, 9, 6]] ∧
    marked ⟨[[true, false, true], [false, true, false]], 3⟩ = [(0, 0), (0, 2), (1, 1)] := by decide +kernel

/-- Slices: every row from below, the first and the last column. -/
example : (setitem sample (.tuple [.slice ⟨none, none, some (-1)⟩, .slice ⟨none, none, some 2⟩]) (.mat ⟨[[7, 8], [9, 0]], 2⟩)).2.data.rows = [[9, 2, 0], [7, 5, 8]] ∧
    (∀ a < 3, (sliceIdx 2 ⟨none, none, some (-1)⟩ a).isSome ↔ a < 2) ∧ ∀ b < 3, (sliceIdx 3 ⟨none, none, some 2⟩ b).isSome ↔ b < 2 := by decide +kernel

/-- Lists of indices, one of them negative, a point named twice. -/
example : (setitem sample (.tuple [.ints [0, -1, 0], .ints [1, 2, 1]]) (.vec [7, 8, 9])).2.data.rows = [[1, 9, 3], [4, 5, 8]] ∧ IsAt 2 (-1) 1 ∧ IsAt 2 0 0 ∧
    IsAt 3 1 1 ∧ IsAt 3 2 2 := by refine ⟨by decide +kernel, ?_⟩; unfold IsAt; omega

/-- Rows chosen by a list and by a mask. -/
example : Indexing.getitem sample.data (1 : ℚ) 1 (.one (.ints [1, 0, -1])) = .ok (⟨[[4, 5, 6], [1, 2, 3], [4, 5, 6]], 3⟩, 1, 1) ∧
    Indexing.getitem sample.data (1 : ℚ) 1 (.one (.mask [false, true])) = .ok (⟨[[4, 5, 6]], 3⟩, 1, 1) := by decide +kernel

end Surfalize.Props
