import Verif.Lemmas.Heap

/-! The bookkeeping of `Spec/Editing` agrees with the memory model, whatever the history. -/
set_option linter.unusedSectionVars false
namespace Surfalize.Heap
open Surfalize Container Geometry Spec EditSpec

variable {K V : Type}

/-- the entry of the bookkeeping describes the surface -/
structure Fits (P : Grid (Option K) → V) (bufs : List (List (Option K))) (m : Mark) (x : HObj V) : Prop where
  fam : m.family = x.view.buf
  edit : m.editable = x.view.writable
  alive : x.view.buf < bufs.length
  inj : Inj x.view.idx
  below : ∀ b, bufs[x.view.buf]? = some b → Below x.view.idx b.length
  held : x.cache.isSome = true → m.held = true
  cur : m.stale = false → ∀ v, x.cache = some v → v = P (readView bufs x.view)

/-- the bookkeeping describes all surfaces -/
structure Inv (P : Grid (Option K) → V) (w : World K V) (l : Ledger) : Prop where
  len : w.objs.length = l.marks.length
  fresh : l.fresh = w.bufs.length
  each : ∀ (o : Nat) (x : HObj V) (m : Mark), w.objs[o]? = some x → l.marks[o]? = some m → Fits P w.bufs m x

theorem Fits.append {P : Grid (Option K) → V} {bufs : List (List (Option K))} {m : Mark} {x : HObj V}
    (h : Fits P bufs m x) (b : List (Option K)) : Fits P (bufs ++ [b]) m x where
  fam := h.fam
  edit := h.edit
  alive := by have := h.alive; simp; omega
  inj := h.inj
  below := fun c hc => h.below c (by rw [List.getElem?_append_left h.alive] at hc; exact hc)
  held := h.held
  cur := fun hs v hv => by rw [readView_append _ _ _ h.alive]; exact h.cur hs v hv

theorem inv_grow {P : Grid (Option K) → V} {w : World K V} {l : Ledger} (h : Inv P w l) (b : List (Option K)) :
    Inv P { w with bufs := w.bufs ++ [b] } { l with fresh := l.fresh + 1 } where
  len := h.len
  fresh := by have := h.fresh; simp; omega
  each := fun o x m hx hm => (h.each o x m hx hm).append b

theorem inv_place {P : Grid (Option K) → V} {w : World K V} {l : Ledger} (h : Inv P w l) (o : Nat) (v : View)
    (inplace : Bool) (m : Mark) (hf : Fits P w.bufs m { view := v, cache := none }) :
    Inv P (place w o v inplace).1 (l.put (destOf o inplace) m) := by
  cases inplace with
  | false =>
    refine ⟨by simp [place, addNew, destOf, Ledger.put, h.len], by simpa [place, addNew, destOf, Ledger.put] using h.fresh, ?_⟩
    intro k x n hx hn
    rcases getElem?_append_one _ _ _ _ hx with hx | ⟨ek, ex⟩ <;> rcases getElem?_append_one _ _ _ _ hn with hn | ⟨en, em⟩
    · exact h.each k x n hx hn
    · have := (List.getElem?_eq_some_iff.1 hx).1; have := h.len; omega
    · have := (List.getElem?_eq_some_iff.1 hn).1; have := h.len; omega
    · subst ex; subst em; exact hf
  | true =>
    refine ⟨by simp [place, destOf, Ledger.put, h.len], by simpa [place, destOf, Ledger.put] using h.fresh, ?_⟩
    intro k x n hx hn
    rcases getElem?_set_cases _ _ _ _ _ hx with ⟨ek, ex⟩ | ⟨ek, hx⟩ <;>
      rcases getElem?_set_cases _ _ _ _ _ hn with ⟨en, em⟩ | ⟨en, hn⟩
    · subst ex; subst em; exact hf
    · exact absurd ek en
    · exact absurd en ek
    · exact h.each k x n hx hn

theorem fits_fresh (P : Grid (Option K) → V) (w : World K V) (g : Grid (Option K)) :
    Fits P (alloc w g).1.bufs ⟨w.bufs.length, true, false, false⟩ { view := (alloc w g).2, cache := none } where
  fam := rfl
  edit := rfl
  alive := by simp [alloc]
  inj := fresh_inj g
  below := fun b hb => by
    have e : (w.bufs ++ [flat g])[w.bufs.length]? = some (flat g) := by simp
    have : some b = some (flat g) := hb.symm.trans e
    rw [Option.some.inj this]
    exact fresh_below g
  held := fun h => by cases h
  cur := fun _ v hv => by cases hv

theorem inv_own {P : Grid (Option K) → V} {w : World K V} {l : Ledger} (h : Inv P w l) (o : Nat) (g : Grid (Option K))
    (inplace : Bool) : Inv P (place (alloc w g).1 o (alloc w g).2 inplace).1 (l.own (destOf o inplace)) := by
  have h1 := inv_grow h (flat g)
  have h2 := inv_place (w := (alloc w g).1) h1 o (alloc w g).2 inplace ⟨w.bufs.length, true, false, false⟩
    (fits_fresh P w g)
  have e : ({ l with fresh := l.fresh + 1 } : Ledger).put (destOf o inplace) ⟨w.bufs.length, true, false, false⟩
      = l.own (destOf o inplace) := by
    rw [← h.fresh]
    cases inplace <;> rfl
  rw [e] at h2
  exact h2

theorem marks_some {P : Grid (Option K) → V} {w : World K V} {l : Ledger} (h : Inv P w l) {o : Nat} {x : HObj V}
    (hx : w.objs[o]? = some x) : ∃ m, l.marks[o]? = some m := by
  have := (List.getElem?_eq_some_iff.1 hx).1
  exact ⟨_, List.getElem?_eq_getElem (by have := h.len; omega)⟩

theorem inv_share {P : Grid (Option K) → V} {w : World K V} {l : Ledger} (h : Inv P w l) (o d : Nat) (x : HObj V)
    (hx : w.objs[o]? = some x) (idx : Grid Nat) (hs : Sub idx x.view.idx) (ro : Bool) (inplace : Bool) (b : Bool)
    (hb : b = (x.view.writable && !ro)) :
    Inv P (place w d { x.view with idx := idx, writable := b } inplace).1 (l.share o ro (destOf d inplace)) := by
  obtain ⟨m, hm⟩ := marks_some h hx
  have hf := h.each o x m hx hm
  unfold Ledger.share
  rw [hm]
  refine inv_place h d _ inplace _ ⟨hf.fam, ?_, hf.alive, hs.inj hf.inj, fun c hc => hs.below (hf.below c hc),
    (fun h => by cases h), (fun _ v hv => by cases hv)⟩
  show (m.editable && !ro) = b
  rw [hb, hf.edit]

theorem Sub.refl (g : Grid Nat) : Sub g g :=
  ⟨some, fun _ => some, fun _ _ _ h h' => (Option.some.inj h).trans (Option.some.inj h').symm,
    fun _ _ _ _ h h' => (Option.some.inj h).trans (Option.some.inj h').symm, fun _ _ => rfl⟩

theorem heights_eq {w : World K V} {o : Nat} {x : HObj V} (hx : w.objs[o]? = some x) :
    w.heights o = some (readView w.bufs x.view) := by
  unfold World.heights; rw [hx]; rfl

theorem heights_some {w : World K V} {o : Nat} {g : Grid (Option K)} (hg : w.heights o = some g) :
    ∃ x, w.objs[o]? = some x ∧ readView w.bufs x.view = g := by
  unfold World.heights at hg
  obtain ⟨x, hx, e⟩ := Option.map_eq_some_iff.1 hg
  exact ⟨x, hx, e⟩

/-- the bookkeeping after one step -/
def next (P : Grid (Option K) → V) (w : World K V) (l : Ledger) (op : HOp K) : Ledger :=
  bif HOut.raised (step P w op).2 then l else l.next (hasMissing w op) op

theorem addNew_place (w : World K V) (o : Nat) (v : View) : addNew w v = place w o v false := rfl

theorem raised_place (w : World K V) (o : Nat) (v : View) (b : Bool) : HOut.raised (place w o v b).2 = false := by
  cases b <;> rfl

theorem step_inv (P : Grid (Option K) → V) (w : World K V) (l : Ledger) (h : Inv P w l) (op : HOp K) :
    Inv P (step P w op).1 (next P w l op) := by
  unfold next
  cases op with
  | construct g => exact inv_own h 0 g false
  | wrap o =>
    simp only [step]
    cases hx : w.objs[o]? with
    | none => exact h
    | some x => exact inv_share h o 0 x hx x.view.idx (Sub.refl _) true false false (by simp)
  | assign o g =>
    simp only [step]
    cases hx : w.objs[o]? with
    | none => exact h
    | some x => exact inv_own h o g true
  | assignFrom o t =>
    simp only [step]
    cases hx : w.objs[o]? with
    | none => exact h
    | some x =>
      cases hy : w.objs[t]? with
      | none => exact h
      | some y => exact inv_share h t o y hy y.view.idx (Sub.refl _) true true false (by simp)
  | getitem o i =>
    simp only [step]
    cases hx : w.objs[o]? with
    | none => exact h
    | some x =>
      dsimp only
      cases hg : Geometry.getitem (K := Rat) x.view.idx 1 1 i with
      | error e => exact h
      | ok r => exact inv_share h o 0 x hx r.1 (getitem_sub _ _ _ hg) false false x.view.writable (by simp)
  | crop o x0 x1 y0 y1 inplace =>
    simp only [step]
    cases hx : w.objs[o]? with
    | none => exact h
    | some x =>
      dsimp only
      cases hg : cropPx x.view.idx x0 x1 y0 y1 with
      | error e => exact h
      | ok r =>
        dsimp only
        rw [raised_place]
        exact inv_share h o o x hx r (cropPx_sub _ _ _ _ _ _ hg) true inplace false (by simp)
  | zoom o f inplace =>
    simp only [step]
    cases hx : w.objs[o]? with
    | none => exact h
    | some x =>
      dsimp only
      cases hg : Geometry.zoom x.view.idx f with
      | error e => exact h
      | ok r =>
        dsimp only
        rw [raised_place]
        exact inv_share h o o x hx r (zoom_sub _ _ _ hg) true inplace false (by simp)
  | apply o f inplace =>
    simp only [step]
    cases hx : w.objs[o]? with
    | none => exact h
    | some x =>
      dsimp only
      rw [raised_place]
      exact inv_own h o _ inplace
  | fill o f inplace =>
    simp only [step]
    cases hx : w.objs[o]? with
    | none => exact h
    | some x =>
      dsimp only
      have e : hasMissing w (.fill o f inplace) = (flat (readView w.bufs x.view)).any Option.isNone := by
        simp only [hasMissing, heights_eq hx]
      rw [e]
      by_cases hm : (flat (readView w.bufs x.view)).any Option.isNone = true
      · rw [if_pos hm, raised_place, hm]
        exact inv_own h o _ inplace
      · rw [if_neg hm, Bool.eq_false_iff.2 hm]
        exact h
  | setitem o item z =>
    simp only [step]
    cases hx : w.objs[o]? with
    | none => exact h
    | some x =>
      obtain ⟨m, hm⟩ := marks_some h hx
      have hf := h.each o x m hx hm
      dsimp only
      by_cases hw : x.view.writable = true
      · rw [if_pos hw]
        cases hs : select x.view.idx item with
        | error e => exact h
        | ok cells =>
          simp only [HOut.raised, cond_false, Ledger.next, hm]
          refine ⟨by simp [h.len], by simpa using h.fresh, ?_⟩
          intro k y n hy hn
          rw [List.getElem?_mapIdx] at hn
          obtain ⟨n0, hn0, hn⟩ := Option.map_eq_some_iff.1 hn
          have blen : ∀ b, (w.bufs.modify x.view.buf fun b => cells.foldl (fun b k => b.set k z) b)[y.view.buf]? = some b →
              ∃ b0, w.bufs[y.view.buf]? = some b0 ∧ b0.length = b.length := by
            intro b hb
            by_cases he : x.view.buf = y.view.buf
            · rw [he, List.getElem?_modify_eq] at hb
              obtain ⟨b0, h1, h2⟩ := Option.map_eq_some_iff.1 hb
              exact ⟨b0, h1, by rw [← h2, foldl_set_length]⟩
            · rw [List.getElem?_modify_ne _ _ he] at hb
              exact ⟨b, hb, rfl⟩
          rcases getElem?_set_cases _ _ _ _ _ hy with ⟨ek, ey⟩ | ⟨ek, hy⟩
          · subst ek
            subst ey
            rw [hm] at hn0
            have := Option.some.inj hn0
            subst this
            rw [if_pos rfl] at hn
            subst hn
            refine ⟨hf.fam, hf.edit, by simpa using hf.alive, hf.inj, fun b hb => ?_, (fun h => by cases h),
              (fun _ v hv => by cases hv)⟩
            obtain ⟨b0, h1, h2⟩ := blen b hb
            rw [← h2]; exact hf.below b0 h1
          · have hy' := h.each k y n0 hy hn0
            rw [if_neg ek] at hn
            have below' : ∀ b, (w.bufs.modify x.view.buf fun b => cells.foldl (fun b k => b.set k z) b)[y.view.buf]? = some b →
                Below y.view.idx b.length := by
              intro b hb
              obtain ⟨b0, h1, h2⟩ := blen b hb
              rw [← h2]; exact hy'.below b0 h1
            by_cases hc : n0.family = m.family ∧ n0.held = true
            · rw [if_pos hc] at hn
              subst hn
              exact ⟨hy'.fam, hy'.edit, by simpa using hy'.alive, hy'.inj, below', hy'.held, fun h => by cases h⟩
            · rw [if_neg hc] at hn
              subst hn
              refine ⟨hy'.fam, hy'.edit, by simpa using hy'.alive, hy'.inj, below', hy'.held, fun hst v hv => ?_⟩
              by_cases he : n0.family = m.family
              · exfalso
                exact hc ⟨he, hy'.held (by rw [hv]; rfl)⟩
              · show v = P (readView (w.bufs.modify x.view.buf _) y.view)
                rw [readView_modify_ne _ _ _ _ (by rw [← hy'.fam, ← hf.fam]; exact he)]
                exact hy'.cur hst v hv
      · rw [if_neg hw]; exact h
  | read o =>
    simp only [step]
    cases hx : w.objs[o]? with
    | none => exact h
    | some x =>
      have key : ∀ (c : HObj V), c.view = x.view → (c.cache = x.cache ∨ (x.cache = none ∧ c.cache = some (P (readView w.bufs x.view)))) →
          Inv P { w with objs := w.objs.set o c } { l with marks := l.marks.modify o fun x => { x with held := true } } := by
        intro c hcv hcc
        refine ⟨by simp [h.len], h.fresh, ?_⟩
        intro k y n hy hn
        rcases getElem?_set_cases _ _ _ _ _ hy with ⟨ek, ey⟩ | ⟨ek, hy⟩
        · subst ek
          subst ey
          rw [List.getElem?_modify_eq] at hn
          obtain ⟨m, hm, hn⟩ := Option.map_eq_some_iff.1 hn
          subst hn
          have hf := h.each k x m hx hm
          refine ⟨by rw [hcv]; exact hf.fam, by rw [hcv]; exact hf.edit, by rw [hcv]; exact hf.alive,
            by rw [hcv]; exact hf.inj, by rw [hcv]; exact hf.below, fun _ => rfl, fun hs v hv => ?_⟩
          rw [hcv]
          rcases hcc with e | ⟨-, e⟩
          · exact hf.cur hs v (by rw [← e]; exact hv)
          · rw [e] at hv; exact (Option.some.inj hv).symm
        · rw [List.getElem?_modify_ne _ _ (Ne.symm ek)] at hn
          exact h.each k y n hy hn
      dsimp only
      cases hc : x.cache with
      | some v =>
        have := key x rfl (.inl rfl)
        rw [show w.objs.set o x = w.objs from ?_] at this
        · exact this
        · obtain ⟨hlt, e⟩ := List.getElem?_eq_some_iff.1 hx
          rw [← e]; exact List.set_getElem_self hlt
      | none => exact key _ rfl (.inr ⟨hc, rfl⟩)

theorem run_inv (P : Grid (Option K) → V) (ops : List (HOp K)) (w : World K V) (l : Ledger) (h : Inv P w l) :
    Inv P (run P w ops) (record P w l ops) := by
  induction ops generalizing w l with
  | nil => exact h
  | cons op ops ih => exact ih _ _ (step_inv P w l h op)

theorem inv_empty (P : Grid (Option K) → V) : Inv P ({ bufs := [], objs := [] } : World K V) { marks := [], fresh := 0 } :=
  ⟨rfl, rfl, fun o x m hx => by simp at hx⟩

/-- `s[item] = z`, seen through any view of the same or another array -/
theorem readView_write (bufs : List (List (Option K))) (v : View) (buf : Nat) (cells : List Nat) (z : Option K)
    (hb : v.buf < bufs.length) (hbelow : ∀ b, bufs[v.buf]? = some b → Below v.idx b.length) (i j : Nat) :
    at? (readView (bufs.modify buf fun b => cells.foldl (fun b k => b.set k z) b) v) i j =
      if v.buf = buf ∧ ∃ k ∈ cells, at? v.idx i j = some k then some z else at? (readView bufs v) i j := by
  by_cases he : v.buf = buf
  · subst he
    rw [at?_readView, at?_readView, List.getElem?_modify_eq]
    obtain ⟨b, hbb⟩ : ∃ b, bufs[v.buf]? = some b := ⟨_, List.getElem?_eq_getElem hb⟩
    rw [hbb]
    cases hk : at? v.idx i j with
    | none => simp
    | some k =>
      have := hbelow b hbb i j k hk
      simp only [Option.map_some, Option.getD_some, Option.map_eq_map]
      rw [foldl_set_get _ _ _ _ this]
      by_cases hc : k ∈ cells
      · rw [if_pos hc, if_pos ⟨trivial, k, hc, rfl⟩]; rfl
      · rw [if_neg hc, if_neg]
        rintro ⟨-, k', h1, h2⟩
        exact hc (by rw [Option.some.inj h2]; exact h1)
  · rw [readView_modify_ne _ _ _ _ he, if_neg (fun h => he h.1)]

/-! ## What the operations produce -/

theorem stride_map {α β : Type} (f : α → β) (k : Nat) (l : List α) : stride k (l.map f) = (stride k l).map f := by
  unfold stride
  rw [List.length_map, List.map_filterMap]
  congr 1
  funext i
  simp

theorem apply_map {α β : Type} (f : α → β) (s : PySlice) (l : List α) : s.apply (l.map f) = (s.apply l).map (List.map f) := by
  unfold PySlice.apply
  simp only [List.length_map]
  split
  · simp only [Option.map_some]
    rw [← List.map_take, ← List.map_drop, stride_map]
  · split
    · simp only [Option.map_some]
      rw [← List.map_take, ← List.map_drop, ← List.map_reverse, stride_map]
    · rfl

theorem getitem_map {α β : Type} (f : α → β) (g : Grid α) (i : Index) :
    Geometry.getitem (K := Rat) (Container.map f g) 1 1 i =
      (Geometry.getitem (K := Rat) g 1 1 i).map fun r => (Container.map f r.1, r.2) := by
  have hr : (Container.map f g).rows = g.rows.map (List.map f) := rfl
  have hn : (Container.map f g).nx = g.nx := rfl
  unfold Geometry.getitem
  split
  · rfl
  · rw [hr, hn, apply_map]
    rename_i s
    cases s.apply g.rows <;> rfl
  · rename_i sy sx
    rw [hr, hn, apply_map]
    cases hy : sy.apply g.rows with
    | none => rfl
    | some rows =>
      cases hx : sx.apply (List.replicate g.nx ()) with
      | none => rfl
      | some cols =>
        simp only [Option.map_some, Except.map]
        congr 2
        show Grid.mk _ _ = Grid.mk _ _
        congr 1
        rw [List.map_map, List.map_map]
        apply List.map_congr_left
        intro r _
        simp only [Function.comp_apply, apply_map]
        cases sx.apply r <;> rfl
  · split <;> rfl
  · split <;> rfl
  · rfl

theorem slices_map {α β : Type} (f : α → β) (g : Grid α) (a b c d : Int) (n : Nat) :
    (Grid.mk ((pySlice (Container.map f g).rows a b).map fun r => pySlice r c d) n : Grid β) =
      Container.map f (Grid.mk ((pySlice g.rows a b).map fun r => pySlice r c d) n) := by
  show Grid.mk _ _ = Grid.mk _ _
  congr 1
  show ((pySlice (g.rows.map (List.map f)) a b).map fun r => pySlice r c d) = _
  rw [pySlice_map, List.map_map, List.map_map]
  apply List.map_congr_left
  intro r _
  simp only [Function.comp_apply, pySlice_map]

theorem cropPx_map {α β : Type} (f : α → β) (g : Grid α) (x0 x1 y0 y1 : Int) :
    cropPx (Container.map f g) x0 x1 y0 y1 = (cropPx g x0 x1 y0 y1).map (Container.map f) := by
  unfold cropPx
  rw [map_ny, map_nx]
  split
  · rfl
  · simp only [Except.map]
    exact congrArg Except.ok (slices_map f g _ _ _ _ _)

theorem zoom_map {α β : Type} (f : α → β) (g : Grid α) (q : Rat) :
    Geometry.zoom (Container.map f g) q = (Geometry.zoom g q).map (Container.map f) := by
  unfold Geometry.zoom
  rw [map_ny, map_nx]
  split
  · rfl
  · simp only [Except.map]
    exact congrArg Except.ok (slices_map f g _ _ _ _ _)

theorem grid_ext_at {α : Type} {g h : Grid α} (h1 : g.ny = h.ny) (h2 : g.nx = h.nx) (h3 : ∀ i j, at? g i j = at? h i j) : g = h := by
  rcases g with ⟨r, n⟩
  rcases h with ⟨r', n'⟩
  simp only at h2
  subst h2
  congr 1
  apply List.ext_getElem h1
  intro i hi hi'
  apply List.ext_getElem?
  intro j
  have := h3 i j
  unfold at? at this
  simpa [List.getElem?_eq_getElem hi, List.getElem?_eq_getElem hi'] using this

theorem number_length {α : Type} (n : Nat) (rows : List (List α)) : (freshIdx.number n rows).length = rows.length := by
  induction rows generalizing n with
  | nil => rfl
  | cons r rs ih => simp [freshIdx.number, ih]

theorem readView_fresh (w : World K V) (g : Grid (Option K)) : readView (alloc w g).1.bufs (alloc w g).2 = g := by
  apply grid_ext_at
  · unfold readView
    rw [map_ny]
    exact number_length 0 g.rows
  · rfl
  · exact fun i j => read_fresh w.bufs g i j

end Surfalize.Heap
