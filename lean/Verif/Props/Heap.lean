import Verif.Lemmas.HeapInv
import Mathlib.Data.Rat.Floor

/-!
# C05, C06 — sharing of memory between surfaces, and of returned results with the cache
-/
set_option linter.unusedSectionVars false
namespace Surfalize.Props
open Surfalize Container Geometry Heap Spec EditSpec

variable {K V : Type}

/-- the empty world -/
def emptyWorld : World K V := { bufs := [], objs := [] }

/-- the empty bookkeeping -/
def emptyLedger : Ledger := { marks := [], fresh := 0 }

private theorem inv (P : Grid (Option K) → V) (ops : List (HOp K)) :
    Inv P (run P (emptyWorld : World K V) ops) (record P (emptyWorld : World K V) emptyLedger ops) :=
  run_inv P ops _ _ (inv_empty P)

/-- the bookkeeping covers exactly the surfaces that exist -/
theorem C05_marks (P : Grid (Option K) → V) (ops : List (HOp K)) (o : Nat) :
    ((run P (emptyWorld : World K V) ops).heights o).isSome = ((record P (emptyWorld : World K V) emptyLedger ops).marks[o]?).isSome := by
  have h := (inv (K := K) (V := V) P ops).len
  unfold World.heights
  rw [Option.isSome_map, Bool.eq_iff_iff]
  simp [h]

/-- **C05** (proved part). After every history – slices, crops, zooms, surfaces made from the data of others, operations
in place or not, edits and reads included – editing a surface leaves every surface of another family unchanged,
and changes surfaces of the same family at most to the value assigned: slicing, cropping, zooming and passing
`.data` on are the only ways to become related. Missing: relatives are not protected (`C05_slice_shares`,
`C05_crop_shares`). -/
theorem C05_families_partial (P : Grid (Option K) → V) (ops : List (HOp K)) (o o' : Nat) (m m' : Mark) (hne : o ≠ o')
    (g : Grid (Option K)) (item : Index) (z : Option K) :
    let w := run P (emptyWorld : World K V) ops
    let l := record P (emptyWorld : World K V) emptyLedger ops
    l.marks[o]? = some m → l.marks[o']? = some m' → w.heights o' = some g →
    (m.family ≠ m'.family → ((step P w (.setitem o item z)).1).heights o' = some g) ∧
    ∃ g', ((step P w (.setitem o item z)).1).heights o' = some g' ∧ g'.ny = g.ny ∧ g'.nx = g.nx ∧
      ∀ i j, at? g' i j = at? g i j ∨ at? g' i j = some z := by
  intro w l hm hm' hg
  have hI : Inv P w l := inv P ops
  obtain ⟨x', hx', hr⟩ := heights_some hg
  simp only [step]
  cases hx : w.objs[o]? with
  | none => exact ⟨fun _ => hg, g, hg, rfl, rfl, fun _ _ => .inl rfl⟩
  | some x =>
    dsimp only
    by_cases hw : x.view.writable = true
    · rw [if_pos hw]
      cases hs : select x.view.idx item with
      | error e => exact ⟨fun _ => hg, g, hg, rfl, rfl, fun _ _ => .inl rfl⟩
      | ok cells =>
        have hf := hI.each o x m hx hm
        have hf' := hI.each o' x' m' hx' hm'
        have hh : World.heights { bufs := w.bufs.modify x.view.buf fun b => cells.foldl (fun b k => b.set k z) b
                                  objs := w.objs.set o { x with cache := none } } o'
            = some (readView (w.bufs.modify x.view.buf fun b => cells.foldl (fun b k => b.set k z) b) x'.view) :=
          heights_eq (by rw [List.getElem?_set_ne hne]; exact hx')
        refine ⟨fun hfam => ?_, _, hh, ?_, ?_, fun i j => ?_⟩
        · rw [hh, readView_modify_ne _ _ _ _ (by rw [← hf'.fam, ← hf.fam]; exact Ne.symm hfam), hr]
        · rw [← hr]; unfold readView; rw [map_ny, map_ny]
        · rw [← hr]; rfl
        · rw [readView_write _ _ _ _ _ hf'.alive hf'.below, ← hr]
          split
          · exact .inr rfl
          · exact .inl rfl
    · rw [if_neg hw]
      exact ⟨fun _ => hg, g, hg, rfl, rfl, fun _ _ => .inl rfl⟩

/-- **C05** (proved part, parameters). After every history, reading a parameter of a surface returns its value for the
current heights, unless a relative of the surface was edited after the surface's parameter was last read for the
first time. -/
theorem C05_reads_partial (P : Grid (Option K) → V) (ops : List (HOp K)) (o : Nat) (m : Mark) (g : Grid (Option K)) :
    let w := run P (emptyWorld : World K V) ops
    (record P (emptyWorld : World K V) emptyLedger ops).marks[o]? = some m → m.stale = false → w.heights o = some g →
    (step P w (.read o)).2 = .value (P g) := by
  intro w hm hst hg
  have hI : Inv P w _ := inv P ops
  obtain ⟨x, hx, hr⟩ := heights_some hg
  have hf := hI.each o x m hx hm
  simp only [step, hx]
  cases hc : x.cache with
  | none => simp only [hr]
  | some v => simp only; rw [hf.cur hst v hc, hr]

/-- **C05** (operations). No operation except an assignment `s[...] = z` changes the heights of any surface other than
the one it is applied to in place, and an operation that raises changes nothing at all. -/
theorem C05_operations (P : Grid (Option K) → V) (ops : List (HOp K)) (op : HOp K) (hop : ∀ o i z, op ≠ .setitem o i z) :
    let w := run P (emptyWorld : World K V) ops
    (∀ o' g, target op ≠ some o' → w.heights o' = some g → ((step P w op).1).heights o' = some g) ∧
    (HOut.raised (step P w op).2 = true → (step P w op).1 = w) := by
  intro w
  have hI : Inv P w (record P emptyWorld emptyLedger ops) := inv P ops
  have key : ∀ (o o' : Nat) (v : View) (inplace : Bool) (u : World K V) (g : Grid (Option K)), u.objs = w.objs →
      (∀ x, w.objs[o']? = some x → readView u.bufs x.view = readView w.bufs x.view) →
      destOf o inplace ≠ some o' → w.heights o' = some g → ((place u o v inplace).1).heights o' = some g := by
    intro o o' v inplace u g hu hb hd hg
    obtain ⟨x', hx', hr⟩ := heights_some hg
    have hb' := hb x' hx'
    cases inplace with
    | false =>
      rw [heights_eq (x := x') (by
        show (u.objs ++ [_])[o']? = _
        rw [hu, List.getElem?_append_left (List.getElem?_eq_some_iff.1 hx').1]; exact hx')]
      exact congrArg some (hb'.trans hr)
    | true =>
      have hne : o ≠ o' := fun e => hd (by rw [e]; rfl)
      rw [heights_eq (x := x') (by
        show (u.objs.set o _)[o']? = _
        rw [hu, List.getElem?_set_ne hne]; exact hx')]
      exact congrArg some (hb'.trans hr)
  have own : ∀ (o' : Nat) (h : Grid (Option K)) (x : HObj V), w.objs[o']? = some x →
      readView (alloc w h).1.bufs x.view = readView w.bufs x.view := by
    intro o' h x hx
    obtain ⟨m, hm⟩ := marks_some hI hx
    exact readView_append _ _ _ (hI.each o' x m hx hm).alive
  have nr : ∀ (u : World K V) (o : Nat) (v : View) (b : Bool), HOut.raised (place u o v b).2 = true → (place u o v b).1 = w :=
    fun u o v b h => by rw [raised_place] at h; cases h
  cases op with
  | construct g =>
    exact ⟨fun o' g' _ hg => key 0 o' _ false _ g' rfl (fun x hx => own o' g x hx) (by intro h; cases h) hg, fun h => by cases h⟩
  | wrap o =>
    simp only [step]
    cases hx : w.objs[o]? with
    | none => exact ⟨fun _ _ _ hg => hg, fun _ => rfl⟩
    | some x =>
      exact ⟨fun o' g' _ hg => key 0 o' _ false _ g' rfl (fun _ _ => rfl) (by intro h; cases h) hg, fun h => by cases h⟩
  | assign o g =>
    simp only [step]
    cases hx : w.objs[o]? with
    | none => exact ⟨fun _ _ _ hg => hg, fun _ => rfl⟩
    | some x =>
      exact ⟨fun o' g' ht hg => key o o' _ true _ g' rfl (fun x hx => own o' g x hx) ht hg, nr _ _ _ _⟩
  | assignFrom o t =>
    simp only [step]
    cases hx : w.objs[o]? with
    | none => exact ⟨fun _ _ _ hg => hg, fun _ => rfl⟩
    | some x =>
      cases hy : w.objs[t]? with
      | none => exact ⟨fun _ _ _ hg => hg, fun _ => rfl⟩
      | some y => exact ⟨fun o' g' ht hg => key o o' _ true _ g' rfl (fun _ _ => rfl) ht hg, nr _ _ _ _⟩
  | getitem o i =>
    simp only [step]
    cases hx : w.objs[o]? with
    | none => exact ⟨fun _ _ _ hg => hg, fun _ => rfl⟩
    | some x =>
      dsimp only
      cases hg : Geometry.getitem (K := Rat) x.view.idx 1 1 i with
      | error e => exact ⟨fun _ _ _ hg => hg, fun _ => rfl⟩
      | ok r =>
        exact ⟨fun o' g' _ hg => key 0 o' _ false _ g' rfl (fun _ _ => rfl) (by intro h; cases h) hg, fun h => by cases h⟩
  | crop o x0 x1 y0 y1 inplace =>
    simp only [step]
    cases hx : w.objs[o]? with
    | none => exact ⟨fun _ _ _ hg => hg, fun _ => rfl⟩
    | some x =>
      dsimp only
      cases hg : cropPx x.view.idx x0 x1 y0 y1 with
      | error e => exact ⟨fun _ _ _ hg => hg, fun _ => rfl⟩
      | ok r => exact ⟨fun o' g' ht hg => key o o' _ inplace _ g' rfl (fun _ _ => rfl) ht hg, nr _ _ _ _⟩
  | zoom o f inplace =>
    simp only [step]
    cases hx : w.objs[o]? with
    | none => exact ⟨fun _ _ _ hg => hg, fun _ => rfl⟩
    | some x =>
      dsimp only
      cases hg : Geometry.zoom x.view.idx f with
      | error e => exact ⟨fun _ _ _ hg => hg, fun _ => rfl⟩
      | ok r => exact ⟨fun o' g' ht hg => key o o' _ inplace _ g' rfl (fun _ _ => rfl) ht hg, nr _ _ _ _⟩
  | apply o f inplace =>
    simp only [step]
    cases hx : w.objs[o]? with
    | none => exact ⟨fun _ _ _ hg => hg, fun _ => rfl⟩
    | some x => exact ⟨fun o' g' ht hg => key o o' _ inplace _ g' rfl (fun x hx => own o' _ x hx) ht hg, nr _ _ _ _⟩
  | fill o f inplace =>
    simp only [step]
    cases hx : w.objs[o]? with
    | none => exact ⟨fun _ _ _ hg => hg, fun _ => rfl⟩
    | some x =>
      dsimp only
      split
      · exact ⟨fun o' g' ht hg => key o o' _ inplace _ g' rfl (fun x hx => own o' _ x hx) ht hg, nr _ _ _ _⟩
      · exact ⟨fun _ _ _ hg => hg, fun _ => rfl⟩
  | setitem o i z => exact absurd rfl (hop o i z)
  | read o =>
    simp only [step]
    cases hx : w.objs[o]? with
    | none => exact ⟨fun _ _ _ hg => hg, fun _ => rfl⟩
    | some x =>
      dsimp only
      cases hc : x.cache with
      | some v => exact ⟨fun _ _ _ hg => hg, fun _ => rfl⟩
      | none =>
        refine ⟨fun o' g' _ hg => ?_, fun h => by cases h⟩
        obtain ⟨x', hx', hr⟩ := heights_some hg
        by_cases he : o = o'
        · subst he
          rw [hx] at hx'
          have := Option.some.inj hx'
          subst this
          rw [heights_eq (x := { x with cache := some (P (readView w.bufs x.view)) }) (by
            show (w.objs.set o _)[o]? = _
            rw [List.getElem?_set_self (List.getElem?_eq_some_iff.1 hx).1])]
          exact congrArg some hr
        · rw [heights_eq (x := x') (by
            show (w.objs.set o _)[o']? = _
            rw [List.getElem?_set_ne he]; exact hx')]
          exact congrArg some hr

/-- **C05** (results). After every history, every operation that returns a surface returns one with exactly the heights
computed from the current heights of the surface it is applied to – however that surface was obtained and whatever
happened to its relatives – or raises what the computation raises. -/
theorem C05_results (P : Grid (Option K) → V) (ops : List (HOp K)) (op : HOp K) (res : Except Err (Grid (Option K))) :
    let w := run P (emptyWorld : World K V) ops
    produced w.heights op = some res →
    match res with
    | .error e => step P w op = (w, .exn e)
    | .ok g => ∃ r, (step P w op).2 = .surf r ∧ ((step P w op).1).heights r = some g := by
  intro w hres
  have none_h : ∀ o, w.objs[o]? = none → w.heights o = none := fun o h => by unfold World.heights; rw [h]; rfl
  have put : ∀ (u : World K V) (o : Nat) (v : View) (inplace : Bool) (g : Grid (Option K)), u.objs = w.objs →
      (inplace = true → ∃ x, w.objs[o]? = some x) →
      readView u.bufs v = g → ∃ r, (place u o v inplace).2 = .surf r ∧ ((place u o v inplace).1).heights r = some g := by
    intro u o v inplace g hu hx hg
    cases inplace with
    | false =>
      refine ⟨u.objs.length, rfl, ?_⟩
      rw [heights_eq (x := { view := v, cache := none }) (by
        show (u.objs ++ [_])[u.objs.length]? = _
        simp)]
      exact congrArg some hg
    | true =>
      obtain ⟨x, hx⟩ := hx rfl
      refine ⟨o, rfl, ?_⟩
      rw [heights_eq (x := { view := v, cache := none }) (by
        show (u.objs.set o _)[o]? = _
        rw [hu, List.getElem?_set_self (List.getElem?_eq_some_iff.1 hx).1])]
      exact congrArg some hg
  cases op with
  | construct g =>
    have := Option.some.inj hres
    subst this
    exact put _ 0 _ false g rfl (fun h => by cases h) (readView_fresh w g)
  | wrap o =>
    have := Option.some.inj hres
    subst this
    simp only [step]
    cases hx : w.objs[o]? with
    | none => rw [none_h o hx]; rfl
    | some x => rw [heights_eq hx]; exact put w 0 _ false _ rfl (fun h => by cases h) rfl
  | assign o g =>
    have := Option.some.inj hres
    subst this
    simp only [step]
    cases hx : w.objs[o]? with
    | none => rw [none_h o hx]; rfl
    | some x => rw [heights_eq hx]; exact put _ o _ true g rfl (fun _ => ⟨x, hx⟩) (readView_fresh w g)
  | assignFrom o t =>
    have := Option.some.inj hres
    subst this
    simp only [step]
    cases hx : w.objs[o]? with
    | none => rw [none_h o hx]; rfl
    | some x =>
      rw [heights_eq hx]
      cases hy : w.objs[t]? with
      | none => rw [none_h t hy]; rfl
      | some y => rw [heights_eq hy]; exact put w o _ true _ rfl (fun _ => ⟨x, hx⟩) rfl
  | getitem o i =>
    have := Option.some.inj hres
    subst this
    simp only [step]
    cases hx : w.objs[o]? with
    | none => rw [none_h o hx]; rfl
    | some x =>
      rw [heights_eq hx]
      simp only [Option.elim]
      unfold readView
      rw [getitem_map]
      cases Geometry.getitem (K := Rat) x.view.idx 1 1 i with
      | error e => rfl
      | ok r => exact put w 0 _ false _ rfl (fun h => by cases h) rfl
  | crop o x0 x1 y0 y1 inplace =>
    have := Option.some.inj hres
    subst this
    simp only [step]
    cases hx : w.objs[o]? with
    | none => rw [none_h o hx]; rfl
    | some x =>
      rw [heights_eq hx]
      simp only [Option.elim]
      unfold readView
      rw [cropPx_map]
      cases cropPx x.view.idx x0 x1 y0 y1 with
      | error e => rfl
      | ok r => exact put w o _ inplace _ rfl (fun _ => ⟨x, hx⟩) rfl
  | zoom o q inplace =>
    have := Option.some.inj hres
    subst this
    simp only [step]
    cases hx : w.objs[o]? with
    | none => rw [none_h o hx]; rfl
    | some x =>
      rw [heights_eq hx]
      simp only [Option.elim]
      unfold readView
      rw [zoom_map]
      cases Geometry.zoom x.view.idx q with
      | error e => rfl
      | ok r => exact put w o _ inplace _ rfl (fun _ => ⟨x, hx⟩) rfl
  | apply o f inplace =>
    have := Option.some.inj hres
    subst this
    simp only [step]
    cases hx : w.objs[o]? with
    | none => rw [none_h o hx]; rfl
    | some x => rw [heights_eq hx]; exact put _ o _ inplace _ rfl (fun _ => ⟨x, hx⟩) (readView_fresh w _)
  | fill o f inplace =>
    have := Option.some.inj hres
    subst this
    simp only [step]
    cases hx : w.objs[o]? with
    | none => rw [none_h o hx]; rfl
    | some x =>
      rw [heights_eq hx]
      simp only [Option.elim]
      split
      · exact put _ o _ inplace _ rfl (fun _ => ⟨x, hx⟩) (readView_fresh w _)
      · exact ⟨o, rfl, heights_eq hx⟩
  | setitem o i z => cases hres
  | read o => cases hres

/-- operations that make no surface on the array of another one -/
def NoSharing : HOp K → Prop
  | .wrap _ | .assignFrom _ _ | .getitem _ _ | .crop .. | .zoom .. => False
  | _ => True

private theorem record_distinct (P : Grid (Option K) → V) (ops : List (HOp K)) (hops : ∀ op ∈ ops, NoSharing op) :
    ∀ (w : World K V) (l : Ledger), (∀ (o : Nat) (m : Mark), l.marks[o]? = some m → m.family < l.fresh ∧ m.stale = false) →
      (∀ (o o' : Nat) (m m' : Mark), l.marks[o]? = some m → l.marks[o']? = some m' → o ≠ o' → m.family ≠ m'.family) →
      (∀ (o : Nat) (m : Mark), (record P w l ops).marks[o]? = some m → m.stale = false) ∧
      (∀ (o o' : Nat) (m m' : Mark), (record P w l ops).marks[o]? = some m → (record P w l ops).marks[o']? = some m' → o ≠ o' →
        m.family ≠ m'.family) := by
  induction ops with
  | nil => exact fun w l h1 h2 => ⟨fun o m hm => (h1 o m hm).2, h2⟩
  | cons op ops ih =>
    intro w l h1 h2
    have ih' := ih (fun q hq => hops q (by simp [hq])) (step P w op).1
    unfold record
    cases hr : HOut.raised (step P w op).2 with
    | true => exact ih' l h1 h2
    | false =>
      have own : ∀ dest, (∀ (o : Nat) (m : Mark), (l.own dest).marks[o]? = some m → m.family < (l.own dest).fresh ∧ m.stale = false) ∧
          (∀ (o o' : Nat) (m m' : Mark), (l.own dest).marks[o]? = some m → (l.own dest).marks[o']? = some m' → o ≠ o' →
            m.family ≠ m'.family) := by
        intro dest
        have old : ∀ (o : Nat) (m : Mark), l.marks[o]? = some m → m.family ≠ l.fresh := fun o m hm => by
          have := (h1 o m hm).1; omega
        cases dest with
        | none =>
          constructor
          · intro o m hm
            rcases getElem?_append_one _ _ _ _ (show (l.marks ++ [_])[o]? = some m from hm) with hm | ⟨-, rfl⟩
            · have := h1 o m hm
              exact ⟨by show m.family < l.fresh + 1; omega, this.2⟩
            · exact ⟨by show l.fresh < l.fresh + 1; omega, rfl⟩
          · intro o o' m m' hm hm' hne
            rcases getElem?_append_one _ _ _ _ (show (l.marks ++ [_])[o]? = some m from hm) with hm | ⟨e, rfl⟩ <;>
              rcases getElem?_append_one _ _ _ _ (show (l.marks ++ [_])[o']? = some m' from hm') with hm' | ⟨e', rfl⟩
            · exact h2 o o' m m' hm hm' hne
            · exact old o m hm
            · exact (old o' m' hm').symm
            · exact absurd (e.trans e'.symm) hne
        | some d =>
          constructor
          · intro o m hm
            rcases getElem?_set_cases _ _ _ _ _ (show (l.marks.set d _)[o]? = some m from hm) with ⟨-, rfl⟩ | ⟨-, hm⟩
            · exact ⟨by show l.fresh < l.fresh + 1; omega, rfl⟩
            · have := h1 o m hm
              exact ⟨by show m.family < l.fresh + 1; omega, this.2⟩
          · intro o o' m m' hm hm' hne
            rcases getElem?_set_cases _ _ _ _ _ (show (l.marks.set d _)[o]? = some m from hm) with ⟨e, rfl⟩ | ⟨e, hm⟩ <;>
              rcases getElem?_set_cases _ _ _ _ _ (show (l.marks.set d _)[o']? = some m' from hm') with ⟨e', rfl⟩ | ⟨e', hm'⟩
            · exact absurd (e.trans e'.symm) hne
            · exact (old o' m' hm').symm
            · exact old o m hm
            · exact h2 o o' m m' hm hm' hne
      have hop := hops op (by simp)
      cases op with
      | construct g => exact ih' _ (own none).1 (own none).2
      | wrap o => exact hop.elim
      | assign o g => exact ih' _ (own _).1 (own _).2
      | assignFrom o t => exact hop.elim
      | getitem o i => exact hop.elim
      | crop o a b c d e => exact hop.elim
      | zoom o f e => exact hop.elim
      | apply o f e => exact ih' _ (own _).1 (own _).2
      | fill o f e =>
        simp only [cond_false, Ledger.next]
        split
        · exact ih' _ (own _).1 (own _).2
        · exact ih' _ h1 h2
      | setitem o i z =>
        simp only [cond_false, Ledger.next]
        split
        · exact ih' _ h1 h2
        · rename_i m0 hm0
          refine ih' _ ?_ ?_
          · intro k m hm
            simp only [List.getElem?_mapIdx] at hm
            obtain ⟨n, hn, e⟩ := Option.map_eq_some_iff.1 hm
            have h1n := h1 k n hn
            by_cases hk : k = o
            · rw [if_pos hk] at e; subst e; exact ⟨h1n.1, rfl⟩
            · rw [if_neg hk, if_neg (fun hc => h2 k o n m0 hn hm0 hk hc.1)] at e
              subst e; exact h1n
          · intro k k' m m' hm hm' hne
            simp only [List.getElem?_mapIdx] at hm hm'
            obtain ⟨n, hn, e⟩ := Option.map_eq_some_iff.1 hm
            obtain ⟨n', hn', e'⟩ := Option.map_eq_some_iff.1 hm'
            have f : m.family = n.family := by rw [← e]; split <;> [rfl; (split <;> rfl)]
            have f' : m'.family = n'.family := by rw [← e']; split <;> [rfl; (split <;> rfl)]
            rw [f, f']
            exact h2 k k' n n' hn hn' hne
      | read o =>
        refine ih' _ ?_ ?_
        · intro k m hm
          simp only [cond_false, Ledger.next, List.getElem?_modify] at hm
          obtain ⟨n, hn, e⟩ := Option.map_eq_some_iff.1 hm
          have h1n := h1 k n hn
          subst e
          split <;> exact h1n
        · intro k k' m m' hm hm' hne
          simp only [cond_false, Ledger.next, List.getElem?_modify] at hm hm'
          obtain ⟨n, hn, e⟩ := Option.map_eq_some_iff.1 hm
          obtain ⟨n', hn', e'⟩ := Option.map_eq_some_iff.1 hm'
          have f : m.family = n.family := by rw [← e]; split <;> rfl
          have f' : m'.family = n'.family := by rw [← e']; split <;> rfl
          rw [f, f']
          exact h2 k k' n n' hn hn' hne

/-- **C05** (proved part). In every history in which surfaces are created and transformed by operations computing
new arrays, edited and read — everything except slicing (`s[...]`), `crop`/`zoom` and passing `.data` on — distinct
surfaces never share heights: editing one leaves the heights of every other surface unchanged, and every
parameter read, of any surface, returns the value for its current heights. Missing: slices and crops, for which
the property is false (`C05_slice_shares`, `C05_crop_shares`). -/
theorem C05_no_sharing_partial (P : Grid (Option K) → V) (ops : List (HOp K)) (hops : ∀ op ∈ ops, NoSharing op) :
    let w := run P (emptyWorld : World K V) ops
    (∀ o o' item z, o ≠ o' → ((step P w (.setitem o item z)).1).heights o' = w.heights o') ∧
    (∀ o g, w.heights o = some g → (step P w (.read o)).2 = .value (P g)) := by
  intro w
  have hI : Inv P w (record P emptyWorld emptyLedger ops) := inv P ops
  obtain ⟨hs, hd⟩ := record_distinct P ops hops (emptyWorld : World K V) emptyLedger (by intro o m hm; simp [emptyLedger] at hm)
    (by intro o o' m m' hm; simp [emptyLedger] at hm)
  constructor
  · intro o o' item z hne
    cases ho : w.objs[o]? with
    | none => simp only [step, ho]
    | some x =>
      cases ho' : w.objs[o']? with
      | none =>
        have : ((step P w (.setitem o item z)).1).objs[o']? = none := by
          simp only [step, ho]
          split
          · split
            · exact ho'
            · rw [List.getElem?_set_ne hne]; exact ho'
          · exact ho'
        unfold World.heights
        rw [this, ho']
        rfl
      | some x' =>
        obtain ⟨m, hm⟩ := marks_some hI ho
        obtain ⟨m', hm'⟩ := marks_some hI ho'
        rw [heights_eq ho']
        exact (C05_families_partial P ops o o' m m' hne _ item z hm hm' (heights_eq ho')).1 (hd o o' m m' hm hm' hne)
  · intro o g hg
    obtain ⟨x, hx, -⟩ := heights_some hg
    obtain ⟨m, hm⟩ := marks_some hI hx
    exact C05_reads_partial P ops o m g hm (hs o m hm) hg

private theorem record_fresh (P : Grid (Option K) → V) (ops : List (HOp K)) (hops : ∀ op ∈ ops, ∀ o i z, op ≠ .setitem o i z) :
    ∀ (w : World K V) (l : Ledger), (∀ (o : Nat) (m : Mark), l.marks[o]? = some m → m.stale = false) →
      ∀ (o : Nat) (m : Mark), (record P w l ops).marks[o]? = some m → m.stale = false := by
  induction ops with
  | nil => exact fun w l h1 => h1
  | cons op ops ih =>
    intro w l h1
    have ih' := ih (fun q hq => hops q (by simp [hq])) (step P w op).1
    unfold record
    cases hr : HOut.raised (step P w op).2 with
    | true => exact ih' l h1
    | false =>
      have put : ∀ (l' : Ledger) dest (x : Mark), x.stale = false → l'.marks = l.marks →
          ∀ (o : Nat) (m : Mark), (l'.put dest x).marks[o]? = some m → m.stale = false := by
        intro l' dest x hx hl o m hm
        cases dest with
        | none =>
          rcases getElem?_append_one _ _ _ _ (show (l'.marks ++ [_])[o]? = some m from hm) with hm | ⟨-, rfl⟩
          · exact h1 o m (by rw [← hl]; exact hm)
          · exact hx
        | some d =>
          rcases getElem?_set_cases _ _ _ _ _ (show (l'.marks.set d _)[o]? = some m from hm) with ⟨-, rfl⟩ | ⟨-, hm⟩
          · exact hx
          · exact h1 o m (by rw [← hl]; exact hm)
      have own : ∀ dest (o : Nat) (m : Mark), (l.own dest).marks[o]? = some m → m.stale = false :=
        fun dest => put l dest _ rfl rfl
      have share : ∀ src ro dest (o : Nat) (m : Mark), (l.share src ro dest).marks[o]? = some m → m.stale = false := by
        intro src ro dest
        unfold Ledger.share
        split
        · exact h1
        · exact put l dest _ rfl rfl
      cases op with
      | construct g => exact ih' _ (own _)
      | wrap o => exact ih' _ (share _ _ _)
      | assign o g => exact ih' _ (own _)
      | assignFrom o t => exact ih' _ (share _ _ _)
      | getitem o i => exact ih' _ (share _ _ _)
      | crop o a b c d e => exact ih' _ (share _ _ _)
      | zoom o f e => exact ih' _ (share _ _ _)
      | apply o f e => exact ih' _ (own _)
      | fill o f e =>
        simp only [cond_false, Ledger.next]
        split
        · exact ih' _ (own _)
        · exact ih' _ h1
      | setitem o i z => exact absurd rfl (hops _ (by simp) o i z)
      | read o =>
        refine ih' _ ?_
        intro k m hm
        simp only [cond_false, Ledger.next, List.getElem?_modify] at hm
        obtain ⟨n, hn, e⟩ := Option.map_eq_some_iff.1 hm
        have h1n := h1 k n hn
        subst e
        split <;> exact h1n

/-- **C05** (proved part, with slices). If heights are never edited item by item, sharing is unobservable: in every
history without item assignment — slices and crops included — every read is current. -/
theorem C05_reads_current_without_edits_partial (P : Grid (Option K) → V) (ops : List (HOp K))
    (hops : ∀ op ∈ ops, ∀ o i z, op ≠ .setitem o i z) (o : Nat) (g : Grid (Option K))
    (hg : (run P (emptyWorld : World K V) ops).heights o = some g) :
    (step P (run P (emptyWorld : World K V) ops) (.read o)).2 = .value (P g) := by
  obtain ⟨x, hx, -⟩ := heights_some hg
  obtain ⟨m, hm⟩ := marks_some (inv P ops) hx
  exact C05_reads_partial P ops o m g hm
    (record_fresh P ops hops emptyWorld emptyLedger (by intro o m hm; simp [emptyLedger] at hm) o m hm) hg

/-- **C05** is violated by slicing: `t = s[0:1]; s.parameter(); t[0,0] = 9` changes the heights of `s`, and reading
the parameter of `s` returns the value for the old heights. -/
theorem C05_slice_shares :
    let P : Grid (Option ℚ) → List (Option ℚ) := fun g => flat g
    let w := run P emptyWorld [.construct { rows := [[some 1, some 2], [some 3, some 4]], nx := 2 },
      .getitem 0 (.one (.sl ⟨some 0, some 1, none⟩)), .read 0, .setitem 1 (.two (.idx 0) (.idx 0)) (some 9)]
    w.heights 0 = some { rows := [[some 9, some 2], [some 3, some 4]], nx := 2 } ∧
    (step P w (.read 0)).2 = .value [some 1, some 2, some 3, some 4] := by
  decide +kernel

/-- **C05** is violated by cropping: after `t = s.crop(...)`, editing `s` changes the heights of `t` while `t` keeps
returning the parameter of its former heights. -/
theorem C05_crop_shares :
    let P : Grid (Option ℚ) → List (Option ℚ) := fun g => flat g
    let w := run P emptyWorld [.construct { rows := [[some 1, some 2], [some 3, some 4]], nx := 2 },
      .crop 0 0 1 0 0 false, .read 1, .setitem 0 (.two (.idx 0) (.idx 0)) (some 9)]
    w.heights 1 = some { rows := [[some 9, some 2]], nx := 2 } ∧
    (step P w (.read 1)).2 = .value [some 1, some 2] := by
  decide +kernel

/-- a history meeting the hypotheses of `C05_no_sharing_partial`, with two surfaces and an edit -/
example : ∀ op ∈ ([.construct { rows := [[some 1, some 2]], nx := 2 }, .apply 0 (fun g => g) false,
    .setitem 0 (.two (.idx 0) (.idx (-1))) none, .read 1] : List (HOp ℚ)), NoSharing op := by
  intro op hop
  simp only [List.mem_cons, List.not_mem_nil, or_false] at hop
  rcases hop with rfl | rfl | rfl | rfl <;> exact trivial

/-- the bookkeeping of the history of `C05_slice_shares`: both surfaces in one family, the first stale; and of one
with two families -/
example :
    let P : Grid (Option ℚ) → List (Option ℚ) := fun g => flat g
    (record P emptyWorld emptyLedger [.construct { rows := [[some 1, some 2], [some 3, some 4]], nx := 2 },
      .getitem 0 (.one (.sl ⟨some 0, some 1, none⟩)), .read 0, .setitem 1 (.two (.idx 0) (.idx 0)) (some 9),
      .apply 1 (fun g => g) false]).marks
      = [⟨0, true, true, true⟩, ⟨0, true, false, false⟩, ⟨1, true, false, false⟩] := by
  decide +kernel

/-! ## C06 -/

variable {D : Type}

/-- the cached dictionary, the cached number: current -/
private def CCurrent (P : Heap.Params D K V) (s : Cell D K V) : Prop :=
  (∀ r, s.dictRef = some r → s.store[r]? = some (P.dict s.data)) ∧ (∀ v, s.scalar = some v → v = P.num s.data s.step)

private theorem getDict_store (P : Heap.Params D K V) (s : Cell D K V) (hs : CCurrent P s) :
    (getDict P s).1.store[(getDict P s).2]? = some (P.dict s.data) := by
  unfold getDict
  cases h : s.dictRef with
  | none => simp
  | some r => exact hs.1 r h

private theorem getDict_current (P : Heap.Params D K V) (s : Cell D K V) (hs : CCurrent P s) : CCurrent P (getDict P s).1 := by
  unfold getDict
  cases h : s.dictRef with
  | none =>
    refine ⟨fun r hr => ?_, hs.2⟩
    have : r = s.store.length := (Option.some.inj hr).symm
    subst this
    simp
  | some r => exact hs

/-- **C06** (proved part). As long as the caller modifies no returned dictionary and does not reassign the steps,
in every history of calls and data assignments each parameter call returns the value for the current heights
and steps, and `height_parameters()` returns a dictionary with the current values. Missing: the two excluded
caller actions, for which the property is false (`C06_dict_mutation`, `C06_step_assignment`). -/
theorem C06_isolated_partial (P : Heap.Params D K V) (ops : List (COp D K V)) (d : D) (st : K)
    (hops : ∀ op ∈ ops, (∀ r k v, op ≠ .mutate r k v) ∧ ∀ x, op ≠ .setStep x) :
    let s := crun P (cfresh d st) ops
    (∀ k, (cstep P s (.callGetter k)).2 = .value (P.dict s.data k)) ∧
    (cstep P s .callScalar).2 = .value (P.num s.data s.step) ∧
    (∃ r, (cstep P s .callDict).2 = .ref r ∧ (cstep P s .callDict).1.store[r]? = some (P.dict s.data)) := by
  intro s
  have hs : CCurrent P s := by
    have key : ∀ (ops : List (COp D K V)) (s : Cell D K V),
        (∀ op ∈ ops, (∀ r k v, op ≠ .mutate r k v) ∧ ∀ x, op ≠ .setStep x) → CCurrent P s → CCurrent P (crun P s ops) := by
      intro ops
      induction ops with
      | nil => intro s _ h; exact h
      | cons op ops ih =>
        intro s hops hs
        refine ih _ (fun q hq => hops q (by simp [hq])) ?_
        have hop := hops op (by simp)
        cases op with
        | callDict => exact getDict_current P s hs
        | callGetter k => exact getDict_current P s hs
        | callScalar =>
          simp only [cstep]
          cases h : s.scalar with
          | some v => exact hs
          | none => exact ⟨hs.1, fun v hv => (Option.some.inj hv).symm⟩
        | mutate r k v => exact absurd rfl (hop.1 r k v)
        | assign d => exact ⟨fun r hr => (by cases hr), fun v hv => (by cases hv)⟩
        | setStep x => exact absurd rfl (hop.2 x)
    exact key ops _ hops ⟨fun r hr => (by cases hr), fun v hv => (by cases hv)⟩
  refine ⟨fun k => ?_, ?_, ⟨(getDict P s).2, rfl, getDict_store P s hs⟩⟩
  · simp only [cstep]
    rw [getDict_store P s hs]
    rfl
  · simp only [cstep]
    cases h : s.scalar with
    | some v => simp only; rw [hs.2 v h]
    | none => rfl

/-- **C06** is violated for dictionaries: `d = s.height_parameters(); d['Sa'] = 0` changes what `s.Sa()` returns for
unchanged heights. -/
theorem C06_dict_mutation :
    let P : Heap.Params ℚ ℚ ℚ := { dict := fun d _ => d, num := fun d st => d / st }
    (cstep P (crun P (cfresh 5 1) [.callDict, .mutate 0 "Sa" 0]) (.callGetter "Sa")).2 = .value 0 ∧
    (cstep P (crun P (cfresh 5 1) [.callDict]) (.callGetter "Sa")).2 = .value 5 := by
  decide +kernel

/-- **C06** is violated for step sizes: after `s.Sdq(); s.step_x = 2`, `s.Sdq()` still returns the value for the old
step. -/
theorem C06_step_assignment :
    let P : Heap.Params ℚ ℚ ℚ := { dict := fun d _ => d, num := fun d st => d / st }
    (cstep P (crun P (cfresh 6 1) [.callScalar, .setStep 2]) .callScalar).2 = .value 6 ∧
    P.num (crun P (cfresh 6 1) [.callScalar, .setStep 2]).data (crun P (cfresh 6 1) [.callScalar, .setStep 2]).step = 3 := by
  decide +kernel

example : ∀ op ∈ ([.callDict, .callGetter "Sq", .assign 7, .callScalar] : List (COp ℚ ℚ ℚ)),
    (∀ r k v, op ≠ .mutate r k v) ∧ ∀ x, op ≠ .setStep x := by
  intro op hop
  simp only [List.mem_cons, List.not_mem_nil, or_false] at hop
  rcases hop with rfl | rfl | rfl | rfl <;> exact ⟨(by intro r k v h; cases h), (by intro x h; cases h)⟩

end Surfalize.Props
