import Verif.Props.Heap

/-!
# C70 — surfaces can be edited item by item
-/
set_option linter.unusedSectionVars false
namespace Surfalize.Props
open Surfalize Container Geometry Heap Spec EditSpec

variable {K V : Type}

/-- **C70** (the assignment). After every history, for every surface `s` and every index expression made of integers and
slices: `s[item] = z` succeeds exactly if the bookkeeping calls the surface editable and the expression is valid for
its shape; the heights of `s` are then `z` at every point addressed and unchanged everywhere else. If the surface is
not editable the assignment raises ValueError and changes nothing. -/
theorem C70_assignment (P : Grid (Option K) → V) (ops : List (HOp K)) (o : Nat) (m : Mark) (g : Grid (Option K))
    (item : Index) (z : Option K) :
    let w := run P (emptyWorld : World K V) ops
    (record P (emptyWorld : World K V) emptyLedger ops).marks[o]? = some m → w.heights o = some g →
    ((step P w (.setitem o item z)).2 = .done ↔ m.editable = true ∧ Valid g.ny g.nx item) ∧
    (m.editable = false → step P w (.setitem o item z) = (w, .exn .readOnly)) ∧
    (m.editable = true → Valid g.ny g.nx item →
      ∃ g', ((step P w (.setitem o item z)).1).heights o = some g' ∧ g'.ny = g.ny ∧ g'.nx = g.nx ∧
        ∀ i < g.ny, ∀ j < g.nx, (Addressed g.ny g.nx item i j ∧ (at? g i j).isSome → at? g' i j = some z) ∧
          (¬ Addressed g.ny g.nx item i j → at? g' i j = at? g i j)) := by
  intro w hm hg
  have hI : Heap.Inv P w _ := Heap.run_inv P ops _ _ (inv_empty P)
  obtain ⟨x, hx, hr⟩ := heights_some hg
  have hf := hI.each o x m hx hm
  have hny : x.view.idx.ny = g.ny := by rw [← hr]; unfold readView; rw [map_ny]
  have hnx : x.view.idx.nx = g.nx := by rw [← hr]; rfl
  obtain ⟨s1, s2⟩ := select_spec x.view.idx item
  rw [hny, hnx] at s1 s2
  simp only [step, hx]
  by_cases hw : x.view.writable = true
  · have he : m.editable = true := hf.edit.trans hw
    rw [if_pos hw]
    cases hs : select x.view.idx item with
    | error e =>
      have hnv : ¬ Valid g.ny g.nx item := fun hv => by
        obtain ⟨c, hc⟩ := s1.1 hv
        rw [hs] at hc; cases hc
      exact ⟨⟨fun h => (by cases h), fun h => absurd h.2 hnv⟩, fun h => (by rw [he] at h; cases h), fun _ hv => absurd hv hnv⟩
    | ok cells =>
      have hv : Valid g.ny g.nx item := s1.2 ⟨cells, hs⟩
      refine ⟨⟨fun _ => ⟨he, hv⟩, fun _ => rfl⟩, fun h => (by rw [he] at h; cases h), fun _ _ => ?_⟩
      have hh : World.heights { bufs := w.bufs.modify x.view.buf fun b => cells.foldl (fun b k => b.set k z) b
                                objs := w.objs.set o { x with cache := none } } o
          = some (readView (w.bufs.modify x.view.buf fun b => cells.foldl (fun b k => b.set k z) b) x.view) :=
        heights_eq (x := { x with cache := none }) (by
          show (w.objs.set o _)[o]? = _
          rw [List.getElem?_set_self (List.getElem?_eq_some_iff.1 hx).1])
      refine ⟨_, hh, ?_, ?_, fun i hi j hj => ?_⟩
      · rw [← hr]; unfold readView; rw [map_ny, map_ny]
      · rw [← hr]; rfl
      · rw [readView_write _ _ _ _ _ hf.alive hf.below, hr]
        have hk : ∀ k, at? x.view.idx i j = some k → (k ∈ cells ↔ Addressed g.ny g.nx item i j) :=
          fun k hk => s2 cells hs hf.inj i j k hk hj
        constructor
        · rintro ⟨ha, hsome⟩
          rw [← hr, at?_readView, Option.isSome_map] at hsome
          obtain ⟨k, hk'⟩ := Option.isSome_iff_exists.1 hsome
          rw [if_pos ⟨rfl, k, (hk k hk').2 ha, hk'⟩]
        · intro ha
          rw [if_neg]
          rintro ⟨-, k, h1, h2⟩
          exact ha ((hk k h2).1 h1)
  · have he : m.editable = false := hf.edit.trans (Bool.eq_false_iff.2 hw)
    rw [if_neg hw]
    exact ⟨⟨fun h => (by cases h), fun h => absurd (he.symm.trans h.1) (by decide)⟩, fun _ => rfl,
      fun h => absurd (he.symm.trans h) (by decide)⟩

/-- operations that hand out a read-only array -/
def KeepsEditable : HOp K → Prop
  | .wrap _ | .assignFrom _ _ | .crop .. | .zoom .. => False
  | _ => True

private theorem record_editable (P : Grid (Option K) → V) (ops : List (HOp K)) (hops : ∀ op ∈ ops, KeepsEditable op) :
    ∀ (w : World K V) (l : Ledger), (∀ (o : Nat) (m : Mark), l.marks[o]? = some m → m.editable = true) →
      ∀ (o : Nat) (m : Mark), (record P w l ops).marks[o]? = some m → m.editable = true := by
  induction ops with
  | nil => exact fun w l h1 => h1
  | cons op ops ih =>
    intro w l h1
    have ih' := ih (fun q hq => hops q (by simp [hq])) (step P w op).1
    unfold record
    cases hr : HOut.raised (step P w op).2 with
    | true => exact ih' l h1
    | false =>
      have put : ∀ dest (x : Mark), x.editable = true →
          ∀ (o : Nat) (m : Mark), (l.put dest x).marks[o]? = some m → m.editable = true := by
        intro dest x hx o m hm
        cases dest with
        | none =>
          rcases getElem?_append_one _ _ _ _ (show (l.marks ++ [_])[o]? = some m from hm) with hm | ⟨-, rfl⟩
          · exact h1 o m hm
          · exact hx
        | some d =>
          rcases getElem?_set_cases _ _ _ _ _ (show (l.marks.set d _)[o]? = some m from hm) with ⟨-, rfl⟩ | ⟨-, hm⟩
          · exact hx
          · exact h1 o m hm
      have own : ∀ dest (o : Nat) (m : Mark), (l.own dest).marks[o]? = some m → m.editable = true :=
        fun dest => put dest _ rfl
      have hop := hops op (by simp)
      cases op with
      | construct g => exact ih' _ (own _)
      | wrap o => exact hop.elim
      | assign o g => exact ih' _ (own _)
      | assignFrom o t => exact hop.elim
      | getitem o i =>
        simp only [cond_false, Ledger.next]
        unfold Ledger.share
        split
        · exact ih' _ h1
        · rename_i m0 hm0
          refine ih' _ (put none _ ?_)
          rw [h1 o m0 hm0]; rfl
      | crop o a b c d e => exact hop.elim
      | zoom o f e => exact hop.elim
      | apply o f e => exact ih' _ (own _)
      | fill o f e =>
        simp only [cond_false, Ledger.next]
        split
        · exact ih' _ (own _)
        · exact ih' _ h1
      | setitem o i z =>
        simp only [cond_false, Ledger.next]
        split
        · exact ih' _ h1
        · refine ih' _ ?_
          intro k m hm
          simp only [List.getElem?_mapIdx] at hm
          obtain ⟨n, hn, e⟩ := Option.map_eq_some_iff.1 hm
          have h1n := h1 k n hn
          subst e
          split
          · exact h1n
          · split <;> exact h1n
      | read o =>
        refine ih' _ ?_
        intro k m hm
        simp only [cond_false, Ledger.next, List.getElem?_modify] at hm
        obtain ⟨n, hn, e⟩ := Option.map_eq_some_iff.1 hm
        have h1n := h1 k n hn
        subst e
        split <;> exact h1n

/-- **C70** (proved part). In every history without `crop`, `zoom` and `.data` passed on, every surface – however it was
obtained: constructed, sliced, computed by an operation, replaced in place – can be edited at every valid index
expression; in particular at any single point, whose height alone changes. Missing: the results of `crop` and
`zoom`, which cannot be edited (`C70_crop_not_editable`, `C70_violated`). -/
theorem C70_partial (P : Grid (Option K) → V) (ops : List (HOp K)) (hops : ∀ op ∈ ops, KeepsEditable op) (o : Nat)
    (g : Grid (Option K)) (z : Option K) :
    let w := run P (emptyWorld : World K V) ops
    w.heights o = some g →
    (∀ item, Valid g.ny g.nx item → (step P w (.setitem o item z)).2 = .done) ∧
    ∀ i < g.ny, ∀ j < g.nx,
      (step P w (.setitem o (.two (.idx i) (.idx j)) z)).2 = .done ∧
      ∃ g', ((step P w (.setitem o (.two (.idx i) (.idx j)) z)).1).heights o = some g' ∧ g'.ny = g.ny ∧ g'.nx = g.nx ∧
        ((at? g i j).isSome → at? g' i j = some z) ∧
        ∀ i' < g.ny, ∀ j' < g.nx, (i', j') ≠ (i, j) → at? g' i' j' = at? g i' j' := by
  intro w hg
  obtain ⟨x, hx, -⟩ := heights_some hg
  obtain ⟨m, hm⟩ := marks_some (Heap.run_inv P ops (emptyWorld : World K V) emptyLedger (inv_empty P)) hx
  have he := record_editable P ops hops emptyWorld emptyLedger (by intro o m hm; simp [emptyLedger] at hm) o m hm
  refine ⟨fun item hv => (C70_assignment P ops o m g item z hm hg).1.2 ⟨he, hv⟩, fun i hi j hj => ?_⟩
  have hv : Valid g.ny g.nx (.two (.idx i) (.idx j)) := by
    simp only [Valid, ValidItem]; omega
  obtain ⟨h1, -, h3⟩ := C70_assignment P ops o m g (.two (.idx i) (.idx j)) z hm hg
  obtain ⟨g', e, e1, e2, e3⟩ := h3 he hv
  refine ⟨h1.2 ⟨he, hv⟩, g', e, e1, e2, fun hs => (e3 i hi j hj).1 ⟨⟨.inl rfl, .inl rfl⟩, hs⟩, fun i' hi' j' hj' hne => ?_⟩
  refine (e3 i' hi' j' hj').2 ?_
  rintro ⟨h | h, h' | h'⟩
  · exact hne (by rw [Prod.mk.injEq]; omega)
  all_goals omega

/-- **C70** is violated by cropping and zooming: after every history, a surface returned by `crop` or `zoom` – or any
surface after an in-place `crop` or `zoom` – raises ValueError at every attempt to edit it. -/
theorem C70_crop_not_editable (P : Grid (Option K) → V) (ops : List (HOp K)) (op : HOp K) (o r : Nat)
    (hop : (∃ a b c d e, op = .crop o a b c d e) ∨ ∃ f e, op = .zoom o f e) :
    let w := run P (emptyWorld : World K V) ops
    (step P w op).2 = .surf r → ∀ item z, (step P (step P w op).1 (.setitem r item z)).2 = .exn .readOnly := by
  intro w hs item z
  have key : ∀ (v : View) (inplace : Bool), v.writable = false → (∃ x, w.objs[o]? = some x) →
      (place w o v inplace).2 = .surf r → (step P (place w o v inplace).1 (.setitem r item z)).2 = .exn .readOnly := by
    intro v inplace hv ho hr
    have hx : ((place w o v inplace).1).objs[r]? = some { view := v, cache := none } := by
      cases inplace with
      | false =>
        have : w.objs.length = r := by injection hr
        show (w.objs ++ [_])[r]? = _
        rw [← this]; simp
      | true =>
        have : o = r := by injection hr
        obtain ⟨x, ho⟩ := ho
        show (w.objs.set o _)[r]? = _
        rw [← this, List.getElem?_set_self (List.getElem?_eq_some_iff.1 ho).1]
    simp only [step, hx]
    rw [if_neg (by simp [hv])]
  rcases hop with ⟨a, b, c, d, e, rfl⟩ | ⟨f, e, rfl⟩
  · simp only [step] at hs ⊢
    cases hx : w.objs[o]? with
    | none => rw [hx] at hs; cases hs
    | some x =>
      rw [hx] at hs
      dsimp only at hs ⊢
      cases hc : cropPx x.view.idx a b c d with
      | error e => rw [hc] at hs; cases hs
      | ok q =>
        rw [hc] at hs
        exact key _ e rfl ⟨x, hx⟩ hs
  · simp only [step] at hs ⊢
    cases hx : w.objs[o]? with
    | none => rw [hx] at hs; cases hs
    | some x =>
      rw [hx] at hs
      dsimp only at hs ⊢
      cases hc : Geometry.zoom x.view.idx f with
      | error e => rw [hc] at hs; cases hs
      | ok q =>
        rw [hc] at hs
        exact key _ e rfl ⟨x, hx⟩ hs

/-- a concrete history: slicing, editing the slice at a negative index, cropping in place -/
theorem C70_violated :
    let P : Grid (Option ℚ) → List (Option ℚ) := fun g => flat g
    let w := run P emptyWorld [.construct { rows := [[some 1, some 2], [some 3, some 4]], nx := 2 }, .crop 0 0 1 0 1 true]
    w.heights 0 = some { rows := [[some 1, some 2], [some 3, some 4]], nx := 2 } ∧
    (step P w (.setitem 0 (.two (.idx 0) (.idx 0)) (some 9))).2 = .exn .readOnly := by
  decide +kernel

/-- the hypotheses of `C70_partial` are met by a history with a slice, and the edit acts on the point meant -/
example :
    let P : Grid (Option ℚ) → List (Option ℚ) := fun g => flat g
    let ops : List (HOp ℚ) := [.construct { rows := [[some 1, some 2], [some 3, some 4]], nx := 2 },
      .getitem 0 (.two (.sl ⟨none, none, some (-1)⟩) (.sl ⟨some 1, none, none⟩))]
    (run P emptyWorld ops).heights 1 = some { rows := [[some 4], [some 2]], nx := 1 } ∧
    (step P (run P emptyWorld ops) (.setitem 1 (.two (.idx (-1)) (.idx 0)) none)).1.heights 1
      = some { rows := [[some 4], [none]], nx := 1 } ∧
    (step P (run P emptyWorld ops) (.setitem 0 (.one (.sl ⟨some 1, none, none⟩)) (some 0))).1.heights 0
      = some { rows := [[some 1, some 2], [some 0, some 0]], nx := 2 } ∧
    (step P (run P emptyWorld ops) (.setitem 0 (.two (.idx 2) (.idx 0)) none)).2 = .exn .indexError := by
  decide +kernel

example : ∀ op ∈ ([.construct { rows := [[some 1]], nx := 1 }, .getitem 0 (.one (.sl ⟨none, none, none⟩)), .apply 1 id true,
    .fill 1 id false, .read 0] : List (HOp ℚ)), KeepsEditable op := by
  intro op hop
  simp only [List.mem_cons, List.not_mem_nil, or_false] at hop
  rcases hop with rfl | rfl | rfl | rfl | rfl <;> exact trivial

end Surfalize.Props
