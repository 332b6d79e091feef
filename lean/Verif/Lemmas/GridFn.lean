import Verif.Prelude.GridFn
import Verif.Lemmas.Num

/-! Lemmas about index access. -/
set_option linter.unusedSectionVars false
namespace Surfalize
open Container

theorem ofFn_ny {α : Type} (ny nx : Nat) (f : Nat → Nat → α) : (Grid.ofFn ny nx f).ny = ny := by
  simp [Grid.ofFn, Grid.ny]
theorem ofFn_nx {α : Type} (ny nx : Nat) (f : Nat → Nat → α) : (Grid.ofFn ny nx f).nx = nx := rfl
theorem ofFn_wf {α : Type} (ny nx : Nat) (f : Nat → Nat → α) : (Grid.ofFn ny nx f).WF := by
  intro r hr
  simp only [Grid.ofFn, List.mem_map] at hr
  obtain ⟨i, _, rfl⟩ := hr
  simp [Grid.ofFn]

theorem get_ofFn {α : Type} {ny nx : Nat} (f : Nat → Nat → Option α) {i j : Nat} (hi : i < ny) (hj : j < nx) :
    (Grid.ofFn ny nx f).get i j = f i j := by
  simp [Grid.get, Grid.ofFn, hi, hj]

theorem mem_pixels {ny nx : Nat} {p : Nat × Nat} : p ∈ pixels ny nx ↔ p.1 < ny ∧ p.2 < nx := by
  rcases p with ⟨i, j⟩
  simp only [pixels, List.mem_flatMap, List.mem_map, List.mem_range, Prod.mk.injEq]
  constructor
  · rintro ⟨a, ha, b, hb, rfl, rfl⟩; exact ⟨ha, hb⟩
  · rintro ⟨ha, hb⟩; exact ⟨i, ha, j, hb, rfl, rfl⟩

theorem grid_ext_get {α : Type} {g h : Grid (Option α)} (hg : g.WF) (hh : h.WF) (hny : g.ny = h.ny)
    (hnx : g.nx = h.nx) (hget : ∀ i < g.ny, ∀ j < g.nx, g.get i j = h.get i j) : g = h := by
  rcases g with ⟨gr, gn⟩
  rcases h with ⟨hr, hn⟩
  simp only [Grid.ny] at hny hnx hget
  subst hnx
  congr 1
  apply List.ext_getElem hny
  intro i h1 h2
  have l1 : gr[i].length = gn := hg _ (List.getElem_mem h1)
  have l2 : hr[i].length = gn := hh _ (List.getElem_mem h2)
  apply List.ext_getElem (by omega)
  intro j h3 h4
  have := hget i h1 j (by omega)
  simpa [Grid.get, h1, h2, h3, h4] using this

theorem ofFn_get {α : Type} {g : Grid (Option α)} (hg : g.WF) : Grid.ofFn g.ny g.nx g.get = g :=
  grid_ext_get (ofFn_wf _ _ _) hg (ofFn_ny _ _ _) rfl (by
    intro i hi j hj
    rw [ofFn_ny] at hi
    exact get_ofFn _ hi hj)

theorem get_mem {α : Type} {g : Grid (Option α)} (hg : g.WF) {i j : Nat} (hi : i < g.ny) (hj : j < g.nx) :
    g.get i j ∈ flat g := by
  have hi' : i < g.rows.length := hi
  have hl : g.rows[i].length = g.nx := hg _ (List.getElem_mem hi')
  have : g.get i j = g.rows[i][j]'(by omega) := by
    simp [Grid.get, hi', hl, hj]
  rw [this]
  exact List.mem_flatten.2 ⟨_, List.getElem_mem hi', List.getElem_mem _⟩

theorem mem_flat_get {α : Type} {g : Grid (Option α)} (hg : g.WF) {z : Option α} (h : z ∈ flat g) :
    ∃ i < g.ny, ∃ j < g.nx, g.get i j = z := by
  obtain ⟨r, hr, hz⟩ := List.mem_flatten.1 (show z ∈ g.rows.flatten from h)
  obtain ⟨i, hi, rfl⟩ := List.mem_iff_getElem.1 hr
  obtain ⟨j, hj, rfl⟩ := List.mem_iff_getElem.1 hz
  have hl : g.rows[i].length = g.nx := hg _ hr
  refine ⟨i, hi, j, by omega, ?_⟩
  simp [Grid.get, hi, hj]

theorem get_map {α β : Type} (f : α → β) (g : Grid (Option α)) (i j : Nat) :
    (Container.map (Option.map f) g).get i j = (g.get i j).map f := by
  show ((((g.rows.map (List.map (Option.map f)))[i]?).bind fun r => r[j]?).getD none) = _
  rw [List.getElem?_map]
  cases h : g.rows[i]? with
  | none => simp [Grid.get, h]
  | some r =>
    simp only [Option.map_some, Option.bind_some, List.getElem?_map, Grid.get, h]
    cases r[j]? <;> simp

theorem map_wf {α β : Type} (f : α → β) {g : Grid α} (h : g.WF) : (Container.map f g).WF := by
  intro r hr
  obtain ⟨r', hr', rfl⟩ := List.mem_map.1 (show r ∈ g.rows.map (List.map f) from hr)
  show (r'.map f).length = g.nx
  simpa using h r' hr'

theorem map_ny {α β : Type} (f : α → β) (g : Grid α) : (Container.map f g).ny = g.ny := by
  show (g.rows.map (List.map f)).length = g.rows.length
  simp
theorem map_nx {α β : Type} (f : α → β) (g : Grid α) : (Container.map f g).nx = g.nx := rfl

/-- fully measured data: every entry is its value -/
theorem get_eq_some_val {K : Type} [Zero K] {g : Grid (Option K)} (hg : g.WF) (hf : none ∉ flat g) {i j : Nat}
    (hi : i < g.ny) (hj : j < g.nx) : g.get i j = some (g.val i j) := by
  cases h : g.get i j with
  | none => exact absurd (h ▸ get_mem hg hi hj) hf
  | some z => simp [Grid.val, h]

theorem flat_ofFn {α : Type} (ny nx : Nat) (f : Nat → Nat → α) :
    flat (Grid.ofFn ny nx f) = (pixels ny nx).map fun p => f p.1 p.2 := by
  show ((List.range ny).map fun i => (List.range nx).map fun j => f i j).flatten = _
  simp [pixels, List.flatMap_def, List.map_flatten, Function.comp_def]

/-- row-major order: the flattened array lists the entries pixel by pixel -/
theorem flat_eq_pixels {α : Type} {g : Grid (Option α)} (hg : g.WF) :
    flat g = (pixels g.ny g.nx).map fun p => g.get p.1 p.2 := by
  conv_lhs => rw [← ofFn_get hg]
  exact flat_ofFn _ _ _

theorem get_zip {α β γ : Type} {f : Option α → Option β → Option γ} {a : Grid (Option α)} {b : Grid (Option β)}
    (ha : a.WF) (hb : b.WF) (hny : a.ny = b.ny) (hnx : a.nx = b.nx) {i j : Nat} (hi : i < a.ny) (hj : j < a.nx) :
    ({ rows := List.zipWith (List.zipWith f) a.rows b.rows, nx := a.nx } : Grid (Option γ)).get i j
      = f (a.get i j) (b.get i j) := by
  have hi1 : i < a.rows.length := hi
  have hi2 : i < b.rows.length := by have : b.rows.length = b.ny := rfl; omega
  have l1 : a.rows[i].length = a.nx := ha _ (List.getElem_mem hi1)
  have l2 : b.rows[i].length = b.nx := hb _ (List.getElem_mem hi2)
  have hj1 : j < a.rows[i].length := by omega
  have hj2 : j < b.rows[i].length := by omega
  simp [Grid.get, hi1, hi2, hj1, hj2]

theorem zip_wf {α β γ : Type} {f : α → β → γ} {a : Grid α} {b : Grid β}
    (ha : a.WF) (hb : b.WF) (hnx : a.nx = b.nx) :
    ({ rows := List.zipWith (List.zipWith f) a.rows b.rows, nx := a.nx } : Grid γ).WF := by
  intro r hr
  obtain ⟨i, hi, rfl⟩ := List.mem_iff_getElem.1 hr
  have hi' : i < min a.rows.length b.rows.length := by simpa using hi
  have h1 : i < a.rows.length := by omega
  have h2 : i < b.rows.length := by omega
  show (List.zipWith (List.zipWith f) a.rows b.rows)[i].length = a.nx
  rw [List.getElem_zipWith, List.length_zipWith, ha _ (List.getElem_mem h1), hb _ (List.getElem_mem h2), hnx]
  simp

theorem zip_ny {α β γ : Type} {f : α → β → γ} {a : Grid α} {b : Grid β} (hny : a.ny = b.ny) :
    ({ rows := List.zipWith (List.zipWith f) a.rows b.rows, nx := a.nx } : Grid γ).ny = a.ny := by
  show (List.zipWith (List.zipWith f) a.rows b.rows).length = a.rows.length
  rw [List.length_zipWith]
  have : a.rows.length = b.rows.length := hny
  omega

end Surfalize
