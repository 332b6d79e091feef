import Verif.Lemmas.ArrayAt
import Verif.Model.Xyz
import Verif.Spec.Xyz
import Mathlib.Data.Finset.Card
import Mathlib.Data.Finset.Image
import Mathlib.Data.Finset.Prod
import Mathlib.Algebra.Order.Field.Basic
import Mathlib.Tactic.FieldSimp
/-!
# Properties of point lists (C66)
-/
set_option linter.unusedSectionVars false
namespace Surfalize.Props
open Surfalize Xyz XyzSpec FileArr

variable {K : Type} [Field K] [LinearOrder K] [IsStrictOrderedRing K]

private theorem column_map {α : Type} (f : α → List (Option K)) (c : Nat) (v : α → Option K)
    (hv : ∀ p, (f p)[c]? = some (v p)) : ∀ ps : List α, column (ps.map f) c = .ok (ps.map v)
  | [] => rfl
  | p :: ps => by
    have ih := column_map f c v hv ps
    unfold column at ih ⊢
    rw [List.map_cons, List.mapM_cons, hv p, ih]
    rfl

private theorem coordinates_map {α : Type} (f : α → List (Option K)) (c : Nat) (v : α → K)
    (hv : ∀ p, (f p)[c]? = some (some (v p))) (ps : List α) :
    coordinates (ps.map f) c = .ok (ps.map v) := by
  unfold coordinates
  rw [column_map f c (fun p => some (v p)) hv ps]
  dsimp only
  rw [if_neg (by simp)]
  congr 1
  unfold measured
  rw [List.filterMap_map]
  induction ps with
  | nil => rfl
  | cons p ps ih => simp

private theorem lists_length {order : List (Nat × Nat)} {ny nx : Nat} (h : Lists order ny nx) :
    order.length = ny * nx := by
  have : order.toFinset = Finset.range ny ×ˢ Finset.range nx := by
    ext p
    simp only [List.mem_toFinset, Finset.mem_product, Finset.mem_range]
    exact h.2 p
  rw [← List.toFinset_card_of_nodup h.1, this, Finset.card_product, Finset.card_range, Finset.card_range]

private theorem count_values {order : List (Nat × Nat)} (sel : Nat × Nat → Nat) {n : Nat} {x0 dx : K}
    (hdx : 0 < dx) (hsel : ∀ k, (∃ p ∈ order, sel p = k) ↔ k < n) :
    (order.map fun p => x0 + (sel p : K) * dx).dedup.length = n ∧
      (0 < n → (order.map fun p => x0 + (sel p : K) * dx).max? = some (x0 + ((n - 1 : Nat) : K) * dx) ∧
        (order.map fun p => x0 + (sel p : K) * dx).min? = some x0) := by
  constructor
  · have h1 : (order.map fun p => x0 + (sel p : K) * dx).toFinset =
        (Finset.range n).image fun k : Nat => x0 + (k : K) * dx := by
      ext y
      simp only [List.mem_toFinset, List.mem_map, Finset.mem_image, Finset.mem_range]
      constructor
      · rintro ⟨p, hp, rfl⟩
        exact ⟨sel p, (hsel _).1 ⟨p, hp, rfl⟩, rfl⟩
      · rintro ⟨k, hk, rfl⟩
        obtain ⟨p, hp, rfl⟩ := (hsel k).2 hk
        exact ⟨p, hp, rfl⟩
    have h2 : (order.map fun p => x0 + (sel p : K) * dx).dedup.length =
        (order.map fun p => x0 + (sel p : K) * dx).toFinset.card := by
      rw [List.card_toFinset]
    rw [h2, h1, Finset.card_image_of_injective, Finset.card_range]
    intro a b hab
    have : (a : K) * dx = (b : K) * dx := by simpa using hab
    have := mul_right_cancel₀ hdx.ne' this
    exact_mod_cast this
  · intro hn
    rw [max?_spec, min?_spec]
    refine ⟨⟨?_, ?_⟩, ?_, ?_⟩
    · obtain ⟨p, hp, hk⟩ := (hsel (n - 1)).2 (by omega)
      exact List.mem_map.2 ⟨p, hp, by rw [hk]⟩
    · intro y hy
      obtain ⟨p, hp, rfl⟩ := List.mem_map.1 hy
      have : sel p ≤ n - 1 := by
        have := (hsel (sel p)).1 ⟨p, hp, rfl⟩
        omega
      have : ((sel p : Nat) : K) ≤ ((n - 1 : Nat) : K) := by exact_mod_cast this
      have := mul_le_mul_of_nonneg_right this hdx.le
      linarith
    · obtain ⟨p, hp, hk⟩ := (hsel 0).2 hn
      exact List.mem_map.2 ⟨p, hp, by rw [hk]; simp⟩
    · intro y hy
      obtain ⟨p, -, rfl⟩ := List.mem_map.1 hy
      have : (0 : K) ≤ (sel p : K) * dx := mul_nonneg (Nat.cast_nonneg _) hdx.le
      linarith

/-- What is read from the points of a grid listed in any order: the height at row `i` and column `j` is the one of the
point listed at position `i * nx + j`, the steps are too small by the factor (n - 1) / n. -/
theorem C66_xyz_order (loadtxt : Bytes → Except Err (List (List (Option K)))) (bytes : Bytes)
    (z : Grid (Option K)) (ny nx : Nat) (x0 y0 dx dy : K) (hdx : 0 < dx) (hdy : 0 < dy) (hn : 2 ≤ ny * nx)
    (order : List (Nat × Nat)) (ho : Lists order ny nx)
    (hload : loadtxt bytes = .ok (order.map (line x0 y0 dx dy z))) :
    ∃ r : Raw K, readXyz loadtxt bytes = .ok r ∧ r.data.WF ∧ r.data.nx = nx ∧ r.data.ny = ny ∧
      (∀ i j, i < ny → j < nx → ∃ p, order[i * nx + j]? = some p ∧
        r.data.get i j = (z.get p.1 p.2).map fun h => h * 10 ^ 6) ∧
      r.stepX = dx * 10 ^ 6 * ((nx - 1 : Nat) : K) / (nx : K) ∧
      r.stepY = dy * 10 ^ 6 * ((ny - 1 : Nat) : K) / (ny : K) := by
  have hx0 : 0 < nx := Nat.pos_of_ne_zero (by rintro rfl; simp at hn)
  have hy0 : 0 < ny := Nat.pos_of_ne_zero (by rintro rfl; simp at hn)
  have hlen := lists_length ho
  obtain ⟨cx, mx⟩ := count_values (x0 := x0) (order := order) (fun p => p.2) (n := nx) hdx (by
    intro k
    constructor
    · rintro ⟨p, hp, rfl⟩; exact ((ho.2 p).1 hp).2
    · intro hk; exact ⟨(0, k), (ho.2 (0, k)).2 ⟨hy0, hk⟩, rfl⟩)
  obtain ⟨cy, my⟩ := count_values (x0 := y0) (order := order) (fun p => p.1) (n := ny) hdy (by
    intro k
    constructor
    · rintro ⟨p, hp, rfl⟩; exact ((ho.2 p).1 hp).1
    · intro hk; exact ⟨(k, 0), (ho.2 (k, 0)).2 ⟨hk, hx0⟩, rfl⟩)
  obtain ⟨mx1, mx2⟩ := mx hx0
  obtain ⟨my1, my2⟩ := my hy0
  have hgr : ∃ g, reshape (order.map fun p => z.get p.1 p.2) (ny : Int) (nx : Int) = .ok g :=
    ⟨_, if_pos ⟨by omega, by omega, by rw [List.length_map, hlen]; push_cast; rfl⟩⟩
  obtain ⟨g, hg⟩ := hgr
  obtain ⟨g1, g2, g3, g4, g5⟩ := reshape_get hg
  rw [Int.toNat_natCast] at g2 g3
  refine ⟨⟨Container.map (Option.map fun h => h * 10 ^ 6) g, (x0 + ((nx - 1 : Nat) : K) * dx - x0) / (nx : K) * 10 ^ 6,
    (y0 + ((ny - 1 : Nat) : K) * dy - y0) / (ny : K) * 10 ^ 6⟩, ?_, map_wf _ g1, g3, by rw [← g2]; exact map_ny _ _,
    ?_, ?_, ?_⟩
  · unfold readXyz
    rw [hload]
    dsimp only
    unfold fromTable
    rw [if_neg]
    · rw [coordinates_map _ 0 (fun p => x0 + (p.2 : K) * dx) (fun p => rfl),
        coordinates_map _ 1 (fun p => y0 + (p.1 : K) * dy) (fun p => rfl),
        column_map _ 2 (fun p => z.get p.1 p.2) (fun p => rfl)]
      dsimp only
      rw [cx, cy, mx1, mx2, my1, my2, if_neg (by rw [List.length_map, hlen, Nat.mul_comm]; simp)]
      dsimp only
      rw [hg]
    · rw [List.length_map, hlen]
      rintro (h | h)
      · omega
      · have hp : (0, 0) ∈ order := (ho.2 (0, 0)).2 ⟨hy0, hx0⟩
        have := h _ (List.mem_map.2 ⟨_, hp, rfl⟩)
        simp [line] at this
  · intro i j hi hj
    have hk : i * nx + j < order.length := by
      rw [hlen]
      calc i * nx + j < i * nx + nx := by omega
        _ = (i + 1) * nx := by ring
        _ ≤ ny * nx := Nat.mul_le_mul_right _ hi
    refine ⟨order[i * nx + j], List.getElem?_eq_getElem hk, ?_⟩
    have h5 := g5 i j (by omega) (by omega)
    rw [g3, List.getElem?_map, List.getElem?_eq_getElem hk] at h5
    exact get_map_some g1 _ (by omega) (by omega) h5
  · dsimp only; rw [add_sub_cancel_left]; ring
  · dsimp only; rw [add_sub_cancel_left]; ring

private theorem byRows_get (ny nx i j : Nat) (hi : i < ny) (hj : j < nx) :
    (byRows ny nx)[i * nx + j]? = some (i, j) := by
  unfold byRows
  rw [List.flatMap_def]
  have h := regroup nx ((List.range ny).map fun i => (List.range nx).map fun j => (i, j))
    (by intro r hr; obtain ⟨i, -, rfl⟩ := List.mem_map.1 hr; simp)
  have h2 := congrArg (fun l => l[i]?.bind (·[j]?)) h
  simp only [List.length_map, List.length_range, List.getElem?_map, List.getElem?_range hi, Option.map_some,
    Option.bind_some, List.getElem?_range hj] at h2
  rwa [List.getElem?_take_of_lt hj, List.getElem?_drop] at h2

private theorem byRows_lists (ny nx : Nat) : Lists (byRows ny nx) ny nx := by
  constructor
  · unfold byRows
    rw [List.nodup_flatMap]
    refine ⟨fun i _ => (List.nodup_range).map (by intro a b h; simpa using h), ?_⟩
    refine List.nodup_range.imp ?_
    intro a b hab x h1 h2
    obtain ⟨_, -, rfl⟩ := List.mem_map.1 h1
    obtain ⟨_, -, h⟩ := List.mem_map.1 h2
    exact hab (by simpa using (congrArg Prod.fst h).symm)
  · rintro ⟨i, j⟩
    simp [byRows]

private theorem byColumns_eq (ny nx : Nat) : byColumns ny nx = (byRows nx ny).map Prod.swap := by
  unfold byColumns byRows
  rw [List.map_flatMap]
  simp [Function.comp_def]

private theorem byColumns_lists (ny nx : Nat) : Lists (byColumns ny nx) ny nx := by
  rw [byColumns_eq]
  have h := byRows_lists nx ny
  refine ⟨h.1.map Prod.swap_injective, fun p => ?_⟩
  rw [List.mem_map]
  constructor
  · rintro ⟨q, hq, rfl⟩
    exact ((h.2 q).1 hq).symm
  · intro hp
    exact ⟨p.swap, (h.2 _).2 hp.symm, Prod.swap_swap p⟩

/-- **C66** for point lists, what holds: the points of a grid listed row by row give the heights in µm. The steps are
too small by the factor (n - 1) / n. Missing: a step equal to the spacing, see `C66_xyz_violated`. -/
theorem C66_xyz_partial (loadtxt : Bytes → Except Err (List (List (Option K)))) (bytes : Bytes)
    (z : Grid (Option K)) (ny nx : Nat) (x0 y0 dx dy : K) (hdx : 0 < dx) (hdy : 0 < dy) (hn : 2 ≤ ny * nx)
    (hload : loadtxt bytes = .ok ((byRows ny nx).map (line x0 y0 dx dy z))) :
    ∃ r : Raw K, readXyz loadtxt bytes = .ok r ∧ r.data.WF ∧ r.data.nx = nx ∧ r.data.ny = ny ∧
      (∀ i j, i < ny → j < nx → r.data.get i j = (z.get i j).map fun h => h * 10 ^ 6) ∧
      r.stepX = dx * 10 ^ 6 * ((nx - 1 : Nat) : K) / (nx : K) ∧
      r.stepY = dy * 10 ^ 6 * ((ny - 1 : Nat) : K) / (ny : K) := by
  obtain ⟨r, h1, h2, h3, h4, h5, h6⟩ :=
    C66_xyz_order loadtxt bytes z ny nx x0 y0 dx dy hdx hdy hn _ (byRows_lists ny nx) hload
  refine ⟨r, h1, h2, h3, h4, fun i j hi hj => ?_, h6⟩
  obtain ⟨p, hp, hr⟩ := h5 i j hi hj
  rw [byRows_get ny nx i j hi hj] at hp
  cases hp
  exact hr

/-- **C66** (violated). Whatever the order of the points, neither step is ever the spacing of the grid: both are too
small. -/
theorem C66_xyz_violated (loadtxt : Bytes → Except Err (List (List (Option K)))) (bytes : Bytes)
    (z : Grid (Option K)) (ny nx : Nat) (x0 y0 dx dy : K) (hdx : 0 < dx) (hdy : 0 < dy) (hn : 2 ≤ ny * nx)
    (order : List (Nat × Nat)) (ho : Lists order ny nx)
    (hload : loadtxt bytes = .ok (order.map (line x0 y0 dx dy z))) (r : Raw K)
    (h : readXyz loadtxt bytes = .ok r) : r.stepX < dx * 10 ^ 6 ∧ r.stepY < dy * 10 ^ 6 := by
  obtain ⟨r', h1, -, -, -, -, hx, hy⟩ := C66_xyz_order loadtxt bytes z ny nx x0 y0 dx dy hdx hdy hn order ho hload
  rw [h1] at h
  cases h
  have hx0 : 0 < nx := Nat.pos_of_ne_zero (by rintro rfl; simp at hn)
  have hy0 : 0 < ny := Nat.pos_of_ne_zero (by rintro rfl; simp at hn)
  have key : ∀ (n : Nat) (d : K), 0 < n → 0 < d → d * 10 ^ 6 * ((n - 1 : Nat) : K) / (n : K) < d * 10 ^ 6 := by
    intro n d hn hd
    have h1 : (0 : K) < (n : K) := by exact_mod_cast hn
    rw [div_lt_iff₀ h1]
    apply mul_lt_mul_of_pos_left _ (by positivity)
    have : n - 1 < n := by omega
    exact_mod_cast this
  exact ⟨by rw [hx]; exact key nx dx hx0 hdx, by rw [hy]; exact key ny dy hy0 hdy⟩

/-- **C66** (violated). The coordinates of the points are not used to arrange the heights: the points of a square grid
listed column by column give the transposed surface, without any error. -/
theorem C66_xyz_transposed (loadtxt : Bytes → Except Err (List (List (Option K)))) (bytes : Bytes)
    (z : Grid (Option K)) (n : Nat) (x0 y0 dx dy : K) (hdx : 0 < dx) (hdy : 0 < dy) (hn : 2 ≤ n)
    (hload : loadtxt bytes = .ok ((byColumns n n).map (line x0 y0 dx dy z))) :
    ∃ r : Raw K, readXyz loadtxt bytes = .ok r ∧ r.data.nx = n ∧ r.data.ny = n ∧
      ∀ i j, i < n → j < n → r.data.get i j = (z.get j i).map fun h => h * 10 ^ 6 := by
  have hnn : 2 ≤ n * n := by nlinarith
  obtain ⟨r, h1, -, h3, h4, h5, -⟩ :=
    C66_xyz_order loadtxt bytes z n n x0 y0 dx dy hdx hdy hnn _ (byColumns_lists n n) hload
  refine ⟨r, h1, h3, h4, fun i j hi hj => ?_⟩
  obtain ⟨p, hp, hr⟩ := h5 i j hi hj
  rw [byColumns_eq, List.getElem?_map, byRows_get n n i j hi hj] at hp
  cases hp
  exact hr

/-- A list of points whose number is not the number of distinct x times the number of distinct y coordinates is
rejected. -/
theorem C66_xyz_incomplete (pts : List (K × K × Option K)) (h2 : 2 ≤ pts.length)
    (hne : (pts.map fun p => p.1).toFinset.card * (pts.map fun p => p.2.1).toFinset.card ≠ pts.length)
    (loadtxt : Bytes → Except Err (List (List (Option K)))) (bytes : Bytes)
    (hload : loadtxt bytes = .ok (pts.map fun p => [some p.1, some p.2.1, p.2.2])) :
    readXyz loadtxt bytes = .error .corrupted := by
  unfold readXyz
  rw [hload]
  dsimp only
  unfold fromTable
  rw [if_neg, coordinates_map _ 0 (fun p => p.1) (fun p => rfl), coordinates_map _ 1 (fun p => p.2.1) (fun p => rfl)]
  · dsimp only
    rw [if_pos]
    rwa [← List.card_toFinset, ← List.card_toFinset, List.length_map]
  · rw [List.length_map]
    rintro (h | h)
    · omega
    · have := h _ (List.mem_map.2 ⟨pts[0], List.getElem_mem (by omega), rfl⟩)
      simp at this

/-- A file that is not a table of numbers (binary data or other text) is reported as unsupported, all other exceptions
of reading the table are passed on. -/
theorem C66_xyz_no_table (loadtxt : Bytes → Except Err (List (List (Option K)))) (bytes : Bytes) (e : Err)
    (hload : loadtxt bytes = .error e) :
    (e = .unicode ∨ e = .valueError → readXyz loadtxt bytes = .error .unsupported) ∧
    (e ≠ .unicode ∧ e ≠ .valueError → readXyz loadtxt bytes = .error e) := by
  unfold readXyz
  rw [hload]
  constructor
  · rintro (rfl | rfl) <;> rfl
  · rintro ⟨h1, h2⟩
    cases e <;> first | rfl | exact absurd rfl h1 | exact absurd rfl h2

/-- Six points with spacing 1 in x and 2 in y: the steps read are 2/3 µm and 1 µm instead of 1 µm and 2 µm. -/
example : ∃ r : Raw ℚ, readXyz (fun _ => .ok ((byRows 2 3).map (line 0 0 (1 / 10 ^ 6) (2 / 10 ^ 6)
    ⟨[[some 1, some 2, none], [some 4, some 5, some 6]], 3⟩))) [] = .ok r ∧ r.stepX = 2 / 3 ∧ r.stepY = 1 ∧
      r.data.get 1 0 = some (4 * 10 ^ 6) := by
  obtain ⟨r, h1, -, -, -, h5, hx, hy⟩ := C66_xyz_partial (K := ℚ) (fun _ => .ok ((byRows 2 3).map
    (line 0 0 (1 / 10 ^ 6) (2 / 10 ^ 6) ⟨[[some 1, some 2, none], [some 4, some 5, some 6]], 3⟩))) [] ⟨[[some 1, some 2, none], [some 4, some 5,
    some 6]], 3⟩ 2 3 0 0 (1 / 10 ^ 6) (2 / 10 ^ 6) (by norm_num) (by norm_num) (by norm_num) rfl
  exact ⟨r, h1, by rw [hx]; norm_num, by rw [hy]; norm_num, h5 1 0 (by norm_num) (by norm_num)⟩

end Surfalize.Props
