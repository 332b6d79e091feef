import Verif.Lemmas.FileArray
import Verif.Lemmas.FileFloat
import Verif.Lemmas.GridFn
/-! # Lemmas: an array at a position of a file -/
set_option linter.unusedSectionVars false
namespace Surfalize
namespace FileArr
open LayoutM

/-- An array behind `p` bytes. -/
theorem readArray_at {α : Type} {w : Nat} (hw : 0 < w) {dec : Bytes → α} {n : Nat} {buf : Bytes} {p : Nat}
    (hlen : p + n * w ≤ buf.length) :
    ∃ l, readArray w dec (n : Int) 0 ⟨buf, p⟩ = .ok (l, ⟨buf, p + n * w⟩) ∧ l.length = n ∧
      ∀ k, k < n → l[k]? = some (dec ((buf.drop (p + k * w)).take w)) := by
  have h1 : ((buf.drop p).take (n * w)).length = n * w := by
    rw [List.length_take, List.length_drop]; omega
  have h2 : ∃ l, fromBuffer w dec ((buf.drop p).take (n * w)) = .ok l := by
    unfold fromBuffer
    rw [if_pos (by rw [h1]; exact Nat.mul_mod_left _ _)]
    exact ⟨_, rfl⟩
  obtain ⟨l, hl⟩ := h2
  obtain ⟨-, h4, h5⟩ := fromBuffer_get hl
  rw [h1, Nat.mul_div_cancel _ hw] at h4 h5
  refine ⟨l, ?_, h4, fun k hk => ?_⟩
  · unfold readArray
    have : ¬ ((n : Int) < 0) := by omega
    simp only [if_neg this, Handle.skip, Handle.read, Int.toNat_natCast, Nat.add_zero]
    rw [hl, h1]
  · rw [h5 k hk, List.drop_take, List.drop_drop, List.take_take]
    congr 3
    rw [Nat.min_eq_left]
    have : (k + 1) * w ≤ n * w := Nat.mul_le_mul_right w (by omega)
    rw [Nat.add_mul] at this
    omega

/-- An array that could be read and has the expected number of items was in the file. -/
theorem readArray_full {α : Type} {w : Nat} (hw : 0 < w) {dec : Bytes → α} {n : Nat} {buf : Bytes} {p : Nat}
    {l : List α} {h' : Handle} (h : readArray w dec (n : Int) 0 ⟨buf, p⟩ = .ok (l, h')) (hn : l.length = n)
    (h0 : 0 < n) :
    p + n * w ≤ buf.length := by
  unfold readArray at h
  have h1 : ¬ ((n : Int) < 0) := by omega
  simp only [if_neg h1, Handle.skip, Handle.read, Int.toNat_natCast, Nat.add_zero] at h
  cases hf : fromBuffer w dec ((buf.drop p).take (n * w)) with
  | error e => rw [hf] at h; cases h
  | ok l' =>
    rw [hf] at h
    cases h
    obtain ⟨h3, h4, -⟩ := fromBuffer_get hf
    have hn2 : ((buf.drop p).take (n * w)).length = n * w := by
      have := Nat.div_mul_cancel (Nat.dvd_of_mod_eq_zero h3)
      rw [← h4, hn] at this
      exact this.symm
    rw [List.length_take, List.length_drop] at hn2
    have : 0 < n * w := Nat.mul_pos h0 hw
    omega


/-- The points of an array that was read, reshaped and mapped. -/
theorem array_grid {α : Type} {w : Nat} (hw : 0 < w) {dec : Bytes → α} {nx ny : Nat} {buf : Bytes} {p : Nat}
    {l : List α} {h' : Handle} {g : Grid α}
    (hr : readArray w dec ((nx * ny : Nat) : Int) 0 ⟨buf, p⟩ = .ok (l, h'))
    (hg : reshape l (ny : Int) (nx : Int) = .ok g) :
    g.WF ∧ g.nx = nx ∧ g.ny = ny ∧ (0 < nx * ny → p + nx * ny * w ≤ buf.length) ∧
      ∀ i j, i < ny → j < nx →
        g.rows[i]?.bind (·[j]?) = some (dec ((buf.drop (p + (i * nx + j) * w)).take w)) := by
  obtain ⟨h1, h2, h3, h4, h5⟩ := reshape_get hg
  rw [Int.toNat_natCast] at h2 h3
  have hl : l.length = nx * ny := by rw [h4, h2, h3, Nat.mul_comm]
  refine ⟨h1, h3, h2, fun h0 => readArray_full hw hr hl h0, fun i j hi hj => ?_⟩
  rw [h5 i j (by omega) (by omega), h3]
  have hk : i * nx + j < nx * ny := by
    calc i * nx + j < i * nx + nx := by omega
      _ = nx * (i + 1) := by ring
      _ ≤ nx * ny := Nat.mul_le_mul_left _ hi
  obtain ⟨l', k1, -, k3⟩ := readArray_at hw (dec := dec) (readArray_full hw hr hl (by omega))
  rw [k1] at hr
  cases hr
  rw [k3 _ hk]

/-- Such a grid is obtained if the file is long enough. -/
theorem array_grid_ok {α : Type} {w : Nat} (hw : 0 < w) {dec : Bytes → α} {nx ny : Nat} {buf : Bytes} {p : Nat}
    (hlen : p + nx * ny * w ≤ buf.length) :
    ∃ l g, readArray w dec ((nx * ny : Nat) : Int) 0 ⟨buf, p⟩ = .ok (l, ⟨buf, p + nx * ny * w⟩) ∧
      reshape l (ny : Int) (nx : Int) = .ok g := by
  obtain ⟨l, k1, k2, -⟩ := readArray_at hw (dec := dec) hlen
  refine ⟨l, _, k1, if_pos ⟨by omega, by omega, ?_⟩⟩
  rw [k2]; push_cast; ring

theorem get_map_some {α K : Type} {g : Grid α} (hg : g.WF) (f : α → Option K) {i j : Nat} (hi : i < g.ny)
    (hj : j < g.nx) {x : α} (hx : g.rows[i]?.bind (·[j]?) = some x) :
    (Container.map f g).get i j = f x := by
  obtain ⟨y, h1, h2⟩ := get_map_lt hg f hi hj
  rw [hx] at h1
  cases h1
  unfold Grid.get
  rw [h2]
  rfl

end FileArr
end Surfalize
