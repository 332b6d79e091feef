import Verif.Prelude.Num

/-! Surfaces that are profiles drawn out in one direction (C117). -/
namespace Surfalize.Spec
open Surfalize

/-- All rows of the surface are the profile `l`, and there is at least one. -/
def RowsAre {α : Type} (g : Grid α) (l : List α) : Prop := g.nx = l.length ∧ 0 < g.ny ∧ ∀ r ∈ g.rows, r = l

/-- All columns of the surface are the profile `l`, and there is at least one: row `i` repeats the `i`-th height. -/
def ColumnsAre {α : Type} (g : Grid α) (l : List α) : Prop := 0 < g.nx ∧ g.rows = l.map fun z => List.replicate g.nx z

end Surfalize.Spec
