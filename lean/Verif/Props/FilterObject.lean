import Verif.Props.Gauss
import Verif.Spec.Object

/-!
# C95 — filtering a surface object

The heights that `surface.filter` leaves in the object (or in the new one) are those of the Gaussian filter with the cutoff divided by
the step of each axis.
-/
set_option linter.unusedSectionVars false
namespace Surfalize.Props
open Surfalize Container BaseOps Object Spec Gauss

variable {V : Type}

/-- `scipy.ndimage.gaussian_filter(data, (sigma_y, sigma_x))`: along the columns with `sigma_y`, then along the rows with `sigma_x`. -/
def RealGauss (mode : End) (E : Ext ℝ V) : Prop :=
  (∀ cutoff, E.sigma cutoff = Filter.sigma cutoff) ∧
    ∀ (σy σx : ℝ) (g : Grid (Option ℝ)), E.gauss σy σx g = Grid.ofFn g.ny g.nx fun i j =>
      some (axis mode σx g.nx (fun k => axis mode σy g.ny (fun k' => g.val k' k) i) j)

private theorem smooth_real {mode : End} {E : Ext ℝ V} (hE : RealGauss mode E) (s : Surf ℝ V) :
    E.smooth s = smooth2 mode s.stepX s.stepY := by
  funext c d
  unfold Ext.smooth smooth2 Filter.sigmas2
  rw [hE.1, hE.1, hE.2]

/-- **C95** (objects). `surface.filter` fails exactly if the Gaussian filter of its heights fails; otherwise the filtered surface has the
filtered heights and the steps of the surface. The cutoff is in micrometres: along the columns it is divided by `step_y`, along the
rows by `step_x`. -/
theorem C95_object {mode : End} {E : Ext ℝ V} (hE : RealGauss mode E) (s : Surf ℝ V) (kind : String) (c : ℝ) (c2 : Option ℝ) (ip : Bool) :
    (∀ e, run E (.filter kind c c2) s ip = .error e ↔ filterSurface mode s.stepX s.stepY kind c c2 ip s.data = .error e) ∧
    (∀ d, filterSurface mode s.stepX s.stepY kind c c2 ip s.data = .ok (.one d) →
      ∃ s' r, run E (.filter kind c c2) s ip = .ok (s', r) ∧ (processed s' r).data = d ∧ (processed s' r).stepX = s.stepX ∧
        (processed s' r).stepY = s.stepY) ∧
    (∀ h l, filterSurface mode s.stepX s.stepY kind c c2 ip s.data = .ok (.two h l) →
      ∃ a b, run E (.filter kind c c2) s ip = .ok (s, .pair a b) ∧ a.data = h ∧ b.data = l ∧
        a.stepX = s.stepX ∧ a.stepY = s.stepY ∧ b.stepX = s.stepX ∧ b.stepY = s.stepY) := by
  have h0 : run E (.filter kind c c2) s ip = match filterSurface mode s.stepX s.stepY kind c c2 ip s.data with
      | .error e => .error e
      | .ok (.one d) => .ok (finish s d ip)
      | .ok (.two h l) => .ok (s, .pair (s.withData h) (s.withData l)) := by
    unfold run filterSurface
    rw [smooth_real hE]
    dsimp only
    generalize Filter.filter (smooth2 mode s.stepX s.stepY) kind c c2 ip s.data = M
    rcases M with e | d | ⟨h, l⟩ <;> rfl
  rw [h0]
  generalize filterSurface mode s.stepX s.stepY kind c c2 ip s.data = M
  rcases M with e | d | ⟨h, l⟩
  · refine ⟨fun e' => ?_, fun d h => (by cases h), fun h l h' => (by cases h')⟩
    constructor <;> (intro h; cases h; rfl)
  · refine ⟨fun e' => ⟨fun h => (by cases h), fun h => (by cases h)⟩, fun d' h => ?_, fun h l h' => (by cases h')⟩
    cases h
    refine ⟨_, _, rfl, ?_⟩
    cases ip <;> exact ⟨rfl, rfl, rfl⟩
  · refine ⟨fun e' => ⟨fun h => (by cases h), fun h => (by cases h)⟩, fun d' h => (by cases h), fun h' l' h => ?_⟩
    cases h
    exact ⟨_, _, rfl, rfl, rfl, rfl, rfl, rfl, rfl⟩

/-- The hypothesis can be met: the routines of scipy as modelled. -/
example (V : Type) [Inhabited V] (mode : End) : ∃ E : Ext ℝ V, RealGauss mode E :=
  ⟨{ std := fun _ => 0
     gauss := fun σy σx g => Grid.ofFn g.ny g.nx fun i j =>
       some (axis mode σx g.nx (fun k => axis mode σy g.ny (fun k' => g.val k' k) i) j)
     sigma := Filter.sigma
     griddata := fun _ g => .ok g
     trend := fun _ g => .ok g
     rotated := fun _ s => .ok (s.data, s.stepX, s.stepY)
     orientation := fun _ _ => .ok 0
     stepPlane := fun s => .ok s.data
     stepMask := fun _ => default }, fun _ => rfl, fun _ _ _ => rfl⟩

end Surfalize.Props
