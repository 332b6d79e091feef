import Verif.Model.Attachments

/-!
# Vocabulary of C106: the metadata and image layers of surfaces in a history
-/
namespace Surfalize.AttachSpec
open Surfalize Object Attachments

section
variable {K V D : Type} [Field K] [LinearOrder K] [FloorRing K]

/-- The contents of `s.metadata` for surface `i`. -/
def metadataOf (w : World K V D) (i : Nat) : Option (PyDict D) := (w.objs[i]?).bind fun o => w.dicts[o.info]?

/-- The contents of `s.image_layers` for surface `i`. -/
def imagesOf (w : World K V D) (i : Nat) : Option (PyDict D) := (w.objs[i]?).bind fun o => w.dicts[o.images]?

/-- The dictionaries that an action hands over exist. -/
def Legal (w : World K V D) : Act K V D → Prop
  | .construct _ _ _ info images => (∀ r, info = some r → r < w.dicts.length) ∧ ∀ r, images = some r → r < w.dicts.length
  | .setInfo _ r => r < w.dicts.length
  | .setImages _ r => r < w.dicts.length
  | _ => True

/-- The caller hands over no dictionary. -/
def KeepsDicts : Act K V D → Prop
  | .construct _ _ _ info images => info = none ∧ images = none
  | .setInfo _ _ => False
  | .setImages _ _ => False
  | _ => True

/-- The action is no edit of metadata or image layers by the caller. -/
def NoEdit : Act K V D → Prop
  | .edit _ _ => False
  | .setInfo _ _ => False
  | .setImages _ _ => False
  | _ => True

/-- Worlds that arise from actions that satisfy `P`. -/
inductive Reach (E : Ext K V) (P : Act K V D → Prop) : World K V D → Prop
  | init : Reach E P ⟨[], []⟩
  | step {w : World K V D} (a : Act K V D) : Reach E P w → Legal w a → P a → Reach E P (step E w a).1

/-- The operation may change the numbers of rows and columns. -/
def Geometric : SOp K → Prop
  | .rotate _ => True
  | .zoom _ => True
  | .cropPx _ _ _ _ => True
  | .cropUnits _ _ _ _ => True
  | .align _ _ => True
  | _ => False

/-- The numerical routines return arrays of the size they were given. -/
structure KeepsSize (E : Ext K V) : Prop where
  gauss : ∀ a b g, (E.gauss a b g).ny = g.ny ∧ (E.gauss a b g).nx = g.nx
  griddata : ∀ m g h, E.griddata m g = .ok h → h.ny = g.ny ∧ h.nx = g.nx
  trend : ∀ n g h, E.trend n g = .ok h → h.ny = g.ny ∧ h.nx = g.nx
  plane : ∀ s h, E.stepPlane s = .ok h → h.ny = s.data.ny ∧ h.nx = s.data.nx

/-- Every image layer of surface `i` has as many rows and columns as the heights; `size` tells the rows and columns of an image. -/
def Matching (size : D → Nat × Nat) (w : World K V D) (i : Nat) : Prop :=
  ∀ o d, w.objs[i]? = some o → imagesOf w i = some d → ∀ e ∈ d, size e.2 = (o.core.data.ny, o.core.data.nx)

end
end Surfalize.AttachSpec
