import Verif.Model.Object

/-! Vocabulary for C03, C04, C20, C21. -/
namespace Surfalize.Spec
open Surfalize Object

/-- Same heights, step sizes and extents (everything a user sees of a surface except its cache). -/
def SameSurface {K V : Type} (a b : Surf K V) : Prop :=
  a.data = b.data ∧ a.stepX = b.stepX ∧ a.stepY = b.stepY ∧ a.widthUm = b.widthUm ∧ a.heightUm = b.heightUm

/-- The processed surface the caller holds after a call: the returned object, which is the receiver when the
method returns `self`. -/
def processed {K V : Type} (receiver : Surf K V) : Ret K V → Surf K V
  | .self => receiver
  | .new c => c
  | .pair c _ => c
  | .selfPair _ => receiver

/-- The additional surface returned with `return_trend=True`. -/
def trendOf {K V : Type} : Ret K V → Option (Surf K V)
  | .self => none
  | .new _ => none
  | .pair _ t => some t
  | .selfPair t => some t

/-- `width_um` and `height_um` fit the size and the steps. -/
def ExtentsMatch {K V : Type} [Field K] (s : Surf K V) : Prop :=
  s.widthUm = ((s.data.nx : K) - 1) * s.stepX ∧ s.heightUm = ((s.data.ny : K) - 1) * s.stepY

end Surfalize.Spec
