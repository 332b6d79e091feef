import Verif.Model.BaseOps

/-!
# Model of the summary statistics of surfaces and profiles (surfalize/base.py:147-195)

A result `none` is NaN.
-/
namespace Surfalize.Stats
open Surfalize Container

section
variable {C : Type → Type} [Container C] {K : Type} [Field K] [LinearOrder K]

/-- base.py:147-155 `min()`: `np.nanmin`, which raises ValueError for an array without elements. -/
def smin (c : C (Option K)) : Except Err (Option K) :=
  if flat c = [] then .error .valueError else .ok (nanmin (flat c))

/-- base.py:157-165 `max()`. -/
def smax (c : C (Option K)) : Except Err (Option K) :=
  if flat c = [] then .error .valueError else .ok (nanmax (flat c))

/-- base.py:167-175 `mean()`. -/
def smean (c : C (Option K)) : Option K := nanmean (flat c)

/-- base.py:177-185 `median()`: `np.nanmedian`. -/
def smedian (c : C (Option K)) : Option K :=
  if measured (flat c) = [] then none else some (median (measured (flat c)))

end

/-- base.py:187-195 `std()`: `np.nanstd`. -/
noncomputable def sstd {C : Type → Type} [Container C] (c : C (Option ℝ)) : Option ℝ :=
  if measured (flat c) = [] then none else some (BaseOps.std (measured (flat c)))

end Surfalize.Stats
