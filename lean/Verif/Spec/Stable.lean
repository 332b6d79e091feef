import Verif.Prelude.GridFn
import Mathlib.Algebra.Order.Field.Basic
import Mathlib.Algebra.Order.Group.Abs

/-!
# Specification of the stability of parameters and operations (C113, C114)

Two surfaces or profiles are near if they have the same size, miss the same points and differ by at most `e` at each of
the others.
-/
namespace Surfalize.StableSpec
open Surfalize

variable {K : Type} [Field K] [LinearOrder K]

/-- Both points are missing, or both are measured and their heights differ by at most `e`. -/
inductive NearPt (e : K) : Option K → Option K → Prop
  | missing : NearPt e none none
  | measured {x y : K} (h : |y - x| ≤ e) : NearPt e (some x) (some y)

/-- Two profiles of the same length, near at every point. -/
def NearProfile (e : K) (p p' : List (Option K)) : Prop := List.Forall₂ (NearPt e) p p'

/-- Two surfaces of the same size, near at every point. -/
structure NearSurface (e : K) (g g' : Grid (Option K)) : Prop where
  wf : g.WF
  wf' : g'.WF
  ny : g'.ny = g.ny
  nx : g'.nx = g.nx
  points : ∀ i j, i < g.ny → j < g.nx → NearPt e (g.get i j) (g'.get i j)

end Surfalize.StableSpec
