import Verif.Model.Analysis
import Verif.Spec.Cache

/-!
# Vocabulary of C107: what a new analysis object of the present surface would answer
-/
namespace Surfalize.AnalysisSpec
open Surfalize CacheM CacheSpec Analysis

variable {D S V A : Type}

/-- The answer of an object made for the surface `d` just now, without any cache. -/
def answer (T : Tool D S V A) (n : Nat) (d : D) (m : Call A) : Except Err V :=
  match T.build d with
  | .error e => .error e
  | .ok s => eval T.cls n m (s, d)

/-- Equal keys of parameters mean the same request. -/
def FaceFaithful (F : Face A) : Prop :=
  ∀ c c' : Call A, F.cached c.name = true → F.render.key c = F.render.key c' → F.deleg c = F.deleg c'

/-- No method of the class nests calls deeper than `n`. -/
def Shallow (T : Tool D S V A) (n : Nat) : Prop := ∀ m sd, eval T.cls n m sd ≠ .error .recursion

/-- The action stores no heights. -/
def KeepsHeights : Op D A → Prop
  | .change _ => False
  | _ => True

/-- The action neither stores heights nor clears the surface's cache. -/
def KeepsCache : Op D A → Prop
  | .change _ => False
  | .clear => False
  | _ => True

/-- Different arguments print differently. -/
structure Injective (R : Render A) : Prop where
  args : ∀ a b, R.strArgs a = R.strArgs b → a = b
  kwargs : ∀ a b, R.strKwargs a = R.strKwargs b → a = b

open Abbott in
/-- What the curve `c` tells of itself. -/
def ofCurve {K : Type} [Field K] [LinearOrder K] [FloorRing K] (sort : Interp.PtSort K) (c : Curve K) : String → Option (Option K)
  | "k" => some (some c.k)
  | "mr1" => some (some (c.mr1 sort))
  | "mr2" => some (some (c.mr2 sort))
  | "pk" => some (c.pk sort)
  | "vk" => some (c.vk sort)
  | "ak1" => some (c.ak1 sort)
  | "ak2" => some (c.ak2 sort)
  | _ => none

end Surfalize.AnalysisSpec
