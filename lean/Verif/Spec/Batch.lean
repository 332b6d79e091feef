import Verif.Model.Batch
import Verif.Spec.Cache

/-!
# Specification of batch processing
What a row of the result table should contain, in terms of evaluating methods from scratch on height data.
-/
namespace Surfalize.BatchSpec
open Surfalize.CacheM Surfalize.CacheSpec Surfalize.Batch

variable {F D X A : Type}

/-- The new heights an operation step computes from `d`; a parameter step leaves `d` alone. -/
def applyStep (E : Env F D X A) (d : D) : Step D X A → Except Err D
  | .operation c => evalProg (eval E.cls E.fuel) (E.ops c) d
  | .customOperation p => evalProg (eval E.cls E.fuel) p d
  | _ => .ok d

/-- The heights after the operations among `steps`, in order. -/
def transformed (E : Env F D X A) : List (Step D X A) → D → Except Err D
  | [], d => .ok d
  | s :: ss, d => (applyStep E d s).bind (transformed E ss)

/-- The columns a parameter step contributes when the heights are `d`. -/
def contribution (E : Env F D X A) (ignore : Bool) (d : D) : Step D X A → Except Err (Row X)
  | .parameter p => paramColumns E p ignore (eval E.cls E.fuel p.call d)
  | .customParameter _ p => customColumns ignore (evalProg (eval E.cls E.fuel) p d)
  | _ => .ok []

/-- Every parameter step together with the steps that come before it (`before` are the steps already passed). -/
def sitesFrom (before : List (Step D X A)) : List (Step D X A) → List (List (Step D X A) × Step D X A)
  | [] => []
  | s :: ss => if s.isOp then sitesFrom (before ++ [s]) ss else (before, s) :: sitesFrom (before ++ [s]) ss

/-- Every parameter step together with the steps whose operations precede it: the ones registered before it, or all
of them when the chaining order is not preserved. -/
def sites (preserve : Bool) (steps : List (Step D X A)) : List (List (Step D X A) × Step D X A) :=
  if preserve then sitesFrom [] steps else (steps.filter (!·.isOp)).map fun s => (steps, s)

/-- The row of a file. -/
def specRow (E : Env F D X A) (steps : List (Step D X A)) (ignore preserve : Bool) (f : F) : Except Err (Row X) :=
  (E.load f).bind fun d =>
  ((sites preserve steps).mapM fun site => (transformed E site.1 d).bind fun d' => contribution E ignore d' site.2).bind
    fun cols =>
  (transformed E steps d).bind fun _ => .ok (cols.foldl update [("file", .text (E.name f))])

/-- Nothing exceeds the recursion limit when nothing is cached. -/
def NoRecursion (E : Env F D X A) (steps : List (Step D X A)) : Prop :=
  (∀ m d, eval E.cls E.fuel m d ≠ .error .recursion) ∧
  (∀ s ∈ steps, ∀ d, applyStep E d s ≠ .error .recursion) ∧
  (∀ i p, .customParameter i p ∈ steps → ∀ d, evalProg (eval E.cls E.fuel) p d ≠ .error .recursion)

end Surfalize.BatchSpec
