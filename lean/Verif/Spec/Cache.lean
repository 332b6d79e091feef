import Verif.Model.Cache

/-!
# Specification: the same object without any cache
Every read evaluates the method from scratch on the current heights.
-/
namespace Surfalize.CacheSpec
open Surfalize.CacheM

/-- Evaluation from scratch of a body. -/
def evalProg {D V A R : Type} (callee : Call A → D → Except Err V) : Prog D V A R → D → Except Err R
  | .ret r, _ => .ok r
  | .raise e, _ => .error e
  | .readData k, d => evalProg callee (k d) d
  | .call m k, d =>
    match callee m d with
    | .ok v => evalProg callee (k v) d
    | .error e => .error e

/-- Evaluation from scratch of a method: its body, nothing remembered. -/
def eval {D V A : Type} (K : Cls D V A) : Nat → Call A → D → Except Err V
  | 0, _, _ => .error .recursion
  | n + 1, m, d => evalProg (eval K n) (K.body m) d

/-- The cache-free object is just its heights. -/
def specStep {D V A : Type} (K : Cls D V A) (n : Nat) (d : D) : Op D V A → D × Out V
  | .read m =>
    match eval K n m d with
    | .ok v => (d, .value v)
    | .error e => (d, .exn e)
  | .assign d' => (d', .done)
  | .setitem f =>
    match f d with
    | .ok d' => (d', .done)
    | .error e => (d, .exn e)
  | .inplace p =>
    match evalProg (eval K n) p d with
    | .ok d' => (d', .done)
    | .error e => (d, .exn e)
  | .clear => (d, .done)

def specRun {D V A : Type} (K : Cls D V A) (n : Nat) : D → List (Op D V A) → D × List (Out V)
  | d, [] => (d, [])
  | d, op :: ops =>
    let (d', out) := specStep K n d op
    let (d'', outs) := specRun K n d' ops
    (d'', out :: outs)

/-- Calls of the same method whose positional arguments and keyword arguments print the same have the same body:
the printed arguments determine what is computed. -/
def KeyFaithful {D V A : Type} (K : Cls D V A) : Prop :=
  ∀ m m' : Call A, K.cached m.name = true → m.name = m'.name → K.render.strArgs m.args = K.render.strArgs m'.args →
    K.render.strKwargs m.kwargs = K.render.strKwargs m'.kwargs → K.body m = K.body m'

end Surfalize.CacheSpec
