import Verif.Model.Batch
import Mathlib.Data.Rat.Defs
/-!
# Methods of `Batch` that are made from methods of `Surface`
(surfalize/base.py:41-88, surfalize/batch.py:515-530, 535-574, 307-308)

Python's binding of arguments to the parameters of a function is modelled for functions whose parameters are all
positional-or-keyword parameters, which is the case for every method with a batch version. `A` is the type of values.
-/
namespace Surfalize.BatchCall
open Surfalize Batch

variable {A : Type}

/-- A parameter without `self`: its name and default value. -/
abbrev Sig (A : Type) := List (String × Option A)

/-- Positional arguments from the left, the other parameters from keywords or defaults. -/
def bindGo (kw : List (String × A)) : Sig A → List A → Except Err (List (String × A))
  | [], [] => .ok []
  | [], _ :: _ => .error .typeError
  | (n, _) :: ps, a :: as =>
    if n ∈ kw.map Prod.fst then .error .typeError
    else (bindGo kw ps as).map fun r => (n, a) :: r
  | (n, d) :: ps, [] =>
    match (kw.lookup n).or d with
    | none => .error .typeError
    | some v => (bindGo kw ps []).map fun r => (n, v) :: r

/-- Calling a function with these parameters: the values of the parameters, or a TypeError. -/
def bind (sig : Sig A) (args : List A) (kw : List (String × A)) : Except Err (List (String × A)) :=
  if ∃ k ∈ kw.map Prod.fst, k ∉ sig.map Prod.fst then .error .typeError else bindGo kw sig args

/-- A method of a class: its parameters, and `batch_method`'s mark with the `fixed` dictionary it was given. -/
structure Method (A : Type) where
  sig : Sig A
  mark : Option (Bool × List (String × A))

/-- The attributes `batch_method` leaves (surfalize/base.py:65-71): only fixed parameters the method has. -/
def Method.info (m : Method A) : Option (MethodInfo A) :=
  m.mark.map fun p => ⟨p.1, p.2.filter fun f => decide (f.1 ∈ m.sig.map Prod.fst)⟩

/-- `batch_method.__signature__` (surfalize/batch.py:569-572), which a user sees. -/
def shown (sig : Sig A) (fixed : List (String × A)) : Sig A :=
  sig.filter fun p => decide (p.1 ∉ fixed.map Prod.fst)

/-- Running an operation registered by `batch.name(*args, **kw)` on a surface: the arguments the method gets
(surfalize/batch.py:307-308, 538-549). -/
def executed (m : Method A) (info : MethodInfo A) (args : List A) (kw : List (String × A)) :
    Except Err (List (String × A)) :=
  bind m.sig args (info.fixed.foldl (fun kw p => setKw kw p.1 p.2) kw)

/-- The loop over the attributes of the classes; `seen` are the names that occurred already. -/
def registerGo : List String → List (String × Method A) → List (String × MethodInfo A)
  | _, [] => []
  | seen, (n, m) :: c =>
    if n ∈ seen then registerGo seen c
    else match m.info with
      | some i => (n, i) :: registerGo (n :: seen) c
      | none => registerGo (n :: seen) c

/-- The methods a batch gets from a class hierarchy (surfalize/batch.py:518-530): classes in the order of `__mro__`,
each with its own attributes; the two nested loops are one over all attributes. -/
def register (mro : List (List (String × Method A))) : List (String × MethodInfo A) := registerGo [] mro.flatten

/-- The values that occur as defaults and fixed arguments. -/
inductive Val where
  | none | bool (b : Bool) | num (q : ℚ) | str (s : String)
  deriving DecidableEq

/-- The operations with a batch version. -/
inductive Operation where
  | center | zero | invert | removeOutliers | threshold | filter | fillNonmeasured | level | detrendPolynomial | rotate
  | zoom | crop | align | stepheightLevel
  deriving DecidableEq

/-- Their parameters and fixed arguments (surfalize/base.py:41, 199-340, surfalize/surface.py:491-772). -/
def Operation.method : Operation → Method Val
  | .center => ⟨[inpl], some (true, [fx])⟩
  | .zero => ⟨[inpl], some (true, [fx])⟩
  | .invert => ⟨[inpl], some (true, [fx])⟩
  | .removeOutliers => ⟨[("n", some (.num 3)), ("method", some (.str "mean")), inpl], some (true, [fx])⟩
  | .threshold => ⟨[("threshold", some (.num (1 / 2))), inpl], some (true, [fx])⟩
  | .filter => ⟨[("filter_type", .none), ("cutoff", .none), ("cutoff2", some .none), inpl,
      ("endeffect_mode", some (.str "reflect"))], some (true, [fx])⟩
  | .fillNonmeasured => ⟨[("method", some (.str "nearest")), inpl], some (true, [fx])⟩
  | .level => ⟨[("return_trend", some (.bool false)), inpl], some (true, [fx, ft])⟩
  | .detrendPolynomial => ⟨[("degree", some (.num 1)), inpl, ("return_trend", some (.bool false))], some (true, [fx, ft])⟩
  | .rotate => ⟨[("angle", .none), inpl], some (true, [fx])⟩
  | .zoom => ⟨[("factor", .none), inpl], some (true, [fx])⟩
  | .crop => ⟨[("box", .none), ("in_units", some (.bool true)), inpl], some (true, [fx])⟩
  | .align => ⟨[("axis", some (.str "y")), ("method", some (.str "fft_refined")), inpl], some (true, [fx])⟩
  | .stepheightLevel => ⟨[inpl], some (true, [fx])⟩
where
  inpl : String × Option Val := ("inplace", some (.bool false))
  fx : String × Val := ("inplace", .bool true)
  ft : String × Val := ("return_trend", .bool false)

end Surfalize.BatchCall
