import Mathlib.Data.List.Basic
/-!
# Specification: what a call gives to the parameters of a function
-/
namespace Surfalize.CallSpec

/-- The call with positional arguments `args` and keywords `kw` is one the parameters allow, and gives them the values
`b`: one value for each parameter; the first ones get the positional arguments and are not given by keyword as well; every
other one gets its keyword, or its default without keyword; there is no other keyword. -/
structure Bound {A : Type} (params : List (String × Option A)) (args : List A) (kw : List (String × A))
    (b : List (String × A)) : Prop where
  names : b.map Prod.fst = params.map Prod.fst
  count : args.length ≤ params.length
  known : ∀ k ∈ kw.map Prod.fst, k ∈ params.map Prod.fst
  positional : ∀ (i : Nat) (n : String) (v : A), i < args.length → b[i]? = some (n, v) →
    args[i]? = some v ∧ n ∉ kw.map Prod.fst
  keyword : ∀ (i : Nat) (n : String) (v : A), args.length ≤ i → b[i]? = some (n, v) →
    kw.lookup n = some v ∨ (n ∉ kw.map Prod.fst ∧ params[i]? = some (n, some v))

/-- Python's attribute lookup: the first class of the method resolution order that has the name. -/
def Resolves {M : Type} (mro : List (List (String × M))) (n : String) (m : M) : Prop :=
  ∃ before c after, mro = before ++ c :: after ∧ (n, m) ∈ c ∧ ∀ c' ∈ before, n ∉ c'.map Prod.fst

end Surfalize.CallSpec
