import Verif.Prelude.Num
import Mathlib.Algebra.Order.Floor.Ring
import Mathlib.Data.Rat.Floor

/-!
# Python primitives: `int()`, `round()`, slices
-/
namespace Surfalize

section Conv
variable {K : Type} [Field K] [LinearOrder K] [FloorRing K]

/-- `int(x)` of a float: truncation toward zero. -/
def pyInt (x : K) : Int := if 0 ≤ x then ⌊x⌋ else ⌈x⌉

/-- `round(x)` of a float: nearest integer, ties to even. -/
def pyRound (x : K) : Int :=
  let f := ⌊x⌋
  if x - (f : K) < 1 / 2 then f
  else if 1 / 2 < x - (f : K) then f + 1
  else if f % 2 = 0 then f else f + 1

end Conv

/-- Slice bound normalisation for a sequence of length `n` and positive step: negative bounds count from the
end, everything is clipped to `[0, n]`. -/
def normIdx (n : Nat) (i : Int) : Nat := if i < 0 then (i + n).toNat else min i.toNat n

/-- `l[a:b]` with integer bounds. -/
def pySlice {α : Type} (l : List α) (a b : Int) : List α :=
  (l.take (normIdx l.length b)).drop (normIdx l.length a)

/-- Every `k`-th element, starting with the first (`l[::k]`, `k ≥ 1`). -/
def stride {α : Type} (k : Nat) (l : List α) : List α :=
  (List.range ((l.length + k - 1) / k)).filterMap fun i => l[i * k]?

/-- A Python slice object. -/
structure PySlice where
  start : Option Int
  stop : Option Int
  step : Option Int
  deriving DecidableEq, Repr

/-- Bound normalisation for a negative step (CPython `PySlice_AdjustIndices`): the result is shifted by one,
so that 0 stands for "before the first element". -/
def normIdxNeg (n : Nat) (i : Int) : Nat := if i < 0 then (i + n + 1).toNat else min (i.toNat + 1) n

/-- `l[start:stop:step]`; a step of 0 raises ValueError. -/
def PySlice.apply {α : Type} (s : PySlice) (l : List α) : Option (List α) :=
  let k := s.step.getD 1
  if 0 < k then
    let a := match s.start with
      | none => 0
      | some a => normIdx l.length a
    let b := match s.stop with
      | none => l.length
      | some b => normIdx l.length b
    some (stride k.toNat ((l.take b).drop a))
  else if k < 0 then
    let a := match s.start with
      | none => l.length
      | some a => normIdxNeg l.length a
    let b := match s.stop with
      | none => 0
      | some b => normIdxNeg l.length b
    some (stride (-k).toNat ((l.take a).drop b).reverse)
  else none

end Surfalize
