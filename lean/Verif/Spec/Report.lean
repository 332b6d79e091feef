import Verif.Model.Report

/-! Vocabulary for C98. -/
namespace Surfalize.ReportSpec
open Surfalize Report

section
variable {K : Type} [Field K]

/-- The number an unsigned decimal notation stands for: digits, a point, digits. -/
def magnitude (s : List Char) : K :=
  let whole := s.takeWhile (· ≠ '.')
  let places := (s.dropWhile (· ≠ '.')).drop 1
  (digitsNat whole : K) + (digitsNat places : K) / 10 ^ places.length

/-- The number a decimal notation stands for. -/
def value : List Char → K
  | '-' :: s => -magnitude s
  | s => magnitude s

/-- Digits, a point and three digits. -/
def ThreePlaces (s : List Char) : Prop :=
  ∃ sign ip fp, s = sign ++ ip ++ '.' :: fp ∧ (sign = [] ∨ sign = ['-']) ∧ ip ≠ [] ∧ fp.length = 3 ∧
    (∀ c ∈ ip, c.isDigit = true) ∧ ∀ c ∈ fp, c.isDigit = true

end

section
variable {K : Type} [Field K] [LinearOrder K] [FloorRing K] {S : Type}

/-- The table of a surface: the height parameters and the functional parameters, with `periodic` also period, depth,
aspect ratio and homogeneity; each with its value, as text, and its unit. -/
def IsTable (M : Methods S K) (periodic : Bool) (s : S) (t : List Row) : Prop :=
  ∃ sa sq sv sp sz sk spk svk,
    M.param "Sa" s = .ok sa ∧ M.param "Sq" s = .ok sq ∧ M.param "Sv" s = .ok sv ∧ M.param "Sp" s = .ok sp ∧
    M.param "Sz" s = .ok sz ∧ M.param "Sk" s = .ok sk ∧ M.param "Spk" s = .ok spk ∧ M.param "Svk" s = .ok svk ∧
    ∃ more, t = [.wide "ISO 25178", .wide "Spatial", .entry "Sa" sa.text "µm", .entry "Sq" sq.text "µm",
      .entry "Sv" sv.text "µm", .entry "Sp" sp.text "µm", .entry "Sz" sz.text "µm", .wide "Functional",
      .entry "Sk" sk.text "µm", .entry "Spk" spk.text "µm", .entry "Svk" svk.text "µm"] ++ more ∧
    (periodic = false → more = []) ∧
    (periodic = true → ∃ p d a h, M.param "period" s = .ok p ∧ M.depth s = .ok d ∧ M.param "aspect_ratio" s = .ok a ∧
      M.param "homogeneity" s = .ok h ∧ more = [.wide "Periodic", .entry "Period" p.text "µm",
        .entry "Depth" d.text "µm", .entry "Aspect ratio" a.text "", .entry "Homogeneity" h.text ""])

/-- Every ISO parameter of the surface can be computed. -/
def AllIso (M : Methods S K) (s : S) : Prop := ∀ p ∈ Roughness.surfaceIso, ∃ v, M.param p s = .ok v

end
end Surfalize.ReportSpec
