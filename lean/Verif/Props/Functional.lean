import Verif.Model.Functional
import Verif.Props.Abbott
/-!
# C90 — Functional parameters of profiles and surfaces
-/
set_option linter.unusedSectionVars false
set_option linter.unusedSimpArgs false
set_option linter.unusedTactic false
namespace Surfalize.Props
open Surfalize Abbott Interp Spec Functional

variable {K : Type} [Field K] [LinearOrder K] [IsStrictOrderedRing K] [FloorRing K]
variable {lstsq : Detrend.Lstsq K} {sort : PtSort K}

private theorem curve_perm {d d' : List (Option K)} (hp : d.Perm d') :
    (∃ e, curve lstsq d = .error e ∧ curve lstsq d' = .error e) ∨
    ∃ c c', curve lstsq d = .ok c ∧ curve lstsq d' = .ok c' ∧
      c.k = c'.k ∧ c.mr1 sort = c'.mr1 sort ∧ c.mr2 sort = c'.mr2 sort ∧ c.pk sort = c'.pk sort ∧ c.vk sort = c'.vk sort ∧
      c.pkx = c'.pkx ∧ c.vkx = c'.vkx ∧ c.ak1 sort = c'.ak1 sort ∧ c.ak2 sort = c'.ak2 sort ∧
      (∀ z, c.mrAt sort z = c'.mrAt sort z) ∧ (∀ p, c.mc p = c'.mc p) ∧ (∀ p, c.Vm p = c'.Vm p) ∧ ∀ p, c.Vv p = c'.Vv p := by
  have h := C36_arrangement (lstsq := lstsq) (n := 10000) hp
  unfold curve
  cases h1 : build lstsq 10000 d with
  | error e =>
    cases h2 : build lstsq 10000 d' with
    | error e' =>
      rw [h1, h2] at h
      simp only [Except.map, Except.error.injEq] at h
      exact .inl ⟨e, rfl, by rw [h]⟩
    | ok c' => rw [h1, h2] at h; simp [Except.map] at h
  | ok c =>
    cases h2 : build lstsq 10000 d' with
    | error e' => rw [h1, h2] at h; simp [Except.map] at h
    | ok c' => exact .inr ⟨c, c', rfl, rfl, C17_functional_parameters hp h1 h2⟩

/-- **C90**: a surface and a profile with the same heights, in whatever order, have the same functional parameters:
same numbers, same defaults, same errors. -/
theorem C90_same (g : Grid (Option K)) (p : List (Option K)) (h : (Container.flat g).Perm p) (m : Method)
    (args : List K) : surface lstsq sort m args g = profile lstsq sort m args p := by
  rcases curve_perm (lstsq := lstsq) (sort := sort) h with ⟨e, h1, h2⟩ |
    ⟨c, c', h1, h2, e1, e2, e3, e4, e5, e6, e7, e8, e9, e10, e11, e12, e13⟩
  · cases m <;> rcases args with _ | ⟨a, _ | ⟨b, _ | ⟨d, l⟩⟩⟩ <;>
      first
      | rfl
      | (simp only [surface, profile, smc, rmc, sxp, rxp, h1, h2, Except.map, Except.bind]; done)
      | (rename_i v; cases v <;> first | rfl | simp only [surface, profile, volume, h1, h2, Except.map])
  · cases m <;> rcases args with _ | ⟨a, _ | ⟨b, _ | ⟨d, l⟩⟩⟩ <;>
      first
      | rfl
      | (simp only [surface, profile, smc, rmc, sxp, rxp, h1, h2, Except.map, Except.bind, Curve.dc, *]; done)
      | (rename_i v; cases v <;>
          first
          | rfl
          | simp only [surface, profile, volume, h1, h2, Except.map, Curve.vmp, Curve.vmc, Curve.vvv, Curve.vvc, e12, e13])

/-- How many arguments a method takes: `mr(c)` and `mc(mr)` one, `xp`, `dc`, `Vmc` and `Vvc` up to two, and so on. -/
def arity : Method → List Nat
  | .mr | .mc | .vol .Vm | .vol .Vv => [1]
  | .xp | .dc | .vol .Vmc | .vol .Vvc => [0, 1, 2]
  | .vol .Vmp | .vol .Vvv => [0, 1]
  | _ => [0]

/-- **C90**: a call with the right number of arguments raises ValueError exactly if a point is missing, and gives a
number or NaN otherwise; a call with a wrong number is a TypeError, whatever the heights. -/
theorem C90_errors {p : List (Option K)} (hl : IsLstsq lstsq) (hne : p ≠ []) (m : Method) (args : List K) :
    (args.length ∈ arity m → none ∈ p → profile lstsq sort m args p = .error .valueError) ∧
    (args.length ∈ arity m → none ∉ p → ∃ v, profile lstsq sort m args p = .ok v) ∧
    (args.length ∉ arity m → profile lstsq sort m args p = .error .typeError) := by
  by_cases hm : none ∈ p
  · have hc : curve lstsq p = .error .valueError := C36_missing hm
    cases m <;> rcases args with _ | ⟨a, _ | ⟨b, _ | ⟨d, l⟩⟩⟩ <;>
      first
      | (simp [arity, profile, rmc, rxp, hc, Except.map, Except.bind, hm]; done)
      | (rename_i v; cases v <;> simp [arity, profile, volume, hc, Except.map, hm])
  · obtain ⟨c, hc⟩ : ∃ c, curve lstsq p = .ok c := C36_defined hl (by norm_num) hm hne
    cases m <;> rcases args with _ | ⟨a, _ | ⟨b, _ | ⟨d, l⟩⟩⟩ <;>
      first
      | (simp [arity, profile, rmc, rxp, hc, Except.map, Except.bind, hm]; done)
      | (rename_i v; cases v <;> simp [arity, profile, volume, hc, Except.map, hm])

/-- **C90**: what the parameters of a fully measured profile say about its heights, of which `lo` and `hi` are the
extreme ones. -/
theorem C90_values {p : List (Option K)} (hl : IsLstsq lstsq) (hs : IsSort sort) (hm : none ∉ p) {lo hi : K}
    (h1 : some lo ∈ p) (h2 : some hi ∈ p) (h3 : ∀ z, some z ∈ p → lo ≤ z ∧ z ≤ hi) :
    (∃ k pkx vkx, profile lstsq sort .k [] p = .ok (some k) ∧ profile lstsq sort .pkx [] p = .ok (some pkx) ∧
      profile lstsq sort .vkx [] p = .ok (some vkx) ∧ 0 ≤ k ∧ pkx + k + vkx = hi - lo) ∧
    (∃ m1 pk, profile lstsq sort .mr1 [] p = .ok (some m1) ∧ profile lstsq sort .mrk1 [] p = .ok (some m1) ∧
      0 ≤ m1 ∧ m1 ≤ 100 ∧ profile lstsq sort .pk [] p = .ok pk ∧ (pk = none ↔ m1 = 0) ∧
      ∀ v, pk = some v → 0 ≤ v ∧ profile lstsq sort .ak1 [] p = .ok (some (v * m1 / 2))) ∧
    (∃ m2 vk, profile lstsq sort .mr2 [] p = .ok (some m2) ∧ profile lstsq sort .mrk2 [] p = .ok (some m2) ∧
      0 ≤ m2 ∧ m2 ≤ 100 ∧ profile lstsq sort .vk [] p = .ok vk ∧ (vk = none ↔ m2 = 100) ∧
      ∀ v, vk = some v → 0 ≤ v ∧ profile lstsq sort .ak2 [] p = .ok (some (v * (100 - m2) / 2))) ∧
    (∀ z, ∃ m, profile lstsq sort .mr [z] p = .ok (some m) ∧ 0 ≤ m ∧ m ≤ 100) ∧
    (∃ mc : K → K, (∀ r, profile lstsq sort .mc [r] p = .ok (some (mc r)) ∧ lo ≤ mc r ∧ mc r ≤ hi) ∧
      mc 0 = hi ∧ mc 100 = lo ∧ (∀ r r', r ≤ r' → mc r' ≤ mc r) ∧
      (∀ r r', profile lstsq sort .xp [r, r'] p = .ok (some (mc r - mc r')) ∧
        profile lstsq sort .dc [r, r'] p = .ok (some (mc r - mc r'))) ∧
      (∀ r, profile lstsq sort .xp [r] p = .ok (some (mc r - mc 50)) ∧
        profile lstsq sort .dc [r] p = .ok (some (mc r - mc 50))) ∧
      profile lstsq sort .xp [] p = .ok (some (mc (5 / 2) - mc 50)) ∧
      profile lstsq sort .dc [] p = .ok (some (mc (5 / 2) - mc 50))) ∧
    ∃ vm vv : K → K, (∀ r, profile lstsq sort (.vol .Vm) [r] p = .ok (some (vm r)) ∧
        profile lstsq sort (.vol .Vv) [r] p = .ok (some (vv r)) ∧ profile lstsq sort (.vol .Vmp) [r] p = .ok (some (vm r)) ∧
        profile lstsq sort (.vol .Vvv) [r] p = .ok (some (vv r)) ∧ 0 ≤ vm r ∧ 0 ≤ vv r) ∧
      vm 0 = 0 ∧ vv 100 = 0 ∧ (∀ r r', r ≤ r' → vm r ≤ vm r' ∧ vv r' ≤ vv r) ∧
      (∀ r r', profile lstsq sort (.vol .Vmc) [r, r'] p = .ok (some (vm r' - vm r)) ∧
        profile lstsq sort (.vol .Vvc) [r, r'] p = .ok (some (vv r - vv r'))) ∧
      (∀ r, profile lstsq sort (.vol .Vmc) [r] p = .ok (some (vm 80 - vm r)) ∧
        profile lstsq sort (.vol .Vvc) [r] p = .ok (some (vv r - vv 80))) ∧
      profile lstsq sort (.vol .Vmp) [] p = .ok (some (vm 10)) ∧ profile lstsq sort (.vol .Vvv) [] p = .ok (some (vv 80)) ∧
      profile lstsq sort (.vol .Vmc) [] p = .ok (some (vm 80 - vm 10)) ∧
      profile lstsq sort (.vol .Vvc) [] p = .ok (some (vv 10 - vv 80)) := by
  have hne : p ≠ [] := List.ne_nil_of_mem h1
  obtain ⟨c, hb⟩ : ∃ c, build lstsq 10000 p = .ok c := C36_defined hl (by norm_num) hm hne
  have hc : curve lstsq p = .ok c := hb
  have hn : 2 ≤ 10000 := by norm_num
  obtain ⟨-, -, x3⟩ := C39_extreme hb h2 (fun z hz => (h3 z hz).2) h1 (fun z hz => (h3 z hz).1)
  obtain ⟨p1, p2, p3, p4⟩ := C39_pk_vk hs hn hb
  have b1 := C37_smr_range hs hn hb c.yupper
  have b2 := C37_smr_range hs hn hb c.ylower
  obtain ⟨a1, a2, a3, -⟩ := C37_smc hn hb
  obtain ⟨v1, v2, v3, v4, -⟩ := C41_volumes hn hb
  obtain ⟨z1, z2⟩ := C41_ends hn hb
  refine ⟨⟨c.k, c.pkx, c.vkx, ?_, ?_, ?_, C39_sk hl (by norm_num) hb, x3⟩, ⟨c.mr1 sort, c.pk sort, ?_, ?_, b1.1, b1.2, ?_, p3,
    fun v hv => ⟨(p1 v hv).1, ?_⟩⟩, ⟨c.mr2 sort, c.vk sort, ?_, ?_, b2.1, b2.2, ?_, p4, fun v hv => ⟨(p2 v hv).1, ?_⟩⟩,
    fun z => ⟨c.mrAt sort z, ?_, C37_smr_range hs hn hb z⟩,
    ⟨c.mc, fun r => ⟨?_, C37_smc_bounds hn hb r (fun z hz => (h3 z hz).1) (fun z hz => (h3 z hz).2)⟩, ?_, ?_, a1,
      fun r r' => ⟨?_, ?_⟩, fun r => ⟨?_, ?_⟩, ?_, ?_⟩,
    ⟨c.Vm, c.Vv, fun r => ⟨?_, ?_, ?_, ?_, v1 r, v2 r⟩, z1 0 le_rfl, z2 100 le_rfl,
      fun r r' h => ⟨v3 r r' h, v4 r r' h⟩, fun r r' => ⟨?_, ?_⟩, fun r => ⟨?_, ?_⟩, ?_, ?_, ?_, ?_⟩⟩
  case refine_7 => rw [show profile lstsq sort .ak1 [] p = (curve lstsq p).map fun c => c.ak1 sort from rfl, hc]
                   exact congrArg Except.ok (p1 v hv).2.1
  case refine_11 => rw [show profile lstsq sort .ak2 [] p = (curve lstsq p).map fun c => c.ak2 sort from rfl, hc]
                    exact congrArg Except.ok (p2 v hv).2.1
  all_goals first
    | (simp only [profile, rmc, rxp, volume, hc, Except.map, Except.bind]; done)
    | (simp only [profile, rmc, rxp, volume, hc, Except.map, Except.bind]; rfl)
    | skip
  · obtain ⟨e1, e2⟩ := a2 0 le_rfl
    exact le_antisymm (h3 _ e1).2 (e2 _ h2)
  · obtain ⟨e1, e2⟩ := a3 100 le_rfl
    exact le_antisymm (e2 _ h1) (h3 _ e1).1

example : ∃ k, profile (K := ℚ) (Classical.choose Detrend.exists_lstsq) stableSort .k [] [some 3, some 1, some 2] =
    .ok (some k) ∧ 0 ≤ k := by
  obtain ⟨k, _, _, h, _, _, h0, _⟩ := (C90_values (p := [some 3, some 1, some (2 : ℚ)]) (lo := 1) (hi := 3)
    (Classical.choose_spec Detrend.exists_lstsq) C74_sort_exists.1 (by decide) (by decide) (by decide) (by
      intro z hz
      simp only [List.mem_cons, Option.some.injEq, List.not_mem_nil, or_false] at hz
      rcases hz with rfl | rfl | rfl <;> norm_num)).1
  exact ⟨k, h, h0⟩

end Surfalize.Props
