import Verif.Spec.Cli
import Verif.Lemmas.GridFn
import Verif.Lemmas.Num
import Verif.Lemmas.BaseOps
import Verif.Lemmas.HeightParams
import Mathlib.Data.List.Perm.Basic

/-! Helper lemmas for the command line properties. -/
set_option linter.unusedSectionVars false
namespace Surfalize.CliLemmas
open Surfalize Object Cli CliSpec BaseOps Container ZipContainer

section Plan
variable {K V : Type} [Field K] [LinearOrder K] [FloorRing K]

theorem applyAll_append (E : Ext K V) (a b : List (SOp K)) (s : Surf K V) :
    applyAll E (a ++ b) s = (applyAll E a s).bind (applyAll E b) := by
  induction a generalizing s with
  | nil => rfl
  | cons op a ih =>
    simp only [List.cons_append, applyAll]
    rcases run E op s true with e | ⟨s', r⟩
    · rfl
    · exact ih s'

theorem applyAll_one (E : Ext K V) (op : SOp K) (s : Surf K V) : applyAll E [op] s = call E op s := by
  simp only [applyAll, call]
  rcases run E op s true with e | ⟨s', r⟩ <;> rfl

theorem applyAll_two (E : Ext K V) (a b : SOp K) (s : Surf K V) :
    applyAll E [a, b] s = (call E a s).bind (call E b) := by
  have := applyAll_append E [a] [b] s
  rw [List.singleton_append] at this
  rw [this, applyAll_one]
  congr 1
  funext s'
  exact applyAll_one E b s'

/-- The operations one option asks for, from the parsed options. -/
def fieldOps (o : Opts K) (k : String) : List (SOp K) :=
  if k = "--fill-nonmeasured" then (if o.fill then [.fillNonmeasured "nearest"] else [])
  else if k = "--level" then (if o.level then [.level false] else [])
  else if k = "--center" then (if o.center then [.center] else [])
  else if k = "--zero" then (if o.zero then [.zero] else [])
  else if k = "--threshold" then
    (match o.threshold with | some (u, l) => [.threshold u l, .fillNonmeasured "nearest"] | none => [])
  else if k = "--remove-outliers" then
    (match o.outliers with | some n => [.removeOutliersMean (n : K), .fillNonmeasured "nearest"] | none => [])
  else if k = "--highpass" then (match o.highpass with | some c => [.filter "highpass" c none] | none => [])
  else if k = "--lowpass" then (match o.lowpass with | some c => [.filter "lowpass" c none] | none => [])
  else if k = "--bandpass" then (match o.bandpass with | some (a, b) => [.filter "bandpass" a (some b)] | none => [])
  else []

theorem parse_append (init : List (Arg K)) (a : Arg K) : parse (init ++ [a]) = (parse init).add a := by
  simp [parse, List.foldl_append]

theorem fieldOps_add_self (o : Opts K) (a : Arg K) : fieldOps (o.add a) (kind a) = ops a := by
  cases a <;> simp [fieldOps, kind, Opts.add, ops]

theorem fieldOps_add_ne (o : Opts K) (a : Arg K) (k : String) (h : kind a ≠ k) :
    fieldOps (o.add a) k = fieldOps o k := by
  cases a <;> simp only [kind] at h <;> simp only [fieldOps, Opts.add, if_neg (Ne.symm h)] <;> rfl

theorem filter_kind_nil {init : List (Arg K)} {a : Arg K} {k : String} (hk : kind a = k)
    (h : ((init ++ [a]).map kind).Nodup) : init.filter (fun x => decide (kind x = k)) = [] := by
  rw [List.filter_eq_nil_iff]
  intro x hx hkx
  rw [decide_eq_true_eq] at hkx
  rw [List.map_append, List.nodup_append] at h
  exact h.2.2 (kind x) (List.mem_map_of_mem hx) (kind a) (by simp) (by rw [hkx, hk])

theorem filter_kind_ops (args : List (Arg K)) (h : (args.map kind).Nodup) (k : String) :
    (args.filter fun a => decide (kind a = k)).flatMap ops = fieldOps (parse args) k := by
  induction args using List.reverseRecOn with
  | nil => simp [parse, fieldOps]
  | append_singleton init a ih =>
    have hi : (init.map kind).Nodup := by
      rw [List.map_append, List.nodup_append] at h; exact h.1
    rw [List.filter_append, List.flatMap_append, parse_append]
    by_cases hk : kind a = k
    · rw [filter_kind_nil hk h, ← hk, fieldOps_add_self]
      simp
    · rw [ih hi, fieldOps_add_ne _ _ _ hk]
      simp [hk]

theorem stage (E : Ext K V) (x : Except Err (Surf K V)) (f : Surf K V → Except Err (Surf K V))
    (l m : List (SOp K)) (s : Surf K V) (hl : applyAll E l s = x) (hf : ∀ s, applyAll E m s = f s) :
    applyAll E (l ++ m) s = x.bind f := by
  rw [applyAll_append, hl]
  congr 1
  funext s
  exact hf s

theorem perform_eq (E : Ext K V) (o : Opts K) (s : Surf K V) :
    perform E o s = applyAll E (order.flatMap (fieldOps o)) s := by
  have e1 : ∀ s, applyAll E (fieldOps o "--fill-nonmeasured") s
      = if o.fill then call E (.fillNonmeasured "nearest") s else .ok s := by
    intro s; cases h : o.fill <;> simp [fieldOps, h, applyAll_one, applyAll]
  have e2 : ∀ s, applyAll E (fieldOps o "--level") s = if o.level then call E (.level false) s else .ok s := by
    intro s; cases h : o.level <;> simp [fieldOps, h, applyAll_one, applyAll]
  have e3 : ∀ s, applyAll E (fieldOps o "--center") s = if o.center then call E .center s else .ok s := by
    intro s; cases h : o.center <;> simp [fieldOps, h, applyAll_one, applyAll]
  have e4 : ∀ s, applyAll E (fieldOps o "--zero") s = if o.zero then call E .zero s else .ok s := by
    intro s; cases h : o.zero <;> simp [fieldOps, h, applyAll_one, applyAll]
  show _ = applyAll E (fieldOps o "--fill-nonmeasured" ++ (fieldOps o "--level" ++ (fieldOps o "--center" ++
    (fieldOps o "--zero" ++ (fieldOps o "--threshold" ++ (fieldOps o "--remove-outliers" ++ (fieldOps o "--highpass" ++
    (fieldOps o "--lowpass" ++ (fieldOps o "--bandpass" ++ []))))))))) s
  symm
  unfold perform
  refine stage E _ _ _ _ s (e1 s) fun s => stage E _ _ _ _ s (e2 s) fun s =>
    stage E _ _ _ _ s (e3 s) fun s => stage E _ _ _ _ s (e4 s) fun s =>
    stage E _ _ _ _ s ?_ fun s => stage E _ _ _ _ s ?_ fun s =>
    stage E _ _ _ _ s ?_ fun s => stage E _ _ _ _ s ?_ fun s => ?_
  · rcases h : o.threshold with _ | ⟨u, l⟩ <;> simp [fieldOps, h, applyAll_two, applyAll]
  · rcases h : o.outliers with _ | n <;> simp [fieldOps, h, applyAll_two, applyAll]
  · rcases h : o.highpass with _ | c <;> simp [fieldOps, h, applyAll_one, applyAll]
  · rcases h : o.lowpass with _ | c <;> simp [fieldOps, h, applyAll_one, applyAll]
  · rcases h : o.bandpass with _ | ⟨a, b⟩ <;> simp [fieldOps, h, applyAll_one, applyAll]

theorem plan_eq (args : List (Arg K)) (h : (args.map kind).Nodup) : plan args = order.flatMap (fieldOps (parse args)) := by
  unfold plan
  congr 1
  funext k
  exact filter_kind_ops args h k

/-- Whether an option is given, from the parsed options. -/
def given (o : Opts K) (k : String) : Bool :=
  if k = "--fill-nonmeasured" then o.fill
  else if k = "--level" then o.level
  else if k = "--center" then o.center
  else if k = "--zero" then o.zero
  else if k = "--threshold" then o.threshold.isSome
  else if k = "--remove-outliers" then o.outliers.isSome
  else if k = "--highpass" then o.highpass.isSome
  else if k = "--lowpass" then o.lowpass.isSome
  else if k = "--bandpass" then o.bandpass.isSome
  else false

theorem given_add_self (o : Opts K) (a : Arg K) : given (o.add a) (kind a) = true := by
  cases a <;> simp [given, kind, Opts.add]

theorem given_add_ne (o : Opts K) (a : Arg K) (k : String) (h : kind a ≠ k) : given (o.add a) k = given o k := by
  cases a <;> simp only [kind] at h <;> simp only [given, Opts.add, if_neg (Ne.symm h)]

theorem filter_kind_length (args : List (Arg K)) (h : (args.map kind).Nodup) (k : String) :
    (args.filter fun a => decide (kind a = k)).length = (given (parse args) k).toNat := by
  induction args using List.reverseRecOn with
  | nil => simp [parse, given]
  | append_singleton init a ih =>
    have hi : (init.map kind).Nodup := by
      rw [List.map_append, List.nodup_append] at h; exact h.1
    rw [List.filter_append, List.length_append, parse_append]
    by_cases hk : kind a = k
    · rw [filter_kind_nil hk h]
      subst hk
      rw [given_add_self]
      simp
    · rw [ih hi, given_add_ne _ _ _ hk]
      simp [hk]

theorem filter_isFilter_length (args : List (Arg K)) :
    (args.filter isFilter).length = (args.filter fun a => decide (kind a = "--highpass")).length +
      (args.filter fun a => decide (kind a = "--lowpass")).length +
      (args.filter fun a => decide (kind a = "--bandpass")).length := by
  induction args with
  | nil => rfl
  | cons a args ih =>
    cases a <;> simp [List.filter_cons, isFilter, kind, ih] <;> omega

theorem mem_iff_given (args : List (Arg K)) (h : (args.map kind).Nodup) (k : String) :
    (∃ a ∈ args, kind a = k) ↔ given (parse args) k = true := by
  have := filter_kind_length args h k
  constructor
  · rintro ⟨a, ha, hk⟩
    by_contra hg
    have hg' : given (parse args) k = false := by simpa using hg
    rw [hg'] at this
    have : args.filter (fun a => decide (kind a = k)) = [] := List.length_eq_zero_iff.1 this
    rw [List.filter_eq_nil_iff] at this
    exact this a ha (by simpa using hk)
  · intro hg
    rw [hg] at this
    obtain ⟨a, ha⟩ := List.exists_mem_of_length_pos (l := args.filter fun a => decide (kind a = k)) (by rw [this]; decide)
    rw [List.mem_filter, decide_eq_true_eq] at ha
    exact ⟨a, ha⟩

theorem check_eq (args : List (Arg K)) (h : (args.map kind).Nodup) :
    (check (parse args) = .error .usage ∨ check (parse args) = .ok ()) ∧
    (check (parse args) = .error .usage ↔ 1 < (args.filter isFilter).length ∨
      ((∃ a ∈ args, kind a = "--zero") ∧ ∃ a ∈ args, kind a = "--center")) := by
  rw [mem_iff_given args h, mem_iff_given args h, filter_isFilter_length, filter_kind_length args h,
    filter_kind_length args h, filter_kind_length args h]
  generalize parse args = o
  unfold check
  rcases h1 : o.highpass with _ | a <;> rcases h2 : o.lowpass with _ | b <;> rcases h3 : o.bandpass with _ | c <;>
    cases h4 : o.zero <;> cases h5 : o.center <;> simp [given, h1, h2, h3, h4, h5]

end Plan

section Missing
variable {K V : Type} [Field K] [LinearOrder K] [IsStrictOrderedRing K] [FloorRing K]

/-- The points that are not measured are the same. -/
def SameMask (a b : Grid (Option K)) : Prop := (flat a).map Option.isNone = (flat b).map Option.isNone

theorem measured_ne_nil_iff (l : List (Option K)) : measured l ≠ [] ↔ false ∈ l.map Option.isNone := by
  constructor
  · intro h
    obtain ⟨z, hz⟩ := List.exists_mem_of_ne_nil _ h
    rw [mem_measured] at hz
    exact List.mem_map.2 ⟨_, hz, rfl⟩
  · intro h
    obtain ⟨z, hz, e⟩ := List.mem_map.1 h
    cases z with
    | none => simp at e
    | some z => exact List.ne_nil_of_mem (mem_measured.2 hz)

theorem missing_iff (l : List (Option K)) : none ∈ l ↔ true ∈ l.map Option.isNone := by
  constructor
  · intro h; exact List.mem_map.2 ⟨_, h, rfl⟩
  · intro h
    obtain ⟨z, hz, e⟩ := List.mem_map.1 h
    cases z with
    | none => exact hz
    | some z => simp at e

theorem SameMask.measured {a b : Grid (Option K)} (h : SameMask a b) :
    Surfalize.measured (flat a) ≠ [] ↔ Surfalize.measured (flat b) ≠ [] := by
  rw [measured_ne_nil_iff, measured_ne_nil_iff, h]

theorem SameMask.missing {a b : Grid (Option K)} (h : SameMask a b) : none ∈ flat a ↔ none ∈ flat b := by
  rw [missing_iff, missing_iff, h]

theorem call_ok {E : Ext K V} {op : SOp K} {s s' : Surf K V} (h : call E op s = .ok s') :
    ∃ r, run E op s true = .ok (s', r) := by
  unfold call at h
  rcases hr : run E op s true with e | ⟨t, r⟩
  · rw [hr] at h; cases h
  · rw [hr] at h
    simp only [Except.map, Except.ok.injEq] at h
    exact ⟨r, by rw [← h]⟩

theorem map_osub_mask (g : Grid (Option K)) (m : K) : SameMask (map (fun z => osub z (some m)) g) g := by
  unfold SameMask
  rw [flat_map, List.map_map]
  apply List.map_congr_left
  intro z _
  cases z <;> rfl

theorem fill_ok {E : Ext K V} (hE : Sound E) {s s' : Surf K V} (hw : s.data.WF) (hm : measured (flat s.data) ≠ [])
    (h : call E (.fillNonmeasured "nearest") s = .ok s') :
    s'.data.WF ∧ measured (flat s'.data) ≠ [] ∧ none ∉ flat s'.data := by
  obtain ⟨r, hr⟩ := call_ok h
  simp only [run] at hr
  by_cases hmis : hasMissing s.data = true
  · rw [if_pos hmis] at hr
    obtain ⟨d, hd, hdw, hy, hx, hnone⟩ := hE.griddata s.data hw hm
    rw [hd] at hr
    simp only [Except.map, Except.ok.injEq] at hr
    have hs : s'.data = d := by
      have := congrArg (fun p => p.1.data) hr
      exact this.symm
    rw [hs]
    have hno : none ∉ flat d := by
      intro hc
      obtain ⟨i, hi, j, hj, e⟩ := mem_flat_get hdw hc
      exact hnone i (by omega) j (by omega) e
    refine ⟨hdw, ?_, hno⟩
    obtain ⟨z, hz⟩ := List.exists_mem_of_ne_nil _ hm
    rw [mem_measured] at hz
    obtain ⟨i, hi, j, hj, e⟩ := mem_flat_get hw hz
    have hmem := get_mem hdw (i := i) (j := j) (by omega) (by omega)
    cases hg : d.get i j with
    | none => exact absurd hg (hnone i hi j hj)
    | some w => rw [hg] at hmem; exact List.ne_nil_of_mem (mem_measured.2 hmem)
  · rw [if_neg hmis] at hr
    simp only [Except.ok.injEq, Prod.mk.injEq] at hr
    rw [← hr.1]
    exact ⟨hw, hm, fun hc => hmis ((HeightParams.mem_none_iff_hasMissing _).2 hc)⟩

theorem level_ok {E : Ext K V} (hE : Sound E) {s s' : Surf K V} (hw : s.data.WF)
    (h : call E (.level false) s = .ok s') : s'.data.WF ∧ SameMask s'.data s.data := by
  obtain ⟨r, hr⟩ := call_ok h
  simp only [run, detrend] at hr
  cases ht : E.trend 1 s.data with
  | error e => rw [ht] at hr; simp at hr
  | ok t =>
    rw [ht] at hr
    obtain ⟨htw, hy, hx, hn⟩ := hE.trend s.data t ht
    have hs : s'.data = zipW osub s.data t := by
      simp only [if_true, Except.ok.injEq] at hr
      have := congrArg (fun p => p.1.data) hr
      exact this.symm
    rw [hs]
    have hwz : (zipW osub s.data t).WF := zip_wf hw htw hx.symm
    refine ⟨hwz, ?_⟩
    unfold SameMask
    have hny : (zipW osub s.data t).ny = s.data.ny := zip_ny hy.symm
    have hnx : (zipW osub s.data t).nx = s.data.nx := rfl
    rw [flat_eq_pixels hwz, flat_eq_pixels hw, hny, hnx, List.map_map, List.map_map]
    apply List.map_congr_left
    intro p hp
    obtain ⟨hi, hj⟩ := mem_pixels.1 hp
    simp only [Function.comp]
    have hg : (zipW osub s.data t).get p.1 p.2 = osub (s.data.get p.1 p.2) (t.get p.1 p.2) :=
      get_zip hw htw hy.symm hx.symm hi hj
    rw [hg]
    cases h1 : s.data.get p.1 p.2 with
    | none => rfl
    | some a =>
      cases h2 : t.get p.1 p.2 with
      | none => exact absurd h2 (hn _ hi _ hj)
      | some b => rfl

theorem center_ok {E : Ext K V} {s s' : Surf K V} (hw : s.data.WF) (hm : measured (flat s.data) ≠ [])
    (h : call E .center s = .ok s') : s'.data.WF ∧ SameMask s'.data s.data := by
  obtain ⟨r, hr⟩ := call_ok h
  simp only [run, Except.ok.injEq] at hr
  have hs : s'.data = BaseOps.center s.data := by
    have := congrArg (fun p => p.1.data) hr
    exact this.symm
  rw [hs]
  unfold BaseOps.center
  have : nanmean (flat s.data) = some (mean (measured (flat s.data))) := by
    unfold nanmean; simp [hm]
  rw [this]
  exact ⟨map_wf _ hw, map_osub_mask _ _⟩

theorem zero_ok {E : Ext K V} {s s' : Surf K V} (hw : s.data.WF) (hm : measured (flat s.data) ≠ [])
    (h : call E .zero s = .ok s') : s'.data.WF ∧ SameMask s'.data s.data := by
  obtain ⟨r, hr⟩ := call_ok h
  have hne : flat s.data ≠ [] := by
    intro hc; rw [hc] at hm; exact hm rfl
  simp only [run, BaseOps.zero, if_neg hne, Except.map, Except.ok.injEq] at hr
  obtain ⟨m, hmin⟩ := exists_min? hm
  have : nanmin (flat s.data) = some m := hmin
  rw [this] at hr
  have hs : s'.data = map (fun z => osub z (some m)) s.data := by
    have := congrArg (fun p => p.1.data) hr
    exact this.symm
  rw [hs]
  exact ⟨map_wf _ hw, map_osub_mask _ _⟩

theorem threshold_ok {E : Ext K V} {u l : K} {s s' : Surf K V} (hw : s.data.WF)
    (h : call E (.threshold u l) s = .ok s') : s'.data.WF ∧ measured (flat s'.data) ≠ [] := by
  obtain ⟨r, hr⟩ := call_ok h
  simp only [run] at hr
  cases ht : BaseOps.threshold u l s.data with
  | error e => rw [ht] at hr; cases hr
  | ok d =>
    rw [ht] at hr
    simp only [Except.map, Except.ok.injEq] at hr
    have hs : s'.data = d := by
      have := congrArg (fun p => p.1.data) hr
      exact this.symm
    rw [hs]
    simp only [BaseOps.threshold] at ht
    set y := sortDesc (measured (flat s.data)) with hy
    by_cases h1 : l + u ≥ 100
    · rw [if_pos h1] at ht; cases ht
    rw [if_neg h1] at ht
    by_cases h2 : y = []
    · rw [if_pos h2] at ht; cases ht
    rw [if_neg h2, Except.ok.injEq] at ht
    have hpos : 0 < y.length := List.length_pos_iff.2 h2
    have hxs := grid_pairwise (K := K) y.length hpos
    have hxne := grid_ne_nil (K := K) y.length hpos
    have hul : u / 100 ≤ 1 - l / 100 := by
      push Not at h1
      have : (l + u) / 100 < 1 := by rw [div_lt_one (by norm_num)]; exact h1
      rw [add_div] at this; linarith
    have hle := argclosest_mono hxs hxne hul
    have hl1 := argclosest_lt (x := 1 - l / 100) hxne
    have hl0 := argclosest_lt (x := u / 100) hxne
    simp only [List.length_map, List.length_range] at hl0 hl1
    set i0 := argclosest (u / 100) ((List.range y.length).map fun i : Nat => ((i : K) + 1) / (y.length : K))
    set i1 := argclosest (1 - l / 100) ((List.range y.length).map fun i : Nat => ((i : K) + 1) / (y.length : K))
    have hsorted := sortDesc_sorted (measured (flat s.data))
    rw [← hy] at hsorted
    have hyle : y[i1] ≤ y[i0] := by
      rcases Nat.eq_or_lt_of_le hle with h | h
      · simp only [h]; exact le_refl _
      · exact List.pairwise_iff_getElem.1 hsorted i0 i1 hl0 hl1 h
    have hmem : some y[i0] ∈ flat s.data := mem_measured.1 ((sortDesc_perm _).mem_iff.1 (List.getElem_mem hl0))
    subst ht
    refine ⟨map_wf _ hw, List.ne_nil_of_mem (mem_measured.2 ?_ : y[i0] ∈ _)⟩
    rw [flat_map]
    refine List.mem_map.2 ⟨_, hmem, ?_⟩
    simp only [Option.bind_some]
    rw [if_neg]
    rw [getD_of_lt _ hl0, getD_of_lt _ hl1]
    rintro (h | h)
    · exact lt_irrefl _ h
    · exact absurd h (not_lt.2 hyle)

/-- Some point lies within one standard deviation of the mean. -/
theorem exists_within {l : List K} (hl : l ≠ []) {s : K} (h0 : 0 ≤ s) (hs : s * s = variance l) :
    ∃ z ∈ l, |z - mean l| ≤ s := by
  by_contra hc
  push Not at hc
  have hne : (l.map fun z => (z - mean l) ^ 2) ≠ [] := by simpa using hl
  obtain ⟨m, hm⟩ := exists_min? hne
  obtain ⟨hm1, hm2⟩ := min?_spec.1 hm
  have h1 : m ≤ variance l := HeightParams.le_mean hne hm2
  obtain ⟨z, hz, rfl⟩ := List.mem_map.1 hm1
  have h2 := hc z hz
  have h3 : s * s < |z - mean l| * |z - mean l| := by nlinarith
  rw [abs_mul_abs_self] at h3
  rw [hs] at h3
  have h4 : (z - mean l) ^ 2 ≤ variance l := h1
  rw [pow_two] at h4
  exact absurd h3 (not_lt.2 h4)

theorem outliers_ok {E : Ext K V} (hE : Sound E) {n : Int} (hn : 1 ≤ n) {s s' : Surf K V} (hw : s.data.WF)
    (hm : measured (flat s.data) ≠ []) (h : call E (.removeOutliersMean (n : K)) s = .ok s') :
    s'.data.WF ∧ measured (flat s'.data) ≠ [] := by
  obtain ⟨r, hr⟩ := call_ok h
  simp only [run, Except.ok.injEq] at hr
  have hs : s'.data = map (fun z => z.bind fun z => if |z - mean (measured (flat s.data))| > (n : K) * E.std (measured (flat s.data))
      then none else some z) s.data := by
    have := congrArg (fun p => p.1.data) hr
    exact this.symm
  obtain ⟨h0, h2⟩ := hE.std (measured (flat s.data))
  obtain ⟨z, hz, hzle⟩ := exists_within hm h0 h2
  have hn' : (1 : K) ≤ (n : K) := by exact_mod_cast hn
  rw [hs]
  refine ⟨map_wf _ hw, List.ne_nil_of_mem (mem_measured.2 ?_ : z ∈ _)⟩
  rw [flat_map]
  refine List.mem_map.2 ⟨_, mem_measured.1 hz, ?_⟩
  simp only [Option.bind_some]
  rw [if_neg]
  rw [gt_iff_lt, not_lt]
  nlinarith

end Missing
end Surfalize.CliLemmas
