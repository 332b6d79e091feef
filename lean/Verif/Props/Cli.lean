import Verif.Lemmas.Cli
import Verif.Props.FillRotate
import Mathlib.Data.List.Nodup

/-!
# C55 — command line processing: one documented order, exclusive options, no filter on missing points
-/
set_option linter.unusedSectionVars false
namespace Surfalize.Props
open Surfalize Object Cli CliSpec CliLemmas BaseOps Container

section Order
variable {K V : Type} [Field K] [LinearOrder K] [FloorRing K]

/-- **C55** (order and exclusion). For every command line giving each option at most once: with more than one of
`--highpass`, `--lowpass`, `--bandpass`, or with both `--zero` and `--center`, it is rejected and nothing is applied;
otherwise exactly the requested operations are applied, in the documented order. -/
theorem C55_plan (E : Ext K V) (args : List (Arg K)) (hd : (args.map kind).Nodup) (s : Surf K V) :
    ((1 < (args.filter isFilter).length ∨ ((∃ a ∈ args, kind a = "--zero") ∧ ∃ a ∈ args, kind a = "--center")) →
      process E args s = .error .usage) ∧
    (¬ (1 < (args.filter isFilter).length ∨ ((∃ a ∈ args, kind a = "--zero") ∧ ∃ a ∈ args, kind a = "--center")) →
      process E args s = applyAll E (plan args) s) := by
  obtain ⟨h1, h2⟩ := check_eq args hd
  constructor
  · intro h
    unfold process
    rw [h2.2 h]; rfl
  · intro h
    have : check (parse args) = .ok () := by
      rcases h1 with h1 | h1
      · exact absurd (h2.1 h1) h
      · exact h1
    unfold process
    rw [this, plan_eq args hd, ← perform_eq]; rfl

/-- **C55** (independence of the order of the options). Two command lines with the same options in any order do the
same. -/
theorem C55_option_order (E : Ext K V) (args args' : List (Arg K)) (hp : args.Perm args') (hd : (args.map kind).Nodup)
    (s : Surf K V) : process E args s = process E args' s := by
  have hparse : parse args = parse args' := by
    unfold parse
    apply hp.foldl_eq'
    intro x hx y hy o
    by_cases hk : kind x = kind y
    · rw [List.inj_on_of_nodup_map hd hx hy hk]
    · cases x <;> cases y <;> first | rfl | exact absurd rfl hk
  unfold process
  rw [hparse]

private theorem filter_nonfilter (args : List (Arg K)) (k : String)
    (h : k ≠ "--highpass" ∧ k ≠ "--lowpass" ∧ k ≠ "--bandpass") :
    (args.filter fun a => ! isFilter a).filter (fun a => decide (kind a = k))
      = args.filter fun a => decide (kind a = k) := by
  rw [List.filter_filter]
  apply List.filter_congr
  intro a _
  cases a <;> simp [isFilter, kind, Ne.symm h.1, Ne.symm h.2.1, Ne.symm h.2.2]

private theorem filter_nonfilter_nil (args : List (Arg K)) (k : String)
    (h : k = "--highpass" ∨ k = "--lowpass" ∨ k = "--bandpass") :
    (args.filter fun a => ! isFilter a).filter (fun a => decide (kind a = k)) = [] := by
  rw [List.filter_filter, List.filter_eq_nil_iff]
  intro a _
  rcases h with rfl | rfl | rfl <;> cases a <;> simp [isFilter, kind]

private theorem filter_filter_kind (args : List (Arg K)) (k : String)
    (h : k = "--highpass" ∨ k = "--lowpass" ∨ k = "--bandpass") :
    (args.filter isFilter).filter (fun a => decide (kind a = k)) = args.filter fun a => decide (kind a = k) := by
  rw [List.filter_filter]
  apply List.filter_congr
  intro a _
  rcases h with rfl | rfl | rfl <;> cases a <;> simp [isFilter, kind]

/-- **C55** (filters come last). In an accepted command line the filter is applied after everything else that was
requested. -/
theorem C55_filter_last (args : List (Arg K)) (hone : ¬ 1 < (args.filter isFilter).length) :
    plan args = plan (args.filter fun a => ! isFilter a) ++ (args.filter isFilter).flatMap ops := by
  have hlast : ["--highpass", "--lowpass", "--bandpass"].flatMap (fun k => (args.filter fun a => decide (kind a = k)).flatMap ops)
      = (args.filter isFilter).flatMap ops := by
    simp only [List.flatMap_cons, List.flatMap_nil, List.append_nil]
    rw [← filter_filter_kind args "--highpass" (by simp), ← filter_filter_kind args "--lowpass" (by simp),
      ← filter_filter_kind args "--bandpass" (by simp)]
    have hall : ∀ a ∈ args.filter isFilter, isFilter a = true := fun a ha => (List.mem_filter.1 ha).2
    revert hone hall
    generalize args.filter isFilter = L
    intro hone hall
    cases L with
    | nil => rfl
    | cons a L =>
      cases L with
      | cons b L => simp at hone
      | nil =>
        have := hall a (by simp)
        cases a <;> simp [isFilter] at this <;> simp [kind, ops]
  rw [← hlast]
  unfold plan order
  simp only [List.flatMap_cons, List.flatMap_nil, List.append_nil]
  rw [filter_nonfilter args "--fill-nonmeasured" (by decide), filter_nonfilter args "--level" (by decide),
    filter_nonfilter args "--center" (by decide), filter_nonfilter args "--zero" (by decide),
    filter_nonfilter args "--threshold" (by decide), filter_nonfilter args "--remove-outliers" (by decide),
    filter_nonfilter_nil args "--highpass" (by simp), filter_nonfilter_nil args "--lowpass" (by simp),
    filter_nonfilter_nil args "--bandpass" (by simp)]
  simp [List.append_assoc]

end Order

section Missing
variable {K V : Type} [Field K] [LinearOrder K] [IsStrictOrderedRing K] [FloorRing K]

private theorem bind_ok {α β : Type} {x : Except Err α} {f : α → Except Err β} {b : β} (h : x.bind f = .ok b) :
    ∃ a, x = .ok a ∧ f a = .ok b := by
  cases x with
  | error e => cases h
  | ok a => exact ⟨a, rfl, h⟩

/-- The surface between the stages before the filters. -/
private theorem stages {E : Ext K V} (hE : Sound E) (o : Opts K) (ho : ∀ n, o.outliers = some n → 1 ≤ n)
    (hf : o.highpass = none ∧ o.lowpass = none ∧ o.bandpass = none) {s s' : Surf K V} (hw : s.data.WF)
    (hm : measured (flat s.data) ≠ []) (h : perform E o s = .ok s') :
    s'.data.WF ∧ measured (flat s'.data) ≠ [] ∧
    (o.fill = true ∨ o.threshold.isSome ∨ o.outliers.isSome → none ∉ flat s'.data) ∧
    (o.fill = false ∧ o.threshold = none ∧ o.outliers = none → (none ∈ flat s'.data ↔ none ∈ flat s.data)) := by
  unfold perform at h
  obtain ⟨s1, h1, h⟩ := bind_ok h
  obtain ⟨s2, h2, h⟩ := bind_ok h
  obtain ⟨s3, h3, h⟩ := bind_ok h
  obtain ⟨s4, h4, h⟩ := bind_ok h
  obtain ⟨s5, h5, h⟩ := bind_ok h
  obtain ⟨s6, h6, h⟩ := bind_ok h
  obtain ⟨s7, h7, h⟩ := bind_ok h
  obtain ⟨s8, h8, h9⟩ := bind_ok h
  rw [hf.1] at h7
  rw [hf.2.1] at h8
  rw [hf.2.2] at h9
  simp only [Except.ok.injEq] at h7 h8 h9
  subst h7; subst h8; subst h9
  have a1 : s1.data.WF ∧ measured (flat s1.data) ≠ [] ∧ (o.fill = true → none ∉ flat s1.data) ∧ (o.fill = false → s1 = s) := by
    cases hfill : o.fill with
    | true =>
      rw [hfill, if_pos rfl] at h1
      obtain ⟨x, y, z⟩ := fill_ok hE hw hm h1
      exact ⟨x, y, fun _ => z, fun h => absurd h (by simp)⟩
    | false =>
      rw [hfill, if_neg (by simp)] at h1
      simp only [Except.ok.injEq] at h1
      rw [← h1]
      exact ⟨hw, hm, by simp, by simp⟩
  have a2 : s2.data.WF ∧ SameMask s2.data s1.data := by
    cases hl : o.level with
    | true => rw [hl, if_pos rfl] at h2; exact level_ok hE a1.1 h2
    | false =>
      rw [hl, if_neg (by simp)] at h2
      simp only [Except.ok.injEq] at h2
      rw [← h2]; exact ⟨a1.1, rfl⟩
  have m2 := a2.2.measured.2 a1.2.1
  have a3 : s3.data.WF ∧ SameMask s3.data s2.data := by
    cases hl : o.center with
    | true => rw [hl, if_pos rfl] at h3; exact center_ok a2.1 m2 h3
    | false =>
      rw [hl, if_neg (by simp)] at h3
      simp only [Except.ok.injEq] at h3
      rw [← h3]; exact ⟨a2.1, rfl⟩
  have m3 := a3.2.measured.2 m2
  have a4 : s4.data.WF ∧ SameMask s4.data s3.data := by
    cases hl : o.zero with
    | true => rw [hl, if_pos rfl] at h4; exact zero_ok a3.1 m3 h4
    | false =>
      rw [hl, if_neg (by simp)] at h4
      simp only [Except.ok.injEq] at h4
      rw [← h4]; exact ⟨a3.1, rfl⟩
  have m4 := a4.2.measured.2 m3
  have k4 : none ∈ flat s4.data ↔ none ∈ flat s1.data := by rw [a4.2.missing, a3.2.missing, a2.2.missing]
  have a5 : s5.data.WF ∧ measured (flat s5.data) ≠ [] ∧ (o.threshold.isSome → none ∉ flat s5.data) ∧
      (o.threshold = none → s5 = s4) := by
    rcases ht : o.threshold with _ | ⟨u, l⟩
    · rw [ht] at h5
      simp only [Except.ok.injEq] at h5
      rw [← h5]; exact ⟨a4.1, m4, by simp, by simp⟩
    · rw [ht] at h5
      obtain ⟨t, ht1, ht2⟩ := bind_ok h5
      obtain ⟨x, y⟩ := threshold_ok a4.1 ht1
      obtain ⟨x', y', z'⟩ := fill_ok hE x y ht2
      exact ⟨x', y', fun _ => z', by simp⟩
  have a6 : s6.data.WF ∧ measured (flat s6.data) ≠ [] ∧ (o.outliers.isSome → none ∉ flat s6.data) ∧
      (o.outliers = none → s6 = s5) := by
    rcases ht : o.outliers with _ | n
    · rw [ht] at h6
      simp only [Except.ok.injEq] at h6
      rw [← h6]; exact ⟨a5.1, a5.2.1, by simp, by simp⟩
    · rw [ht] at h6
      obtain ⟨t, ht1, ht2⟩ := bind_ok h6
      obtain ⟨x, y⟩ := outliers_ok hE (ho n ht) a5.1 a5.2.1 ht1
      obtain ⟨x', y', z'⟩ := fill_ok hE x y ht2
      exact ⟨x', y', fun _ => z', by simp⟩
  refine ⟨a6.1, a6.2.1, ?_, ?_⟩
  · intro hany
    cases h6c : o.outliers with
    | some n => exact a6.2.2.1 (by rw [h6c]; rfl)
    | none =>
      rw [a6.2.2.2 h6c]
      cases h5c : o.threshold with
      | some t => exact a5.2.2.1 (by rw [h5c]; rfl)
      | none =>
        rw [a5.2.2.2 h5c]
        rw [k4]
        rcases hany with hany | hany | hany
        · exact a1.2.2.1 hany
        · rw [h5c] at hany; cases hany
        · rw [h6c] at hany; cases hany
  · rintro ⟨hf1, hf2, hf3⟩
    rw [a6.2.2.2 hf3, a5.2.2.2 hf2, k4, a1.2.2.2 hf1]

private theorem given_none (args : List (Arg K)) (hd : (args.map kind).Nodup) (hnf : ∀ a ∈ args, isFilter a = false) :
    (parse args).highpass = none ∧ (parse args).lowpass = none ∧ (parse args).bandpass = none := by
  have key : ∀ k, (k = "--highpass" ∨ k = "--lowpass" ∨ k = "--bandpass") → given (parse args) k = false := by
    intro k hk
    by_contra hc
    rw [Bool.not_eq_false] at hc
    obtain ⟨a, ha, e⟩ := (mem_iff_given args hd k).2 hc
    have := hnf a ha
    rcases hk with rfl | rfl | rfl <;> cases a <;> simp [kind] at e <;> simp [isFilter] at this
  refine ⟨?_, ?_, ?_⟩
  · have := key "--highpass" (by simp)
    simpa [given] using this
  · have := key "--lowpass" (by simp)
    simpa [given] using this
  · have := key "--bandpass" (by simp)
    simpa [given] using this

private theorem outliers_mem (args : List (Arg K)) (n : Int) (h : (parse args).outliers = some n) :
    Arg.removeOutliers n ∈ args := by
  induction args using List.reverseRecOn with
  | nil => simp [parse] at h
  | append_singleton init a ih =>
    rw [parse_append] at h
    rw [List.mem_append]
    by_cases ha : ∃ m, a = .removeOutliers m
    · obtain ⟨m, rfl⟩ := ha
      simp only [Opts.add, Option.some.injEq] at h
      subst h
      exact .inr (by simp)
    · left
      apply ih
      cases a <;> first | exact h | exact absurd ⟨_, rfl⟩ ha

/-- **C55** (no filter sees a missing point). Let a surface have at least one measured point, and let the command line
ask for filling, thresholding or outlier removal (by at least one sigma). When everything before the filter has been
applied, no point is missing — whatever was missing in the file and whatever thresholding and outlier removal took
out. -/
theorem C55_no_missing {E : Ext K V} (hE : Sound E) (args : List (Arg K)) (hd : (args.map kind).Nodup)
    (hn : ∀ n, Arg.removeOutliers n ∈ args → 1 ≤ n)
    (hany : ∃ a ∈ args, kind a = "--fill-nonmeasured" ∨ kind a = "--threshold" ∨ kind a = "--remove-outliers")
    (s s' : Surf K V) (hw : s.data.WF) (hm : measured (flat s.data) ≠ [])
    (h : applyAll E (plan (args.filter fun a => ! isFilter a)) s = .ok s') : none ∉ flat s'.data := by
  set rest := args.filter (fun a => ! isFilter a) with hrest
  have hdr : (rest.map kind).Nodup := hd.sublist (List.filter_sublist.map kind)
  have hnf : ∀ a ∈ rest, isFilter a = false := by
    intro a ha
    simpa using (List.mem_filter.1 ha).2
  rw [plan_eq rest hdr, ← perform_eq] at h
  have hst := stages hE (parse rest) (fun n hn' => hn n (List.mem_filter.1 (outliers_mem rest n hn')).1)
    (given_none rest hdr hnf) hw hm h
  apply hst.2.2.1
  obtain ⟨a, ha, hk⟩ := hany
  have har : a ∈ rest := by
    rw [hrest, List.mem_filter]
    refine ⟨ha, ?_⟩
    cases a <;> simp [kind] at hk <;> rfl
  rcases hk with hk | hk | hk
  · have := (mem_iff_given rest hdr _).1 ⟨a, har, hk⟩
    exact .inl (by simpa [given] using this)
  · have := (mem_iff_given rest hdr _).1 ⟨a, har, hk⟩
    exact .inr (.inl (by simpa [given] using this))
  · have := (mem_iff_given rest hdr _).1 ⟨a, har, hk⟩
    exact .inr (.inr (by simpa [given] using this))

/-- **C55** (missing points nobody asked to fill). If points of the file are missing and none of these three options is
given, a requested filter raises `ValueError`: it never runs on missing points. -/
theorem C55_unfilled {E : Ext K V} (hE : Sound E) (args : List (Arg K)) (hd : (args.map kind).Nodup)
    (hone : (args.filter isFilter).length = 1) (hzc : ¬ ((∃ a ∈ args, kind a = "--zero") ∧ ∃ a ∈ args, kind a = "--center"))
    (hno : ∀ a ∈ args, kind a ≠ "--fill-nonmeasured" ∧ kind a ≠ "--threshold" ∧ kind a ≠ "--remove-outliers")
    (s s' : Surf K V) (hw : s.data.WF) (hm : measured (flat s.data) ≠ []) (hmis : none ∈ flat s.data)
    (h : applyAll E (plan (args.filter fun a => ! isFilter a)) s = .ok s') : process E args s = .error .valueError := by
  have hacc := (C55_plan E args hd s).2 (by
    rintro (h | h)
    · omega
    · exact hzc h)
  rw [hacc, C55_filter_last args (by omega), applyAll_append, h]
  set rest := args.filter (fun a => ! isFilter a) with hrest
  have hdr : (rest.map kind).Nodup := hd.sublist (List.filter_sublist.map kind)
  have hnf : ∀ a ∈ rest, isFilter a = false := by
    intro a ha
    simpa using (List.mem_filter.1 ha).2
  have hg : ∀ k, (k = "--fill-nonmeasured" ∨ k = "--threshold" ∨ k = "--remove-outliers") → given (parse rest) k = false := by
    intro k hk
    by_contra hc
    rw [Bool.not_eq_false] at hc
    obtain ⟨a, ha, e⟩ := (mem_iff_given rest hdr k).2 hc
    have := hno a (List.mem_filter.1 ha).1
    rw [e] at this
    rcases hk with hk | hk | hk
    · exact this.1 hk
    · exact this.2.1 hk
    · exact this.2.2 hk
  have e1 : (parse rest).fill = false := by simpa [given] using hg "--fill-nonmeasured" (by simp)
  have e2 : (parse rest).threshold = none := by simpa [given] using hg "--threshold" (by simp)
  have e3 : (parse rest).outliers = none := by simpa [given] using hg "--remove-outliers" (by simp)
  have hno' : ∀ n, (parse rest).outliers = some n → 1 ≤ n := by intro n hn; rw [e3] at hn; cases hn
  rw [plan_eq rest hdr, ← perform_eq] at h
  have hst := (stages hE (parse rest) hno' (given_none rest hdr hnf) hw hm h).2.2.2 ⟨e1, e2, e3⟩
  have hmis' : hasMissing s'.data = true := (HeightParams.mem_none_iff_hasMissing _).2 (hst.2 hmis)
  have hfil : ∀ mode c c2, run E (.filter mode c c2) s' true = .error .valueError := by
    intro mode c c2
    simp [run, Filter.filter, noNonmeasured, hmis']
  obtain ⟨a, ha⟩ := List.length_eq_one_iff.1 hone
  have hfa : isFilter a = true := by
    have : a ∈ args.filter isFilter := by rw [ha]; simp
    exact (List.mem_filter.1 this).2
  rw [ha]
  show applyAll E (ops a ++ []) s' = _
  cases a <;> simp [isFilter] at hfa <;> simp [ops, applyAll, hfil]

end Missing

/-! ## Non-vacuity -/

/-- Numerical routines satisfying the assumptions: the real standard deviation, nearest-neighbour filling, a constant
trend. -/
noncomputable def cliExt (pick : FillRotate.Pick (Nat × Nat) ℝ) : Ext ℝ Unit where
  std := BaseOps.std
  gauss := fun _ _ g => g
  sigma := id
  griddata := fun _ g => .ok (FillRotate.griddataNearest pick g)
  trend := fun _ g => .ok (Grid.ofFn g.ny g.nx fun _ _ => some 0)
  rotated := fun _ _ => .error .valueError
  orientation := fun _ _ => .ok 0
  stepPlane := fun _ => .error .valueError
  stepMask := fun _ => ()

/-- The assumptions on the numerical routines can be met. -/
theorem C55_sound_exists : ∃ E : Ext ℝ Unit, Sound E := by
  obtain ⟨pick, hp⟩ := C29_pick_exists (K := ℝ) Spec.dist2 ((0, 0), 0)
  refine ⟨cliExt pick, ?_, ?_, ?_⟩
  · intro g t ht
    simp only [cliExt, Except.ok.injEq] at ht
    subst ht
    refine ⟨ofFn_wf _ _ _, ofFn_ny _ _ _, rfl, ?_⟩
    intro i hi j hj
    rw [get_ofFn _ hi hj]; simp
  · intro g hg hm
    obtain ⟨h1, h2, h3, h4⟩ := C29_heights hp g hg hm
    refine ⟨_, rfl, h1, h2, h3, ?_⟩
    intro i hi j hj
    obtain ⟨i', j', _, _, hne, e, _⟩ := (h4 i hi j hj).2
    rw [e]; exact hne
  · intro l
    refine ⟨Real.sqrt_nonneg _, ?_⟩
    apply Real.mul_self_sqrt
    unfold variance mean
    apply div_nonneg
    · apply List.sum_nonneg
      intro x hx
      obtain ⟨z, _, rfl⟩ := List.mem_map.1 hx
      exact sq_nonneg _
    · exact Nat.cast_nonneg _

/-- A command line with four options in an unusual order; its options are distinct and accepted, and it asks for outlier
removal. -/
example : (([Arg.lowpass 5, .removeOutliers 3, .level, .fillNonmeasured] : List (Arg ℚ)).map kind).Nodup ∧
    (([Arg.lowpass 5, .removeOutliers 3, .level, .fillNonmeasured] : List (Arg ℚ)).filter isFilter).length = 1 ∧
    plan ([Arg.lowpass 5, .removeOutliers 3, .level, .fillNonmeasured] : List (Arg ℚ))
      = [.fillNonmeasured "nearest", .level false, .removeOutliersMean 3, .fillNonmeasured "nearest",
         .filter "lowpass" 5 none] := by
  refine ⟨by decide, by decide, ?_⟩
  simp [plan, order, kind, ops]

/-- An exclusive combination. -/
example : (([Arg.zero, .highpass 2, .center] : List (Arg ℚ)).map kind).Nodup ∧
    (∃ a ∈ ([Arg.zero, .highpass 2, .center] : List (Arg ℚ)), kind a = "--zero") ∧
    (∃ a ∈ ([Arg.zero, .highpass 2, .center] : List (Arg ℚ)), kind a = "--center") :=
  ⟨by decide, ⟨.zero, by simp, rfl⟩, ⟨.center, by simp, rfl⟩⟩

end Surfalize.Props
