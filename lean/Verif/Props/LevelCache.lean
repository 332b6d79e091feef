import Verif.Model.LevelCache
import Verif.Props.Stepheight
/-!
# C93 — Every call of `stepheight_level` levels the present heights
-/
namespace Surfalize.Props
open Surfalize Container Stepheight LevelCache Spec

set_option linter.unusedSectionVars false

section
variable {H M κ : Type} [DecidableEq κ]

/-- An action that neither changes the heights of surface `i`, nor levels it with the call spelled `k`. -/
def Quiet (E : Env H M κ) (i : Nat) (k : κ) : Act H κ → Prop
  | .create _ => True
  | .edit j _ => j ≠ i
  | .read _ => True
  | .level j k' => j = i → E.inplace k' = false ∧ k' ≠ k

private def Ready (E : Env H M κ) (os : List (Obj H M κ)) (i : Nat) (k : κ) (d : H) : Prop :=
  ∃ o, os[i]? = some o ∧ o.data = d ∧ (o.mask = none ∨ o.mask = some (E.mask d)) ∧ o.calls.lookup k = none

private theorem ready_mask {E : Env H M κ} {o : Obj H M κ} {d : H} (h : o.data = d)
    (hm : o.mask = none ∨ o.mask = some (E.mask d)) : o.getMask E = E.mask d := by
  unfold Obj.getMask
  rcases hm with hm | hm <;> rw [hm] <;> simp [h]

private theorem ready_set {E : Env H M κ} {os : List (Obj H M κ)} {i j : Nat} {k : κ} {d : H} {o' : Obj H M κ}
    (h : Ready E os i k d) (hj : j ≠ i) (l : List (Obj H M κ)) : Ready E (os.set j o' ++ l) i k d := by
  obtain ⟨o, h1, h2⟩ := h
  have hlt := (List.getElem?_eq_some_iff.1 h1).1
  refine ⟨o, ?_, h2⟩
  rw [List.getElem?_append_left (by simpa using hlt), List.getElem?_set_ne hj, h1]

private theorem ready_self {E : Env H M κ} {os : List (Obj H M κ)} {i : Nat} {k : κ} {d : H} {o' : Obj H M κ}
    (hi : i < os.length) (h2 : o'.data = d) (h3 : o'.mask = none ∨ o'.mask = some (E.mask d))
    (h4 : o'.calls.lookup k = none) (l : List (Obj H M κ)) : Ready E (os.set i o' ++ l) i k d := by
  refine ⟨o', ?_, h2, h3, h4⟩
  rw [List.getElem?_append_left (by simpa using hi), List.getElem?_set_self hi]

private theorem ready_act {E : Env H M κ} {os : List (Obj H M κ)} {i : Nat} {k : κ} {d : H} (h : Ready E os i k d)
    (a : Act H κ) (ha : Quiet E i k a) : Ready E (act E os a).1 i k d := by
  have hi : i < os.length := by
    obtain ⟨o, h1, -⟩ := h
    exact (List.getElem?_eq_some_iff.1 h1).1
  cases a with
  | create d' =>
    obtain ⟨o, h1, h2⟩ := h
    refine ⟨o, ?_, h2⟩
    show (os ++ _)[i]? = _
    rw [List.getElem?_append_left hi, h1]
  | edit j f =>
    unfold act
    dsimp only
    cases hj : os[j]? with
    | none => exact h
    | some o' => simpa using ready_set (o' := ⟨f o'.data, none, []⟩) h (show j ≠ i from ha) []
  | read j =>
    unfold act
    dsimp only
    cases hj : os[j]? with
    | none => exact h
    | some o' =>
      by_cases hji : j = i
      · subst hji
        obtain ⟨o, h1, h2, h3, h4⟩ := h
        rw [hj] at h1
        obtain rfl := Option.some.inj h1
        have := ready_self (E := E) (k := k) (o' := { o' with mask := some (o'.getMask E) }) hi h2
          (.inr (by rw [ready_mask h2 h3])) h4 []
        simpa using this
      · simpa using ready_set (o' := { o' with mask := some (o'.getMask E) }) h hji []
  | level j k' =>
    unfold act
    dsimp only
    cases hj : os[j]? with
    | none => exact h
    | some o' =>
      dsimp only
      unfold levelCall
      cases hl : o'.calls.lookup k' with
      | some r => exact h
      | none =>
        dsimp only
        by_cases hji : j = i
        · subst hji
          obtain ⟨q1, q2⟩ := ha rfl
          obtain ⟨o, h1, h2, h3, h4⟩ := h
          rw [hj] at h1
          obtain rfl := Option.some.inj h1
          rw [if_neg (by simp [q1])]
          refine ready_self (E := E) (o' := ⟨o'.data, some (o'.getMask E), (k', os.length) :: o'.calls⟩) hi h2
            (.inr (by rw [ready_mask h2 h3])) ?_ _
          dsimp only
          rw [List.lookup_cons]
          have : (k == k') = false := by simpa using fun e => q2 e.symm
          rw [this]
          exact h4
        · by_cases hp : E.inplace k' = true
          · rw [if_pos hp]
            simpa using ready_set (o' := ⟨E.level (o'.getMask E) o'.data, none, [(k', j)]⟩) h hji []
          · rw [if_neg hp]
            exact ready_set h hji _

private theorem ready_run {E : Env H M κ} {i : Nat} {k : κ} {d : H} : ∀ (as : List (Act H κ)) (os : List (Obj H M κ)),
    Ready E os i k d → (∀ a ∈ as, Quiet E i k a) → Ready E (run E os as) i k d
  | [], _, h, _ => h
  | a :: as, os, h, ha => ready_run as _ (ready_act h a (ha a (by simp))) (fun b hb => ha b (by simp [hb]))

/-- **C93**: after any program, once the heights of surface `i` have been given (by its creation or an assignment) and no
in-place levelling of it and no levelling spelled in the same way has happened since, the surface `stepheight_level`
returns has exactly the present heights levelled with their own mask. Missing: the other calls
(`C93_second_inplace_violated`, `C93_edited_copy_violated`, `C93_copy_of_copy`). -/
theorem C93_fresh_partial (E : Env H M κ) (before mid : List (Act H κ)) (s : Act H κ) (i : Nat) (k : κ)
    (hs : (∃ d, s = .create d) ∨ ∃ f, s = .edit i f) (hr : (act E (run E [] before) s).2 = i)
    (hi : i < (run E [] (before ++ [s])).length)
    (hmid : ∀ a ∈ mid, Quiet E i k a) :
    ∃ d, heights (run E [] (before ++ [s])) i = some d ∧ heights (run E [] (before ++ s :: mid)) i = some d ∧
      heights (act E (run E [] (before ++ s :: mid)) (.level i k)).1
        (act E (run E [] (before ++ s :: mid)) (.level i k)).2 = some (E.level (E.mask d) d) := by
  have hstart : ∃ d, Ready E (run E [] (before ++ [s])) i k d := by
    unfold run at hi ⊢
    rw [List.foldl_append] at hi ⊢
    change i < (act E (run E [] before) s).1.length at hi
    change ∃ d, Ready E (act E (run E [] before) s).1 i k d
    generalize run E [] before = os at hr hi ⊢
    rcases hs with ⟨d, rfl⟩ | ⟨f, rfl⟩
    · obtain rfl : os.length = i := hr
      exact ⟨d, ⟨d, none, []⟩, by simp [act], rfl, .inl rfl, rfl⟩
    · unfold act at hi ⊢
      dsimp only at hi ⊢
      cases ho : os[i]? with
      | none =>
        rw [ho] at hi
        rw [List.getElem?_eq_none_iff] at ho
        exact absurd hi (by simpa using ho)
      | some o =>
        refine ⟨f o.data, ?_⟩
        have := ready_self (E := E) (k := k) (d := f o.data) (o' := ⟨f o.data, none, []⟩)
          (List.getElem?_eq_some_iff.1 ho).1 rfl (.inl rfl) rfl []
        simpa using this
  obtain ⟨d, h0⟩ := hstart
  have e : run E [] (before ++ s :: mid) = run E (run E [] (before ++ [s])) mid := by
    unfold run
    rw [← List.foldl_append]; simp
  have h1 := ready_run mid _ h0 hmid
  rw [← e] at h1
  refine ⟨d, ?_, ?_, ?_⟩
  · obtain ⟨o, g1, g2, -⟩ := h0
    unfold heights; rw [g1, Option.map_some, g2]
  · obtain ⟨o, g1, g2, -⟩ := h1
    unfold heights; rw [g1, Option.map_some, g2]
  · generalize run E [] (before ++ s :: mid) = os at h1
    obtain ⟨o, g1, g2, g3, g4⟩ := h1
    have hlt := (List.getElem?_eq_some_iff.1 g1).1
    unfold act
    dsimp only
    rw [g1]
    dsimp only
    unfold levelCall
    rw [g4]
    dsimp only
    rw [ready_mask g2 g3, g2]
    by_cases hp : E.inplace k = true
    · rw [if_pos hp]
      unfold heights
      rw [List.getElem?_set_self hlt]
      rfl
    · rw [if_neg hp]
      unfold heights
      dsimp only
      rw [List.getElem?_append_right (by simp)]
      simp

/-- A levelling changes the heights of no surface but, in place, of its own. -/
theorem C93_others (E : Env H M κ) (os : List (Obj H M κ)) (i : Nat) (k : κ) (j : Nat) (hj : j < os.length)
    (h : E.inplace k = false ∨ j ≠ i) : heights (act E os (.level i k)).1 j = heights os j := by
  unfold act
  dsimp only
  cases ho : os[i]? with
  | none => rfl
  | some o =>
    dsimp only
    unfold levelCall
    cases o.calls.lookup k with
    | some r => rfl
    | none =>
      dsimp only
      unfold heights
      by_cases hp : E.inplace k = true
      · rw [if_pos hp]
        dsimp only
        rw [List.getElem?_set_ne]
        rcases h with h | h
        · rw [hp] at h; cases h
        · exact fun e => h e.symm
      · rw [if_neg hp]
        dsimp only
        rw [List.getElem?_append_left (by simpa using hj)]
        by_cases hji : j = i
        · subst hji
          rw [List.getElem?_set_self hj, ho]
          rfl
        · rw [List.getElem?_set_ne (fun e => hji e.symm)]

/-- A second in-place call, with nothing in between, does nothing. -/
theorem C93_second_inplace_noop (E : Env H M κ) (os : List (Obj H M κ)) (i : Nat) (hi : i < os.length) (k : κ)
    (hp : E.inplace k = true) (hnew : ∀ o, os[i]? = some o → o.calls.lookup k = none) :
    act E (act E os (.level i k)).1 (.level i k) = ((act E os (.level i k)).1, i) := by
  obtain ⟨o, ho⟩ : ∃ o, os[i]? = some o := ⟨os[i], List.getElem?_eq_getElem hi⟩
  have e : act E os (.level i k) = (os.set i ⟨E.level (o.getMask E) o.data, none, [(k, i)]⟩, i) := by
    unfold act
    dsimp only
    rw [ho]
    dsimp only
    unfold levelCall
    rw [hnew o ho]
    dsimp only
    rw [if_pos hp]
  rw [e]
  unfold act
  dsimp only
  rw [List.getElem?_set_self hi]
  dsimp only
  unfold levelCall
  simp

/-- The copy is the same surface the next time: what is done to it in place (here: any `f`) is in the result of the second
call, although the original has not changed. -/
theorem C93_edited_copy_violated (E : Env H M κ) (d : H) (f : H → H) (k : κ) (hp : E.inplace k = false) :
    let os := run E [] [.create d, .level 0 k, .edit 1 f]
    heights os 0 = some d ∧ (act E os (.level 0 k)).2 = 1 ∧
      heights (act E os (.level 0 k)).1 1 = some (f (E.level (E.mask d) d)) := by
  have e : run E [] [.create d, .level 0 k, .edit 1 f] =
      [⟨d, some (E.mask d), [(k, 1)]⟩, ⟨f (E.level (E.mask d) d), none, []⟩] := by
    simp [run, act, levelCall, hp, Obj.getMask]
  dsimp only
  rw [e]
  refine ⟨rfl, ?_, ?_⟩ <;> simp [act, levelCall, heights]

/-- Levelling the levelled copy uses the mask of the original once more. -/
theorem C93_copy_of_copy (E : Env H M κ) (d : H) (k k' : κ) (hp : E.inplace k = false) :
    let os := run E [] [.create d, .level 0 k]
    heights os 1 = some (E.level (E.mask d) d) ∧
    heights (act E os (.level 1 k')).1 (act E os (.level 1 k')).2 =
      some (E.level (E.mask d) (E.level (E.mask d) d)) := by
  have e : run E [] [.create d, .level 0 k] =
      [⟨d, some (E.mask d), [(k, 1)]⟩, ⟨E.level (E.mask d) d, some (E.mask d), []⟩] := by
    simp [run, act, levelCall, hp, Obj.getMask]
  dsimp only
  rw [e]
  refine ⟨rfl, ?_⟩
  by_cases h : E.inplace k' = true <;> simp [act, levelCall, heights, h, Obj.getMask]

end

section
variable {K : Type} [Field K] [LinearOrder K] [IsStrictOrderedRing K] [FloorRing K]

/-- The functions of the package: levelling the heights with their own mask is the levelling of C73. -/
theorem C93_package (lstsq : Detrend.Lstsq K) (g : Grid (Option K)) :
    (package lstsq).level ((package lstsq).mask g) g = levelData lstsq g := by
  show levelWith lstsq (maskOf g) g = _
  have hv : ((Detrend.validPixels g).filter fun p => maskOf g p.1.1 p.1.2) =
      (Detrend.validPixels g).filter fun p => maskFn defaultBins (flat g) (some p.2) := by
    apply List.filter_congr
    rintro ⟨⟨i, j⟩, z⟩ hp
    unfold Detrend.validPixels at hp
    obtain ⟨q, -, hq⟩ := List.mem_filterMap.1 hp
    cases hg : g.get q.1 q.2 with
    | none => rw [hg] at hq; cases hq
    | some w =>
      rw [hg] at hq
      obtain ⟨rfl, rfl⟩ := Prod.mk.inj (Option.some.inj hq)
      unfold maskOf
      dsimp only
      rw [hg]
  unfold levelWith levelData levelPlane
  rw [hv]

end

private theorem witness_levelled {lstsq : Detrend.Lstsq ℚ} (hl : IsLstsq lstsq) :
    levelData lstsq foreignMaskWitness = { rows := [[some 6, some 2, some 8, some 8]], nx := 4 } := by
  have h := (C68_foreign_mask hl).1
  unfold levelData at h ⊢
  have n1 : foreignMaskWitness.ny = 1 := rfl
  have n2 : foreignMaskWitness.nx = 4 := rfl
  generalize levelPlane lstsq foreignMaskWitness (maskFn defaultBins (flat foreignMaskWitness)) = p at h
  have e : (Grid.ofFn foreignMaskWitness.ny foreignMaskWitness.nx fun i j => (foreignMaskWitness.get i j).map fun z => z - p i j)
      = { rows := [[some (0 - p 0 0), some (0 - p 0 1), some (10 - p 0 2), some (14 - p 0 3)]], nx := 4 } := rfl
  rw [e] at h ⊢
  have : flat ({ rows := [[some (0 - p 0 0), some (0 - p 0 1), some (10 - p 0 2), some (14 - p 0 3)]], nx := 4 } : Grid (Option ℚ))
      = [some (0 - p 0 0), some (0 - p 0 1), some (10 - p 0 2), some (14 - p 0 3)] := rfl
  rw [this] at h
  rw [h]

/-- The heights `6 2 8 8` are not level: levelling changes them. -/
private theorem witness_not_level {lstsq : Detrend.Lstsq ℚ} (hl : IsLstsq lstsq) :
    levelData lstsq { rows := [[some 6, some 2, some 8, some 8]], nx := 4 } ≠
      { rows := [[some 6, some 2, some 8, some 8]], nx := 4 } := by
  intro hc
  set g : Grid (Option ℚ) := { rows := [[some 6, some 2, some 8, some 8]], nx := 4 } with hg
  have hm0 : measured (flat g) = [6, 2, 8, 8] := rfl
  have q1 : otsu defaultBins [(6 : ℚ), 2, 8, 8] < 6 := by rw [otsu_witness_levelled]; norm_num
  have q2 : 2 ≤ otsu defaultBins [(6 : ℚ), 2, 8, 8] := by rw [otsu_witness_levelled]; norm_num
  have hmask : ∀ z : ℚ, maskFn defaultBins (flat g) (some z)
      = decide (otsu defaultBins [(6 : ℚ), 2, 8, 8] < z) := by
    intro z; rw [maskFn_eq, hm0, above]
  obtain ⟨mk, hmk, c1, c2, c3⟩ : ∃ mk : Option ℚ → Bool, maskFn defaultBins (flat g) = mk ∧ mk (some 6) = true ∧
      mk (some 2) = false ∧ mk (some 8) = true := by
    refine ⟨_, rfl, ?_, ?_, ?_⟩
    · rw [hmask]; simpa using q1
    · rw [hmask]; simpa using q2
    · rw [hmask, decide_eq_true_eq]; linarith
  clear hmask hm0 q1 q2
  have hv : (Detrend.validPixels g).filter (fun p => mk (some p.2)) = [((0, 0), 6), ((0, 2), 8), ((0, 3), 8)] := by
    have e : Detrend.validPixels g = [((0, 0), 6), ((0, 1), 2), ((0, 2), 8), ((0, 3), 8)] := by
      rw [hg]; decide +kernel
    rw [e]
    simp only [List.filter, c1, c2, c3]
  obtain ⟨hlen, hmin⟩ := hl 3 [[0, 0, 1], [2, 0, 1], [3, 0, 1]] [6, 8, 8] rfl (by simp)
  set cs := lstsq 3 [[0, 0, 1], [2, 0, 1], [3, 0, 1]] [6, 8, 8] with hcs
  obtain ⟨a, b, c, habc⟩ := List.length_eq_three.1 hlen
  have h0 := hmin [5 / 7, 0, 43 / 7] rfl
  rw [habc] at h0
  norm_num at h0
  unfold levelData at hc
  have hp : ∃ m : ℚ, levelPlane lstsq g mk = fun i j : Nat => (a * (j : ℚ) + b * (i : ℚ) + c) - m := by
    unfold levelPlane
    simp only [hv, List.map_cons, List.map_nil, Nat.cast_ofNat, Nat.cast_zero]
    rw [← hcs, habc]
    simp only [List.getD_cons_zero, List.getD_cons_succ]
    exact ⟨_, rfl⟩
  obtain ⟨m, hp⟩ := hp
  simp only [hmk, hp] at hc
  have e : (Grid.ofFn g.ny g.nx fun i j => (g.get i j).map fun z => z - ((a * (j : ℚ) + b * (i : ℚ) + c) - m)) =
      { rows := [[some (6 - ((a * ((0 : Nat) : ℚ) + b * ((0 : Nat) : ℚ) + c) - m)),
        some (2 - ((a * ((1 : Nat) : ℚ) + b * ((0 : Nat) : ℚ) + c) - m)),
        some (8 - ((a * ((2 : Nat) : ℚ) + b * ((0 : Nat) : ℚ) + c) - m)),
        some (8 - ((a * ((3 : Nat) : ℚ) + b * ((0 : Nat) : ℚ) + c) - m))]], nx := 4 } := rfl
  rw [e] at hc
  have hr := congrArg Grid.rows hc
  simp only [hg, List.cons.injEq, Option.some.injEq, and_true] at hr
  obtain ⟨r0, r1, -, -⟩ := hr
  push_cast at r0 r1
  have ha : a = 0 := by linarith
  subst ha
  nlinarith [sq_nonneg (c - 22 / 3)]

/-- **C93 is violated** by the second of two in-place levellings: whatever least squares solver is used, the heights
`0 0 10 14` are `6 2 8 8` after the first and after the second call, although levelling these heights changes them: a copy
levelled at that moment has other heights. -/
theorem C93_second_inplace_violated {lstsq : Detrend.Lstsq ℚ} (hl : IsLstsq lstsq) :
    ∃ g1 : Grid (Option ℚ), flat g1 = [some 6, some 2, some 8, some 8] ∧
      let os := run (package lstsq) [] [.create foreignMaskWitness, .level 0 .kwTrue]
      heights os 0 = some g1 ∧
      heights (act (package lstsq) os (.level 0 .kwTrue)).1 0 = some g1 ∧
      levelData lstsq g1 ≠ g1 ∧
      heights (act (package lstsq) os (.level 0 .nothing)).1 (act (package lstsq) os (.level 0 .nothing)).2 =
        some (levelData lstsq g1) := by
  have hl1 := witness_levelled hl
  have hne := witness_not_level hl
  generalize hgg : ({ rows := [[some 6, some 2, some 8, some 8]], nx := 4 } : Grid (Option ℚ)) = g1 at hl1 hne
  refine ⟨g1, by rw [← hgg]; rfl, ?_⟩
  have e : run (package lstsq) [] [.create foreignMaskWitness, .level 0 .kwTrue] = [⟨g1, none, [(.kwTrue, 0)]⟩] := by
    rw [← hl1, ← C93_package]
    rfl
  dsimp only
  rw [e]
  refine ⟨rfl, rfl, hne, ?_⟩
  rw [← C93_package]
  rfl

/-- **C93 is violated** by levelling the copy: it stays `6 2 8 8`, in place or not, because the mask of the original is
used again. -/
theorem C93_copy_violated {lstsq : Detrend.Lstsq ℚ} (hl : IsLstsq lstsq) (k : Spelling) :
    ∃ g1 : Grid (Option ℚ), flat g1 = [some 6, some 2, some 8, some 8] ∧
      let os := run (package lstsq) [] [.create foreignMaskWitness, .level 0 .nothing]
      heights os 1 = some g1 ∧
      heights (act (package lstsq) os (.level 1 k)).1 (act (package lstsq) os (.level 1 k)).2 = some g1 ∧
      levelData lstsq g1 ≠ g1 := by
  have hl1 := witness_levelled hl
  have hne := witness_not_level hl
  have h := C93_copy_of_copy (package lstsq) foreignMaskWitness .nothing k rfl
  rw [C93_package, hl1] at h
  refine ⟨_, rfl, h.1, ?_, hne⟩
  rw [h.2]
  congr 1
  show levelWith lstsq (maskOf foreignMaskWitness) _ = _
  set g : Grid (Option ℚ) := { rows := [[some 6, some 2, some 8, some 8]], nx := 4 } with hg
  have o1 : otsu defaultBins [(0 : ℚ), 0, 10, 14] < 10 := by rw [otsu_witness_orig]; norm_num
  have o2 : 0 ≤ otsu defaultBins [(0 : ℚ), 0, 10, 14] := by rw [otsu_witness_orig]; norm_num
  have hmask : ∀ z : ℚ, maskFn defaultBins (flat foreignMaskWitness) (some z)
      = decide (otsu defaultBins [(0 : ℚ), 0, 10, 14] < z) := by
    intro z; rw [maskFn_eq]; rfl
  obtain ⟨mk, hmk, c0, c1, c2, c3⟩ : ∃ mk : Nat → Nat → Bool, maskOf foreignMaskWitness = mk ∧ mk 0 0 = false ∧
      mk 0 1 = false ∧ mk 0 2 = true ∧ mk 0 3 = true := by
    refine ⟨_, rfl, ?_, ?_, ?_, ?_⟩
    · show maskFn defaultBins (flat foreignMaskWitness) (some 0) = _
      rw [hmask]; simpa using o2
    · show maskFn defaultBins (flat foreignMaskWitness) (some 0) = _
      rw [hmask]; simpa using o2
    · show maskFn defaultBins (flat foreignMaskWitness) (some 10) = _
      rw [hmask]; simpa using o1
    · show maskFn defaultBins (flat foreignMaskWitness) (some 14) = _
      rw [hmask, decide_eq_true_eq]; linarith
  rw [hmk]
  clear hmask o1 o2 h
  have hv : (Detrend.validPixels g).filter (fun p => mk p.1.1 p.1.2) = [((0, 2), 8), ((0, 3), 8)] := by
    have e : Detrend.validPixels g = [((0, 0), 6), ((0, 1), 2), ((0, 2), 8), ((0, 3), 8)] := by
      rw [hg]; decide +kernel
    rw [e]
    simp only [List.filter, c0, c1, c2, c3]
  obtain ⟨hlen, hmin⟩ := hl 3 [[2, 0, 1], [3, 0, 1]] [8, 8] rfl (by simp)
  set cs := lstsq 3 [[2, 0, 1], [3, 0, 1]] [8, 8] with hcs
  obtain ⟨a, b, c, habc⟩ := List.length_eq_three.1 hlen
  have h0 := hmin [0, 0, 8] rfl
  rw [habc] at h0
  norm_num at h0
  have e1 : 8 - (2 * a + c) = 0 := by nlinarith [sq_nonneg (8 - (2 * a + c)), sq_nonneg (8 - (3 * a + c))]
  have e2 : 8 - (3 * a + c) = 0 := by nlinarith [sq_nonneg (8 - (2 * a + c)), sq_nonneg (8 - (3 * a + c))]
  have ea : a = 0 := by linarith
  have ec : c = 8 := by linarith
  unfold levelWith
  simp only [hv, List.map_cons, List.map_nil, Nat.cast_ofNat, Nat.cast_zero]
  rw [← hcs, habc, ea, ec]
  simp only [List.getD_cons_zero, List.getD_cons_succ]
  have e : pixels g.ny g.nx = [(0, 0), (0, 1), (0, 2), (0, 3)] := by rw [hg]; decide
  rw [e]
  have em : mean (([(0, 0), (0, 1), (0, 2), (0, 3)] : List (Nat × Nat)).map fun p : Nat × Nat => 0 * (p.2 : ℚ) + b * (p.1 : ℚ) + 8) = 8 := by
    norm_num [mean]
  rw [em]
  have e3 : (Grid.ofFn g.ny g.nx fun i j => (g.get i j).map fun z => z - ((0 * (j : ℚ) + b * (i : ℚ) + 8) - 8)) =
      { rows := [[some (6 - ((0 * ((0 : Nat) : ℚ) + b * ((0 : Nat) : ℚ) + 8) - 8)),
        some (2 - ((0 * ((1 : Nat) : ℚ) + b * ((0 : Nat) : ℚ) + 8) - 8)),
        some (8 - ((0 * ((2 : Nat) : ℚ) + b * ((0 : Nat) : ℚ) + 8) - 8)),
        some (8 - ((0 * ((3 : Nat) : ℚ) + b * ((0 : Nat) : ℚ) + 8) - 8))]], nx := 4 } := rfl
  rw [e3, hg]
  norm_num

/-- A program that meets the conditions of `C93_fresh_partial`: the surface is changed between two levellings, and its
step height and another surface are used. -/
example {lstsq : Detrend.Lstsq ℚ} (g : Grid (Option ℚ)) (f : Grid (Option ℚ) → Grid (Option ℚ)) :
    ∃ d, heights (run (package lstsq) [] ([.create g, .level 0 .kwTrue] ++ [.edit 0 f])) 0 = some d ∧
      heights (act (package lstsq) (run (package lstsq) [] ([.create g, .level 0 .kwTrue] ++ .edit 0 f :: [.create g, .read 0, .level 0 .nothing, .level 1 .kwTrue]))
        (.level 0 .kwTrue)).1
        (act (package lstsq) (run (package lstsq) [] ([.create g, .level 0 .kwTrue] ++ .edit 0 f :: [.create g, .read 0, .level 0 .nothing, .level 1 .kwTrue]))
        (.level 0 .kwTrue)).2 = some (levelData lstsq d) := by
  obtain ⟨d, h1, -, h3⟩ := C93_fresh_partial (package lstsq) [.create g, .level 0 .kwTrue]
    [.create g, .read 0, .level 0 .nothing, .level 1 .kwTrue] (.edit 0 f) 0 .kwTrue (.inr ⟨f, rfl⟩) rfl
    (by simp [run, act, levelCall, package, Spelling.inplace]) (by
      intro a ha
      simp only [List.mem_cons, List.not_mem_nil, or_false] at ha
      rcases ha with rfl | rfl | rfl | rfl
      · trivial
      · trivial
      · exact fun _ => ⟨rfl, by decide⟩
      · exact fun h => absurd h (by decide))
  rw [C93_package] at h3
  exact ⟨d, h1, h3⟩

end Surfalize.Props
