import Verif.Spec.Object
import Verif.Lemmas.GridFn
import Verif.Lemmas.HeightParams
import Mathlib.Data.Rat.Floor

/-!
# C03, C04, C20, C21 — objects: in-place operation, extents, arithmetic, equality
-/
set_option linter.unusedSectionVars false
namespace Surfalize.Props
open Surfalize Container ZipContainer BaseOps Object Spec

variable {K V : Type} [Field K] [LinearOrder K] [FloorRing K]

/-- the in-place and the copying branch of every method agree -/
def C03Agree (E : Ext K V) (op : SOp K) (s : Surf K V) : Prop :=
  (∃ e, run E op s true = .error e ∧ run E op s false = .error e) ∨
  (∃ s' r r', run E op s true = .ok (s', r) ∧ run E op s false = .ok (s, r') ∧
    (r = .self ∨ ∃ t, r = .selfPair t) ∧
    SameSurface (processed s' r) (processed s r') ∧
    (∀ t, trendOf r = some t ↔ trendOf r' = some t))

private theorem finish_agree (s : Surf K V) (d : Grid (Option K)) :
    ∃ s' r r', finish s d true = (s', r) ∧ finish s d false = (s, r') ∧ (r = .self ∨ ∃ t, r = .selfPair t) ∧
      SameSurface (processed s' r) (processed s r') ∧ (∀ t, trendOf r = some t ↔ trendOf r' = some t) := by
  refine ⟨_, _, _, rfl, rfl, Or.inl rfl, ⟨rfl, rfl, rfl, rfl, rfl⟩, ?_⟩
  intro t; simp [trendOf]

private theorem finishSurface_agree (s : Surf K V) (d : Grid (Option K)) :
    ∃ s' r r', finishSurface s d true = (s', r) ∧ finishSurface s d false = (s, r') ∧ (r = .self ∨ ∃ t, r = .selfPair t) ∧
      SameSurface (processed s' r) (processed s r') ∧ (∀ t, trendOf r = some t ↔ trendOf r' = some t) := by
  refine ⟨_, _, _, rfl, rfl, Or.inl rfl, ⟨rfl, rfl, rfl, rfl, rfl⟩, ?_⟩
  intro t; simp [trendOf]

private theorem agree_of_map (E : Ext K V) (op : SOp K) (s : Surf K V) (x : Except Err (Grid (Option K)))
    (F : Surf K V → Grid (Option K) → Bool → Surf K V × Ret K V)
    (hF : ∀ d, ∃ s' r r', F s d true = (s', r) ∧ F s d false = (s, r') ∧ (r = .self ∨ ∃ t, r = .selfPair t) ∧
      SameSurface (processed s' r) (processed s r') ∧ (∀ t, trendOf r = some t ↔ trendOf r' = some t))
    (h : ∀ b, run E op s b = x.map fun d => F s d b) : C03Agree E op s := by
  cases hx : x with
  | error e => exact Or.inl ⟨e, by rw [h, hx]; rfl, by rw [h, hx]; rfl⟩
  | ok d =>
    obtain ⟨s', r, r', h1, h2, h3, h4, h5⟩ := hF d
    exact Or.inr ⟨s', r, r', by rw [h, hx]; exact congrArg _ h1, by rw [h, hx]; exact congrArg _ h2, h3, h4, h5⟩

private theorem detrend_agree (E : Ext K V) (n : Nat) (rt : Bool) (s : Surf K V) (op : SOp K)
    (h : ∀ b, run E op s b = detrend E n rt s b) : C03Agree E op s := by
  unfold C03Agree
  rw [h, h]
  unfold detrend
  cases ht : E.trend n s.data with
  | error e => exact Or.inl ⟨e, rfl, rfl⟩
  | ok t =>
    right
    cases rt
    · exact ⟨_, _, _, rfl, rfl, Or.inl rfl, ⟨rfl, rfl, rfl, rfl, rfl⟩, by intro t; simp [trendOf]⟩
    · exact ⟨_, _, _, rfl, rfl, Or.inr ⟨_, rfl⟩, ⟨rfl, rfl, rfl, rfl, rfl⟩, by intro t; simp [trendOf]⟩

private theorem rotate_agree (E : Ext K V) (a : K) (s : Surf K V) (op : SOp K)
    (h : ∀ b, run E op s b = rotate E a s b) : C03Agree E op s := by
  unfold C03Agree
  rw [h, h]
  unfold rotate
  by_cases hm : hasMissing s.data = true
  · simp only [if_pos hm]; exact Or.inl ⟨_, rfl, rfl⟩
  · simp only [if_neg hm]
    cases ht : E.rotated a s with
    | error e => exact Or.inl ⟨e, rfl, rfl⟩
    | ok t =>
      obtain ⟨d, sx, sy⟩ := t
      exact Or.inr ⟨_, _, _, rfl, rfl, Or.inl rfl, ⟨rfl, rfl, rfl, rfl, rfl⟩, by intro t; simp [trendOf]⟩

/-- **C03.** For every method with an `inplace` flag (other than `filter` in mode `'both'`, see
`C03_both_not_inplace`), all arguments, all surfaces and all numerical routines `E`: the in-place and the
copying call raise the same exception, or both succeed; the in-place call returns the receiver, the copying
call leaves the receiver — heights, steps, extents and cache — exactly as it was, and the processed surface
(and the trend, if requested) has the same heights, steps and extents either way. -/
theorem C03_inplace_eq_copy_partial (E : Ext K V) (op : SOp K) (s : Surf K V) (hop : ∀ c c2, op ≠ .filter "both" c c2) :
    C03Agree E op s := by
  cases op with
  | center => exact agree_of_map E _ s (.ok _) finish (finish_agree s) fun b => rfl
  | zero => exact agree_of_map E _ s _ finish (finish_agree s) fun b => rfl
  | invert => exact agree_of_map E _ s _ finish (finish_agree s) fun b => rfl
  | removeOutliersMean n => exact agree_of_map E _ s (.ok _) finish (finish_agree s) fun b => rfl
  | removeOutliersMedian n => exact agree_of_map E _ s (.ok _) finish (finish_agree s) fun b => rfl
  | removeOutliersOther => exact Or.inl ⟨_, rfl, rfl⟩
  | threshold u l => exact agree_of_map E _ s _ finish (finish_agree s) fun b => rfl
  | filter mode c c2 =>
    have hb : mode ≠ "both" := fun h => hop c c2 (by rw [h])
    have hres : Filter.filter (E.smooth s) mode c c2 true s.data = Filter.filter (E.smooth s) mode c c2 false s.data := by
      unfold Filter.filter; simp [hb]
    have hone : ∀ b h l, Filter.filter (E.smooth s) mode c c2 b s.data ≠ .ok (.two h l) := by
      intro b h l
      unfold Filter.filter noNonmeasured
      by_cases h0 : hasMissing s.data = true
      · simp [h0]
      · rw [if_neg h0]
        by_cases h1 : mode = "bandpass"
        · subst h1
          cases c2 with
          | none => simp
          | some x => by_cases hx : x ≤ c <;> simp [hx]
        · by_cases h2 : mode = "lowpass"
          · subst h2; simp
          · by_cases h3 : mode = "highpass"
            · subst h3; simp
            · simp [hb, h1, h2, h3]
    cases hf : Filter.filter (E.smooth s) mode c c2 true s.data with
    | error e =>
      exact Or.inl ⟨e, by simp only [run, hf], by simp only [run, ← hres, hf]⟩
    | ok r =>
      cases r with
      | two h l => exact absurd hf (hone _ _ _)
      | one d =>
        obtain ⟨s', r, r', h1, h2, h3, h4, h5⟩ := finish_agree s d
        exact Or.inr ⟨s', r, r', by simp only [run, hf, h1], by simp only [run, ← hres, hf, h2], h3, h4, h5⟩
  | fillNonmeasured m =>
    by_cases hm : hasMissing s.data = true
    · exact agree_of_map E _ s (E.griddata m s.data) finishSurface (finishSurface_agree s) fun b => by simp only [run, if_pos hm]
    · exact Or.inr ⟨s, .self, .self, by simp only [run, if_neg hm], by simp only [run, if_neg hm], Or.inl rfl,
        ⟨rfl, rfl, rfl, rfl, rfl⟩, fun t => Iff.rfl⟩
  | detrend n rt => exact detrend_agree E n rt s _ fun b => rfl
  | level rt => exact detrend_agree E 1 rt s _ fun b => rfl
  | rotate a => exact rotate_agree E a s _ fun b => rfl
  | zoom f => exact agree_of_map E _ s _ finishSurface (finishSurface_agree s) fun b => rfl
  | cropPx x0 x1 y0 y1 => exact agree_of_map E _ s _ finishSurface (finishSurface_agree s) fun b => rfl
  | cropUnits x0 x1 y0 y1 =>
    by_cases hz : s.stepX = 0 ∨ s.stepY = 0
    · exact Or.inl ⟨.zeroDivision, by simp only [run, if_pos hz], by simp only [run, if_pos hz]⟩
    · exact agree_of_map E _ s (Geometry.cropUnits s.data s.stepX s.stepY x0 x1 y0 y1) finishSurface (finishSurface_agree s)
        fun b => by simp only [run, if_neg hz]
  | align axis m =>
    by_cases hax : axis ≠ "x" ∧ axis ≠ "y"
    · exact Or.inl ⟨.valueError, by simp only [run, if_pos hax], by simp only [run, if_pos hax]⟩
    · cases ho : E.orientation m s with
      | error e => exact Or.inl ⟨e, by simp only [run, if_neg hax, ho], by simp only [run, if_neg hax, ho]⟩
      | ok a => exact rotate_agree E (-(if axis = "x" then a + 90 else a)) s _ fun b => by simp only [run, if_neg hax, ho]
  | stepheightLevel =>
    cases hp : E.stepPlane s with
    | error e => exact Or.inl ⟨e, by simp only [run, hp], by simp only [run, hp]⟩
    | ok p =>
      refine Or.inr ⟨s.overwrite (some (zipW osub s.data p)) none none, .self,
        .new { (Surf.init (zipW osub s.data p) s.stepX s.stepY : Surf K V) with
          cache := [("_stepheight_get_mask", E.stepMask s)] }, ?_, ?_, Or.inl rfl,
        ⟨rfl, rfl, rfl, rfl, rfl⟩, by intro t; simp [trendOf]⟩
      · simp only [run, hp]; rfl
      · simp only [run, hp]; rfl

/-- **C03** (the remaining mode). `filter('both', inplace=True)` always raises ValueError. -/
theorem C03_both_not_inplace (E : Ext K V) (c : K) (c2 : Option K) (s : Surf K V) :
    run E (.filter "both" c c2) s true = .error .valueError := by
  have : Filter.filter (E.smooth s) "both" c c2 true s.data = .error .valueError := by
    unfold Filter.filter noNonmeasured
    by_cases h : hasMissing s.data = true <;> simp [h]
  simp only [run, this]

/-! ## C04 -/

theorem init_extents (d : Grid (Option K)) (sx sy : K) : ExtentsMatch (Surf.init d sx sy : Surf K V) := ⟨rfl, rfl⟩

theorem overwrite_extents (s : Surf K V) (d : Option (Grid (Option K))) (sx sy : Option K) :
    ExtentsMatch (s.overwrite d sx sy) := ⟨rfl, rfl⟩

private theorem agree_extents (E : Ext K V) (op : SOp K) (s : Surf K V)
    (x : Except Err (Grid (Option K))) (F : Surf K V → Grid (Option K) → Bool → Surf K V × Ret K V)
    (hF : ∀ d b, ExtentsMatch (F s d b).1 ∧ ExtentsMatch (processed (F s d b).1 (F s d b).2))
    (b : Bool) (h : run E op s b = x.map fun d => F s d b) (s' : Surf K V) (r : Ret K V) (hr : run E op s b = .ok (s', r)) :
    ExtentsMatch s' ∧ ExtentsMatch (processed s' r) := by
  rw [h] at hr
  cases hx : x with
  | error e => rw [hx] at hr; cases hr
  | ok d =>
    rw [hx] at hr
    have : F s d b = (s', r) := Except.ok.inj hr
    have := hF d b
    rw [‹F s d b = (s', r)›] at this
    exact this

private theorem finish_extents (s : Surf K V) (hs : ExtentsMatch s) (d : Grid (Option K)) (b : Bool) :
    ExtentsMatch (finish s d b).1 ∧ ExtentsMatch (processed (finish s d b).1 (finish s d b).2) := by
  cases b
  · exact ⟨hs, init_extents _ _ _⟩
  · exact ⟨⟨rfl, rfl⟩, ⟨rfl, rfl⟩⟩

private theorem finishSurface_extents (s : Surf K V) (hs : ExtentsMatch s) (d : Grid (Option K)) (b : Bool) :
    ExtentsMatch (finishSurface s d b).1 ∧ ExtentsMatch (processed (finishSurface s d b).1 (finishSurface s d b).2) := by
  cases b
  · exact ⟨hs, init_extents _ _ _⟩
  · exact ⟨⟨rfl, rfl⟩, ⟨rfl, rfl⟩⟩

private theorem rotate_extents (E : Ext K V) (a : K) (s : Surf K V) (hs : ExtentsMatch s) (b : Bool) (s' : Surf K V)
    (r : Ret K V) (hr : rotate E a s b = .ok (s', r)) : ExtentsMatch s' ∧ ExtentsMatch (processed s' r) := by
  unfold rotate at hr
  by_cases hm : hasMissing s.data = true
  · rw [if_pos hm] at hr; cases hr
  · rw [if_neg hm] at hr
    cases ht : E.rotated a s with
    | error e => rw [ht] at hr; cases hr
    | ok t =>
      obtain ⟨d, sx, sy⟩ := t
      rw [ht] at hr
      cases b
      · cases hr; exact ⟨hs, init_extents _ _ _⟩
      · cases hr; exact ⟨⟨rfl, rfl⟩, ⟨rfl, rfl⟩⟩

private theorem detrend_extents (E : Ext K V) (n : Nat) (rt : Bool) (s : Surf K V) (hs : ExtentsMatch s) (b : Bool)
    (s' : Surf K V) (r : Ret K V) (hr : detrend E n rt s b = .ok (s', r)) :
    ExtentsMatch s' ∧ ExtentsMatch (processed s' r) := by
  unfold detrend at hr
  cases ht : E.trend n s.data with
  | error e => rw [ht] at hr; cases hr
  | ok t =>
    rw [ht] at hr
    cases b <;> cases rt <;> cases hr
    · exact ⟨hs, init_extents _ _ _⟩
    · exact ⟨hs, init_extents _ _ _⟩
    · exact ⟨⟨rfl, rfl⟩, ⟨rfl, rfl⟩⟩
    · exact ⟨⟨rfl, rfl⟩, ⟨rfl, rfl⟩⟩

/-- every method call keeps the extents right, for the receiver and for what it returns -/
theorem run_extents (E : Ext K V) (op : SOp K) (s : Surf K V) (hs : ExtentsMatch s) (b : Bool) (s' : Surf K V) (r : Ret K V)
    (hr : run E op s b = .ok (s', r)) : ExtentsMatch s' ∧ ExtentsMatch (processed s' r) := by
  cases op with
  | center => exact agree_extents E _ s (.ok _) finish (finish_extents s hs) b rfl s' r hr
  | zero => exact agree_extents E _ s _ finish (finish_extents s hs) b rfl s' r hr
  | invert => exact agree_extents E _ s _ finish (finish_extents s hs) b rfl s' r hr
  | removeOutliersMean n => exact agree_extents E _ s (.ok _) finish (finish_extents s hs) b rfl s' r hr
  | removeOutliersMedian n => exact agree_extents E _ s (.ok _) finish (finish_extents s hs) b rfl s' r hr
  | removeOutliersOther => cases hr
  | threshold u l => exact agree_extents E _ s _ finish (finish_extents s hs) b rfl s' r hr
  | filter mode c c2 =>
    simp only [run] at hr
    cases hf : Filter.filter (E.smooth s) mode c c2 b s.data with
    | error e => rw [hf] at hr; cases hr
    | ok x =>
      rw [hf] at hr
      cases x with
      | one d =>
        have : finish s d b = (s', r) := Except.ok.inj hr
        have h2 := finish_extents s hs d b
        rw [this] at h2
        exact h2
      | two h l => cases hr; exact ⟨hs, init_extents _ _ _⟩
  | fillNonmeasured m =>
    by_cases hm : hasMissing s.data = true
    · exact agree_extents E _ s (E.griddata m s.data) finishSurface (finishSurface_extents s hs) b
        (by simp only [run, if_pos hm]) s' r hr
    · simp only [run, if_neg hm] at hr
      cases hr
      exact ⟨hs, hs⟩
  | detrend n rt => exact detrend_extents E n rt s hs b s' r hr
  | level rt => exact detrend_extents E 1 rt s hs b s' r hr
  | rotate a => exact rotate_extents E a s hs b s' r hr
  | zoom f => exact agree_extents E _ s _ finishSurface (finishSurface_extents s hs) b rfl s' r hr
  | cropPx x0 x1 y0 y1 => exact agree_extents E _ s _ finishSurface (finishSurface_extents s hs) b rfl s' r hr
  | cropUnits x0 x1 y0 y1 =>
    by_cases hz : s.stepX = 0 ∨ s.stepY = 0
    · simp only [run, if_pos hz] at hr; cases hr
    · exact agree_extents E _ s (Geometry.cropUnits s.data s.stepX s.stepY x0 x1 y0 y1) finishSurface
        (finishSurface_extents s hs) b (by simp only [run, if_neg hz]) s' r hr
  | align axis m =>
    by_cases hax : axis ≠ "x" ∧ axis ≠ "y"
    · simp only [run, if_pos hax] at hr; cases hr
    · cases ho : E.orientation m s with
      | error e => simp only [run, if_neg hax, ho] at hr; cases hr
      | ok a =>
        simp only [run, if_neg hax, ho] at hr
        exact rotate_extents E _ s hs b s' r hr
  | stepheightLevel =>
    cases hp : E.stepPlane s with
    | error e => simp only [run, hp] at hr; cases hr
    | ok p =>
      simp only [run, hp] at hr
      cases b
      · cases hr; exact ⟨hs, init_extents _ _ _⟩
      · cases hr; exact ⟨⟨rfl, rfl⟩, ⟨rfl, rfl⟩⟩

/-- **C04.** After construction and any history of in-place operations, copies, data assignments, item
assignments that keep the shape, slices and arithmetic — everything except assigning `step_x`/`step_y`
directly — the extents equal (size − 1) times the step on both axes. -/
theorem C04_extents (E : Ext K V) (d : Grid (Option K)) (sx sy : K) (as : List (Action K))
    (has : ∀ a ∈ as, (∀ x y, a ≠ .steps x y) ∧ ∀ f, a = .setitem f → ∀ g, (f g).ny = g.ny) :
    ExtentsMatch (history E (Surf.init d sx sy : Surf K V) as) := by
  suffices h : ∀ (as : List (Action K)) (s : Surf K V),
      (∀ a ∈ as, (∀ x y, a ≠ .steps x y) ∧ ∀ f, a = .setitem f → ∀ g, (f g).ny = g.ny) → ExtentsMatch s →
      ExtentsMatch (history E s as) from h as _ has (init_extents d sx sy)
  intro as
  induction as with
  | nil => intro s _ hs; exact hs
  | cons a as ih =>
    intro s ha hs
    refine ih (act E s a) (fun b hb => ha b (by simp [hb])) ?_
    have ha' := ha a (by simp)
    cases a with
    | inplace op =>
      simp only [act]
      cases hr : run E op s true with
      | error e => exact hs
      | ok x => exact (run_extents E op s hs true x.1 x.2 hr).1
    | copy op =>
      simp only [act]
      cases hr : run E op s false with
      | error e => exact hs
      | ok x =>
        obtain ⟨s', r⟩ := x
        have h := run_extents E op s hs false s' r hr
        cases r with
        | self => exact h.1
        | new c => exact h.2
        | pair c t => exact h.2
        | selfPair t => exact h.1
    | assign d => exact ⟨rfl, rfl⟩
    | setitem f =>
      refine ⟨hs.1, ?_⟩
      have := ha'.2 f rfl s.data
      show s.heightUm = _
      rw [hs.2]
      have e : ({ rows := (f s.data).rows, nx := s.data.nx } : Grid (Option K)).ny = s.data.ny := this
      show _ = ((({ rows := (f s.data).rows, nx := s.data.nx } : Grid (Option K)).ny : K) - 1) * s.stepY
      rw [e]
    | getitem i =>
      simp only [act]
      cases hg : Geometry.getitem s.data s.stepY s.stepX i with
      | error e => exact hs
      | ok x => obtain ⟨d, sy, sx⟩ := x; exact init_extents _ _ _
    | arith f => exact init_extents _ _ _
    | steps x y => exact absurd rfl (ha'.1 x y)

/-- Assigning `step_x` directly is accepted and leaves stale extents (the history excluded in
`C04_extents`). -/
theorem C04_step_assignment_breaks (E : Ext ℚ V) :
    ¬ ExtentsMatch (history E (Surf.init { rows := [[some 0, some 1]], nx := 2 } 1 1 : Surf ℚ V) [.steps 2 1]) := by
  rintro ⟨h, -⟩
  have : ((2 : ℚ) - 1) * 1 = ((2 : ℚ) - 1) * 2 := h
  norm_num at this

/-- a history with in-place cropping, slicing and item assignment meeting the hypotheses of `C04_extents` -/
example : ∀ a ∈ ([.inplace (.cropPx 0 1 0 1), .copy (.zoom 2), .setitem (fun g => g), .getitem (.one (.sl ⟨none, none, some 2⟩))] :
    List (Action ℚ)), (∀ x y, a ≠ .steps x y) ∧ ∀ f, a = .setitem f → ∀ g, (f g).ny = g.ny := by
  intro a ha
  simp only [List.mem_cons, List.not_mem_nil, or_false] at ha
  rcases ha with rfl | rfl | rfl | rfl <;> refine ⟨(by intro x y h; cases h), ?_⟩ <;> intro f h <;> cases h
  intro g; rfl

/-! ## C20 -/

/-- the shared part of C20: any pointwise operation -/
theorem arith_pointwise (f : Option K → Option K → Option K) (a b : Surf K V) (ha : a.data.WF) (hb : b.data.WF)
    (hx : a.stepX = b.stepX) (hy : a.stepY = b.stepY) (hny : a.data.ny = b.data.ny) (hnx : a.data.nx = b.data.nx) :
    ∃ r : Surf K V, arithOp f a (.surf b) = .ok r ∧ r.stepX = a.stepX ∧ r.stepY = a.stepY ∧ r.data.WF ∧
      r.data.ny = a.data.ny ∧ r.data.nx = a.data.nx ∧
      ∀ i < a.data.ny, ∀ j < a.data.nx, r.data.get i j = f (a.data.get i j) (b.data.get i j) := by
  refine ⟨Surf.init (zipW f a.data b.data) a.stepX a.stepY, ?_, rfl, rfl, zip_wf ha hb hnx, zip_ny hny, rfl,
    fun i hi j hj => get_zip ha hb hny hnx hi hj⟩
  simp only [arithOp]
  rw [if_neg]
  simp [hx, hy, hny, hnx]

/-- **C20** (pointwise). On equally sized surfaces with equal steps `a + b`, `a - b`, `a * b` act point by point,
keep steps and size, and a point of the result is non-measured exactly when it is in `a` or in `b`. -/
theorem C20_pointwise (a b : Surf K V) (ha : a.data.WF) (hb : b.data.WF) (hx : a.stepX = b.stepX) (hy : a.stepY = b.stepY)
    (hny : a.data.ny = b.data.ny) (hnx : a.data.nx = b.data.nx) :
    ∀ p ∈ [(add (K := K) (V := V), fun x y : K => x + y), (sub, fun x y => x - y), (mul, fun x y => x * y)],
    ∃ r, p.1 a (.surf b) = .ok r ∧ r.stepX = a.stepX ∧ r.stepY = a.stepY ∧ r.data.ny = a.data.ny ∧ r.data.nx = a.data.nx ∧
      ∀ i < a.data.ny, ∀ j < a.data.nx,
        (∀ x y, a.data.get i j = some x → b.data.get i j = some y → r.data.get i j = some (p.2 x y)) ∧
        (r.data.get i j = none ↔ a.data.get i j = none ∨ b.data.get i j = none) := by
  intro p hp
  simp only [List.mem_cons, List.not_mem_nil, or_false] at hp
  rcases hp with rfl | rfl | rfl
  · obtain ⟨r, h1, h2, h3, _, h4, h5, h6⟩ := arith_pointwise oadd a b ha hb hx hy hny hnx
    refine ⟨r, h1, h2, h3, h4, h5, fun i hi j hj => ?_⟩
    rw [h6 i hi j hj]
    refine ⟨fun x y ex ey => by rw [ex, ey]; rfl, ?_⟩
    cases a.data.get i j <;> cases b.data.get i j <;> simp [oadd]
  · obtain ⟨r, h1, h2, h3, _, h4, h5, h6⟩ := arith_pointwise osub a b ha hb hx hy hny hnx
    refine ⟨r, h1, h2, h3, h4, h5, fun i hi j hj => ?_⟩
    rw [h6 i hi j hj]
    refine ⟨fun x y ex ey => by rw [ex, ey]; rfl, ?_⟩
    cases a.data.get i j <;> cases b.data.get i j <;> simp [osub]
  · obtain ⟨r, h1, h2, h3, _, h4, h5, h6⟩ := arith_pointwise omul a b ha hb hx hy hny hnx
    refine ⟨r, h1, h2, h3, h4, h5, fun i hi j hj => ?_⟩
    rw [h6 i hi j hj]
    refine ⟨fun x y ex ey => by rw [ex, ey]; rfl, ?_⟩
    cases a.data.get i j <;> cases b.data.get i j <;> simp [omul]

/-- **C20** (division, proved part). `a / b` is the pointwise quotient wherever both points are measured and the
divisor is not 0. Missing: at a zero divisor the code produces NaN or ±infinity instead of raising, so the
clause "non-measured iff in an operand" fails there (`C20_zero_divisor`). -/
theorem C20_division_partial (a b : Surf K V) (ha : a.data.WF) (hb : b.data.WF) (hx : a.stepX = b.stepX) (hy : a.stepY = b.stepY)
    (hny : a.data.ny = b.data.ny) (hnx : a.data.nx = b.data.nx) :
    ∃ r, truediv a (.surf b) = .ok r ∧ r.stepX = a.stepX ∧ r.stepY = a.stepY ∧
      ∀ i < a.data.ny, ∀ j < a.data.nx,
        (∀ x y, a.data.get i j = some x → b.data.get i j = some y → y ≠ 0 → r.data.get i j = some (x / y)) ∧
        (r.data.get i j = none ↔ a.data.get i j = none ∨ b.data.get i j = none ∨ b.data.get i j = some 0) := by
  obtain ⟨r, h1, h2, h3, _, h4, h5, h6⟩ := arith_pointwise odiv a b ha hb hx hy hny hnx
  refine ⟨r, h1, h2, h3, fun i hi j hj => ?_⟩
  rw [h6 i hi j hj]
  refine ⟨fun x y ex ey hne => by rw [ex, ey]; simp [odiv, hne], ?_⟩
  cases a.data.get i j <;> cases b.data.get i j <;> simp [odiv]

/-- **C20** is violated by division: two fully measured surfaces whose quotient has a point without a
height. -/
theorem C20_zero_divisor : ∃ a b : Surf ℚ Unit, none ∉ flat a.data ∧ none ∉ flat b.data ∧
    ∃ r, truediv a (.surf b) = .ok r ∧ none ∈ flat r.data := by
  refine ⟨Surf.init { rows := [[some 0, some 6]], nx := 2 } 1 1, Surf.init { rows := [[some 0, some 2]], nx := 2 } 1 1,
    by decide, by decide, Surf.init { rows := [[none, some 3]], nx := 2 } 1 1, ?_, by decide⟩
  simp only [truediv, arithOp]
  rw [if_neg (by decide)]
  refine congrArg Except.ok (congrArg (fun d => (Surf.init d 1 1 : Surf ℚ Unit)) ?_)
  decide +kernel

/-- **C20** (dimension check). An operator with a surface operand raises exactly when a step or the size
differs, and then ValueError; any operand that is neither a surface nor a number raises ValueError. -/
theorem C20_dimension_check (f : Option K → Option K → Option K) (a b : Surf K V) :
    ((∃ e, arithOp f a (.surf b) = .error e) ↔
      (a.stepX ≠ b.stepX ∨ a.stepY ≠ b.stepY ∨ a.data.ny ≠ b.data.ny ∨ a.data.nx ≠ b.data.nx)) ∧
    (∀ e, arithOp f a (.surf b) = .error e → e = .valueError) ∧
    arithOp f a (.other : Operand K V) = .error .valueError := by
  unfold arithOp
  by_cases h : a.stepX ≠ b.stepX ∨ a.stepY ≠ b.stepY ∨ a.data.ny ≠ b.data.ny ∨ a.data.nx ≠ b.data.nx
  · simp only [if_pos h]
    exact ⟨⟨fun _ => h, fun _ => ⟨_, rfl⟩⟩, fun e he => (Except.error.inj he).symm, trivial⟩
  · simp only [if_neg h]
    exact ⟨⟨fun ⟨e, he⟩ => (by cases he), fun h' => absurd h' h⟩, fun e he => (by cases he), trivial⟩

/-- **C20** (cancellation). `(a + b) - b = a` at every point measured in `b`. -/
theorem C20_cancel (a b : Surf K V) (ha : a.data.WF) (hb : b.data.WF) (hx : a.stepX = b.stepX) (hy : a.stepY = b.stepY)
    (hny : a.data.ny = b.data.ny) (hnx : a.data.nx = b.data.nx) :
    ∃ r r', add a (.surf b) = .ok r ∧ sub r (.surf b) = .ok r' ∧
      ∀ i < a.data.ny, ∀ j < a.data.nx, b.data.get i j ≠ none → r'.data.get i j = a.data.get i j := by
  obtain ⟨r, h1, h2, h3, hw, h4, h5, h6⟩ := arith_pointwise oadd a b ha hb hx hy hny hnx
  obtain ⟨r', g1, g2, g3, _, g4, g5, g6⟩ := arith_pointwise osub r b hw hb (h2.trans hx) (h3.trans hy)
    (h4.trans hny) (h5.trans hnx)
  refine ⟨r, r', h1, g1, fun i hi j hj hne => ?_⟩
  rw [g6 i (h4 ▸ hi) j (h5 ▸ hj), h6 i hi j hj]
  cases hA : a.data.get i j <;> cases hB : b.data.get i j
  · rfl
  · rfl
  · exact absurd hB hne
  · simp [oadd, osub]

/-- **C20** (scalars). A scalar operand acts on every measured point and keeps the mask; `c - a` is the negative
of `a - c`, and `c + a = a + c` is one method. -/
theorem C20_scalar (a : Surf K V) (c : K) :
    (∃ r, add a (.scalar c) = .ok r ∧ ∀ i j, r.data.get i j = (a.data.get i j).map (· + c)) ∧
    (∃ r, mul a (.scalar c) = .ok r ∧ ∀ i j, r.data.get i j = (a.data.get i j).map (· * c)) ∧
    (∃ r r', sub a (.scalar c) = .ok r ∧ rsub a (.scalar c) = .ok r' ∧
      ∀ i j, r.data.get i j = (a.data.get i j).map (· - c) ∧ r'.data.get i j = (r.data.get i j).map fun z => -z) := by
  have key : ∀ (f : Option K → Option K) (g : K → K), f none = none → (∀ x, f (some x) = some (g x)) →
      ∀ i j, (map f a.data).get i j = (a.data.get i j).map g := by
    intro f g h0 h1 i j
    have : f = Option.map g := by funext x; cases x; exact h0; exact h1 _
    rw [this]
    exact get_map g a.data i j
  refine ⟨⟨_, rfl, ?_⟩, ⟨_, rfl, ?_⟩, ⟨_, _, rfl, rfl, ?_⟩⟩
  · exact key _ (· + c) rfl fun x => rfl
  · exact key _ (· * c) rfl fun x => rfl
  · intro i j
    have h1 := key (fun z => osub z (some c)) (· - c) rfl (fun x => rfl) i j
    have h2 := key (fun z => osub (some c) z) (c - ·) rfl (fun x => rfl) i j
    refine ⟨h1, ?_⟩
    show (map (fun z => osub (some c) z) a.data).get i j = ((map (fun z => osub z (some c)) a.data).get i j).map _
    rw [h1, h2]
    cases a.data.get i j <;> simp

example : ({ rows := [[some 1, none], [some 2, some 3]], nx := 2 } : Grid (Option ℚ)).WF := by decide

/-! ## C21 -/

private theorem eq_lists {P : List (Nat × Nat)} (u v : Nat × Nat → Option K) (tol : K)
    (hm : ∀ p ∈ P, (u p).isNone = (v p).isNone) :
    (List.zipWith (fun a b => decide (|a - b| > tol)) (measured (P.map u)) (measured (P.map v))).any id = false ↔
      ∀ p ∈ P, ∀ x y, u p = some x → v p = some y → |x - y| ≤ tol := by
  induction P with
  | nil => simp [measured]
  | cons p P ih =>
    have ih' := ih fun q hq => hm q (by simp [hq])
    have hp := hm p (by simp)
    simp only [List.forall_mem_cons, List.map_cons]
    cases hu : u p with
    | none =>
      cases hv : v p with
      | none =>
        simp only [measured, List.filterMap_cons, id] at ih' ⊢
        rw [ih']
        simp
      | some y => rw [hu, hv] at hp; cases hp
    | some x =>
      cases hv : v p with
      | none => rw [hu, hv] at hp; cases hp
      | some y =>
        simp only [measured, List.filterMap_cons, id, List.zipWith_cons_cons, List.any_cons, Bool.or_eq_false_iff,
          decide_eq_false_iff_not, not_lt, gt_iff_lt] at ih' ⊢
        rw [ih']
        simp

/-- **C21** (meaning of `==`). Two surfaces compare equal exactly when steps and sizes agree, the same points are
non-measured, and all measured heights agree within the tolerance (1e-10 in the code). -/
theorem C21_eq_iff (tol : K) (a b : Surf K V) (ha : a.data.WF) (hb : b.data.WF) :
    eqSurf tol a b = true ↔
      a.stepX = b.stepX ∧ a.stepY = b.stepY ∧ a.data.ny = b.data.ny ∧ a.data.nx = b.data.nx ∧
      ∀ i < a.data.ny, ∀ j < a.data.nx, (a.data.get i j = none ↔ b.data.get i j = none) ∧
        ∀ x y, a.data.get i j = some x → b.data.get i j = some y → |x - y| ≤ tol := by
  unfold eqSurf
  by_cases h : a.stepX ≠ b.stepX ∨ a.stepY ≠ b.stepY ∨ a.data.ny ≠ b.data.ny ∨ a.data.nx ≠ b.data.nx
  · rw [if_pos h]
    constructor
    · intro hf; cases hf
    · rintro ⟨h1, h2, h3, h4, -⟩
      rcases h with h | h | h | h
      · exact absurd h1 h
      · exact absurd h2 h
      · exact absurd h3 h
      · exact absurd h4 h
  · rw [if_neg h]
    simp only [ne_eq, not_or, not_not] at h
    obtain ⟨h1, h2, h3, h4⟩ := h
    rw [flat_eq_pixels ha, flat_eq_pixels hb, ← h3, ← h4]
    simp only [List.map_map]
    by_cases hmask : (pixels a.data.ny a.data.nx).map (Option.isNone ∘ fun p => a.data.get p.1 p.2)
        = (pixels a.data.ny a.data.nx).map (Option.isNone ∘ fun p => b.data.get p.1 p.2)
    · rw [if_neg (not_not.2 hmask)]
      rw [List.map_inj_left] at hmask
      rw [Bool.not_eq_true', eq_lists (fun p => a.data.get p.1 p.2) (fun p => b.data.get p.1 p.2) tol hmask]
      constructor
      · intro hh
        refine ⟨h1, h2, trivial, trivial, fun i hi j hj => ?_⟩
        have hmem : (i, j) ∈ pixels a.data.ny a.data.nx := mem_pixels.2 ⟨hi, hj⟩
        refine ⟨?_, fun x y hx hy => hh (i, j) hmem x y hx hy⟩
        have := hmask (i, j) hmem
        simp only [Function.comp] at this
        rw [← Option.isNone_iff_eq_none, ← Option.isNone_iff_eq_none, this]
      · rintro ⟨-, -, -, -, hh⟩ p hp x y hx hy
        have := mem_pixels.1 hp
        exact (hh p.1 this.1 p.2 this.2).2 x y hx hy
    · rw [if_pos hmask]
      constructor
      · intro hf; cases hf
      · rintro ⟨-, -, -, -, hh⟩
        exfalso
        apply hmask
        rw [List.map_inj_left]
        intro p hp
        have := mem_pixels.1 hp
        have := (hh p.1 this.1 p.2 this.2).1
        simp only [Function.comp]
        rw [Bool.eq_iff_iff, Option.isNone_iff_eq_none, Option.isNone_iff_eq_none, this]

/-- **C21** (reflexivity, symmetry) for every non-negative tolerance, also with non-measured points. -/
theorem C21_refl_symm_partial [IsStrictOrderedRing K] (tol : K) (ht : 0 ≤ tol) (a b : Surf K V) (ha : a.data.WF) (hb : b.data.WF) :
    eqSurf tol a a = true ∧ (eqSurf tol a b = eqSurf tol b a) := by
  constructor
  · rw [C21_eq_iff tol a a ha ha]
    refine ⟨rfl, rfl, rfl, rfl, fun i hi j hj => ⟨Iff.rfl, fun x y hx hy => ?_⟩⟩
    rw [hx] at hy
    cases hy
    simpa using ht
  · rw [Bool.eq_iff_iff, C21_eq_iff tol a b ha hb, C21_eq_iff tol b a hb ha]
    constructor
    · rintro ⟨h1, h2, h3, h4, h5⟩
      refine ⟨h1.symm, h2.symm, h3.symm, h4.symm, fun i hi j hj => ?_⟩
      have := h5 i (h3 ▸ hi) j (h4 ▸ hj)
      exact ⟨this.1.symm, fun x y hx hy => by rw [abs_sub_comm]; exact this.2 y x hy hx⟩
    · rintro ⟨h1, h2, h3, h4, h5⟩
      refine ⟨h1.symm, h2.symm, h3.symm, h4.symm, fun i hi j hj => ?_⟩
      have := h5 i (h3 ▸ hi) j (h4 ▸ hj)
      exact ⟨this.1.symm, fun x y hx hy => by rw [abs_sub_comm]; exact this.2 y x hy hx⟩

/-- **C21** is false in the clause "equality is an equivalence": `==` is not transitive. -/
theorem C21_not_transitive : ∃ a b c : Surf ℚ Unit, eqSurf (1 / 10 ^ 10) a b = true ∧ eqSurf (1 / 10 ^ 10) b c = true ∧
    eqSurf (1 / 10 ^ 10) a c = false :=
  ⟨Surf.init { rows := [[some 0]], nx := 1 } 1 1, Surf.init { rows := [[some (1 / 10 ^ 10)]], nx := 1 } 1 1,
    Surf.init { rows := [[some (2 / 10 ^ 10)]], nx := 1 } 1 1, by decide +kernel, by decide +kernel, by decide +kernel⟩

/-- **C21** is false in the clause "compatible with hash": two surfaces compare equal although the tuples that
`__hash__` hashes (surface.py:257-258: steps, size, mean, standard deviation) differ — here in the mean. -/
theorem C21_hash_incompatible : ∃ a b : Surf ℚ Unit, eqSurf (1 / 10 ^ 10) a b = true ∧
    hashMean a ≠ hashMean b := by
  refine ⟨Surf.init { rows := [[some 0]], nx := 1 } 1 1, Surf.init { rows := [[some (1 / 10 ^ 10)]], nx := 1 } 1 1,
    by decide +kernel, by decide +kernel⟩

end Surfalize.Props
