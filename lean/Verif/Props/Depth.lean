import Verif.Model.Depth
import Verif.Lemmas.MapM
import Verif.Props.Fourier
import Verif.Props.Sinusoid

/-! # The depth of periodic textures (C69, C77) -/
set_option linter.unusedSectionVars false
namespace Surfalize.Props
open Surfalize BaseOps Container Spec Fourier Depth

/-- the evaluation after orientation and period are known -/
noncomputable def depthRest (fit : Fit) (g : Grid (Option ℝ)) (stepX stepY θ p : ℝ) (nprofiles : Int) (sw : ℝ) :
    Except Err (Option ℝ × Option ℝ) :=
  let vertical := decide (-45 < θ ∧ θ < 45)
  let size := if vertical then g.ny else g.nx
  if nprofiles > size then .error .valueError
  else if nprofiles = 1 then .error .zeroDivision
  else
    let nint := (pyInt ((if vertical then ((g.nx : ℝ) - 1) * stepX else ((g.ny : ℝ) - 1) * stepY) / p)).toNat
    let periodPx := p / (if vertical then stepX else stepY)
    if nprofiles * (nint : Int) < 0 then .error .valueError
    else
      ((List.range nprofiles.toNat).mapM (m := Except Err) fun i =>
        let r := profileIndex size nprofiles.toNat i
        if size ≤ r then .error .indexError
        else depthLine fit periodPx sw nint (if vertical then rowOf g r else colOf g r)).map fun ls =>
        let l := measured ls.flatten
        if l = [] then (none, none) else (some (mean l), some (std l))

/-- orientation and the period along the chosen axis exist; the period is finite -/
theorem axis_finite {argsort : List ℝ → List Nat} (hs : IsArgsort argsort) (g : Grid (Option ℝ)) (hg : g.WF) (hf : none ∉ flat g)
    (h2 : 2 ≤ g.ny * g.nx) {W H : ℝ} (hW : W ≠ 0) (hH : H ≠ 0) :
    ∃ θ px py, orientation argsort g W H = .ok θ ∧ periodXY argsort g W H = .ok (px, py) ∧
      ∃ p, 0 < p ∧ (if decide (-45 < θ ∧ θ < 45) = true then px else py) = some p := by
  obtain ⟨k0, k1, -, dx, dy, e, h0, hnz, -⟩ := peak_ok hs g hg hf h2 hW hH
  have ho : orientation argsort g W H = .ok (if dx = 0 then 90 else if dy = 0 then 0
      else Real.arctan (dy / dx) * 180 / Real.pi) := by unfold orientation; rw [e]; rfl
  have hp : periodXY argsort g W H = .ok (if dx = 0 then none else some |2 / dx|, if dy = 0 then none else some |2 / dy|) := by
    unfold periodXY; rw [e]; rfl
  refine ⟨_, _, _, ho, hp, ?_⟩
  by_cases hx : dx = 0
  · have hy : dy ≠ 0 := fun hy => hnz ⟨hx, hy⟩
    refine ⟨|2 / dy|, by positivity, ?_⟩
    simp only [if_pos hx, if_neg hy]
    norm_num
  · by_cases hy : dy = 0
    · refine ⟨|2 / dx|, by positivity, ?_⟩
      simp only [if_pos hy, if_neg hx]
      norm_num
    · simp only [if_neg hx, if_neg hy]
      split
      · exact ⟨_, by positivity, rfl⟩
      · exact ⟨_, by positivity, rfl⟩

theorem depth_eq {argsort : List ℝ → List Nat} (hs : IsArgsort argsort) (g : Grid (Option ℝ)) (hg : g.WF) (hf : none ∉ flat g)
    (hy : 2 ≤ g.ny) (hx : 2 ≤ g.nx) {stepX stepY : ℝ} (sx : 0 < stepX) (sy : 0 < stepY) :
    ∃ θ p, orientation argsort g (((g.nx : ℝ) - 1) * stepX) (((g.ny : ℝ) - 1) * stepY) = .ok θ ∧ 0 < p ∧
      ∀ fit n sw, depth argsort fit g stepX stepY n sw = depthRest fit g stepX stepY θ p n sw := by
  have c1 : (2 : ℝ) ≤ g.nx := by exact_mod_cast hx
  have c2 : (2 : ℝ) ≤ g.ny := by exact_mod_cast hy
  have hW : ((g.nx : ℝ) - 1) * stepX ≠ 0 := (mul_pos (by linarith) sx).ne'
  have hH : ((g.ny : ℝ) - 1) * stepY ≠ 0 := (mul_pos (by linarith) sy).ne'
  obtain ⟨θ, px, py, e1, e2, p, hp, e3⟩ := axis_finite hs g hg hf (by nlinarith) hW hH
  refine ⟨θ, p, e1, hp, ?_⟩
  intro fit n sw
  have hm : ¬ hasMissing g = true := fun hh => hf ((HeightParams.mem_none_iff_hasMissing g).1 hh)
  unfold depth depthRest
  rw [if_neg hm]
  simp only [e1, e2, Except.bind, e3]

theorem profileIndex_bound {size n : Nat} (hn : 2 ≤ n) (_ : 0 < size) :
    (∀ i < n, profileIndex size n i < size) ↔ ¬ (n - 1) ∣ size := by
  unfold profileIndex
  constructor
  · intro h hd
    have := h (n - 1) (by omega)
    rw [Nat.div_mul_cancel hd] at this
    omega
  · intro h i hi
    have h1 : size / (n - 1) * i ≤ size / (n - 1) * (n - 1) := Nat.mul_le_mul_left _ (by omega)
    have h2 : size / (n - 1) * (n - 1) ≤ size := Nat.div_mul_le_self _ _
    rcases Nat.lt_or_ge (size / (n - 1) * (n - 1)) size with h3 | h3
    · omega
    · exact absurd (Dvd.intro_left _ (Nat.le_antisymm h2 h3)) h

theorem profileIndex_lt {size n i : Nat} (hs : 0 < size) (hi : i < n - 1) : profileIndex size n i < size := by
  unfold profileIndex
  rcases Nat.eq_zero_or_pos (size / (n - 1)) with h | h
  · rw [h]; omega
  · calc size / (n - 1) * i < size / (n - 1) * (n - 1) := Nat.mul_lt_mul_of_pos_left hi h
      _ ≤ size := Nat.div_mul_le_self _ _

/-- **C69**: what is true of `depth()`. Let the surface be fully measured with at least two rows and columns and let
the sinusoid fits succeed. With `size` the number of available profiles (rows if the texture is closer to vertical,
columns otherwise) and `2 ≤ n ≤ size` requested profiles, all sampled profiles exist, and the call succeeds, exactly
when `n - 1` does not divide `size`; otherwise the call raises IndexError. Too many profiles raise ValueError. The
property demands success for every `n`; see `C69_two_profiles_fail`. -/
theorem C69_depth_partial {argsort : List ℝ → List Nat} (hs : IsArgsort argsort) (g : Grid (Option ℝ)) (hg : g.WF)
    (hf : none ∉ flat g) (hy : 2 ≤ g.ny) (hx : 2 ≤ g.nx) {stepX stepY : ℝ} (sx : 0 < stepX) (sy : 0 < stepY) (sw : ℝ)
    {fit : Fit} (hfit : ∀ line p0, ∃ a p x0 y0, fit line p0 = .ok (a, p, x0, y0) ∧ p ≠ 0) :
    ∃ θ, orientation argsort g (((g.nx : ℝ) - 1) * stepX) (((g.ny : ℝ) - 1) * stepY) = .ok θ ∧
      ∀ size, size = (if -45 < θ ∧ θ < 45 then g.ny else g.nx) → ∀ n : Nat, 2 ≤ n →
        (n ≤ size → ¬ (n - 1) ∣ size → ∃ r, depth argsort fit g stepX stepY n sw = .ok r) ∧
        (n ≤ size → (n - 1) ∣ size → depth argsort fit g stepX stepY n sw = .error .indexError) ∧
        (size < n → depth argsort fit g stepX stepY n sw = .error .valueError) := by
  obtain ⟨θ, p, e, hp, hd⟩ := depth_eq hs g hg hf hy hx sx sy
  refine ⟨θ, e, ?_⟩
  intro size hsize n hn
  have hsize' : (if decide (-45 < θ ∧ θ < 45) = true then g.ny else g.nx) = size := by
    rw [hsize]; simp only [decide_eq_true_eq]
  have hpos : 0 < size := by rw [hsize]; split <;> omega
  simp only [hd]
  unfold depthRest
  dsimp only
  rw [hsize']
  have hline : ∀ (pp : ℝ) (k : Nat) (l : List ℝ), ∃ v, depthLine fit pp sw k l = .ok v := by
    intro pp k l
    obtain ⟨a, q, x0, y0, h1, h2⟩ := hfit l (p0 l pp)
    unfold depthLine
    rw [h1]
    have : (Sinusoid.ofPopt (a, q, x0, y0)).period ≠ 0 := by
      rw [(C45_normalised a q x0 y0 h2).2.1]; exact h2
    exact ⟨_, by dsimp only [Except.bind]; rw [if_neg (by tauto)]⟩
  have hn1 : ¬ ((n : Int) = 1) := by omega
  have hnn : ∀ k : Nat, ¬ ((n : Int) * (k : Int) < 0) := fun k => not_lt.2 (by positivity)
  refine ⟨?_, ?_, ?_⟩
  · intro hle hnd
    rw [if_neg (by omega), if_neg hn1, if_neg (hnn _)]
    have : ∀ i ∈ List.range ((n : Int).toNat), ∃ b, (if size ≤ profileIndex size (n : Int).toNat i then
        (.error .indexError : Except Err (List (Option ℝ))) else
        depthLine fit (p / if decide (-45 < θ ∧ θ < 45) = true then stepX else stepY) sw
          (pyInt ((if decide (-45 < θ ∧ θ < 45) = true then ((g.nx : ℝ) - 1) * stepX else ((g.ny : ℝ) - 1) * stepY) / p)).toNat
          (if decide (-45 < θ ∧ θ < 45) = true then rowOf g (profileIndex size (n : Int).toNat i)
            else colOf g (profileIndex size (n : Int).toNat i))) = .ok b := by
      intro i hi
      rw [List.mem_range] at hi
      have := (profileIndex_bound hn hpos).2 hnd i (by simpa using hi)
      rw [if_neg (by rw [Int.toNat_natCast]; omega)]
      exact hline _ _ _
    obtain ⟨r, hr⟩ := mapM_exists this
    rw [hr]
    exact ⟨_, rfl⟩
  · intro hle hdv
    rw [if_neg (by omega), if_neg hn1, if_neg (hnn _)]
    have key := mapM_error (l := List.range ((n : Int).toNat)) (e := Err.indexError)
      (f := fun i => if size ≤ profileIndex size (n : Int).toNat i then
        (.error .indexError : Except Err (List (Option ℝ))) else
        depthLine fit (p / if decide (-45 < θ ∧ θ < 45) = true then stepX else stepY) sw
          (pyInt ((if decide (-45 < θ ∧ θ < 45) = true then ((g.nx : ℝ) - 1) * stepX else ((g.ny : ℝ) - 1) * stepY) / p)).toNat
          (if decide (-45 < θ ∧ θ < 45) = true then rowOf g (profileIndex size (n : Int).toNat i)
            else colOf g (profileIndex size (n : Int).toNat i))) ?_ ?_
    · rw [key]; rfl
    · intro i _
      split
      · right; rfl
      · left; exact hline _ _ _
    · refine ⟨n - 1, by rw [List.mem_range, Int.toNat_natCast]; omega, ?_⟩
      rw [if_pos]
      rw [Int.toNat_natCast]
      unfold profileIndex
      rw [Nat.div_mul_cancel hdv]
  · intro hlt
    rw [if_pos (by omega)]

/-- Why C69 is only partial: two profiles can never be evaluated, whatever the size of the surface. -/
theorem C69_two_profiles_fail {argsort : List ℝ → List Nat} (hs : IsArgsort argsort) (g : Grid (Option ℝ)) (hg : g.WF)
    (hf : none ∉ flat g) (hy : 2 ≤ g.ny) (hx : 2 ≤ g.nx) {stepX stepY : ℝ} (sx : 0 < stepX) (sy : 0 < stepY) (sw : ℝ)
    {fit : Fit} (hfit : ∀ line p0, ∃ a p x0 y0, fit line p0 = .ok (a, p, x0, y0) ∧ p ≠ 0) :
    depth argsort fit g stepX stepY 2 sw = .error .indexError := by
  obtain ⟨θ, -, h⟩ := C69_depth_partial hs g hg hf hy hx sx sy sw hfit
  exact (h _ rfl 2 (by omega)).2.1 (by split <;> omega) (one_dvd _)

/-- One profile divides by zero, a surface with missing points is refused. -/
theorem C69_errors {argsort : List ℝ → List Nat} (hs : IsArgsort argsort) (g : Grid (Option ℝ)) (fit : Fit)
    {stepX stepY : ℝ} (sw : ℝ) :
    (none ∈ flat g → ∀ n, depth argsort fit g stepX stepY n sw = .error .valueError) ∧
    (g.WF → none ∉ flat g → 2 ≤ g.ny → 2 ≤ g.nx → 0 < stepX → 0 < stepY →
      depth argsort fit g stepX stepY 1 sw = .error .zeroDivision) := by
  constructor
  · intro h n
    unfold depth
    rw [if_pos ((HeightParams.mem_none_iff_hasMissing g).2 h)]
  · intro hg hf hy hx sx sy
    obtain ⟨θ, p, -, -, hd⟩ := depth_eq hs g hg hf hy hx sx sy
    rw [hd]
    unfold depthRest
    dsimp only
    rw [if_neg, if_pos rfl]
    split <;> omega

/-! ### Bounds -/

theorem mem_pySlice {α : Type} {l : List α} {a b : Int} {x : α} (h : x ∈ pySlice l a b) : x ∈ l :=
  List.mem_of_mem_take (List.mem_of_mem_drop h)

theorem median_ge {l : List ℝ} (hne : l ≠ []) {t : ℝ} (h : ∀ x ∈ l, t ≤ x) : t ≤ median l := by
  by_contra hc
  push Not at hc
  have := Stepheight.median_gt hne (t := (median l + t) / 2) (fun x hx => by linarith [h x hx])
  linarith

theorem extremumHeight_bounds {s : Sinusoid.Sinus} {sw lo hi : ℝ} {line : List ℝ} {j : Nat} {z : ℝ}
    (hl : ∀ x ∈ line, lo ≤ x ∧ x ≤ hi) (h : extremumHeight s sw line j = some z) : lo ≤ z ∧ z ≤ hi := by
  unfold extremumHeight at h
  dsimp only at h
  split at h
  · simp at h
  · split at h
    · simp at h
    · rename_i hne
      simp only [Option.some.injEq] at h
      subst h
      exact ⟨median_ge hne fun x hx => (hl x (mem_pySlice hx)).1,
        Stepheight.median_le hne fun x hx => (hl x (mem_pySlice hx)).2⟩

theorem depthLine_bounds {fit : Fit} {pp sw lo hi : ℝ} {nint : Nat} {line : List ℝ} {v : List (Option ℝ)}
    (hline : ∀ x ∈ line, lo ≤ x ∧ x ≤ hi) (hv : depthLine fit pp sw nint line = .ok v) {x : ℝ} (hxl : some x ∈ v) :
    0 ≤ x ∧ x ≤ hi - lo := by
  unfold depthLine at hv
  generalize fit _ _ = fr at hv
  cases fr with
  | error e => simp [Except.bind] at hv
  | ok popt =>
    dsimp only [Except.bind] at hv
    split at hv
    · simp at hv
    simp only [Except.ok.injEq] at hv
    subst hv
    obtain ⟨k, -, hk⟩ := List.mem_map.1 hxl
    generalize hA : extremumHeight (Sinusoid.ofPopt popt) sw _ (2 * k) = A at hk
    generalize hB : extremumHeight (Sinusoid.ofPopt popt) sw _ (2 * k + 1) = B at hk
    cases A with
    | none => simp [osub] at hk
    | some a =>
      cases B with
      | none => simp [osub] at hk
      | some b =>
        simp only [osub, Option.bind_some, Option.map_some, Option.some.injEq] at hk
        subst hk
        have ba := extremumHeight_bounds hline hA
        have bb := extremumHeight_bounds hline hB
        refine ⟨abs_nonneg _, ?_⟩
        rw [abs_le]
        constructor <;> linarith

theorem std_bounds {l : List ℝ} {R : ℝ} (hR : 0 ≤ R) (h : ∀ x ∈ l, 0 ≤ x ∧ x ≤ R) : 0 ≤ std l ∧ std l ≤ R := by
  refine ⟨Real.sqrt_nonneg _, ?_⟩
  by_cases hne : l = []
  · subst hne; simp [BaseOps.std, variance, mean, hR]
  have m0 := HeightParams.le_mean hne fun x hx => (h x hx).1
  have m1 := HeightParams.mean_le hne fun x hx => (h x hx).2
  unfold BaseOps.std
  rw [Real.sqrt_le_left hR]
  unfold variance
  apply HeightParams.mean_le (by simpa using hne)
  intro z hz
  obtain ⟨x, hx, rfl⟩ := List.mem_map.1 hz
  have := h x hx
  apply sq_le_sq'
  · linarith
  · linarith

/-- **C77**. Whatever the fits return, the depth never leaves the range of the heights: mean and standard deviation
lie between 0 and the peak-to-valley height Sz of the surface, for any number of profiles and any sampling width. -/
theorem C77_depth_bounded {argsort : List ℝ → List Nat} {fit : Fit} {g : Grid (Option ℝ)} (hg : g.WF) {stepX stepY sw : ℝ}
    {n : Int} {m s : ℝ} (h : depth argsort fit g stepX stepY n sw = .ok (some m, some s)) {zmin zmax : ℝ}
    (hmin : (measured (flat g)).min? = some zmin) (hmax : (measured (flat g)).max? = some zmax) :
    0 ≤ m ∧ m ≤ zmax - zmin ∧ 0 ≤ s ∧ s ≤ zmax - zmin := by
  have hvals : ∀ i < g.ny, ∀ j < g.nx, none ∉ flat g → zmin ≤ g.val i j ∧ g.val i j ≤ zmax := by
    intro i hi j hj hf
    have hmem : g.val i j ∈ measured (flat g) := by
      rw [mem_measured, ← get_eq_some_val hg hf hi hj]; exact get_mem hg hi hj
    exact ⟨(min?_spec.1 hmin).2 _ hmem, (max?_spec.1 hmax).2 _ hmem⟩
  have hR : 0 ≤ zmax - zmin := by
    have := (max?_spec.1 hmax).2 _ (min?_spec.1 hmin).1
    linarith
  unfold depth at h
  split at h
  · simp at h
  rename_i hm
  have hf : none ∉ flat g := fun hn => hm ((HeightParams.mem_none_iff_hasMissing g).2 hn)
  dsimp only at h
  set W := ((g.nx : ℝ) - 1) * stepX
  set H := ((g.ny : ℝ) - 1) * stepY
  cases ho : orientation argsort g W H with
  | error e => rw [ho] at h; simp [Except.bind] at h
  | ok θ =>
  rw [ho] at h
  dsimp only [Except.bind] at h
  by_cases c1 : n > ((if decide (-45 < θ ∧ θ < 45) = true then g.ny else g.nx : Nat) : Int)
  · rw [if_pos c1] at h; simp at h
  rw [if_neg c1] at h
  cases hp : periodXY argsort g W H with
  | error e => rw [hp] at h; simp at h
  | ok pxy =>
  rw [hp] at h
  dsimp only at h
  generalize hpe : (if decide (-45 < θ ∧ θ < 45) = true then pxy.1 else pxy.2) = op at h
  cases op with
  | none => simp at h
  | some p =>
  dsimp only at h
  by_cases c2 : n = 1
  · rw [if_pos c2] at h; simp at h
  rw [if_neg c2] at h
  by_cases c3 : n * (((pyInt ((if decide (-45 < θ ∧ θ < 45) = true then W else H) / p)).toNat : Nat) : Int) < 0
  · rw [if_pos c3] at h; simp at h
  rw [if_neg c3] at h
  generalize hml : (List.range n.toNat).mapM (m := Except Err) _ = ml at h
  cases ml with
  | error e => simp [Except.map] at h
  | ok ls =>
  simp only [Except.map, Except.ok.injEq] at h
  split at h
  · simp at h
  rename_i hne
  simp only [Prod.mk.injEq, Option.some.injEq] at h
  obtain ⟨rfl, rfl⟩ := h
  have hall : ∀ x ∈ measured ls.flatten, 0 ≤ x ∧ x ≤ zmax - zmin := by
    intro x hx
    rw [mem_measured] at hx
    obtain ⟨l, hl, hxl⟩ := List.mem_flatten.1 hx
    obtain ⟨i, hi, hv⟩ := mapM_ok_mem hml l hl
    by_cases hlt : (if decide (-45 < θ ∧ θ < 45) = true then g.ny else g.nx) ≤
        profileIndex (if decide (-45 < θ ∧ θ < 45) = true then g.ny else g.nx) n.toNat i
    · rw [if_pos hlt] at hv; simp at hv
    rw [if_neg hlt] at hv
    have hline : ∀ y ∈ (if decide (-45 < θ ∧ θ < 45) = true then
        rowOf g (profileIndex (if decide (-45 < θ ∧ θ < 45) = true then g.ny else g.nx) n.toNat i)
        else colOf g (profileIndex (if decide (-45 < θ ∧ θ < 45) = true then g.ny else g.nx) n.toNat i)),
        zmin ≤ y ∧ y ≤ zmax := by
      by_cases hvt : decide (-45 < θ ∧ θ < 45) = true
      · simp only [if_pos hvt] at hlt ⊢
        intro y hy
        obtain ⟨j, hj, rfl⟩ := List.mem_map.1 hy
        exact hvals _ (by omega) _ (List.mem_range.1 hj) hf
      · simp only [if_neg hvt] at hlt ⊢
        intro y hy
        obtain ⟨j, hj, rfl⟩ := List.mem_map.1 hy
        exact hvals _ (List.mem_range.1 hj) _ (by omega) hf
    exact depthLine_bounds hline hv hxl
  exact ⟨HeightParams.le_mean hne fun x hx => (hall x hx).1, HeightParams.mean_le hne fun x hx => (hall x hx).2,
    std_bounds hR hall⟩

/-- The hypotheses are met, and depths are measured: a grating of 3 rows and 4 columns, a fit that succeeds. -/
example : ∃ (argsort : List ℝ → List Nat) (fit : Fit) (g : Grid (Option ℝ)), IsArgsort argsort ∧ g.WF ∧ none ∉ flat g ∧
    2 ≤ g.ny ∧ 2 ≤ g.nx ∧ (∀ line p0, ∃ a p x0 y0, fit line p0 = .ok (a, p, x0, y0) ∧ p ≠ 0) ∧
    ∃ m s, depth argsort fit g 1 1 3 (1 / 5) = .ok (some m, some s) := by
  obtain ⟨argsort, hs⟩ := C43_argsort_exists
  have hg : Grating (Grid.ofFn 3 4 fun i j => some (1 + 2 * Real.cos
    (2 * Real.pi * (((0 : Int) : ℝ) * i / 3 + ((1 : Int) : ℝ) * j / 4) + 0))) 1 2 0 0 1 := by
    refine ⟨ofFn_wf _ _ _, ?_, two_ne_zero, Or.inr one_ne_zero, ?_, ?_⟩
    · intro i hi j hj
      rw [ofFn_ny] at hi ⊢
      rw [ofFn_nx] at hj ⊢
      rw [get_ofFn _ hi hj]
      norm_num
    · rw [ofFn_ny]; norm_num
    · rw [ofFn_nx]; norm_num
  set g : Grid (Option ℝ) := Grid.ofFn 3 4 fun i j => some (1 + 2 * Real.cos
    (2 * Real.pi * (((0 : Int) : ℝ) * i / 3 + ((1 : Int) : ℝ) * j / 4) + 0)) with hgdef
  have ny3 : g.ny = 3 := ofFn_ny _ _ _
  have nx4 : g.nx = 4 := ofFn_nx _ _ _
  let fit : Fit := fun _ _ => .ok (1, 2, -(1 / 2), 0)
  refine ⟨argsort, fit, g, hs, hg.wf, grating_full hg, by omega, by omega,
    fun _ _ => ⟨1, 2, -(1 / 2), 0, rfl, two_ne_zero⟩, ?_⟩
  obtain ⟨-, -, hp, θ, hθ, t1, t2, t3⟩ := C76_grating_partial hs hg (W := 3) (H := 2) (by norm_num) (by norm_num)
  have hsin : Real.sin (θ * Real.pi / 180) = 0 := by
    simp only [Int.cast_one, Int.cast_zero, zero_div, mul_zero, sub_zero] at t3
    linarith
  have hθ0 : θ = 0 := by
    have hpi := Real.pi_pos
    have := (Real.sin_eq_zero_iff_of_lt_of_lt (x := θ * Real.pi / 180) (by nlinarith) (by nlinarith)).1 hsin
    have : θ * Real.pi = 0 := by linarith
    rcases mul_eq_zero.1 this with h | h
    · exact h
    · exact absurd h Real.pi_ne_zero
  have hline : ∀ pp (l : List ℝ), l.length = 4 → ∃ x, depthLine fit pp (1 / 5) 1 l = .ok [some x] := by
    intro pp l hl
    obtain ⟨a, b, c, d, rfl⟩ : ∃ a b c d, l = [a, b, c, d] := by
      match l, hl with
      | [a, b, c, d], _ => exact ⟨a, b, c, d, rfl⟩
    have e1 : extremumHeight ⟨1, 2, -(1 / 2), 0⟩ (1 / 5) [a, b, c, d] 0 = some (median [a]) := by
      unfold extremumHeight Sinusoid.Sinus.firstExtremum
      norm_num [pyInt, pySlice, normIdx]
    have e2 : extremumHeight ⟨1, 2, -(1 / 2), 0⟩ (1 / 5) [a, b, c, d] 1 = some (median [b]) := by
      unfold extremumHeight Sinusoid.Sinus.firstExtremum
      norm_num [pyInt, pySlice, normIdx]
      exact ⟨List.cons_ne_nil _ _, rfl⟩
    refine ⟨|median [a] - median [b]|, ?_⟩
    unfold depthLine
    simp only [fit, Except.bind, Sinusoid.ofPopt]
    norm_num [List.range_succ, osub, e1, e2]
  have hm : ¬ hasMissing g = true := fun hh => grating_full hg ((HeightParams.mem_none_iff_hasMissing g).1 hh)
  have w3 : (((4 : Nat) : ℝ) - 1) * 1 = 3 := by norm_num
  have h2 : (((3 : Nat) : ℝ) - 1) * 1 = 2 := by norm_num
  unfold depth
  rw [if_neg hm]
  simp only [ny3, nx4, w3, h2, hθ, hp, Except.bind, hθ0]
  norm_num
  have hrow : ∀ r, (rowOf g r).length = 4 := fun r => by simp [rowOf, nx4]
  have hp1 : pyInt (1 : ℝ) = 1 := by simp [pyInt]
  obtain ⟨x0, e0⟩ := hline 3 _ (hrow 0)
  obtain ⟨x1, e1⟩ := hline 3 _ (hrow 1)
  obtain ⟨x2, e2⟩ := hline 3 _ (hrow 2)
  have hr : List.range (Int.toNat 3) = [0, 1, 2] := rfl
  have q : ∀ i, profileIndex 3 (Int.toNat 3) i = i := fun i => by show 1 * i = i; omega
  rw [hp1, hr]
  simp only [List.mapM_cons, List.mapM_nil, q]
  norm_num [e0, e1, e2, bind, Except.bind, pure, Except.pure, Except.map, measured]
  rw [if_neg (by simp)]
  exact ⟨_, _, rfl⟩

end Surfalize.Props
