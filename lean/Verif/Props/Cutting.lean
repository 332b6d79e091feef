import Verif.Props.Geometry

/-!
# C110 — cutting out parts composes
-/
set_option linter.unusedSectionVars false
namespace Surfalize.Props
open Surfalize Geometry Spec

namespace Cutting
variable {α : Type}

/-- A block is determined by its place and shape. -/
theorem block_unique {g h k : Grid α} {y0 x0 ny nx : Nat} (h1 : IsBlock g h y0 x0 ny nx) (h2 : IsBlock g k y0 x0 ny nx) : h = k := by
  obtain ⟨w1, ⟨s1, t1⟩, -, p1⟩ := h1
  obtain ⟨w2, ⟨s2, t2⟩, -, p2⟩ := h2
  obtain ⟨hr, hn⟩ := h
  obtain ⟨kr, kn⟩ := k
  have l1 : hr.length = ny := s1
  have l2 : kr.length = ny := s2
  have m1 : hn = nx := t1
  have m2 : kn = nx := t2
  subst m1
  subst m2
  congr 1
  apply List.ext_getElem (by omega)
  intro i hi hi'
  have e1 : hr[i].length = kn := w1 _ (List.getElem_mem hi)
  have e2 : kr[i].length = kn := w2 _ (List.getElem_mem hi')
  apply List.ext_getElem (by omega)
  intro j hj hj'
  have q1 := p1 i (by omega) j (by omega)
  have q2 := p2 i (by omega) j (by omega)
  rw [← q2] at q1
  simpa [at?, hi, hi', hj, hj'] using q1

/-- A block of a block. -/
theorem block_trans {g h k : Grid α} {y0 x0 ny nx v0 u0 my mx : Nat} (h1 : IsBlock g h y0 x0 ny nx) (h2 : IsBlock h k v0 u0 my mx) :
    IsBlock g k (y0 + v0) (x0 + u0) my mx := by
  obtain ⟨w1, ⟨s1, t1⟩, ⟨i1, i2⟩, p1⟩ := h1
  obtain ⟨w2, s2, ⟨j1, j2⟩, p2⟩ := h2
  refine ⟨w2, s2, ⟨by omega, by omega⟩, fun i hi j hj => ?_⟩
  rw [p2 i hi j hj, p1 _ (by omega) _ (by omega), Nat.add_assoc, Nat.add_assoc]

variable {K : Type} [Field K] [LinearOrder K] [IsStrictOrderedRing K] [FloorRing K]

/-- Rounding is shifted along unless the value lies exactly between two pixels and the shift is odd. -/
theorem round_shift (X : Nat) (q : K) (h : X % 2 = 0 ∨ q - ⌊q⌋ ≠ 1 / 2) : pyRound ((X : K) + q) = X + pyRound q := by
  have hf : ⌊(X : K) + q⌋ = (X : Int) + ⌊q⌋ := by
    rw [show ((X : K)) = ((X : Int) : K) by simp, Int.floor_intCast_add]
  have e : (X : K) + q - (((X : Int) + ⌊q⌋ : Int) : K) = q - ⌊q⌋ := by
    push_cast; ring
  unfold pyRound
  simp only [hf, e]
  by_cases h1 : q - (⌊q⌋ : K) < 1 / 2
  · rw [if_pos h1, if_pos h1]
  · rw [if_neg h1, if_neg h1]
    by_cases h2 : 1 / 2 < q - (⌊q⌋ : K)
    · rw [if_pos h2, if_pos h2]; ring
    · rw [if_neg h2, if_neg h2]
      have h3 : q - (⌊q⌋ : K) = 1 / 2 := le_antisymm (not_lt.1 h2) (not_lt.1 h1)
      rcases h with h | h
      · have : ((X : Int) + ⌊q⌋) % 2 = ⌊q⌋ % 2 := by omega
        rw [this]
        split <;> ring
      · exact absurd h3 h

theorem sliceIdx_neg (n : Nat) (s : PySlice) (hk : s.step.getD 1 < 0) : ∃ A B : Int, A ≤ (n : Int) - 1 ∧ -1 ≤ B ∧
    ∀ i : Nat, sliceIdx n s i = if B < A + i * s.step.getD 1 then some (A + i * s.step.getD 1).toNat else none := by
  unfold sliceIdx
  simp only [if_neg (show ¬ 0 < s.step.getD 1 by omega)]
  refine ⟨_, _, ?_, ?_, fun i => rfl⟩
  · cases s.start <;> simp only <;> omega
  · cases s.stop <;> simp only <;> omega

theorem sliceIdx_pos (n : Nat) (s : PySlice) (hk : 0 < s.step.getD 1) : ∃ A B : Int, 0 ≤ A ∧ B ≤ n ∧
    ∀ i : Nat, sliceIdx n s i = if A + i * s.step.getD 1 < B then some (A + i * s.step.getD 1).toNat else none := by
  unfold sliceIdx
  simp only [if_pos hk]
  refine ⟨_, _, ?_, ?_, fun i => rfl⟩
  · cases s.start <;> simp only <;> omega
  · cases s.stop <;> simp only <;> omega

/-- The indices selected by a slice form an arithmetic progression inside the sequence. -/
theorem slice_progression (n : Nat) (s : PySlice) (hs : s.step ≠ some 0) :
    ∃ (F : Int) (m : Nat), (∀ i : Nat, sliceIdx n s i = if i < m then some (F + i * s.step.getD 1).toNat else none) ∧
      ∀ i : Nat, i < m → 0 ≤ F + i * s.step.getD 1 ∧ F + i * s.step.getD 1 < n := by
  obtain ⟨sa, sb, sk⟩ := s
  have hk0 : sk.getD 1 ≠ 0 := by
    cases sk with
    | none => simp
    | some k => intro h; exact hs (by simpa using h)
  -- the number of terms of a progression before a bound
  have cnt : ∀ (k d : Int), 0 < k → ∃ m : Nat, ∀ i : Nat, (i : Int) * k < d ↔ i < m := by
    intro k d hk
    refine ⟨((d + k - 1) / k).toNat, fun i => ?_⟩
    have key : (i : Int) * k < d ↔ (i : Int) < (d + k - 1) / k := by
      rw [Int.lt_iff_add_one_le, ← Int.lt_iff_add_one_le, ← Int.add_one_le_iff (a := (i : Int)), Int.le_ediv_iff_mul_le hk]
      constructor <;> intro h <;> nlinarith
    rw [key]
    omega
  rcases lt_or_gt_of_ne hk0 with hk | hk
  · obtain ⟨A, B, hA', hB', e⟩ := sliceIdx_neg n ⟨sa, sb, sk⟩ hk
    simp only [e]
    generalize sk.getD 1 = k at hk ⊢
    obtain ⟨m, hm⟩ := cnt (-k) (A - B) (by omega)
    refine ⟨A, m, fun i => ?_, fun i hi => ?_⟩
    · have : B < A + i * k ↔ i < m := by rw [← hm i]; constructor <;> intro h <;> nlinarith
      simp only [this]
    · have h1 := (hm i).2 hi
      have h2 : (i : Int) * k ≤ 0 := mul_nonpos_of_nonneg_of_nonpos (by omega) (by omega)
      have h3 : (i : Int) * -k = -(i * k) := by ring
      rw [h3] at h1
      generalize (i : Int) * k = z at h1 h2 ⊢
      omega
  · obtain ⟨A, B, hA', hB', e⟩ := sliceIdx_pos n ⟨sa, sb, sk⟩ hk
    simp only [e]
    generalize sk.getD 1 = k at hk ⊢
    obtain ⟨m, hm⟩ := cnt k (B - A) hk
    refine ⟨A, m, fun i => ?_, fun i hi => ?_⟩
    · have : A + i * k < B ↔ i < m := by rw [← hm i]; constructor <;> intro h <;> linarith
      simp only [this]
    · have h1 := (hm i).2 hi
      have h2 : 0 ≤ (i : Int) * k := mul_nonneg (by omega) (by omega)
      generalize (i : Int) * k = z at h1 h2 ⊢
      omega

/-- Every arithmetic progression inside a sequence is selected by a slice with its difference as the step. -/
theorem progression_slice (n : Nat) (F k : Int) (m : Nat) (hk : k ≠ 0) (h : ∀ i : Nat, i < m → 0 ≤ F + i * k ∧ F + i * k < n) :
    ∃ s : PySlice, s.step = some k ∧ ∀ i : Nat, sliceIdx n s i = if i < m then some (F + i * k).toNat else none := by
  rcases Nat.eq_zero_or_pos m with rfl | hm
  · refine ⟨⟨some 0, some 0, some k⟩, rfl, fun i => ?_⟩
    unfold sliceIdx
    simp only [Option.getD_some]
    rcases lt_or_gt_of_ne hk with hk | hk
    · have : (i : Int) * k ≤ 0 := mul_nonpos_of_nonneg_of_nonpos (by omega) (by omega)
      rw [if_neg (by omega), if_neg (by omega), if_neg (by omega)]
    · have : 0 ≤ (i : Int) * k := mul_nonneg (by omega) (by omega)
      rw [if_pos hk, if_neg (by omega), if_neg (by omega)]
  · obtain ⟨f0, f1⟩ := h 0 hm
    simp only [Nat.cast_zero, zero_mul, add_zero] at f0 f1
    obtain ⟨l0, l1⟩ := h (m - 1) (by omega)
    rcases lt_or_gt_of_ne hk with hk | hk
    · by_cases hl : F + ((m - 1 : Nat) : Int) * k = 0
      · refine ⟨⟨some F, none, some k⟩, rfl, fun i => ?_⟩
        unfold sliceIdx
        simp only [Option.getD_some]
        rw [if_neg (by omega), if_neg (by omega : ¬ F < 0), min_eq_right (by omega), max_eq_right (by omega)]
        have : -1 < F + i * k ↔ i < m := by
          constructor
          · intro hi
            by_contra hc
            have : ((m - 1 : Nat) : Int) + 1 ≤ i := by omega
            nlinarith
          · intro hi
            have := (h i hi).1
            omega
        simp only [this]
      · refine ⟨⟨some F, some (F + ((m - 1 : Nat) : Int) * k - 1), some k⟩, rfl, fun i => ?_⟩
        unfold sliceIdx
        simp only [Option.getD_some]
        rw [if_neg (by omega), if_neg (by omega : ¬ F < 0), if_neg (show ¬ F + ((m - 1 : Nat) : Int) * k - 1 < 0 by omega), min_eq_right (by omega), max_eq_right (by omega),
          min_eq_right (by omega), max_eq_right (by omega)]
        have : F + ((m - 1 : Nat) : Int) * k - 1 < F + i * k ↔ i < m := by
          constructor
          · intro hi
            by_contra hc
            have : ((m - 1 : Nat) : Int) + 1 ≤ i := by omega
            nlinarith
          · intro hi
            have : (i : Int) ≤ ((m - 1 : Nat) : Int) := by omega
            nlinarith
        simp only [this]
    · refine ⟨⟨some F, some (F + ((m - 1 : Nat) : Int) * k + 1), some k⟩, rfl, fun i => ?_⟩
      unfold sliceIdx
      simp only [Option.getD_some]
      rw [if_pos hk, if_neg (by omega : ¬ F < 0), if_neg (show ¬ F + ((m - 1 : Nat) : Int) * k + 1 < 0 by omega), min_eq_right (by omega), max_eq_right (by omega),
        min_eq_right (by omega), max_eq_right (by omega)]
      have : F + i * k < F + ((m - 1 : Nat) : Int) * k + 1 ↔ i < m := by
        constructor
        · intro hi
          by_contra hc
          have : ((m - 1 : Nat) : Int) + 1 ≤ i := by omega
          nlinarith
        · intro hi
          have : (i : Int) ≤ ((m - 1 : Nat) : Int) := by omega
          nlinarith
      simp only [this]

theorem apply_map {β : Type} (s : PySlice) (l : List α) (f : α → β) : s.apply (l.map f) = (s.apply l).map (List.map f) := by
  by_cases h0 : s.step = some 0
  · rw [(apply_none_iff s _).2 h0, (apply_none_iff s _).2 h0]; rfl
  · obtain ⟨r, hr⟩ := Option.ne_none_iff_exists'.1 (fun hn => h0 ((apply_none_iff s l).1 hn))
    obtain ⟨r', hr'⟩ := Option.ne_none_iff_exists'.1 (fun hn => h0 ((apply_none_iff s (l.map f)).1 hn))
    rw [hr, hr', Option.map_some]
    congr 1
    apply List.ext_getElem?
    intro i
    rw [apply_getElem? s _ _ hr', List.getElem?_map, apply_getElem? s _ _ hr, List.length_map]
    cases sliceIdx l.length s i with
    | none => rfl
    | some y => simp

theorem mem_apply {s : PySlice} {l r : List α} (h : s.apply l = some r) {x : α} (hx : x ∈ r) : x ∈ l := by
  obtain ⟨i, hi⟩ := List.mem_iff_getElem?.1 hx
  rw [apply_getElem? s _ _ h] at hi
  cases hs : sliceIdx l.length s i with
  | none => rw [hs] at hi; simp at hi
  | some y => rw [hs] at hi; exact List.mem_of_getElem? hi

/-- Two slices one after the other are one slice whose step is the product. -/
theorem slice_slice (n : Nat) (s1 s2 : PySlice) (h1 : s1.step ≠ some 0) (h2 : s2.step ≠ some 0) :
    ∃ s : PySlice, s.step = some (s1.step.getD 1 * s2.step.getD 1) ∧ s.step ≠ some 0 ∧
      ∀ (β : Type) (l : List β), l.length = n → (s1.apply l).bind s2.apply = s.apply l := by
  have nz : ∀ s : PySlice, s.step ≠ some 0 → s.step.getD 1 ≠ 0 := by
    intro s hs
    cases hh : s.step with
    | none => simp
    | some k => intro e; exact hs (by rw [hh]; simpa using e)
  obtain ⟨F1, m1, p1, q1⟩ := slice_progression n s1 h1
  obtain ⟨F2, m2, p2, q2⟩ := slice_progression m1 s2 h2
  have hk1 := nz s1 h1
  have hk2 := nz s2 h2
  generalize s1.step.getD 1 = k1 at *
  generalize s2.step.getD 1 = k2 at *
  have idx : ∀ i : Nat, i < m2 → F1 + ((F2 + i * k2).toNat : Int) * k1 = F1 + F2 * k1 + i * (k1 * k2) := by
    intro i hi
    rw [Int.toNat_of_nonneg (q2 i hi).1]; ring
  obtain ⟨s, hs, ps⟩ := progression_slice n (F1 + F2 * k1) (k1 * k2) m2 (mul_ne_zero hk1 hk2) (by
    intro i hi
    have := q2 i hi
    have := q1 (F2 + i * k2).toNat (by omega)
    rw [idx i hi] at this
    exact this)
  have hs0 : s.step ≠ some 0 := by
    rw [hs]; intro h; exact mul_ne_zero hk1 hk2 (Option.some.inj h)
  refine ⟨s, hs, hs0, fun β l hl => ?_⟩
  obtain ⟨r1, hr1⟩ := Option.ne_none_iff_exists'.1 (fun hn => h1 ((apply_none_iff s1 l).1 hn))
  obtain ⟨r2, hr2⟩ := Option.ne_none_iff_exists'.1 (fun hn => h2 ((apply_none_iff s2 r1).1 hn))
  obtain ⟨r, hr⟩ := Option.ne_none_iff_exists'.1 (fun hn => hs0 ((apply_none_iff s l).1 hn))
  have g1 : ∀ i, r1[i]? = if i < m1 then l[(F1 + i * k1).toNat]? else none := by
    intro i
    rw [apply_getElem? s1 _ _ hr1, hl, p1]
    split <;> rfl
  have len1 : r1.length = m1 := by
    apply le_antisymm
    · by_contra hc
      have := g1 m1
      rw [if_neg (by omega), List.getElem?_eq_none_iff] at this
      omega
    · by_contra hc
      have := g1 r1.length
      rw [if_pos (by omega), List.getElem?_eq_none le_rfl, eq_comm, List.getElem?_eq_none_iff] at this
      have := q1 r1.length (by omega)
      omega
  rw [hr1, hr, Option.bind_some, hr2]
  congr 1
  apply List.ext_getElem?
  intro i
  rw [apply_getElem? s2 _ _ hr2, apply_getElem? s _ _ hr, len1, hl, p2, ps]
  by_cases hi : i < m2
  · rw [if_pos hi, if_pos hi, Option.bind_some, Option.bind_some, g1, if_pos (by have := q2 i hi; omega), idx i hi]
  · rw [if_neg hi, if_neg hi]; rfl

end Cutting
open Cutting

section
variable {α : Type} {K : Type} [Field K] [LinearOrder K] [IsStrictOrderedRing K] [FloorRing K]

/-- **C110** (pixels). Cropping to a box and the result to a second box, both in pixels, is cropping once to the second box
moved by the corner of the first. -/
theorem C110_crop_px (g : Grid α) (hwf : g.WF) (x0 x1 y0 y1 u0 u1 v0 v1 : Nat)
    (hx : x0 ≤ x1) (hx1 : x1 ≤ g.nx - 1) (hnx : 0 < g.nx) (hy : y0 ≤ y1) (hy1 : y1 ≤ g.ny - 1) (hny : 0 < g.ny)
    (hu : u0 ≤ u1) (hu1 : u1 ≤ x1 - x0) (hv : v0 ≤ v1) (hv1 : v1 ≤ y1 - y0) :
    ∃ h k, cropPx g x0 x1 y0 y1 = .ok h ∧ cropPx h u0 u1 v0 v1 = .ok k ∧
      cropPx g (x0 + u0 : Nat) (x0 + u1 : Nat) (y0 + v0 : Nat) (y0 + v1 : Nat) = .ok k := by
  obtain ⟨h, hh, b1⟩ := C22_crop_px g hwf x0 x1 y0 y1 hx hx1 hnx hy hy1 hny
  obtain ⟨k, hk, b2⟩ := C22_crop_px h b1.wf u0 u1 v0 v1 hu (by rw [b1.shape.2]; omega) (by rw [b1.shape.2]; omega) hv
    (by rw [b1.shape.1]; omega) (by rw [b1.shape.1]; omega)
  obtain ⟨k', hk', b3⟩ := C22_crop_px g hwf (x0 + u0) (x0 + u1) (y0 + v0) (y0 + v1) (by omega) (by omega) hnx (by omega) (by omega) hny
  have b4 := block_trans b1 b2
  rw [show y0 + v1 - (y0 + v0) + 1 = v1 - v0 + 1 by omega, show x0 + u1 - (x0 + u0) + 1 = u1 - u0 + 1 by omega] at b3
  rw [block_unique b3 b4] at hk'
  exact ⟨h, k, hh, hk, hk'⟩

/-- **C110** (lengths). Cropping to a box whose lower left corner lies on a point (column `X`, row `Y` from below), and the result
to a second box, both in µm, is cropping once to the second box moved by the corner of the first, provided no bound of the second
box lies exactly half-way between two points of the grid (or the corner has even indices). -/
theorem C110_crop_units_partial (g : Grid α) (hwf : g.WF) (sx sy b1 b3 c0 c1 c2 c3 : K) (X Y : Nat)
    (hsx : 0 < sx) (hsy : 0 < sy) (hnx : 0 < g.nx) (hny : 0 < g.ny)
    (h1 : X * sx ≤ b1) (h2 : b1 ≤ ((g.nx : K) - 1) * sx) (h3 : Y * sy ≤ b3) (h4 : b3 ≤ ((g.ny : K) - 1) * sy)
    (k0 : 0 ≤ c0) (k1 : c0 ≤ c1) (k2 : X * sx + c1 ≤ b1) (k3 : 0 ≤ c2) (k4 : c2 ≤ c3) (k5 : Y * sy + c3 ≤ b3)
    (tx : X % 2 = 0 ∨ c0 / sx - ⌊c0 / sx⌋ ≠ 1 / 2 ∧ c1 / sx - ⌊c1 / sx⌋ ≠ 1 / 2)
    (ty : Y % 2 = 0 ∨ c2 / sy - ⌊c2 / sy⌋ ≠ 1 / 2 ∧ c3 / sy - ⌊c3 / sy⌋ ≠ 1 / 2) :
    ∃ h k, cropUnits g sx sy (X * sx) b1 (Y * sy) b3 = .ok h ∧ cropUnits h sx sy c0 c1 c2 c3 = .ok k ∧
      cropUnits g sx sy (X * sx + c0) (X * sx + c1) (Y * sy + c2) (Y * sy + c3) = .ok k := by
  have r0 : ∀ {b s : K}, 0 < s → 0 ≤ b → 0 ≤ pyRound (b / s) := by
    intro b s hs hb
    have := pyRound_mono (K := K) (x := ((0 : Int) : K)) (y := b / s) (by simpa using div_nonneg hb hs.le)
    rwa [pyRound_intCast] at this
  have rn : ∀ {b s : K} {n : Nat}, 0 < n → 0 < s → b ≤ ((n : K) - 1) * s → pyRound (b / s) ≤ (n : Int) - 1 := by
    intro b s n hn hs hb
    have e : ((n : K) - 1) = (((n : Int) - 1 : Int) : K) := by push_cast; rfl
    have := pyRound_mono (K := K) (x := b / s) (y := (((n : Int) - 1 : Int) : K)) (by
      rw [div_le_iff₀ hs, ← e]; exact hb)
    rwa [pyRound_intCast] at this
  have m : ∀ {b c s : K}, 0 < s → b ≤ c → pyRound (b / s) ≤ pyRound (c / s) := by
    intro b c s hs hb
    exact pyRound_mono (div_le_div_of_nonneg_right hb hs.le)
  have sh : ∀ {X : Nat} {s c : K}, 0 < s → (X % 2 = 0 ∨ c / s - ⌊c / s⌋ ≠ 1 / 2) → pyRound ((X * s + c) / s) = X + pyRound (c / s) := by
    intro X s c hs ht
    rw [add_div, mul_div_cancel_right₀ _ hs.ne', round_shift X _ ht]
  have e0 : ∀ {X : Nat} {s : K}, 0 < s → pyRound ((X * s) / s) = (X : Int) := by
    intro X s hs
    rw [mul_div_cancel_right₀ _ hs.ne']
    exact_mod_cast pyRound_intCast (K := K) (X : Int)
  have s0 := sh (X := X) (c := c0) hsx (tx.imp id fun h => h.1)
  have s1 := sh (X := X) (c := c1) hsx (tx.imp id fun h => h.2)
  have s2 := sh (X := Y) (c := c2) hsy (ty.imp id fun h => h.1)
  have s3 := sh (X := Y) (c := c3) hsy (ty.imp id fun h => h.2)
  have a1 := m hsx h1
  have a2 := rn hnx hsx h2
  have a3 := m hsy h3
  have a4 := rn hny hsy h4
  have d0 := r0 hsx k0
  have d1 := m hsx k1
  have d2 := m hsx k2
  have d3 := r0 hsy k3
  have d4 := m hsy k4
  have d5 := m hsy k5
  rw [e0 hsx] at a1
  rw [e0 hsy] at a3
  rw [s1] at d2
  rw [s3] at d5
  obtain ⟨B1, f1⟩ : ∃ x : Nat, pyRound (b1 / sx) = (x : Int) := ⟨_, (Int.toNat_of_nonneg (by omega)).symm⟩
  obtain ⟨B3, f3⟩ : ∃ x : Nat, pyRound (b3 / sy) = (x : Int) := ⟨_, (Int.toNat_of_nonneg (by omega)).symm⟩
  obtain ⟨C0, i0⟩ : ∃ x : Nat, pyRound (c0 / sx) = (x : Int) := ⟨_, (Int.toNat_of_nonneg (by omega)).symm⟩
  obtain ⟨C1, i1⟩ : ∃ x : Nat, pyRound (c1 / sx) = (x : Int) := ⟨_, (Int.toNat_of_nonneg (by omega)).symm⟩
  obtain ⟨C2, i2⟩ : ∃ x : Nat, pyRound (c2 / sy) = (x : Int) := ⟨_, (Int.toNat_of_nonneg (by omega)).symm⟩
  obtain ⟨C3, i3⟩ : ∃ x : Nat, pyRound (c3 / sy) = (x : Int) := ⟨_, (Int.toNat_of_nonneg (by omega)).symm⟩
  rw [f1] at a1 a2 d2
  rw [f3] at a3 a4 d5
  rw [i0] at d0 d1 s0
  rw [i1] at d1 d2 s1
  rw [i2] at d3 d4 s2
  rw [i3] at d4 d5 s3
  obtain ⟨h, q1, b1'⟩ := C22_crop_px g hwf X B1 (g.ny - 1 - B3) (g.ny - 1 - Y) (by omega) (by omega) hnx (by omega) (by omega) hny
  obtain ⟨h', k, q2, q3, q4⟩ := C110_crop_px g hwf X B1 (g.ny - 1 - B3) (g.ny - 1 - Y) C0 C1 (B3 - Y - C3) (B3 - Y - C2)
    (by omega) (by omega) hnx (by omega) (by omega) hny (by omega) (by omega) (by omega) (by omega)
  obtain rfl : h' = h := by rw [q1] at q2; exact (Except.ok.inj q2).symm
  have hn : h'.ny = B3 - Y + 1 := by rw [b1'.shape.1]; omega
  refine ⟨h', k, ?_, ?_, ?_⟩
  · unfold cropUnits
    simp only [e0 hsx, e0 hsy, f1, f3]
    rw [← q1]
    congr 1 <;> omega
  · unfold cropUnits
    simp only [i0, i1, i2, i3, hn]
    rw [← q3]
    congr 1 <;> omega
  · unfold cropUnits
    simp only [s0, s1, s2, s3]
    rw [← q4]
    congr 1 <;> omega

/-- **C110** (slices). Slicing a slice is slicing once; the steps of the two slices multiply, and with them the step sizes. -/
theorem C110_slices (g : Grid α) (hwf : g.WF) (stepY stepX : K) (sy1 sx1 sy2 sx2 : PySlice)
    (h1 : sy1.step ≠ some 0) (h2 : sx1.step ≠ some 0) (h3 : sy2.step ≠ some 0) (h4 : sx2.step ≠ some 0) :
    ∃ sy sx : PySlice, sy.step = some (sy1.step.getD 1 * sy2.step.getD 1) ∧ sx.step = some (sx1.step.getD 1 * sx2.step.getD 1) ∧
      ((getitem g stepY stepX (.two (.sl sy1) (.sl sx1))).bind fun r => getitem r.1 r.2.1 r.2.2 (.two (.sl sy2) (.sl sx2))) =
        getitem g stepY stepX (.two (.sl sy) (.sl sx)) := by
  obtain ⟨sy, ey, ny, py⟩ := slice_slice g.ny sy1 sy2 h1 h3
  obtain ⟨sx, ex, nx, px⟩ := slice_slice g.nx sx1 sx2 h2 h4
  refine ⟨sy, sx, ey, ex, ?_⟩
  obtain ⟨r1, hr1⟩ := Option.ne_none_iff_exists'.1 (fun hn => h1 ((apply_none_iff sy1 g.rows).1 hn))
  obtain ⟨c1, hc1⟩ := Option.ne_none_iff_exists'.1 (fun hn => h2 ((apply_none_iff sx1 (List.replicate g.nx ())).1 hn))
  obtain ⟨r2, hr2⟩ := Option.ne_none_iff_exists'.1 (fun hn => h3 ((apply_none_iff sy2 r1).1 hn))
  obtain ⟨c2, hc2⟩ := Option.ne_none_iff_exists'.1 (fun hn => h4 ((apply_none_iff sx2 c1).1 hn))
  have u : c1 = List.replicate c1.length () := by
    rw [List.eq_replicate_iff]; exact ⟨rfl, fun b _ => rfl⟩
  have q1 := py _ g.rows rfl
  have q2 := px _ (List.replicate g.nx ()) (by simp)
  rw [hr1, Option.bind_some, hr2] at q1
  rw [hc1, Option.bind_some, hc2] at q2
  have lhs : getitem g stepY stepX (.two (.sl sy1) (.sl sx1)) = .ok (⟨r1.map fun r => (sx1.apply r).getD [], c1.length⟩,
      newStep stepY (.sl sy1), newStep stepX (.sl sx1)) := by
    simp only [getitem, hr1, hc1]
  rw [lhs]
  simp only [Except.bind]
  simp only [getitem, apply_map, hr2, Option.map_some, ← u, hc2, ← q1, ← q2]
  congr 2
  · congr 1
    rw [List.map_map]
    apply List.map_congr_left
    intro r hr
    have hl : r.length = g.nx := hwf r (mem_apply hr1 (mem_apply hr2 hr))
    have := px _ r hl
    obtain ⟨a, ha⟩ := Option.ne_none_iff_exists'.1 (fun hn => h2 ((apply_none_iff sx1 r).1 hn))
    rw [ha, Option.bind_some] at this
    simp only [Function.comp, ha, Option.getD_some, this]
  · rw [newStep_eq, newStep_eq, newStep_eq, newStep_eq, newStep_eq, newStep_eq, ey, ex]
    simp only [Option.getD_some]
    push_cast
    congr 1 <;> ring

/-- **C110** (profiles). The profile of a cropped surface at a row other than its last is the cropped profile of the surface at
the same row. -/
theorem C110_profile_partial (g : Grid (Option K)) (hwf : g.WF) (stepY : K) (hs : 0 < stepY) (x0 x1 y0 y1 i : Nat)
    (hx : x0 < x1) (hx1 : x1 ≤ g.nx - 1) (hy1 : y1 ≤ g.ny - 1) (hny : 0 < g.ny) (hi : y0 + i < y1) :
    ∃ h row prow, cropPx g x0 x1 y0 y1 = .ok h ∧
      horizontalProfile g stepY (((g.ny : K) - 1) * stepY) (((y0 + i : Nat) : K) * stepY) 1 none = .ok row ∧
      horizontalProfile h stepY (((h.ny : K) - 1) * stepY) ((i : K) * stepY) 1 none = .ok prow ∧ crop1Px row x0 x1 = .ok prow := by
  obtain ⟨h, hh, b⟩ := C22_crop_px g hwf x0 x1 y0 y1 (by omega) hx1 (by omega) (by omega) hy1 hny
  have hn : h.ny = y1 - y0 + 1 := b.shape.1
  have lt : ∀ {a n : Nat}, a + 1 < n → (a : K) * stepY < ((n : K) - 1) * stepY := by
    intro a n han
    apply mul_lt_mul_of_pos_right _ hs
    have : ((a + 1 : Nat) : K) < n := by exact_mod_cast han
    push_cast at this
    linarith
  obtain ⟨r, row, r1, r2, r3, r4⟩ := C25_horizontal_partial g hwf stepY (((y0 + i : Nat) : K) * stepY) none hs (by omega) (by simp)
    (mul_nonneg (by positivity) hs.le) (lt (by omega))
  obtain ⟨q, prow, q1, q2, q3, q4⟩ := C25_horizontal_partial h b.wf stepY ((i : K) * stepY) none hs (by omega) (by simp)
    (mul_nonneg (by positivity) hs.le) (lt (by omega))
  have e1 := r4 _ rfl
  have e2 := q4 _ rfl
  subst e1 e2
  have lr : row.length = g.nx := hwf row (List.mem_of_getElem? r2)
  have lp : prow.length = h.nx := b.wf prow (List.mem_of_getElem? q2)
  have hc := (C22_crop_profile row x0 x1).1 ⟨by omega, by omega, by omega⟩
  refine ⟨h, row, prow, hh, r3, q3, ?_⟩
  obtain ⟨c, hc1, hc2⟩ := hc
  rw [hc1]
  congr 1
  have lc := hc2.len
  have hnx : h.nx = x1 - x0 + 1 := b.shape.2
  apply List.ext_getElem?
  intro j
  by_cases hj : j < x1 - x0 + 1
  · have p1 := hc2.points j (by omega)
    have p2 := b.points q (by omega) j hj
    simp only [at?, q2, r2, Option.bind_some] at p2
    rw [p1, p2]
    simp
  · rw [List.getElem?_eq_none (by omega), List.getElem?_eq_none (by omega)]

/-- **C110 fails** for the last row of the cut (through the defect of C25): for every surface with at least three rows, cut off
its last row, and the profile at the last row of the cut consists of non-measured points, while the surface has that row as its
profile at the same place. -/
theorem C110_profile_violated (g : Grid (Option K)) (hwf : g.WF) (stepY : K) (hs : 0 < stepY) (hny : 3 ≤ g.ny) (hnx : 0 < g.nx) :
    ∃ h row, cropPx g 0 ((g.nx : Int) - 1) 0 ((g.ny : Int) - 2) = .ok h ∧ g.rows[g.ny - 2]? = some row ∧
      horizontalProfile g stepY (((g.ny : K) - 1) * stepY) (((g.ny : K) - 2) * stepY) 1 none = .ok row ∧
      horizontalProfile h stepY (((h.ny : K) - 1) * stepY) (((g.ny : K) - 2) * stepY) 1 none = .ok (List.replicate g.nx none) := by
  obtain ⟨h, hh, b⟩ := C22_crop_px g hwf 0 (g.nx - 1) 0 (g.ny - 2) (by omega) (by omega) hnx (by omega) (by omega) (by omega)
  have hn : h.ny = g.ny - 1 := by rw [b.shape.1]; omega
  have hnc : (h.ny : K) = (g.ny : K) - 1 := by rw [hn, Nat.cast_sub (by omega)]; simp
  have hx : h.nx = g.nx := by rw [b.shape.2]; omega
  have e2 : ((g.ny - 2 : Nat) : K) = (g.ny : K) - 2 := by rw [Nat.cast_sub (by omega)]; simp
  obtain ⟨r, row, r1, r2, r3, r4⟩ := C25_horizontal_partial g hwf stepY (((g.ny : K) - 2) * stepY) none hs (by omega) (by simp)
    (by rw [← e2]; positivity) (mul_lt_mul_of_pos_right (by linarith) hs)
  have e3 := r4 (g.ny - 2) (by rw [e2])
  subst e3
  refine ⟨h, row, ?_, r2, r3, ?_⟩
  · rw [← hh]
    congr 1 <;> omega
  · have := C25_last_row_is_nan h stepY hs (by omega)
    rw [hx] at this
    rw [← this]
    congr 2
    rw [hnc]; ring

end

/-- The hypotheses are met: a 3×5 surface, a box with an odd corner, a second box off the points, two slices. -/
example : (∃ h, cropUnits (⟨[[0, 1, 2, 3, 4], [5, 6, 7, 8, 9], [10, 11, 12, 13, 14]], 5⟩ : Grid Int) (1/2 : ℚ) (1/2) (1/2) 2 (1/2) 1 = .ok h ∧
      cropUnits h (1/2 : ℚ) (1/2) (1/5) 1 (2/5) (1/2) = .ok ⟨[[1, 2, 3]], 3⟩) ∧
    cropUnits (⟨[[0, 1, 2, 3, 4], [5, 6, 7, 8, 9], [10, 11, 12, 13, 14]], 5⟩ : Grid Int) (1/2 : ℚ) (1/2) (7/10) (3/2) (9/10) 1 =
      .ok ⟨[[1, 2, 3]], 3⟩ := by
  exact ⟨⟨⟨[[1, 2, 3, 4], [6, 7, 8, 9]], 4⟩, by decide +kernel, by decide +kernel⟩, by decide +kernel⟩

example : getitem (⟨[[0, 1, 2, 3, 4, 5, 6]], 7⟩ : Grid Int) (1 : ℚ) 1 (.two (.sl ⟨none, none, none⟩) (.sl ⟨some 1, none, some 2⟩)) =
      .ok (⟨[[1, 3, 5]], 3⟩, 1, 2) ∧
    getitem (⟨[[1, 3, 5]], 3⟩ : Grid Int) (1 : ℚ) 2 (.two (.sl ⟨none, none, none⟩) (.sl ⟨none, none, some (-2)⟩)) =
      .ok (⟨[[5, 1]], 2⟩, 1, -4) ∧
    getitem (⟨[[0, 1, 2, 3, 4, 5, 6]], 7⟩ : Grid Int) (1 : ℚ) 1 (.two (.sl ⟨none, none, none⟩) (.sl ⟨some 5, some 0, some (-4)⟩)) =
      .ok (⟨[[5, 1]], 2⟩, 1, -4) := by
  refine ⟨?_, ?_, ?_⟩ <;> decide +kernel

/-- **C110 fails** for bounds half-way between two points: Python rounds halves to the even pixel, so that the result depends on
whether the corner of the first box is odd: cropping twice keeps three points, cropping once only one. -/
theorem C110_crop_units_violated :
    ∃ h, cropUnits (⟨[[0, 1, 2, 3, 4]], 5⟩ : Grid Int) (1 : ℚ) 1 1 4 0 0 = .ok h ∧
      cropUnits h (1 : ℚ) 1 (1/2) (3/2) 0 0 = .ok ⟨[[1, 2, 3]], 3⟩ ∧
      cropUnits (⟨[[0, 1, 2, 3, 4]], 5⟩ : Grid Int) (1 : ℚ) 1 (1 + 1/2) (1 + 3/2) 0 0 = .ok ⟨[[2]], 1⟩ := by
  exact ⟨⟨[[1, 2, 3, 4]], 4⟩, by decide +kernel, by decide +kernel, by decide +kernel⟩

end Surfalize.Props
