import Verif.Lemmas.Py
import Verif.Model.Geometry
import Verif.Spec.Geometry

/-! Helper lemmas for the geometry properties. -/
set_option linter.unusedSectionVars false
namespace Surfalize.Geometry
open Surfalize Spec
variable {α : Type}

theorem slice1_isBlock (l : List α) {a b : Nat} (hab : a ≤ b) (hb : b ≤ l.length) :
    IsBlock1 l ((l.take b).drop a) a (b - a) where
  len := by simp; omega
  inside := by omega
  points := by
    intro i hi
    rw [List.getElem?_drop, List.getElem?_take, if_pos (by omega)]

theorem slice2_isBlock (g : Grid α) (hwf : g.WF) {a b c d : Nat} (hab : a ≤ b) (hb : b ≤ g.ny)
    (hcd : c ≤ d) (hd : d ≤ g.nx) (n : Nat) (hn : n = d - c) :
    IsBlock g { rows := ((g.rows.take b).drop a).map fun r => (r.take d).drop c, nx := n } a c (b - a) (d - c) := by
  subst hn
  have hb' : b ≤ g.rows.length := hb
  refine ⟨?_, ⟨?_, rfl⟩, ⟨by omega, by omega⟩, ?_⟩
  · intro r hr
    simp only [List.mem_map] at hr
    obtain ⟨r', hr', rfl⟩ := hr
    have : r'.length = g.nx := hwf r' (List.mem_of_mem_take (List.mem_of_mem_drop hr'))
    simp; omega
  · simp [Grid.ny]; omega
  · intro i hi j hj
    have h1 : a + i < g.rows.length := by omega
    simp only [at?]
    rw [List.getElem?_map, List.getElem?_drop, List.getElem?_take, if_pos (by omega)]
    rw [List.getElem?_eq_getElem h1]
    simp only [Option.map_some, Option.bind_some]
    rw [List.getElem?_drop, List.getElem?_take, if_pos (by omega)]

theorem pySlice_eq (l : List α) (a b : Int) :
    pySlice l a b = (l.take (normIdx l.length b)).drop (normIdx l.length a) := rfl

theorem pySlice_replicate_length (n : Nat) (a b : Int) :
    (pySlice (List.replicate n ()) a b).length = normIdx n b - normIdx n a := by
  have hle : normIdx n b ≤ max n (normIdx n b) := by omega
  simp only [pySlice, List.length_replicate, List.length_drop, List.length_take]
  have : normIdx n b ≤ n := by unfold normIdx; split <;> omega
  omega

theorem normIdx_le (n : Nat) (a : Int) : normIdx n a ≤ n := by unfold normIdx; split <;> omega

/-- Rows and columns selected by integer slices form a block. -/
theorem pySlice2_isBlock (g : Grid α) (hwf : g.WF) (a b c d : Int) {a' b' c' d' : Nat}
    (ha : normIdx g.ny a = a') (hb : normIdx g.ny b = b') (hc : normIdx g.nx c = c') (hd : normIdx g.nx d = d')
    (hab : a' ≤ b') (hcd : c' ≤ d') :
    IsBlock g { rows := (pySlice g.rows a b).map fun r => pySlice r c d
                nx := (pySlice (List.replicate g.nx ()) c d).length } a' c' (b' - a') (d' - c') := by
  have hrows : ((pySlice g.rows a b).map fun r => pySlice r c d)
      = ((g.rows.take b').drop a').map fun r => (r.take d').drop c' := by
    rw [pySlice_eq]
    have ha' : normIdx g.rows.length a = a' := ha
    have hb' : normIdx g.rows.length b = b' := hb
    rw [ha', hb']
    apply List.map_congr_left
    intro r hr
    have : r.length = g.nx := hwf r (List.mem_of_mem_take (List.mem_of_mem_drop hr))
    rw [pySlice_eq, this, hc, hd]
  rw [hrows]
  apply slice2_isBlock g hwf hab (hb ▸ normIdx_le _ _) hcd (hd ▸ normIdx_le _ _)
  rw [pySlice_replicate_length, hc, hd]

section Zoom
variable {K : Type} [Field K] [LinearOrder K] [IsStrictOrderedRing K] [FloorRing K]

/-- The zoom window, for factors at least 1. -/
theorem zoomWindow_spec (n : Nat) (f : K) (hf : 1 ≤ f) :
    ∃ s c : Nat, normIdx n (zoomWindow n f).1 = s ∧ normIdx n (zoomWindow n f).2 = s + c ∧
      s + c ≤ n ∧ (s ≤ (n - (s + c)) + 1 ∧ n - (s + c) ≤ s + 1) ∧
      (c : K) ≤ (n : K) / f + 1 ∧ (n : K) / f < (c : K) + 1 ∧
      (f = 1 → s = 0 ∧ c = n) := by
  have hf0 : (0 : K) < f := by linarith
  have hq0 : (0 : K) ≤ (n : K) / f := by positivity
  have hqn : (n : K) / f ≤ n := by
    rw [div_le_iff₀ hf0]; nlinarith [(Nat.cast_nonneg n : (0 : K) ≤ n)]
  have hnn := pyInt_nonneg hq0
  have hfl0 : 0 ≤ ⌊(n : K) / f⌋ := Int.floor_nonneg.2 hq0
  obtain ⟨m, hm⟩ : ∃ m : Nat, ⌊(n : K) / f⌋ = (m : Int) := ⟨⌊(n : K) / f⌋.toNat, by omega⟩
  have hfl := Int.floor_le ((n : K) / f)
  have hfl' := Int.lt_floor_add_one ((n : K) / f)
  rw [hm] at hfl hfl'
  have hmn : m ≤ n := by
    have : (m : K) ≤ (n : K) := by
      have : ((m : Int) : K) = (m : K) := by norm_cast
      linarith
    exact_mod_cast this
  have hs : pyInt ((((n : Int) - (m : Int) : Int) : K) / 2) = (((n - m) / 2 : Nat) : Int) := by
    have : ((n : Int) - (m : Int)) = ((n - m : Nat) : Int) := by omega
    rw [this]; exact pyInt_half (n - m)
  have h1 : (zoomWindow n f).1 = (((n - m) / 2 : Nat) : Int) := by
    simp only [zoomWindow, hnn, hm]; exact hs
  have h2 : (zoomWindow n f).2 = ((m + (n - m) / 2 + 1 : Nat) : Int) := by
    simp only [zoomWindow, hnn, hm]; rw [hs]; push_cast; ring
  have hmc : ((m : Int) : K) = (m : K) := by norm_cast
  rw [hmc] at hfl hfl'
  refine ⟨(n - m) / 2, min n (m + (n - m) / 2 + 1) - (n - m) / 2, ?_, ?_, by omega, ⟨by omega, by omega⟩, ?_, ?_, ?_⟩
  · rw [h1, normIdx_nonneg (by omega)]; omega
  · rw [h2, normIdx_nonneg (by omega)]; omega
  · have : min n (m + (n - m) / 2 + 1) - (n - m) / 2 ≤ m + 1 := by omega
    have : ((min n (m + (n - m) / 2 + 1) - (n - m) / 2 : Nat) : K) ≤ (m : K) + 1 := by exact_mod_cast this
    linarith
  · have : m ≤ min n (m + (n - m) / 2 + 1) - (n - m) / 2 := by omega
    have : (m : K) ≤ ((min n (m + (n - m) / 2 + 1) - (n - m) / 2 : Nat) : K) := by exact_mod_cast this
    linarith
  · intro h
    subst h
    have : m = n := by
      simp at hm; omega
    subst this
    constructor <;> simp

end Zoom

section Slice

theorem apply_none_iff (s : PySlice) (l : List α) : s.apply l = none ↔ s.step = some 0 := by
  unfold PySlice.apply
  rcases s with ⟨a, b, k⟩
  cases k with
  | none => simp
  | some k =>
    simp only [Option.getD_some]
    split
    · simp; omega
    · split
      · simp; omega
      · simp; omega

theorem fromEnd_clip_pos (n : Nat) (v : Int) :
    ((normIdx n v : Nat) : Int) = max 0 (min (n : Int) (if v < 0 then v + n else v)) := by
  unfold normIdx; split <;> omega

theorem fromEnd_clip_neg (n : Nat) (v : Int) :
    ((normIdxNeg n v : Nat) : Int) - 1 = max (-1) (min ((n : Int) - 1) (if v < 0 then v + n else v)) := by
  unfold normIdxNeg; split <;> omega

theorem normIdxNeg_le (n : Nat) (v : Int) : normIdxNeg n v ≤ n := by
  unfold normIdxNeg; split <;> omega

theorem pos_core (l : List α) (a b m i : Nat) (hm : 0 < m) :
    (stride m ((l.take b).drop a))[i]? =
      (if (a : Int) + (i : Int) * (m : Int) < (b : Int) then some ((a : Int) + (i : Int) * (m : Int)).toNat else none).bind
        fun x => l[x]? := by
  rw [stride_getElem? _ hm, List.getElem?_drop, List.getElem?_take]
  have hc : ((a : Int) + (i : Int) * (m : Int)) = ((a + i * m : Nat) : Int) := by push_cast; ring
  rw [hc]
  simp only [Int.toNat_natCast, Int.ofNat_lt]
  by_cases hlt : a + i * m < b
  · rw [if_pos hlt, if_pos hlt]; rfl
  · rw [if_neg hlt, if_neg hlt]; rfl

theorem neg_core (l : List α) (a b m i : Nat) (hm : 0 < m) (hal : a ≤ l.length) :
    (stride m ((l.take a).drop b).reverse)[i]? =
      (if (b : Int) - 1 < (a : Int) - 1 + (i : Int) * -(m : Int) then
        some ((a : Int) - 1 + (i : Int) * -(m : Int)).toNat else none).bind fun x => l[x]? := by
  rw [stride_getElem? _ hm]
  have hlen : (List.drop b (List.take a l)).length = a - b := by simp; omega
  have hx : (i : Int) * -(m : Int) = -((i * m : Nat) : Int) := by push_cast; ring
  rw [hx]
  by_cases hlt : (b : Int) - 1 < (a : Int) - 1 + -((i * m : Nat) : Int)
  · rw [if_pos hlt]
    rw [List.getElem?_reverse (by omega), hlen, List.getElem?_drop, List.getElem?_take,
      if_pos (by omega)]
    simp only [Option.bind_some]
    congr 1; omega
  · rw [if_neg hlt]
    simp only [Option.bind_none]
    rw [List.getElem?_eq_none_iff, List.length_reverse, hlen]; omega

/-- `PySlice.apply` selects the elements given by the Python reference. -/
theorem apply_getElem? (s : PySlice) (l r : List α) (h : s.apply l = some r) (i : Nat) :
    r[i]? = (sliceIdx l.length s i).bind fun x => l[x]? := by
  rcases s with ⟨sa, sb, sk⟩
  unfold PySlice.apply at h
  unfold sliceIdx
  simp only at h ⊢
  generalize hk : sk.getD 1 = k at h ⊢
  by_cases hpos : 0 < k
  · rw [if_pos hpos] at h ⊢
    obtain ⟨m, rfl⟩ : ∃ m : Nat, k = (m : Int) := ⟨k.toNat, by omega⟩
    have hm : 0 < m := by omega
    simp only [Option.some.injEq, Int.toNat_natCast] at h
    subst h
    have key := fun a b => pos_core l a b m i hm
    cases sa <;> cases sb <;> simp only [← fromEnd_clip_pos]
    · exact key 0 l.length
    · exact key 0 _
    · exact key _ l.length
    · exact key _ _
  · rw [if_neg hpos] at h ⊢
    by_cases hneg : k < 0
    · rw [if_pos hneg] at h
      obtain ⟨m, rfl⟩ : ∃ m : Nat, k = -(m : Int) := ⟨(-k).toNat, by omega⟩
      have hm : 0 < m := by omega
      simp only [Option.some.injEq, neg_neg, Int.toNat_natCast] at h
      subst h
      have key := fun a b => neg_core l a b m i hm
      cases sa <;> cases sb <;> simp only [← fromEnd_clip_neg]
      · exact key l.length 0 (le_refl _)
      · exact key l.length _ (le_refl _)
      · exact key _ 0 (normIdxNeg_le _ _)
      · exact key _ _ (normIdxNeg_le _ _)
    · rw [if_neg hneg] at h
      simp at h

theorem apply_length_congr {β : Type} (s : PySlice) (l : List α) (l' : List β) (hl : l.length = l'.length)
    (r : List α) (r' : List β) (h : s.apply l = some r) (h' : s.apply l' = some r') : r.length = r'.length := by
  have key : ∀ i : Nat, r[i]? = none ↔ r'[i]? = none := by
    intro i
    rw [apply_getElem? s l r h, apply_getElem? s l' r' h', hl]
    cases sliceIdx l'.length s i with
    | none => simp
    | some x =>
      simp only [Option.bind_some, List.getElem?_eq_none_iff]
      omega
  have := key r.length
  have h2 := key r'.length
  simp only [List.getElem?_eq_none_iff] at this h2
  omega

end Slice
end Surfalize.Geometry
