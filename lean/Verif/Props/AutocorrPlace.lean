import Verif.Lemmas.AutocorrPlace
import Verif.Props.Autocorr
import Verif.Props.Placement

/-!
# C108 — Sal and Str do not depend on how the sample lies, nor on the unit of length
-/
set_option linter.unusedSectionVars false
namespace Surfalize.Props
open Surfalize Autocorr BaseOps Finset Container Spec Placement

/-! ### Helpers -/

private theorem centre_odd {n : Nat} (h : n % 2 = 1) : n / 2 < n ∧ n - 1 - n / 2 = n / 2 := ⟨by omega, by omega⟩

private theorem sq_opposite {n p : Nat} (h : n % 2 = 1) (hp : p < n) (s : ℝ) :
    ((((n - 1 - p : Nat) : ℝ) - ((n / 2 : Nat) : ℝ)) * s) ^ 2 = (((p : ℝ) - ((n / 2 : Nat) : ℝ)) * s) ^ 2 := by
  have e : ((n - 1 - p : Nat) : ℝ) - ((n / 2 : Nat) : ℝ) = -((p : ℝ) - ((n / 2 : Nat) : ℝ)) := by
    have : (n - 1 - p) + p = n / 2 + n / 2 := by omega
    have := congrArg (Nat.cast (R := ℝ)) this
    push_cast at this ⊢
    linarith
  rw [e]
  ring

theorem iso_mirror {A B : Grid (Option ℝ)} (h1 : A.ny % 2 = 1) (h2 : A.nx % 2 = 1) (h : IsMirror A B) (sx sy : ℝ) :
    Iso A B sx sy sx sy (fun p => (p.1, A.nx - 1 - p.2)) (fun p => (p.1, A.nx - 1 - p.2)) := by
  obtain ⟨w, ny, nx, hget⟩ := h
  have hc := centre_odd h2
  refine ⟨?_, ?_, ?_, ?_, ?_, ?_, ?_, ?_, ?_⟩
  · rintro p ⟨a, b⟩; exact ⟨by show p.1 < B.ny; omega, by show A.nx - 1 - p.2 < B.nx; omega⟩
  · rintro p ⟨a, b⟩; exact ⟨by show p.1 < A.ny; omega, by show A.nx - 1 - p.2 < A.nx; omega⟩
  · rintro p ⟨a, b⟩; ext <;> dsimp only; omega
  · rintro p ⟨a, b⟩; ext <;> dsimp only; omega
  · rintro p ⟨a, b⟩
    unfold Grid.val
    dsimp only
    rw [hget p.1 a (A.nx - 1 - p.2) (by omega), show A.nx - 1 - (A.nx - 1 - p.2) = p.2 by omega]
  · exact ⟨by show A.ny / 2 < A.ny; omega, hc.1⟩
  · unfold centerIdx
    rw [ny, nx]
    exact Prod.ext rfl hc.2
  · rintro p q ⟨a, b⟩ ⟨c, d⟩
    unfold Adj4
    dsimp only
    omega
  · rintro p ⟨a, b⟩
    unfold lagLength centerIdx
    rw [ny, nx]
    dsimp only
    rw [sq_opposite h2 b]

theorem iso_flip {A B : Grid (Option ℝ)} (h1 : A.ny % 2 = 1) (h2 : A.nx % 2 = 1) (h : IsFlip A B) (sx sy : ℝ) :
    Iso A B sx sy sx sy (fun p => (A.ny - 1 - p.1, p.2)) (fun p => (A.ny - 1 - p.1, p.2)) := by
  obtain ⟨w, ny, nx, hget⟩ := h
  have hc := centre_odd h1
  refine ⟨?_, ?_, ?_, ?_, ?_, ?_, ?_, ?_, ?_⟩
  · rintro p ⟨a, b⟩; exact ⟨by show A.ny - 1 - p.1 < B.ny; omega, by show p.2 < B.nx; omega⟩
  · rintro p ⟨a, b⟩; exact ⟨by show A.ny - 1 - p.1 < A.ny; omega, by show p.2 < A.nx; omega⟩
  · rintro p ⟨a, b⟩; ext <;> dsimp only; omega
  · rintro p ⟨a, b⟩; ext <;> dsimp only; omega
  · rintro p ⟨a, b⟩
    unfold Grid.val
    dsimp only
    rw [hget (A.ny - 1 - p.1) (by omega) p.2 b, show A.ny - 1 - (A.ny - 1 - p.1) = p.1 by omega]
  · exact ⟨hc.1, by show A.nx / 2 < A.nx; omega⟩
  · unfold centerIdx
    rw [ny, nx]
    exact Prod.ext hc.2 rfl
  · rintro p q ⟨a, b⟩ ⟨c, d⟩
    unfold Adj4
    dsimp only
    omega
  · rintro p ⟨a, b⟩
    unfold lagLength centerIdx
    rw [ny, nx]
    dsimp only
    rw [sq_opposite h1 a]

theorem iso_transpose {A B : Grid (Option ℝ)} (h1 : A.ny % 2 = 1) (h2 : A.nx % 2 = 1) (h : IsTranspose A B) (sx sy : ℝ) :
    Iso A B sx sy sy sx (fun p => (p.2, p.1)) (fun p => (p.2, p.1)) := by
  obtain ⟨w, ny, nx, hget⟩ := h
  refine ⟨?_, ?_, ?_, ?_, ?_, ?_, ?_, ?_, ?_⟩
  · rintro p ⟨a, b⟩; exact ⟨by show p.2 < B.ny; omega, by show p.1 < B.nx; omega⟩
  · rintro p ⟨a, b⟩; exact ⟨by show p.2 < A.ny; omega, by show p.1 < A.nx; omega⟩
  · rintro p ⟨a, b⟩; rfl
  · rintro p ⟨a, b⟩; rfl
  · rintro p ⟨a, b⟩
    unfold Grid.val
    dsimp only
    rw [hget p.2 b p.1 a]
  · exact ⟨by show A.ny / 2 < A.ny; omega, by show A.nx / 2 < A.nx; omega⟩
  · unfold centerIdx
    rw [ny, nx]
  · rintro p q ⟨a, b⟩ ⟨c, d⟩
    unfold Adj4
    dsimp only
    omega
  · rintro p ⟨a, b⟩
    unfold lagLength centerIdx
    rw [ny, nx]
    dsimp only
    rw [add_comm]

/-- Seen from the centre, the line to a lag and the line to the opposite lag are the same. -/
private theorem line_opposite {line : LineInterp} (hm : LineMoves line) {g A : Grid (Option ℝ)} (hg : g.WF) (hf : none ∉ flat g)
    (hA : acf g = .ok A) (h1 : A.ny % 2 = 1) (h2 : A.nx % 2 = 1) {i j : Nat} (hi : i < A.ny) (hj : j < A.nx) :
    line A (A.ny - 1 - i, A.nx - 1 - j) = line A (i, j) := by
  obtain ⟨a1, a2, a3, a4⟩ := acf_get hg hf hA
  have hturn : ∀ i < A.ny, ∀ j < A.nx, A.get (A.ny - 1 - i) (A.nx - 1 - j) = A.get i j := by
    intro i hi j hj
    rw [a4 i hi j hj, a4 _ (by omega) _ (by omega),
      ← autocov_neg g (dy := (i : Int) - (g.ny - 1)) (dx := (j : Int) - (g.nx - 1)) (abs_lt.2 ⟨by omega, by omega⟩) (abs_lt.2 ⟨by omega, by omega⟩)]
    congr 2 <;> omega
  let M : Grid (Option ℝ) := Grid.ofFn A.ny A.nx fun i j => A.get i (A.nx - 1 - j)
  have hM : IsMirror A M := ⟨ofFn_wf _ _ _, ofFn_ny _ _ _, ofFn_nx _ _ _, fun i hi j hj => get_ofFn _ hi hj⟩
  have hF : IsFlip M A := by
    refine ⟨a1, (ofFn_ny _ _ _).symm, rfl, fun i hi j hj => ?_⟩
    have hi' : i < A.ny := by rwa [ofFn_ny] at hi
    have hj' : j < A.nx := hj
    rw [show M.ny = A.ny from ofFn_ny _ _ _, show M.get (A.ny - 1 - i) j = A.get (A.ny - 1 - i) (A.nx - 1 - j) from get_ofFn _ (by omega) hj',
      hturn i hi' j hj']
  have e1 := hm.mirror A M h1 h2 hM i hi j hj
  have e2 := hm.flip M A (by rw [show M.ny = A.ny from ofFn_ny _ _ _]; exact h1) h2 hF i (by rw [show M.ny = A.ny from ofFn_ny _ _ _]; exact hi)
    (A.nx - 1 - j) (by show A.nx - 1 - j < A.nx; omega)
  rw [show M.ny = A.ny from ofFn_ny _ _ _] at e2
  rw [e2, e1]

/-- Without ties, points of the same length and value share their line. -/
private theorem ties_line {line : LineInterp} (hm : LineMoves line) {g A : Grid (Option ℝ)} (hg : g.WF) (hf : none ∉ flat g)
    (hy : 0 < g.ny) (hx : 0 < g.nx) {sx sy : ℝ} (ht : NoTies g sx sy) (hA : acf g = .ok A) :
    ∀ p q, Inside A p → Inside A q → lagLength A sx sy p = lagLength A sx sy q → A.val p.1 p.2 = A.val q.1 q.2 → line A p = line A q := by
  obtain ⟨a1, a2, a3, a4⟩ := acf_get hg hf hA
  rintro ⟨p1, p2⟩ ⟨q1, q2⟩ ⟨hp1, hp2⟩ ⟨hq1, hq2⟩ hlen hval
  dsimp only at hp1 hp2 hq1 hq2
  have hc1 : A.ny / 2 = g.ny - 1 := by omega
  have hc2 : A.nx / 2 = g.nx - 1 := by omega
  unfold lagLength centerIdx at hlen
  dsimp only at hlen
  rw [Real.sqrt_inj (by positivity) (by positivity), hc1, hc2, Nat.cast_sub hy, Nat.cast_sub hx] at hlen
  unfold Grid.val at hval
  rw [a4 p1 hp1 p2 hp2, a4 q1 hq1 q2 hq2] at hval
  simp only [Option.getD_some] at hval
  rcases ht ((p1 : Int) - (g.ny - 1)) ((p2 : Int) - (g.nx - 1)) ((q1 : Int) - (g.ny - 1)) ((q2 : Int) - (g.nx - 1))
      (abs_lt.2 ⟨by omega, by omega⟩) (abs_lt.2 ⟨by omega, by omega⟩) (abs_lt.2 ⟨by omega, by omega⟩) (abs_lt.2 ⟨by omega, by omega⟩)
      (by push_cast at hlen ⊢; exact hlen) hval with ⟨e1, e2⟩ | ⟨e1, e2⟩
  · have : q1 = p1 := by omega
    have : q2 = p2 := by omega
    subst q1 q2
    rfl
  · have := line_opposite hm hg hf hA (by omega) (by omega) hp1 hp2
    rw [← this]
    congr 2 <;> omega

private theorem sal_str_of {line : LineInterp} {g g' A A' : Grid (Option ℝ)} {sx sy sx' sy' s : ℝ} (hA : acf g = .ok A) (hA' : acf g' = .ok A')
    (h : decayLengths line A' sx' sy' s = decayLengths line A sx sy s) :
    sal line g' sx' sy' s = sal line g sx sy s ∧ str line g' sx' sy' s = str line g sx sy s := by
  unfold sal str
  rw [hA, hA']
  constructor
  · show (decayLengths line A' sx' sy' s).map _ = (decayLengths line A sx sy s).map _
    rw [h]
  · show (decayLengths line A' sx' sy' s).map _ = (decayLengths line A sx sy s).map _
    rw [h]

private theorem acf_missing {g : Grid (Option ℝ)} (h : none ∈ flat g) : acf g = .error .valueError := by
  unfold acf
  have : hasMissing g = true := by
    unfold hasMissing
    rw [List.any_eq_true]
    exact ⟨none, h, rfl⟩
  rw [if_pos this]

private theorem both_missing {line : LineInterp} {g g' : Grid (Option ℝ)} {sx sy sx' sy' s : ℝ} (h : none ∈ flat g) (h' : none ∈ flat g') :
    sal line g' sx' sy' s = sal line g sx sy s ∧ str line g' sx' sy' s = str line g sx sy s := by
  unfold sal str
  rw [acf_missing h, acf_missing h']
  exact ⟨rfl, rfl⟩

/-! ### The theorems -/

/-- **C108** (turned by 180 degrees). Sal and Str of a surface turned by 180 degrees are those of the surface, whatever the
surface and however lines are interpolated: also the ValueError for missing points is the same. -/
theorem C108_turn (line : LineInterp) (g g' : Grid (Option ℝ)) (hg : g.WF) (h : IsTurn g g') (sx sy s : ℝ) :
    sal line g' sx sy s = sal line g sx sy s ∧ str line g' sx sy s = str line g sx sy s := by
  have hnone : none ∈ flat g ↔ none ∈ flat g' := by
    obtain ⟨hw, hy, hx, he⟩ := h
    refine none_iff hg hw (fun i hi j hj => ⟨g.ny - 1 - i, by omega, g.nx - 1 - j, by omega, fun e => ?_⟩)
      (fun i hi j hj => ⟨g.ny - 1 - i, by omega, g.nx - 1 - j, by omega, fun e => ?_⟩)
    · rw [he _ (by omega) _ (by omega), show g.ny - 1 - (g.ny - 1 - i) = i by omega, show g.nx - 1 - (g.nx - 1 - j) = j by omega, e]
    · rw [← he i (by omega) j (by omega), e]
  by_cases hf : none ∈ flat g
  · exact both_missing hf (hnone.1 hf)
  · have := acf_turn hg hf (fun x => hf (hnone.2 x)) h
    unfold sal str
    rw [this]
    exact ⟨rfl, rfl⟩

/-- **C108** (mirrored left and right), for a sample without ties between lags. -/
theorem C108_mirror_partial (line : LineInterp) (hm : LineMoves line) (g g' : Grid (Option ℝ)) (hg : g.WF) (hy : 0 < g.ny) (hx : 0 < g.nx)
    (h : IsMirror g g') (sx sy s : ℝ) (ht : NoTies g sx sy) :
    sal line g' sx sy s = sal line g sx sy s ∧ str line g' sx sy s = str line g sx sy s := by
  by_cases hf : none ∈ flat g
  · exact both_missing hf ((mirror_none hg h).1 hf)
  · have hf' : none ∉ flat g' := fun x => hf ((mirror_none hg h).2 x)
    obtain ⟨A, hA, -⟩ := acf_ok hg hf
    obtain ⟨A', hA', -⟩ := acf_ok h.1 hf'
    obtain ⟨a1, a2, a3, a4⟩ := acf_get hg hf hA
    have hI := acf_mirror hg hf hf' h hA hA'
    exact sal_str_of hA hA' (decayLengths_iso (iso_mirror (by omega) (by omega) hI sx sy)
      (fun p hp => hm.mirror A A' (by omega) (by omega) hI p.1 hp.1 p.2 hp.2) (ties_line hm hg hf hy hx ht hA) s)

/-- **C108** (mirrored top and bottom), for a sample without ties between lags. -/
theorem C108_flip_partial (line : LineInterp) (hm : LineMoves line) (g g' : Grid (Option ℝ)) (hg : g.WF) (hy : 0 < g.ny) (hx : 0 < g.nx)
    (h : IsFlip g g') (sx sy s : ℝ) (ht : NoTies g sx sy) :
    sal line g' sx sy s = sal line g sx sy s ∧ str line g' sx sy s = str line g sx sy s := by
  by_cases hf : none ∈ flat g
  · exact both_missing hf ((flip_none hg h).1 hf)
  · have hf' : none ∉ flat g' := fun x => hf ((flip_none hg h).2 x)
    obtain ⟨A, hA, -⟩ := acf_ok hg hf
    obtain ⟨A', hA', -⟩ := acf_ok h.1 hf'
    obtain ⟨a1, a2, a3, a4⟩ := acf_get hg hf hA
    have hI := acf_flip hg hf hf' h hA hA'
    exact sal_str_of hA hA' (decayLengths_iso (iso_flip (by omega) (by omega) hI sx sy)
      (fun p hp => hm.flip A A' (by omega) (by omega) hI p.1 hp.1 p.2 hp.2) (ties_line hm hg hf hy hx ht hA) s)

/-- **C108** (axes exchanged), for a sample without ties between lags: the steps are exchanged too. -/
theorem C108_transpose_partial (line : LineInterp) (hm : LineMoves line) (g g' : Grid (Option ℝ)) (hg : g.WF) (hy : 0 < g.ny) (hx : 0 < g.nx)
    (h : IsTranspose g g') (sx sy s : ℝ) (ht : NoTies g sx sy) :
    sal line g' sy sx s = sal line g sx sy s ∧ str line g' sy sx s = str line g sx sy s := by
  by_cases hf : none ∈ flat g
  · exact both_missing hf ((transpose_none hg h).1 hf)
  · have hf' : none ∉ flat g' := fun x => hf ((transpose_none hg h).2 x)
    obtain ⟨A, hA, -⟩ := acf_ok hg hf
    obtain ⟨A', hA', -⟩ := acf_ok h.1 hf'
    obtain ⟨a1, a2, a3, a4⟩ := acf_get hg hf hA
    have hI := acf_transpose hg hf hf' h hA hA'
    exact sal_str_of hA hA' (decayLengths_iso (iso_transpose (by omega) (by omega) hI sx sy)
      (fun p hp => hm.transpose A A' (by omega) (by omega) hI p.1 hp.1 p.2 hp.2) (ties_line hm hg hf hy hx ht hA) s)

/-! ### The unit of length -/

private theorem propmin_scale {c : ℝ} (hc : 0 < c) (l : List (Option ℝ)) (h : none ∉ l) (hne : l ≠ []) :
    Interp.argminAll (l.map (Option.map (c * ·))) = Interp.argminAll l ∧ Interp.argmaxAll (l.map (Option.map (c * ·))) = Interp.argmaxAll l := by
  obtain ⟨⟨a, ha, pa, -, ma⟩, b, hb, pb, -, mb⟩ := C47_positions_partial l h hne
  have h' : none ∉ l.map (Option.map (c * ·)) := by
    rw [List.mem_map]
    rintro ⟨z, hz, e⟩
    cases z with
    | none => exact h hz
    | some z => simp at e
  obtain ⟨⟨a', ha', pa', -, ma'⟩, b', hb', pb', -, mb'⟩ := C47_positions_partial _ h' (by simpa using hne)
  rw [ha, hb, ha', hb']
  have key : ∀ (i : Nat) (R : ℝ → ℝ → Prop), (∀ x y, R (c * x) (c * y) ↔ R x y) →
      ((∃ m, (l.map (Option.map (c * ·)))[i]? = some (some m) ∧ ∀ z, some z ∈ l.map (Option.map (c * ·)) → R z m) ↔
        ∃ m, l[i]? = some (some m) ∧ ∀ z, some z ∈ l → R z m) := by
    intro i R hR
    constructor
    · rintro ⟨m, h1, h2⟩
      rw [List.getElem?_map] at h1
      cases e : l[i]? with
      | none => rw [e] at h1; simp at h1
      | some v =>
        cases v with
        | none => rw [e] at h1; simp at h1
        | some v =>
          rw [e] at h1
          simp only [Option.map_some, Option.some.injEq] at h1
          refine ⟨v, rfl, fun z hz => ?_⟩
          rw [← hR, h1]
          exact h2 _ (List.mem_map.2 ⟨_, hz, rfl⟩)
    · rintro ⟨m, h1, h2⟩
      refine ⟨c * m, by rw [List.getElem?_map, h1]; rfl, fun z hz => ?_⟩
      obtain ⟨y, hy, e⟩ := List.mem_map.1 hz
      cases y with
      | none => simp at e
      | some y =>
        simp only [Option.map_some, Option.some.injEq] at e
        rw [← e, hR]
        exact h2 _ hy
  constructor
  · congr 1
    exact pb'.eq_of_mem_iff pb fun i => by rw [mb', mb]; exact key i (fun z m => m ≤ z) fun x y => mul_le_mul_iff_right₀ hc
  · congr 1
    exact pa'.eq_of_mem_iff pa fun i => by rw [ma', ma]; exact key i (fun z m => z ≤ m) fun x y => mul_le_mul_iff_right₀ hc

private theorem lagLength_scale {c : ℝ} (hc : 0 < c) (A : Grid (Option ℝ)) (sx sy : ℝ) (p : Nat × Nat) :
    lagLength A (c * sx) (c * sy) p = c * lagLength A sx sy p := by
  unfold lagLength
  rw [← Real.sqrt_sq hc.le, ← Real.sqrt_mul (sq_nonneg c), Real.sqrt_sq hc.le]
  congr 1
  ring

private theorem decay_unit {line : LineInterp} {c : ℝ} (hc : 0 < c) (A : Grid (Option ℝ)) (sx sy s : ℝ) :
    decayLengths line A (c * sx) (c * sy) s = (decayLengths line A sx sy s).map fun d => (c * d.1, c * d.2) := by
  set t := s * A.val (centerIdx A).1 (centerIdx A).2 with ht
  rcases eq_or_ne (edgeIdx A t) [] with he | he
  · rw [decayLengths_noEdge A _ _ _ he, decayLengths_noEdge A _ _ _ he]
    rfl
  · have hd : ∀ p, decayAlong line A (c * sx) (c * sy) t p = c * decayAlong line A sx sy t p := by
      intro p
      unfold decayAlong
      rw [lagLength_scale hc]
      ring
    have hl : ((edgeIdx A t).map fun p => some (lagLength A (c * sx) (c * sy) p))
        = ((edgeIdx A t).map fun p => some (lagLength A sx sy p)).map (Option.map (c * ·)) := by
      rw [List.map_map]
      apply List.map_congr_left
      intro p _
      simp [lagLength_scale hc]
    have h1 : none ∉ (edgeIdx A t).map fun p => some (lagLength A sx sy p) := by simp
    have h2 : ((edgeIdx A t).map fun p => some (lagLength A sx sy p)) ≠ [] := by simpa using he
    obtain ⟨e1, e2⟩ := propmin_scale hc _ h1 h2
    obtain ⟨⟨a, ha, -⟩, b, hb, -⟩ := C47_positions_partial _ h1 h2
    unfold decayLengths
    simp only [← ht, hl, e1, e2, ha, hb, hd]
    rfl

/-- **C108** (unit of length). When both steps are given in another unit, Sal is in that unit too and Str is the same. -/
theorem C108_unit (line : LineInterp) (g : Grid (Option ℝ)) (sx sy s c : ℝ) (hc : 0 < c) :
    sal line g (c * sx) (c * sy) s = (sal line g sx sy s).map (c * ·) ∧ str line g (c * sx) (c * sy) s = str line g sx sy s := by
  unfold sal str
  cases acf g with
  | error e => exact ⟨rfl, rfl⟩
  | ok A =>
    show (decayLengths line A (c * sx) (c * sy) s).map _ = ((decayLengths line A sx sy s).map _).map _ ∧
      (decayLengths line A (c * sx) (c * sy) s).map _ = (decayLengths line A sx sy s).map _
    rw [decay_unit hc]
    cases decayLengths line A sx sy s with
    | error e => exact ⟨rfl, rfl⟩
    | ok d =>
      refine ⟨rfl, ?_⟩
      simp only [Except.map]
      congr 1
      by_cases h : d.2 = 0
      · rw [if_pos h, if_pos (by rw [h, mul_zero])]
      · rw [if_neg h, if_neg (mul_ne_zero hc.ne' h), mul_div_mul_left _ _ hc.ne']

/-! ### The hypotheses are met -/

/-- Four heights whose diagonals differ. -/
def fourPoints : Grid (Option ℝ) := ⟨[[some 0, some 1], [some 2, some 5]], 2⟩

private theorem four_diag : autocov 2 2 fourPoints.val 1 1 = -6 ∧ autocov 2 2 fourPoints.val 1 (-1) = 0 := by
  have e1 : lagPairs 2 2 1 1 = {((0, 0), (1, 1))} := by decide
  have e2 : lagPairs 2 2 1 (-1) = {((0, 1), (1, 0))} := by decide
  have hm : meanHeight 2 2 fourPoints.val = 2 := by
    unfold meanHeight
    simp [sum_range_succ, Grid.val, Grid.get, fourPoints]
    norm_num
  unfold autocov lagSum
  rw [e1, e2, hm]
  constructor <;> simp [Grid.val, Grid.get, fourPoints] <;> norm_num

theorem four_noTies : NoTies fourPoints 1 3 := by
  intro dy dx ey ex h1 h2 h3 h4 hl hv
  obtain ⟨d1, d2⟩ := four_diag
  have n1 := autocov_neg fourPoints (dy := 1) (dx := 1) (by decide) (by decide)
  have n2 := autocov_neg fourPoints (dy := 1) (dx := -1) (by decide) (by decide)
  change |dy| < (2 : Nat) at h1
  change |dx| < (2 : Nat) at h2
  change |ey| < (2 : Nat) at h3
  change |ex| < (2 : Nat) at h4
  change autocov 2 2 fourPoints.val (-1) (-1) = autocov 2 2 fourPoints.val 1 1 at n1
  change autocov 2 2 fourPoints.val (-1) (- -1) = autocov 2 2 fourPoints.val 1 (-1) at n2
  rw [neg_neg] at n2
  change autocov 2 2 fourPoints.val dy dx = autocov 2 2 fourPoints.val ey ex at hv
  rw [abs_lt] at h1 h2 h3 h4
  push_cast at h1 h2 h3 h4
  have q1 : dy = -1 ∨ dy = 0 ∨ dy = 1 := by omega
  have q2 : dx = -1 ∨ dx = 0 ∨ dx = 1 := by omega
  have q3 : ey = -1 ∨ ey = 0 ∨ ey = 1 := by omega
  have q4 : ex = -1 ∨ ex = 0 ∨ ex = 1 := by omega
  have hl' : dy ^ 2 * 9 + dx ^ 2 = ey ^ 2 * 9 + ex ^ 2 := by
    have : ((dy ^ 2 * 9 + dx ^ 2 : Int) : ℝ) = ((ey ^ 2 * 9 + ex ^ 2 : Int) : ℝ) := by push_cast; linarith
    exact_mod_cast this
  clear hl h1 h2 h3 h4
  rcases q1 with rfl | rfl | rfl <;> rcases q2 with rfl | rfl | rfl <;> rcases q3 with rfl | rfl | rfl <;>
    rcases q4 with rfl | rfl | rfl <;> first
    | (exfalso; revert hl'; decide)
    | (left; exact ⟨rfl, rfl⟩)
    | (right; exact ⟨rfl, rfl⟩)
    | (exfalso; linarith)

/-- Linear interpolation between the centre and the end point. -/
noncomputable def straight : LineInterp := fun A p => (List.range 1000).map fun k : Nat =>
  A.val (A.ny / 2) (A.nx / 2) * (1 - (k : ℝ) / 999) + A.val p.1 p.2 * ((k : ℝ) / 999)

theorem straight_moves : LineMoves straight := by
  have key : ∀ (A B : Grid (Option ℝ)) (p q : Nat × Nat), B.val (B.ny / 2) (B.nx / 2) = A.val (A.ny / 2) (A.nx / 2) →
      B.val q.1 q.2 = A.val p.1 p.2 → straight B q = straight A p := by
    intro A B p q h1 h2
    unfold straight
    rw [h1, h2]
  refine ⟨fun A B h1 h2 h i hi j hj => ?_, fun A B h1 h2 h i hi j hj => ?_, fun A B h1 h2 h i hi j hj => ?_⟩
  · have := iso_mirror h1 h2 h 1 1
    exact key A B _ _ (by have e := this.val _ this.cin; rw [this.cen] at e; exact e) (this.val (i, j) ⟨hi, hj⟩)
  · have := iso_flip h1 h2 h 1 1
    exact key A B _ _ (by have e := this.val _ this.cin; rw [this.cen] at e; exact e) (this.val (i, j) ⟨hi, hj⟩)
  · have := iso_transpose h1 h2 h 1 1
    exact key A B _ _ (by have e := this.val _ this.cin; rw [this.cen] at e; exact e) (this.val (i, j) ⟨hi, hj⟩)

example : ∃ (line : LineInterp) (g : Grid (Option ℝ)), LineMoves line ∧ g.WF ∧ 0 < g.ny ∧ 0 < g.nx ∧ NoTies g 1 3 ∧
    (∃ g', IsMirror g g' ∧ g' ≠ g) ∧ (∃ g', IsFlip g g' ∧ g' ≠ g) ∧ (∃ g', IsTranspose g g' ∧ g' ≠ g) ∧ ∃ g', IsTurn g g' ∧ g' ≠ g := by
  refine ⟨straight, fourPoints, straight_moves, by intro r hr; simp [fourPoints] at hr; rcases hr with rfl | rfl <;> rfl,
    by decide, by decide, four_noTies, ⟨⟨[[some 1, some 0], [some 5, some 2]], 2⟩, ⟨?_, rfl, rfl, ?_⟩, ?_⟩,
    ⟨⟨[[some 2, some 5], [some 0, some 1]], 2⟩, ⟨?_, rfl, rfl, ?_⟩, ?_⟩, ⟨⟨[[some 0, some 2], [some 1, some 5]], 2⟩, ⟨?_, rfl, rfl, ?_⟩, ?_⟩,
    ⟨⟨[[some 5, some 2], [some 1, some 0]], 2⟩, ⟨?_, rfl, rfl, ?_⟩, ?_⟩⟩ <;>
  first
  | (intro r hr; simp at hr; rcases hr with rfl | rfl <;> rfl)
  | (intro i hi j hj
     have hi' : i < 2 := hi
     have hj' : j < 2 := hj
     interval_cases i <;> interval_cases j <;> rfl)
  | (intro h; simp [fourPoints] at h)

end Surfalize.Props
