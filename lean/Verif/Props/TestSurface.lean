import Verif.Lemmas.TestSurface
import Verif.Props.HeightParams

/-!
# C115: surfaces with known parameters give the textbook values

The height parameters of the surfaces every textbook uses: two plateaus, a sine wave, an inclined plane.
-/
set_option linter.unusedSectionVars false
namespace Surfalize.Props
open Surfalize Container HeightParams Spec TestSurface

section Levels
variable {lo hi : ℝ}

theorem two_sum (hlt : lo < hi) (F : ℝ → ℝ) : ∀ l : List ℝ, (∀ z ∈ l, z = lo ∨ z = hi) →
    (l.map F).sum = (l.count hi : ℝ) * F hi + ((l.length : ℝ) - l.count hi) * F lo := by
  intro l
  induction l with
  | nil => intro _; simp
  | cons z l ih =>
    intro h
    rw [List.map_cons, List.sum_cons, ih fun w hw => h w (List.mem_cons_of_mem _ hw)]
    rcases h z List.mem_cons_self with rfl | rfl
    · rw [List.count_cons_of_ne (by exact hlt.ne), List.length_cons]; push_cast; ring
    · rw [List.count_cons_self, List.length_cons]; push_cast; ring

theorem count_measured (l : List (Option ℝ)) : (measured l).count hi = l.count (some hi) := by
  induction l with
  | nil => rfl
  | cons o l ih =>
    cases o with
    | none => rw [List.count_cons_of_ne (by simp), ← ih]; rfl
    | some z =>
      have e : measured (some z :: l) = z :: measured l := rfl
      rw [e]
      by_cases h : z = hi
      · subst h; rw [List.count_cons_self, List.count_cons_self, ih]
      · rw [List.count_cons_of_ne (by simpa using h), List.count_cons_of_ne (by simpa using h), ih]

theorem measured_length_of {l : List (Option ℝ)} (h : none ∉ l) : (measured l).length = l.length := by
  induction l with
  | nil => rfl
  | cons o l ih =>
    cases o with
    | none => simp at h
    | some z =>
      have e : measured (some z :: l) = z :: measured l := rfl
      rw [e, List.length_cons, List.length_cons, ih fun hc => h (List.mem_cons_of_mem _ hc)]

/-- A surface of two plateaus (a step, a square grating, a chessboard; any arrangement): with the share `p` of its points
on the upper one and the step height `h`, the height parameters are the textbook values. -/
theorem C115_two_levels {g : Grid (Option ℝ)} (hlt : lo < hi) (hv : ∀ z ∈ flat g, z = some lo ∨ z = some hi)
    (hlo : some lo ∈ flat g) (hhi : some hi ∈ flat g) {p h : ℝ}
    (hp : p = ((flat g).count (some hi) : ℝ) / (flat g).length) (hh : h = hi - lo) :
    ∃ q, heightParameters g = .ok q ∧
      q.sa = 2 * p * (1 - p) * h ∧ q.sq = h * Real.sqrt (p * (1 - p)) ∧
      q.sp = (1 - p) * h ∧ q.sv = p * h ∧ q.sz = h ∧
      q.ssk = some ((1 - 2 * p) / Real.sqrt (p * (1 - p))) ∧ q.sku = some (1 / (p * (1 - p)) - 3) := by
  have hnone : none ∉ flat g := fun hc => by rcases hv _ hc with h | h <;> simp at h
  have hne : flat g ≠ [] := List.ne_nil_of_mem hlo
  refine ⟨_, (heightParameters_ok_iff g _).2 ⟨hnone, hne, rfl⟩, ?_⟩
  set l := measured (flat g) with hl
  have hlv : ∀ z ∈ l, z = lo ∨ z = hi := by
    intro z hz
    have := hv (some z) (by rw [hl, measured] at hz; simpa using hz)
    simpa using this
  have hlol : lo ∈ l := by rw [hl, measured]; simpa using hlo
  have hhil : hi ∈ l := by rw [hl, measured]; simpa using hhi
  have hlen : l.length = (flat g).length := measured_length_of hnone
  have hcount : l.count hi = (flat g).count (some hi) := count_measured _
  rw [← hlen, ← hcount] at hp
  have hlne : l ≠ [] := List.ne_nil_of_mem hlol
  clear_value l
  have hN : (0 : ℝ) < l.length := by exact_mod_cast List.length_pos_of_ne_nil hlne
  have sumF : ∀ F : ℝ → ℝ, (l.map F).sum / l.length = p * F hi + (1 - p) * F lo := by
    intro F
    rw [two_sum hlt F l hlv, hp]
    field_simp
  have hm0 : 0 < l.count hi := List.count_pos_iff.2 hhil
  have hm1 : l.count hi < l.length := by
    refine lt_of_le_of_ne List.count_le_length fun hc => ?_
    have := (List.count_eq_length.1 hc) lo hlol
    exact hlt.ne this.symm
  have p0 : 0 < p := by rw [hp]; have : (0 : ℝ) < l.count hi := by exact_mod_cast hm0
                        positivity
  have p1 : p < 1 := by rw [hp, div_lt_one hN]; exact_mod_cast hm1
  have hmu : mu l = lo + p * h := by
    have := sumF fun z => z
    rw [List.map_id'] at this
    rw [mu, this, hh]; ring
  have h0 : 0 < h := by rw [hh]; linarith
  have ehi : hi = lo + h := by rw [hh]; ring
  have mom : ∀ k, moment k l = p * ((1 - p) * h) ^ k + (1 - p) * (-(p * h)) ^ k := by
    intro k
    rw [moment, sumF (fun z => (z - mu l) ^ k), hmu, ehi]
    ring_nf
  have hpp : 0 < p * (1 - p) := mul_pos p0 (by linarith)
  have m2 : moment 2 l = h ^ 2 * (p * (1 - p)) := by rw [mom]; ring
  have hsq : Real.sqrt (moment 2 l) = h * Real.sqrt (p * (1 - p)) := by
    rw [m2, Real.sqrt_mul (by positivity), Real.sqrt_sq h0.le]
  have hs0 : 0 < Real.sqrt (p * (1 - p)) := Real.sqrt_pos.2 hpp
  have hmax : maxL l = hi := maxL_eq hhil fun z hz => by rcases hlv z hz with rfl | rfl <;> linarith
  have hmin : minL l = lo := minL_eq hlol fun z hz => by rcases hlv z hz with rfl | rfl <;> linarith
  have hsp : (paramsOf l).sp = (1 - p) * h := by rw [paramsOf_sp hlne, hmax, hmu, ehi]; ring
  have hsv : (paramsOf l).sv = p * h := by rw [paramsOf_sv hlne, hmin, hmu]; ring
  refine ⟨?_, ?_, hsp, hsv, ?_, ?_, ?_⟩
  · rw [paramsOf_sa, sumF fun z => |z - mu l|, hmu, ehi, show lo + h - (lo + p * h) = (1 - p) * h by ring,
      show lo - (lo + p * h) = -(p * h) by ring, abs_neg, abs_of_pos (mul_pos (by linarith) h0), abs_of_pos (mul_pos p0 h0)]
    ring
  · rw [paramsOf_sq, hsq]
  · rw [paramsOf_sz, hsp, hsv]; ring
  · rw [paramsOf_ssk, hsq, divNaN, if_neg (by positivity), mom]
    congr 1
    have e : Real.sqrt (p * (1 - p)) ^ 2 = p * (1 - p) := Real.sq_sqrt hpp.le
    rw [show (h * Real.sqrt (p * (1 - p))) ^ 3 = h ^ 3 * (Real.sqrt (p * (1 - p)) ^ 2 * Real.sqrt (p * (1 - p))) by ring, e]
    have : 1 - p ≠ 0 := by linarith
    field_simp
    ring
  · rw [paramsOf_sku, hsq, divNaN, if_neg (by positivity), mom]
    congr 1
    have e : Real.sqrt (p * (1 - p)) ^ 2 = p * (1 - p) := Real.sq_sqrt hpp.le
    rw [show (h * Real.sqrt (p * (1 - p))) ^ 4 = h ^ 4 * (Real.sqrt (p * (1 - p)) ^ 2) ^ 2 by ring, e]
    have : 1 - p ≠ 0 := by linarith
    field_simp
    ring

/-- A step of height 2 with one point in four on the upper level. -/
example : ∃ q, heightParameters ⟨[[some 0, some 0], [some 0, some 2]], 2⟩ = .ok q ∧ q.sa = 3 / 4 ∧ q.sz = 2 := by
  obtain ⟨q, h, h1, -, -, -, h2, -⟩ := C115_two_levels (g := ⟨[[some 0, some 0], [some 0, some 2]], 2⟩) (lo := 0) (hi := 2)
    (p := 1 / 4) (h := 2) (by norm_num) (by simp [flat]) (by simp [flat]) (by simp [flat])
    (by simp [flat]) (by norm_num)
  exact ⟨q, h, by rw [h1]; norm_num, h2⟩

end Levels

section Wave
variable {ny nx : Nat} {ky kx : Int}

/-- A sine wave of amplitude `a` with more than four points per period: `Sq = a/√2`, `Ssk = 0`, `Sku = 3/2`, at every
wavelength, orientation and phase; `c` is the mean line, so `Sp` and `Sv` are the distances of the highest and the lowest
point from `c`. -/
theorem C115_wave (hy : 0 < ny) (hx : 0 < nx) (hr : Resolved ny ky ∨ Resolved nx kx) {a : ℝ} (ha : 0 < a) (c φ : ℝ) :
    ∃ q, heightParameters (wave ny nx ky kx c a φ) = .ok q ∧
      q.sq = a / Real.sqrt 2 ∧ q.ssk = some 0 ∧ q.sku = some (3 / 2) ∧
      (∀ M, IsMax (measured (flat (wave ny nx ky kx c a φ))) M → q.sp = M - c) ∧
      (∀ m, IsMin (measured (flat (wave ny nx ky kx c a φ))) m → q.sv = c - m) ∧ q.sp ≤ a ∧ q.sv ≤ a := by
  have hm : measured (flat (wave ny nx ky kx c a φ))
      = (pixels ny nx).map fun p => c + a * Real.sin (2 * Real.pi * ((ky : ℝ) * p.1 / ny + (kx : ℝ) * p.2 / nx) + φ) :=
    measured_ofFn ny nx _
  have hnone : none ∉ flat (wave ny nx ky kx c a φ) := by
    rw [wave, flat_ofFn]; simp
  have hlen : (flat (wave ny nx ky kx c a φ)).length = ny * nx := by
    rw [wave, flat_ofFn, List.length_map, pixels_length]
  have hne : flat (wave ny nx ky kx c a φ) ≠ [] := by
    intro hc; rw [hc] at hlen; have := Nat.mul_pos hy hx; simp at hlen; omega
  have hmne := measured_ne_nil hnone hne
  refine ⟨_, (heightParameters_ok_iff _ _).2 ⟨hnone, hne, rfl⟩, ?_⟩
  have hN : (ny * nx : ℝ) ≠ 0 := by positivity
  obtain ⟨hmu, mom⟩ := moment_pix hy hx c a (s := fun i j => Real.sin (2 * Real.pi * ((ky : ℝ) * i / ny + (kx : ℝ) * j / nx) + φ))
    (sum_sin1 hy hx hr φ)
  rw [← hm] at hmu mom
  have m2 : moment 2 (measured (flat (wave ny nx ky kx c a φ))) = a ^ 2 / 2 := by
    rw [mom, sum_sin2 hy hx hr φ]; field_simp
  have m3 : moment 3 (measured (flat (wave ny nx ky kx c a φ))) = 0 := by
    rw [mom, sum_sin3 hy hx hr φ]; simp
  have m4 : moment 4 (measured (flat (wave ny nx ky kx c a φ))) = 3 * a ^ 4 / 8 := by
    rw [mom, sum_sin4 hy hx hr φ]; field_simp
  have hbound : ∀ z ∈ measured (flat (wave ny nx ky kx c a φ)), c - a ≤ z ∧ z ≤ c + a := by
    intro z hz
    rw [hm, List.mem_map] at hz
    obtain ⟨p, -, rfl⟩ := hz
    have h1 := Real.sin_le_one (2 * Real.pi * ((ky : ℝ) * p.1 / ny + (kx : ℝ) * p.2 / nx) + φ)
    have h2 := Real.neg_one_le_sin (2 * Real.pi * ((ky : ℝ) * p.1 / ny + (kx : ℝ) * p.2 / nx) + φ)
    constructor <;> nlinarith
  generalize measured (flat (wave ny nx ky kx c a φ)) = l at hmu m2 m3 m4 hbound hmne
  have hsq : Real.sqrt (moment 2 l) = a / Real.sqrt 2 := by
    rw [m2, Real.sqrt_div (by positivity), Real.sqrt_sq ha.le]
  have h2 : 0 < Real.sqrt 2 := Real.sqrt_pos.2 (by norm_num)
  refine ⟨by rw [paramsOf_sq, hsq], ?_, ?_, fun M hM => ?_, fun m hm' => ?_, ?_, ?_⟩
  · rw [paramsOf_ssk, hsq, divNaN, if_neg (by positivity), m3]; simp
  · rw [paramsOf_sku, hsq, divNaN, if_neg (by positivity), m4]
    congr 1
    rw [div_pow, show Real.sqrt 2 ^ 4 = (Real.sqrt 2 ^ 2) ^ 2 by ring, Real.sq_sqrt (by norm_num)]
    field_simp
    norm_num
  · rw [paramsOf_sp hmne, hmu, maxL_eq hM.1 hM.2]
  · rw [paramsOf_sv hmne, hmu, minL_eq hm'.1 hm'.2]
  · rw [paramsOf_sp hmne, hmu]
    have := (hbound _ (maxL_spec hmne).1).2
    linarith
  · rw [paramsOf_sv hmne, hmu]
    have := (hbound _ (minL_spec hmne).1).1
    linarith

example : ∃ q, heightParameters (wave 1 12 0 2 5 3 0) = .ok q ∧ q.sku = some (3 / 2) := by
  obtain ⟨q, h, -, -, h2, -⟩ := C115_wave (ny := 1) (nx := 12) (ky := 0) (kx := 2) (by norm_num) (by norm_num)
    (Or.inr ⟨by norm_num, by norm_num⟩) (a := 3) (by norm_num) 5 0
  exact ⟨q, h, h2⟩

/-- The same along a profile. -/
theorem C115_wave_profile {n : Nat} {k : Int} (hr : Resolved n k) {a : ℝ} (ha : 0 < a) (c φ : ℝ) :
    Rq (waveProfile n k c a φ) = .ok (a / Real.sqrt 2) ∧ Rsk (waveProfile n k c a φ) = .ok (some 0) ∧
      Rku (waveProfile n k c a φ) = .ok (some (3 / 2)) := by
  have hn : 0 < n := by have := hr.2; have := abs_nonneg k; omega
  obtain ⟨q, h, h1, h2, h3, -⟩ := C115_wave (ny := 1) (ky := 0) Nat.one_pos hn (Or.inr hr) ha c φ
  have e : wave 1 n 0 k c a φ = ⟨[waveProfile n k c a φ], (waveProfile n k c a φ).length⟩ := by
    unfold wave waveProfile Grid.ofFn
    simp
  rw [e] at h
  obtain ⟨-, g1, -, g2, g3⟩ := C19_profile_is_one_row_surface _ q h
  rw [g1, g2, g3, h1, h2, h3]
  exact ⟨rfl, rfl, rfl⟩

example : Rku (waveProfile 9 2 0 1 0) = .ok (some (3 / 2)) :=
  (C115_wave_profile (n := 9) (k := 2) ⟨by norm_num, by norm_num⟩ one_pos 0 0).2.2

end Wave

section Plane
variable {ny nx : Nat}

theorem sum_id (n : Nat) : ∑ i ∈ Finset.range n, (i : ℝ) = n * (n - 1) / 2 := by
  induction n with
  | zero => simp
  | succ n ih => rw [Finset.sum_range_succ, ih]; push_cast; ring
theorem sum_id2 (n : Nat) : ∑ i ∈ Finset.range n, (i : ℝ) ^ 2 = n * (n - 1) * (2 * n - 1) / 6 := by
  induction n with
  | zero => simp
  | succ n ih => rw [Finset.sum_range_succ, ih]; push_cast; ring
theorem sum_id3 (n : Nat) : ∑ i ∈ Finset.range n, (i : ℝ) ^ 3 = (n * (n - 1) / 2) ^ 2 := by
  induction n with
  | zero => simp
  | succ n ih => rw [Finset.sum_range_succ, ih]; push_cast; ring

theorem cent1 (n : Nat) : ∑ i ∈ Finset.range n, ((i : ℝ) - (n - 1) / 2) = 0 := by
  rw [Finset.sum_sub_distrib, sum_id]; simp; ring
theorem cent2 (n : Nat) : ∑ i ∈ Finset.range n, ((i : ℝ) - (n - 1) / 2) ^ 2 = n * ((n : ℝ) ^ 2 - 1) / 12 := by
  have : ∀ i : Nat, ((i : ℝ) - (n - 1) / 2) ^ 2 = (i : ℝ) ^ 2 - (n - 1) * i + ((n - 1) / 2) ^ 2 := fun i => by ring
  simp only [this, Finset.sum_add_distrib, Finset.sum_sub_distrib, ← Finset.mul_sum, sum_id, sum_id2]
  simp; ring
theorem cent3 (n : Nat) : ∑ i ∈ Finset.range n, ((i : ℝ) - (n - 1) / 2) ^ 3 = 0 := by
  have : ∀ i : Nat, ((i : ℝ) - (n - 1) / 2) ^ 3 = (i : ℝ) ^ 3 - (3 * (n - 1) / 2) * (i : ℝ) ^ 2 + (3 * ((n - 1) / 2) ^ 2) * i - ((n - 1) / 2) ^ 3 :=
    fun i => by ring
  simp only [this, Finset.sum_add_distrib, Finset.sum_sub_distrib, ← Finset.mul_sum, sum_id, sum_id2, sum_id3]
  simp; ring

/-- An inclined plane: peak to valley is the rise along both axes, the variance is the sum of the two, and the heights are
symmetric. -/
theorem C115_plane (hy : 0 < ny) (hx : 0 < nx) (c a b : ℝ) :
    ∃ q, heightParameters (plane ny nx c a b) = .ok q ∧
      q.sz = |a| * (ny - 1) + |b| * (nx - 1) ∧ q.sp = q.sz / 2 ∧ q.sv = q.sz / 2 ∧
      q.sq ^ 2 = a ^ 2 * ((ny : ℝ) ^ 2 - 1) / 12 + b ^ 2 * ((nx : ℝ) ^ 2 - 1) / 12 ∧
      (q.sq ≠ 0 → q.ssk = some 0) := by
  have hm : measured (flat (plane ny nx c a b)) = (pixels ny nx).map fun p => c + a * p.1 + b * p.2 :=
    measured_ofFn ny nx fun i j => c + a * i + b * j
  have hnone : none ∉ flat (plane ny nx c a b) := by
    rw [plane, flat_ofFn]; simp
  have hlen : (flat (plane ny nx c a b)).length = ny * nx := by
    rw [plane, flat_ofFn, List.length_map, pixels_length]
  have hne : flat (plane ny nx c a b) ≠ [] := by
    intro hc; rw [hc] at hlen; have := Nat.mul_pos hy hx; simp at hlen; omega
  have hmne := measured_ne_nil hnone hne
  refine ⟨_, (heightParameters_ok_iff _ _).2 ⟨hnone, hne, rfl⟩, ?_⟩
  have hy' : (0 : ℝ) < ny := by exact_mod_cast hy
  have hx' : (0 : ℝ) < nx := by exact_mod_cast hx
  have hN : (ny * nx : ℝ) ≠ 0 := by positivity
  have y1 := cent1 ny
  have y2 := cent2 ny
  have y3 := cent3 ny
  have x1 := cent1 nx
  have x2 := cent2 nx
  have x3 := cent3 nx
  have s1 : ∑ i ∈ Finset.range ny, ∑ j ∈ Finset.range nx, (a * ((i : ℝ) - (ny - 1) / 2) + b * ((j : ℝ) - (nx - 1) / 2)) = 0 := by
    simp only [Finset.sum_add_distrib, ← Finset.mul_sum, Finset.sum_const, x1]
    simp [← Finset.mul_sum, y1]
  have s2 : ∑ i ∈ Finset.range ny, ∑ j ∈ Finset.range nx, (a * ((i : ℝ) - (ny - 1) / 2) + b * ((j : ℝ) - (nx - 1) / 2)) ^ 2
      = ny * nx * (a ^ 2 * ((ny : ℝ) ^ 2 - 1) / 12 + b ^ 2 * ((nx : ℝ) ^ 2 - 1) / 12) := by
    have : ∀ u v : ℝ, (a * u + b * v) ^ 2 = a ^ 2 * u ^ 2 + (2 * a * b * u) * v + b ^ 2 * v ^ 2 := fun u v => by ring
    simp only [this, Finset.sum_add_distrib, ← Finset.mul_sum, Finset.sum_const, x1, x2]
    simp only [Finset.card_range, nsmul_eq_mul, ← Finset.mul_sum, y2, mul_zero, Finset.sum_const_zero]
    ring
  have s3 : ∑ i ∈ Finset.range ny, ∑ j ∈ Finset.range nx, (a * ((i : ℝ) - (ny - 1) / 2) + b * ((j : ℝ) - (nx - 1) / 2)) ^ 3 = 0 := by
    have : ∀ u v : ℝ, (a * u + b * v) ^ 3 = a ^ 3 * u ^ 3 + (3 * a ^ 2 * b * u ^ 2) * v + (3 * a * b ^ 2 * u) * v ^ 2 + b ^ 3 * v ^ 3 :=
      fun u v => by ring
    simp only [this, Finset.sum_add_distrib, ← Finset.mul_sum, Finset.sum_const, x1, x2, x3]
    simp only [Finset.card_range, nsmul_eq_mul, ← Finset.mul_sum, ← Finset.sum_mul, y3, y1, mul_zero, zero_mul, Finset.sum_const_zero,
      add_zero]
  have es : ∀ p : Nat × Nat, c + a * (p.1 : ℝ) + b * p.2
      = (c + a * ((ny - 1) / 2) + b * ((nx - 1) / 2)) + 1 * (a * ((p.1 : ℝ) - (ny - 1) / 2) + b * ((p.2 : ℝ) - (nx - 1) / 2)) :=
    fun p => by ring
  have hm' := hm
  simp only [es] at hm'
  obtain ⟨hmu, mom⟩ := moment_pix hy hx (c + a * ((ny - 1) / 2) + b * ((nx - 1) / 2)) 1
    (s := fun i j => a * ((i : ℝ) - (ny - 1) / 2) + b * ((j : ℝ) - (nx - 1) / 2)) s1
  rw [← hm'] at hmu mom
  have m2 : moment 2 (measured (flat (plane ny nx c a b))) = a ^ 2 * ((ny : ℝ) ^ 2 - 1) / 12 + b ^ 2 * ((nx : ℝ) ^ 2 - 1) / 12 := by
    rw [mom, s2]; field_simp
  have m3 : moment 3 (measured (flat (plane ny nx c a b))) = 0 := by
    rw [mom, s3]; simp
  -- the corners
  have corner : ∀ {n : Nat}, 0 < n → ∀ t : ℝ, ∃ i < n, t * (i : ℝ) = (t + |t|) / 2 * (n - 1) ∧ ∀ i' < n, t * (i' : ℝ) ≤ (t + |t|) / 2 * (n - 1) := by
    intro n hn t
    rcases le_total 0 t with ht | ht
    · refine ⟨n - 1, by omega, ?_, fun i' hi' => ?_⟩
      · rw [abs_of_nonneg ht, Nat.cast_sub (by omega)]; push_cast; ring
      · rw [abs_of_nonneg ht]
        have : (i' : ℝ) ≤ n - 1 := by have : (i' : ℝ) + 1 ≤ n := by exact_mod_cast hi'
                                      linarith
        nlinarith
    · refine ⟨0, hn, by rw [abs_of_nonpos ht]; simp, fun i' hi' => ?_⟩
      rw [abs_of_nonpos ht]
      have : (0 : ℝ) ≤ i' := Nat.cast_nonneg _
      nlinarith
  have mem : ∀ z, z ∈ measured (flat (plane ny nx c a b)) ↔ ∃ i < ny, ∃ j < nx, z = c + a * (i : ℝ) + b * j := by
    intro z
    rw [hm, List.mem_map]
    constructor
    · rintro ⟨p, hp, rfl⟩
      simp only [pixels, List.mem_flatMap, List.mem_map, List.mem_range] at hp
      obtain ⟨i, hi, j, hj, rfl⟩ := hp
      exact ⟨i, hi, j, hj, rfl⟩
    · rintro ⟨i, hi, j, hj, rfl⟩
      refine ⟨(i, j), ?_, rfl⟩
      simp only [pixels, List.mem_flatMap, List.mem_map, List.mem_range]
      exact ⟨i, hi, j, hj, rfl⟩
  have hmax : maxL (measured (flat (plane ny nx c a b))) = c + (a + |a|) / 2 * (ny - 1) + (b + |b|) / 2 * (nx - 1) := by
    obtain ⟨i, hi, ei, li⟩ := corner hy a
    obtain ⟨j, hj, ej, lj⟩ := corner hx b
    refine maxL_eq ((mem _).2 ⟨i, hi, j, hj, by rw [ei, ej]⟩) fun z hz => ?_
    obtain ⟨i', hi', j', hj', rfl⟩ := (mem z).1 hz
    have := li i' hi'
    have := lj j' hj'
    linarith
  have hmin : minL (measured (flat (plane ny nx c a b))) = c + (a - |a|) / 2 * (ny - 1) + (b - |b|) / 2 * (nx - 1) := by
    obtain ⟨i, hi, ei, li⟩ := corner hy (-a)
    obtain ⟨j, hj, ej, lj⟩ := corner hx (-b)
    rw [abs_neg] at ei ej li lj
    refine minL_eq ((mem _).2 ⟨i, hi, j, hj, by linarith⟩) fun z hz => ?_
    obtain ⟨i', hi', j', hj', rfl⟩ := (mem z).1 hz
    have := li i' hi'
    have := lj j' hj'
    linarith
  generalize measured (flat (plane ny nx c a b)) = l at hmu m2 m3 hmax hmin hmne
  have hsp : (paramsOf l).sp = (|a| * (ny - 1) + |b| * (nx - 1)) / 2 := by rw [paramsOf_sp hmne, hmax, hmu]; ring
  have hsv : (paramsOf l).sv = (|a| * (ny - 1) + |b| * (nx - 1)) / 2 := by rw [paramsOf_sv hmne, hmin, hmu]; ring
  have hsz : (paramsOf l).sz = |a| * (ny - 1) + |b| * (nx - 1) := by rw [paramsOf_sz, hsp, hsv]; ring
  refine ⟨hsz, by rw [hsp, hsz], by rw [hsv, hsz], ?_, fun h0 => ?_⟩
  · rw [paramsOf_sq, Real.sq_sqrt (moment_two_nonneg l), m2]
  · rw [paramsOf_sq] at h0
    rw [paramsOf_ssk, divNaN, if_neg (pow_ne_zero 3 h0), m3]; simp

example : ∃ q, heightParameters (plane 3 5 7 1 (-2)) = .ok q ∧ q.sz = 10 ∧ q.sp = 5 := by
  obtain ⟨q, h, h1, h2, -⟩ := C115_plane (ny := 3) (nx := 5) (by norm_num) (by norm_num) 7 1 (-2)
  norm_num at h1
  exact ⟨q, h, h1, by rw [h2, h1]; norm_num⟩

end Plane

end Surfalize.Props
