import Verif.Lemmas.Period
import Verif.Props.Fourier
/-!
# C94 — the period of a profile
-/
set_option linter.unusedSectionVars false
namespace Surfalize.Props
open Surfalize Fourier Finset Spec Period PeriodSpec

/-- What the search returns if it finds something. -/
theorem periodFft_cases {argsort : Argsort} (hs : IsArgsort argsort) (d : ℝ) {y : List ℝ} (hn : 2 ≤ y.length) :
    (findPeaks argsort 10 10 (fun u => ‖fft1 y u‖) y.length = [] ∧ periodFft argsort d y = .error .indexError) ∨
    ∃ p q, (p, q) ∈ findPeaks argsort 10 10 (fun u => ‖fft1 y u‖) y.length ∧
      (∀ p' q', (p', q') ∈ findPeaks argsort 10 10 (fun u => ‖fft1 y u‖) y.length → q' ≤ q) ∧
      periodFft argsort d y = .ok (1 / |fftfreq y.length d p|) := by
  unfold periodFft
  rw [if_neg (by omega), if_neg (by omega)]
  dsimp only
  generalize findPeaks argsort 10 10 (fun u => ‖fft1 y u‖) y.length = peaks
  by_cases he : peaks = []
  · subst he
    refine .inl ⟨rfl, ?_⟩
    have := (hs (([] : List (Nat × ℝ)).map Prod.snd)).1.length_eq
    simp only [List.map_nil, List.length_nil, List.range_zero] at this
    rw [List.map_nil, List.length_eq_zero_iff.1 this]
    rfl
  · right
    obtain ⟨i0, r, h1, h2, h3⟩ := top_one hs (peaks.map Prod.snd) (by simpa using he)
    rw [h1]
    rw [List.length_map] at h2
    have hg : peaks.getD i0 (0, 0) = peaks[i0] := by
      rw [List.getD_eq_getElem?_getD, List.getElem?_eq_getElem h2]; rfl
    refine ⟨peaks[i0].1, peaks[i0].2, List.getElem_mem h2, ?_, by dsimp only; rw [hg]⟩
    intro p' q' hm
    obtain ⟨j, hj, e⟩ := List.getElem_of_mem hm
    have := h3 j (by simpa using hj)
    simp only [List.getD_eq_getElem?_getD, List.getElem?_map, List.getElem?_eq_getElem hj, List.getElem?_eq_getElem h2,
      Option.map_some, Option.getD_some, e] at this
    exact this

theorem mem_findPeaks {argsort : Argsort} {dist : Nat} {prom : ℝ} {x : Nat → ℝ} {n p : Nat} {q : ℝ} :
    (p, q) ∈ findPeaks argsort dist prom x n ↔ p ∈ byDistance argsort dist x (localMaxima x n) ∧ q = prominence x n p ∧ prom ≤ q := by
  unfold findPeaks
  rw [List.mem_filter, List.mem_map]
  constructor
  · rintro ⟨⟨p', h1, h2⟩, h3⟩
    simp only [Prod.mk.injEq] at h2
    obtain ⟨rfl, h2⟩ := h2
    exact ⟨h1, h2.symm, by simpa using h3⟩
  · rintro ⟨h1, h2, h3⟩
    exact ⟨⟨p, h1, by rw [h2]⟩, by simpa using h3⟩

/-- **C94** (the dominant period). If the component with `k ≥ 2` periods exceeds every other one by more than `s`, where
some component with fewer periods is at most `s` strong, and exceeds `10 + s`, the period is the length of the profile
over `k`. -/
theorem C94_dominant_partial {argsort : Argsort} (hs : IsArgsort argsort) {d : ℝ} (hd : 0 < d) {y : List ℝ} {k u0 : Nat}
    {s : ℝ} (hk : 2 ≤ k) (hn : 2 * k < y.length) (hu : 1 ≤ u0) (hu' : u0 < k) (hlow : strength y u0 ≤ s)
    (hdom : ∀ u, 1 ≤ u → 2 * u ≤ y.length → u ≠ k → strength y u + s < strength y k) (hstrong : 10 + s ≤ strength y k) :
    periodFft argsort d y = .ok (y.length * d / k) := by
  set n := y.length with hnl
  set x : Nat → ℝ := fun u => ‖fft1 y u‖ with hx
  have hx0 : ∀ j, 0 ≤ x j := fun j => norm_nonneg _
  have hA : strength y k = x k := strength_eq (by omega) (by omega)
  have hA' : x (n - k) = x k := fft1_mirror y (by omega) (by omega)
  rw [strength_eq (by omega) (by omega)] at hlow
  rw [hA] at hstrong
  have hs0 : 0 ≤ s := (hx0 u0).trans hlow
  have hoth : ∀ v, 1 ≤ v → v < n → v ≠ k → v ≠ n - k → x v + s < x k := by
    intro v h1 h2 h3 h4
    by_cases hv : 2 * v ≤ n
    · have := hdom v h1 hv h3
      rw [strength_eq (by omega) (by omega), hA] at this
      exact this
    · have := hdom (n - v) (by omega) (by omega) (by omega)
      rw [strength_eq (by omega) (by omega), hA, fft1_mirror y (by omega) (by omega)] at this
      exact this
  have hall : ∀ v, 1 ≤ v → v < n → x v ≤ x k := by
    intro v h1 h2
    by_cases c1 : v = k
    · rw [c1]
    · by_cases c2 : v = n - k
      · rw [c2, hA']
      · have := hoth v h1 h2 c1 c2; linarith
  have hmax : k ∈ localMaxima x n := by
    rw [mem_localMaxima]
    have hl : x (k - 1) < x k := by
      have := hoth (k - 1) (by omega) (by omega) (by omega) (by omega); linarith
    by_cases c : k + 1 = n - k
    · have hr := hoth (k + 2) (by omega) (by omega) (by omega) (by omega)
      have : ahead x n k = k + 2 := by
        refine ahead_eq x (by omega) (by omega) (by omega) ?_ (.inr ?_)
        · intro m m1 m2
          obtain rfl : m = k + 1 := by omega
          rw [c, hA']
        · intro e; linarith
      exact ⟨k, by omega, by omega, hl, by rw [this]; linarith, by rw [this]; omega⟩
    · have hr := hoth (k + 1) (by omega) (by omega) (by omega) c
      have : ahead x n k = k + 1 := by
        refine ahead_eq x (by omega) (by omega) (by omega) ?_ (.inr ?_)
        · intro m m1 m2; omega
        · intro e; linarith
      exact ⟨k, by omega, by omega, hl, by rw [this]; linarith, by rw [this]; omega⟩
  obtain ⟨j0, r, o1, o2, o3⟩ := top_one hs ((localMaxima x n).map x) (by
    intro e; rw [List.map_eq_nil_iff] at e; rw [e] at hmax; cases hmax)
  rw [List.length_map] at o2
  have hin := byDistance_first (dist := 10) o1 o2
  have hbest : (localMaxima x n).getD j0 0 = k ∨ (localMaxima x n).getD j0 0 = n - k := by
    obtain ⟨i, hi, e⟩ := List.getElem_of_mem hmax
    have := o3 i (by simpa using hi)
    simp only [List.getD_eq_getElem?_getD, List.getElem?_map, List.getElem?_eq_getElem hi, List.getElem?_eq_getElem o2,
      Option.map_some, Option.getD_some, e] at this ⊢
    have hb := localMaxima_bounds (List.getElem_mem o2)
    by_contra hc
    push Not at hc
    have := hoth _ hb.1 (by omega) hc.1 hc.2
    linarith
  have hprom : ∀ p, (p = k ∨ p = n - k) → x k - s ≤ prominence x n p := by
    intro p hp
    have e : x p = x k := by rcases hp with rfl | rfl; · rfl
                             · exact hA'
    rw [← e]
    refine le_prominence (z1 := u0) (z2 := n - u0) (by omega) (by omega) (by omega) hlow ?_ ?_
    · show ‖fft1 y (n - u0)‖ ≤ s
      rw [fft1_mirror y (by omega) (by omega)]; exact hlow
    · intro j h1 h2
      rw [e]
      exact hall j (by omega) (by omega)
  have hfound := mem_findPeaks.2 ⟨hin, rfl, (by linarith [hprom _ hbest] : (10 : ℝ) ≤ _)⟩
  rcases periodFft_cases hs d (y := y) (by omega) with ⟨h1, -⟩ | ⟨p, q, h1, h2, h3⟩
  · change findPeaks argsort 10 10 x n = [] at h1
    rw [h1] at hfound; cases hfound
  · rw [h3]
    have hq := h2 _ _ hfound
    obtain ⟨m1, m2, -⟩ := mem_findPeaks.1 h1
    have hb := localMaxima_bounds (byDistance_mem m1)
    change q = prominence x n p at m2
    change 1 ≤ p ∧ p + 2 ≤ n at hb
    have : p = k ∨ p = n - k := by
      by_contra hc
      push Not at hc
      have a1 := hoth p hb.1 (by omega) hc.1 hc.2
      have a2 := prominence_le hx0 n p
      have a3 := hprom _ hbest
      linarith
    rw [period_of_peak (by omega) hn hd this]

/-- **C94** (sinusoidal profile). A profile of `k ≥ 2` whole periods of a sinusoid, more than two points per period and
`n |a| / 2 ≥ 10`, has the period `n d / k`, whatever its phase and offset. -/
theorem C94_sinusoid_partial {argsort : Argsort} (hs : IsArgsort argsort) {d : ℝ} (hd : 0 < d) {y : List ℝ} {k : Nat} {a φ c : ℝ}
    (h : Sinusoidal y k a φ c) (hk : 2 ≤ k) (hn : 2 * k < y.length) (ha : 10 ≤ y.length * |a| / 2) :
    periodFft argsort d y = .ok (y.length * d / k) := by
  have hstr : ∀ u, 1 ≤ u → 2 * u ≤ y.length → strength y u = if u = k then y.length * (|a| / 2) else 0 := by
    intro u h1 h2
    rw [strength_eq (by omega) (by omega), fft1_sinusoid h (by omega) hn (by omega), if_neg (by omega)]
    by_cases c : u = k
    · rw [if_pos (.inl c), if_pos c]
    · rw [if_neg (by omega), if_neg c]
  have hK : strength y k = y.length * (|a| / 2) := by rw [hstr k (by omega) (by omega), if_pos rfl]
  refine C94_dominant_partial hs hd (u0 := 1) (s := 0) hk hn le_rfl (by omega) ?_ ?_ ?_
  · rw [hstr 1 le_rfl (by omega), if_neg (by omega)]
  · intro u h1 h2 h3
    rw [hstr u h1 h2, if_neg h3, hK]
    linarith
  · rw [hK]; linarith

/-- **C94** (range). Whatever the profile, a period that is returned is the length of the profile over a whole number of
periods, at least one and at most half the number of points. -/
theorem C94_range {argsort : Argsort} (hs : IsArgsort argsort) {d : ℝ} (hd : 0 < d) {y : List ℝ} {P : ℝ}
    (h : periodFft argsort d y = .ok P) :
    ∃ m : Nat, 1 ≤ m ∧ 2 * m ≤ y.length ∧ P = y.length * d / m ∧ 2 * d ≤ P ∧ P ≤ y.length * d := by
  have hn : 2 ≤ y.length := by
    by_contra hc
    unfold periodFft at h
    by_cases h0 : y.length = 0
    · rw [if_pos h0] at h; cases h
    · rw [if_neg h0, if_pos (by omega)] at h; cases h
  rcases periodFft_cases hs d hn with ⟨-, h1⟩ | ⟨p, q, h1, -, h3⟩
  · rw [h1] at h; cases h
  · rw [h3] at h
    have hP := Except.ok.inj h
    have hb := localMaxima_bounds (byDistance_mem (mem_findPeaks.1 h1).1)
    have hnp : (0 : ℝ) < y.length := by exact_mod_cast (by omega : 0 < y.length)
    have key : ∃ m : Nat, 1 ≤ m ∧ 2 * m ≤ y.length ∧ |fftfreq y.length d p| = m * (1 / (y.length * d)) := by
      unfold fftfreq
      rw [abs_mul, abs_of_pos (show (0 : ℝ) < 1 / (y.length * d) by positivity)]
      split
      · refine ⟨p, hb.1, by omega, ?_⟩
        rw [abs_of_nonneg (by positivity)]
      · refine ⟨y.length - p, by omega, by omega, ?_⟩
        rw [abs_sub_comm, Nat.cast_sub (by omega), abs_of_nonneg]
        have : (p : ℝ) ≤ y.length := by exact_mod_cast (by omega : p ≤ y.length)
        linarith
    obtain ⟨m, m1, m2, m3⟩ := key
    have hm : (0 : ℝ) < m := by exact_mod_cast m1
    have e : P = y.length * d / m := by
      rw [← hP, m3]; field_simp
    refine ⟨m, m1, m2, e, ?_, ?_⟩
    · rw [e, le_div_iff₀ hm]
      have : (2 * m : ℝ) ≤ y.length := by exact_mod_cast m2
      nlinarith
    · rw [e]
      refine div_le_self (by positivity) (by exact_mod_cast m1)

/-- **C94** (short profiles). A profile without points raises ValueError, one with a single point IndexError. -/
theorem C94_short (argsort : Argsort) (d z : ℝ) : periodFft argsort d [] = .error .valueError ∧ periodFft argsort d [z] = .error .indexError :=
  ⟨rfl, rfl⟩

/-- **C94** (refuted in general). A profile whose heights deviate from some height by less than 10 in total has no period:
the call raises `IndexError`, however periodic the profile is. -/
theorem C94_shallow_violated {argsort : Argsort} (hs : IsArgsort argsort) (d : ℝ) {y : List ℝ} (hn : 2 ≤ y.length) (m : ℝ)
    (h : (y.map fun z => |z - m|).sum < 10) : periodFft argsort d y = .error .indexError := by
  rcases periodFft_cases hs d hn with ⟨-, h1⟩ | ⟨p, q, h1, -, -⟩
  · exact h1
  · obtain ⟨h2, h3, h4⟩ := mem_findPeaks.1 h1
    have hb := localMaxima_bounds (byDistance_mem h2)
    have a := prominence_le (x := fun u => ‖fft1 y u‖) (fun j => norm_nonneg _) y.length p
    have b := fft1_le y m (u := p) (by omega) (by omega)
    linarith

/-- **C94** (refuted for one period). One single period around a height that is at least half the amplitude away from zero
is not found, although the same profile shifted may be (`C94_single`). -/
theorem C94_single_violated {argsort : Argsort} (hs : IsArgsort argsort) (d : ℝ) {y : List ℝ} {a φ c : ℝ}
    (h : Sinusoidal y 1 a φ c) (hn : 4 ≤ y.length) (hc : |a| / 2 ≤ |c|) : periodFft argsort d y = .error .indexError := by
  rcases periodFft_cases hs d (y := y) (by omega) with ⟨-, h1⟩ | ⟨p, q, h1, -, -⟩
  · exact h1
  · exfalso
    have hb := mem_localMaxima.1 (byDistance_mem (mem_findPeaks.1 h1).1)
    obtain ⟨i, i1, i2, i3, -, -⟩ := hb
    have e1 := fft1_sinusoid h (by omega) (by omega) (u := i - 1) (by omega)
    have e2 := fft1_sinusoid h (by omega) (by omega) (u := i) (by omega)
    rw [e1, e2, if_neg (by omega : ¬ i = 0)] at i3
    have hnn : (0 : ℝ) ≤ y.length := by positivity
    by_cases c1 : i = 1
    · subst c1
      rw [if_pos (by omega), if_pos (.inl rfl)] at i3
      have := mul_le_mul_of_nonneg_left hc hnn
      linarith
    · rw [if_neg (by omega : ¬ (i = 1 ∨ i = y.length - 1))] at i3
      have : (0 : ℝ) ≤ (if i - 1 = 0 then (y.length : ℝ) * |c| else if i - 1 = 1 ∨ i - 1 = y.length - 1 then y.length * (|a| / 2) else 0) := by
        split_ifs <;> positivity
      linarith

/-- **C94** (one period). One single period is found if its amplitude is large enough compared with the offset. -/
theorem C94_single {argsort : Argsort} (hs : IsArgsort argsort) {d : ℝ} (hd : 0 < d) {y : List ℝ} {a φ c : ℝ}
    (h : Sinusoidal y 1 a φ c) (hn : 4 ≤ y.length) (hc : 10 ≤ y.length * (|a| / 2 - |c|)) :
    periodFft argsort d y = .ok (y.length * d) := by
  set n := y.length with hnl
  set x : Nat → ℝ := fun u => ‖fft1 y u‖ with hx
  have hx0 : ∀ j, 0 ≤ x j := fun j => norm_nonneg _
  have hval : ∀ u, u < n → x u = if u = 0 then n * |c| else if u = 1 ∨ u = n - 1 then n * (|a| / 2) else 0 :=
    fun u hu => fft1_sinusoid h (by omega) (by omega) hu
  have v0 : x 0 = n * |c| := by rw [hval 0 (by omega), if_pos rfl]
  have v1 : x 1 = n * (|a| / 2) := by rw [hval 1 (by omega), if_neg (by omega), if_pos (.inl rfl)]
  have v2 : x 2 = 0 := by rw [hval 2 (by omega), if_neg (by omega), if_neg (by omega)]
  have hpos : (0 : ℝ) ≤ n * |c| := by positivity
  have hA : n * |c| + 10 ≤ n * (|a| / 2) := by linarith
  have hah : ahead x n 1 = 2 := by
    refine ahead_eq x (by omega) (by omega) (by omega) (fun m m1 m2 => by omega) (.inr ?_)
    rw [v1, v2]; intro e; linarith
  have honly : ∀ p ∈ localMaxima x n, p = 1 := by
    intro p hp
    obtain ⟨i, i1, i2, i3, -, i5⟩ := mem_localMaxima.1 hp
    by_cases e : i = 1
    · subst e; rw [i5, hah]
    · exfalso
      have := hval i (by omega)
      rw [if_neg (by omega), if_neg (by omega)] at this
      have := hx0 (i - 1)
      linarith
  have hmem : 1 ∈ localMaxima x n :=
    mem_localMaxima.2 ⟨1, le_rfl, by omega, by show x 0 < x 1; rw [v0, v1]; linarith, by rw [hah, v1, v2]; linarith, by rw [hah]⟩
  have hdist : 1 ∈ byDistance argsort 10 x (localMaxima x n) := by
    obtain ⟨p, hp⟩ := List.exists_mem_of_ne_nil _ (byDistance_ne (argsort := argsort) (dist := 10) (x := x) (List.ne_nil_of_mem hmem))
    rwa [honly p (byDistance_mem hp)] at hp
  have hprom : (10 : ℝ) ≤ prominence x n 1 := by
    have := le_prominence (x := x) (s := n * |c|) (n := n) (p := 1) (z1 := 0) (z2 := 2) (by omega) (by omega) (by omega)
      (by rw [v0]) (by rw [v2]; exact hpos) (by
        intro j _ hj
        have : j = 0 ∨ j = 1 ∨ j = 2 := by omega
        rcases this with rfl | rfl | rfl
        · rw [v0, v1]; linarith
        · exact le_rfl
        · rw [v1, v2]; linarith)
    rw [v1] at this
    linarith
  have hfound := mem_findPeaks.2 ⟨hdist, rfl, hprom⟩
  rcases periodFft_cases hs d (y := y) (by omega) with ⟨h1, -⟩ | ⟨p, q, h1, h2, h3⟩
  · change findPeaks argsort 10 10 x n = [] at h1
    rw [h1] at hfound; cases hfound
  · rw [h3, honly p (byDistance_mem (mem_findPeaks.1 h1).1), period_of_peak (k := 1) le_rfl (by omega) hd (.inl rfl)]
    simp [hnl]

/-- A sampled sinusoid is sinusoidal. -/
theorem sinusoidal_range (n k : Nat) (a φ c : ℝ) :
    Sinusoidal ((List.range n).map fun j : Nat => c + a * Real.cos (2 * Real.pi * ((k : ℝ) * j / n) + φ)) k a φ c := by
  intro j hj
  rw [List.length_map, List.length_range] at hj ⊢
  rw [List.getElem?_map, List.getElem?_range hj]
  rfl

/-- Twelve points of two periods of amplitude 2 around the height 5 with point distance 0.5 have the period 3. -/
example : ∃ argsort : Argsort, IsArgsort argsort ∧
    periodFft argsort (1 / 2) ((List.range 12).map fun j : Nat => 5 + 2 * Real.cos (2 * Real.pi * ((2 : Nat) * j / 12) + 1)) = .ok 3 := by
  obtain ⟨argsort, hs⟩ := C43_argsort_exists
  refine ⟨argsort, hs, ?_⟩
  have := C94_sinusoid_partial hs (d := 1 / 2) (by norm_num) (sinusoidal_range 12 2 2 1 5) le_rfl (by simp) (by simp; norm_num)
  simp only [List.length_map, List.length_range] at this
  norm_num at this ⊢
  exact this

/-- The same profile with amplitude 0.1 (in micrometres) has no period, -/
example : ∃ argsort : Argsort, IsArgsort argsort ∧
    periodFft argsort (1 / 2) [5, 5.1, 5, 4.9, 5, 5.1, 5, 4.9] = .error .indexError := by
  obtain ⟨argsort, hs⟩ := C43_argsort_exists
  exact ⟨argsort, hs, C94_shallow_violated hs _ (by simp) 5 (by norm_num [abs_of_pos, abs_of_neg])⟩

/-- and one period of amplitude 8 around 5 has none, while around 0 it has. -/
example : ∃ argsort : Argsort, IsArgsort argsort ∧
    periodFft argsort 1 ((List.range 4).map fun j : Nat => 5 + 8 * Real.cos (2 * Real.pi * ((1 : Nat) * j / (4 : Nat)) + 0)) = .error .indexError ∧
    periodFft argsort 1 ((List.range 4).map fun j : Nat => 0 + 8 * Real.cos (2 * Real.pi * ((1 : Nat) * j / (4 : Nat)) + 0)) = .ok 4 := by
  obtain ⟨argsort, hs⟩ := C43_argsort_exists
  refine ⟨argsort, hs, ?_, ?_⟩
  · refine C94_single_violated hs 1 (sinusoidal_range 4 1 8 0 5) (by simp) ?_
    rw [abs_of_pos, abs_of_pos] <;> norm_num
  · rw [C94_single hs one_pos (sinusoidal_range 4 1 8 0 0) (by simp) (by simp; norm_num)]
    simp

/-- **C94** (missing points). A profile with a missing point has no period; `ValueError`. Without missing points the period
is that of the heights at their distances. -/
theorem C94_missing (argsort : Argsort) (step : ℝ) (data : List (Option ℝ)) (h : none ∈ data) :
    profilePeriod argsort step data = .error .valueError := if_pos h

theorem C94_profile (argsort : Argsort) (step : ℝ) (y : List ℝ) :
    profilePeriod argsort step (y.map some) = periodFft argsort step y := by
  unfold profilePeriod
  rw [if_neg (by simp)]
  congr 1
  unfold measured
  induction y with
  | nil => rfl
  | cons a l ih => simp

end Surfalize.Props
