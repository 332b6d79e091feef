import Verif.Lemmas.Tmd
/-!
# C61: TMD files round-trip
-/
set_option linter.unusedSectionVars false
namespace Surfalize
namespace Props
open LayoutM LayoutSpec FileArr Tmd
variable {K : Type} [Field K] [LinearOrder K] [IsStrictOrderedRing K] [FloorRing K]

/-- Dividing a rounded length by the number of points: the error of the step. -/
theorem step_error {n : Nat} (hn : 0 < n) {x l : K} (h : Nearest false ((n : K) * x) l) :
    |l / n - x| ≤ max (|x| / 2 ^ 24) (1 / 2 ^ 150) := by
  have hn' : (0 : K) < n := by exact_mod_cast hn
  have hn1 : (1 : K) ≤ n := by exact_mod_cast hn
  have he := nearest_error h
  have e : l / n - x = (l - n * x) / n := by field_simp
  rw [e, abs_div, abs_of_pos hn', div_le_iff₀ hn']
  refine le_trans he ?_
  rw [max_mul_of_nonneg _ _ hn'.le]
  refine max_le_max ?_ ?_
  · rw [abs_mul, abs_of_pos hn']; apply le_of_eq; ring
  · exact le_mul_of_one_le_right (by positivity) hn1

/-- Saving as TMD and loading returns the same size, the same non-measured points, every height
rounded to single precision (the nearest value the file can hold) and the lateral steps with a
relative error of at most `2^-24`.

Partial: the comment, padded to its field, must not be cut within a character (true for every ASCII
comment, see `C61_ascii`); otherwise the file cannot be read back at all, see `C61_unreadable`. -/
theorem C61_round_trip_partial {c : FloatCodec K} (hc : c.Nearest) (comment : List Char)
    (hcut : ∃ u, CutTo 24
      (comment ++ List.replicate (21 - comment.length) ' ' ++ ['\r', '\n', '\x00']) u)
    (s : Raw K) (hwf : s.data.WF) (hx : 0 < s.data.nx) (hy : 0 < s.data.ny) (b : Bytes)
    (hw : writeTmd c comment s = .ok b) :
    ∃ r : Raw K, readTmd ⟨b, 0⟩ = .ok r ∧ r.data.WF ∧ r.data.ny = s.data.ny ∧
      r.data.nx = s.data.nx ∧
      |r.stepX - s.stepX| ≤ max (|s.stepX| / 2 ^ 24) (1 / 2 ^ 150) ∧
      |r.stepY - s.stepY| ≤ max (|s.stepY| / 2 ^ 24) (1 / 2 ^ 150) ∧
      ∀ i j, i < s.data.ny → j < s.data.nx →
        (s.data.get i j = none → r.data.get i j = none) ∧
        ∀ z, s.data.get i j = some z → |z| < f32.threshold K →
          ∃ z', r.data.get i j = some z' ∧ Nearest false z z' := by
  obtain ⟨u, hu⟩ := hcut
  obtain ⟨lx, ly, h1, h2, h3⟩ := read_written hc comment hu s hwf hx hy b hw
  refine ⟨_, h1, map_wf _ hwf, map_ny _ _, rfl, step_error hx h2, step_error hy h3, ?_⟩
  intro i j hi hj
  rw [get_map_height hwf _ hi hj]
  have hst := decFloat_encFloat hc false (s.data.get i j)
  constructor
  · intro h; rw [h] at hst ⊢; exact hst
  · intro z h hz; rw [h] at hst ⊢; exact hst hz

/-- Numbers that single precision can hold come back unchanged: heights, and steps whose product
with the number of points is such a number. -/
theorem C61_exact {c : FloatCodec K} (hc : c.Nearest) (comment : List Char)
    (hcut : ∃ u, CutTo 24
      (comment ++ List.replicate (21 - comment.length) ' ' ++ ['\r', '\n', '\x00']) u)
    (s : Raw K) (hwf : s.data.WF) (hx : 0 < s.data.nx) (hy : 0 < s.data.ny) (b : Bytes)
    (hw : writeTmd c comment s = .ok b)
    (hz : ∀ z, some z ∈ Container.flat s.data → |z| < f32.threshold K ∧ f32.Repr z)
    (hsx : f32.Repr ((s.data.nx : K) * s.stepX)) (hsy : f32.Repr ((s.data.ny : K) * s.stepY)) :
    readTmd ⟨b, 0⟩ = .ok s := by
  obtain ⟨u, hu⟩ := hcut
  obtain ⟨lx, ly, h1, h2, h3⟩ := read_written hc comment hu s hwf hx hy b hw
  rw [h1]
  have hx' : (s.data.nx : K) ≠ 0 := by exact_mod_cast hx.ne'
  have hy' : (s.data.ny : K) ≠ 0 := by exact_mod_cast hy.ne'
  have e1 : lx = (s.data.nx : K) * s.stepX := nearest_exact h2 hsx
  have e2 : ly = (s.data.ny : K) * s.stepY := nearest_exact h3 hsy
  have e3 : Container.map (fun z => decFloat K false (encFloat c false z)) s.data = s.data := by
    have : ∀ z ∈ Container.flat s.data, decFloat K false (encFloat c false z) = z := by
      intro z hm
      have hst := decFloat_encFloat hc false z
      cases z with
      | none => exact hst
      | some z =>
        obtain ⟨h4, h5⟩ := hz z hm
        obtain ⟨y, h6, h7⟩ := hst h4
        rw [h6, nearest_exact h7 h5]
    rw [Container.map_congr (g := id) _ _ this]
    exact Container.map_id s.data
  rw [e1, e2, e3]
  congr 2
  · rw [mul_div_assoc, mul_comm, div_mul_cancel₀ _ hx']
  · rw [mul_div_assoc, mul_comm, div_mul_cancel₀ _ hy']

/-- A comment of more than 21 characters raises ValueError. -/
theorem C61_comment_too_long (c : FloatCodec K) (comment : List Char) (h : 21 < comment.length)
    (s : Raw K) : writeTmd c comment s = .error .valueError := by
  unfold writeTmd
  rw [if_pos (by exact h)]

/-- ASCII comments of at most 21 characters are never cut. -/
theorem C61_ascii (comment : List Char) (h : comment.length ≤ 21)
    (ha : ∀ ch ∈ comment, ch.toNat < 128) :
    ∃ u, CutTo 24
      (comment ++ List.replicate (21 - comment.length) ' ' ++ ['\r', '\n', '\x00']) u := by
  refine ⟨_, cutTo_self _ _ (le_of_eq ?_)⟩
  rw [utf8_ascii]
  · simp; omega
  · intro ch hch
    simp only [List.mem_append, List.mem_replicate, List.mem_cons, List.not_mem_nil, or_false] at hch
    rcases hch with (hch | ⟨-, rfl⟩) | rfl | rfl | rfl
    · exact ha ch hch
    all_goals decide

/-- Saving succeeds for every comment of at most 21 characters, fewer than `2^32` points per
direction and extents in the range of single precision. -/
theorem C61_saves (c : FloatCodec K) (comment : List Char) (h : comment.length ≤ 21) (s : Raw K)
    (hnx : s.data.nx < 2 ^ 32) (hny : s.data.ny < 2 ^ 32)
    (hsx : |(s.data.nx : K) * s.stepX| < f32.threshold K)
    (hsy : |(s.data.ny : K) * s.stepY| < f32.threshold K) :
    ∃ b, writeTmd c comment s = .ok b := by
  have hthr : (0 : K) < f32.threshold K := lt_trans one_pos (one_lt_threshold (K := K) false)
  have h0 : |((0 : Int) : K)| < f32.threshold K := by simpa using hthr
  have hmin : intMin false 4 = 0 := by decide
  have hmax : intMax false 4 = 2 ^ 32 - 1 := by decide
  obtain ⟨b, hb⟩ := write_ok_of (c := c) (d := header comment s) (L := layout K) (by
    simp only [layout, List.forall_mem_cons, List.not_mem_nil, false_imp_iff, implies_true,
      and_true]
    refine ⟨txt_entry_ok c rfl, txt_entry_ok c rfl, ?_, ?_, ?_, ?_, ?_, ?_⟩
    · exact int_entry_ok c (i := (s.data.nx : Int)) rfl (by rw [hmin]; omega) (by rw [hmax]; omega)
    · exact int_entry_ok c (i := (s.data.ny : Int)) rfl (by rw [hmin]; omega) (by rw [hmax]; omega)
    · exact num_entry_ok c (x := (s.data.nx : K) * s.stepX) rfl hsx
    · exact num_entry_ok c (x := (s.data.ny : K) * s.stepY) rfl hsy
    · exact fltint_entry_ok c (i := 0) rfl h0
    · exact fltint_entry_ok c (i := 0) rfl h0)
  unfold writeTmd
  rw [if_neg (by show ¬ 21 < comment.length; omega), hb]
  exact ⟨_, rfl⟩

/-- A comment that is cut within a character is written without complaint, but the file cannot be
read back. -/
theorem C61_unreadable {c : FloatCodec K} (hc : c.Nearest) (comment : List Char)
    (hcut : ¬ ∃ u, CutTo 24
      (comment ++ List.replicate (21 - comment.length) ' ' ++ ['\r', '\n', '\x00']) u)
    (s : Raw K) (b : Bytes) (hw : writeTmd c comment s = .ok b) :
    readTmd (K := K) ⟨b, 0⟩ = .error .unicode := by
  unfold writeTmd at hw
  split at hw
  · cases hw
  cases hh : write c (header comment s) (layout K) with
  | error e => rw [hh] at hw; cases hw
  | ok hdr =>
    rw [hh] at hw
    simp only [Except.ok.injEq] at hw
    subst hw
    set arr := writeArray (encFloat c false) (Container.flat s.data) with harr
    have hmag0 := magic_written comment s hh
    unfold layout at hh
    obtain ⟨b1, b2, h1, h2, rfl⟩ := write_append (c := c) (header comment s)
      [.field "header" (.fixed (.str 32))] _ hdr hh
    obtain ⟨b3, b4, h3, h4, rfl⟩ := write_append (c := c) (header comment s)
      [.field "comment" (.fixed (.str 24))] _ b2 h2
    obtain ⟨hl, d', hr, -⟩ := header_back hc .utf8 (L := [.field "header" (.fixed (.str 32))])
      (by simp [WellFormed]) (by simp [names])
      (d := header comment s) (by
        simp only [TextFits]
        exact ⟨⟨_, _, rfl, cutTo_self _ _ (by decide +kernel)⟩, trivial⟩) h1 [] ((b3 ++ b4) ++ arr)
    have hl1 : b1.length = 32 := by rw [hl]; simp [width, bytesOf]
    obtain ⟨b3', e1, e2, -, e3⟩ := C57_text_iff c 24 (commentText comment) b1 (b4 ++ arr)
    have e3' := e3 hcut
    have hd : (header comment s) "comment" = some (.str (commentText comment)) := rfl
    simp only [write, Entry.write, dict_at_some hd] at h3
    rw [e1] at h3
    simp only [Except.ok.injEq, List.append_nil] at h3
    subst h3
    have hmag : ((Handle.mk (b1 ++ (b3' ++ b4) ++ arr) 0).read magic.length).1 = utf8 magic := by
      simp only [Handle.read, List.drop_zero]
      rw [List.take_append_of_le_length]
      · exact hmag0
      · have : magic.length = 29 := by decide
        simp; omega
    unfold readTmd
    rw [if_neg (by rw [hmag]; simp)]
    have hread : read .utf8 ((Handle.mk (b1 ++ (b3' ++ b4) ++ arr) 0).seek 0) (layout K) =
        .error .unicode := by
      simp only [List.nil_append, List.length_nil, Nat.zero_add, LayoutM.read, readGo] at hr
      have hb : b1 ++ (b3' ++ b4) ++ arr = b1 ++ (b3' ++ b4 ++ arr) := by simp
      rw [hb]
      unfold layout LayoutM.read
      simp only [readGo, Handle.seek]
      cases hx : Entry.read Encoding.utf8 (fun _ => none : Dict K)
          ⟨b1 ++ (b3' ++ b4 ++ arr), 0⟩ (.field "header" (.fixed (.str 32))) with
      | error e => rw [hx] at hr; cases hr
      | ok r =>
        rw [hx] at hr
        obtain ⟨d1, hd1⟩ := r
        simp only [Except.ok.injEq, Prod.mk.injEq] at hr
        obtain ⟨rfl, rfl⟩ := hr
        simp only [Entry.read]
        have hb2 : b1 ++ (b3' ++ b4 ++ arr) = b1 ++ b3' ++ (b4 ++ arr) := by simp
        rw [hb2, e3']
    rw [hread]

/-! ### Examples -/

/-- A surface with a missing point whose numbers single precision can hold. -/
def demoTmd : Raw ℚ := ⟨⟨[[some 1, some 2], [none, some 3]], 2⟩, 1, 2⟩

theorem demoTmd_repr (n : Nat) (h : n < 100) : f32.Repr ((n : ℚ)) :=
  (FFormat.repr_nat f32 (by decide) (by decide) n (by
    have : f32.mb = 23 := rfl
    rw [this]; omega)).1

/-- The default comment is not cut; the demo surface is saved and comes back identically. -/
example {c : FloatCodec ℚ} (hc : c.Nearest) :
    ∃ b, writeTmd c "Exported by surfalize".toList demoTmd = .ok b ∧
      readTmd ⟨b, 0⟩ = .ok demoTmd := by
  have big : ∀ n : Nat, n < 100 → |(n : ℚ)| < f32.threshold ℚ := by
    intro n hn
    have h : (n : ℚ) < 100 := by exact_mod_cast hn
    rw [abs_of_nonneg (by positivity)]
    refine lt_trans h ?_
    unfold FFormat.threshold
    have h1 : (2 : ℚ) ^ (f32.bias - (f32.mb : Int) - 1) = 2 ^ 103 := by
      rw [show f32.bias - (f32.mb : Int) - 1 = ((103 : Nat) : Int) by decide, zpow_natCast]
    have h2 : f32.mb = 23 := rfl
    rw [h1, h2]; norm_num
  have ex : ((demoTmd.data.nx : ℚ) * demoTmd.stepX) = ((2 : Nat) : ℚ) := by
    simp [demoTmd]
  have ey : ((demoTmd.data.ny : ℚ) * demoTmd.stepY) = ((4 : Nat) : ℚ) := by
    simp [demoTmd, Grid.ny]; norm_num
  obtain ⟨b, hb⟩ := C61_saves c "Exported by surfalize".toList (by decide) demoTmd
    (by decide) (by decide) (by rw [ex]; exact big 2 (by omega)) (by rw [ey]; exact big 4 (by omega))
  refine ⟨b, hb, C61_exact hc _ (C61_ascii _ (by decide) (by decide)) demoTmd (by decide)
    (by decide) (by decide) b hb ?_ ?_ ?_⟩
  · intro z hz
    have : z = ((1 : Nat) : ℚ) ∨ z = ((2 : Nat) : ℚ) ∨ z = ((3 : Nat) : ℚ) := by
      simpa [demoTmd, Container.flat] using hz
    rcases this with rfl | rfl | rfl
    · exact ⟨big 1 (by omega), demoTmd_repr 1 (by omega)⟩
    · exact ⟨big 2 (by omega), demoTmd_repr 2 (by omega)⟩
    · exact ⟨big 3 (by omega), demoTmd_repr 3 (by omega)⟩
  · rw [ex]; exact demoTmd_repr 2 (by omega)
  · rw [ey]; exact demoTmd_repr 4 (by omega)

/-- A comment of 13 characters that is cut within a character. -/
example : ¬ ∃ u, CutTo 24 (('a' :: List.replicate 12 'é') ++
    List.replicate (21 - ('a' :: List.replicate 12 'é').length) ' ' ++ ['\r', '\n', '\x00']) u := by
  rintro ⟨u, -, hu⟩
  have h1 : utf8? (utf8 u) = some u := utf8?_utf8 u
  rw [hu] at h1
  have h2 : utf8? ((utf8 (('a' :: List.replicate 12 'é') ++
    List.replicate (21 - ('a' :: List.replicate 12 'é').length) ' ' ++ ['\r', '\n', '\x00'])).take 24)
      = none := by decide +kernel
  rw [h2] at h1
  cases h1

end Props
end Surfalize
