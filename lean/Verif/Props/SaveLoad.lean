import Verif.Spec.SaveLoad
import Verif.Props.FileHandler
import Verif.Props.Sur
import Verif.Props.Sdf
import Verif.Props.Sflz
import Verif.Props.Tmd
import Verif.Props.Al3d
import Verif.Props.Units
/-!
# C89: a saved surface can be loaded again
-/
set_option linter.unusedSectionVars false
set_option exponentiation.threshold 2000
namespace Surfalize
namespace Props
open LayoutM LayoutSpec FileArr Files FilesSpec SaveLoadSpec SaveLoad
variable {K : Type} [Field K] [LinearOrder K] [IsStrictOrderedRing K] [FloorRing K]

private theorem pow_lt_f32 : (2 : K) ^ 110 < f32.threshold K := by
  unfold FFormat.threshold
  have h1 : (2 : K) ^ (f32.bias - (f32.mb : Int) - 1) = 2 ^ 103 := by
    rw [show f32.bias - (f32.mb : Int) - 1 = ((103 : Nat) : Int) by decide, zpow_natCast]
  have h2 : f32.mb = 23 := rfl
  rw [h1, h2]; norm_num

private theorem pow_lt_f64 : (2 : K) ^ 110 < f64.threshold K := by
  unfold FFormat.threshold
  have h1 : (2 : K) ^ (f64.bias - (f64.mb : Int) - 1) = 2 ^ 970 := by
    rw [show f64.bias - (f64.mb : Int) - 1 = ((970 : Nat) : Int) by decide, zpow_natCast]
  have h2 : f64.mb = 52 := rfl
  rw [h1, h2]
  have h3 : (2 : K) ^ 110 ≤ 2 ^ 970 := pow_le_pow_right₀ (by norm_num) (by norm_num)
  have h4 : (0 : K) < 2 ^ 970 := by positivity
  have h5 : (1 : K) < 2 ^ (52 + 2) - 1 := by norm_num
  exact lt_of_le_of_lt h3 (lt_mul_of_one_lt_left h4 h5)

private theorem tiny {a : K} {n m : Nat} (ha : a ≤ 2 ^ n) (h : n + 100 ≤ m) : a / 2 ^ m ≤ 1 / 2 ^ 100 := by
  rw [div_le_div_iff₀ (by positivity) (by positivity), one_mul]
  calc a * 2 ^ 100 ≤ 2 ^ n * 2 ^ 100 := mul_le_mul_of_nonneg_right ha (by positivity)
    _ = 2 ^ (n + 100) := (pow_add _ _ _).symm
    _ ≤ 2 ^ m := pow_le_pow_right₀ (by norm_num) h

private theorem weaker {a t u v : K} {p q : Nat} (ha : 0 ≤ a) (h : v ≤ max (a / 2 ^ p) t) (hq : q ≤ p) (ht : t ≤ u)
    (hu : 0 ≤ u) : v ≤ a / 2 ^ q + u := by
  have h1 : a / 2 ^ p ≤ a / 2 ^ q :=
    div_le_div_of_nonneg_left ha (by positivity) (pow_le_pow_right₀ (by norm_num) hq)
  have h2 : 0 ≤ a / 2 ^ q := by positivity
  refine le_trans h (max_le ?_ ?_) <;> linarith

private theorem get_range {g : Grid (Option K)} (hg : g.WF) {i j : Nat} {z : K} (h : g.get i j = some z) :
    i < g.ny ∧ j < g.nx := by
  unfold Grid.get at h
  cases h1 : g.rows[i]? with
  | none => simp [h1] at h
  | some r =>
    obtain ⟨hi, hr⟩ := List.getElem?_eq_some_iff.1 h1
    have hlen : r.length = g.nx := hg _ (hr ▸ List.getElem_mem hi)
    rw [h1, Option.bind_some] at h
    cases h2 : r[j]? with
    | none => simp [h2] at h
    | some x =>
      obtain ⟨hj, -⟩ := List.getElem?_eq_some_iff.1 h2
      exact ⟨hi, by omega⟩

private theorem close_of {s r : Raw K} (hwf : s.data.WF) (h1 : r.data.WF) (h2 : r.data.ny = s.data.ny)
    (h3 : r.data.nx = s.data.nx) (h4 : |r.stepX - s.stepX| ≤ |s.stepX| / 2 ^ 24 + 1 / 2 ^ 100)
    (h5 : |r.stepY - s.stepY| ≤ |s.stepY| / 2 ^ 24 + 1 / 2 ^ 100)
    (h6 : ∀ i j, i < s.data.ny → j < s.data.nx → (s.data.get i j = none → r.data.get i j = none) ∧
      ∀ z, s.data.get i j = some z → ∃ z', r.data.get i j = some z' ∧
        ∀ A, (∀ w, some w ∈ Container.flat s.data → |w| ≤ A) → |z' - z| ≤ A / 2 ^ 22 + 1 / 2 ^ 100) : Close s r := by
  refine ⟨h1, h2, h3, h4, h5, ?_, ?_⟩
  · intro i j hi hj
    refine ⟨fun h => ?_, (h6 i j hi hj).1⟩
    cases hz : s.data.get i j with
    | none => rfl
    | some z =>
      obtain ⟨z', hz', -⟩ := (h6 i j hi hj).2 z hz
      rw [h] at hz'
      cases hz'
  · intro A hA i j z z' hz hz'
    obtain ⟨hi, hj⟩ := get_range hwf hz
    obtain ⟨w, hw, hb⟩ := (h6 i j hi hj).2 z hz
    rw [hw] at hz'
    cases hz'
    exact hb A hA

/-- What a written file must do. -/
private def Stored (E : Env K) (f : Format) (s : Raw K) (b : Bytes) : Prop :=
  HasMagic f b ∧ ∀ enc post, (f = .tmd → post = []) → ∃ r, (SaveLoad.read E enc f ⟨b ++ post, 0⟩).1 = .ok r ∧ Close s r

private theorem step_micro {x y : K} (h : |y - x| ≤ max (|x| / 2 ^ 53) (10 ^ 6 / 2 ^ 1075)) :
    |y - x| ≤ |x| / 2 ^ 24 + 1 / 2 ^ 100 :=
  weaker (abs_nonneg x) h (by norm_num) (tiny (n := 20) (by norm_num) (by norm_num)) (by positivity)

private theorem step_double {x y : K} (h : LayoutSpec.Nearest true x y) : |y - x| ≤ |x| / 2 ^ 24 + 1 / 2 ^ 100 :=
  weaker (abs_nonneg x) (FileArr.nearest_error_double h) (by norm_num) (tiny (n := 0) (by norm_num) (by norm_num))
    (by positivity)

private theorem step_single {x y : K} (h : |y - x| ≤ max (|x| / 2 ^ 24) (1 / 2 ^ 150)) :
    |y - x| ≤ |x| / 2 ^ 24 + 1 / 2 ^ 100 :=
  weaker (abs_nonneg x) h le_rfl (tiny (n := 0) (by norm_num) (by norm_num)) (by positivity)

private theorem small64 {x : K} (h : |x| ≤ 2 ^ 80) : |x / 10 ^ 6| < f64.threshold K := by
  refine lt_of_le_of_lt ?_ pow_lt_f64
  rw [abs_div, abs_of_pos (by positivity : (0 : K) < 10 ^ 6), div_le_iff₀ (by positivity)]
  refine le_trans h ?_
  norm_num

private theorem stored_al3d {E : Env K} (hE : Sound E) {s : Raw K} (hs : Fits s) :
    Stored E .al3d s (Al3d.writeAl3d E.codec E.text s) := by
  refine ⟨⟨utf8 Al3d.magic, by decide +kernel, ?_⟩, ?_⟩
  · unfold Al3d.writeAl3d
    dsimp only
    simp only [List.append_assoc]
    exact ⟨_, rfl⟩
  · intro enc post _
    have h30 : (65535 : Nat) < 10 ^ 30 := by norm_num
    obtain ⟨r, h0, h1, h2, h3, h4, h5, h6⟩ := C60_round_trip hE.codec hE.text enc s hs.wf
      (lt_of_le_of_lt hs.nx.2 h30) (lt_of_le_of_lt hs.ny.2 h30) (small64 hs.stepX) (small64 hs.stepY) post
    refine ⟨r, h0, close_of hs.wf h1 h2 h3 (step_micro h4) (step_micro h5) ?_⟩
    intro i j hi hj
    refine ⟨(h6 i j hi hj).1, fun z hz => ?_⟩
    have hzm : some z ∈ Container.flat s.data := hz ▸ get_mem hs.wf hi hj
    have hz2 := (hs.heights z hzm).2
    obtain ⟨z', hz', he⟩ := (h6 i j hi hj).2 z hz (by
      refine lt_of_le_of_lt ?_ pow_lt_f32
      rw [abs_div, abs_of_pos (by positivity : (0 : K) < 10 ^ 6), div_le_iff₀ (by positivity)]
      refine le_trans hz2 ?_
      norm_num)
    refine ⟨z', hz', fun A hA => ?_⟩
    have := weaker (q := 22) (abs_nonneg z) he (by norm_num) (tiny (n := 20) (by norm_num) (by norm_num)) (by positivity)
    have hzA := div_le_div_of_nonneg_right (hA z hzm) (by positivity : (0 : K) ≤ 2 ^ 22)
    linarith

private theorem stored_sdf {E : Env K} (hE : Sound E) {s : Raw K} (hs : Fits s) :
    ∃ b, Sdf.writeBinary E.codec E.log E.created E.modified s = .ok b ∧ Stored E .sdf s b := by
  obtain ⟨z0, hz0, hz0l⟩ := hs.large
  have h290 : (2 : K) ^ 100 ≤ 10 ^ 290 := by
    calc (2 : K) ^ 100 ≤ 10 ^ 100 := pow_le_pow_left₀ (by norm_num) (by norm_num) _
      _ ≤ 10 ^ 290 := pow_le_pow_right₀ (by norm_num) (by norm_num)
  obtain ⟨b, hb⟩ := C59_saves E.codec hE.log E.created E.modified s (List.ne_nil_of_mem hz0) hs.nx.2 hs.ny.2
    (small64 hs.stepX) (small64 hs.stepY) (fun z hz => le_trans (hs.heights z hz).2 h290)
  refine ⟨b, hb, ⟨utf8 Sdf.magicBinary, by decide +kernel, ?_⟩, ?_⟩
  · unfold Sdf.writeBinary at hb
    cases hm : Sdf.maxAbs s.data with
    | error e => rw [hm] at hb; cases hb
    | ok m =>
      rw [hm] at hb
      dsimp only at hb
      cases hh : LayoutM.write E.codec (Sdf.header E.created E.modified (Sdf.scaleFactor E.log m) s) (Sdf.layout K) with
      | error e => rw [hh] at hb; cases hb
      | ok hdr =>
        rw [hh] at hb
        exact ⟨_, (Except.ok.inj hb).symm⟩
  · intro enc post _
    obtain ⟨r, h0, h1, h2, h3, h4, h5, h6⟩ := C59_round_trip_partial hE.codec E.finish enc hE.log hE.created hE.modified s hs.wf
      (Or.inr ⟨z0, hz0, hz0l⟩) b hb post
    refine ⟨r, h0, close_of hs.wf h1 h2 h3 (step_micro h4) (step_micro h5) ?_⟩
    intro i j hi hj
    refine ⟨(h6 i j hi hj).1, fun z hz => ?_⟩
    have hzm : some z ∈ Container.flat s.data := hz ▸ get_mem hs.wf hi hj
    obtain ⟨z', hz', -, he⟩ := (h6 i j hi hj).2 z hz
    refine ⟨z', hz', fun A hA => ?_⟩
    have hA0 : 0 ≤ A := le_trans (abs_nonneg z) (hA z hzm)
    have e1 : |z| / 2 ^ 51 ≤ A / 2 ^ 51 := div_le_div_of_nonneg_right (hA z hzm) (by positivity)
    have e2 : A / 2 ^ 51 ≤ A / 2 ^ 23 :=
      div_le_div_of_nonneg_left hA0 (by positivity) (pow_le_pow_right₀ (by norm_num) (by norm_num))
    have e3 : A / 2 ^ 1070 ≤ A / 2 ^ 23 :=
      div_le_div_of_nonneg_left hA0 (by positivity) (pow_le_pow_right₀ (by norm_num) (by norm_num))
    have e4 : A / 2 ^ 23 + A / 2 ^ 23 = A / 2 ^ 22 := by field_simp; norm_num
    have e5 : (0 : K) ≤ 1 / 2 ^ 100 := by positivity
    have := he A hA
    linarith

private theorem stored_tmd {E : Env K} (hE : Sound E) {s : Raw K} (hs : Fits s) :
    ∃ b, Tmd.writeTmd E.codec "Exported by surfalize".toList s = .ok b ∧ Stored E .tmd s b := by
  have hn : ∀ {n : Nat} {x : K}, n ≤ 65535 → |x| ≤ 2 ^ 80 → |(n : K) * x| < f32.threshold K := by
    intro n x h1 h2
    refine lt_of_le_of_lt ?_ pow_lt_f32
    rw [abs_mul, abs_of_nonneg (Nat.cast_nonneg n)]
    have h3 : (n : K) ≤ 2 ^ 16 := by exact_mod_cast le_trans h1 (by norm_num)
    calc (n : K) * |x| ≤ 2 ^ 16 * 2 ^ 80 := mul_le_mul h3 h2 (abs_nonneg x) (by positivity)
      _ ≤ 2 ^ 110 := by norm_num
  obtain ⟨b, hb⟩ := C61_saves E.codec "Exported by surfalize".toList (by decide) s
    (lt_of_le_of_lt hs.nx.2 (by norm_num)) (lt_of_le_of_lt hs.ny.2 (by norm_num)) (hn hs.nx.2 hs.stepX)
    (hn hs.ny.2 hs.stepY)
  refine ⟨b, hb, ⟨utf8 Tmd.magic, by decide +kernel, ?_⟩, ?_⟩
  · unfold Tmd.writeTmd at hb
    split at hb
    · cases hb
    cases hh : LayoutM.write E.codec (Tmd.header "Exported by surfalize".toList s) (Tmd.layout K) with
    | error e => rw [hh] at hb; cases hb
    | ok hdr =>
      rw [hh] at hb
      have := Except.ok.inj hb
      subst this
      have hm := Tmd.magic_written _ s hh
      refine ⟨hdr.drop 29 ++ FileArr.writeArray (encFloat E.codec false) (Container.flat s.data), ?_⟩
      rw [← hm, ← List.append_assoc, List.take_append_drop]
  · intro enc post hpost
    rw [hpost rfl, List.append_nil]
    obtain ⟨r, h0, h1, h2, h3, h4, h5, h6⟩ := C61_round_trip_partial hE.codec "Exported by surfalize".toList
      (C61_ascii _ (by decide) (by decide)) s hs.wf hs.nx.1 hs.ny.1 b hb
    refine ⟨r, h0, close_of hs.wf h1 h2 h3 (step_single h4) (step_single h5) ?_⟩
    intro i j hi hj
    refine ⟨(h6 i j hi hj).1, fun z hz => ?_⟩
    have hzm : some z ∈ Container.flat s.data := hz ▸ get_mem hs.wf hi hj
    have hz2 := (hs.heights z hzm).2
    obtain ⟨z', hz', hnear⟩ := (h6 i j hi hj).2 z hz (lt_of_le_of_lt (le_trans hz2 (by norm_num)) pow_lt_f32)
    refine ⟨z', hz', fun A hA => ?_⟩
    have := weaker (q := 22) (abs_nonneg z) (FileArr.nearest_error hnear) (by norm_num)
      (tiny (n := 0) (by norm_num) (by norm_num)) (by positivity)
    have hzA := div_le_div_of_nonneg_right (hA z hzm) (by positivity : (0 : K) ≤ 2 ^ 22)
    linarith

private theorem extremes_exist {s : Raw K} (hs : Fits s) :
    ∃ lo hi, Extremes s.data lo hi ∧ lo < hi := by
  obtain ⟨z, w, hz, hw, hlt⟩ := hs.differ
  have hne : measured (Container.flat s.data) ≠ [] := List.ne_nil_of_mem (mem_measured.2 hz)
  obtain ⟨lo, hlo⟩ := exists_min? hne
  obtain ⟨hi, hhi⟩ := exists_max? hne
  obtain ⟨h1, h2⟩ := min?_spec.1 hlo
  obtain ⟨h3, h4⟩ := max?_spec.1 hhi
  refine ⟨lo, hi, ⟨mem_measured.1 h1, mem_measured.1 h3, fun x hx => ⟨h2 x (mem_measured.2 hx),
    h4 x (mem_measured.2 hx)⟩⟩, ?_⟩
  exact lt_of_le_of_lt (h2 z (mem_measured.2 hz)) (lt_of_lt_of_le hlt (h4 w (mem_measured.2 hw)))

private theorem stored_sur {E : Env K} (hE : Sound E) {s : Raw K} (hs : Fits s) :
    ∃ b, Sur.writeSur E.codec E.nanInt E.deflate E.clock false [] s = .ok b ∧ Stored E .sur s b := by
  obtain ⟨lo, hi, hex, hlt⟩ := extremes_exist hs
  obtain ⟨hlo, hhi⟩ := extremes_nanmin hex
  have hlo2 := (hs.heights lo hex.1).2
  have hhi2 := (hs.heights hi hex.2.1).2
  have hrange : Sur.range s.data = some (hi - lo) := by simp [Sur.range, hlo, hhi, osub]
  have hpts : s.data.nx * s.data.ny ≤ 2 ^ 28 := by rw [Nat.mul_comm]; exact hs.points
  have hst : ∀ {x : K}, |x| ≤ 2 ^ 80 → |x| < f32.threshold K := fun h =>
    lt_of_le_of_lt (le_trans h (by norm_num)) pow_lt_f32
  rw [abs_le] at hlo2 hhi2
  obtain ⟨b, hb⟩ := C58_saves E.codec E.nanInt E.deflate E.clock hE.clock [] (by decide) s
    (List.ne_nil_of_mem hex.1)
    ⟨lt_of_le_of_lt hpts (by norm_num), lt_of_le_of_lt hs.nx.2 (by norm_num), lt_of_le_of_lt hs.ny.2 (by norm_num)⟩
    (hst hs.stepX) (hst hs.stepY) (by
      intro y hy
      simp only [Sur.spacingZ, hrange, Option.map_some, Option.some.injEq] at hy
      rw [← hy]
      refine lt_of_le_of_lt ?_ pow_lt_f32
      have e : ((Sur.dataMax - Sur.dataMin : Int) : K) = 2 ^ 32 - 4 := by
        simp only [Sur.dataMax, Sur.dataMin]; push_cast; ring
      rw [e, abs_of_pos (div_pos (sub_pos.2 hlt) (by norm_num)), div_le_iff₀ (by norm_num)]
      norm_num at hlo2 hhi2 ⊢
      linarith) (by
      intro y hy
      simp only [Sur.offsetZ, hrange, hlo, oadd, Option.map_some, Option.bind_some, Option.some.injEq] at hy
      rw [← hy]
      refine lt_of_le_of_lt ?_ pow_lt_f32
      rw [abs_le]
      norm_num at hlo2 hhi2 ⊢
      constructor <;> linarith)
  refine ⟨b, hb, ⟨utf8 Sur.magicClassic, by decide +kernel, ?_⟩, ?_⟩
  · unfold Sur.writeSur at hb
    split at hb
    · cases hb
    cases hh : LayoutM.write E.codec (Sur.header s E.clock false (utf8 []).length) (Sur.layout K) with
    | error e => rw [hh] at hb; cases hb
    | ok hdr =>
      rw [hh] at hb
      dsimp only at hb
      rw [if_neg (by decide)] at hb
      have := Except.ok.inj hb
      subst this
      obtain ⟨L, hL⟩ : ∃ L, Sur.layout K = [Sur.txt K "code" 12] ++ L := ⟨_, rfl⟩
      rw [hL] at hh
      obtain ⟨b1, b2, h1, -, rfl⟩ := write_append (c := E.codec) _ _ _ hdr hh
      have h2 : LayoutM.write E.codec (Sur.header s E.clock false (utf8 []).length) [Sur.txt K "code" 12] =
          .ok (utf8 Sur.magicClassic) := by
        have : (Sur.header s E.clock false (utf8 []).length) "code" = some (.str Sur.magicClassic) := rfl
        simp only [Sur.txt, LayoutM.write, Entry.write, dict_at_some this, encodeValue, Fmt.pack, Fmt.size]
        have e : (utf8 (ljust 12 Sur.magicClassic)).take 12 ++
            List.replicate (12 - (utf8 (ljust 12 Sur.magicClassic)).length) 0 ++ [] = utf8 Sur.magicClassic := by
          decide +kernel
        rw [e]
      rw [h2] at h1
      cases h1
      simp only [List.append_assoc]
      exact ⟨_, rfl⟩
  · intro enc post _
    obtain ⟨r, h0, h1, h2, h3, h4, h5, h6⟩ := C58_round_trip_partial hE.codec hE.units enc E.inflate E.deflate E.nanInt
      hE.nanInt E.clock [] s hs.wf lo hi hex hlt b hb post
    refine ⟨r, h0, close_of hs.wf h1 h2 h3 (step_single (FileArr.nearest_error h4)) (step_single (FileArr.nearest_error h5)) ?_⟩
    intro i j hi' hj
    refine ⟨(h6 i j hi' hj).1, fun z hz => ?_⟩
    obtain ⟨z', hz', he⟩ := (h6 i j hi' hj).2 z hz
    refine ⟨z', hz', fun A hA => le_trans he ?_⟩
    have a1 := abs_le.1 (hA lo hex.1)
    have a2 := abs_le.1 (hA hi hex.2.1)
    have hA0 : 0 ≤ A := by linarith [a1.1, a1.2]
    have hr2 : (hi - lo) / (2 ^ 32 - 4) ≤ 2 * A / (2 ^ 32 - 4) :=
      div_le_div_of_nonneg_right (by linarith [a1.1, a2.2]) (by norm_num)
    have b1 : max (128 * ((hi - lo) / (2 ^ 32 - 4))) (1 / 2 ^ 119 : K) ≤ 128 * (2 * A / (2 ^ 32 - 4)) + 1 / 2 ^ 119 := by
      have : (0 : K) ≤ 2 * A / (2 ^ 32 - 4) := div_nonneg (by linarith) (by norm_num)
      have p1 : (0 : K) ≤ 1 / 2 ^ 119 := by positivity
      refine max_le ?_ ?_ <;> linarith
    have hmid : |(lo + hi) / 2| ≤ A := by
      rw [abs_le]; constructor <;> linarith [a1.1, a1.2, a2.1, a2.2]
    have b2 : max (|(lo + hi) / 2| / 2 ^ 24) (1 / 2 ^ 150 : K) ≤ A / 2 ^ 24 + 1 / 2 ^ 119 := by
      have p1 : (0 : K) ≤ A / 2 ^ 24 := by positivity
      have p2 : (1 : K) / 2 ^ 150 ≤ 1 / 2 ^ 119 :=
        div_le_div_of_nonneg_left (by norm_num) (by positivity) (pow_le_pow_right₀ (by norm_num) (by norm_num))
      have p3 : (0 : K) ≤ 1 / 2 ^ 119 := by positivity
      have p4 := div_le_div_of_nonneg_right hmid (by positivity : (0 : K) ≤ 2 ^ 24)
      refine max_le ?_ ?_ <;> linarith
    refine le_trans (add_le_add (add_le_add hr2 b1) b2) ?_
    have c1 : 2 * A / (2 ^ 32 - 4) + 128 * (2 * A / (2 ^ 32 - 4)) + A / 2 ^ 24 ≤ A / 2 ^ 22 := by
      have : (2 : K) * A / (2 ^ 32 - 4) + 128 * (2 * A / (2 ^ 32 - 4)) + A / 2 ^ 24 =
          A * (2 / (2 ^ 32 - 4) + 128 * (2 / (2 ^ 32 - 4)) + 1 / 2 ^ 24) := by ring
      rw [this, div_eq_mul_inv A]
      exact mul_le_mul_of_nonneg_left (by norm_num) hA0
    have c2 : (1 : K) / 2 ^ 119 + 1 / 2 ^ 119 ≤ 1 / 2 ^ 100 := by norm_num
    linarith

private theorem stored_sflz {E : Env K} (hE : Sound E) {numMeta : Nat} {s : Sflz.Surf K} (hs : Fits s.raw)
    (hl : LayersFit numMeta s) (hmiss : none ∉ Container.flat s.raw.data) :
    ∃ b, Sflz.writeSflz E.codec E.packers E.nanU32 "zlib".toList true numMeta ⟨.unsigned, 4, false⟩ s = .ok b ∧
      Stored E .sflz s.raw b := by
  obtain ⟨z0, hz0, -⟩ := hs.large
  have hof : E.packers.of "zlib".toList = E.packers.zlib := rfl
  have hst : ∀ {x : K}, |x| ≤ 2 ^ 80 → |x| < f64.threshold K := fun h =>
    lt_of_le_of_lt (le_trans h (by norm_num)) pow_lt_f64
  have hpts := hs.points
  obtain ⟨b, hb⟩ := C62_saves E.codec E.packers E.nanU32 (comp := "zlib".toList) (by simp) true hl.metadata
    (t := ⟨.unsigned, 4, false⟩) s hs.wf (List.ne_nil_of_mem hz0)
    (lt_of_le_of_lt hs.nx.2 (by norm_num)) (lt_of_le_of_lt hs.ny.2 (by norm_num))
    (by
      intro b hbl
      rw [hof]
      have := hE.size b
      rw [hbl] at this
      refine lt_of_le_of_lt this ?_
      show 2 * (s.raw.data.ny * s.raw.data.nx * 4) + 1000 < 2 ^ 32
      omega)
    (hst hs.stepX) (hst hs.stepY) (fun z hz => lt_of_le_of_lt (le_trans (hs.heights z hz).2 (by norm_num)) pow_lt_f64)
    hl.count (by
      intro l hlm
      have h := hl.plain l hlm
      refine ⟨h.short, h.sizes.1, h.sizes.2, ?_, ?_⟩
      · cases h3 : l.third with
        | none => simp
        | some k => have := h.third k h3; simp; omega
      · rw [hof]
        have h1 := hE.size l.bytes
        have h2 := h.small
        omega)
  refine ⟨b, hb, ⟨utf8 "SFLZ".toList, by decide +kernel, ?_⟩, ?_⟩
  · unfold Sflz.writeSflz at hb
    dsimp only at hb
    split at hb
    · cases hb
    split at hb
    · cases hb
    split at hb
    · cases hb
    split at hb
    · cases hb
    exact ⟨_, (Except.ok.inj hb).symm⟩
  · intro enc post _
    obtain ⟨lo, hi, r, h0, h1, hlo, hhi, hb2, h2, h3, h4, h5, -, h6⟩ := C62_unsigned_partial hE.codec ⟨hE.zlib, hE.lzma⟩ E.nanU32
      true false numMeta (t := ⟨.unsigned, 4, false⟩) (by decide) rfl (by decide) s hs.wf
      (fun l h => ⟨(hl.plain l h).dtype, (hl.plain l h).ascii, fun c hc => (hl.plain l h).trim c hc,
        fun k hk => ((hl.plain l h).third k hk).1, (hl.plain l h).length⟩) hl.names hmiss
      (fun z hz => (hs.heights z hz).1) hb post
    refine ⟨r.raw, ?_, close_of hs.wf h1 h2 h3 (step_double h4) (step_double h5) ?_⟩
    · show ((Sflz.readSflz E.packers false ⟨b ++ post, 0⟩).map Sflz.Surf.raw) = _
      rw [h0]; rfl
    intro i j hi' hj
    have hzm : s.raw.data.get i j ∈ Container.flat s.raw.data := get_mem hs.wf hi' hj
    refine ⟨fun h => absurd (h ▸ hzm) hmiss, fun z hz => ?_⟩
    obtain ⟨z', hz', -, hle, he, -⟩ := h6 i j z hi' hj hz
    refine ⟨z', hz', fun A hA => ?_⟩
    have a1 := abs_le.1 (hA lo hlo)
    have a2 := abs_le.1 (hA hi hhi)
    have hA0 : 0 ≤ A := by linarith [a1.1, a1.2]
    rw [abs_sub_comm, abs_of_nonneg (by linarith)]
    refine le_trans he ?_
    have e : (hi - lo) / (256 ^ 4 - 1 : K) ≤ A / 2 ^ 22 := by
      rw [div_le_div_iff₀ (by norm_num) (by norm_num)]
      have : hi - lo ≤ 2 * A := by linarith [a1.1, a2.2]
      norm_num
      linarith
    have p : (0 : K) ≤ 1 / 2 ^ 100 := by positivity
    linarith

private theorem stored_all {E : Env K} (hE : Sound E) {numMeta : Nat} {f : Format} (hf : f ∈ Format.writable)
    {s : Sflz.Surf K} (hs : Holds f numMeta s) :
    ∃ b, SaveLoad.write E numMeta f s = (b, .ok ()) ∧ Stored E f s.raw b := by
  have key : ∀ {b : Bytes}, writeBytes E numMeta f s = .ok b → SaveLoad.write E numMeta f s = (b, .ok ()) := by
    intro b h
    unfold SaveLoad.write
    rw [h]
  simp only [Format.writable, List.mem_cons, List.not_mem_nil, or_false] at hf
  rcases hf with rfl | rfl | rfl | rfl | rfl
  · exact ⟨_, key rfl, stored_al3d hE hs.1⟩
  · obtain ⟨b, h1, h2⟩ := stored_sdf hE hs.1; exact ⟨b, key h1, h2⟩
  · obtain ⟨b, h1, h2⟩ := stored_sflz hE hs.1 (hs.2 rfl).1 (hs.2 rfl).2; exact ⟨b, key h1, h2⟩
  · obtain ⟨b, h1, h2⟩ := stored_sur hE hs.1; exact ⟨b, key h1, h2⟩
  · obtain ⟨b, h1, h2⟩ := stored_tmd hE hs.1; exact ⟨b, key h1, h2⟩

/-- Saving to a path: whatever was in the file, saving succeeds, and loading the file gives the surface back: under the
same name, under a name with another suffix that no format has, in whatever case, and whatever encoding is asked for. -/
theorem C89_path {E : Env K} (hE : Sound E) {numMeta : Nat} {f : Format} (hf : f ∈ Format.writable) {suffix : List Char}
    (hsuf : suffix ∈ f.suffixes) {s : Sflz.Surf K} (hs : Holds f numMeta s) (old : Bytes) (format : Option (List Char)) :
    ∃ content, SaveLoad.save E numMeta (.path suffix old) format s = (.ok (), .path suffix content) ∧
      ∀ enc suffix', (suffix'.map Char.toLower ∈ f.suffixes ∨ UnknownSuffix suffix') →
        ∃ r, SaveLoad.load E enc (.path suffix' content) none = (.ok r, .path suffix' content) ∧ Close s.raw r := by
  obtain ⟨b, hw, hm, hr⟩ := stored_all hE hf hs
  refine ⟨b, ?_, ?_⟩
  · unfold SaveLoad.save
    rw [C63_save_path _ hf hsuf, hw]
  · intro enc suffix' h
    obtain ⟨r, h1, h2⟩ := hr enc [] (fun _ => rfl)
    rw [List.append_nil] at h1
    refine ⟨r, ?_, h2⟩
    unfold SaveLoad.load
    rcases h with h | h
    · exact C63_asked _ (f := f) (Or.inr ⟨rfl, _, _, rfl, h⟩) h1
    · rw [C63_path_magic _ (f := f) _ hm, h1]
      rintro g (⟨t, ht, -⟩ | ⟨-, t, b', ht, hg⟩)
      · cases ht
      · cases ht
        exact absurd hg (h g)

/-- Saving to a buffer at its beginning: the position is restored, and loading from the buffer gives the surface back,
with the format named or recognised by its magic number. The buffer may hold anything before; for TMD nothing longer
than the new file may remain. -/
theorem C89_buffer_partial {E : Env K} (hE : Sound E) {numMeta : Nat} {f : Format} (hf : f ∈ Format.writable) {format : List Char}
    (hsuf : format ∈ f.suffixes) {s : Sflz.Surf K} (hs : Holds f numMeta s) :
    ∃ n, ∀ old : Bytes, (f = .tmd → old.length ≤ n) →
      ∃ content, SaveLoad.save E numMeta (.buffer old 0) (some format) s = (.ok (), .buffer content 0) ∧
        ∀ enc again, again = some format ∨ again = none →
          ∃ r, SaveLoad.load E enc (.buffer content 0) again = (.ok r, .buffer content 0) ∧ Close s.raw r := by
  obtain ⟨b, hw, hm, hr⟩ := stored_all hE hf hs
  refine ⟨b.length, fun old hold => ⟨b ++ old.drop b.length, ?_, ?_⟩⟩
  · have hne : format ≠ [] := by
      rintro rfl
      revert hsuf
      cases f <;> decide
    unfold SaveLoad.save Files.save
    dsimp only [Files.target, Option.getD_some]
    rw [if_neg hne, lookup_writer _ hf hsuf]
    dsimp only
    rw [hw]
    simp [Files.overwrite]
  · intro enc again h
    obtain ⟨r, h1, h2⟩ := hr enc (old.drop b.length) (fun ht => List.drop_eq_nil_of_le (hold ht))
    refine ⟨r, ?_, h2⟩
    unfold SaveLoad.load
    rcases h with rfl | rfl
    · refine C63_asked _ (f := f) (Or.inl ⟨format, rfl, ?_⟩) h1
      have hlow : format.map Char.toLower = format := by
        have key : ∀ g ∈ Format.all, ∀ s ∈ g.suffixes, s.map Char.toLower = s := by decide
        exact key f (by cases f <;> decide) _ hsuf
      rw [hlow]; exact hsuf
    · obtain ⟨m, hmm, t, ht⟩ := hm
      have hm' : HasMagic f (b ++ old.drop b.length) := ⟨m, hmm, t ++ old.drop b.length, by rw [ht, List.append_assoc]⟩
      have hres := C63_buffer_magic_partial (SaveLoad.read E enc) hm'
      rw [h1] at hres
      obtain ⟨out, hout⟩ : ∃ out, Files.load (package (SaveLoad.read E enc)) (.buffer (b ++ old.drop b.length) 0) none =
        out := ⟨_, rfl⟩
      obtain ⟨a, src⟩ := out
      rw [hout] at hres ⊢
      dsimp only at hres
      subst hres
      rw [C63_position_restored (SaveLoad.read E enc) (fun g hg => by
        rcases hg with ⟨_, h, -⟩ | ⟨-, _, _, h, -⟩ <;> cases h) hout]

/-- A buffer that held more than the new TMD file: saving succeeds, but loading fails, whether or not the format is
named (the reader takes everything up to the end of the buffer for heights, and leaves the position there). -/
theorem C89_tmd_reused_buffer {E : Env K} (hE : Sound E) {numMeta : Nat} {s : Sflz.Surf K} (hs : Holds .tmd numMeta s)
    (hend : ∀ h, E.leaves .tmd h = h.buf.length) :
    ∃ n, ∀ old : Bytes, n < old.length →
      ∃ content, SaveLoad.save E numMeta (.buffer old 0) (some ".tmd".toList) s = (.ok (), .buffer content 0) ∧
        ∀ enc again, again = some ".tmd".toList ∨ again = none →
          ∃ e, (SaveLoad.load E enc (.buffer content 0) again).1 = .error e := by
  obtain ⟨b, hb, hm, -⟩ := stored_tmd hE hs.1
  have hw : SaveLoad.write E numMeta .tmd s = (b, .ok ()) := by
    unfold SaveLoad.write
    rw [show writeBytes E numMeta .tmd s = .ok b from hb]
  refine ⟨b.length, fun old hold => ⟨b ++ old.drop b.length, ?_, ?_⟩⟩
  · unfold SaveLoad.save Files.save
    dsimp only [Files.target, Option.getD_some]
    rw [if_neg (by decide), lookup_writer _ (f := .tmd) (by decide) (by decide)]
    dsimp only
    rw [hw]
    simp [Files.overwrite]
  · intro enc again h
    obtain ⟨u, hu⟩ := C61_ascii "Exported by surfalize".toList (by decide) (by decide)
    obtain ⟨e, he⟩ := Tmd.read_followed hE.codec _ hu s.raw hs.1.wf b hb (old.drop b.length) (by
      intro h0
      have := List.drop_eq_nil_iff.1 h0
      omega)
    have hr : SaveLoad.read E enc .tmd ⟨b ++ old.drop b.length, 0⟩ = (.error e, (b ++ old.drop b.length).length) := by
      show (Tmd.readTmd _, E.leaves .tmd _) = _
      rw [he, hend]
    refine ⟨e, ?_⟩
    unfold SaveLoad.load
    rcases h with rfl | rfl
    · refine C63_buffer_wrong_format _ (g := .tmd) (by decide) hr ?_
      rintro g ⟨m, hm, t, ht⟩
      rw [List.drop_length] at ht
      have hm0 : m = [] := (List.append_eq_nil_iff.1 ht.symm).1
      subst hm0
      revert hm
      cases g <;> decide
    · obtain ⟨m, hmm, t, ht⟩ := hm
      have hm' : HasMagic .tmd (b ++ old.drop b.length) :=
        ⟨m, hmm, t ++ old.drop b.length, by rw [ht, List.append_assoc]⟩
      rw [C63_buffer_magic_partial _ hm', hr]

/-- Sound surroundings exist. -/
theorem C89_sound_exists : ∃ E : Env ℚ, Sound E ∧ ∀ h, E.leaves .tmd h = h.buf.length := by
  obtain ⟨c, hc⟩ := FloatCodec.exists_nearest ℚ
  obtain ⟨T, hT⟩ := exists_faithful ℚ
  refine ⟨⟨c, demoText, T, ⟨⟨id, .ok⟩, ⟨id, .ok⟩⟩, .ok, id, fun m => Int.log 10 m, ⟨1, 2, 3, 4, 5, 2024, 6⟩,
    "171120260815".toList, "171120260815".toList, 0, 0, fun _ _ => .error .valueError,
    fun _ _ => (.error .corrupted, 0), fun _ h => h.buf.length, fun _ _ => []⟩,
    ⟨hc, C56_faithful_exists, hT, fun _ => rfl, fun _ => rfl, ?_, exists_log10, ?_, ?_, ?_, ?_⟩, fun _ => rfl⟩
  · intro b; simp; omega
  · unfold SaveLoadSpec.ClockOk
    show ∀ x ∈ [(1 : Int), 2, 3, 4, 5, 2024, 6], _
    decide
  · show (utf8 "171120260815".toList).length ≤ 12
    decide +kernel
  · show (utf8 "171120260815".toList).length ≤ 12
    decide +kernel
  · show -(2 ^ 31) ≤ (0 : Int) ∧ (0 : Int) ≤ 2 ^ 31 - 1
    decide

/-- A surface that every format holds, with an image layer. -/
def demoSaved : Sflz.Surf ℚ :=
  ⟨⟨⟨[[some 1, some 5], [some 3, some 2]], 2⟩, 1, 2⟩,
    [⟨"rgb".toList, ⟨.unsigned, 1, false⟩, 1, 2, some 3, [1, 2, 3, 4, 5, 6]⟩]⟩

theorem C89_demo_holds (f : Format) : Holds f 3 demoSaved := by
  have hflat : Container.flat demoSaved.raw.data = [some 1, some 5, some 3, some 2] := rfl
  have hnat : ∀ n : Nat, n < 10 → f64.Repr ((n : ℚ)) ∧ |(n : ℚ)| ≤ 2 ^ 100 := by
    intro n hn
    refine ⟨(FFormat.repr_nat f64 (by decide) (by decide) n (lt_of_lt_of_le hn (by decide))).1, ?_⟩
    rw [abs_of_nonneg (Nat.cast_nonneg n)]
    have : (n : ℚ) ≤ 10 := by exact_mod_cast hn.le
    exact le_trans this (by norm_num)
  refine ⟨⟨by decide, by decide, by decide, by decide, ?_, ?_, ?_, ?_, ?_⟩, fun _ => ⟨⟨?_, by decide, by decide,
    by decide⟩, ?_⟩⟩
  · show |(1 : ℚ)| ≤ _; norm_num
  · show |(2 : ℚ)| ≤ _; norm_num
  · intro z hz
    rw [hflat] at hz
    simp only [List.mem_cons, Option.some.injEq, List.not_mem_nil, or_false] at hz
    rcases hz with rfl | rfl | rfl | rfl
    · exact_mod_cast hnat 1 (by norm_num)
    · exact_mod_cast hnat 5 (by norm_num)
    · exact_mod_cast hnat 3 (by norm_num)
    · exact_mod_cast hnat 2 (by norm_num)
  · exact ⟨1, 5, by rw [hflat]; simp, by rw [hflat]; simp, by norm_num⟩
  · refine ⟨1, by rw [hflat]; simp, ?_⟩
    rw [abs_one, div_le_one (by positivity)]
    exact one_le_pow₀ (by norm_num)
  · intro l hl
    have : l = ⟨"rgb".toList, ⟨.unsigned, 1, false⟩, 1, 2, some 3, [1, 2, 3, 4, 5, 6]⟩ := by
      simpa [demoSaved] using hl
    subst this
    exact ⟨by decide, by decide, (show ∀ c ∈ "rgb".toList.getLast?, c ≠ ' ' ∧ c ≠ '\x00' by decide), by decide,
      by decide, (by intro k hk; cases hk; omega), by decide, by decide⟩
  · rw [hflat]; simp

/-- The theorem applies: saved as `.sur`, renamed to `.bak`, loaded again. -/
example : ∃ (E : Env ℚ) (content : Bytes) (r : Raw ℚ),
    SaveLoad.save E 3 (.path ".sur".toList [1, 2, 3]) none demoSaved = (.ok (), .path ".sur".toList content) ∧
      SaveLoad.load E .utf8 (.path ".bak".toList content) none = (.ok r, .path ".bak".toList content) ∧
      Close demoSaved.raw r := by
  obtain ⟨E, hE, -⟩ := C89_sound_exists
  obtain ⟨content, h1, h2⟩ := C89_path hE (f := .sur) (by decide) (suffix := ".sur".toList) (by decide)
    (C89_demo_holds .sur) [1, 2, 3] none
  obtain ⟨r, h3, h4⟩ := h2 .utf8 ".bak".toList (.inr fun g => by cases g <;> decide)
  exact ⟨E, content, r, h1, h3, h4⟩

end Props
end Surfalize
