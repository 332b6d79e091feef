import Verif.Lemmas.ArrayAt
import Verif.Lemmas.LayoutRead
import Verif.Model.Nms
import Verif.Spec.Nms
/-!
# Properties of NMS files (C66)
-/
set_option linter.unusedSectionVars false
namespace Surfalize.Props
open Surfalize Nms FileArr LayoutM NmsSpec

variable {K : Type} [Field K] [LinearOrder K]

private theorem bytesAt_ok {buf : Bytes} {off n : Nat} {bs : Bytes} (h : bytesAt ⟨buf, 0⟩ off n = .ok bs) :
    bs = (buf.drop off).take n ∧ bs.length = n := by
  unfold bytesAt at h
  split at h
  · rename_i hl
    cases h
    exact ⟨rfl, hl⟩
  · cases h

private theorem bytesAt_of {buf : Bytes} {off n : Nat} (h : off + n ≤ buf.length) :
    bytesAt ⟨buf, 0⟩ off n = .ok ((buf.drop off).take n) := by
  unfold bytesAt
  exact if_pos (show ((buf.drop off).take n).length = n by rw [List.length_take, List.length_drop]; omega)

private theorem slice_slice (buf : Bytes) (off n a w : Nat) (h : a + w ≤ n) :
    ((((buf.drop off).take n).drop a).take w) = (buf.drop (off + a)).take w := by
  rw [List.drop_take, List.drop_drop, List.take_take, Nat.min_eq_left (by omega)]

private theorem double_at (buf : Bytes) (off : Nat) (k : Nat) (hk : k < 2) :
    Nms.double K ((buf.drop off).take 16) k = toOpt (NmsSpec.double K buf (off + 8 * k)) := by
  unfold Nms.double NmsSpec.double bytesNat
  rw [slice_slice _ _ _ _ _ (by omega)]
  rfl

private theorem uint_at (buf : Bytes) (off : Nat) (k : Nat) (hk : k < 2) :
    Nms.uint ((buf.drop off).take 8) k = NmsSpec.uint buf (off + 4 * k) 4 := by
  unfold Nms.uint NmsSpec.uint bytesNat
  rw [slice_slice _ _ _ _ _ (by omega)]
  rfl

/-- The tail of the reader on a file. -/
private theorem nms_spec {parseDate : List Char → Except Err Unit} {enc : Encoding} {images : Bool} {buf : Bytes}
    {r : Raw K} {im : Option (Grid Int)} (h : readNms parseDate enc images ⟨buf, 0⟩ = .ok (r, im)) :
    r.data.WF ∧ r.data.nx = columns buf ∧ r.data.ny = rows buf ∧
      (∃ dx, distX K buf = .fin dx ∧ r.stepX = dx / 10 ^ 3) ∧ (∃ dy, distY K buf = .fin dy ∧ r.stepY = dy / 10 ^ 3) ∧
      (∀ i j, i < rows buf → j < columns buf →
        r.data.get i j = Nms.height (toOpt (zMin K buf)) (toOpt (zMax K buf)) (raw buf i j)) ∧
      (images = false → im = none) ∧
      (images = true → 3468 + 3 * (columns buf * rows buf) ≤ buf.length →
        columns buf * rows buf = rows buf * rows buf) := by
  unfold readNms at h
  cases hz : bytesAt ⟨buf, 0⟩ 16 16 with
  | error e => rw [hz] at h; cases h
  | ok z =>
    rw [hz] at h
    dsimp only at h
    split at h
    · cases h
    split at h
    · cases h
    cases hp : bytesAt ⟨buf, 0⟩ 1368 8 with
    | error e => rw [hp] at h; cases h
    | ok pts =>
      cases hs : bytesAt ⟨buf, 0⟩ 1376 16 with
      | error e => rw [hp, hs] at h; cases h
      | ok sp =>
        rw [hp, hs] at h
        dsimp only at h
        obtain ⟨rfl, -⟩ := bytesAt_ok hz
        obtain ⟨rfl, -⟩ := bytesAt_ok hp
        obtain ⟨rfl, -⟩ := bytesAt_ok hs
        rw [double_at _ _ 0 (by decide), double_at _ _ 1 (by decide), uint_at _ _ 0 (by decide),
          uint_at _ _ 1 (by decide), double_at _ _ 0 (by decide), double_at _ _ 1 (by decide)] at h
        change (match readArray 2 (bytesInt false false 2) ((columns buf * rows buf : Nat) : Int) 0
          ⟨buf, 3468⟩ with
          | .error e => _
          | .ok (l, h') => _) = _ at h
        cases hr : readArray 2 (bytesInt false false 2) ((columns buf * rows buf : Nat) : Int) 0
          ⟨buf, 3468⟩ with
        | error e => rw [hr] at h; cases h
        | ok a =>
          obtain ⟨l, h'⟩ := a
          rw [hr] at h
          dsimp only at h
          change (match reshape l (rows buf : Nat) (columns buf : Nat) with
            | .error e => _
            | .ok g => _) = _ at h
          cases hg : reshape l (rows buf : Nat) (columns buf : Nat) with
          | error e => rw [hg] at h; cases h
          | ok g =>
            rw [hg] at h
            dsimp only at h
            obtain ⟨g1, g2, g3, g4, g5⟩ := array_grid (by decide) hr hg
            change (match toOpt (distX K buf), toOpt (distY K buf) with
              | some dx, some dy => _
              | _, _ => _) = _ at h
            cases hx : distX K buf with
            | inf b => rw [hx] at h; cases h
            | nan => rw [hx] at h; cases h
            | fin dx =>
              cases hy : distY K buf with
              | inf b => rw [hx, hy] at h; cases h
              | nan => rw [hx, hy] at h; cases h
              | fin dy =>
                rw [hx, hy] at h
                simp only [toOpt] at h
                have fin : ∀ im', (⟨Container.map (Nms.height (toOpt (zMin K buf)) (toOpt (zMax K buf))) g,
                    dx / 10 ^ 3, dy / 10 ^ 3⟩, im') = (r, im) → r.data.WF ∧ r.data.nx = columns buf ∧
                    r.data.ny = rows buf ∧ (∃ dx', FVal.fin dx = .fin dx' ∧ r.stepX = dx' / 10 ^ 3) ∧
                    (∃ dy', FVal.fin dy = .fin dy' ∧ r.stepY = dy' / 10 ^ 3) ∧
                    (∀ i j, i < rows buf → j < columns buf →
                      r.data.get i j = Nms.height (toOpt (zMin K buf)) (toOpt (zMax K buf)) (raw buf i j)) := by
                  intro im' e
                  cases e
                  refine ⟨map_wf _ g1, g2, by rw [← g3]; exact map_ny _ _, ⟨dx, rfl, rfl⟩, ⟨dy, rfl, rfl⟩,
                    fun i j hi hj => ?_⟩
                  dsimp only
                  rw [get_map_some g1 _ (by omega) (by omega) (g5 i j hi hj)]
                  simp only [bytesInt, raw, NmsSpec.uint, bytesNat, Nat.mul_comm 2]
                  simp
                cases images with
                | false =>
                  have h9 := Except.ok.inj h
                  obtain ⟨f1, f2, f3, f4, f5, f6⟩ := fin none h9
                  exact ⟨f1, f2, f3, f4, f5, f6, fun _ => (congrArg Prod.snd h9).symm, fun e => by cases e⟩
                | true =>
                  rw [if_pos rfl] at h
                  cases hi : image (NmsSpec.uint buf (1368 + 4 * 0) 4) (NmsSpec.uint buf (1368 + 4 * 1) 4) h' with
                  | error e => rw [hi] at h; cases h
                  | ok img =>
                    rw [hi] at h
                    obtain ⟨f1, f2, f3, f4, f5, f6⟩ := fin (some img) (Except.ok.inj h)
                    refine ⟨f1, f2, f3, f4, f5, f6, (by intro e; cases e), fun _ hlen => ?_⟩
                    have hh : h' = ⟨buf, 3468 + columns buf * rows buf * 2⟩ := by
                      obtain ⟨l2, k1, -⟩ := readArray_at (w := 2) (by decide) (dec := bytesInt false false 2)
                        (n := columns buf * rows buf) (buf := buf) (p := 3468) (by omega)
                      rw [k1] at hr
                      cases hr; rfl
                    rw [hh] at hi
                    obtain ⟨l2, k1, k2, -⟩ := readArray_at (w := 1) (by decide) (dec := bytesInt false false 1)
                      (n := columns buf * rows buf) (buf := buf) (p := 3468 + columns buf * rows buf * 2) (by omega)
                    unfold image at hi
                    change (match readArray 1 (bytesInt false false 1) ((columns buf * rows buf : Nat) : Int) 0 _ with
                      | .error e => _
                      | .ok (l, h') => _) = _ at hi
                    rw [k1] at hi
                    obtain ⟨-, r2, r3, r4, -⟩ := reshape_get hi
                    rw [k2, r2, r3, Int.toNat_natCast] at r4
                    exact r4

/-- **C66** for NMS files, what holds: size and steps (in µm) are those of the header, heights differ by the stored
numbers times (zmax - zmin) / 65534. Missing: the heights are shifted, see `C66_nms_violated`. -/
theorem C66_nms_partial {parseDate : List Char → Except Err Unit} {enc : Encoding} {images : Bool} {buf : Bytes}
    {r : Raw K} {im : Option (Grid Int)} (h : readNms parseDate enc images ⟨buf, 0⟩ = .ok (r, im)) :
    r.data.WF ∧ r.data.nx = columns buf ∧ r.data.ny = rows buf ∧
      (∃ dx, distX K buf = .fin dx ∧ r.stepX = dx / 10 ^ 3) ∧ (∃ dy, distY K buf = .fin dy ∧ r.stepY = dy / 10 ^ 3) ∧
      ∀ a b, zMin K buf = .fin a → zMax K buf = .fin b → ∀ i j, i < rows buf → j < columns buf →
        r.data.get i j = some (b + (raw buf i j : K) / 65534 * (b - a)) := by
  obtain ⟨h1, h2, h3, h4, h5, h6, -⟩ := nms_spec h
  refine ⟨h1, h2, h3, h4, h5, fun a b ha hb i j hi hj => ?_⟩
  rw [h6 i j hi hj, ha, hb]
  simp only [toOpt, Nms.height, Option.some.injEq, Int.cast_natCast]
  norm_num
  ring

/-- **C66** (violated). The header states the range of the heights; all heights read are at or above its upper end. -/
theorem C66_nms_violated [IsStrictOrderedRing K] {parseDate : List Char → Except Err Unit} {enc : Encoding}
    {images : Bool} {buf : Bytes} {r : Raw K} {im : Option (Grid Int)}
    (h : readNms parseDate enc images ⟨buf, 0⟩ = .ok (r, im)) {a b : K} (ha : zMin K buf = .fin a)
    (hb : zMax K buf = .fin b) (hab : a < b) {i j : Nat} (hi : i < rows buf) (hj : j < columns buf) :
    ∃ z, r.data.get i j = some z ∧ b ≤ z ∧ (0 < raw buf i j → b < z) := by
  obtain ⟨-, -, -, -, -, h6⟩ := C66_nms_partial h
  refine ⟨_, h6 a b ha hb i j hi hj, ?_, fun h0 => ?_⟩
  · have : (0 : K) ≤ (raw buf i j : K) / 65534 * (b - a) :=
      mul_nonneg (div_nonneg (Nat.cast_nonneg _) (by norm_num)) (by linarith)
    linarith
  · have h1 : (0 : K) < (raw buf i j : K) := by exact_mod_cast h0
    have : (0 : K) < (raw buf i j : K) / 65534 * (b - a) := mul_pos (div_pos h1 (by norm_num)) (by linarith)
    linarith

/-- Every file that is long enough, with a readable date and finite distances, is read. -/
theorem C66_nms_reads {parseDate : List Char → Except Err Unit} {enc : Encoding} {buf : Bytes} {date : List Char}
    (hlen : 3468 + 2 * (columns buf * rows buf) ≤ buf.length)
    (hd : decode enc ((buf.drop 1076).take 16) = .ok date) (hp : parseDate date = .ok ())
    {dx dy : K} (hx : distX K buf = .fin dx) (hy : distY K buf = .fin dy) :
    ∃ r : Raw K, readNms parseDate enc false ⟨buf, 0⟩ = .ok (r, none) := by
  obtain ⟨l, g, k1, k2⟩ := array_grid_ok (w := 2) (by decide) (dec := bytesInt false false 2) (nx := columns buf)
    (ny := rows buf) (buf := buf) (p := 3468) (by omega)
  unfold readNms
  rw [bytesAt_of (by omega), bytesAt_of (by omega), bytesAt_of (by omega),
    show ((Handle.mk buf 0).seek 1076 |>.read 16).1 = (buf.drop 1076).take 16 from rfl, hd]
  dsimp only
  rw [hp]
  dsimp only
  rw [double_at _ _ 0 (by decide), double_at _ _ 1 (by decide), uint_at _ _ 0 (by decide),
    uint_at _ _ 1 (by decide), double_at _ _ 0 (by decide), double_at _ _ 1 (by decide)]
  rw [show NmsSpec.uint buf (1368 + 4 * 0) 4 = columns buf from rfl,
    show NmsSpec.uint buf (1368 + 4 * 1) 4 = rows buf from rfl,
    show (Handle.mk buf 0).seek 3468 = ⟨buf, 3468⟩ from rfl, k1]
  dsimp only
  rw [k2]
  dsimp only
  rw [show NmsSpec.double K buf (1376 + 8 * 0) = distX K buf from rfl,
    show NmsSpec.double K buf (1376 + 8 * 1) = distY K buf from rfl]
  rw [hx, hy]
  exact ⟨_, rfl⟩

/-- **C66** (violated for image layers). The image is arranged in a square: files of another shape cannot be read with
image layers, although their image is complete. -/
theorem C66_nms_images {parseDate : List Char → Except Err Unit} {enc : Encoding} {buf : Bytes}
    (hlen : 3468 + 3 * (columns buf * rows buf) ≤ buf.length) (h0 : 0 < rows buf) (hne : columns buf ≠ rows buf)
    (r : Raw K × Option (Grid Int)) : readNms parseDate enc true ⟨buf, 0⟩ ≠ .ok r := by
  intro h
  obtain ⟨-, -, -, -, -, -, -, h8⟩ := nms_spec (r := r.1) (im := r.2) h
  exact hne (Nat.eq_of_mul_eq_mul_right h0 (h8 rfl hlen))

/-! ## An example -/

/-- A file with three points in one row; heights between 0 and 1, distances 1. -/
private def nmsSample : Bytes :=
  List.replicate 16 0 ++ [0, 0, 0, 0, 0, 0, 0, 0] ++ [0, 0, 0, 0, 0, 0, 0xf0, 0x3f] ++ List.replicate 1336 0 ++
    [3, 0, 0, 0, 1, 0, 0, 0] ++ [0, 0, 0, 0, 0, 0, 0xf0, 0x3f] ++ [0, 0, 0, 0, 0, 0, 0xf0, 0x3f] ++
    List.replicate 2076 0 ++ [0, 0, 0xff, 0x7f, 0xfe, 0xff] ++ [0, 1, 2]

set_option maxRecDepth 20000 in
/-- The middle of the range is read as 1.5, outside of the range. -/
example (parseDate : List Char → Except Err Unit) (hp : ∀ s, parseDate s = .ok ()) :
    (∃ r : Raw ℚ, readNms parseDate .auto false ⟨nmsSample, 0⟩ = .ok (r, none) ∧ r.stepX = 1 / 1000 ∧
      r.data.get 0 1 = some (3 / 2)) ∧
    ∀ r : Raw ℚ × Option (Grid Int), readNms parseDate .auto true ⟨nmsSample, 0⟩ ≠ .ok r := by
  have hx : distX ℚ nmsSample = .fin 1 := by decide +kernel
  have hy : distY ℚ nmsSample = .fin 1 := by decide +kernel
  have hc : columns nmsSample = 3 ∧ rows nmsSample = 1 ∧ nmsSample.length = 3477 := by decide +kernel
  refine ⟨?_, C66_nms_images (by rw [hc.1, hc.2.1, hc.2.2]) (by omega) (by omega)⟩
  have hdate : ∃ s, decode .auto ((nmsSample.drop 1076).take 16) = .ok s := by
    unfold decode
    cases utf8? ((nmsSample.drop 1076).take 16) <;> exact ⟨_, rfl⟩
  obtain ⟨s, hs⟩ := hdate
  obtain ⟨r, hr⟩ := C66_nms_reads (K := ℚ) (by rw [hc.1, hc.2.1, hc.2.2]; norm_num) hs (hp s) hx hy
  obtain ⟨-, -, -, ⟨dx, e, h4⟩, -, h6⟩ := C66_nms_partial hr
  rw [hx] at e
  cases e
  refine ⟨r, hr, by rw [h4]; norm_num, ?_⟩
  rw [h6 0 1 (by decide +kernel) (by decide +kernel) 0 1 (by omega) (by omega),
    show raw nmsSample 0 1 = 32767 by decide +kernel]
  norm_num

end Surfalize.Props
