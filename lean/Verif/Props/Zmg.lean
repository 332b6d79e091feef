import Verif.Lemmas.ArrayAt
import Verif.Lemmas.LayoutRead
import Verif.Model.Zmg
import Verif.Spec.Zmg
/-!
# Properties of ZMG files (C82)
-/
set_option linter.unusedSectionVars false
namespace Surfalize.Props
open Surfalize Zmg FileArr LayoutM ZmgSpec

variable {K : Type} [Field K] [LinearOrder K]

private theorem zmg_fixed : ∀ e ∈ Zmg.layout K, isFixed e = true := by rw [← List.all_eq_true]; rfl
private theorem zmg_total : total (Zmg.layout K) = 205 := by
  simp [Zmg.layout, total, entrySize, Fmt.size, Fmt.fw]

theorem sint_eq (buf : Bytes) (off w : Nat) (hw : w = 2 ∨ w = 4) :
    bytesInt true false w ((buf.drop off).take w) = NmsSpec.sint buf off w := by
  unfold NmsSpec.sint bytesInt NmsSpec.uint
  simp only [bytesNat, Bool.false_eq_true, if_false, true_and]
  generalize leNat ((buf.drop off).take w) = n
  rcases hw with rfl | rfl <;> norm_num <;> split <;> split <;> omega

private structure ZmgFields (buf : Bytes) (d : Dict K) : Prop where
  x : getInt d "res_x" = .ok (columns buf)
  y : getInt d "res_y" = .ok (rows buf)
  c : getInt d "comment_size" = .ok (comment buf)
  sx : getNum d "step_x" = .ok (toOpt (distX K buf))
  sy : getNum d "step_y" = .ok (toOpt (distY K buf))
  sz : getNum d "step_z" = .ok (toOpt (digit K buf))

private theorem zmg_fields {enc : Encoding} {buf : Bytes} {d : Dict K} {h' : Handle}
    (hr : LayoutM.read enc ⟨buf, 0⟩ (Zmg.layout K) = .ok (d, h')) : ZmgFields buf d := by
  have i : ∀ {name off}, locate name (Zmg.layout K) 0 = some (off, .int false false 4) →
      getInt d name = .ok (NmsSpec.uint buf off 4) := fun hl => by
    unfold getInt
    rw [(readGo_int zmg_fixed hr hl).1]
    simp [bytesInt, bytesNat, NmsSpec.uint]
  have f : ∀ {name off}, locate name (Zmg.layout K) 0 = some (off, .flt false false 1) →
      getNum d name = .ok (toOpt (NmsSpec.single K buf off)) := fun hl => by
    unfold getNum
    rw [(readGo_num zmg_fixed hr hl).1]
    rfl
  exact ⟨i rfl, i rfl, i rfl, f rfl, f rfl, f rfl⟩

private theorem zmg_magic (buf : Bytes) : ((Handle.mk buf 0).read Zmg.magic.length).1 = buf.take 16 := by
  have : Zmg.magic.length = 16 := by decide +kernel
  rw [this]; rfl

/-- **C82**. A ZMG file that is read gives the surface its header describes: columns, rows and distances of the header,
and at every point the signed number stored there (behind the comment) times the height of a digit. -/
theorem C82_zmg {enc : Encoding} {buf : Bytes} {r : Raw K} (h : readZmg enc ⟨buf, 0⟩ = .ok r) :
    buf.take 16 = utf8 "Zeta-Instruments".toList ∧ r.data.WF ∧ r.data.nx = columns buf ∧ r.data.ny = rows buf ∧
      distX K buf = .fin r.stepX ∧ distY K buf = .fin r.stepY ∧
      ∀ i j, i < rows buf → j < columns buf → 205 + comment buf + 2 * (i * columns buf + j) + 2 ≤ buf.length ∧
        ∀ z, digit K buf = .fin z → r.data.get i j = some ((raw buf i j : K) * z) := by
  unfold readZmg at h
  rw [zmg_magic] at h
  split at h
  · cases h
  rename_i hm
  rw [not_not] at hm
  rw [show (Handle.mk buf 0).seek 0 = ⟨buf, 0⟩ from rfl] at h
  cases h1 : LayoutM.read enc ⟨buf, 0⟩ (Zmg.layout K) with
  | error e => rw [h1] at h; cases h
  | ok a =>
    obtain ⟨d, h1'⟩ := a
    have e1 := read_end zmg_fixed h1
    rw [zmg_total] at e1
    have hf := zmg_fields h1
    rw [h1, e1] at h
    simp only [hf.x, hf.y, hf.c, hf.sx, hf.sy, hf.sz, Int.toNat_natCast, Handle.skip] at h
    rw [show ((columns buf : Int) * (rows buf : Int)) = ((columns buf * rows buf : Nat) : Int) by push_cast; rfl] at h
    cases hr : readArray 2 (Zmg.height (toOpt (digit K buf))) ((columns buf * rows buf : Nat) : Int) 0
        ⟨buf, 0 + 205 + comment buf⟩ with
    | error e => rw [hr] at h; cases h
    | ok a =>
      obtain ⟨l, h2⟩ := a
      rw [hr] at h
      dsimp only at h
      cases hg : reshape l (rows buf : Int) (columns buf : Int) with
      | error e => rw [hg] at h; cases h
      | ok g =>
        rw [hg] at h
        cases hx : distX K buf with
        | inf b => rw [hx] at h; cases h
        | nan => rw [hx] at h; cases h
        | fin dx =>
          cases hy : distY K buf with
          | inf b => rw [hx, hy] at h; cases h
          | nan => rw [hx, hy] at h; cases h
          | fin dy =>
            rw [hx, hy] at h
            simp only [toOpt] at h
            cases h
            obtain ⟨g1, g2, g3, g4, g5⟩ := array_grid (by decide) hr hg
            refine ⟨hm, g1, g2, g3, rfl, rfl, fun i j hi hj => ⟨?_, fun z hz => ?_⟩⟩
            · have hk : i * columns buf + j + 1 ≤ columns buf * rows buf := by
                calc i * columns buf + j + 1 ≤ i * columns buf + columns buf := by omega
                  _ = columns buf * (i + 1) := by ring
                  _ ≤ columns buf * rows buf := Nat.mul_le_mul_left _ hi
              have := g4 (by omega)
              omega
            · unfold Grid.get
              rw [g5 i j hi hj]
              simp only [Option.getD_some, Zmg.height, hz, toOpt, Option.map_some, sint_eq _ _ 2 (.inl rfl), raw]
              rw [show 0 + 205 + comment buf + (i * columns buf + j) * 2 =
                205 + comment buf + 2 * (i * columns buf + j) by ring]

/-- Every complete file with the magic number and finite distances is read. -/
theorem C82_zmg_reads {enc : Encoding} {buf : Bytes} (hm : buf.take 16 = utf8 "Zeta-Instruments".toList)
    (hlen : 205 + comment buf + 2 * (columns buf * rows buf) ≤ buf.length) {dx dy : K} (hx : distX K buf = .fin dx)
    (hy : distY K buf = .fin dy) : ∃ r : Raw K, readZmg enc ⟨buf, 0⟩ = .ok r := by
  obtain ⟨d, h1⟩ := readGo_succeeds enc (Zmg.layout K) (fun _ => none) buf 0 zmg_fixed
    (by rw [zmg_total]; omega) (by simp [Zmg.layout, places, CanRead])
  rw [zmg_total] at h1
  have h1' : LayoutM.read enc ⟨buf, 0⟩ (Zmg.layout K) = .ok (d, ⟨buf, 0 + 205⟩) := h1
  have hf := zmg_fields h1'
  obtain ⟨l, g, k1, k2⟩ := array_grid_ok (w := 2) (by decide) (dec := Zmg.height (toOpt (digit K buf)))
    (nx := columns buf) (ny := rows buf) (buf := buf) (p := 0 + 205 + comment buf) (by omega)
  unfold readZmg
  rw [zmg_magic, if_neg (by rw [not_not]; exact hm), show (Handle.mk buf 0).seek 0 = ⟨buf, 0⟩ from rfl, h1']
  simp only [hf.x, hf.y, hf.c, hf.sx, hf.sy, hf.sz, Int.toNat_natCast, Handle.skip]
  rw [show ((columns buf : Int) * (rows buf : Int)) = ((columns buf * rows buf : Nat) : Int) by push_cast; rfl, k1]
  dsimp only
  rw [k2, hx, hy]
  exact ⟨_, rfl⟩

/-- Files without the magic number are refused as corrupted. -/
theorem C82_zmg_magic {enc : Encoding} {buf : Bytes} (hm : buf.take 16 ≠ utf8 "Zeta-Instruments".toList) :
    readZmg (K := K) enc ⟨buf, 0⟩ = .error .corrupted := by
  unfold readZmg
  rw [zmg_magic, if_pos (show buf.take 16 ≠ Zmg.magic from hm)]

/-! ## An example -/

/-- A file with two points, the second one below zero, and a comment of three bytes. -/
private def zmgSample : Bytes :=
  utf8 "Zeta-Instruments".toList ++ List.replicate 69 0 ++ [2, 0, 0, 0, 1, 0, 0, 0] ++ List.replicate 4 0 ++
    [0, 0, 0x80, 0x3f, 0, 0, 0, 0x3f, 0, 0, 0x80, 0x3e] ++ List.replicate 8 0 ++ [3, 0, 0, 0] ++
    List.replicate 84 0 ++ [1, 2, 3] ++ [5, 0, 0xff, 0xff]

set_option maxRecDepth 20000 in
example : ∃ r : Raw ℚ, readZmg .utf8 ⟨zmgSample, 0⟩ = .ok r ∧ r.stepX = 1 ∧ r.stepY = 1 / 2 ∧
    r.data.get 0 0 = some (5 / 4) ∧ r.data.get 0 1 = some (-1 / 4) := by
  have hx : distX ℚ zmgSample = .fin 1 := by decide +kernel
  have hy : distY ℚ zmgSample = .fin (1 / 2) := by decide +kernel
  have hz : digit ℚ zmgSample = .fin (1 / 4) := by decide +kernel
  have hc : columns zmgSample = 2 ∧ rows zmgSample = 1 ∧ comment zmgSample = 3 ∧ zmgSample.length = 212 := by
    decide +kernel
  have hm : zmgSample.take 16 = utf8 "Zeta-Instruments".toList := by decide +kernel
  have hr : raw zmgSample 0 0 = 5 ∧ raw zmgSample 0 1 = -1 := by decide +kernel
  obtain ⟨r, h⟩ := C82_zmg_reads (K := ℚ) (enc := .utf8) hm (by rw [hc.1, hc.2.1, hc.2.2.1, hc.2.2.2]) hx hy
  obtain ⟨-, -, -, -, h5, h6, h7⟩ := C82_zmg h
  rw [hx] at h5
  rw [hy] at h6
  have g0 := (h7 0 0 (by omega) (by omega)).2 _ hz
  have g1 := (h7 0 1 (by omega) (by omega)).2 _ hz
  rw [hr.1] at g0
  rw [hr.2] at g1
  exact ⟨r, h, (FVal.fin.inj h5).symm, (FVal.fin.inj h6).symm, by rw [g0]; norm_num, by rw [g1]; norm_num⟩

end Surfalize.Props
