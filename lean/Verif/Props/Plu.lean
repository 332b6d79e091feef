import Verif.Lemmas.ArrayAt
import Verif.Lemmas.LayoutRead
import Verif.Model.Plu
import Verif.Spec.Nms
/-!
# Properties of PLu files (C66, C67)
-/
set_option linter.unusedSectionVars false
namespace Surfalize.Props
open Surfalize Plu FileArr LayoutM PluSpec

variable {K : Type} [Field K] [LinearOrder K]

private theorem cal_fixed : ∀ e ∈ calibration K, isFixed e = true := by rw [← List.all_eq_true]; rfl
private theorem cfg_fixed : ∀ e ∈ measureConfig K, isFixed e = true := by rw [← List.all_eq_true]; rfl
private theorem cal_total : total (calibration K) = 40 := by
  simp [calibration, total, entrySize, Fmt.size, Fmt.fw]
private theorem cfg_total : total (measureConfig K) = 72 := by
  simp [measureConfig, total, entrySize, Fmt.size, Fmt.fw]

private structure PluFields (buf : Bytes) (d : Dict K) : Prop where
  x : getInt d "xres" = .ok (columns buf)
  y : getInt d "yres" = .ok (rows buf)
  sx : getNum d "mppx" = .ok (toOpt (distX K buf))
  sy : getNum d "mppy" = .ok (toOpt (distY K buf))

private theorem plu_fields {enc : Encoding} {buf : Bytes} {d : Dict K} {h' : Handle}
    (hr : LayoutM.read enc ⟨buf, 388⟩ (calibration K) = .ok (d, h')) : PluFields buf d := by
  have i : ∀ {name off}, locate name (calibration K) 388 = some (off, .int false false 4) →
      getInt d name = .ok (NmsSpec.uint buf off 4) := fun hl => by
    unfold getInt
    rw [(readGo_int cal_fixed hr hl).1]
    simp [bytesInt, bytesNat, NmsSpec.uint]
  have f : ∀ {name off}, locate name (calibration K) 388 = some (off, .flt false false 1) →
      getNum d name = .ok (toOpt (NmsSpec.single K buf off)) := fun hl => by
    unfold getNum
    rw [(readGo_num cal_fixed hr hl).1]
    rfl
  exact ⟨i rfl, i rfl, f rfl, f rfl⟩

/-- The first 128 bytes. -/
private theorem plu_head (buf : Bytes) (h : 128 ≤ buf.length) :
    (Handle.mk buf 0).read 128 = (buf.take 128, ⟨buf, 128⟩) := by
  have : (buf.take 128).length = 128 := by rw [List.length_take]; omega
  simp only [Handle.read, List.drop_zero, this, Nat.zero_add]

private theorem height_eq (bs : Bytes) : Plu.height (K := K) bs =
    match f32.val K (leNat bs) with
    | .fin x => if x = 1000001 then none else some x
    | _ => none := by
  unfold Plu.height decFloat nonMeasured
  rw [show Fmt.ff false = f32 from rfl, show bytesNat false bs = leNat bs from rfl]
  cases f32.val K (leNat bs) <;> simp [toOpt]

private theorem surface_plu {images : Bool} {buf : Bytes} {d : Dict K} (hf : PluFields buf d) {p : Nat} {r : Raw K}
    {im : Option Layer} (h : Plu.surface images d ⟨buf, p⟩ = .ok (r, im)) :
    r.data.WF ∧ r.data.nx = columns buf ∧ r.data.ny = rows buf ∧ distX K buf = .fin r.stepX ∧
      distY K buf = .fin r.stepY ∧
      (0 < columns buf * rows buf → p + columns buf * rows buf * 4 ≤ buf.length) ∧
      (∀ i j, i < rows buf → j < columns buf →
        r.data.get i j = Plu.height ((buf.drop (p + (i * columns buf + j) * 4)).take 4)) ∧
      (images = true → ∃ l, im = some l ∧ (0 < columns buf * rows buf →
        Plu.image (rows buf) (columns buf) ⟨buf, p + columns buf * rows buf * 4⟩ = .ok l)) ∧
      (images = false → im = none) := by
  unfold Plu.surface at h
  simp only [hf.x, hf.y, hf.sx, hf.sy] at h
  rw [show ((columns buf : Int) * (rows buf : Int)) = ((columns buf * rows buf : Nat) : Int) by push_cast; rfl] at h
  cases hr : readArray 4 (Plu.height (K := K)) ((columns buf * rows buf : Nat) : Int) 0 ⟨buf, p⟩ with
  | error e => rw [hr] at h; cases h
  | ok a =>
    obtain ⟨l, h'⟩ := a
    rw [hr] at h
    dsimp only at h
    rw [Int.toNat_natCast, Int.toNat_natCast] at h
    cases hi : (if images then (Plu.image (rows buf) (columns buf) h').map some else .ok none) with
    | error e => rw [hi] at h; cases h
    | ok im' =>
      rw [hi] at h
      dsimp only at h
      cases hg : reshape l (rows buf : Int) (columns buf : Int) with
      | error e => rw [hg] at h; cases h
      | ok g =>
        rw [hg] at h
        cases hx : distX K buf with
        | inf b => rw [hx] at h; cases h
        | nan => rw [hx] at h; cases h
        | fin dx =>
          cases hy : distY K buf with
          | inf b => rw [hx, hy] at h; cases h
          | nan => rw [hx, hy] at h; cases h
          | fin dy =>
            rw [hx, hy] at h
            simp only [toOpt] at h
            cases h
            obtain ⟨g1, g2, g3, g4, g5⟩ := array_grid (by decide) hr hg
            refine ⟨g1, g2, g3, rfl, rfl, g4, fun i j hi hj => ?_, fun e => ?_, fun e => ?_⟩
            · unfold Grid.get
              rw [g5 i j hi hj]; rfl
            · rw [e, if_pos rfl] at hi
              cases hm : Plu.image (rows buf) (columns buf) h' with
              | error e => rw [hm] at hi; cases hi
              | ok lay =>
                rw [hm] at hi
                refine ⟨lay, (Except.ok.inj hi).symm, fun h0 => ?_⟩
                obtain ⟨l2, k1, -⟩ := readArray_at (w := 4) (by decide) (dec := Plu.height (K := K))
                  (n := columns buf * rows buf) (buf := buf) (p := p) (g4 h0)
                rw [k1] at hr
                cases hr
                exact hm
            · rw [e] at hi
              exact (Except.ok.inj hi).symm

private theorem plu_spec {parseDate : List Char → Except Err Unit} {enc : Encoding} {images : Bool} {buf : Bytes}
    {r : Raw K} {im : Option Layer} (h : readPlu parseDate enc images ⟨buf, 0⟩ = .ok (r, im)) :
    500 ≤ buf.length ∧ ∃ d : Dict K, PluFields buf d ∧ Plu.surface images d ⟨buf, 500⟩ = .ok (r, im) := by
  unfold readPlu at h
  split at h
  · cases h
  split at h
  · cases h
  by_cases hl : 128 ≤ buf.length
  · rw [plu_head buf hl] at h
    rw [show (Handle.mk buf 128).skip 260 = ⟨buf, 388⟩ from rfl] at h
    cases h1 : LayoutM.read enc ⟨buf, 388⟩ (calibration K) with
    | error e => rw [h1] at h; cases h
    | ok a =>
      obtain ⟨d, h1'⟩ := a
      rw [h1] at h
      dsimp only at h
      have e1 := read_end cal_fixed h1
      rw [cal_total] at e1
      rw [e1] at h
      cases h2 : LayoutM.read enc (⟨buf, 388 + 40⟩ : Handle) (measureConfig K) with
      | error e => rw [h2] at h; cases h
      | ok a =>
        obtain ⟨d2, h2'⟩ := a
        rw [h2] at h
        dsimp only at h
        have e2 := read_end cfg_fixed h2
        rw [cfg_total] at e2
        rw [e2] at h
        have h3 := (readGo_int cfg_fixed h2 (name := "factorio_delmacio") (off := 496) (w := 4) (s := false)
          (big := false) rfl).2
        refine ⟨?_, d, plu_fields h1, h⟩
        rw [List.length_take, List.length_drop] at h3
        dsimp only at h3
        omega
  · exfalso
    -- a shorter file has no calibration block
    have hb : (((Handle.mk buf 0).read 128).2.skip 260).buf = buf := rfl
    have hp : buf.length ≤ (((Handle.mk buf 0).read 128).2.skip 260).pos := by
      simp only [Handle.read, Handle.skip, List.drop_zero, List.length_take]; omega
    generalize ((Handle.mk buf 0).read 128).2.skip 260 = hh at h hb hp
    cases h1 : LayoutM.read enc hh (calibration K) with
    | error e => rw [h1] at h; cases h
    | ok a =>
      obtain ⟨d, h1'⟩ := a
      have h3 := (readGo_int cal_fixed h1 (name := "yres") (off := hh.pos) (w := 4) (s := false)
          (big := false) rfl).2
      rw [List.length_take, List.length_drop, hb] at h3
      omega

/-- **C66**, **C67** for PLu files. The surface has the size and the steps the header states; a point is non-measured
exactly if the file stores 1000001 (or a value that is not a finite number) there, every other height is the stored
one. -/
theorem C67_plu {parseDate : List Char → Except Err Unit} {enc : Encoding} {images : Bool} {buf : Bytes} {r : Raw K}
    {im : Option Layer} (h : readPlu parseDate enc images ⟨buf, 0⟩ = .ok (r, im)) :
    r.data.WF ∧ r.data.nx = columns buf ∧ r.data.ny = rows buf ∧ distX K buf = .fin r.stepX ∧
      distY K buf = .fin r.stepY ∧ ∀ i j, i < rows buf → j < columns buf →
        500 + 4 * (i * columns buf + j) + 4 ≤ buf.length ∧
        (∀ x, PluSpec.height K buf i j = .fin x →
          (x = 1000001 → r.data.get i j = none) ∧ (x ≠ 1000001 → r.data.get i j = some x)) ∧
        ((∀ x, PluSpec.height K buf i j ≠ .fin x) → r.data.get i j = none) := by
  obtain ⟨-, d, hf, hs⟩ := plu_spec h
  obtain ⟨s1, s2, s3, s4, s5, s6, s7, -⟩ := surface_plu hf hs
  refine ⟨s1, s2, s3, s4, s5, fun i j hi hj => ?_⟩
  have hk : i * columns buf + j + 1 ≤ columns buf * rows buf := by
    calc i * columns buf + j + 1 ≤ i * columns buf + columns buf := by omega
      _ = columns buf * (i + 1) := by ring
      _ ≤ columns buf * rows buf := Nat.mul_le_mul_left _ hi
  have h6 := s6 (by omega)
  have h7 := s7 i j hi hj
  rw [height_eq, Nat.mul_comm _ 4] at h7
  change r.data.get i j = (match PluSpec.height K buf i j with
    | .fin x => if x = 1000001 then none else some x
    | _ => none) at h7
  refine ⟨by omega, fun x hx => ?_, fun hx => ?_⟩
  · rw [hx] at h7
    dsimp only at h7
    exact ⟨fun e => by rw [h7, if_pos e], fun e => by rw [h7, if_neg e]⟩
  · rw [h7]
    cases hv : PluSpec.height K buf i j with
    | fin x => exact absurd hv (hx x)
    | inf b => rfl
    | nan => rfl

/-- Every file that is long enough, with a readable date and finite distances, is read. -/
theorem C67_plu_reads {parseDate : List Char → Except Err Unit} {enc : Encoding} {buf : Bytes} {date : List Char}
    (hlen : 500 + 4 * (columns buf * rows buf) ≤ buf.length)
    (hd : decode enc (buf.take 128) = .ok date) (hp : parseDate (rstrip (fun c => c = '\x00') date) = .ok ())
    {dx dy : K} (hx : distX K buf = .fin dx) (hy : distY K buf = .fin dy) :
    ∃ r : Raw K, readPlu parseDate enc false ⟨buf, 0⟩ = .ok (r, none) := by
  obtain ⟨d, h1⟩ := readGo_succeeds enc (calibration K) (fun _ => none) buf 388 cal_fixed
    (by rw [cal_total]; omega) (by simp [calibration, places, CanRead])
  obtain ⟨d2, h2⟩ := readGo_succeeds enc (measureConfig K) (fun _ => none) buf 428 cfg_fixed
    (by rw [cfg_total]; omega) (by simp [measureConfig, places, CanRead])
  rw [cal_total] at h1
  rw [cfg_total] at h2
  have h1' : LayoutM.read enc ⟨buf, 388⟩ (calibration K) = .ok (d, ⟨buf, 428⟩) := h1
  have h2' : LayoutM.read enc ⟨buf, 428⟩ (measureConfig K) = .ok (d2, ⟨buf, 500⟩) := h2
  have hf := plu_fields h1'
  obtain ⟨l, g, k1, k2⟩ := array_grid_ok (w := 4) (by decide) (dec := Plu.height (K := K)) (nx := columns buf)
    (ny := rows buf) (buf := buf) (p := 500) (by omega)
  unfold readPlu
  rw [plu_head buf (by omega)]
  dsimp only
  rw [hd]
  dsimp only
  rw [hp]
  dsimp only
  rw [show (Handle.mk buf 128).skip 260 = ⟨buf, 388⟩ from rfl, h1']
  dsimp only
  rw [h2']
  dsimp only
  unfold Plu.surface
  simp only [hf.x, hf.y, hf.sx, hf.sy]
  rw [show ((columns buf : Int) * (rows buf : Int)) = ((columns buf * rows buf : Nat) : Int) by push_cast; rfl, k1]
  dsimp only
  rw [hx, hy, k2]
  exact ⟨_, rfl⟩

/-- The image, if it is asked for: one grey channel if the three channels agree everywhere, else all three. -/
theorem C67_plu_images {parseDate : List Char → Except Err Unit} {enc : Encoding} {buf : Bytes} {r : Raw K}
    {im : Option Layer} (h : readPlu parseDate enc true ⟨buf, 0⟩ = .ok (r, im)) (h0 : 0 < columns buf * rows buf) :
    (((∀ i j, i < rows buf → j < columns buf → color buf 0 i j = color buf 1 i j ∧ color buf 0 i j = color buf 2 i j) ∧
      ∃ g, im = some (.gray g) ∧ ∀ i j, i < rows buf → j < columns buf →
        g.rows[i]?.bind (·[j]?) = some (color buf 0 i j : Int)) ∨
    ((¬ ∀ i j, i < rows buf → j < columns buf → color buf 0 i j = color buf 1 i j ∧ color buf 0 i j = color buf 2 i j) ∧
      ∃ g0 g1 g2, im = some (.rgb g0 g1 g2) ∧ ∀ i j, i < rows buf → j < columns buf →
        g0.rows[i]?.bind (·[j]?) = some (color buf 0 i j : Int) ∧
        g1.rows[i]?.bind (·[j]?) = some (color buf 1 i j : Int) ∧
        g2.rows[i]?.bind (·[j]?) = some (color buf 2 i j : Int))) := by
  obtain ⟨-, d, hf, hs⟩ := plu_spec h
  obtain ⟨-, -, -, -, -, -, -, s8, -⟩ := surface_plu hf hs
  obtain ⟨lay, rfl, hi⟩ := s8 rfl
  replace hi := hi h0
  unfold Plu.image at hi
  have hskip : ∀ n, readArray 1 (bytesInt false false 1) n 16 ⟨buf, 500 + columns buf * rows buf * 4⟩ =
      readArray 1 (bytesInt false false 1) n 0 ⟨buf, 500 + columns buf * rows buf * 4 + 16⟩ := by
    intro n; rfl
  rw [hskip] at hi
  cases hr : readArray 1 (bytesInt false false 1) ((columns buf * rows buf * 3 : Nat) : Int) 0
      ⟨buf, 500 + columns buf * rows buf * 4 + 16⟩ with
  | error e => rw [hr] at hi; cases hi
  | ok a =>
    obtain ⟨l, h'⟩ := a
    rw [hr] at hi
    dsimp only at hi
    split at hi
    · cases hi
    · rename_i hn
      rw [not_not] at hn
      have hn' : l.length = columns buf * rows buf * 3 := by rw [hn]; ring
      have hlen := readArray_full (by decide) hr hn' (by omega)
      obtain ⟨l2, k1, k2, k3⟩ := readArray_at (w := 1) (by decide) (dec := bytesInt false false 1) hlen
      rw [k1] at hr
      cases hr
      have hget : ∀ c i j, c < 3 → i < rows buf → j < columns buf →
          l.getD ((i * columns buf + j) * 3 + c) 0 = (color buf c i j : Int) := by
        intro c i j hc hi hj
        have hk : i * columns buf + j + 1 ≤ columns buf * rows buf := by
          calc i * columns buf + j + 1 ≤ i * columns buf + columns buf := by omega
            _ = columns buf * (i + 1) := by ring
            _ ≤ columns buf * rows buf := Nat.mul_le_mul_left _ hi
        rw [List.getD_eq_getElem?_getD, k3 _ (by omega)]
        simp only [Option.getD_some, bytesInt, bytesNat, color, NmsSpec.uint]
        rw [show 500 + columns buf * rows buf * 4 + 16 + ((i * columns buf + j) * 3 + c) * 1 =
          500 + 4 * (columns buf * rows buf) + 16 + 3 * (i * columns buf + j) + c by ring]
        simp
      have hchan : ∀ c, c < 3 → ∀ i j, i < rows buf → j < columns buf →
          (channel l (rows buf) (columns buf) c).rows[i]?.bind (·[j]?) = some (color buf c i j : Int) := by
        intro c hc i j hi hj
        unfold channel Grid.ofFn
        simp only [List.getElem?_map, List.getElem?_range hi, Option.map_some, Option.bind_some,
          List.getElem?_range hj]
        rw [hget c i j hc hi hj]
      have hiff : (∀ i < rows buf, ∀ j < columns buf,
          l.getD ((i * columns buf + j) * 3) 0 = l.getD ((i * columns buf + j) * 3 + 1) 0 ∧
          l.getD ((i * columns buf + j) * 3) 0 = l.getD ((i * columns buf + j) * 3 + 2) 0) ↔
          ∀ i j, i < rows buf → j < columns buf →
            color buf 0 i j = color buf 1 i j ∧ color buf 0 i j = color buf 2 i j := by
        constructor
        · intro hh i j hi hj
          have h1 := hh i hi j hj
          have e0 := hget 0 i j (by decide) hi hj
          rw [Nat.add_zero] at e0
          rw [e0, hget 1 i j (by decide) hi hj, hget 2 i j (by decide) hi hj] at h1
          exact ⟨by exact_mod_cast h1.1, by exact_mod_cast h1.2⟩
        · intro hh i hi j hj
          have h1 := hh i j hi hj
          have e0 := hget 0 i j (by decide) hi hj
          rw [Nat.add_zero] at e0
          rw [e0, hget 1 i j (by decide) hi hj, hget 2 i j (by decide) hi hj]
          exact ⟨by exact_mod_cast h1.1, by exact_mod_cast h1.2⟩
      split at hi
      · rename_i hall
        cases hi
        exact .inl ⟨hiff.1 hall, _, rfl, hchan 0 (by decide)⟩
      · rename_i hall
        cases hi
        exact .inr ⟨fun hc => hall (hiff.2 hc), _, _, _, rfl, fun i j hi hj =>
          ⟨hchan 0 (by decide) i j hi hj, hchan 1 (by decide) i j hi hj, hchan 2 (by decide) i j hi hj⟩⟩

/-! ## An example -/

/-- A file with two points, the second one non-measured. -/
private def pluSample : Bytes :=
  List.replicate 388 0 ++ [1, 0, 0, 0, 2, 0, 0, 0] ++ List.replicate 8 0 ++ [0, 0, 0x80, 0x3f, 0, 0, 0, 0x3f] ++
    List.replicate 88 0 ++ [0, 0, 0x20, 0x40, 0x10, 0x24, 0x74, 0x49] ++ List.replicate 16 0 ++ [1, 2, 3, 1, 1, 1]

set_option maxRecDepth 20000 in
example (parseDate : List Char → Except Err Unit) (hp : ∀ s, parseDate s = .ok ()) :
    ∃ r : Raw ℚ, readPlu parseDate .auto false ⟨pluSample, 0⟩ = .ok (r, none) ∧ r.stepX = 1 ∧ r.stepY = 1 / 2 ∧
      r.data.get 0 0 = some (5 / 2) ∧ r.data.get 0 1 = none := by
  have hx : distX ℚ pluSample = .fin 1 := by decide +kernel
  have hy : distY ℚ pluSample = .fin (1 / 2) := by decide +kernel
  have hc : columns pluSample = 2 ∧ rows pluSample = 1 ∧ pluSample.length = 530 := by decide +kernel
  have hdate : ∃ s, decode .auto (pluSample.take 128) = .ok s := by
    unfold decode
    cases utf8? (pluSample.take 128) <;> exact ⟨_, rfl⟩
  obtain ⟨s, hs⟩ := hdate
  obtain ⟨r, hr⟩ := C67_plu_reads (K := ℚ) (by rw [hc.1, hc.2.1, hc.2.2]; norm_num) hs (hp _) hx hy
  obtain ⟨-, -, -, e1, e2, h6⟩ := C67_plu hr
  rw [hx] at e1
  rw [hy] at e2
  refine ⟨r, hr, (FVal.fin.inj e1).symm, (FVal.fin.inj e2).symm, ?_, ?_⟩
  · exact ((h6 0 0 (by omega) (by omega)).2.1 (5 / 2) (by decide +kernel)).2 (by norm_num)
  · exact ((h6 0 1 (by omega) (by omega)).2.1 1000001 (by decide +kernel)).1 rfl

end Surfalize.Props
