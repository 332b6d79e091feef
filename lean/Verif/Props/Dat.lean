import Verif.Lemmas.Dat
/-!
# Properties of MetroPro files (C66, C67)
-/
set_option linter.unusedSectionVars false
set_option maxRecDepth 20000
namespace Surfalize.Props
open Surfalize Dat DatSpec FileArr LayoutM

variable {K : Type} [Field K] [LinearOrder K]

private theorem units_resolution {r : Int} {n : Nat} : resolution r = .ok n ↔ DatSpec.Units r n := by
  unfold resolution
  constructor
  · intro h
    split_ifs at h with h1 h2 h3 <;> cases h
    · rw [h1]; exact .normal
    · rw [h2]; exact .high
    · rw [h3]; exact .super
  · rintro (_ | _ | _) <;> rfl

private theorem identified {buf : Bytes}
    (h : (buf.take 4, (headerFormat buf : Int), (headerSize buf : Int)) ∈ validFormats) : Identified buf := by
  simp only [validFormats, List.mem_cons, List.not_mem_nil, or_false, Prod.mk.injEq] at h
  rcases h with ⟨h1, h2, h3⟩ | ⟨h1, h2, h3⟩ | ⟨h1, h2, h3⟩
  · exact .one h1 (by exact_mod_cast h2) (by exact_mod_cast h3)
  · exact .two h1 (by exact_mod_cast h2) (by exact_mod_cast h3)
  · exact .three h1 (by exact_mod_cast h2) (by exact_mod_cast h3)

/-- The part behind the intensity images. -/
private theorem surface_spec {buf : Bytes} {d : Dict K} (hd : Fields buf d) {ls : List (Grid Int)} {p : Nat}
    {out : Out K} (h : Dat.surface d ls ⟨buf, p⟩ = .ok out) :
    out.layers = ls ∧ out.surface.data.WF ∧ out.surface.data.nx = width buf ∧
      out.surface.data.ny = DatSpec.height buf ∧
      (0 < width buf * DatSpec.height buf → p + 4 * (width buf * DatSpec.height buf) ≤ buf.length) ∧
      (∃ t, lateralRes K buf = .fin t ∧ out.surface.stepX = t * 10 ^ 6 ∧ out.surface.stepY = t * 10 ^ 6) ∧
      ∃ R, DatSpec.Units (phaseRes buf) R ∧ ∀ i j, i < DatSpec.height buf → j < width buf →
        ∀ x, x = bytesInt true true 4 ((buf.drop (p + 4 * (i * width buf + j))).take 4) →
        out.surface.data.get i j = Dat.height (toOpt (scaleFactor K buf)) (toOpt (wavelength K buf))
          (toOpt (obliquity K buf)) R x := by
  unfold Dat.surface at h
  simp only [hd.w, hd.h, hd.sc, hd.wl, hd.ob, hd.pr, hd.lr] at h
  rw [show ((width buf : Int) * (DatSpec.height buf : Int)) = ((width buf * DatSpec.height buf : Nat) : Int) by
    push_cast; rfl] at h
  cases hr : readArray 4 (bytesInt true true 4) ((width buf * DatSpec.height buf : Nat) : Int) 0 ⟨buf, p⟩ with
  | error e => rw [hr] at h; cases h
  | ok r =>
    obtain ⟨l, h'⟩ := r
    rw [hr] at h
    dsimp only at h
    cases hg : reshape l (DatSpec.height buf : Int) (width buf : Int) with
    | error e => rw [hg] at h; cases h
    | ok g =>
      rw [hg] at h
      dsimp only at h
      cases hres : resolution (phaseRes buf) with
      | error e => rw [hres] at h; cases h
      | ok R =>
        rw [hres] at h
        dsimp only at h
        cases hl : lateralRes K buf with
        | inf b => rw [hl] at h; cases h
        | nan => rw [hl] at h; cases h
        | fin t =>
          rw [hl] at h
          simp only [toOpt] at h
          cases h
          obtain ⟨g1, g2, g3, g4, g5⟩ := array_grid (by decide) hr hg
          refine ⟨rfl, map_wf _ g1, by rw [← g2]; rfl, by rw [← g3]; exact map_ny _ _,
            fun h0 => by have := g4 h0; omega, ⟨t, rfl, rfl, rfl⟩, R, units_resolution.1 hres, ?_⟩
          rintro i j hi hj x rfl
          dsimp only
          rw [get_map_some g1 _ (by omega) (by omega) (g5 i j hi hj), Nat.mul_comm 4]
          rfl

private theorem bytesNat_lt (big : Bool) (bs : Bytes) : bytesNat big bs < 256 ^ bs.length := by
  unfold bytesNat
  split
  · have := leNat_lt bs.reverse
    rwa [List.length_reverse] at this
  · exact leNat_lt bs

/-- A signed 16-bit number is at most 32767. -/
private theorem signed_le (buf : Bytes) (off : Nat) : s16 buf off ≤ 32767 := by
  have h1 : bytesNat true ((buf.drop off).take 2) < 256 ^ 2 := by
    refine lt_of_lt_of_le (bytesNat_lt true _) (Nat.pow_le_pow_right (by decide) ?_)
    rw [List.length_take]; omega
  unfold s16 bytesInt
  dsimp only
  split_ifs with h2
  · norm_num at *; omega
  · simp only [true_and, not_le] at h2
    norm_num at h2
    omega

/-- The layers are passed on. -/
private theorem surface_layers {d : Dict K} {ls : List (Grid Int)} {h0 : Handle} {out : Out K}
    (h : Dat.surface d ls h0 = .ok out) (ls' : List (Grid Int)) :
    Dat.surface d ls' h0 = .ok ⟨out.surface, ls'⟩ := by
  unfold Dat.surface at h ⊢
  split at h
  · split at h
    · cases h
    · split at h
      · cases h
      · split at h
        · cases h
        · split at h
          · cases h
          · cases h
            simp_all
  · cases h

/-- The file up to the intensity images. -/
private structure Start (buf : Bytes) (d : Dict K) : Prop where
  id : Identified buf
  read : LayoutM.read .utf8 ⟨buf, 4⟩ (layout K) = .ok (d, ⟨buf, 834⟩)
  read3 : headerFormat buf = 3 → ∃ d3, LayoutM.read .utf8 ⟨buf, 834⟩ (layout3 K) = .ok (d3, ⟨buf, 4096⟩)
  size : acBytes buf = 2 * (acWidth buf * acHeight buf * acBuckets buf)

/-- What is left to do then. -/
private def rest (images : Bool) (buf : Bytes) (d : Dict K) : Except Err (Out K) :=
  if 0 < acBytes buf ∧ images = true then
    match Dat.intensity (acWidth buf) (acHeight buf) (acBuckets buf) (acRange buf) ⟨buf, headerSize buf⟩ with
    | .error e => .error e
    | .ok (ls, h2) => Dat.surface d ls h2
  else Dat.surface d [] ⟨buf, headerSize buf + acBytes buf⟩

private theorem dat_eq {buf : Bytes} {d : Dict K} (hs : Start buf d) (images : Bool) :
    readDat images ⟨buf, 0⟩ = rest images buf d := by
  have hm : buf.take 4 ∈ [magic1, magic2, magic3] ∧ (buf.take 4).length = 4 := by
    rcases hs.id with ⟨e, -, -⟩ | ⟨e, -, -⟩ | ⟨e, -, -⟩ <;> rw [e] <;> exact ⟨by decide, rfl⟩
  have hrd : (Handle.mk buf 0).read 4 = (buf.take 4, ⟨buf, 4⟩) := by
    simp only [Handle.read, List.drop_zero, hm.2, Nat.zero_add]
  have hf := fields hs.read
  unfold readDat
  dsimp only
  rw [hrd]
  dsimp only
  rw [if_neg (not_not.2 hm.1), hs.read]
  dsimp only
  unfold afterHeader
  simp only [hf.hf, hf.hs, hf.aw, hf.ah, hf.ab, hf.an, hf.ar]
  have hv : (buf.take 4, (headerFormat buf : Int), (headerSize buf : Int)) ∈ validFormats := by
    rcases hs.id with ⟨e, e1, e2⟩ | ⟨e, e1, e2⟩ | ⟨e, e1, e2⟩ <;> rw [e, e1, e2] <;> decide
  rw [if_neg (not_not.2 hv)]
  have hpos : (if (headerFormat buf : Int) = 3 then
      (LayoutM.read .utf8 ⟨buf, 834⟩ (layout3 K)).map (fun r => r.2) else .ok ⟨buf, 834⟩) =
        .ok (⟨buf, headerSize buf⟩ : Handle) := by
    rcases hs.id with ⟨-, e1, e2⟩ | ⟨-, e1, e2⟩ | ⟨-, e1, e2⟩
    · rw [e1, e2]; rfl
    · rw [e1, e2]; rfl
    · obtain ⟨d3, h3⟩ := hs.read3 e1
      rw [e1, e2, h3]; rfl
  rw [hpos]
  dsimp only
  have hn : (acWidth buf : Int) * acHeight buf * acBuckets buf * 2 = acBytes buf := by
    rw [hs.size]; push_cast; ring
  rw [if_neg (not_not.2 hn)]
  unfold rest
  by_cases hc : 0 < acBytes buf ∧ images = true
  · rw [if_pos hc, if_pos ⟨by exact_mod_cast hc.1, hc.2⟩]
    cases Dat.intensity (acWidth buf) (acHeight buf) (acBuckets buf) (acRange buf) ⟨buf, headerSize buf⟩ <;> rfl
  · rw [if_neg hc, if_neg (by rintro ⟨a, b⟩; exact hc ⟨by exact_mod_cast a, b⟩)]
    simp [Handle.skip]

private theorem dat_spec {images : Bool} {buf : Bytes} {out : Out K}
    (h : readDat images ⟨buf, 0⟩ = .ok out) : ∃ d : Dict K, Start buf d := by
  unfold readDat at h
  dsimp only at h
  split at h
  · cases h
  · rename_i hm
    rw [not_not] at hm
    have h4 : (buf.take 4).length = 4 := by
      have hm' : buf.take 4 ∈ [magic1, magic2, magic3] := hm
      simp only [List.mem_cons, List.not_mem_nil, or_false] at hm'
      rcases hm' with e | e | e <;> rw [e] <;> rfl
    have hrd : (Handle.mk buf 0).read 4 = (buf.take 4, ⟨buf, 4⟩) := by
      simp only [Handle.read, List.drop_zero, h4, Nat.zero_add]
    rw [hrd] at h
    dsimp only at h
    cases hr : LayoutM.read .utf8 ⟨buf, 4⟩ (layout K) with
    | error e => rw [hr] at h; cases h
    | ok r =>
      obtain ⟨d, h1⟩ := r
      rw [hr] at h
      dsimp only at h
      have hf := fields hr
      have hend : h1 = ⟨buf, 834⟩ := by
        rw [read_end layout_fixed hr, layout_total]
      rw [hend] at h hr
      unfold afterHeader at h
      simp only [hf.hf, hf.hs, hf.aw, hf.ah, hf.ab, hf.an, hf.ar] at h
      split at h
      · cases h
      · rename_i hv
        rw [not_not] at hv
        have hid := identified hv
        cases h3 : (if (headerFormat buf : Int) = 3 then
            (LayoutM.read .utf8 ⟨buf, 834⟩ (layout3 K)).map (fun r => r.2) else .ok (⟨buf, 834⟩ : Handle)) with
        | error e => rw [h3] at h; cases h
        | ok h3' =>
          rw [h3] at h
          dsimp only at h
          split at h
          · cases h
          · rename_i hn
            rw [not_not] at hn
            refine ⟨d, hid, hr, fun e => ?_, ?_⟩
            · rw [if_pos (by rw [e]; rfl)] at h3
              cases h5 : LayoutM.read .utf8 ⟨buf, 834⟩ (layout3 K) with
              | error e => rw [h5] at h3; cases h3
              | ok r =>
                obtain ⟨d3, h6⟩ := r
                have := read_end layout3_fixed h5
                rw [layout3_total] at this
                rw [this]
                exact ⟨d3, rfl⟩
            · have : ((acWidth buf * acHeight buf * acBuckets buf * 2 : Nat) : Int) = (acBytes buf : Int) := by
                push_cast; exact hn
              have := Int.ofNat.inj this
              omega

/-- The intensity images. -/
private theorem intensity_spec {buf : Bytes} {aw ah ab : Nat} {ar : Int} {p : Nat} {ls : List (Grid Int)}
    {h2 : Handle} (h0 : 0 < aw * ah * ab)
    (h : Dat.intensity aw ah ab ar ⟨buf, p⟩ = .ok (ls, h2)) :
    h2 = ⟨buf, p + 2 * (aw * ah * ab)⟩ ∧ p + 2 * (aw * ah * ab) ≤ buf.length ∧
      (∀ n, n < aw * ah * ab → (bytesNat true ((buf.drop (p + 2 * n)).take 2) : Int) ≤ ar) ∧
      ls.length = ab ∧ ∀ k, k < ab → ∃ g, ls[k]? = some g ∧ g.WF ∧ g.nx = aw ∧ g.ny = ah ∧
        ∀ i j, i < ah → j < aw → g.rows[i]?.bind (·[j]?) =
          some (bytesNat true ((buf.drop (p + 2 * ((i * aw + j) * ab + k))).take 2) : Int) := by
  unfold Dat.intensity at h
  rw [show ((aw : Int) * ah * ab) = ((aw * ah * ab : Nat) : Int) by push_cast; rfl] at h
  cases hr : readArray 2 (bytesInt false true 2) ((aw * ah * ab : Nat) : Int) 0 ⟨buf, p⟩ with
  | error e => rw [hr] at h; cases h
  | ok r =>
    obtain ⟨l, h'⟩ := r
    rw [hr] at h
    dsimp only at h
    split at h
    · cases h
    · rename_i hn
      rw [not_not] at hn
      have hn' : l.length = aw * ah * ab := by exact_mod_cast hn
      split at h
      · cases h
      · rename_i hmax
        cases h
        have hlen := readArray_full (by decide) hr hn' h0
        obtain ⟨l', k1, k2, k3⟩ := readArray_at (w := 2) (by decide) (dec := bytesInt false true 2) hlen
        rw [k1] at hr
        cases hr
        push Not at hmax
        refine ⟨by rw [Nat.mul_comm], by omega, fun n hn => ?_, by simp, fun k hk => ?_⟩
        · have := hmax _ (List.mem_of_getElem? (k3 n hn))
          rw [unsigned] at this
          rw [Nat.mul_comm 2]
          exact this
        · refine ⟨⟨(List.range ah).map fun i => (List.range aw).map fun j =>
            l.getD ((i * aw + j) * ab + k) 0, aw⟩, ?_, ?_, rfl, by simp [Grid.ny], ?_⟩
          · simp [hk]
          · intro r hr
            obtain ⟨i, -, rfl⟩ := List.mem_map.1 hr
            simp
          · intro i j hi hj
            have hlt : (i * aw + j) * ab + k < aw * ah * ab := by
              have h1 : i * aw + j + 1 ≤ aw * ah := by
                calc i * aw + j + 1 ≤ i * aw + aw := by omega
                  _ = aw * (i + 1) := by ring
                  _ ≤ aw * ah := Nat.mul_le_mul_left _ hi
              calc (i * aw + j) * ab + k < (i * aw + j) * ab + ab := by omega
                _ = (i * aw + j + 1) * ab := by ring
                _ ≤ aw * ah * ab := Nat.mul_le_mul_right _ h1
            simp only [List.getElem?_map, List.getElem?_range hi, Option.map_some, Option.bind_some,
              List.getElem?_range hj]
            rw [List.getD_eq_getElem?_getD, k3 _ hlt, unsigned, Nat.mul_comm 2]
            rfl

/-- The surface is read behind the intensity images. -/
private theorem dat_surface {images : Bool} {buf : Bytes} {out : Out K} {d : Dict K} (hst : Start buf d)
    (h : readDat images ⟨buf, 0⟩ = .ok out) :
    ∃ ls, Dat.surface d ls ⟨buf, headerSize buf + acBytes buf⟩ = .ok out := by
  rw [dat_eq hst] at h
  unfold rest at h
  split at h
  · rename_i hc
    have h2 := hst.size
    have h0 : 0 < acWidth buf * acHeight buf * acBuckets buf := by omega
    cases hi : Dat.intensity (acWidth buf) (acHeight buf) (acBuckets buf) (acRange buf)
        ⟨buf, headerSize buf⟩ with
    | error e => rw [hi] at h; cases h
    | ok r =>
      obtain ⟨ls, hh⟩ := r
      rw [hi] at h
      obtain ⟨h6, -⟩ := intensity_spec h0 hi
      rw [h6, ← h2] at h
      exact ⟨ls, h⟩
  · exact ⟨[], h⟩

/-- **C66**, **C67** for MetroPro files. A file that is read identifies itself as one of the three formats and is
complete; the surface has the size and the lateral step (in µm) the header states; a point is non-measured exactly if
the file stores a value from 2147483640 on there, every other height is the phase value times scale factor, wavelength
and obliquity, divided by the number of phase units per wavelength, in µm. -/
theorem C66_dat {images : Bool} {buf : Bytes} {out : Out K} (h : readDat images ⟨buf, 0⟩ = .ok out) :
    Identified buf ∧ out.surface.data.WF ∧ out.surface.data.nx = width buf ∧
      out.surface.data.ny = DatSpec.height buf ∧
      (∃ t, lateralRes K buf = .fin t ∧ out.surface.stepX = t * 10 ^ 6 ∧ out.surface.stepY = t * 10 ^ 6) ∧
      ∃ R, DatSpec.Units (phaseRes buf) R ∧ ∀ i j, i < DatSpec.height buf → j < width buf →
        headerSize buf + acBytes buf + 4 * (i * width buf + j) + 4 ≤ buf.length ∧
        (2147483640 ≤ phase buf i j → out.surface.data.get i j = none) ∧
        (phase buf i j < 2147483640 → ∀ s w o, scaleFactor K buf = .fin s → wavelength K buf = .fin w →
          obliquity K buf = .fin o →
          out.surface.data.get i j = some ((phase buf i j : K) * s * w * o / (R : K) * 10 ^ 6)) := by
  obtain ⟨d, hst⟩ := dat_spec h
  have h1 := hst.id
  have hf := fields hst.read
  obtain ⟨ls, hs⟩ := dat_surface hst h
  obtain ⟨-, s1, s2, s3, s4, s5, R, s6, s7⟩ := surface_spec hf hs
  refine ⟨h1, s1, s2, s3, s5, R, s6, fun i j hi hj => ?_⟩
  have hx := s7 i j hi hj (phase buf i j) rfl
  refine ⟨?_, fun hp => ?_, fun hp s w o e1 e2 e3 => ?_⟩
  · have hk : i * width buf + j + 1 ≤ width buf * DatSpec.height buf := by
      calc i * width buf + j + 1 ≤ i * width buf + width buf := by omega
        _ = width buf * (i + 1) := by ring
        _ ≤ width buf * DatSpec.height buf := Nat.mul_le_mul_left _ hi
    have := s4 (by omega)
    omega
  · rw [hx]; exact if_pos hp
  · rw [hx, e1, e2, e3]
    exact if_neg (not_le.2 hp)

private theorem texts_eq : (places (layout K) 4).filterMap (fun q => match q with
    | (o, .str n) => some (o, n)
    | _ => none) = texts := by rfl

private theorem texts3_eq : (places (layout3 K) 834).filterMap (fun q => match q with
    | (o, .str n) => some (o, n)
    | _ => none) = texts3 := by rfl

private theorem floats_ok : ∀ q ∈ places (layout K) 4, ∀ a b n, q.2 = Fmt.flt a b n → n ≠ 0 := by
  have : (places (layout K) 4).all (fun q => match q.2 with | .flt _ _ n => n != 0 | _ => true) = true := by rfl
  rw [List.all_eq_true] at this
  intro q hq a b n e
  have := this q hq
  rw [e] at this
  simpa using this

private theorem floats3_ok : ∀ q ∈ places (layout3 K) 834, ∀ a b n, q.2 = Fmt.flt a b n → n ≠ 0 := by
  have : (places (layout3 K) 834).all (fun q => match q.2 with | .flt _ _ n => n != 0 | _ => true) = true := by
    rfl
  rw [List.all_eq_true] at this
  intro q hq a b n e
  have := this q hq
  rw [e] at this
  simpa using this

private theorem canRead {buf : Bytes} {ps : List (Nat × Fmt)}
    (hf : ∀ q ∈ ps, ∀ a b n, q.2 = Fmt.flt a b n → n ≠ 0)
    (ht : ∀ q ∈ ps.filterMap (fun q => match q with
      | (o, .str n) => some (o, n)
      | _ => none), ∃ s, utf8? ((buf.drop q.1).take q.2) = some s) :
    ∀ q ∈ ps, CanRead .utf8 buf q := by
  rintro ⟨o, f⟩ hq
  cases f with
  | int s b w => trivial
  | bool => trivial
  | flt a b n => exact hf _ hq a b n rfl
  | str n =>
    obtain ⟨s, hs⟩ := ht (o, n) (List.mem_filterMap.2 ⟨_, hq, rfl⟩)
    refine ⟨s, ?_⟩
    unfold decode
    dsimp only at hs
    rw [hs]

/-- **C66** (converse). Every complete file that identifies itself as one of the three formats, has readable texts and
valid values of resolution and lateral step, and whose intensity images have the stated size, is read. -/
theorem C66_dat_reads {buf : Bytes} (hid : Identified buf)
    (hac : acBytes buf = 2 * (acWidth buf * acHeight buf * acBuckets buf))
    (ht : ∀ q ∈ texts, ∃ s, utf8? ((buf.drop q.1).take q.2) = some s)
    (ht3 : headerFormat buf = 3 → ∀ q ∈ texts3, ∃ s, utf8? ((buf.drop q.1).take q.2) = some s)
    (hR : ∃ R, DatSpec.Units (phaseRes buf) R) (hlat : ∃ t, lateralRes K buf = .fin t)
    (hlen : headerSize buf + acBytes buf + 4 * (width buf * DatSpec.height buf) ≤ buf.length) :
    ∃ out : Out K, readDat false ⟨buf, 0⟩ = .ok out := by
  have h834 : 834 ≤ headerSize buf := by rcases hid with ⟨-, -, e⟩ | ⟨-, -, e⟩ | ⟨-, -, e⟩ <;> omega
  obtain ⟨d, hd⟩ := readGo_succeeds .utf8 (layout K) (fun _ => none) buf 4 layout_fixed
    (by rw [layout_total]; omega) (canRead floats_ok (by rw [texts_eq]; exact ht))
  rw [layout_total] at hd
  have hst : Start buf d := by
    refine ⟨hid, hd, fun e => ?_, hac⟩
    have h4096 : headerSize buf = 4096 := by rcases hid with ⟨-, e', -⟩ | ⟨-, e', -⟩ | ⟨-, -, e'⟩ <;> omega
    obtain ⟨d3, hd3⟩ := readGo_succeeds .utf8 (layout3 K) (fun _ => none) buf 834 layout3_fixed
      (by rw [layout3_total]; omega) (canRead floats3_ok (by rw [texts3_eq]; exact ht3 e))
    rw [layout3_total] at hd3
    exact ⟨d3, hd3⟩
  rw [dat_eq hst]
  unfold rest
  rw [if_neg (by simp)]
  have hf := fields hd
  obtain ⟨R, hR⟩ := hR
  obtain ⟨t, ht⟩ := hlat
  obtain ⟨l, g, h1, h2⟩ := array_grid_ok (w := 4) (by decide) (dec := bytesInt true true 4)
    (nx := width buf) (ny := DatSpec.height buf) (buf := buf) (p := headerSize buf + acBytes buf) (by omega)
  unfold Dat.surface
  simp only [hf.w, hf.h, hf.sc, hf.wl, hf.ob, hf.pr, hf.lr]
  rw [show ((width buf : Int) * (DatSpec.height buf : Int)) = ((width buf * DatSpec.height buf : Nat) : Int) by
    push_cast; rfl, h1]
  dsimp only
  rw [h2]
  dsimp only
  rw [units_resolution.2 hR, ht]
  exact ⟨_, rfl⟩

/-- The intensity images, if they are asked for: one for each bucket, as the file stores them. The heights are the
same as without. -/
theorem C66_dat_images {buf : Bytes} {out : Out K} (h : readDat true ⟨buf, 0⟩ = .ok out) :
    readDat false ⟨buf, 0⟩ = .ok (⟨out.surface, []⟩ : Out K) ∧
    (0 < acBytes buf → out.layers.length = acBuckets buf ∧ ∀ k, k < acBuckets buf →
      ∃ g, out.layers[k]? = some g ∧ g.WF ∧ g.nx = acWidth buf ∧ g.ny = acHeight buf ∧
        ∀ i j, i < acHeight buf → j < acWidth buf →
          g.rows[i]?.bind (·[j]?) = some (DatSpec.intensity buf k i j : Int)) ∧
    (acBytes buf = 0 → out.layers = []) := by
  obtain ⟨d, hst⟩ := dat_spec h
  have hsz := hst.size
  obtain ⟨ls, hs⟩ := dat_surface hst h
  have hl := (surface_spec (fields hst.read) hs).1
  have hany : ∀ ls', Dat.surface d ls' ⟨buf, headerSize buf + acBytes buf⟩ = .ok ⟨out.surface, ls'⟩ := by
    intro ls'
    exact surface_layers hs ls'
  rw [dat_eq hst] at h ⊢
  refine ⟨?_, fun h0 => ?_, fun h0 => ?_⟩
  · unfold rest
    rw [if_neg (by simp)]
    exact hany []
  · unfold rest at h
    rw [if_pos ⟨h0, rfl⟩] at h
    cases hi : Dat.intensity (acWidth buf) (acHeight buf) (acBuckets buf) (acRange buf)
        ⟨buf, headerSize buf⟩ with
    | error e => rw [hi] at h; cases h
    | ok r =>
      obtain ⟨ls2, hh⟩ := r
      rw [hi] at h
      dsimp only at h
      obtain ⟨k1, -, -, k4, k5⟩ := intensity_spec (by omega) hi
      rw [k1, ← hsz, hany ls2] at h
      have h9 : out.layers = ls2 := by
        have := Except.ok.inj h
        rw [← this]
      rw [h9]
      exact ⟨k4, k5⟩
  · unfold rest at h
    rw [if_neg (by omega)] at h
    rw [hany []] at h
    have := Except.ok.inj h
    rw [← this]

/-- **C66** (violated for image layers). Intensities of points without one are stored as 65535, more than every
range the header can state: a file with such a point cannot be read with image layers. -/
theorem C66_dat_invalid_intensity {buf : Bytes} {k i j : Nat} (hk : k < acBuckets buf) (hi : i < acHeight buf)
    (hj : j < acWidth buf) (h : DatSpec.intensity buf k i j = 65535) (out : Out K) :
    readDat true ⟨buf, 0⟩ ≠ .ok out := by
  intro hr
  obtain ⟨d, hst⟩ := dat_spec hr
  have hsz := hst.size
  rw [dat_eq hst] at hr
  have hlt : (i * acWidth buf + j) * acBuckets buf + k < acWidth buf * acHeight buf * acBuckets buf := by
    have h1 : i * acWidth buf + j + 1 ≤ acWidth buf * acHeight buf := by
      calc i * acWidth buf + j + 1 ≤ i * acWidth buf + acWidth buf := by omega
        _ = acWidth buf * (i + 1) := by ring
        _ ≤ acWidth buf * acHeight buf := Nat.mul_le_mul_left _ hi
    calc (i * acWidth buf + j) * acBuckets buf + k < (i * acWidth buf + j) * acBuckets buf + acBuckets buf := by
          omega
      _ = (i * acWidth buf + j + 1) * acBuckets buf := by ring
      _ ≤ acWidth buf * acHeight buf * acBuckets buf := Nat.mul_le_mul_right _ h1
  unfold rest at hr
  rw [if_pos ⟨by omega, rfl⟩] at hr
  cases hi' : Dat.intensity (acWidth buf) (acHeight buf) (acBuckets buf) (acRange buf)
      ⟨buf, headerSize buf⟩ with
  | error e => rw [hi'] at hr; cases hr
  | ok r =>
    obtain ⟨ls, hh⟩ := r
    obtain ⟨-, -, k3, -⟩ := intensity_spec (by omega) hi'
    have h1 := k3 _ hlt
    have h2 : (bytesNat true ((buf.drop (headerSize buf + 2 * ((i * acWidth buf + j) * acBuckets buf + k))).take 2))
      = 65535 := h
    rw [h2] at h1
    have h3 : acRange buf ≤ 32767 := signed_le buf 58
    omega


/-! ## An example -/

/-- A file with 2 × 2 points, one of them non-measured. -/
private def sample : Bytes :=
  [0x88, 0x1b, 0x03, 0x6f, 0, 1, 0, 0, 3, 0x42] ++ List.replicate 58 0 ++ [0, 2, 0, 2] ++ List.replicate 92 0 ++
    [0x3f, 0x80, 0, 0, 0x3f, 0x80, 0, 0] ++ List.replicate 4 0 ++ [0x3f, 0x80, 0, 0] ++ List.replicate 4 0 ++
    [0x3f, 0, 0, 0] ++ List.replicate 30 0 ++ [0, 1] ++ List.replicate 614 0 ++
    [0, 0, 0, 1, 0xff, 0xff, 0xff, 0xff, 0x7f, 0xff, 0xff, 0xf8, 0, 0, 0, 3]

private theorem zeros_decode (n : Nat) : ∃ s, utf8? (List.replicate n 0) = some s := by
  refine ⟨List.replicate n '\x00', ?_⟩
  rw [← utf8?_utf8 (List.replicate n '\x00')]
  congr 1
  rw [utf8_ascii _ (by intro c hc; rw [List.eq_of_mem_replicate hc]; decide)]
  simp

private theorem sample_texts : ∀ q ∈ texts, ∃ s, utf8? ((sample.drop q.1).take q.2) = some s := by
  intro q hq
  have h : ∀ q ∈ texts, (sample.drop q.1).take q.2 = List.replicate q.2 0 := by decide +kernel
  rw [h q hq]
  exact zeros_decode _

/-- The assumptions of `C66_dat_reads`, and of `C66_dat`, hold for this file. -/
example : ∃ out : Out ℚ, readDat false ⟨sample, 0⟩ = .ok out ∧ out.surface.stepX = 500000 ∧
    out.surface.data.get 0 1 = some (-1 / 4096 * 10 ^ 6) ∧ out.surface.data.get 1 0 = none := by
  obtain ⟨out, h⟩ := C66_dat_reads (K := ℚ) (buf := sample) (.one (by decide +kernel) (by decide +kernel)
    (by decide +kernel)) (by decide +kernel) sample_texts
    (fun h => absurd h (by decide +kernel)) ⟨4096, by rw [show phaseRes sample = 1 by decide +kernel]; exact .normal⟩ ⟨1 / 2, by decide +kernel⟩
    (by decide +kernel)
  obtain ⟨-, -, -, -, ⟨t, ht, hx, -⟩, R, hR, hp⟩ := C66_dat h
  have ht' : t = 1 / 2 := by
    rw [show lateralRes ℚ sample = .fin (1 / 2) by decide +kernel] at ht
    cases ht; rfl
  have hR' : R = 4096 := by
    rw [show phaseRes sample = 1 by decide +kernel] at hR
    cases hR; rfl
  have hw : width sample = 2 ∧ DatSpec.height sample = 2 := by decide +kernel
  refine ⟨out, h, by rw [hx, ht']; norm_num, ?_, ?_⟩
  · have := (hp 0 1 (by omega) (by omega)).2.2 (by decide +kernel) 1 1 1 (by decide +kernel) (by decide +kernel)
      (by decide +kernel)
    rw [this, show phase sample 0 1 = -1 by decide +kernel, hR']
    norm_num
  · exact (hp 1 0 (by omega) (by omega)).2.1 (by decide +kernel)

end Surfalize.Props
