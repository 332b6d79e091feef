import Verif.Lemmas.ArrayAt
import Verif.Lemmas.Layout
import Verif.Lemmas.LayoutRead
import Verif.Model.Os3d
import Verif.Props.Zmg
/-!
# Properties of OS3D files (C83)
-/
set_option linter.unusedSectionVars false
namespace Surfalize.Props
open Surfalize Os3d FileArr LayoutM Os3dSpec LayoutSpec

variable {K : Type} [Field K] [LinearOrder K]

/-! ## Reading the header entry by entry -/

private theorem take_len {buf : Bytes} {p n : Nat} (h : p + n ≤ buf.length) : ((buf.drop p).take n).length = n := by
  rw [List.length_take, List.length_drop]; omega

private theorem fixed_ok {enc : Encoding} {f : Fmt} {buf : Bytes} {p : Nat} (h : p + f.size ≤ buf.length) :
    readFmt (K := K) enc f ⟨buf, p⟩ = match f.unpack K ((buf.drop p).take f.size) with
      | .error e => .error e
      | .ok v => match decodeValue enc v with
        | .error e => .error e
        | .ok v' => .ok (v', ⟨buf, p + f.size⟩) := by
  unfold readFmt
  have h2 : ((Handle.mk buf p).read f.size).2 = ⟨buf, p + f.size⟩ := by
    simp only [Handle.read, take_len h]
  rw [h2]
  rfl

private theorem fixed_short {enc : Encoding} {f : Fmt} {buf : Bytes} {p : Nat} (h0 : 0 < f.size)
    (h : ¬ p + f.size ≤ buf.length) : readFmt (K := K) enc f ⟨buf, p⟩ = .error .structError := by
  unfold readFmt Fmt.unpack
  rw [if_pos (show ((Handle.mk buf p).read f.size).1.length ≠ f.size from by
    show ((buf.drop p).take f.size).length ≠ f.size
    rw [List.length_take, List.length_drop]; omega)]

private theorem go_cons {enc : Encoding} {d : Dict K} {h : Handle} {e : Entry K} {es : List (Entry K)} :
    readGo enc d h (e :: es) = match e.read enc d h with
      | .error x => .error x
      | .ok (d', h') => readGo enc d' h' es := rfl

/-- An integer of four bytes. -/
private theorem go_int {enc : Encoding} {d : Dict K} {buf : Bytes} {p : Nat} {name : String} {es : List (Entry K)} :
    readGo enc d ⟨buf, p⟩ (.field name (.fixed (.int true false 4)) :: es) =
      if p + 4 ≤ buf.length then readGo enc (d.set name (.int (NmsSpec.sint buf p 4))) ⟨buf, p + 4⟩ es
      else .error .structError := by
  rw [go_cons]
  unfold Entry.read
  dsimp only
  by_cases h : p + 4 ≤ buf.length
  · rw [if_pos h, fixed_ok (f := .int true false 4) h]
    unfold Fmt.unpack
    rw [if_neg (by rw [not_not]; exact take_len h)]
    simp only [decodeValue, Fmt.size, sint_eq _ _ 4 (.inr rfl)]
  · rw [if_neg h, fixed_short (f := .int true false 4) (by decide) h]

/-- A double. -/
private theorem go_num {enc : Encoding} {d : Dict K} {buf : Bytes} {p : Nat} {name : String} {es : List (Entry K)} :
    readGo enc d ⟨buf, p⟩ (.field name (.fixed (.flt true false 1)) :: es) =
      if p + 8 ≤ buf.length then readGo enc (d.set name (.num (NmsSpec.double K buf p))) ⟨buf, p + 8⟩ es
      else .error .structError := by
  rw [go_cons]
  unfold Entry.read
  dsimp only
  by_cases h : p + 8 ≤ buf.length
  · rw [if_pos h, fixed_ok (f := .flt true false 1) h]
    unfold Fmt.unpack
    rw [if_neg (by rw [not_not]; exact take_len h)]
    dsimp only
    rw [if_neg (by decide)]
    have : (((buf.drop p).take (Fmt.flt true false 1).size).take (Fmt.fw true)) = (buf.drop p).take 8 := by
      rw [List.take_take]; rfl
    rw [this]
    rfl
  · rw [if_neg h, fixed_short (f := .flt true false 1) (by decide) h]

/-- A text whose length was read before. -/
private theorem go_text {enc : Encoding} {d : Dict K} {buf : Bytes} {p : Nat} {name prev : String}
    {es : List (Entry K)} {n : Int} (hd : d prev = some (.int n)) (hp : p ≤ buf.length) :
    readGo enc d ⟨buf, p⟩ (.field name (.fromPrevious prev) :: es) =
      if 0 ≤ n ∧ p + n.toNat ≤ buf.length then
        match decode enc ((buf.drop p).take n.toNat) with
        | .error e => .error e
        | .ok s => readGo enc (d.set name (.str (rstrip padChar s))) ⟨buf, p + n.toNat⟩ es
      else .error .structError := by
  rw [go_cons]
  unfold Entry.read
  have h1 : previousFormat d prev = if 0 ≤ n then .ok (.str n.toNat) else .error .structError := by
    unfold previousFormat Dict.at
    rw [hd]
  dsimp only
  rw [h1]
  by_cases h0 : 0 ≤ n
  · rw [if_pos h0]
    dsimp only
    by_cases hl : p + n.toNat ≤ buf.length
    · rw [if_pos ⟨h0, hl⟩, fixed_ok (f := .str n.toNat) hl]
      unfold Fmt.unpack
      rw [if_neg (by rw [not_not]; exact take_len hl)]
      simp only [decodeValue, Fmt.size]
      cases decode enc ((buf.drop p).take n.toNat) with
      | error e => rfl
      | ok s => rfl
    · rw [if_neg (by intro hh; exact hl hh.2), fixed_short (f := .str n.toNat) (by simp only [Fmt.size]; omega) hl]
  · rw [if_neg h0, if_neg (by intro hh; exact h0 hh.1)]

/-- The header is complete, and its texts are decoded as `nm` and `dt`. -/
structure Os3dHeader (enc : Encoding) (buf : Bytes) (nm dt : List Char) : Prop where
  name0 : 0 ≤ nameLength buf
  date0 : 0 ≤ dateLength buf
  complete : sizePlace buf + 40 ≤ buf.length
  name : decode enc (Os3dSpec.name buf) = .ok nm
  date : decode enc (Os3dSpec.date buf) = .ok dt

private structure Os3dFields (buf : Bytes) (nm dt : List Char) (d : Dict K) : Prop where
  x : getInt d "nPointsAlongX" = .ok (columns buf)
  y : getInt d "nPointsAlongY" = .ok (rows buf)
  sx : getNum d "dSpacingAlongXUM" = .ok (toOpt (distX K buf))
  sy : getNum d "dSpacingAlongYUM" = .ok (toOpt (distY K buf))
  nm : getStr d "chArrayIdentification" = .ok (rstrip padChar nm)
  dt : getStr d "chArrayMeasureDateTime" = .ok (rstrip padChar dt)

private theorem go_nil {enc : Encoding} {d : Dict K} {h : Handle} : readGo enc d h [] = .ok (d, h) := rfl

private theorem header_iff {enc : Encoding} {buf : Bytes} {d : Dict K} {h' : Handle}
    (hr : LayoutM.read enc ⟨buf, 10⟩ (Os3d.layout K) = .ok (d, h')) :
    ∃ nm dt, Os3dHeader enc buf nm dt ∧ Os3dFields buf nm dt d ∧ h' = ⟨buf, sizePlace buf + 40⟩ := by
  unfold LayoutM.read Os3d.layout at hr
  rw [go_int] at hr
  split at hr
  case isFalse => cases hr
  rw [go_int] at hr
  split at hr
  case isFalse => cases hr
  rw [go_int] at hr
  split at hr
  case isFalse => cases hr
  rename_i l1 l2 l3
  rw [go_text (n := nameLength buf) rfl (by omega)] at hr
  split at hr
  case isFalse => cases hr
  rename_i l4
  cases hn : decode enc (Os3dSpec.name buf) with
  | error e => rw [show (buf.drop (10 + 4 + 4 + 4)).take (nameLength buf).toNat = Os3dSpec.name buf from rfl, hn] at hr; cases hr
  | ok nm =>
    rw [show (buf.drop (10 + 4 + 4 + 4)).take (nameLength buf).toNat = Os3dSpec.name buf from rfl, hn] at hr
    dsimp only at hr
    rw [show 10 + 4 + 4 + 4 + (nameLength buf).toNat = datePlace buf from rfl] at hr l4
    rw [go_int] at hr
    split at hr
    case isFalse => cases hr
    rename_i l5
    rw [go_text (n := dateLength buf) rfl l5] at hr
    split at hr
    case isFalse => cases hr
    rename_i l6
    cases hd : decode enc (Os3dSpec.date buf) with
    | error e => rw [show (buf.drop (datePlace buf + 4)).take (dateLength buf).toNat = Os3dSpec.date buf from rfl, hd] at hr; cases hr
    | ok dt =>
      rw [show (buf.drop (datePlace buf + 4)).take (dateLength buf).toNat = Os3dSpec.date buf from rfl, hd] at hr
      dsimp only at hr
      rw [show datePlace buf + 4 + (dateLength buf).toNat = sizePlace buf from rfl] at hr l6
      rw [go_int] at hr
      split at hr
      case isFalse => cases hr
      rw [go_int] at hr
      split at hr
      case isFalse => cases hr
      rw [go_num] at hr
      split at hr
      case isFalse => cases hr
      rw [go_num] at hr
      split at hr
      case isFalse => cases hr
      rw [go_num] at hr
      split at hr
      case isFalse => cases hr
      rw [go_num] at hr
      split at hr
      case isFalse => cases hr
      rename_i l7 l8 l9 l10 l11 l12
      rw [go_nil] at hr
      have h9 := Except.ok.inj hr
      have hd' := congrArg Prod.fst h9
      have hh' := congrArg Prod.snd h9
      dsimp only at hd' hh'
      refine ⟨nm, dt, ⟨l4.1, l6.1, by omega, hn, hd⟩, ?_, hh'.symm⟩
      rw [← hd']
      exact ⟨rfl, rfl, rfl, rfl, rfl, rfl⟩

private theorem header_ok {enc : Encoding} {buf : Bytes} {nm dt : List Char} (hh : Os3dHeader enc buf nm dt) :
    ∃ d : Dict K, LayoutM.read enc ⟨buf, 10⟩ (Os3d.layout K) = .ok (d, ⟨buf, sizePlace buf + 40⟩) := by
  have hc := hh.complete
  have e1 : sizePlace buf = datePlace buf + 4 + (dateLength buf).toNat := rfl
  have e2 : datePlace buf = 10 + 4 + 4 + 4 + (nameLength buf).toNat := rfl
  unfold LayoutM.read Os3d.layout
  rw [go_int, if_pos (by omega), go_int, if_pos (by omega), go_int, if_pos (by omega),
    go_text (n := nameLength buf) rfl (by omega), if_pos ⟨hh.name0, by omega⟩,
    show (buf.drop (10 + 4 + 4 + 4)).take (nameLength buf).toNat = Os3dSpec.name buf from rfl, hh.name]
  dsimp only
  rw [← e2, go_int, if_pos (by omega), go_text (n := dateLength buf) rfl (by omega), if_pos ⟨hh.date0, by omega⟩,
    show (buf.drop (datePlace buf + 4)).take (dateLength buf).toNat = Os3dSpec.date buf from rfl, hh.date]
  dsimp only
  rw [← e1, go_int, if_pos (by omega), go_int, if_pos (by omega), go_num, if_pos (by omega), go_num,
    if_pos (by omega), go_num, if_pos (by omega), go_num, if_pos (by omega), go_nil]
  exact ⟨_, rfl⟩

private theorem os3d_magic (buf : Bytes) : ((Handle.mk buf 0).read Os3d.magic.length).1 = buf.take 10 := by
  have : Os3d.magic.length = 10 := by decide +kernel
  rw [this]; rfl

private theorem os3d_after {buf : Bytes} (h : buf.take 10 = Os3d.magic) :
    ((Handle.mk buf 0).read Os3d.magic.length).2 = ⟨buf, 10⟩ := by
  have h1 : Os3d.magic.length = 10 := by decide +kernel
  have h2 : (buf.take 10).length = 10 := by rw [h, h1]
  rw [h1]
  simp only [Handle.read, List.drop_zero, h2, Nat.zero_add]

private theorem threshold_bounds [IsStrictOrderedRing K] :
    -(31 * 10 ^ 37 : K) < threshold K ∧ threshold K ≤ -(3 * 10 ^ 38 : K) := by
  unfold threshold
  constructor <;> norm_num

private theorem os3d_height [IsStrictOrderedRing K] (bs : Bytes) :
    (∀ x, f32.val K (leNat bs) = .fin x → (x ≤ -(31 * 10 ^ 37) → Os3d.height (K := K) bs = none) ∧
      (-(3 * 10 ^ 38) ≤ x → Os3d.height bs = some x)) ∧
    ((∀ x, f32.val K (leNat bs) ≠ .fin x) → Os3d.height (K := K) bs = none) := by
  obtain ⟨t1, t2⟩ := threshold_bounds (K := K)
  unfold Os3d.height decFloat
  rw [show Fmt.ff false = f32 from rfl, show bytesNat false bs = leNat bs from rfl]
  cases f32.val K (leNat bs) with
  | fin y =>
    refine ⟨fun x hx => ?_, fun h => absurd rfl (h y)⟩
    cases hx
    simp only [toOpt]
    exact ⟨fun h => if_pos (by linarith), fun h => if_neg (by linarith)⟩
  | inf b => exact ⟨(fun x hx => by cases hx), fun _ => rfl⟩
  | nan => exact ⟨(fun x hx => by cases hx), fun _ => rfl⟩

/-- **C83**. An OS3D file that is read gives the surface its header describes: columns, rows and distances, and at every
point the height stored there, or a missing point if the invalid value of the format (-3.4028235e38) or a value that is
not a finite number is stored; numbers from -3e38 are heights. The texts are those of the header without padding, the
time is the date text parsed, and the image is what follows the flag behind the heights. -/
theorem C83_os3d [IsStrictOrderedRing K] {Time Image : Type} {parseDate : List Char → Except Err Time}
    {openImage : Bytes → Except Err Image} {enc : Encoding} {images : Bool} {buf : Bytes} {r : Raw K} {i : Info Time}
    {im : Option Image} (h : readOs3d parseDate openImage enc images ⟨buf, 0⟩ = .ok (r, i, im)) :
    buf.take 10 = utf8 "OmniSurf3D".toList ∧ r.data.WF ∧ (r.data.nx : Int) = columns buf ∧
      (r.data.ny : Int) = rows buf ∧ distX K buf = .fin r.stepX ∧ distY K buf = .fin r.stepY ∧
      tail buf + 1 ≤ buf.length ∧
      (∀ a b, a < r.data.ny → b < r.data.nx →
        (∀ x, Os3dSpec.height K buf a b = .fin x →
          (x ≤ -(31 * 10 ^ 37) → r.data.get a b = none) ∧ (-(3 * 10 ^ 38) ≤ x → r.data.get a b = some x)) ∧
        ((∀ x, Os3dSpec.height K buf a b ≠ .fin x) → r.data.get a b = none)) ∧
      (∃ nm, decode enc (name buf) = .ok nm ∧ Stripped nm i.identification) ∧
      (∃ dt t, decode enc (date buf) = .ok dt ∧ Stripped dt t ∧ parseDate t = .ok i.timestamp) ∧
      (images = false → im = none) ∧
      (images = true → ∃ p, openImage (buf.drop (tail buf + 1)) = .ok p ∧ im = some p) := by
  unfold readOs3d at h
  rw [os3d_magic] at h
  split at h
  · cases h
  rename_i hm
  rw [not_not] at hm
  rw [os3d_after hm] at h
  cases h1 : LayoutM.read enc ⟨buf, 10⟩ (Os3d.layout K) with
  | error e => rw [h1] at h; cases h
  | ok a =>
    obtain ⟨d, h1'⟩ := a
    obtain ⟨nm, dt, hh, hf, rfl⟩ := header_iff h1
    rw [h1] at h
    simp only [hf.x, hf.y, hf.sx, hf.sy, hf.nm, hf.dt] at h
    cases hr : readArray 4 (Os3d.height (K := K)) (columns buf * rows buf) 0 ⟨buf, sizePlace buf + 40⟩ with
    | error e => rw [hr] at h; cases h
    | ok a =>
      obtain ⟨l, h2⟩ := a
      rw [hr] at h
      dsimp only at h
      cases hg : reshape l (rows buf) (columns buf) with
      | error e => rw [hg] at h; cases h
      | ok g =>
        rw [hg] at h
        dsimp only at h
        have hnn : 0 ≤ rows buf ∧ 0 ≤ columns buf := by
          unfold reshape at hg
          split at hg
          · rename_i hh; exact ⟨hh.1, hh.2.1⟩
          · cases hg
        obtain ⟨ny, hy⟩ := Int.eq_ofNat_of_zero_le hnn.1
        obtain ⟨nx, hx⟩ := Int.eq_ofNat_of_zero_le hnn.2
        rw [hx, hy] at hr hg
        have hr' : readArray 4 (Os3d.height (K := K)) ((nx * ny : Nat) : Int) 0 ⟨buf, sizePlace buf + 40⟩ =
          .ok (l, h2) := by push_cast; exact hr
        obtain ⟨g1, g2, g3, g4, g5⟩ := array_grid (by decide) hr' hg
        have htail : tail buf = sizePlace buf + 40 + nx * ny * 4 := by
          unfold tail
          rw [hx, hy, Int.toNat_natCast, Int.toNat_natCast]; ring
        have hl : sizePlace buf + 40 + nx * ny * 4 ≤ buf.length := by
          rcases Nat.eq_zero_or_pos (nx * ny) with h0 | h0
          · rw [h0]; exact hh.complete
          · exact g4 h0
        have h2e : h2 = ⟨buf, tail buf⟩ := by
          obtain ⟨l2, k1, -⟩ := readArray_at (w := 4) (by decide) (dec := Os3d.height (K := K)) hl
          rw [k1] at hr'
          cases hr'
          rw [htail]
        rw [h2e] at h
        cases hp : parseDate (rstrip padChar dt) with
        | error e => rw [hp] at h; cases h
        | ok t =>
          rw [hp] at h
          dsimp only at h
          have e1 : ((Handle.mk buf (tail buf)).read 1).1 = (buf.drop (tail buf)).take 1 := rfl
          rw [e1] at h
          split at h
          · cases h
          rename_i hb
          rw [not_not] at hb
          have hlen : tail buf + 1 ≤ buf.length := by
            rw [List.length_take, List.length_drop] at hb; omega
          have e2 : (((Handle.mk buf (tail buf)).read 1).2.readAll).1 = buf.drop (tail buf + 1) := by
            simp only [Handle.read, Handle.readAll, hb]
          rw [e2] at h
          cases hi : (if images then (openImage (buf.drop (tail buf + 1))).map some else .ok none) with
          | error e => rw [hi] at h; cases h
          | ok im' =>
            rw [hi] at h
            cases hdx : distX K buf with
            | inf b => rw [hdx] at h; cases h
            | nan => rw [hdx] at h; cases h
            | fin dx =>
              cases hdy : distY K buf with
              | inf b => rw [hdx, hdy] at h; cases h
              | nan => rw [hdx, hdy] at h; cases h
              | fin dy =>
                rw [hdx, hdy] at h
                simp only [toOpt] at h
                cases h
                refine ⟨hm, g1, by rw [hx, ← g2], by rw [hy, ← g3], rfl, rfl, hlen, fun a b ha hb => ?_,
                  ⟨nm, hh.name, rstrip_spec nm⟩, ⟨dt, _, hh.date, rstrip_spec dt, hp⟩, fun e => ?_, fun e => ?_⟩
                · dsimp only at ha hb ⊢
                  have h7 := g5 a b (by omega) (by omega)
                  have h8 : g.get a b = Os3d.height ((buf.drop (sizePlace buf + 40 + (a * nx + b) * 4)).take 4) := by
                    unfold Grid.get
                    rw [h7]; rfl
                  rw [h8]
                  have e : Os3dSpec.height K buf a b =
                      f32.val K (leNat ((buf.drop (sizePlace buf + 40 + (a * nx + b) * 4)).take 4)) := by
                    unfold Os3dSpec.height NmsSpec.single
                    rw [hx, Int.toNat_natCast, Nat.mul_comm 4]
                  rw [e]
                  exact os3d_height _
                · rw [e] at hi
                  exact (Except.ok.inj hi).symm
                · rw [e, if_pos rfl] at hi
                  cases ho : openImage (buf.drop (tail buf + 1)) with
                  | error e => rw [ho] at hi; cases hi
                  | ok p => rw [ho] at hi; exact ⟨p, rfl, (Except.ok.inj hi).symm⟩

/-- Every complete file, with the flag behind the heights, a readable date and finite distances, is read. -/
theorem C83_os3d_reads {Time Image : Type} {parseDate : List Char → Except Err Time}
    {openImage : Bytes → Except Err Image} {enc : Encoding} {buf : Bytes}
    (hm : buf.take 10 = utf8 "OmniSurf3D".toList) {nm dt : List Char} (hh : Os3dHeader enc buf nm dt)
    (h0 : 0 ≤ columns buf ∧ 0 ≤ rows buf) (hlen : tail buf + 1 ≤ buf.length) {t : Time}
    (hp : parseDate (rstrip padChar dt) = .ok t) {dx dy : K} (hdx : distX K buf = .fin dx)
    (hdy : distY K buf = .fin dy) :
    ∃ (r : Raw K) (i : Info Time), readOs3d parseDate openImage enc false ⟨buf, 0⟩ = .ok (r, i, none) := by
  obtain ⟨d, h1⟩ := header_ok (K := K) hh
  obtain ⟨nm', dt', hh', hf, -⟩ := header_iff h1
  have hdt : dt' = dt := by
    have := hh'.date
    rw [hh.date] at this
    exact (Except.ok.inj this).symm
  subst hdt
  obtain ⟨ny, hy⟩ := Int.eq_ofNat_of_zero_le h0.2
  obtain ⟨nx, hx⟩ := Int.eq_ofNat_of_zero_le h0.1
  have htail : tail buf = sizePlace buf + 40 + nx * ny * 4 := by
    unfold tail
    rw [hx, hy, Int.toNat_natCast, Int.toNat_natCast]; ring
  obtain ⟨l, g, k1, k2⟩ := array_grid_ok (w := 4) (by decide) (dec := Os3d.height (K := K)) (nx := nx)
    (ny := ny) (buf := buf) (p := sizePlace buf + 40) (by omega)
  rw [← htail] at k1
  unfold readOs3d
  rw [os3d_magic, if_neg (by rw [not_not]; exact hm), os3d_after hm, h1]
  simp only [hf.x, hf.y, hf.sx, hf.sy, hf.nm, hf.dt]
  rw [hx, hy, show ((nx : Int) * (ny : Int)) = ((nx * ny : Nat) : Int) by push_cast; rfl, k1]
  dsimp only
  rw [k2]
  dsimp only
  rw [hp]
  dsimp only
  rw [if_neg (by
    rw [not_not]
    exact take_len hlen), hdx, hdy]
  exact ⟨_, _, rfl⟩

/-- Files without the magic number are refused as corrupted. -/
theorem C83_os3d_magic {Time Image : Type} {parseDate : List Char → Except Err Time}
    {openImage : Bytes → Except Err Image} {enc : Encoding} {images : Bool} {buf : Bytes}
    (hm : buf.take 10 ≠ utf8 "OmniSurf3D".toList) :
    readOs3d (K := K) parseDate openImage enc images ⟨buf, 0⟩ = .error .corrupted := by
  unfold readOs3d
  rw [os3d_magic, if_pos (show buf.take 10 ≠ Os3d.magic from hm)]

/-! ## An example -/

/-- Two points, the second one invalid; identification `Id`, date `x `. -/
private def os3dSample : Bytes :=
  utf8 "OmniSurf3D".toList ++ [1, 0, 0, 0, 0, 0, 0, 0] ++ [2, 0, 0, 0, 0x49, 0x64] ++ [2, 0, 0, 0, 0x78, 0x20] ++
    [2, 0, 0, 0, 1, 0, 0, 0] ++ [0, 0, 0, 0, 0, 0, 0xf0, 0x3f] ++ [0, 0, 0, 0, 0, 0, 0xe0, 0x3f] ++
    List.replicate 16 0 ++ [0, 0, 0x20, 0x40, 0xff, 0xff, 0x7f, 0xff] ++ [0]

set_option maxRecDepth 20000 in
example (openImage : Bytes → Except Err Unit) :
    ∃ (r : Raw ℚ) (i : Info (List Char)), readOs3d .ok openImage .utf8 false ⟨os3dSample, 0⟩ = .ok (r, i, none) ∧
      r.stepX = 1 ∧ r.stepY = 1 / 2 ∧ r.data.get 0 0 = some (5 / 2) ∧ r.data.get 0 1 = none := by
  have hm : os3dSample.take 10 = utf8 "OmniSurf3D".toList := by decide +kernel
  have hl : nameLength os3dSample = 2 ∧ dateLength os3dSample = 2 ∧ sizePlace os3dSample = 30 ∧
    os3dSample.length = 79 ∧ columns os3dSample = 2 ∧ rows os3dSample = 1 ∧ tail os3dSample = 78 := by
    repeat' apply And.intro
    all_goals decide +kernel
  have hx : distX ℚ os3dSample = .fin 1 := by decide +kernel
  have hy : distY ℚ os3dSample = .fin (1 / 2) := by decide +kernel
  have hn : decode .utf8 (name os3dSample) = .ok ['I', 'd'] := by
    rw [show name os3dSample = utf8 ['I', 'd'] by decide +kernel]
    unfold decode
    rw [utf8?_utf8]
  have hd : decode .utf8 (date os3dSample) = .ok ['x', ' '] := by
    rw [show date os3dSample = utf8 ['x', ' '] by decide +kernel]
    unfold decode
    rw [utf8?_utf8]
  have z0 : Os3dSpec.height ℚ os3dSample 0 0 = .fin (5 / 2) := by decide +kernel
  have z1 : Os3dSpec.height ℚ os3dSample 0 1 = .fin (-(16777215 * 2 ^ 104)) := by decide +kernel
  obtain ⟨r, i, h⟩ := C83_os3d_reads (K := ℚ) (parseDate := .ok) (openImage := openImage) hm
    (⟨by omega, by omega, by omega, hn, hd⟩ : Os3dHeader .utf8 os3dSample _ _) (by omega) (by omega) rfl hx hy
  obtain ⟨-, -, h3, h4, h5, h6, -, h8, -⟩ := C83_os3d h
  rw [hx] at h5
  rw [hy] at h6
  refine ⟨r, i, h, (FVal.fin.inj h5).symm, (FVal.fin.inj h6).symm, ?_, ?_⟩
  · exact ((h8 0 0 (by omega) (by omega)).1 _ z0).2 (by norm_num)
  · exact ((h8 0 1 (by omega) (by omega)).1 _ z1).1 (by norm_num)

end Surfalize.Props
