import Verif.Lemmas.SurRead
import Verif.Props.Units
/-!
# C67: Digital Surf files

What any file that is read gives, in terms of its bytes (`Verif/Spec/SurFile.lean`).
-/
set_option linter.unusedSectionVars false
set_option maxRecDepth 20000
namespace Surfalize.Props
open Surfalize Sur FileArr LayoutM SurFile Gwy

variable {K : Type} [Field K] [LinearOrder K]

/-- The surface a file describes, `data` being the bytes of its points: size and steps are those of the header; where
missing points are announced, exactly the points with the mark are missing; all others are the stored number times the
z-spacing in µm plus the offset. The offset is taken to be in µm whatever the unit of the z-axis. -/
structure SurSurface (T : Units.Text) (enc : Encoding) (buf data : Bytes) (r : Raw K) : Prop where
  wf : r.data.WF
  nx : (r.data.nx : Int) = columns buf
  ny : (r.data.ny : Int) = rows buf
  bits : SurFile.bits buf = 16 ∨ SurFile.bits buf = 32
  stepX : ∃ u e s, unitX enc buf u ∧ FromUnit T u e ∧ spacingX K buf = .fin s ∧ r.stepX = s * 10 ^ (e + 6)
  stepY : ∃ u e s, unitY enc buf u ∧ FromUnit T u e ∧ spacingY K buf = .fin s ∧ r.stepY = s * 10 ^ (e + 6)
  heights : ∃ u e, unitZ enc buf u ∧ FromUnit T u e ∧ ∀ i j, i < r.data.ny → j < r.data.nx →
    (i * (columns buf).toNat + j + 1) * width buf ≤ data.length ∧
    (hasMissing buf ∧ point buf data i j = minPoint buf - 2 → r.data.get i j = none) ∧
    (¬ (hasMissing buf ∧ point buf data i j = minPoint buf - 2) →
      ∀ s o, SurFile.spacingZ K buf = .fin s → SurFile.offsetZ K buf = .fin o →
        r.data.get i j = some ((point buf data i j : K) * s * 10 ^ (e + 6) + o)) ∧
    ((∀ s, SurFile.spacingZ K buf ≠ .fin s) ∨ (∀ o, SurFile.offsetZ K buf ≠ .fin o) → r.data.get i j = none)

private theorem unit_of {T : Units.Text} (hT : UnitsSpec.Faithful T) {u : List Char} {c : K}
    (h : Units.getUnitConversion (K := K) T u "um".toList = .ok c) : ∃ e, FromUnit T u e ∧ c = 10 ^ (e + 6) := by
  have hum : ToUnit T "um".toList (-6) := .inl ⟨"um", .um, by decide, by decide⟩
  by_cases hu : ∃ e, FromUnit T u e
  · obtain ⟨e, he⟩ := hu
    refine ⟨e, he, ?_⟩
    rw [(C56_conversion_partial hT u "um".toList).1 e (-6) he hum] at h
    rw [← Except.ok.inj h]
    congr 1
  · rw [(C56_conversion_partial (K := K) hT u "um".toList).2 (fun h => hu h.1)] at h
    cases h

/-- From the list of numbers to the surface. -/
private theorem surface_of {T : Units.Text} (hT : UnitsSpec.Faithful T) {enc : Encoding} {buf data : Bytes} {d : Dict K}
    {g : Grid Int} (hf : SurFields enc buf d) (hbits : SurFile.bits buf = 16 ∨ SurFile.bits buf = 32) {l : List Int}
    (hg : reshape l (rows buf) (columns buf) = .ok g)
    (hl : ∀ k, k < l.length → (k + 1) * width buf ≤ data.length ∧
      l[k]? = some (bytesInt true false (width buf) ((data.drop (k * width buf)).take (width buf))))
    {r : Raw K} (h : getSurface T d g = .ok r) : SurSurface T enc buf data r := by
  obtain ⟨ux, hux, hux'⟩ := hf.ux
  obtain ⟨uy, huy, huy'⟩ := hf.uy
  obtain ⟨uz, huz, huz'⟩ := hf.uz
  obtain ⟨g1, g2, g3, g4, g5⟩ := reshape_get hg
  have hpos : 0 ≤ rows buf ∧ 0 ≤ columns buf := by
    unfold reshape at hg
    split at hg
    · rename_i hc; exact ⟨hc.1, hc.2.1⟩
    · cases hg
  unfold getSurface at h
  rw [hf.nm, hf.min, hf.sz, huz, hux, huy, hf.sx, hf.sy, hf.oz] at h
  dsimp only at h
  split at h
  · rename_i cz cx cy sx sy e1 e2 e3 e4 e5
    obtain ⟨ez, hez, rfl⟩ := unit_of hT e1
    obtain ⟨ex, hex, rfl⟩ := unit_of hT e2
    obtain ⟨ey, hey, rfl⟩ := unit_of hT e3
    have hsx : spacingX K buf = .fin sx := by
      cases hv : spacingX K buf with
      | fin x => rw [hv] at e4; simp only [toOpt, Option.some.injEq] at e4; rw [e4]
      | inf b => rw [hv] at e4; cases e4
      | nan => rw [hv] at e4; cases e4
    have hsy : spacingY K buf = .fin sy := by
      cases hv : spacingY K buf with
      | fin x => rw [hv] at e5; simp only [toOpt, Option.some.injEq] at e5; rw [e5]
      | inf b => rw [hv] at e5; cases e5
      | nan => rw [hv] at e5; cases e5
    cases h
    refine ⟨map_wf _ g1, ?_, ?_, hbits, ⟨ux, ex, sx, hux', hex, hsx, mul_comm _ _⟩,
      ⟨uy, ey, sy, huy', hey, hsy, mul_comm _ _⟩, uz, ez, huz', hez, fun i j hi hj => ?_⟩
    · show (g.nx : Int) = _
      rw [g3]; omega
    · show ((Container.map _ g).ny : Int) = _
      rw [map_ny, g2]; omega
    · rw [map_ny] at hi
      have hj : j < g.nx := hj
      have hk : i * g.nx + j < l.length := by
        rw [g4]
        calc i * g.nx + j < i * g.nx + g.nx := by omega
          _ = (i + 1) * g.nx := by ring
          _ ≤ g.ny * g.nx := Nat.mul_le_mul_right _ hi
      obtain ⟨k1, k2⟩ := hl _ hk
      have hx := g5 i j hi hj
      rw [k2] at hx
      dsimp only
      rw [get_map_some g1 _ hi hj hx]
      rw [g3] at k1 ⊢
      change _ ∧ (_ → (if int buf 86 2 = 1 ∧ point buf data i j = minPoint buf - 2 then none else
        oadd (omul (omul (some (point buf data i j : K)) (toOpt (SurFile.spacingZ K buf))) (some (10 ^ (ez + 6))))
          (toOpt (SurFile.offsetZ K buf))) = none) ∧ (_ → ∀ s o, _ → _ →
        (if int buf 86 2 = 1 ∧ point buf data i j = minPoint buf - 2 then none else
        oadd (omul (omul (some (point buf data i j : K)) (toOpt (SurFile.spacingZ K buf))) (some (10 ^ (ez + 6))))
          (toOpt (SurFile.offsetZ K buf))) = some _) ∧ (_ → (if int buf 86 2 = 1 ∧ point buf data i j = minPoint buf - 2
        then none else
        oadd (omul (omul (some (point buf data i j : K)) (toOpt (SurFile.spacingZ K buf))) (some (10 ^ (ez + 6))))
          (toOpt (SurFile.offsetZ K buf))) = none)
      refine ⟨k1, fun hm => if_pos hm, fun hm s o hs ho => ?_, fun hno => ?_⟩
      · have hm' : ¬ (int buf 86 2 = 1 ∧ point buf data i j = minPoint buf - 2) := hm
        rw [if_neg hm', hs, ho]
        rfl
      · split
        · rfl
        · rcases hno with hno | hno
          · cases hv : SurFile.spacingZ K buf with
            | fin x => exact absurd hv (hno x)
            | inf b => rfl
            | nan => rfl
          · cases hv : SurFile.offsetZ K buf with
            | fin x => exact absurd hv (hno x)
            | inf b => cases SurFile.spacingZ K buf <;> rfl
            | nan => cases SurFile.spacingZ K buf <;> rfl
  · cases h
  · cases h

private theorem readSur_ok {T : Units.Text} {enc : Encoding} {inflate : Bytes → Except Err Bytes} {h : Handle}
    {r : Raw K} (hr : readSur T enc inflate h = .ok r) :
    ∃ d g, readObject enc inflate h = .ok (d, g) ∧ getSurface T d g = .ok r := by
  unfold readSur at hr
  cases ho : readObject (K := K) enc inflate h with
  | error e => rw [ho] at hr; cases hr
  | ok a =>
    obtain ⟨d, g⟩ := a
    rw [ho] at hr
    dsimp only at hr
    split at hr
    · split at hr
      · cases hr
      split at hr
      · exact ⟨d, g, rfl, hr⟩
      · cases hr
    · cases hr

private theorem width_pos {buf : Bytes} (h : SurFile.bits buf = 16 ∨ SurFile.bits buf = 32) : 0 < width buf := by
  unfold width
  rcases h with h | h <;> rw [h] <;> decide

/-- **C67** for SUR files. Every uncompressed file that is read is read as the surface it describes. -/
theorem C67_sur {T : Units.Text} (hT : UnitsSpec.Faithful T) {enc : Encoding} {inflate : Bytes → Except Err Bytes}
    {buf : Bytes} {r : Raw K} (h : readSur T enc inflate ⟨buf, 0⟩ = .ok r) (hc : Classic buf) :
    SurSurface T enc buf (buf.drop (start buf)) r := by
  obtain ⟨d, g, h1, h2⟩ := readSur_ok h
  obtain ⟨hf, hb, hh, l, k1, k2, k3, k4⟩ := readObject_ok h1
  rcases k4 with ⟨-, n, h3, k4⟩ | ⟨k4, -⟩
  · refine surface_of hT hf hb k3 (fun k hk => ?_) h2
    obtain ⟨c1, c2⟩ := classic_list (width_pos hb) k1 k2 k4 hk
    refine ⟨?_, c2⟩
    rw [List.length_drop, Nat.add_mul, Nat.one_mul]
    omega
  · exfalso
    obtain ⟨t, ht1, ht2⟩ := hf.code
    apply k4
    rw [ht2]
    unfold Classic at hc
    rw [hc, decode_utf8] at ht1
    cases ht1
    rfl

/-- **C67** (SUR, which files): what is read holds one object, and this is a surface, a surface with colours, or a profile that Gwyddion has exported. Every other
file is refused. -/
theorem C67_sur_kinds {T : Units.Text} {enc : Encoding} {inflate : Bytes → Except Err Bytes} {buf : Bytes} {r : Raw K}
    (h : readSur T enc inflate ⟨buf, 0⟩ = .ok r) :
    objects buf ≤ 1 ∧ (stored buf = 2 ∨ stored buf = 16 ∨ (stored buf = 1 ∧ FromGwyddion enc buf)) := by
  unfold readSur at h
  cases ho : readObject (K := K) enc inflate ⟨buf, 0⟩ with
  | error e => rw [ho] at h; cases h
  | ok a =>
    obtain ⟨d, g⟩ := a
    rw [ho] at h
    dsimp only at h
    obtain ⟨hf, -⟩ := readObject_ok ho
    rw [hf.n, hf.st] at h
    dsimp only at h
    split at h
    · cases h
    rename_i hn
    split at h
    · rename_i hk
      refine ⟨by omega, ?_⟩
      rcases hk with hk | hk | hk
      · exact .inl hk
      · refine .inr (.inr ?_)
        unfold isGwyddion at hk
        obtain ⟨a, ha, ha'⟩ := hf.ob
        obtain ⟨b, hb, hb'⟩ := hf.op
        rw [hf.st, ha', hb'] at hk
        split at hk
        · rename_i h1 h2 h3
          have e1 := Except.ok.inj h1
          have e2 := Except.ok.inj h2
          have e3 := Except.ok.inj h3
          have := of_decide_eq_true hk
          exact ⟨e1, ⟨a, ha, e2.trans this.1⟩, b, hb, e3.trans this.2⟩
        · cases hk
      · exact .inr (.inl hk)
    · cases h

private theorem readU32_here (n : Nat) (hn : n < 2 ^ 32) (pre rest : Bytes) :
    readU32 (here pre (leBytes 4 n ++ rest)) = .ok (n, here (pre ++ leBytes 4 n) rest) := by
  unfold readU32
  rw [here_read _ _ _ _ (by simp)]
  dsimp only
  rw [if_neg (by simp), leNat_leBytes _ _ (by simpa using hn)]

private theorem readDirs_here : ∀ (ss : List (Nat × Bytes)) (pre rest : Bytes),
    (∀ s ∈ ss, s.1 < 2 ^ 32 ∧ s.2.length < 2 ^ 32) →
    readDirs ss.length (here pre (ss.flatMap (fun s => leBytes 4 s.1 ++ leBytes 4 s.2.length) ++ rest)) =
      .ok (ss.map fun s => (s.1, s.2.length),
        here (pre ++ ss.flatMap (fun s => leBytes 4 s.1 ++ leBytes 4 s.2.length)) rest) := by
  intro ss
  induction ss with
  | nil => intro pre rest _; simp [readDirs]
  | cons s ss ih =>
    intro pre rest hs
    rw [List.length_cons, readDirs, List.flatMap_cons, List.append_assoc, List.append_assoc,
      readU32_here _ (hs s (by simp)).1]
    dsimp only
    rw [readU32_here _ (hs s (by simp)).2]
    dsimp only
    rw [ih _ _ (fun s hs' => hs s (by simp [hs']))]
    simp

private theorem readStreams_here (inflate : Bytes → Except Err Bytes) :
    ∀ (ss : List (Nat × Bytes)) (parts : List Bytes),
    List.Forall₂ (fun s p => inflate s.2 = .ok p ∧ p.length = s.1) ss parts → ∀ (pre rest : Bytes),
    readStreams inflate (ss.map fun s => (s.1, s.2.length)) (here pre (ss.flatMap (fun s => s.2) ++ rest)) =
      .ok parts.flatten := by
  intro ss parts h
  induction h with
  | nil => intro pre rest; rfl
  | @cons s p ss parts hsp _ ih =>
    intro pre rest
    rw [List.map_cons, readStreams, List.flatMap_cons, List.append_assoc, here_read _ _ _ _ rfl]
    dsimp only
    rw [hsp.1]
    dsimp only
    rw [if_neg (by rw [hsp.2]; simp), ih]
    rfl

/-- The same for compressed files: the points are those of the streams, one after the other. -/
theorem C67_sur_compressed {T : Units.Text} (hT : UnitsSpec.Faithful T) {enc : Encoding}
    {inflate : Bytes → Except Err Bytes} {buf : Bytes} {r : Raw K} (h : readSur T enc inflate ⟨buf, 0⟩ = .ok r)
    (hc : Compressed buf) {streams : List (Nat × Bytes)} {parts : List Bytes} {rest : Bytes}
    (hbuf : buf.drop (start buf) = packed streams ++ rest) (hn : streams.length < 2 ^ 32)
    (hs : ∀ s ∈ streams, s.1 < 2 ^ 32 ∧ s.2.length < 2 ^ 32)
    (hp : List.Forall₂ (fun s p => inflate s.2 = .ok p ∧ p.length = s.1) streams parts) :
    SurSurface T enc buf parts.flatten r := by
  obtain ⟨d, g, h1, h2⟩ := readSur_ok h
  obtain ⟨hf, hb, hh, l, k1, k2, k3, k4⟩ := readObject_ok h1
  rcases k4 with ⟨k4, -⟩ | ⟨-, bs, k4, k5⟩
  · exfalso
    obtain ⟨t, ht1, ht2⟩ := hf.code
    rw [ht2] at k4
    unfold Compressed at hc
    rw [hc, decode_utf8] at ht1
    cases ht1
    have := Except.ok.inj k4
    revert this
    decide
  · have hlen : start buf + 4 ≤ buf.length := by
      have := congrArg List.length hbuf
      rw [List.length_drop] at this
      simp only [packed, List.length_append, leBytes_length] at this
      omega
    have hpos : hh.pos = start buf := by
      rcases k2 with k2 | k2
      · exact k2
      · exfalso
        unfold readCompressed readU32 at k4
        rw [if_pos] at k4
        · cases k4
        · simp only [Handle.read, List.length_take, List.length_drop, k1]
          omega
    have hhere : hh = here (buf.take (start buf)) (packed streams ++ rest) := by
      unfold here
      rw [← hbuf, List.take_append_drop, List.length_take, Nat.min_eq_left (by omega), ← hpos]
      cases hh; cases k1; rfl
    have hbs : bs = parts.flatten := by
      rw [hhere] at k4
      unfold readCompressed packed at k4
      rw [List.append_assoc, List.append_assoc, readU32_here _ hn] at k4
      dsimp only at k4
      rw [readDirs_here _ _ _ hs] at k4
      dsimp only at k4
      split at k4
      · cases k4
      · rw [readStreams_here inflate streams parts hp] at k4
        exact (Except.ok.inj k4).symm
    rw [hbs] at k5
    obtain ⟨f1, f2, f3⟩ := fromBuffer_get k5
    refine surface_of hT hf hb k3 (fun k hk => ⟨?_, f3 k (by omega)⟩) h2
    rw [f2] at hk
    exact (Nat.le_div_iff_mul_le (width_pos hb)).1 hk

/-! ## Examples -/

/-- A header: 16-bit points, one line of two points, missing points marked (smallest point 0, mark -2), spacing 1 nm in
x and y, 2 nm in z, offset 1. -/
private def surHead (code : String) (size : UInt8) : Bytes :=
  utf8 code.toList ++ [0, 0, 1, 0, 1, 0, 2, 0] ++ List.replicate 60 0 ++ [0, 0, 0, 0, 0, 0, 1, 0, 0, 0] ++
    List.replicate 8 0 ++ [16, 0, 0, 0, 0, 0, 9, 0, 0, 0, 2, 0, 0, 0, 1, 0, 0, 0, 2, 0, 0, 0] ++
    [0, 0, 0x80, 0x3f, 0, 0, 0x80, 0x3f, 0, 0, 0, 0x40] ++ List.replicate 48 0 ++
    utf8 "nm".toList ++ List.replicate 14 0 ++ utf8 "nm".toList ++ List.replicate 14 0 ++
    utf8 "nm".toList ++ List.replicate 14 0 ++ List.replicate 96 0 ++ [size, 0, 0, 0] ++ List.replicate 10 0 ++
    List.replicate 128 0 ++ List.replicate 8 0 ++ [0, 0, 0x80, 0x3f] ++ List.replicate 34 0

/-- Whether something is read. -/
private def isOk {α : Type} (x : Except Err α) : Bool := match x with | .ok _ => true | .error _ => false

private theorem isOk_iff {α : Type} {x : Except Err α} (h : isOk x = true) : ∃ a, x = .ok a := by
  cases x with
  | ok a => exact ⟨a, rfl⟩
  | error e => cases h

private def surPlain : Bytes := surHead "DIGITAL SURF" 0 ++ [5, 0, 0xfe, 0xff]

private theorem nm_unit {u : List Char} {e : Int} (hu : u = "nm".toList) (h : FromUnit demoText u e) : e = -9 := by
  have h1 := (C56_conversion_partial (K := ℚ) C56_faithful_exists u "um".toList).1 e (-6) h
    (.inl ⟨"um", .um, by decide, by decide⟩)
  have h2 := (C56_conversion_partial (K := ℚ) C56_faithful_exists u "um".toList).1 (-9) (-6)
    (.inl ⟨"nm", .nm, by rw [hu]; decide, by rw [hu]; decide⟩) (.inl ⟨"um", .um, by decide, by decide⟩)
  rw [h1] at h2
  have := zpow_right_injective₀ (by norm_num : (0 : ℚ) < 10) (by norm_num) (Except.ok.inj h2)
  omega

example : ∃ r : Raw ℚ, readSur demoText .utf8 (fun _ => .error .corrupted) ⟨surPlain, 0⟩ = .ok r ∧
    r.data.get 0 0 = some (101 / 100) ∧ r.data.get 0 1 = none := by
  obtain ⟨r, hr⟩ : ∃ r : Raw ℚ, readSur demoText .utf8 (fun _ => .error .corrupted) ⟨surPlain, 0⟩ = .ok r :=
    isOk_iff (by decide +kernel)
  have h := C67_sur C56_faithful_exists hr (by unfold Classic; decide +kernel)
  have hx : columns surPlain = 2 ∧ rows surPlain = 1 := by decide +kernel
  obtain ⟨u, e, ⟨t, ht, hu⟩, he, hp⟩ := h.heights
  have ht' : decode .utf8 ((surPlain.drop 212).take 16) = .ok ("nm".toList ++ List.replicate 14 (Char.ofNat 0)) := by
    decide +kernel
  rw [ht'] at ht
  cases ht
  have := nm_unit (hu.trans (by decide +kernel)) he
  subst this
  have h1 := h.nx
  have h2 := h.ny
  rw [hx.1] at h1
  rw [hx.2] at h2
  have hnx : r.data.nx = 2 := by omega
  have hny : r.data.ny = 1 := by omega
  refine ⟨r, hr, ?_, ?_⟩
  · have := (hp 0 0 (by omega) (by omega)).2.2.1 (by unfold hasMissing; decide +kernel) 2 1 (by decide +kernel)
      (by decide +kernel)
    rw [this, show point surPlain (surPlain.drop (start surPlain)) 0 0 = 5 by decide +kernel]
    norm_num
  · exact (hp 0 1 (by omega) (by omega)).2.1 (by unfold hasMissing; decide +kernel)

/-- The same file as a profile from Gwyddion, and with another operator. -/
private def surScratch (op : String) : Bytes :=
  surPlain.take 18 ++ [1, 0] ++ utf8 "SCRATCH".toList ++ List.replicate 23 0 ++ utf8 op.toList ++ List.replicate 27 0 ++ surPlain.drop 80

example : isOk (readSur (K := ℚ) demoText .utf8 (fun _ => .error .corrupted) ⟨surScratch "csm", 0⟩) = true := by decide +kernel

example (T : Units.Text) (inflate : Bytes → Except Err Bytes) (r : Raw ℚ) : readSur T .utf8 inflate ⟨surScratch "cms", 0⟩ ≠ .ok r := by
  intro h
  rcases (C67_sur_kinds h).2 with e | e | ⟨-, -, t, h1, h2⟩
  · exact absurd e (by decide +kernel)
  · exact absurd e (by decide +kernel)
  · have : decode .utf8 (((surScratch "cms").drop 50).take 30) = .ok ("cms".toList ++ List.replicate 27 (Char.ofNat 0)) := by decide +kernel
    rw [this] at h1
    cases h1
    exact absurd h2 (by decide +kernel)

/-- A compressed file whose one stream expands to the same points. -/
private def surPacked : Bytes := surHead "DSCOMPRESSED" 13 ++ packed [(4, [77])]

example : ∃ r : Raw ℚ, readSur demoText .utf8 (fun _ => .ok [5, 0, 0xfe, 0xff]) ⟨surPacked, 0⟩ = .ok r ∧
    SurSurface demoText .utf8 surPacked [5, 0, 0xfe, 0xff] r := by
  obtain ⟨r, hr⟩ : ∃ r : Raw ℚ, readSur demoText .utf8 (fun _ => .ok [5, 0, 0xfe, 0xff]) ⟨surPacked, 0⟩ = .ok r :=
    isOk_iff (by decide +kernel)
  refine ⟨r, hr, ?_⟩
  have := C67_sur_compressed (streams := [(4, [77])]) (parts := [[5, 0, 0xfe, 0xff]]) (rest := [])
    C56_faithful_exists hr (by unfold Compressed; decide +kernel) (by decide +kernel) (by decide)
    (by decide) (.cons ⟨rfl, rfl⟩ .nil)
  exact this

end Surfalize.Props
