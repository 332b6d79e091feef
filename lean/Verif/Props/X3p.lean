import Verif.Lemmas.ArrayAt
import Verif.Model.X3p
import Verif.Spec.Nms
import Verif.Spec.Zmg
/-!
# Properties of X3P files (C85)
-/
set_option linter.unusedSectionVars false
namespace Surfalize.Props
open Surfalize X3p FileArr LayoutM

variable {K Time : Type} [Field K] [LinearOrder K]

/-- The axis of an X3P document with this name. -/
def X3pAxis (root : Xml) (name : String) (c : Xml) : Prop :=
  ∃ r1 ax, Xml.find ["Record1".toList] root = some r1 ∧ Xml.find ["Axes".toList] r1 = some ax ∧
    Xml.find [name.toList] ax = some c

/-- The document of an X3P file: `main.xml`, whose MD5 sum is the first word of `md5checksum.hex`. -/
structure X3pDocument (E : Env K Time) (enc : Encoding) (buf : Bytes) (a : Archive) (root : Xml) : Prop where
  archive : E.archive buf = .ok a
  listed : "main.xml".toList ∈ a.names ∧ "md5checksum.hex".toList ∈ a.names
  checked : ∃ doc sum s pre w post, a.member "main.xml".toList = .ok doc ∧ E.xml doc = .ok root ∧
    a.member "md5checksum.hex".toList = .ok sum ∧ decode enc sum = .ok s ∧
    s = pre ++ w ++ post ∧ (∀ c ∈ pre, isSpace c = true) ∧ w ≠ [] ∧ (∀ c ∈ w, isSpace c = false) ∧
    (∀ c, post.head? = some c → isSpace c = true) ∧ E.md5 doc = w

/-- What the document says about the surface: type of the heights, numbers of columns and rows, distances in m, and
the data in the member it points to. -/
structure X3pFile (E : Env K Time) (a : Archive) (root : Xml) (type : List Char) (nx ny : Nat) (sx sy : K)
    (data : Bytes) : Prop where
  feature : ∃ r1, Xml.find ["Record1".toList] root = some r1 ∧
    Xml.findText ["FeatureType".toList] r1 = .ok (some "SUR".toList)
  type : ∃ c, X3pAxis root "CZ" c ∧ Xml.findText ["DataType".toList] c = .ok (some type)
  distX : ∃ c, X3pAxis root "CX" c ∧ Xml.findFloat E.float ["Increment".toList] c = .ok sx
  distY : ∃ c, X3pAxis root "CY" c ∧ Xml.findFloat E.float ["Increment".toList] c = .ok sy
  size : ∃ r3 m, Xml.find ["Record3".toList] root = some r3 ∧ Xml.find ["MatrixDimension".toList] r3 = some m ∧
    Xml.findInt ["SizeX".toList] m = .ok nx ∧ Xml.findInt ["SizeY".toList] m = .ok ny ∧
    Xml.findInt ["SizeZ".toList] m = .ok 1 ∧
    ∃ p, Xml.findText ["DataLink".toList, "PointDataLink".toList] r3 = .ok (some p) ∧ a.member p = .ok data

/-- Bytes of a height of each type. -/
def x3pWidth (t : List Char) : Nat := if t = "I".toList then 2 else if t = "D".toList then 8 else 4

/-- The number stored as item `k` of the data, in m: two types of unsigned integers, two of floating-point numbers. -/
def x3pStored (K : Type) [Field K] (t : List Char) (data : Bytes) (k : Nat) : FVal K :=
  if t = "I".toList then .fin (NmsSpec.uint data (2 * k) 2 : K)
  else if t = "L".toList then .fin (NmsSpec.uint data (4 * k) 4 : K)
  else if t = "F".toList then NmsSpec.single K data (4 * k)
  else NmsSpec.double K data (8 * k)

private theorem firstWord_ok {s w : List Char} (h : firstWord s = .ok w) :
    ∃ pre post, s = pre ++ w ++ post ∧ (∀ c ∈ pre, isSpace c = true) ∧ w ≠ [] ∧ (∀ c ∈ w, isSpace c = false) ∧
      ∀ c, post.head? = some c → isSpace c = true := by
  unfold firstWord at h
  split at h
  · cases h
  · rename_i hne
    have h := Except.ok.inj h
    refine ⟨s.takeWhile isSpace, (s.dropWhile isSpace).dropWhile fun c => !isSpace c, ?_, ?_, ?_, ?_, ?_⟩
    · rw [← h, List.append_assoc, List.takeWhile_append_dropWhile, List.takeWhile_append_dropWhile]
    · intro c hc
      exact List.all_eq_true.1 List.all_takeWhile c hc
    · rw [← h]; exact fun e => hne e
    · intro c hc
      rw [← h] at hc
      have := List.all_eq_true.1 List.all_takeWhile c hc
      simpa using this
    · intro c hc
      have h9 := List.head?_dropWhile_not (fun c => !isSpace c) (s.dropWhile isSpace)
      rw [hc] at h9
      simpa using h9

private theorem firstWord_eq {pre w post : List Char} (h1 : ∀ c ∈ pre, isSpace c = true) (h2 : w ≠ [])
    (h3 : ∀ c ∈ w, isSpace c = false) (h4 : ∀ c, post.head? = some c → isSpace c = true) :
    firstWord (pre ++ w ++ post) = .ok w := by
  have e1 : (pre ++ w ++ post).dropWhile isSpace = w ++ post := by
    rw [List.append_assoc, List.dropWhile_append_of_pos h1]
    cases w with
    | nil => exact absurd rfl h2
    | cons c w => rw [List.cons_append, List.dropWhile_cons_of_neg (by rw [h3 c (by simp)]; simp)]
  have e2 : (w ++ post).takeWhile (fun c => !isSpace c) = w := by
    rw [List.takeWhile_append_of_pos (fun c hc => by rw [h3 c hc]; rfl)]
    cases post with
    | nil => simp
    | cons c post => rw [List.takeWhile_cons_of_neg (by rw [h4 c rfl]; simp), List.append_nil]
  unfold firstWord
  rw [e1, e2]
  split
  · exact absurd rfl h2
  · rfl

private theorem document_ok {E : Env K Time} {enc : Encoding} {buf : Bytes} {a : Archive} {root : Xml}
    (ha : E.archive buf = .ok a) : document E enc a = .ok root ↔ X3pDocument E enc buf a root := by
  constructor
  · intro h
    unfold document at h
    split at h
    · cases h
    · rename_i n1
      split at h
      · cases h
      · rename_i n2
        rw [not_not] at n1 n2
        cases h1 : a.member checksumName with
        | error e => rw [h1] at h; cases h
        | ok sum =>
          rw [h1] at h
          dsimp only at h
          cases h2 : decode enc sum with
          | error e => rw [h2] at h; cases h
          | ok s =>
            rw [h2] at h
            dsimp only at h
            cases h3 : firstWord s with
            | error e => rw [h3] at h; cases h
            | ok w =>
              rw [h3] at h
              dsimp only at h
              cases h4 : a.member mainXml with
              | error e => rw [h4] at h; cases h
              | ok doc =>
                rw [h4] at h
                dsimp only at h
                split at h
                · cases h
                · rename_i h5
                  rw [not_not] at h5
                  obtain ⟨pre, post, f1, f2, f3, f4, f5⟩ := firstWord_ok h3
                  exact ⟨ha, ⟨n1, n2⟩, doc, sum, s, pre, w, post, h4, h, h1, h2, f1, f2, f3, f4, f5, h5⟩
  · rintro ⟨-, ⟨n1, n2⟩, doc, sum, s, pre, w, post, h4, h, h1, h2, rfl, f2, f3, f4, f5, h5⟩
    unfold document
    rw [if_neg (not_not.2 (show mainXml ∈ a.names from n1)), if_neg (not_not.2 (show checksumName ∈ a.names from n2)),
      show a.member checksumName = .ok sum from h1]
    dsimp only
    rw [h2]
    dsimp only
    rw [firstWord_eq f2 f3 f4 f5]
    dsimp only
    rw [show a.member mainXml = .ok doc from h4]
    dsimp only
    rw [if_neg (not_not.2 h5)]
    exact h

private theorem axis_ok {r1 c : Xml} {name : String} :
    axis r1 name = .ok c ↔ ∃ ax, Xml.find ["Axes".toList] r1 = some ax ∧ Xml.find [name.toList] ax = some c := by
  unfold axis
  cases h1 : Xml.find ["Axes".toList] r1 with
  | none => simp
  | some ax =>
    dsimp only
    cases h2 : Xml.find [name.toList] ax with
    | none =>
      refine ⟨(fun h => by cases h), ?_⟩
      rintro ⟨ax', e, e2⟩
      cases e
      rw [h2] at e2
      cases e2
    | some c' =>
      refine ⟨fun h => ⟨ax, rfl, by rw [h2]; exact congrArg some (Except.ok.inj h)⟩, ?_⟩
      rintro ⟨ax', e, e2⟩
      cases e
      rw [h2] at e2
      cases e2
      rfl

private theorem axes_ok {E : Env K Time} {r1 : Xml} {dt : Nat × (Bytes → Option K)} {sx sy : K} :
    axes E r1 = .ok (dt, sx, sy) ↔
      Xml.findText ["FeatureType".toList] r1 = .ok (some "SUR".toList) ∧
      (∃ c t, axis r1 "CZ" = .ok c ∧ Xml.findText ["DataType".toList] c = .ok t ∧ dtype K t = .ok dt) ∧
      (∃ c, axis r1 "CX" = .ok c ∧ Xml.findFloat E.float ["Increment".toList] c = .ok sx) ∧
      ∃ c, axis r1 "CY" = .ok c ∧ Xml.findFloat E.float ["Increment".toList] c = .ok sy := by
  constructor
  · intro h
    unfold axes at h
    cases h1 : Xml.findText ["FeatureType".toList] r1 with
    | error e => rw [h1] at h; cases h
    | ok f =>
      rw [h1] at h
      dsimp only at h
      split at h
      · cases h
      · rename_i hf
        rw [not_not] at hf
        cases h2 : axis r1 "CZ" with
        | error e => rw [h2] at h; cases h
        | ok cz =>
          rw [h2] at h
          dsimp only at h
          cases h3 : Xml.findText ["DataType".toList] cz with
          | error e => rw [h3] at h; cases h
          | ok t =>
            rw [h3] at h
            dsimp only at h
            cases h4 : dtype K t with
            | error e => rw [h4] at h; cases h
            | ok dt' =>
              rw [h4] at h
              dsimp only at h
              cases h5 : axis r1 "CX" with
              | error e => rw [h5] at h; cases h
              | ok cx =>
                rw [h5] at h
                dsimp only at h
                cases h6 : Xml.findFloat E.float ["Increment".toList] cx with
                | error e => rw [h6] at h; cases h
                | ok sx' =>
                  rw [h6] at h
                  dsimp only at h
                  cases h7 : axis r1 "CY" with
                  | error e => rw [h7] at h; cases h
                  | ok cy =>
                    rw [h7] at h
                    dsimp only at h
                    cases h8 : Xml.findFloat E.float ["Increment".toList] cy with
                    | error e => rw [h8] at h; cases h
                    | ok sy' =>
                      rw [h8] at h
                      cases h
                      exact ⟨by rw [hf], ⟨cz, t, rfl, h3, h4⟩, ⟨cx, rfl, h6⟩, cy, rfl, h8⟩
  · rintro ⟨h1, ⟨cz, t, h2, h3, h4⟩, ⟨cx, h5, h6⟩, cy, h7, h8⟩
    unfold axes
    rw [h1]
    dsimp only
    rw [if_neg (not_not.2 rfl), h2]
    dsimp only
    rw [h3]
    dsimp only
    rw [h4]
    dsimp only
    rw [h5]
    dsimp only
    rw [h6]
    dsimp only
    rw [h7]
    dsimp only
    rw [h8]

private theorem matrix_ok {r3 : Xml} {nx ny : Int} {p : List Char} :
    matrix r3 = .ok (nx, ny, p) ↔ ∃ m, Xml.find ["MatrixDimension".toList] r3 = some m ∧
      Xml.findInt ["SizeX".toList] m = .ok nx ∧ Xml.findInt ["SizeY".toList] m = .ok ny ∧
      Xml.findInt ["SizeZ".toList] m = .ok 1 ∧
      Xml.findText ["DataLink".toList, "PointDataLink".toList] r3 = .ok (some p) := by
  unfold matrix
  cases h1 : Xml.find ["MatrixDimension".toList] r3 with
  | none => simp
  | some m =>
    dsimp only
    constructor
    · intro h
      cases h2 : Xml.findInt ["SizeX".toList] m with
      | error e => rw [h2] at h; cases h
      | ok x =>
        rw [h2] at h
        dsimp only at h
        cases h3 : Xml.findInt ["SizeY".toList] m with
        | error e => rw [h3] at h; cases h
        | ok y =>
          rw [h3] at h
          dsimp only at h
          cases h4 : Xml.findInt ["SizeZ".toList] m with
          | error e => rw [h4] at h; cases h
          | ok z =>
            rw [h4] at h
            dsimp only at h
            split at h
            · cases h
            · rename_i hz
              rw [not_not] at hz
              cases h5 : Xml.findText ["DataLink".toList, "PointDataLink".toList] r3 with
              | error e => rw [h5] at h; cases h
              | ok o =>
                cases o with
                | none => rw [h5] at h; cases h
                | some q =>
                  rw [h5] at h
                  cases h
                  exact ⟨m, rfl, h2, h3, by rw [h4, hz], rfl⟩
    · rintro ⟨m', e, h2, h3, h4, h5⟩
      cases e
      rw [h2]
      dsimp only
      rw [h3]
      dsimp only
      rw [h4]
      dsimp only
      rw [if_neg (by decide), h5]

private theorem dtype_ok {t : Option (List Char)} {dt : Nat × (Bytes → Option K)} (h : dtype K t = .ok dt) :
    ∃ u, t = some u ∧ u ∈ ["I".toList, "L".toList, "F".toList, "D".toList] ∧ dt.1 = x3pWidth u ∧
      ∀ (data : Bytes) (k : Nat), dt.2 ((data.drop (k * dt.1)).take dt.1) = toOpt (x3pStored K u data k) := by
  unfold dtype at h
  split at h
  · rename_i ht
    cases h
    refine ⟨_, ht, by simp, rfl, fun data k => ?_⟩
    rw [Nat.mul_comm]
    simp [x3pStored, toOpt, bytesInt, bytesNat, NmsSpec.uint]
  · split at h
    · rename_i ht
      cases h
      refine ⟨_, ht, by simp, rfl, fun data k => ?_⟩
      rw [Nat.mul_comm]
      simp [x3pStored, toOpt, bytesInt, bytesNat, NmsSpec.uint]
    · split at h
      · rename_i ht
        cases h
        refine ⟨_, ht, by simp, rfl, fun data k => ?_⟩
        rw [Nat.mul_comm]
        simp [x3pStored, decFloat, bytesNat, NmsSpec.single, Fmt.ff]
      · split at h
        · rename_i ht
          cases h
          refine ⟨_, ht, by simp, rfl, fun data k => ?_⟩
          rw [Nat.mul_comm]
          simp [x3pStored, decFloat, bytesNat, NmsSpec.double, Fmt.ff]
        · cases h

private theorem dtype_exists {u : List Char} (h : u ∈ ["I".toList, "L".toList, "F".toList, "D".toList]) :
    ∃ dt, dtype K (some u) = .ok dt := by
  simp only [List.mem_cons, List.not_mem_nil, or_false] at h
  rcases h with rfl | rfl | rfl | rfl <;> exact ⟨_, rfl⟩

/-- What a successful read went through. -/
private theorem x3p_spec {E : Env K Time} {enc : Encoding} {buf : Bytes} {r : Raw K}
    {m : List Char → Option (Value Time)} (h : readX3p E enc ⟨buf, 0⟩ = .ok (r, m)) :
    ∃ (a : Archive) (root : Xml) (t : List Char) (nx ny : Nat) (sx sy : K) (data : Bytes)
      (dt : Nat × (Bytes → Option K)) (l : List (Option K)) (g : Grid (Option K)),
      X3pDocument E enc buf a root ∧ X3pFile E a root t nx ny sx sy data ∧ dtype K (some t) = .ok dt ∧
      fromBuffer dt.1 dt.2 data = .ok l ∧ reshape l (ny : Int) (nx : Int) = .ok g ∧
      r = ⟨Container.map (fun z : Option K => z.map (· * factor K)) g, sx * factor K, sy * factor K⟩ ∧
      metadata E (Xml.find ["Record2".toList] root) = .ok m := by
  unfold readX3p at h
  cases h1 : E.archive buf with
  | error e => rw [h1] at h; cases h
  | ok a =>
    rw [h1] at h
    dsimp only at h
    cases h2 : document E enc a with
    | error e => rw [h2] at h; cases h
    | ok root =>
      rw [h2] at h
      dsimp only at h
      have hdoc := (document_ok h1).1 h2
      cases h3 : Xml.find ["Record1".toList] root with
      | none => rw [h3] at h; cases h
      | some r1 =>
        cases h4 : Xml.find ["Record3".toList] root with
        | none => rw [h3, h4] at h; cases h
        | some r3 =>
          rw [h3, h4] at h
          dsimp only at h
          cases h5 : axes E r1 with
          | error e => rw [h5] at h; cases h
          | ok q =>
            obtain ⟨dt, sx, sy⟩ := q
            rw [h5] at h
            dsimp only at h
            cases h6 : matrix r3 with
            | error e => rw [h6] at h; cases h
            | ok q =>
              obtain ⟨nx, ny, p⟩ := q
              rw [h6] at h
              dsimp only at h
              cases h7 : a.member p with
              | error e => rw [h7] at h; cases h
              | ok data =>
                rw [h7] at h
                dsimp only at h
                cases h8 : fromBuffer dt.1 dt.2 data with
                | error e => rw [h8] at h; cases h
                | ok l =>
                  rw [h8] at h
                  dsimp only at h
                  cases h9 : reshape l ny nx with
                  | error e => rw [h9] at h; cases h
                  | ok g =>
                    rw [h9] at h
                    dsimp only at h
                    cases h10 : metadata E (Xml.find ["Record2".toList] root) with
                    | error e => rw [h10] at h; cases h
                    | ok m' =>
                      rw [h10] at h
                      cases h
                      have hnn : 0 ≤ ny ∧ 0 ≤ nx := by
                        unfold reshape at h9
                        split at h9
                        · rename_i hh; exact ⟨hh.1, hh.2.1⟩
                        · cases h9
                      obtain ⟨ny, rfl⟩ := Int.eq_ofNat_of_zero_le hnn.1
                      obtain ⟨nx, rfl⟩ := Int.eq_ofNat_of_zero_le hnn.2
                      obtain ⟨f, ⟨cz, t, z1, z2, z3⟩, ⟨cx, x1, x2⟩, cy, y1, y2⟩ := axes_ok.1 h5
                      obtain ⟨m, m1, m2, m3, m4, m5⟩ := matrix_ok.1 h6
                      obtain ⟨u, rfl, -⟩ := dtype_ok z3
                      obtain ⟨az, z1, z1'⟩ := axis_ok.1 z1
                      obtain ⟨ax, x1, x1'⟩ := axis_ok.1 x1
                      obtain ⟨ay, y1, y1'⟩ := axis_ok.1 y1
                      exact ⟨a, root, u, nx, ny, sx, sy, data, dt, l, g, hdoc,
                        ⟨⟨r1, h3, f⟩, ⟨cz, ⟨r1, az, h3, z1, z1'⟩, z2⟩, ⟨cx, ⟨r1, ax, h3, x1, x1'⟩, x2⟩,
                          ⟨cy, ⟨r1, ay, h3, y1, y1'⟩, y2⟩, r3, m, h4, m1, m2, m3, m4, p, m5, h7⟩, z3, h8, h9, rfl, h10⟩

/-- **C85** (partial). An X3P file that is read has a document with a matching checksum, and gives the surface the
document describes: columns, rows and distances, and at every point the number stored in the data, all in µm, missing
exactly where that is not a finite number. Missing from the full property: heights stored as integers are taken as
unsigned numbers of metres, without sign, increment and offset of the vertical axis (see `C85_x3p_violated`). -/
theorem C85_x3p_partial {E : Env K Time} {enc : Encoding} {buf : Bytes} {r : Raw K}
    {m : List Char → Option (Value Time)} (h : readX3p E enc ⟨buf, 0⟩ = .ok (r, m)) :
    ∃ (a : Archive) (root : Xml) (t : List Char) (sx sy : K) (data : Bytes),
      X3pDocument E enc buf a root ∧ X3pFile E a root t r.data.nx r.data.ny sx sy data ∧
      t ∈ ["I".toList, "L".toList, "F".toList, "D".toList] ∧
      r.stepX = sx * 1000000 ∧ r.stepY = sy * 1000000 ∧ r.data.WF ∧
      data.length = x3pWidth t * (r.data.ny * r.data.nx) ∧
      ∀ y x, y < r.data.ny → x < r.data.nx →
        (∀ z, x3pStored K t data (y * r.data.nx + x) = .fin z → r.data.get y x = some (z * 1000000)) ∧
        ((∀ z, x3pStored K t data (y * r.data.nx + x) ≠ .fin z) → r.data.get y x = none) := by
  obtain ⟨a, root, t, nx, ny, sx, sy, data, dt, l, g, h1, h2, h3, h4, h5, rfl, -⟩ := x3p_spec h
  have hfac : factor K = 1000000 := by unfold factor; norm_num
  obtain ⟨u, hu, u1, u2, u3⟩ := dtype_ok h3
  cases hu
  obtain ⟨b1, b2, b3⟩ := fromBuffer_get h4
  obtain ⟨g1, g2, g3, g4, g5⟩ := reshape_get h5
  rw [Int.toNat_natCast] at g2 g3
  have hw : 0 < dt.1 := by rw [u2]; unfold x3pWidth; split <;> [decide; (split <;> decide)]
  dsimp only
  have e1 : (Container.map (fun z : Option K => z.map (· * factor K)) g : Grid (Option K)).nx = nx := by
    rw [← g3]; exact map_nx _ g
  have e2 : (Container.map (fun z : Option K => z.map (· * factor K)) g : Grid (Option K)).ny = ny := by
    rw [← g2]; exact map_ny _ g
  rw [e1, e2]
  refine ⟨a, root, t, sx, sy, data, h1, h2, u1, by rw [hfac], by rw [hfac], map_wf _ g1, ?_, fun y x hy hx => ?_⟩
  · rw [g2, g3] at g4
    have := Nat.div_mul_cancel (Nat.dvd_of_mod_eq_zero b1)
    rw [← u2, ← g4, b2, Nat.mul_comm, this]
  · rw [g2, g3] at g4
    rw [g2, g3] at g5
    have hk : y * nx + x + 1 ≤ ny * nx := by
      calc y * nx + x + 1 ≤ y * nx + nx := by omega
        _ = (y + 1) * nx := by ring
        _ ≤ ny * nx := Nat.mul_le_mul_right _ hy
    have e : Grid.get (Container.map (fun z : Option K => z.map (· * factor K)) g) y x =
        (toOpt (x3pStored K t data (y * nx + x))).map (· * 1000000) := by
      rw [show Grid.get (Container.map (fun z : Option K => z.map (· * factor K)) g) y x =
        (g.get y x).map (· * factor K) from get_map (· * factor K) g y x]
      unfold Grid.get
      rw [g5 y x hy hx, b3 _ (by rw [← b2]; omega), Option.getD_some, u3, hfac]
    rw [e]
    refine ⟨fun z hz => by rw [hz]; rfl, fun hz => ?_⟩
    cases hv : x3pStored K t data (y * nx + x) with
    | fin z => exact absurd hv (hz z)
    | inf b => rfl
    | nan => rfl

/-- Every file with a valid document, one of the four types and as many data as points is read, if the dates in the
general information (if there are any) can be parsed. -/
theorem C85_x3p_reads {E : Env K Time} {enc : Encoding} {buf : Bytes} {a : Archive} {root : Xml} {t : List Char}
    {nx ny : Nat} {sx sy : K} {data : Bytes} (h1 : X3pDocument E enc buf a root)
    (h2 : X3pFile E a root t nx ny sx sy data) (ht : t ∈ ["I".toList, "L".toList, "F".toList, "D".toList])
    (hl : data.length = x3pWidth t * (ny * nx)) (hd : ∀ s, ∃ d, E.date s = .ok d) :
    ∃ (r : Raw K) (m : List Char → Option (Value Time)), readX3p E enc ⟨buf, 0⟩ = .ok (r, m) := by
  obtain ⟨dt, hdt⟩ := dtype_exists (K := K) ht
  obtain ⟨r1, r1f, hfeat⟩ := h2.feature
  obtain ⟨cz, ⟨r1a, az, z0, z1, z1'⟩, z2⟩ := h2.type
  obtain ⟨cx, ⟨r1b, ax, x0, x1, x1'⟩, x2⟩ := h2.distX
  obtain ⟨cy, ⟨r1c, ay, y0, y1, y1'⟩, y2⟩ := h2.distY
  rw [r1f] at z0 x0 y0
  cases z0
  cases x0
  cases y0
  obtain ⟨r3, mm, r3f, m1, m2, m3, m4, p, m5, m6⟩ := h2.size
  have hax := axes_ok.2 ⟨hfeat, ⟨cz, _, axis_ok.2 ⟨az, z1, z1'⟩, z2, hdt⟩, ⟨cx, axis_ok.2 ⟨ax, x1, x1'⟩, x2⟩, cy,
    axis_ok.2 ⟨ay, y1, y1'⟩, y2⟩
  have hma := matrix_ok.2 ⟨mm, m1, m2, m3, m4, m5⟩
  obtain ⟨u, hu, -, u2, -⟩ := dtype_ok hdt
  cases hu
  have hw : 0 < dt.1 := by rw [u2]; unfold x3pWidth; split <;> [decide; (split <;> decide)]
  have hfb : ∃ l, fromBuffer dt.1 dt.2 data = .ok l := by
    unfold fromBuffer
    rw [if_pos (by rw [hl, u2]; exact Nat.mul_mod_right _ _)]
    exact ⟨_, rfl⟩
  obtain ⟨l, hfb⟩ := hfb
  have hll : l.length = ny * nx := by
    rw [(fromBuffer_get hfb).2.1, hl, ← u2, Nat.mul_div_cancel_left _ hw]
  have hrs : ∃ g, reshape l (ny : Int) (nx : Int) = .ok g := by
    unfold reshape
    rw [if_pos ⟨by omega, by omega, by rw [hll]; push_cast; ring⟩]
    exact ⟨_, rfl⟩
  obtain ⟨g, hrs⟩ := hrs
  have hpe : ∀ k (m : List Char → Option (Value Time)), ∃ m', parseEntry E k m = .ok m' := by
    intro k m
    unfold parseEntry
    split
    · rename_i s _
      obtain ⟨d, hd⟩ := hd s
      rw [hd]
      exact ⟨_, rfl⟩
    · exact ⟨_, rfl⟩
  have hme : ∃ m, metadata E (Xml.find ["Record2".toList] root) = .ok m := by
    cases hr2 : Xml.find ["Record2".toList] root with
    | none => exact ⟨_, rfl⟩
    | some r2 =>
      unfold metadata
      obtain ⟨m, hm⟩ := hpe "Date".toList fun k => (X3p.flat [] (fun _ => none) r2 k).map .text
      dsimp only
      rw [hm]
      exact hpe _ m
  obtain ⟨m, hme⟩ := hme
  unfold readX3p
  rw [h1.archive]
  dsimp only
  rw [(document_ok h1.archive).2 h1]
  dsimp only
  rw [r1f, r3f]
  dsimp only
  rw [hax]
  dsimp only
  rw [hma]
  dsimp only
  rw [m6]
  dsimp only
  rw [hfb]
  dsimp only
  rw [hrs]
  dsimp only
  rw [hme]
  exact ⟨_, _, rfl⟩

/-- **C85**, integrity: a document whose MD5 sum is not the first word of the stored checksum is refused as corrupted,
before it is parsed. -/
theorem C85_x3p_checksum {E : Env K Time} {enc : Encoding} {buf : Bytes} {a : Archive} (ha : E.archive buf = .ok a)
    (hn : "main.xml".toList ∈ a.names ∧ "md5checksum.hex".toList ∈ a.names) {doc sum : Bytes}
    {s pre w post : List Char} (h1 : a.member "main.xml".toList = .ok doc)
    (h2 : a.member "md5checksum.hex".toList = .ok sum) (h3 : decode enc sum = .ok s) (h4 : s = pre ++ w ++ post)
    (h5 : ∀ c ∈ pre, isSpace c = true) (h6 : w ≠ []) (h7 : ∀ c ∈ w, isSpace c = false)
    (h8 : ∀ c, post.head? = some c → isSpace c = true) (hne : E.md5 doc ≠ w) :
    readX3p E enc ⟨buf, 0⟩ = .error .corrupted := by
  have hd : document E enc a = .error .corrupted := by
    unfold document
    rw [if_neg (not_not.2 (show mainXml ∈ a.names from hn.1)),
      if_neg (not_not.2 (show checksumName ∈ a.names from hn.2)), show a.member checksumName = .ok sum from h2]
    dsimp only
    rw [h3]
    dsimp only
    rw [h4, firstWord_eq h5 h6 h7 h8]
    dsimp only
    rw [show a.member mainXml = .ok doc from h1]
    dsimp only
    rw [if_pos hne]
  unfold readX3p
  rw [ha]
  dsimp only
  rw [hd]

/-- An archive without document or checksum is refused as corrupted. -/
theorem C85_x3p_members {E : Env K Time} {enc : Encoding} {buf : Bytes} {a : Archive} (ha : E.archive buf = .ok a)
    (hn : ¬ ("main.xml".toList ∈ a.names ∧ "md5checksum.hex".toList ∈ a.names)) :
    readX3p E enc ⟨buf, 0⟩ = .error .corrupted := by
  have hd : document E enc a = .error .corrupted := by
    unfold document
    by_cases h : "main.xml".toList ∈ a.names
    · rw [if_neg (not_not.2 (show mainXml ∈ a.names from h)), if_pos (show checksumName ∉ a.names from fun h' => hn ⟨h, h'⟩)]
    · rw [if_pos (show mainXml ∉ a.names from h)]
  unfold readX3p
  rw [ha]
  dsimp only
  rw [hd]

/-! ## The general information -/

/-- A text of the general information: the joined tags on the way to an element, and the element's text without
surrounding white space, which is not empty. -/
def X3pText (record2 : Xml) (k v : List Char) : Prop :=
  ∃ ts e s, e ∈ Xml.findall ts record2 ∧ ts.flatten = k ∧ e.text = some s ∧ strip s = v ∧ v ≠ []

mutual
private theorem flat_mono (key : List Char) (d : List Char → Option (List Char)) (k : List Char) (h : (d k).isSome) :
    ∀ e : Xml, (X3p.flat key d e k).isSome
  | .element t x cs => by
    unfold X3p.flat
    apply flatAll_mono key
    split
    · split
      · exact h
      · beta_reduce
        split
        · rfl
        · exact h
    · exact h
private theorem flatAll_mono (key : List Char) (d : List Char → Option (List Char)) (k : List Char)
    (h : (d k).isSome) : ∀ es : List Xml, (flatAll key d es k).isSome
  | [] => h
  | .element t x cs :: es => by
    unfold flatAll
    exact flatAll_mono key _ k (flat_mono (key ++ t) d k h (.element t x cs)) es
end

mutual
private theorem flat_sound (key : List Char) (d : List Char → Option (List Char)) (k v : List Char) :
    ∀ e : Xml, X3p.flat key d e k = some v → d k = some v ∨ ∃ ts e' s, e' ∈ Xml.findall ts e ∧
      key ++ ts.flatten = k ∧ e'.text = some s ∧ strip s = v ∧ v ≠ []
  | .element t x cs => by
    intro h
    unfold X3p.flat at h
    rcases flatAll_sound key _ k v cs h with h1 | ⟨c, hc, ts, e', s, a1, a2, a3, a4, a5⟩
    · cases x with
      | none => exact .inl h1
      | some s =>
        dsimp only at h1
        split at h1
        · exact .inl h1
        · rename_i hs
          beta_reduce at h1
          split at h1
          · rename_i hk
            cases h1
            exact .inr ⟨[], .element t (some s) cs, s, by simp [Xml.findall], by simp [hk], rfl, rfl, hs⟩
          · exact .inl h1
    · refine .inr ⟨c.tag :: ts, e', s, ?_, by rw [List.flatten_cons, ← List.append_assoc]; exact a2, a3, a4, a5⟩
      simp only [Xml.findall, List.mem_flatMap, List.mem_filter, decide_eq_true_eq]
      exact ⟨c, ⟨hc, rfl⟩, a1⟩
private theorem flatAll_sound (key : List Char) (d : List Char → Option (List Char)) (k v : List Char) :
    ∀ es : List Xml, flatAll key d es k = some v → d k = some v ∨ ∃ c ∈ es, ∃ ts e' s, e' ∈ Xml.findall ts c ∧
      key ++ c.tag ++ ts.flatten = k ∧ e'.text = some s ∧ strip s = v ∧ v ≠ []
  | [] => fun h => .inl h
  | .element t x cs :: es => by
    intro h
    unfold flatAll at h
    rcases flatAll_sound key _ k v es h with h1 | ⟨c, hc, h2⟩
    · rcases flat_sound (key ++ t) d k v (.element t x cs) h1 with h3 | h3
      · exact .inl h3
      · exact .inr ⟨.element t x cs, by simp, h3⟩
    · exact .inr ⟨c, by simp [hc], h2⟩
end

mutual
private theorem flat_complete (key : List Char) (d : List Char → Option (List Char)) :
    ∀ e : Xml, ∀ ts e' s, e' ∈ Xml.findall ts e → e'.text = some s → strip s ≠ [] →
      (X3p.flat key d e (key ++ ts.flatten)).isSome
  | .element t x cs => by
    intro ts e' s h1 h2 h3
    unfold X3p.flat
    cases ts with
    | nil =>
      simp only [Xml.findall, List.mem_singleton] at h1
      subst h1
      simp only [Xml.text] at h2
      subst h2
      dsimp only
      rw [if_neg h3]
      apply flatAll_mono
      simp
    | cons u ts =>
      simp only [Xml.findall, List.mem_flatMap, List.mem_filter, decide_eq_true_eq] at h1
      obtain ⟨c, ⟨hc, hu⟩, h1⟩ := h1
      rw [List.flatten_cons, ← List.append_assoc, ← hu]
      exact flatAll_complete key _ cs c hc ts e' s h1 h2 h3
private theorem flatAll_complete (key : List Char) (d : List Char → Option (List Char)) :
    ∀ es : List Xml, ∀ c ∈ es, ∀ ts e' s, e' ∈ Xml.findall ts c → e'.text = some s → strip s ≠ [] →
      (flatAll key d es (key ++ c.tag ++ ts.flatten)).isSome
  | [] => by intro c hc; cases hc
  | .element t x cs :: es => by
    intro c hc ts e' s h1 h2 h3
    unfold flatAll
    rcases List.mem_cons.1 hc with rfl | hc
    · apply flatAll_mono
      exact flat_complete (key ++ t) d (.element t x cs) ts e' s h1 h2 h3
    · exact flatAll_complete key _ es c hc ts e' s h1 h2 h3
end

private theorem parseEntry_ok {E : Env K Time} {key : List Char} {m m' : List Char → Option (Value Time)}
    (h : parseEntry E key m = .ok m') : (∀ k, k ≠ key → m' k = m k) ∧
      (∀ s, m key = some (.text s) → ∃ t, E.date s = .ok t ∧ m' key = some (.time t)) ∧
      (m key = none → m' key = none) := by
  unfold parseEntry at h
  split at h
  · rename_i s hs
    cases hd : E.date s with
    | error e => rw [hd] at h; cases h
    | ok t =>
      rw [hd] at h
      cases h
      refine ⟨fun k hk => if_neg hk, fun s' h' => ?_, fun h' => by rw [hs] at h'; cases h'⟩
      rw [hs] at h'
      cases h'
      exact ⟨t, hd, if_pos rfl⟩
  · rename_i hn
    cases h
    exact ⟨fun _ _ => rfl, fun s h' => absurd h' (hn s), fun h' => h'⟩

/-- **C85**, metadata: every text of the general information is there under the joined tags, and every entry is such a
text; the two dates are parsed. -/
theorem C85_x3p_metadata {E : Env K Time} {enc : Encoding} {buf : Bytes} {r : Raw K}
    {m : List Char → Option (Value Time)} (h : readX3p E enc ⟨buf, 0⟩ = .ok (r, m)) :
    ∃ (a : Archive) (root : Xml), X3pDocument E enc buf a root ∧
      ((Xml.find ["Record2".toList] root = none ∧ ∀ k, m k = none) ∨
        ∃ r2, Xml.find ["Record2".toList] root = some r2 ∧ ∀ k,
          (∀ v, X3pText r2 k v → (m k).isSome) ∧
          ∀ x, m k = some x →
            ((k ≠ "Date".toList ∧ k ≠ "CalibrationDate".toList) ∧ ∃ v, x = .text v ∧ X3pText r2 k v) ∨
            ((k = "Date".toList ∨ k = "CalibrationDate".toList) ∧ ∃ v t, x = .time t ∧ X3pText r2 k v ∧
              E.date v = .ok t)) := by
  obtain ⟨a, root, t, nx, ny, sx, sy, data, dt, l, g, h1, -, -, -, -, -, h2⟩ := x3p_spec h
  refine ⟨a, root, h1, ?_⟩
  cases hr : Xml.find ["Record2".toList] root with
  | none =>
    rw [hr] at h2
    cases h2
    exact .inl ⟨rfl, fun _ => rfl⟩
  | some r2 =>
    refine .inr ⟨r2, rfl, fun k => ?_⟩
    rw [hr] at h2
    unfold metadata at h2
    dsimp only at h2
    cases h3 : parseEntry E "Date".toList fun k => (X3p.flat [] (fun _ => none) r2 k).map .text with
    | error e => rw [h3] at h2; cases h2
    | ok m1 =>
      rw [h3] at h2
      dsimp only at h2
      obtain ⟨p1, p2, p3⟩ := parseEntry_ok h3
      obtain ⟨q1, q2, q3⟩ := parseEntry_ok h2
      have hne : "Date".toList ≠ "CalibrationDate".toList := by decide
      -- the entry before and after parsing
      have key : (∃ v, X3p.flat [] (fun _ => none) r2 k = some v ∧
          ((k ≠ "Date".toList ∧ k ≠ "CalibrationDate".toList ∧ m k = some (.text v)) ∨
          ((k = "Date".toList ∨ k = "CalibrationDate".toList) ∧ ∃ t, E.date v = .ok t ∧ m k = some (.time t)))) ∨
          (X3p.flat [] (fun _ => none) r2 k = none ∧ m k = none) := by
        cases hf : X3p.flat [] (fun _ => none) r2 k with
        | none =>
          right
          refine ⟨rfl, ?_⟩
          have : m1 k = none := by
            by_cases hk : k = "Date".toList
            · subst hk; exact p3 (by rw [hf]; rfl)
            · rw [p1 k hk, hf]; rfl
          by_cases hk : k = "CalibrationDate".toList
          · subst hk; exact q3 this
          · rw [q1 k hk]; exact this
        | some v =>
          left
          refine ⟨v, rfl, ?_⟩
          by_cases hk : k = "Date".toList
          · subst hk
            obtain ⟨t, t1, t2⟩ := p2 v (by rw [hf]; rfl)
            exact .inr ⟨.inl rfl, t, t1, by rw [q1 _ hne]; exact t2⟩
          · have hm1 : m1 k = some (.text v) := by rw [p1 k hk, hf]; rfl
            by_cases hk2 : k = "CalibrationDate".toList
            · subst hk2
              obtain ⟨t, t1, t2⟩ := q2 v hm1
              exact .inr ⟨.inr rfl, t, t1, t2⟩
            · exact .inl ⟨hk, hk2, by rw [q1 k hk2]; exact hm1⟩
      have sound : ∀ v, X3p.flat [] (fun _ => none) r2 k = some v → X3pText r2 k v := by
        intro v hv
        rcases flat_sound [] (fun _ => none) k v r2 hv with h9 | ⟨ts, e, s, b1, b2, b3, b4, b5⟩
        · cases h9
        · exact ⟨ts, e, s, b1, b2, b3, b4, b5⟩
      constructor
      · rintro v ⟨ts, e, s, b1, rfl, b3, b4, b5⟩
        have := flat_complete [] (fun _ => none) r2 ts e s b1 b3 (by rw [b4]; exact b5)
        rw [List.nil_append] at this
        rcases key with ⟨v', -, ⟨-, -, h9⟩ | ⟨-, t, -, h9⟩⟩ | ⟨h9, -⟩
        · rw [h9]; rfl
        · rw [h9]; rfl
        · rw [h9] at this; cases this
      · intro x hx
        rcases key with ⟨v', e1, ⟨n1, n2, h9⟩ | ⟨n1, t, e2, h9⟩⟩ | ⟨-, h9⟩
        · rw [h9] at hx
          cases hx
          exact .inl ⟨⟨n1, n2⟩, v', rfl, sound v' e1⟩
        · rw [h9] at hx
          cases hx
          exact .inr ⟨n1, v', t, rfl, sound v' e1, e2⟩
        · rw [h9] at hx; cases hx

/-! ## An example -/

private def leafX (t s : String) : Xml := .element t.toList (some s.toList) []

/-- A document with two points whose heights are stored as type `t`, with an increment of 1 nm. -/
private def x3pRoot (t : String) : Xml :=
  .element "ISO5436_2".toList none
    [.element "Record1".toList none [leafX "FeatureType" "SUR",
      .element "Axes".toList none
        [.element "CX".toList none [leafX "Increment" "0.000001"],
         .element "CY".toList none [leafX "Increment" "0.000001"],
         .element "CZ".toList none [leafX "DataType" t, leafX "Increment" "0.000000001"]]],
     .element "Record2".toList none [leafX "Date" "today", .element "Instrument".toList none [leafX "Model" " S neox "]],
     .element "Record3".toList none
      [.element "MatrixDimension".toList none [leafX "SizeX" "2", leafX "SizeY" "1", leafX "SizeZ" "1"],
       .element "DataLink".toList none [leafX "PointDataLink" "bindata/data.bin"]]]

private def x3pEnv (t : String) (data : Bytes) : Env ℚ Unit where
  archive _ := .ok ⟨["main.xml".toList, "md5checksum.hex".toList, "bindata/data.bin".toList],
    fun n => if n = "main.xml".toList then .ok [60]
      else if n = "md5checksum.hex".toList then .ok (utf8 "d41d8c *main.xml".toList)
      else if n = "bindata/data.bin".toList then .ok data else .error .keyError⟩
  md5 _ := "d41d8c".toList
  xml _ := .ok (x3pRoot t)
  date _ := .ok ()
  float := ⟨fun _ => [], fun s => .ok (.fin (if s.length = 8 then 1 / 1000000 else 1 / 1000000000))⟩

private theorem x3p_run {t : String} {data : Bytes} {p : Raw ℚ → (List Char → Option (Value Unit)) → Bool}
    (h : (match readX3p (x3pEnv t data) .utf8 ⟨[], 0⟩ with | .ok (r, m) => p r m | .error _ => false) = true) :
    ∃ r m, readX3p (x3pEnv t data) .utf8 ⟨[], 0⟩ = .ok (r, m) ∧ p r m = true := by
  revert h
  cases hr : readX3p (x3pEnv t data) .utf8 ⟨[], 0⟩ with
  | error e => exact fun h => by cases h
  | ok q =>
    obtain ⟨r, m⟩ := q
    exact fun h => ⟨r, m, rfl, h⟩

set_option maxRecDepth 20000 in
example : ∃ r m, readX3p (x3pEnv "F" [0, 0, 0x80, 0x3f, 0, 0, 0xc0, 0x7f]) .utf8 ⟨[], 0⟩ = .ok (r, m) ∧
    r.data.get 0 0 = some 1000000 ∧ r.data.get 0 1 = none ∧ r.stepX = 1 := by
  obtain ⟨r, m, h, hp⟩ := x3p_run (t := "F") (data := [0, 0, 0x80, 0x3f, 0, 0, 0xc0, 0x7f])
    (p := fun r _ => decide (r.data.get 0 0 = some 1000000 ∧ r.data.get 0 1 = none ∧ r.stepX = 1)) (by decide +kernel)
  exact ⟨r, m, h, of_decide_eq_true hp⟩

/-- The height in µm of a point stored as an integer: increment of the vertical axis times the signed number. -/
def x3pInteger (K : Type) [Field K] (increment : K) (data : Bytes) (k : Nat) : K :=
  increment * (NmsSpec.sint data (2 * k) 2 : K) * 1000000

set_option maxRecDepth 20000 in
/-- **C85** fails for heights stored as integers: in a file with heights of 5 and -1 nm (16-bit numbers 5 and -1,
increment 1 nm) the surface has heights of 5 m and 65.535 km. -/
theorem C85_x3p_violated :
    ∃ (E : Env ℚ Unit) (a : Archive) (root cz : Xml) (data : Bytes) (r : Raw ℚ) (m : List Char → Option (Value Unit)),
      readX3p E .utf8 ⟨[], 0⟩ = .ok (r, m) ∧ E.archive [] = .ok a ∧
      X3pFile E a root "I".toList 2 1 (1 / 1000000) (1 / 1000000) data ∧ X3pAxis root "CZ" cz ∧
      Xml.findFloat E.float ["Increment".toList] cz = .ok (1 / 1000000000) ∧
      x3pInteger ℚ (1 / 1000000000) data 0 = 5 / 1000 ∧ x3pInteger ℚ (1 / 1000000000) data 1 = -1 / 1000 ∧
      r.data.get 0 0 = some 5000000 ∧ r.data.get 0 1 = some 65535000000 := by
  obtain ⟨r, m, h, hp⟩ := x3p_run (t := "I") (data := [5, 0, 0xff, 0xff])
    (p := fun r _ => decide (r.data.get 0 0 = some 5000000 ∧ r.data.get 0 1 = some 65535000000)) (by decide +kernel)
  have hp := of_decide_eq_true hp
  have hz : X3pAxis (x3pRoot "I") "CZ" (.element "CZ".toList none [leafX "DataType" "I", leafX "Increment" "0.000000001"]) :=
    ⟨_, _, rfl, rfl, rfl⟩
  refine ⟨x3pEnv "I" [5, 0, 0xff, 0xff], _, x3pRoot "I", _, [5, 0, 0xff, 0xff], r, m, h, rfl, ?_, hz, ?_, ?_, ?_, hp⟩
  · exact ⟨⟨_, rfl, rfl⟩, ⟨_, hz, rfl⟩, ⟨_, ⟨_, _, rfl, rfl, rfl⟩, by decide +kernel⟩,
      ⟨_, ⟨_, _, rfl, rfl, rfl⟩, by decide +kernel⟩,
      ⟨_, _, rfl, rfl, by decide +kernel, by decide +kernel, by decide +kernel, _, rfl, rfl⟩⟩
  · decide +kernel
  · decide +kernel
  · decide +kernel

end Surfalize.Props
