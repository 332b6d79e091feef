import Verif.Lemmas.ArrayAt
import Verif.Model.Plux
import Verif.Spec.Nms
/-!
# Properties of PLUX files (C84)
-/
set_option linter.unusedSectionVars false
namespace Surfalize.Props
open Surfalize Plux FileArr LayoutM

variable {K Time : Type} [Field K] [LinearOrder K]

/-- The parts of a PLUX file that the surface depends on: the archive with its data and its parsed index, numbers of
columns and rows, distances, date. -/
structure PluxFile (E : Env K Time) (enc : Encoding) (buf : Bytes) (a : Archive) (data : Bytes) (root : Xml)
    (nx ny : Nat) (sx sy : K) (t : Time) : Prop where
  archive : E.archive buf = .ok a
  data : a.member "LAYER_0.raw".toList = .ok data
  index : ∃ b s, a.member "index.xml".toList = .ok b ∧ decode enc b = .ok s ∧ E.xml s = .ok root
  columns : Xml.findInt ["GENERAL".toList, "IMAGE_SIZE_X".toList] root = .ok nx
  rows : Xml.findInt ["GENERAL".toList, "IMAGE_SIZE_Y".toList] root = .ok ny
  distX : Xml.findFloat E.float ["GENERAL".toList, "FOV_X".toList] root = .ok sx
  distY : Xml.findFloat E.float ["GENERAL".toList, "FOV_Y".toList] root = .ok sy
  date : ∃ s, Xml.findText ["GENERAL".toList, "DATE".toList] root = .ok (some s) ∧ E.date s = .ok t

private theorem fromN {α : Type} {w : Nat} (hw : 0 < w) {dec : Bytes → α} {n : Nat} {bs : Bytes} {l : List α}
    (h : fromBufferN w dec (n : Int) bs = .ok l) :
    n * w ≤ bs.length ∧ l.length = n ∧ ∀ k, k < n → l[k]? = some (dec ((bs.drop (k * w)).take w)) := by
  unfold fromBufferN at h
  rw [if_neg (by omega), Int.toNat_natCast] at h
  split at h
  · cases h
  · rename_i hl
    have hl' : n * w ≤ bs.length := by omega
    obtain ⟨l2, k1, k2, k3⟩ := readArray_at hw (dec := dec) (n := n) (buf := bs) (p := 0) (by omega)
    have e1 : fromBuffer w dec (bs.take (n * w)) = .ok l2 := by
      unfold readArray at k1
      have : ¬ ((n : Int) < 0) := by omega
      simp only [if_neg this, Handle.skip, Handle.read, Int.toNat_natCast, Nat.add_zero, List.drop_zero] at k1
      cases hf : fromBuffer w dec (bs.take (n * w)) with
      | error e => rw [hf] at k1; cases k1
      | ok l3 => rw [hf] at k1; exact congrArg Except.ok (congrArg Prod.fst (Except.ok.inj k1))
    unfold fromBuffer at e1
    split at e1
    · rw [e1] at h
      cases h
      refine ⟨hl', k2, fun k hk => ?_⟩
      rw [k3 k hk, Nat.zero_add]
    · cases e1

private theorem fromN_ok {α : Type} {w : Nat} {dec : Bytes → α} {n : Nat} {bs : Bytes} (h : n * w ≤ bs.length) :
    ∃ l, fromBufferN w dec (n : Int) bs = .ok l := by
  unfold fromBufferN
  rw [if_neg (by omega), Int.toNat_natCast, if_neg (by omega)]
  exact ⟨_, rfl⟩

private theorem members_ok {a : Archive} {images : Bool} {data index : Bytes} {img : Option Bytes}
    (h : members a images = .ok (data, img, index)) :
    a.member topography = .ok data ∧ a.member indexName = .ok index ∧
      ((images = true ∧ imageName ∈ a.names ∧ ∃ b, a.member imageName = .ok b ∧ img = some b) ∨
        (¬ (images = true ∧ imageName ∈ a.names) ∧ img = none)) := by
  unfold members at h
  cases h1 : a.member topography with
  | error e => rw [h1] at h; cases h
  | ok d =>
    rw [h1] at h
    dsimp only at h
    by_cases hc : images = true ∧ imageName ∈ a.names
    · rw [if_pos hc] at h
      cases h2 : a.member imageName with
      | error e => rw [h2] at h; cases h
      | ok b =>
        rw [h2] at h
        dsimp only [Except.map] at h
        cases h3 : a.member indexName with
        | error e => rw [h3] at h; cases h
        | ok x =>
          rw [h3] at h
          cases h
          exact ⟨rfl, rfl, .inl ⟨hc.1, hc.2, b, rfl, rfl⟩⟩
    · rw [if_neg hc] at h
      dsimp only at h
      cases h3 : a.member indexName with
      | error e => rw [h3] at h; cases h
      | ok x =>
        rw [h3] at h
        cases h
        exact ⟨rfl, rfl, .inr ⟨hc, rfl⟩⟩

private theorem geometry_ok {E : Env K Time} {root : Xml} {nx ny : Int} {sx sy : K} :
    geometry E root = .ok (nx, ny, sx, sy) ↔
      Xml.findInt (general "IMAGE_SIZE_X") root = .ok nx ∧ Xml.findInt (general "IMAGE_SIZE_Y") root = .ok ny ∧
      Xml.findFloat E.float (general "FOV_X") root = .ok sx ∧ Xml.findFloat E.float (general "FOV_Y") root = .ok sy := by
  unfold geometry
  constructor
  · intro h
    cases h1 : Xml.findInt (general "IMAGE_SIZE_X") root with
    | error e => rw [h1] at h; cases h
    | ok a =>
      cases h2 : Xml.findInt (general "IMAGE_SIZE_Y") root with
      | error e => rw [h1, h2] at h; cases h
      | ok b =>
        cases h3 : Xml.findFloat E.float (general "FOV_X") root with
        | error e => rw [h1, h2, h3] at h; cases h
        | ok c =>
          cases h4 : Xml.findFloat E.float (general "FOV_Y") root with
          | error e => rw [h1, h2, h3, h4] at h; cases h
          | ok d => rw [h1, h2, h3, h4] at h; cases h; exact ⟨rfl, rfl, rfl, rfl⟩
  · rintro ⟨h1, h2, h3, h4⟩
    rw [h1, h2, h3, h4]

private theorem info_ok {E : Env K Time} {root : Xml} {i : Info Time} (h : info E root = .ok i) :
    (∃ s, Xml.findText (general "DATE") root = .ok (some s) ∧ E.date s = .ok i.timestamp) ∧
      (∀ sec, Xml.find ["INFO".toList] root = some sec → items (fun _ => none) sec.children = .ok i.items) ∧
      (Xml.find ["INFO".toList] root = none → i.items = fun _ => none) := by
  unfold info at h
  cases h1 : Xml.findText (general "DATE") root with
  | error e => rw [h1] at h; cases h
  | ok o =>
    cases o with
    | none => rw [h1] at h; cases h
    | some s =>
      rw [h1] at h
      dsimp only at h
      cases h2 : E.date s with
      | error e => rw [h2] at h; cases h
      | ok t =>
        rw [h2] at h
        dsimp only at h
        cases h3 : Xml.find ["INFO".toList] root with
        | none =>
          rw [h3] at h
          cases h
          exact ⟨⟨s, rfl, h2⟩, (fun sec e => by cases e), fun _ => rfl⟩
        | some sec =>
          rw [h3] at h
          dsimp only at h
          cases h4 : items (fun _ => none) sec.children with
          | error e => rw [h4] at h; cases h
          | ok m =>
            rw [h4] at h
            cases h
            exact ⟨⟨s, rfl, h2⟩, (fun sec' e => by cases e; exact h4), fun e => by cases e⟩

/-- What a successful read went through. -/
private theorem plux_spec {E : Env K Time} {enc : Encoding} {images : Bool} {buf : Bytes} {r : Raw K} {i : Info Time}
    {im : Option Plu.Layer} (h : readPlux E enc images ⟨buf, 0⟩ = .ok (r, i, im)) :
    ∃ (a : Archive) (data : Bytes) (img : Option Bytes) (root : Xml) (nx ny : Nat) (l : List (Option K)),
      PluxFile E enc buf a data root nx ny r.stepX r.stepY i.timestamp ∧
      ((images = true ∧ imageName ∈ a.names ∧ ∃ b, a.member imageName = .ok b ∧ img = some b) ∨
        (¬ (images = true ∧ imageName ∈ a.names) ∧ img = none)) ∧
      fromBufferN 4 (decFloat K false) ((nx * ny : Nat) : Int) data = .ok l ∧
      reshape l (ny : Int) (nx : Int) = .ok r.data ∧ info E root = .ok i ∧
      (if images then (image img ny nx).map some else .ok none) = .ok im := by
  unfold readPlux at h
  cases h1 : E.archive buf with
  | error e => rw [h1] at h; cases h
  | ok a =>
    rw [h1] at h
    dsimp only at h
    cases h2 : members a images with
    | error e => rw [h2] at h; cases h
    | ok q =>
      obtain ⟨data, img, index⟩ := q
      rw [h2] at h
      dsimp only at h
      obtain ⟨m1, m2, m3⟩ := members_ok h2
      cases h3 : decode enc index with
      | error e => rw [h3] at h; cases h
      | ok s =>
        rw [h3] at h
        dsimp only at h
        cases h4 : E.xml s with
        | error e => rw [h4] at h; cases h
        | ok root =>
          rw [h4] at h
          dsimp only at h
          cases h5 : info E root with
          | error e => rw [h5] at h; cases h
          | ok i' =>
            rw [h5] at h
            dsimp only at h
            cases h6 : geometry E root with
            | error e => rw [h6] at h; cases h
            | ok q =>
              obtain ⟨nx, ny, sx, sy⟩ := q
              rw [h6] at h
              dsimp only at h
              obtain ⟨k1, k2, k3, k4⟩ := geometry_ok.1 h6
              cases h7 : fromBufferN 4 (decFloat K false) (nx * ny) data with
              | error e => rw [h7] at h; cases h
              | ok l =>
                rw [h7] at h
                dsimp only at h
                cases h8 : reshape l ny nx with
                | error e => rw [h8] at h; cases h
                | ok g =>
                  rw [h8] at h
                  dsimp only at h
                  have hnn : 0 ≤ ny ∧ 0 ≤ nx := by
                    unfold reshape at h8
                    split at h8
                    · rename_i hh; exact ⟨hh.1, hh.2.1⟩
                    · cases h8
                  obtain ⟨ny, rfl⟩ := Int.eq_ofNat_of_zero_le hnn.1
                  obtain ⟨nx, rfl⟩ := Int.eq_ofNat_of_zero_le hnn.2
                  cases h9 : (if images then (image img ny nx).map some else .ok none) with
                  | error e => rw [h9] at h; cases h
                  | ok im' =>
                    rw [h9] at h
                    cases h
                    exact ⟨a, data, img, root, nx, ny, l,
                      ⟨h1, m1, ⟨index, s, m2, h3, h4⟩, k1, k2, k3, k4, (info_ok h5).1⟩, m3, by push_cast; exact h7,
                      h8, h5, h9⟩

/-- **C84**. A PLUX file that is read gives the surface its index describes: columns, rows and distances, and at every
point the single-precision number stored in the data of the archive, missing exactly where that is not a finite
number. -/
theorem C84_plux {E : Env K Time} {enc : Encoding} {images : Bool} {buf : Bytes} {r : Raw K} {i : Info Time}
    {im : Option Plu.Layer} (h : readPlux E enc images ⟨buf, 0⟩ = .ok (r, i, im)) :
    ∃ (a : Archive) (data : Bytes) (root : Xml),
      PluxFile E enc buf a data root r.data.nx r.data.ny r.stepX r.stepY i.timestamp ∧ r.data.WF ∧
      ∀ y x, y < r.data.ny → x < r.data.nx → 4 * (y * r.data.nx + x) + 4 ≤ data.length ∧
        (∀ z, NmsSpec.single K data (4 * (y * r.data.nx + x)) = .fin z → r.data.get y x = some z) ∧
        ((∀ z, NmsSpec.single K data (4 * (y * r.data.nx + x)) ≠ .fin z) → r.data.get y x = none) := by
  obtain ⟨a, data, img, root, nx, ny, l, hf, -, h1, h2, -, -⟩ := plux_spec h
  obtain ⟨g1, g2, g3, g4, g5⟩ := reshape_get h2
  rw [Int.toNat_natCast] at g2 g3
  obtain ⟨l1, l2, l3⟩ := fromN (by decide) h1
  refine ⟨a, data, root, ?_, g1, fun y x hy hx => ?_⟩
  · rw [g2, g3]; exact hf
  · have hk : y * nx + x + 1 ≤ nx * ny := by
      rw [g2] at hy
      rw [g3] at hx
      calc y * nx + x + 1 ≤ y * nx + nx := by omega
        _ = nx * (y + 1) := by ring
        _ ≤ nx * ny := Nat.mul_le_mul_left _ hy
    have e : r.data.get y x = toOpt (NmsSpec.single K data (4 * (y * r.data.nx + x))) := by
      unfold Grid.get
      rw [g5 y x hy hx, g3, l3 _ (by omega)]
      simp only [Option.getD_some, NmsSpec.single, decFloat, bytesNat, Nat.mul_comm 4]
      rfl
    rw [e, g3]
    refine ⟨by omega, fun z hz => by rw [hz]; rfl, fun hz => ?_⟩
    cases hv : NmsSpec.single K data (4 * (y * nx + x)) with
    | fin z => exact absurd hv (hz z)
    | inf b => rfl
    | nan => rfl

/-- Every file with these parts, enough data, and an info section without faults (or none), is read. -/
theorem C84_plux_reads {E : Env K Time} {enc : Encoding} {buf : Bytes} {a : Archive} {data : Bytes} {root : Xml}
    {nx ny : Nat} {sx sy : K} {t : Time} (hf : PluxFile E enc buf a data root nx ny sx sy t)
    (hd : 4 * (nx * ny) ≤ data.length)
    (hi : ∀ sec, Xml.find ["INFO".toList] root = some sec → ∀ e ∈ sec.children,
      (∃ n, Xml.findText ["NAME".toList] e = .ok (some n)) ∧ ∃ v, Xml.findText ["VALUE".toList] e = .ok (some v)) :
    ∃ (r : Raw K) (i : Info Time), readPlux E enc false ⟨buf, 0⟩ = .ok (r, i, none) := by
  obtain ⟨b, s, i1, i2, i3⟩ := hf.index
  obtain ⟨dt, d1, d2⟩ := hf.date
  have hm : members a false = .ok (data, none, b) := by
    unfold members
    rw [show a.member topography = .ok data from hf.data]
    simp only [Bool.false_eq_true, false_and, if_false]
    rw [show a.member indexName = .ok b from i1]
  have hit : ∀ (es : List Xml) (m : List Char → Option (List Char)),
      (∀ e ∈ es, (∃ n, Xml.findText ["NAME".toList] e = .ok (some n)) ∧
        ∃ v, Xml.findText ["VALUE".toList] e = .ok (some v)) → ∃ m', Plux.items m es = .ok m' := by
    intro es
    induction es with
    | nil => intro m _; exact ⟨m, rfl⟩
    | cons e es ih =>
      intro m he
      obtain ⟨⟨n, hn⟩, v, hv⟩ := he e (by simp)
      have ih' := fun m => ih m fun x hx => he x (by simp [hx])
      unfold Plux.items stripped
      rw [hn, hv]
      dsimp only
      split
      · split
        · exact ih' _
        · exact ih' _
      · exact ih' _
  have hinfo : ∃ i, info E root = .ok i := by
    unfold info
    rw [show Xml.findText (general "DATE") root = .ok (some dt) from d1]
    dsimp only
    rw [d2]
    dsimp only
    cases hs : Xml.find ["INFO".toList] root with
    | none => exact ⟨_, rfl⟩
    | some sec =>
      obtain ⟨m, h⟩ := hit sec.children (fun _ => none) (hi sec hs)
      dsimp only
      rw [h]
      exact ⟨_, rfl⟩
  obtain ⟨i, hinfo⟩ := hinfo
  obtain ⟨l, hl⟩ := fromN_ok (w := 4) (dec := decFloat K false) (n := nx * ny) (bs := data) (by omega)
  have hl2 := (fromN (by decide) hl).2.1
  push_cast at hl
  have hr : ∃ g, reshape l (ny : Int) (nx : Int) = .ok g := by
    unfold reshape
    rw [if_pos ⟨by omega, by omega, by rw [hl2]; push_cast; ring⟩]
    exact ⟨_, rfl⟩
  obtain ⟨g, hr⟩ := hr
  refine ⟨⟨g, sx, sy⟩, i, ?_⟩
  unfold readPlux
  rw [hf.archive]
  dsimp only
  rw [hm]
  dsimp only
  rw [i2]
  dsimp only
  rw [i3]
  dsimp only
  rw [hinfo]
  dsimp only
  rw [geometry_ok.2 ⟨hf.columns, hf.rows, hf.distX, hf.distY⟩]
  dsimp only
  rw [hl]
  dsimp only
  rw [hr]
  rfl

/-- An element of the info section that stores a value under a key: its tag starts with `ITEM_`, its name is one of the
six listed ones, the key is the name in lower case; white space around name and value is dropped. -/
structure PluxItem (e : Xml) (k v : List Char) : Prop where
  tag : "ITEM_".toList <+: e.tag
  stored : ∃ n x, Xml.findText ["NAME".toList] e = .ok (some n) ∧ Xml.findText ["VALUE".toList] e = .ok (some x) ∧
      k = (strip n).map Char.toLower ∧ v = strip x ∧
      strip n ∈ ["Device".toList, "Objective".toList, "Technique".toList, "Measurement Type".toList,
        "Algorithm".toList, "Comment".toList]

private theorem items_spec : ∀ (es : List Xml) (m m' : List Char → Option (List Char)), Plux.items m es = .ok m' →
    ∀ k v, m' k = some v ↔ (∃ pre e post, es = pre ++ e :: post ∧ PluxItem e k v ∧ ∀ f ∈ post, ∀ w, ¬ PluxItem f k w) ∨
      ((∀ f ∈ es, ∀ w, ¬ PluxItem f k w) ∧ m k = some v) := by
  intro es
  induction es with
  | nil =>
    intro m m' h k v
    cases h
    constructor
    · intro h; exact .inr ⟨by simp, h⟩
    · rintro (⟨pre, e, post, h, -⟩ | h)
      · simp at h
      · exact h.2
  | cons e es ih =>
    intro m m' h k v
    -- an element that stores nothing
    have skip : (∀ k v, ¬ PluxItem e k v) → Plux.items m es = .ok m' →
        (m' k = some v ↔ (∃ pre e' post, e :: es = pre ++ e' :: post ∧ PluxItem e' k v ∧
          ∀ f ∈ post, ∀ w, ¬ PluxItem f k w) ∨ ((∀ f ∈ e :: es, ∀ w, ¬ PluxItem f k w) ∧ m k = some v)) := by
      intro hn h
      rw [ih _ _ h k v]
      constructor
      · rintro (⟨pre, e', post, h1, h2, h3⟩ | ⟨h1, h2⟩)
        · exact .inl ⟨e :: pre, e', post, by rw [h1]; rfl, h2, h3⟩
        · refine .inr ⟨fun f hf w => ?_, h2⟩
          rcases List.mem_cons.1 hf with rfl | hf
          · exact hn k w
          · exact h1 f hf w
      · rintro (⟨pre, e', post, h1, h2, h3⟩ | ⟨h1, h2⟩)
        · cases pre with
          | nil => cases h1; exact absurd h2 (hn k v)
          | cons a pre =>
            obtain ⟨-, h1⟩ := List.cons.inj h1
            exact .inl ⟨pre, e', post, h1, h2, h3⟩
        · exact .inr ⟨fun f hf w => h1 f (by simp [hf]) w, h2⟩
    unfold Plux.items at h
    split at h
    · rename_i htag
      rw [List.isPrefixOf_iff_prefix] at htag
      cases hn : Xml.findText ["NAME".toList] e with
      | error x => unfold stripped at h; rw [hn] at h; cases h
      | ok o =>
        cases o with
        | none => unfold stripped at h; rw [hn] at h; cases h
        | some n =>
          unfold stripped at h
          rw [hn] at h
          dsimp only at h
          split at h
          · rename_i ht
            cases hv : Xml.findText ["VALUE".toList] e with
            | error x => rw [hv] at h; cases h
            | ok o =>
              cases o with
              | none => rw [hv] at h; cases h
              | some x =>
                rw [hv] at h
                dsimp only at h
                have item : ∀ k v, PluxItem e k v ↔ k = (strip n).map Char.toLower ∧ v = strip x := by
                  intro k v
                  constructor
                  · rintro ⟨-, n', x', a1, a2, a3, a4, -⟩
                    rw [hn] at a1
                    rw [hv] at a2
                    cases a1
                    cases a2
                    exact ⟨a3, a4⟩
                  · rintro ⟨a3, a4⟩
                    exact ⟨htag, n, x, hn, hv, a3, a4, ht⟩
                rw [ih _ _ h k v]
                constructor
                · rintro (⟨pre, e', post, h1, h2, h3⟩ | ⟨h1, h2⟩)
                  · exact .inl ⟨e :: pre, e', post, by rw [h1]; rfl, h2, h3⟩
                  · split at h2
                    · rename_i hk
                      exact .inl ⟨[], e, es, rfl, (item k v).2 ⟨hk, (Option.some.inj h2).symm⟩, h1⟩
                    · rename_i hk
                      refine .inr ⟨fun f hf w => ?_, h2⟩
                      rcases List.mem_cons.1 hf with rfl | hf
                      · exact fun hh => hk ((item k w).1 hh).1
                      · exact h1 f hf w
                · rintro (⟨pre, e', post, h1, h2, h3⟩ | ⟨h1, h2⟩)
                  · cases pre with
                    | nil =>
                      cases h1
                      obtain ⟨b1, b2⟩ := (item k v).1 h2
                      exact .inr ⟨h3, by rw [if_pos b1, b2]⟩
                    | cons a pre =>
                      obtain ⟨-, h1⟩ := List.cons.inj h1
                      exact .inl ⟨pre, e', post, h1, h2, h3⟩
                  · refine .inr ⟨fun f hf w => h1 f (by simp [hf]) w, ?_⟩
                    rw [if_neg fun hk => h1 e (by simp) (strip x) ((item k _).2 ⟨hk, rfl⟩)]
                    exact h2
          · rename_i ht
            refine skip ?_ h
            rintro k v ⟨-, n', x', a1, -, -, -, a5⟩
            rw [hn] at a1
            cases a1
            exact ht a5
    · rename_i htag
      rw [List.isPrefixOf_iff_prefix] at htag
      exact skip (fun k v hh => htag hh.tag) h

/-- **C84**, metadata: an entry is there exactly if an item of the info section stores it and no later item stores
something under the same key. -/
theorem C84_plux_info {E : Env K Time} {enc : Encoding} {images : Bool} {buf : Bytes} {r : Raw K} {i : Info Time}
    {im : Option Plu.Layer} (h : readPlux E enc images ⟨buf, 0⟩ = .ok (r, i, im)) :
    ∃ (a : Archive) (data : Bytes) (root : Xml),
      PluxFile E enc buf a data root r.data.nx r.data.ny r.stepX r.stepY i.timestamp ∧
      ∀ k v, i.items k = some v ↔ ∃ sec pre e post, Xml.find ["INFO".toList] root = some sec ∧
        sec.children = pre ++ e :: post ∧ PluxItem e k v ∧ ∀ f ∈ post, ∀ w, ¬ PluxItem f k w := by
  obtain ⟨a, data, img, root, nx, ny, l, hf, -, h0, h2, h1, -⟩ := plux_spec h
  obtain ⟨-, g2, g3, -, -⟩ := reshape_get h2
  rw [Int.toNat_natCast] at g2 g3
  obtain ⟨-, j1, j2⟩ := info_ok h1
  refine ⟨a, data, root, by rw [g2, g3]; exact hf, fun k v => ?_⟩
  cases hs : Xml.find ["INFO".toList] root with
  | none =>
    rw [j2 hs]
    constructor
    · intro h; cases h
    · rintro ⟨sec, pre, e, post, h, -⟩; cases h
  | some sec =>
    rw [items_spec _ _ _ (j1 sec hs) k v]
    constructor
    · rintro (⟨pre, e, post, a1, a2, a3⟩ | ⟨-, h⟩)
      · exact ⟨sec, pre, e, post, rfl, a1, a2, a3⟩
      · cases h
    · rintro ⟨sec', pre, e, post, a0, a1, a2, a3⟩
      cases a0
      exact .inl ⟨pre, e, post, a1, a2, a3⟩

/-- The number of colour channel `c` at row `y`, column `x` of an image with `nx` columns. -/
def pluxColor (b : Bytes) (nx c y x : Nat) : Nat := (b.getD (3 * (y * nx + x) + c) 0).toNat

/-- The image layer, if there is an image and it is asked for: one grey channel if the three channels agree everywhere,
else all three. -/
theorem C84_plux_layer {E : Env K Time} {enc : Encoding} {buf : Bytes} {r : Raw K} {i : Info Time}
    {im : Option Plu.Layer} (h : readPlux E enc true ⟨buf, 0⟩ = .ok (r, i, im)) :
    ∃ a b, E.archive buf = .ok a ∧ a.member "LAYER_0.stack.raw".toList = .ok b ∧
      b.length = 3 * (r.data.ny * r.data.nx) ∧
      (((∀ y x, y < r.data.ny → x < r.data.nx → pluxColor b r.data.nx 0 y x = pluxColor b r.data.nx 1 y x ∧
          pluxColor b r.data.nx 0 y x = pluxColor b r.data.nx 2 y x) ∧
        ∃ g, im = some (.gray g) ∧ ∀ y x, y < r.data.ny → x < r.data.nx →
          g.rows[y]?.bind (·[x]?) = some (pluxColor b r.data.nx 0 y x : Int)) ∨
      ((¬ ∀ y x, y < r.data.ny → x < r.data.nx → pluxColor b r.data.nx 0 y x = pluxColor b r.data.nx 1 y x ∧
          pluxColor b r.data.nx 0 y x = pluxColor b r.data.nx 2 y x) ∧
        ∃ g0 g1 g2, im = some (.rgb g0 g1 g2) ∧ ∀ y x, y < r.data.ny → x < r.data.nx →
          g0.rows[y]?.bind (·[x]?) = some (pluxColor b r.data.nx 0 y x : Int) ∧
          g1.rows[y]?.bind (·[x]?) = some (pluxColor b r.data.nx 1 y x : Int) ∧
          g2.rows[y]?.bind (·[x]?) = some (pluxColor b r.data.nx 2 y x : Int))) := by
  obtain ⟨a, data, img, root, nx, ny, l, hf, h1, -, h2, -, h3⟩ := plux_spec h
  obtain ⟨-, g2, g3, -, -⟩ := reshape_get h2
  rw [Int.toNat_natCast] at g2 g3
  rw [g2, g3]
  rcases h1 with ⟨-, -, b, hb, rfl⟩ | ⟨-, rfl⟩
  · refine ⟨a, b, hf.archive, hb, ?_⟩
    rw [if_pos rfl] at h3
    unfold Plux.image at h3
    dsimp only at h3
    split at h3
    · rename_i hc
      have hlen : b.length = 3 * (ny * nx) := by
        have := hc.2.2
        rw [List.length_map] at this
        have h' : b.length = ny * nx * 3 := by exact_mod_cast this
        rw [h']; ring
      refine ⟨hlen, ?_⟩
      rw [Int.toNat_natCast, Int.toNat_natCast] at h3
      have hget : ∀ c y x, c < 3 → y < ny → x < nx →
          (b.map fun b => (b.toNat : Int)).getD ((y * nx + x) * 3 + c) 0 = (pluxColor b nx c y x : Int) := by
        intro c y x hc hy hx
        have hk : y * nx + x + 1 ≤ ny * nx := by
          calc y * nx + x + 1 ≤ y * nx + nx := by omega
            _ = (y + 1) * nx := by ring
            _ ≤ ny * nx := Nat.mul_le_mul_right _ hy
        have : (y * nx + x) * 3 + c < b.length := by omega
        unfold pluxColor
        rw [show 3 * (y * nx + x) + c = (y * nx + x) * 3 + c by ring, List.getD_eq_getElem?_getD,
          List.getD_eq_getElem?_getD, List.getElem?_map, List.getElem?_eq_getElem this]
        simp
      have hchan : ∀ c, c < 3 → ∀ y x, y < ny → x < nx →
          (Plu.channel (b.map fun b => (b.toNat : Int)) ny nx c).rows[y]?.bind (·[x]?) =
            some (pluxColor b nx c y x : Int) := by
        intro c hc y x hy hx
        unfold Plu.channel Grid.ofFn
        simp only [List.getElem?_map, List.getElem?_range hy, Option.map_some, Option.bind_some,
          List.getElem?_range hx]
        rw [hget c y x hc hy hx]
      have hiff : (∀ y < ny, ∀ x < nx,
          (b.map fun b => (b.toNat : Int)).getD ((y * nx + x) * 3) 0 =
            (b.map fun b => (b.toNat : Int)).getD ((y * nx + x) * 3 + 1) 0 ∧
          (b.map fun b => (b.toNat : Int)).getD ((y * nx + x) * 3) 0 =
            (b.map fun b => (b.toNat : Int)).getD ((y * nx + x) * 3 + 2) 0) ↔
          ∀ y x, y < ny → x < nx →
            pluxColor b nx 0 y x = pluxColor b nx 1 y x ∧ pluxColor b nx 0 y x = pluxColor b nx 2 y x := by
        refine ⟨fun hh y x hy hx => ?_, fun hh y hy x hx => ?_⟩
        · have h1 := hh y hy x hx
          have e0 := hget 0 y x (by decide) hy hx
          rw [Nat.add_zero] at e0
          rw [e0, hget 1 y x (by decide) hy hx, hget 2 y x (by decide) hy hx] at h1
          exact ⟨by exact_mod_cast h1.1, by exact_mod_cast h1.2⟩
        · have h1 := hh y x hy hx
          have e0 := hget 0 y x (by decide) hy hx
          rw [Nat.add_zero] at e0
          rw [e0, hget 1 y x (by decide) hy hx, hget 2 y x (by decide) hy hx]
          exact ⟨by exact_mod_cast h1.1, by exact_mod_cast h1.2⟩
      split at h3
      · rename_i hq
        exact .inl ⟨hiff.1 hq, _, (Except.ok.inj h3).symm, fun y x hy hx => hchan 0 (by decide) y x hy hx⟩
      · rename_i hq
        exact .inr ⟨fun hh => hq (hiff.2 hh), _, _, _, (Except.ok.inj h3).symm, fun y x hy hx =>
          ⟨hchan 0 (by decide) y x hy hx, hchan 1 (by decide) y x hy hx, hchan 2 (by decide) y x hy hx⟩⟩
    · cases h3
  · cases h3

/-- **C84** (violated for image layers). Asking for image layers makes every file without an image unreadable, although
heights and index are complete: the reader stops with an UnboundLocalError instead of returning the surface. -/
theorem C84_plux_images {E : Env K Time} {enc : Encoding} {buf : Bytes} {a : Archive} (ha : E.archive buf = .ok a)
    (hn : "LAYER_0.stack.raw".toList ∉ a.names) (r : Raw K × Info Time × Option Plu.Layer) :
    readPlux E enc true ⟨buf, 0⟩ ≠ .ok r := by
  intro h
  obtain ⟨r, i, im⟩ := r
  obtain ⟨a', data, img, root, nx, ny, l, hf, h1, -, -, -, h2⟩ := plux_spec h
  have := hf.archive
  rw [ha] at this
  cases this
  rcases h1 with ⟨-, h1, -⟩ | ⟨-, rfl⟩
  · exact hn h1
  · cases h2

/-! ## An example -/

private def leaf (t s : String) : Xml := .element t.toList (some s.toList) []

private def pluxRoot : Xml :=
  .element "xml".toList none
    [.element "GENERAL".toList none [leaf "DATE" "today", leaf "IMAGE_SIZE_X" "2", leaf "IMAGE_SIZE_Y" "1",
      leaf "FOV_X" "1.5", leaf "FOV_Y" "1.5"],
     .element "INFO".toList none
      [.element "ITEM_0".toList none [leaf "NAME" " Device ", leaf "VALUE" " S neox"]]]

/-- An environment in which every file is the archive with two points, 1 and NaN, and a grey image. -/
private def pluxEnv : Env ℚ Unit where
  archive _ := .ok ⟨["LAYER_0.raw".toList, "LAYER_0.stack.raw".toList, "index.xml".toList],
    fun n => if n = "LAYER_0.raw".toList then .ok [0, 0, 0x80, 0x3f, 0, 0, 0xc0, 0x7f]
      else if n = "LAYER_0.stack.raw".toList then .ok [7, 7, 7, 9, 9, 9]
      else if n = "index.xml".toList then .ok [60] else .error .keyError⟩
  xml _ := .ok pluxRoot
  date _ := .ok ()
  float := ⟨fun _ => [], fun _ => .ok (.fin (3 / 2))⟩

set_option maxRecDepth 20000 in
example : ∃ r i im, readPlux pluxEnv .utf8 true ⟨[], 0⟩ = .ok (r, i, im) ∧ r.data.get 0 0 = some 1 ∧
    r.data.get 0 1 = none ∧ r.stepX = 3 / 2 ∧ i.items "device".toList = some "S neox".toList := by
  have h : (match readPlux pluxEnv .utf8 true ⟨[], 0⟩ with
    | .ok (r, i, _) => decide (r.data.get 0 0 = some 1 ∧ r.data.get 0 1 = none ∧ r.stepX = 3 / 2 ∧
        i.items "device".toList = some "S neox".toList)
    | .error _ => false) = true := by
    decide +kernel
  revert h
  cases hr : readPlux pluxEnv .utf8 true ⟨[], 0⟩ with
  | error e => exact fun h => by cases h
  | ok q =>
    obtain ⟨r, i, im⟩ := q
    exact fun h => ⟨r, i, im, rfl, of_decide_eq_true h⟩

end Surfalize.Props
