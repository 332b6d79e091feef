import Verif.Spec.Opd
import Verif.Lemmas.Gwy
import Verif.Lemmas.Text
import Verif.Lemmas.FileHandler
import Verif.Lemmas.ArrayAt
/-! # Lemmas: OPD files -/
set_option linter.unusedSectionVars false
set_option maxRecDepth 20000
namespace Surfalize
namespace Opd
open LayoutM FileArr Gwy OpdSpec

theorem utf8_nuls (n : Nat) : utf8 (List.replicate n '\x00') = List.replicate n 0 := by
  induction n with
  | zero => rfl
  | succ n ih => rw [List.replicate_succ, List.replicate_succ, ← ih]; rfl

theorem stripNul_plain {s : List Char} (h : Plain s) (n : Nat) :
    stripNul (s ++ List.replicate n '\x00') = s := by
  unfold stripNul
  rw [rstrip_append_all _ _ _ (fun c hc => by simp [List.eq_of_mem_replicate hc])]
  exact rstrip_self _ _ (fun c hc => by simpa using h c hc)

/-- The kind with a type number. -/
def kind : Content → Kind
  | .array .. => .array | .text _ => .text | .short _ => .short | .float _ => .float | .double _ => .double
  | .long _ => .long

theorem kindOf_code (c : Content) : kindOf (code c : Int) = .ok (kind c) := by cases c <;> rfl

theorem code_lt (c : Content) : code c < 2 ^ 15 := by cases c <;> simp [code]

theorem bytesInt_small {w n : Nat} (h : (n : Int) < (256 : Int) ^ w / 2) :
    bytesInt true false w (natBytes false w n) = n := by
  have h3 : n < 256 ^ w := by
    have : (256 : Int) ^ w / 2 ≤ 256 ^ w := by
      apply Int.ediv_le_self
      positivity
    have h2 : (n : Int) < ((256 ^ w : Nat) : Int) := by push_cast; omega
    exact_mod_cast h2
  unfold bytesInt
  rw [bytesNat_natBytes _ _ _ h3]
  simp only [true_and]
  rw [if_neg (by omega)]

theorem entry_length {name : List Char} (h : (utf8 name).length ≤ 16) (t s f : Nat) :
    (entry name t s f).length = 24 := by
  simp only [entry, List.length_append, List.length_replicate, natBytes_length]
  omega

/-- A directory entry is read. -/
theorem readDef_here (enc : Encoding) {name : List Char} (hl : (utf8 name).length ≤ 16) (hp : Plain name)
    {t size flags : Nat} {k : Kind} (ht : t < 2 ^ 15) (hk : kindOf (t : Int) = .ok k) (hs : size < 2 ^ 31)
    (pre rest : Bytes) :
    readDef enc (here pre (entry name t size flags ++ rest)) =
      .ok ((name, k, (size : Int)), here (pre ++ entry name t size flags) rest) := by
  have e1 : entry name t size flags ++ rest =
      utf8 (name ++ List.replicate (16 - (utf8 name).length) '\x00') ++
        ((natBytes false 2 t ++ natBytes false 4 size ++ natBytes false 2 flags) ++ rest) := by
    rw [utf8_append, utf8_nuls]; simp [entry]
  have r1 := here_read pre (utf8 (name ++ List.replicate (16 - (utf8 name).length) '\x00'))
    ((natBytes false 2 t ++ natBytes false 4 size ++ natBytes false 2 flags) ++ rest) 16
    (by rw [utf8_append, utf8_nuls]; simp; omega)
  have r2 := here_read (pre ++ utf8 (name ++ List.replicate (16 - (utf8 name).length) '\x00'))
    (natBytes false 2 t ++ natBytes false 4 size ++ natBytes false 2 flags) rest 8
    (by simp [natBytes_length])
  have b1 : bytesInt true false 2 ((natBytes false 2 t ++ natBytes false 4 size ++ natBytes false 2 flags).take 2) =
      (t : Int) := by
    rw [List.append_assoc, List.take_append_of_le_length (by simp [natBytes_length]),
      List.take_of_length_le (by simp [natBytes_length])]
    exact bytesInt_small (by norm_num; omega)
  have b2 : bytesInt true false 4
      (((natBytes false 2 t ++ natBytes false 4 size ++ natBytes false 2 flags).drop 2).take 4) = (size : Int) := by
    rw [List.append_assoc, List.drop_append_of_le_length (by simp [natBytes_length]),
      List.drop_of_length_le (by simp [natBytes_length]), List.nil_append,
      List.take_append_of_le_length (by simp [natBytes_length]), List.take_of_length_le (by simp [natBytes_length])]
    exact bytesInt_small (by norm_num; omega)
  unfold readDef
  rw [e1, r1]
  dsimp only
  rw [r2, decode_utf8]
  dsimp only
  rw [if_neg (by simp [natBytes_length]), b1, hk]
  dsimp only
  rw [b2, stripNul_plain hp]
  congr 2
  have : pre ++ entry name t size flags = pre ++ utf8 (name ++ List.replicate (16 - (utf8 name).length) '\x00') ++
      (natBytes false 2 t ++ natBytes false 4 size ++ natBytes false 2 flags) := by
    rw [utf8_append, utf8_nuls]; simp [entry]
  rw [this]

/-- The definition of a block as it is read. -/
def defOf (b : OpdSpec.Block) : List Char × Kind × Int :=
  (b.name, kind b.content, ((content b.content).length : Int))

/-- The directory entry of a block. -/
def entryOf (b : OpdSpec.Block) : Bytes := entry b.name (code b.content) (content b.content).length b.flags

theorem readDefs_here (enc : Encoding) : ∀ (bs : List OpdSpec.Block) (d : List (List Char × Kind × Int)) (pre rest : Bytes),
    (∀ b ∈ bs, (utf8 b.name).length ≤ 16 ∧ Plain b.name) → (∀ b ∈ bs, (content b.content).length < 2 ^ 31) →
    (d.map Prod.fst ++ bs.map (·.name)).Nodup →
    readDefs enc bs.length d (here pre (bs.flatMap entryOf ++ rest)) =
      .ok (d ++ bs.map defOf, here (pre ++ bs.flatMap entryOf) rest) := by
  intro bs
  induction bs with
  | nil => intro d pre rest _ _ _; simp [readDefs]
  | cons b bs ih =>
    intro d pre rest h1 h2 h3
    rw [List.length_cons, readDefs, List.flatMap_cons, List.append_assoc]
    rw [show entryOf b = entry b.name (code b.content) (content b.content).length b.flags from rfl]
    rw [readDef_here enc (h1 b (by simp)).1 (h1 b (by simp)).2 (code_lt _) (kindOf_code _) (h2 b (by simp))]
    dsimp only
    have hb : b.name ∉ d.map Prod.fst := by
      rw [List.nodup_append] at h3
      intro hm
      exact h3.2.2 _ hm b.name (by simp) rfl
    rw [Files.put_new _ _ _ hb, ih _ _ _ (fun b hb => h1 b (by simp [hb])) (fun b hb => h2 b (by simp [hb]))]
    · simp [defOf]
    · simpa using h3

/-- A block as the reader sees it, and its content in the file. -/
def At (buf : Bytes) (c : Content) (b : Block) : Prop :=
  b.kind = kind c ∧ b.size = ((content c).length : Int) ∧
    ∃ pre rest, buf = pre ++ (content c ++ rest) ∧ b.offset = (pre.length : Int)

theorem offsets_at (rest : Bytes) : ∀ (bs : List OpdSpec.Block) (pre : Bytes),
    List.Forall₂ (fun b e => e.1 = b.name ∧ At (pre ++ (bs.flatMap (fun b => content b.content) ++ rest)) b.content e.2)
      bs (offsets (pre.length : Int) (bs.map defOf)) := by
  intro bs
  induction bs with
  | nil => intro pre; exact .nil
  | cons b bs ih =>
    intro pre
    rw [List.map_cons, show defOf b = (b.name, kind b.content, ((content b.content).length : Int)) from rfl, offsets]
    refine .cons ⟨rfl, rfl, rfl, pre, bs.flatMap (fun b => content b.content) ++ rest, by simp, rfl⟩ ?_
    have := ih (pre ++ content b.content)
    rw [List.length_append, Nat.cast_add] at this
    simpa only [List.flatMap_cons, List.append_assoc] using this

theorem lookup_at {buf : Bytes} {bs : List OpdSpec.Block} {d : List (List Char × Block)}
    (h : List.Forall₂ (fun b e => e.1 = b.name ∧ At buf b.content e.2) bs d) (name : String) :
    match find bs name with
    | none => d.lookup name.toList = none
    | some c => ∃ e, d.lookup name.toList = some e ∧ At buf c e := by
  induction h with
  | nil => rfl
  | @cons b e bs d hbe _ ih =>
    obtain ⟨n, e⟩ := e
    obtain ⟨rfl, h2⟩ := hbe
    unfold find at ih ⊢
    rw [List.find?_cons]
    by_cases hn : b.name = name.toList
    · simp only [hn, decide_true, Option.map_some]
      exact ⟨e, by rw [List.lookup_cons]; simp, h2⟩
    · simp only [hn, decide_false]
      rw [List.lookup_cons]
      have : (name.toList == b.name) = false := by
        rw [beq_eq_false_iff_ne]; exact fun e => hn e.symm
      rw [this]
      exact ih

variable {K : Type} [Field K] [LinearOrder K]

theorem at_goto {buf : Bytes} {c : Content} {b : Block} (h : At buf c b) (p : Nat) :
    ∃ pre rest, b.goto ⟨buf, p⟩ = .ok (here pre (content c ++ rest)) := by
  obtain ⟨-, -, pre, rest, rfl, h2⟩ := h
  refine ⟨pre, rest, ?_⟩
  unfold Block.goto
  rw [if_neg (by omega), h2]
  rfl

theorem at_bytes {buf : Bytes} {c : Content} {b : Block} (h : At buf c b) (pre rest : Bytes) :
    b.bytes (here pre (content c ++ rest)) = content c := by
  unfold Block.bytes
  rw [if_neg (by rw [h.2.1]; omega), h.2.1, Int.toNat_natCast, here_read _ _ _ _ rfl]

/-- What the metadata hold for a block. -/
def metaOf (K : Type) [Field K] [LinearOrder K] : Content → Option (MVal K)
  | .array .. => none
  | .text s => some (.str s)
  | c => some (.num (number K c))

theorem first_at {α : Type} {buf : Bytes} {c : Content} {b : Block} (h : At buf c b) (pre rest : Bytes) {w : Nat}
    (hw : 0 < w) (hc : (content c).length = w) (dec : Bytes → α) :
    b.first w dec (here pre (content c ++ rest)) = .ok (dec (content c)) := by
  unfold Block.first
  rw [at_bytes h, h.2.1, Int.toNat_natCast, hc, Nat.div_self hw, Nat.one_mul]
  simp only [ne_eq, not_true_eq_false, if_false, one_ne_zero]
  rw [List.take_of_length_le (by omega)]

theorem readMeta_at (enc : Encoding) {buf : Bytes} {c : Content} {b : Block} (h : At buf c b) (hf : Fits c)
    (pre rest : Bytes) {v : MVal K} (hv : metaOf K c = some v) :
    b.readMeta K enc (here pre (content c ++ rest)) = .ok v := by
  unfold Block.readMeta
  rw [h.1]
  cases c with
  | array => cases hv
  | text s =>
    cases hv
    dsimp only [kind]
    rw [at_bytes h]
    dsimp only [content]
    rw [decode_utf8]
    dsimp only
    have := stripNul_plain (show Plain s from hf) 0
    simp only [List.replicate_zero, List.append_nil] at this
    rw [this]
  | short i =>
    cases hv
    dsimp only [kind]
    rw [first_at h pre rest (by decide) (by simp [content, intBytes, natBytes_length])]
    dsimp only [content]
    obtain ⟨h1, h2⟩ := hf
    rw [bytesInt_intBytes _ _ _ _ (by decide) (by simp [intMin]; omega) (by simp [intMax]; omega)]
    rfl
  | long i =>
    cases hv
    dsimp only [kind]
    rw [first_at h pre rest (by decide) (by simp [content, intBytes, natBytes_length])]
    dsimp only [content]
    obtain ⟨h1, h2⟩ := hf
    rw [bytesInt_intBytes _ _ _ _ (by decide) (by simp [intMin]; omega) (by simp [intMax]; omega)]
    rfl
  | float x =>
    cases hv
    dsimp only [kind]
    rw [first_at h pre rest (by decide) (by simp [content, natBytes_length])]
    dsimp only [content]
    unfold decFloat
    rw [bytesNat_natBytes _ _ _ (by simpa [Fits] using hf)]
    rfl
  | double x =>
    cases hv
    dsimp only [kind]
    rw [first_at h pre rest (by decide) (by simp [content, natBytes_length])]
    dsimp only [content]
    unfold decFloat
    rw [bytesNat_natBytes _ _ _ (by simpa [Fits] using hf)]
    rfl

/-- The metadata of a list of blocks. -/
def metas (K : Type) [Field K] [LinearOrder K] (bs : List OpdSpec.Block) : List (List Char × MVal K) :=
  bs.filterMap fun b => match metaOf K b.content with
    | some (.str []) => none
    | some v => some (b.name, v)
    | none => none

theorem isMeta_kind (c : Content) : (kind c).isMeta = (metaOf K c).isSome := by cases c <;> rfl

theorem readAllMeta_at (enc : Encoding) {buf : Bytes} (p : Nat) {bs : List OpdSpec.Block} {d : List (List Char × Block)}
    (h : List.Forall₂ (fun b e => e.1 = b.name ∧ At buf b.content e.2) bs d) (hf : ∀ b ∈ bs, Fits b.content) :
    readAllMeta K enc ⟨buf, p⟩ d = .ok (metas K bs) := by
  induction h with
  | nil => rfl
  | @cons b e bs d hbe _ ih =>
    obtain ⟨n, e⟩ := e
    obtain ⟨rfl, h2⟩ := hbe
    have ih := ih (fun b hb => hf b (by simp [hb]))
    rw [readAllMeta, h2.1, isMeta_kind (K := K)]
    unfold metas at ih ⊢
    rw [List.filterMap_cons]
    cases hm : metaOf K b.content with
    | none => simpa using ih
    | some v =>
      obtain ⟨pre, rest, hg⟩ := at_goto h2 p
      rw [Option.isSome_some, if_pos rfl, hg]
      dsimp only
      rw [readMeta_at enc h2 (hf b (by simp)) pre rest hm, ih]
      dsimp only
      cases v with
      | num x => rfl
      | str s => cases s <;> rfl

theorem lookup_metas {bs : List OpdSpec.Block} (hn : (bs.map (·.name)).Nodup) (name : String) :
    (metas K bs).lookup name.toList = match find bs name with
      | none => none
      | some c => match metaOf K c with
        | some (.str []) => none
        | v => v := by
  induction bs with
  | nil => rfl
  | cons b bs ih =>
    rw [List.map_cons, List.nodup_cons] at hn
    have ih := ih hn.2
    have hnot : b.name = name.toList → (metas K bs).lookup name.toList = none := by
      intro e
      rw [List.lookup_eq_none_iff]
      intro q hq
      unfold metas at hq
      rw [List.mem_filterMap] at hq
      obtain ⟨b', hb', h'⟩ := hq
      have hq1 : q.1 = b'.name := by
        split at h'
        · cases h'
        · cases h'; rfl
        · cases h'
      rw [bne_iff_ne, hq1, ← e]
      intro e'
      apply hn.1
      rw [e']
      exact List.mem_map.2 ⟨b', hb', rfl⟩
    unfold find at ih ⊢
    rw [List.find?_cons]
    unfold metas at ih hnot ⊢
    rw [List.filterMap_cons]
    by_cases h : b.name = name.toList
    · simp only [h, decide_true, Option.map_some]
      have hnot := hnot h
      cases hm : metaOf K b.content with
      | none => simpa using hnot
      | some v =>
        cases v with
        | num x => simp [List.lookup_cons]
        | str s =>
          cases s with
          | nil => simpa using hnot
          | cons => simp [List.lookup_cons]
    · simp only [h, decide_false]
      have hb : (name.toList == b.name) = false := by
        rw [beq_eq_false_iff_ne]; exact fun e => h e.symm
      rw [← ih]
      cases hm : metaOf K b.content with
      | none => rfl
      | some v =>
        cases v with
        | num x => simp [List.lookup_cons, hb]
        | str s =>
          cases s with
          | nil => rfl
          | cons => simp [List.lookup_cons, hb]

theorem param_ok {bs : List OpdSpec.Block} (hn : (bs.map (·.name)).Nodup) {name : String} {x : K}
    (h : Param K bs name x) : param (metas K bs) name = .ok (some x) := by
  unfold param
  rw [lookup_metas hn]
  unfold Param at h
  cases hf : find bs name with
  | none => rw [hf] at h; dsimp only at h ⊢; rw [h]
  | some c =>
    rw [hf] at h
    cases c with
    | array => simp [number] at h
    | text s =>
      cases s with
      | nil => dsimp only at h; rw [h]; rfl
      | cons => simp [number] at h
    | short i => dsimp only [metaOf] at h ⊢; rw [h]
    | long i => dsimp only [metaOf] at h ⊢; rw [h]
    | float i => dsimp only [metaOf] at h ⊢; rw [h]
    | double i => dsimp only [metaOf] at h ⊢; rw [h]

theorem timestamp_ok {parse : List Char → Except Err Unit} {bs : List OpdSpec.Block}
    (hn : (bs.map (·.name)).Nodup) (h : Dated parse bs) : timestamp parse (metas K bs) = .ok () := by
  unfold timestamp
  rw [lookup_metas hn, lookup_metas hn]
  unfold Dated at h
  cases hd : find bs "Date" with
  | none => rfl
  | some c =>
    rw [hd] at h
    cases c with
    | text d =>
      cases d with
      | nil => rfl
      | cons a d =>
        cases ht : find bs "Time" with
        | none => rfl
        | some c' =>
          rw [ht] at h
          cases c' with
          | text t =>
            cases t with
            | nil => rfl
            | cons => exact h
          | _ => exact absurd h (by simp)
    | _ => exact absurd h (by simp)

/-- The items of an array block. -/
theorem readData_at {buf : Bytes} {nx ny w : Nat} {its : Bytes} {b : Block}
    (h : At buf (.array nx ny w its) b) (hf : Fits (.array nx ny w its)) (p : Nat) :
    ∃ a : Arr K, b.readData K ⟨buf, p⟩ = .ok a ∧ a.width = w ∧ a.data.WF ∧ a.data.nx = nx ∧ a.data.ny = ny ∧
      ∀ i j, i < ny → j < nx → a.data.rows[i]?.bind (·[j]?) =
        some (item K w ((its.drop ((j * ny + (ny - 1 - i)) * w)).take w)) := by
  obtain ⟨h1, h2, h3, h4⟩ := hf
  have h3' : w < 2 ^ 16 := by rcases h3 with rfl | rfl | rfl <;> decide
  have hw : 0 < w := by rcases h3 with rfl | rfl | rfl <;> decide
  obtain ⟨pre, rest, hg⟩ := at_goto h p
  unfold Block.readData
  rw [h.1]
  dsimp only [kind]
  rw [hg]
  dsimp only
  have e1 : here pre (content (.array nx ny w its) ++ rest) =
      here pre ((natBytes false 2 nx ++ natBytes false 2 ny ++ natBytes false 2 w) ++ (its ++ rest)) := by
    simp [content]
  rw [e1]
  have r1 := here_read pre (natBytes false 2 nx ++ natBytes false 2 ny ++ natBytes false 2 w) (its ++ rest) 6
    (by simp [natBytes_length])
  have t1 : (natBytes false 2 nx ++ natBytes false 2 ny ++ natBytes false 2 w).take 2 = natBytes false 2 nx := by
    rw [List.append_assoc, List.take_append_of_le_length (by simp [natBytes_length]),
      List.take_of_length_le (by simp [natBytes_length])]
  have t2 : ((natBytes false 2 nx ++ natBytes false 2 ny ++ natBytes false 2 w).drop 2).take 2 =
      natBytes false 2 ny := by
    rw [List.append_assoc, List.drop_append_of_le_length (by simp [natBytes_length]),
      List.drop_of_length_le (by simp [natBytes_length]), List.nil_append,
      List.take_append_of_le_length (by simp [natBytes_length]), List.take_of_length_le (by simp [natBytes_length])]
  have t3 : (natBytes false 2 nx ++ natBytes false 2 ny ++ natBytes false 2 w).drop 4 = natBytes false 2 w := by
    rw [List.drop_append_of_le_length (by simp [natBytes_length]),
      List.drop_of_length_le (by simp [natBytes_length]), List.nil_append]
  unfold Block.readArray
  rw [r1]
  dsimp only
  rw [t1, t2, t3, bytesNat_natBytes _ _ _ (by simpa using h1), bytesNat_natBytes _ _ _ (by simpa using h2),
    bytesNat_natBytes _ _ _ (by simpa using h3')]
  rw [if_neg (by simp [natBytes_length])]
  have hsz : ((nx * ny * w : Nat) : Int) = b.size - 6 := by
    rw [h.2.1]
    simp only [content, List.length_append, natBytes_length, h4]
    push_cast; ring
  rw [if_neg (by rw [hsz]; simp)]
  have hitem : ∃ dec, itemOf K w = some dec ∧ dec = item K w := by
    rcases h3 with rfl | rfl | rfl
    · refine ⟨_, rfl, ?_⟩
      funext bs
      simp only [item, if_true, bytesInt]
      simp
    · exact ⟨_, rfl, rfl⟩
    · exact ⟨_, rfl, rfl⟩
  obtain ⟨dec, hd1, hd2⟩ := hitem
  rw [hd1]
  dsimp only
  have hlen : (pre ++ (natBytes false 2 nx ++ natBytes false 2 ny ++ natBytes false 2 w)).length + nx * ny * w ≤
      ((pre ++ (natBytes false 2 nx ++ natBytes false 2 ny ++ natBytes false 2 w)) ++ (its ++ rest)).length := by
    rw [List.length_append (bs := its ++ rest), List.length_append (as := its), h4]
    omega
  obtain ⟨l, k1, k2, k3⟩ := readArray_at hw (dec := dec) hlen
  rw [show here (pre ++ (natBytes false 2 nx ++ natBytes false 2 ny ++ natBytes false 2 w)) (its ++ rest) =
    ⟨(pre ++ (natBytes false 2 nx ++ natBytes false 2 ny ++ natBytes false 2 w)) ++ (its ++ rest),
      (pre ++ (natBytes false 2 nx ++ natBytes false 2 ny ++ natBytes false 2 w)).length⟩ from rfl, k1]
  dsimp only
  rw [if_neg (by rw [k2]; simp)]
  refine ⟨_, rfl, rfl, ?_, rfl, by simp [rotated, Grid.ofFn, Grid.ny], fun i j hi hj => ?_⟩
  · intro r hr
    simp only [rotated, Grid.ofFn, List.mem_map] at hr
    obtain ⟨i, -, rfl⟩ := hr
    simp [rotated, Grid.ofFn]
  · have hk : j * ny + (ny - 1 - i) < nx * ny := by
      calc j * ny + (ny - 1 - i) < j * ny + ny := by omega
        _ = (j + 1) * ny := by ring
        _ ≤ nx * ny := Nat.mul_le_mul_right _ hj
    simp only [rotated, Grid.ofFn, List.getElem?_map, List.getElem?_range hi, Option.map_some, Option.bind_some,
      List.getElem?_range hj, Option.some.injEq]
    rw [List.getD_eq_getElem?_getD, k3 _ hk, Option.getD_some, hd2]
    congr 1
    have hk2 : (j * ny + (ny - 1 - i)) * w + w ≤ its.length := by
      rw [h4]
      calc (j * ny + (ny - 1 - i)) * w + w = (j * ny + (ny - 1 - i) + 1) * w := by ring
        _ ≤ nx * ny * w := Nat.mul_le_mul_right _ hk
    rw [← List.drop_drop, List.drop_left, List.drop_append_of_le_length (by omega),
      List.take_append_of_le_length (by rw [List.length_drop]; omega)]

end Opd
end Surfalize
