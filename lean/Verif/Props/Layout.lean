import Verif.Lemmas.Layout
/-!
# C57: Fixed header fields round-trip
-/
set_option linter.unusedSectionVars false
namespace Surfalize
namespace Props
open LayoutM LayoutSpec
variable {K : Type} [Field K] [LinearOrder K] [IsStrictOrderedRing K]

theorem readsAs_int {s big : Bool} {w : Nat} {v v' : Val K} (h : ReadsAs (.int s big w) v v') :
    v' = v := by
  cases v with
  | int i => exact h
  | num x => exact h.elim
  | str s => exact h.elim
  | bytes b => exact h.elim

theorem mem_names {name : String} {fmt : Format K} {es : List (Entry K)}
    (h : Entry.field name fmt ∈ es) : name ∈ names es := by
  induction es with
  | nil => cases h
  | cons e es ih =>
    rcases List.mem_cons.1 h with h' | h'
    · rw [← h']; simp [names]
    · cases e with
      | reserved n => exact ih h'
      | field n f => simp only [names, List.mem_cons]; exact Or.inr (ih h')

theorem dict_at_ok {d : Dict K} {n : String} {v : Val K} (h : d.at n = .ok v) : d n = some v := by
  unfold Dict.at at h
  cases hd : d n with
  | none => rw [hd] at h; cases h
  | some u => rw [hd] at h; cases h; rfl

theorem dict_at_some {d : Dict K} {n : String} {v : Val K} (h : d n = some v) : d.at n = .ok v := by
  simp [Dict.at, h]

theorem layout_go {c : FloatCodec K} (hc : c.Nearest) (enc : Encoding) (d : Dict K)
    (es : List (Entry K)) :
    ∀ (ints : List String) (d0 : Dict K) (pre b post : Bytes),
      WellFormed ints es → (names es).Nodup → (∀ n ∈ ints, n ∉ names es) →
      (∀ n ∈ ints, d0 n = d n) → TextFits d es → write c d es = .ok b →
      ∃ df, readGo enc d0 ⟨pre ++ b ++ post, pre.length⟩ es =
          .ok (df, ⟨pre ++ b ++ post, pre.length + b.length⟩) ∧
        (∀ n, n ∉ names es → df n = d0 n) ∧
        ∀ name fmt, Entry.field name fmt ∈ es →
          ∃ v v', d name = some v ∧ df name = some v' ∧ ReadsBack d fmt v v' := by
  induction es with
  | nil =>
    intro ints d0 pre b post _ _ _ _ _ hw
    cases hw
    refine ⟨d0, by simp [readGo], fun _ _ => rfl, fun _ _ h => by cases h⟩
  | cons e es ih =>
    intro ints d0 pre b post hwf hnd hdisj hagree htf hw
    simp only [write] at hw
    cases hbe : e.write c d with
    | error x => rw [hbe] at hw; cases hw
    | ok be =>
      rw [hbe] at hw
      simp only at hw
      cases hbs : write c d es with
      | error x => rw [hbs] at hw; cases hw
      | ok bs =>
        rw [hbs] at hw
        cases hw
        have hbuf : pre ++ (be ++ bs) ++ post = pre ++ be ++ (bs ++ post) := by simp
        have hbuf2 : pre ++ (be ++ bs) ++ post = (pre ++ be) ++ bs ++ post := by simp
        have hblen : pre.length + (be ++ bs).length = (pre ++ be).length + bs.length := by
          simp [Nat.add_assoc]
        cases e with
        | reserved n =>
          simp only [Entry.write, Except.ok.injEq] at hbe
          obtain ⟨df, h1, h2, h3⟩ := ih ints d0 (pre ++ be) bs post hwf hnd hdisj hagree htf hbs
          refine ⟨df, ?_, h2, ?_⟩
          · simp only [readGo, Entry.read, Handle.skip]
            rw [hblen, hbuf2, ← h1]
            have : pre.length + n = (pre ++ be).length := by rw [← hbe]; simp
            rw [this]
          · intro name fmt hm
            exact h3 name fmt (by simpa using hm)
        | field name fmt =>
          simp only [names, List.nodup_cons] at hnd
          have hwidth := entry_width hc d _ be hbe
          -- the value read for this entry
          have hstep : ∃ v v', d name = some v ∧ ReadsBack d fmt v v' ∧
              (Entry.field name fmt).read enc d0 ⟨pre ++ (be ++ bs) ++ post, pre.length⟩ =
                .ok (d0.set name v', ⟨pre ++ (be ++ bs) ++ post, (pre ++ be).length⟩) := by
            rw [hbuf]
            cases fmt with
            | fixed f =>
              simp only [Entry.write] at hbe
              cases hv : d.at name with
              | error x => rw [hv] at hbe; cases hbe
              | ok v =>
                rw [hv] at hbe
                simp only at hbe
                have hvs := dict_at_ok hv
                obtain ⟨v', h1, h2⟩ := readFmt_pack hc enc f v be hbe
                  (by rintro s big w rfl; exact hwf.1)
                  (by
                    rintro rfl
                    obtain ⟨⟨i, hi⟩, -⟩ := htf
                    rw [hvs] at hi
                    exact ⟨i, Option.some.inj hi⟩)
                  (by
                    rintro n rfl
                    obtain ⟨⟨s, u, hs, hu⟩, -⟩ := htf
                    rw [hvs] at hs
                    exact ⟨s, u, Option.some.inj hs, hu⟩) pre (bs ++ post)
                refine ⟨v, v', hvs, h2, ?_⟩
                simp only [Entry.read, h1]
                rw [List.length_append, ← pack_length hc f _ be hbe]
            | apply f rd wr =>
              obtain ⟨⟨s, big, w, rfl, hw0⟩, hinv, -⟩ := hwf
              simp only [Entry.write] at hbe
              cases hv : d.at name with
              | error x => rw [hv] at hbe; cases hbe
              | ok v =>
                rw [hv] at hbe
                simp only at hbe
                cases hwr : wr v with
                | error x => rw [hwr] at hbe; cases hbe
                | ok v1 =>
                  rw [hwr] at hbe
                  simp only at hbe
                  obtain ⟨⟨i, rfl⟩, hrd⟩ := hinv v v1 hwr
                  obtain ⟨u, v', h1, h2, h3⟩ := unpack_pack hc enc (.int s big w) (.int i) be hbe
                    (by rintro s big w h; cases h; exact hw0) (by intro h; cases h)
                    (by intro n h; cases h)
                  have hu : u = .int i := by
                    have hl := pack_length hc _ _ be hbe
                    unfold Fmt.unpack at h1
                    rw [if_neg (by simpa using hl)] at h1
                    simp only [Except.ok.injEq] at h1
                    subst h1
                    simp only [decodeValue, Except.ok.injEq] at h2
                    subst h2
                    exact h3
                  subst hu
                  refine ⟨v, v, dict_at_ok hv, rfl, ?_⟩
                  simp only [Entry.read]
                  rw [read_at pre be (bs ++ post) _ (pack_length hc _ _ be hbe)]
                  simp only [h1, hrd]
                  rw [List.length_append, pack_length hc _ _ be hbe]
            | fromPrevious p =>
              obtain ⟨hp, -⟩ := hwf
              obtain ⟨⟨s, u, k, hk, hs, hu⟩, -⟩ := htf
              have hpd : previousFormat d0 p = previousFormat d p := by
                unfold previousFormat Dict.at; rw [hagree p hp]
              simp only [Entry.write] at hbe
              cases hpf : previousFormat d p with
              | error x => rw [hpf] at hbe; cases hbe
              | ok f =>
                have hf : f = .str k.toNat ∧ 0 ≤ k := by
                  unfold previousFormat at hpf
                  rw [dict_at_some hk] at hpf
                  simp only at hpf
                  split at hpf
                  · cases hpf; exact ⟨rfl, by assumption⟩
                  · cases hpf
                obtain ⟨rfl, hk0⟩ := hf
                rw [hpf, dict_at_some hs] at hbe
                simp only at hbe
                obtain ⟨v', h1, h2⟩ := readFmt_pack hc enc _ _ be hbe
                  (by intro _ _ _ h; cases h) (by intro h; cases h)
                  (by rintro n h; cases h; exact ⟨s, u, rfl, hu⟩) pre (bs ++ post)
                refine ⟨_, v', hs, ⟨k.toNat, by rw [hk, Int.toNat_of_nonneg hk0], h2⟩, ?_⟩
                simp only [Entry.read, hpd, hpf, h1]
                rw [List.length_append, ← pack_length hc _ _ be hbe]
          obtain ⟨v, v', hdv, hrb, hread⟩ := hstep
          -- the rest
          have hne : ∀ n ∈ ints, n ≠ name := fun n hn h => hdisj n hn (by simp [names, h])
          have htf' : TextFits d es := by
            cases fmt with
            | fixed f => cases f <;> first | exact htf.2 | exact htf
            | apply f rd wr => exact htf
            | fromPrevious p => exact htf.2
          have hrest : ∃ ints', WellFormed ints' es ∧ (∀ n ∈ ints', n ∉ names es) ∧
              ∀ n ∈ ints', (d0.set name v') n = d n := by
            have hold : ∀ n ∈ ints, (d0.set name v') n = d n := by
              intro n hn
              unfold Dict.set
              rw [if_neg (hne n hn)]; exact hagree n hn
            have hold2 : ∀ n ∈ ints, n ∉ names es := fun n hn h =>
              hdisj n hn (by simp [names, h])
            cases fmt with
            | fixed f =>
              cases f with
              | int s big w =>
                refine ⟨name :: ints, hwf.2, ?_, ?_⟩
                · intro n hn
                  rcases List.mem_cons.1 hn with rfl | hn
                  · exact hnd.1
                  · exact hold2 n hn
                · intro n hn
                  rcases List.mem_cons.1 hn with rfl | hn
                  · simp only [Dict.set, if_true]
                    rw [hdv, readsAs_int hrb]
                  · exact hold n hn
              | bool => exact ⟨ints, hwf, hold2, hold⟩
              | flt _ _ _ => exact ⟨ints, hwf, hold2, hold⟩
              | str _ => exact ⟨ints, hwf, hold2, hold⟩
            | apply f rd wr => exact ⟨ints, hwf.2.2, hold2, hold⟩
            | fromPrevious p => exact ⟨ints, hwf.2, hold2, hold⟩
          obtain ⟨ints', hw', hd', ha'⟩ := hrest
          obtain ⟨df, h1, h2, h3⟩ := ih ints' (d0.set name v') (pre ++ be) bs post hw' hnd.2 hd'
            ha' htf' hbs
          refine ⟨df, ?_, ?_, ?_⟩
          · simp only [readGo, hread]
            rw [hblen, hbuf2]; exact h1
          · intro n hn
            simp only [names, List.mem_cons, not_or] at hn
            rw [h2 n hn.2]
            simp [Dict.set, hn.1]
          · intro n f hm
            rcases List.mem_cons.1 hm with h | h
            · cases h
              exact ⟨v, v', hdv, by rw [h2 name hnd.1]; simp [Dict.set], hrb⟩
            · exact h3 n f h

/-- A header written from `d` occupies the sum of the declared widths; read back from any
place in a file it yields, for every field, the written value (integers exactly, floats
rounded to the nearest float, texts cut to the field and without trailing spaces and NULs)
and leaves the file position right behind it. -/
theorem C57_round_trip_partial {c : FloatCodec K} (hc : c.Nearest) (enc : Encoding) (L : List (Entry K))
    (hwf : WellFormed [] L) (hnd : (names L).Nodup) (d : Dict K) (htf : TextFits d L) (b : Bytes)
    (hw : write c d L = .ok b) (pre post : Bytes) :
    b.length = (L.map (width d)).sum ∧
    ∃ d', read enc ⟨pre ++ b ++ post, pre.length⟩ L =
        .ok (d', ⟨pre ++ b ++ post, pre.length + b.length⟩) ∧
      (∀ n, n ∉ names L → d' n = none) ∧
      ∀ name fmt, Entry.field name fmt ∈ L →
        ∃ v v', d name = some v ∧ d' name = some v' ∧ ReadsBack d fmt v v' := by
  refine ⟨?_, ?_⟩
  · clear hwf hnd htf
    induction L generalizing b with
    | nil => cases hw; rfl
    | cons e es ih =>
      obtain ⟨b1, b2, h1, h2, rfl⟩ := write_append (c := c) d [e] es b hw
      simp only [write] at h1
      cases he : e.write c d with
      | error x => rw [he] at h1; cases h1
      | ok be =>
        rw [he] at h1
        simp only [List.append_nil, Except.ok.injEq] at h1
        subst h1
        rw [List.length_append, List.map_cons, List.sum_cons, ih b2 h2, entry_width hc d e be he]
  · obtain ⟨df, h1, h2, h3⟩ := layout_go hc enc d L [] (fun _ => none) pre b post hwf hnd
      (by simp) (by simp) htf hw
    exact ⟨df, h1, h2, h3⟩

/-- No field shifts another: whatever the values, the bytes of an entry stand at the sum of
the declared widths of the entries before it and take up its declared width. -/
theorem C57_offsets {c : FloatCodec K} (hc : c.Nearest) (d : Dict K) (L1 L2 : List (Entry K))
    (e : Entry K) (b : Bytes) (hw : write c d (L1 ++ e :: L2) = .ok b) :
    ∃ be, e.write c d = .ok be ∧
      (b.drop (L1.map (width d)).sum).take (width d e) = be := by
  obtain ⟨b1, b2, h1, h2, rfl⟩ := write_append (c := c) d L1 (e :: L2) b hw
  have hl1 : b1.length = (L1.map (width d)).sum := by
    clear hw h2
    induction L1 generalizing b1 with
    | nil => cases h1; rfl
    | cons x xs ih =>
      simp only [write] at h1
      cases hx : x.write c d with
      | error y => rw [hx] at h1; cases h1
      | ok bx =>
        rw [hx] at h1
        simp only at h1
        cases hxs : write c d xs with
        | error y => rw [hxs] at h1; cases h1
        | ok bxs =>
          rw [hxs] at h1
          cases h1
          rw [List.length_append, List.map_cons, List.sum_cons, ih bxs hxs, entry_width hc d x bx hx]
  simp only [write] at h2
  cases he : e.write c d with
  | error y => rw [he] at h2; cases h2
  | ok be =>
    rw [he] at h2
    simp only at h2
    cases hxs : write c d L2 with
    | error y => rw [hxs] at h2; cases h2
    | ok bxs =>
      rw [hxs] at h2
      cases h2
      refine ⟨be, rfl, ?_⟩
      rw [← hl1, ← entry_width hc d e be he]
      simp

/-- Reserved areas are written as zero bytes, at the place the declared widths before them give. -/
theorem C57_reserved {c : FloatCodec K} (hc : c.Nearest) (d : Dict K) (L1 L2 : List (Entry K))
    (n : Nat) (b : Bytes) (hw : write c d (L1 ++ .reserved n :: L2) = .ok b) :
    ∀ k < n, b[(L1.map (width d)).sum + k]? = some 0 := by
  intro k hk
  obtain ⟨be, h1, h2⟩ := C57_offsets hc d L1 L2 (.reserved n) b hw
  have h3 : be = List.replicate n 0 := by simpa [Entry.write] using h1.symm
  have h4 : width d (.reserved n) = n := rfl
  rw [h3, h4] at h2
  have h5 := congrArg (fun l => l[k]?) h2
  simpa [List.getElem?_take, List.getElem?_drop, List.getElem?_replicate, hk] using h5

theorem utf8?_some {bs : Bytes} {s : List Char} (h : utf8? bs = some s) : utf8 s = bs := by
  unfold utf8? at h
  rw [Option.map_eq_some_iff] at h
  obtain ⟨a, ha, hs⟩ := h
  have hsome : bs.toByteArray.utf8Decode?.isSome := by rw [ha]; rfl
  have h2 := ByteArray.utf8Encode_get_utf8Decode? (b := bs.toByteArray) (h := hsome)
  have h3 : (bs.toByteArray.utf8Decode?.get hsome) = a := by simp [ha]
  rw [h3, hs] at h2
  have h4 := utf8_toByteArray s
  rw [h2] at h4
  have h5 := congrArg ByteArray.data h4
  simpa using h5

/-- A text field is readable after writing exactly if the text is cut between two characters;
otherwise the writer succeeds and reading the file as UTF-8 fails. -/
theorem C57_text_iff (c : FloatCodec K) (n : Nat) (s : List Char) (pre post : Bytes) :
    ∃ b, Fmt.pack c (.str n) (encodeValue (.str n) (.str s : Val K)) = .ok b ∧ b.length = n ∧
      ((∃ u, CutTo n s u) →
        ∃ u t, CutTo n s u ∧ Stripped u t ∧ readFmt (K := K) .utf8 (.str n)
          ⟨pre ++ b ++ post, pre.length⟩ = .ok (.str t, ⟨pre ++ b ++ post, pre.length + n⟩)) ∧
      ((¬ ∃ u, CutTo n s u) →
        readFmt (K := K) .utf8 (.str n) ⟨pre ++ b ++ post, pre.length⟩ = .error .unicode) := by
  have hlen : n ≤ (utf8 (ljust n s)).length := by
    have := utf8_length_le (ljust n s)
    simp only [ljust, List.length_append, List.length_replicate] at this ⊢
    omega
  refine ⟨(utf8 (ljust n s)).take n, ?_, by simpa using hlen, ?_, ?_⟩
  · simp [Fmt.pack, encodeValue, Fmt.size, Nat.sub_eq_zero_of_le hlen]
  · rintro ⟨u, hu⟩
    obtain ⟨k, hk, -⟩ := text_field n s u hu
    refine ⟨u, rstrip padChar u, hu, rstrip_spec u, ?_⟩
    unfold readFmt
    rw [read_at pre _ post (Fmt.size (.str n)) (by simpa [Fmt.size] using hlen)]
    have hl : ((utf8 (ljust n s)).take n).length = n := by simpa using hlen
    simp only [Fmt.unpack, Fmt.size, hl, ne_eq, not_true_eq_false, if_false, decodeValue, decode]
    rw [hk, utf8?_utf8]
    simp only [rstrip_append_spaces]
  · intro hno
    unfold readFmt
    rw [read_at pre _ post (Fmt.size (.str n)) (by simpa [Fmt.size] using hlen)]
    have hl : ((utf8 (ljust n s)).take n).length = n := by simpa using hlen
    simp only [Fmt.unpack, Fmt.size, hl, ne_eq, not_true_eq_false, if_false, decodeValue, decode]
    cases hd : utf8? ((utf8 (ljust n s)).take n) with
    | none => rfl
    | some t =>
      exfalso
      apply hno
      have ht := utf8?_some hd
      by_cases hn : n ≤ (utf8 s).length
      · have hcut : (utf8 (ljust n s)).take n = (utf8 s).take n := by
          simp only [ljust, utf8_append]
          rw [List.take_append_of_le_length hn]
        rw [hcut] at ht
        refine ⟨t, ?_, ht⟩
        have hpre : utf8 t ++ (utf8 s).drop n = utf8 s := by
          rw [ht]; exact List.take_append_drop n _
        refine List.isPrefix_of_utf8Encode_append_eq_utf8Encode
          (((utf8 s).drop n).toByteArray) ?_
        rw [← utf8_toByteArray, ← utf8_toByteArray, ← List.toByteArray_append, hpre]
      · exact ⟨s, List.prefix_refl s, by rw [List.take_of_length_le (by omega)]⟩

/-- Reading never takes a value from beyond the end of the file: a fixed field at offset
`k` of a successfully read layout lies completely inside the file. -/
theorem C57_no_short_read (enc : Encoding) (L1 L2 : List (Entry K)) (name : String) (f : Fmt)
    (d0 : Dict K) (hfix : ∀ e ∈ L1, (∃ n, e = .reserved n) ∨ ∃ n g, e = .field n (.fixed g))
    (hpos : 0 < bytesOf f)
    (h : Handle) (df : Dict K) (h' : Handle)
    (hr : readGo enc d0 h (L1 ++ .field name (.fixed f) :: L2) = .ok (df, h')) :
    h.pos + (L1.map (width (fun _ => none : Dict K))).sum + bytesOf f ≤ h.buf.length := by
  induction L1 generalizing d0 h with
  | nil =>
    simp only [List.nil_append, readGo, Entry.read] at hr
    cases hx : readFmt (K := K) enc f h with
    | error e => rw [hx] at hr; cases hr
    | ok r =>
      unfold readFmt at hx
      cases hu : f.unpack K (h.read f.size).1 with
      | error e => rw [hu] at hx; cases hx
      | ok u =>
        unfold Fmt.unpack at hu
        by_cases hl : (h.read f.size).1.length ≠ f.size
        · rw [if_pos hl] at hu; cases hu
        · simp only [Handle.read, List.length_take, List.length_drop, ne_eq, not_not] at hl
          rw [size_eq] at hl
          simp only [List.map_nil, List.sum_nil]
          omega
  | cons e es ih =>
    have hes : ∀ e ∈ es, (∃ n, e = .reserved n) ∨ ∃ n g, e = .field n (.fixed g) :=
      fun x hx => hfix x (by simp [hx])
    simp only [List.cons_append, readGo] at hr
    rcases hfix e (by simp) with ⟨n, rfl⟩ | ⟨n, g, rfl⟩
    · simp only [Entry.read] at hr
      have := ih d0 hes (h.skip n) hr
      simp only [Handle.skip] at this
      simp only [List.map_cons, List.sum_cons, width]
      omega
    · simp only [Entry.read] at hr
      cases hx : readFmt (K := K) enc g h with
      | error e => rw [hx] at hr; cases hr
      | ok r =>
        rw [hx] at hr
        have := ih _ hes r.2 hr
        unfold readFmt at hx
        cases hu : g.unpack K (h.read g.size).1 with
        | error e => rw [hu] at hx; cases hx
        | ok u =>
          rw [hu] at hx
          simp only at hx
          cases hdv : decodeValue enc u with
          | error e => rw [hdv] at hx; cases hx
          | ok v' =>
            rw [hdv] at hx
            cases hx
            unfold Fmt.unpack at hu
            by_cases hl : (h.read g.size).1.length ≠ g.size
            · rw [if_pos hl] at hu; cases hu
            · rw [ne_eq, not_not] at hl
              have hp : (h.read g.size).2.pos = h.pos + g.size := by
                show h.pos + (h.read g.size).1.length = _
                rw [hl]
              have hb : (h.read g.size).2.buf = h.buf := rfl
              rw [hp, hb, size_eq] at this
              simp only [List.map_cons, List.sum_cons, width]
              omega

/-! ### Examples -/

/-- A layout with an integer, a text, a length-prefixed text, a gap and a float. -/
def demoLayout : List (Entry ℚ) :=
  [.field "n" (.fixed (.int true false 2)), .field "code" (.fixed (.str 4)),
   .field "len" (.fixed (.int false false 1)), .reserved 3,
   .field "name" (.fromPrevious "len"), .field "x" (.fixed (.flt false false 1))]

def demoDict : Dict ℚ := fun k =>
  if k = "n" then some (.int (-5)) else
  if k = "code" then some (.str ['a', 'b']) else
  if k = "len" then some (.int 3) else
  if k = "name" then some (.str ['µ', 'm']) else
  if k = "x" then some (.num (.fin (1/2))) else none

theorem cutTo_self (n : Nat) (s : List Char) (h : (utf8 s).length ≤ n) : CutTo n s s :=
  ⟨List.prefix_refl s, (List.take_of_length_le h).symm⟩

/-- The hypotheses of the round trip are met by this header (with any nearest encoder). -/
example : WellFormed [] demoLayout ∧ (names demoLayout).Nodup ∧ TextFits demoDict demoLayout := by
  refine ⟨?_, by decide, ?_⟩
  · simp [demoLayout, WellFormed]
  · simp only [demoLayout, TextFits]
    refine ⟨⟨['a', 'b'], ['a', 'b'], by simp [demoDict], cutTo_self _ _ (by decide)⟩,
      ⟨['µ', 'm'], ['µ', 'm'], 3, by simp [demoDict], by simp [demoDict],
        cutTo_self _ _ (by decide)⟩, trivial⟩

/-- … and it can be written. -/
example (c : FloatCodec ℚ) : ∃ b, write c demoDict demoLayout = .ok b := by
  have ht : ¬ (Fmt.ff false).threshold ℚ ≤ |(1 : ℚ) / 2| := by
    have : |(1 : ℚ) / 2| = 1 / 2 := abs_of_pos (by norm_num)
    rw [this]
    decide +kernel
  refine ⟨_, by
    simp [write, demoLayout, demoDict, Entry.write, Dict.at, Fmt.pack, encodeValue, intMin, intMax,
      previousFormat, Fmt.packFloat]
    simp at ht
    rw [if_neg (by simpa using ht)]⟩

/-- A micro sign does not fit into one byte: the field is written but unreadable. -/
example (c : FloatCodec ℚ) : ∃ b, Fmt.pack c (.str 1) (encodeValue (.str 1) (.str ['µ'] : Val ℚ))
    = .ok b ∧ readFmt (K := ℚ) .utf8 (.str 1) ⟨[] ++ b ++ [], 0⟩ = .error .unicode := by
  obtain ⟨b, h1, -, -, h2⟩ := C57_text_iff (K := ℚ) c 1 ['µ'] [] []
  refine ⟨b, h1, h2 ?_⟩
  rintro ⟨u, hu, hcut⟩
  have hl := congrArg List.length hcut
  rcases u with _ | ⟨x, u⟩
  · revert hl; decide
  · obtain ⟨t, ht⟩ := hu
    have hu' : x :: u = ['µ'] := by
      simp only [List.cons_append, List.cons.injEq, List.append_eq_nil_iff] at ht
      simp [ht.1, ht.2.1]
    rw [hu'] at hl
    revert hl; decide

end Props
end Surfalize
