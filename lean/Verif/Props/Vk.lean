import Verif.Lemmas.ArrayAt
import Verif.Lemmas.LayoutRead
import Verif.Lemmas.Wide
import Verif.Model.Vk
import Verif.Spec.Vk
/-!
# Properties of VK4, VK6 and VK7 files (C80, C81)
-/
set_option linter.unusedSectionVars false
namespace Surfalize.Props
open Surfalize Vk FileArr LayoutM VkSpec

variable {K : Type} [Field K] [LinearOrder K]

private theorem table_fixed : ∀ e ∈ offsetTable K, isFixed e = true := by rw [← List.all_eq_true]; rfl
private theorem cond_fixed : ∀ e ∈ measurementConditions K, isFixed e = true := by rw [← List.all_eq_true]; rfl
private theorem height_fixed : ∀ e ∈ heightData K, isFixed e = true := by rw [← List.all_eq_true]; rfl
private theorem image_fixed : ∀ e ∈ imageData K, isFixed e = true := by rw [← List.all_eq_true]; rfl
private theorem table_total : total (offsetTable K) = 68 := by
  simp [offsetTable, u32, total, entrySize, Fmt.size]
private theorem cond_total : total (measurementConditions K) = 304 := by
  simp [measurementConditions, u32, total, entrySize, Fmt.size]
private theorem height_total : total (heightData K) = 796 := by
  simp [heightData, u32, total, entrySize, Fmt.size]
private theorem image_total : total (imageData K) = 20 := by
  simp [imageData, u32, total, entrySize, Fmt.size]

/-- A number of a block read at `p`. -/
private theorem word_of {es : List (Entry K)} (hf : ∀ e ∈ es, isFixed e = true) {buf : Bytes} {p : Nat} {d : Dict K}
    {h' : Handle} (hr : LayoutM.read .utf8 ⟨buf, p⟩ es = .ok (d, h')) {name : String} {off : Nat}
    (hl : locate name es p = some (off, .int false false 4)) :
    getInt d name = .ok (word buf off) ∧ off + 4 ≤ buf.length := by
  have h1 := readGo_int hf hr hl
  constructor
  · unfold getInt
    rw [h1.1]
    simp [bytesInt, bytesNat, word, NmsSpec.uint]
  · have := h1.2
    dsimp only at this
    rw [List.length_take, List.length_drop] at this
    omega

private theorem block_ok {es : List (Entry K)} (hf : ∀ e ∈ es, isFixed e = true) {buf : Bytes} {p : Nat}
    (hlen : p + total es ≤ buf.length) (hc : ∀ q ∈ places es p, CanRead .utf8 buf q) :
    ∃ d, LayoutM.read .utf8 ⟨buf, p⟩ es = .ok (d, ⟨buf, p + total es⟩) :=
  readGo_succeeds .utf8 es (fun _ => none) buf p hf hlen hc

/-! ## Blocks of numbers -/

private structure DigitFields (buf : Bytes) (off : Nat) (d : Dict K) : Prop where
  w : getInt d "width" = .ok (columns buf off)
  h : getInt d "height" = .ok (rows buf off)
  b : getInt d "bit_depth" = .ok (VkSpec.bits buf off)
  s : getInt d "data_byte_size" = .ok (VkSpec.size buf off)

private theorem digit_fields {buf : Bytes} {off : Nat} {d : Dict K} {h' : Handle}
    (hr : LayoutM.read .utf8 ⟨buf, off⟩ (heightData K) = .ok (d, h')) : DigitFields buf off d :=
  ⟨(word_of height_fixed hr rfl).1, (word_of height_fixed hr rfl).1, (word_of height_fixed hr rfl).1,
    (word_of height_fixed hr rfl).1⟩

private theorem image_fields {buf : Bytes} {off : Nat} {d : Dict K} {h' : Handle}
    (hr : LayoutM.read .utf8 ⟨buf, off⟩ (imageData K) = .ok (d, h')) : DigitFields buf off d :=
  ⟨(word_of image_fixed hr rfl).1, (word_of image_fixed hr rfl).1, (word_of image_fixed hr rfl).1,
    (word_of image_fixed hr rfl).1⟩

private theorem itemSize_ok {n : Nat} {b : Nat} (h : itemSize (n : Int) = .ok b) :
    (n = 16 ∨ n = 32) ∧ b = n / 8 ∧ 0 < b := by
  unfold itemSize at h
  split at h
  · rename_i e
    cases h
    have : n = 16 := by omega
    subst this
    exact ⟨.inl rfl, rfl, by decide⟩
  · split at h
    · rename_i e
      cases h
      have : n = 32 := by omega
      subst this
      exact ⟨.inr rfl, rfl, by decide⟩
    · cases h

/-- A block of numbers that could be read. -/
private theorem digits_spec {buf : Bytes} {off p : Nat} {g : Grid Int}
    (h : readHeightLayer K off ⟨buf, p⟩ = .ok g) :
    (VkSpec.bits buf off = 16 ∨ VkSpec.bits buf off = 32) ∧
      VkSpec.size buf off * 8 = columns buf off * rows buf off * VkSpec.bits buf off ∧
      (0 < VkSpec.size buf off → off + 796 + VkSpec.size buf off ≤ buf.length) ∧
      g.WF ∧ g.nx = columns buf off ∧ g.ny = rows buf off ∧
      ∀ i j, i < rows buf off → j < columns buf off →
        g.rows[i]?.bind (·[j]?) = some (digit buf off i j : Int) := by
  unfold readHeightLayer at h
  rw [show (Handle.mk buf p).seek off = ⟨buf, off⟩ from rfl] at h
  cases h1 : LayoutM.read (K := K) .utf8 ⟨buf, off⟩ (heightData K) with
  | error e => rw [h1] at h; cases h
  | ok a =>
    obtain ⟨d, h1'⟩ := a
    have e1 := read_end height_fixed h1
    rw [height_total] at e1
    have hf := digit_fields h1
    rw [h1] at h
    simp only [hf.w, hf.h, hf.b, hf.s] at h
    split at h
    · cases h
    rename_i hsz
    rw [not_not] at hsz
    have hsz' : VkSpec.size buf off * 8 = columns buf off * rows buf off * VkSpec.bits buf off := by exact_mod_cast hsz
    cases hb : itemSize (VkSpec.bits buf off : Int) with
    | error e => rw [hb] at h; cases h
    | ok b =>
      obtain ⟨b1, b2, b3⟩ := itemSize_ok hb
      rw [hb] at h
      dsimp only at h
      rw [show ((columns buf off : Int) * (rows buf off : Int)) = ((columns buf off * rows buf off : Nat) : Int) by
        push_cast; rfl, e1] at h
      dsimp only at h
      cases hr : readArray b (bytesInt false false b) ((columns buf off * rows buf off : Nat) : Int) 0
          ⟨buf, off + 796⟩ with
      | error e => rw [hr] at h; cases h
      | ok a =>
        obtain ⟨l, h2⟩ := a
        rw [hr] at h
        dsimp only at h
        obtain ⟨g1, g2, g3, g4, g5⟩ := array_grid b3 hr h
        have hs2 : VkSpec.size buf off = columns buf off * rows buf off * b := by
          have h8 : VkSpec.bits buf off = 8 * b := by omega
          rw [h8] at hsz'
          have : VkSpec.size buf off * 8 = columns buf off * rows buf off * b * 8 := by rw [hsz']; ring
          exact Nat.eq_of_mul_eq_mul_right (by decide) this
        refine ⟨b1, hsz', fun h0 => ?_, g1, g2, g3, fun i j hi hj => ?_⟩
        · have : 0 < columns buf off * rows buf off := by
            rcases Nat.eq_zero_or_pos (columns buf off * rows buf off) with h | h
            · rw [h] at hs2; omega
            · exact h
          have := g4 this
          omega
        · rw [g5 i j hi hj]
          simp only [bytesInt, bytesNat, digit, NmsSpec.uint, ← b2, Nat.mul_comm b]
          simp

/-- A sound block can be read. -/
private theorem digits_ok {buf : Bytes} {off p : Nat} (hs : SoundDigits buf off) :
    ∃ g, readHeightLayer K off ⟨buf, p⟩ = .ok g := by
  have hc := hs.complete
  obtain ⟨d, h1⟩ := block_ok (K := K) height_fixed (buf := buf) (p := off) (by rw [height_total]; omega)
    (by simp [heightData, u32, places, CanRead])
  have hf := digit_fields h1
  rw [height_total] at h1
  have ⟨b, hb⟩ : ∃ b, itemSize (VkSpec.bits buf off : Int) = .ok b := by
    rcases hs.depth with h | h <;> rw [h] <;> exact ⟨_, rfl⟩
  obtain ⟨-, b2, b3⟩ := itemSize_ok hb
  have hs2 : VkSpec.size buf off = columns buf off * rows buf off * b := by
    have h8 : VkSpec.bits buf off = 8 * b := by rcases hs.depth with h | h <;> omega
    have hsz' := hs.agrees
    rw [h8] at hsz'
    have : VkSpec.size buf off * 8 = columns buf off * rows buf off * b * 8 := by rw [hsz']; ring
    exact Nat.eq_of_mul_eq_mul_right (by decide) this
  obtain ⟨l, g, k1, k2⟩ := array_grid_ok b3 (dec := bytesInt false false b) (nx := columns buf off)
    (ny := rows buf off) (buf := buf) (p := off + 796) (by omega)
  refine ⟨g, ?_⟩
  unfold readHeightLayer
  rw [show (Handle.mk buf p).seek off = ⟨buf, off⟩ from rfl, h1]
  simp only [hf.w, hf.h, hf.b, hf.s]
  rw [if_neg (by rw [not_not]; exact_mod_cast hs.agrees), hb]
  dsimp only
  rw [show ((columns buf off : Int) * (rows buf off : Int)) = ((columns buf off * rows buf off : Nat) : Int) by
        push_cast; rfl, k1]
  exact k2

/-- A block that states a wrong size is refused. -/
private theorem digits_corrupt {buf : Bytes} {off p : Nat} (hlen : off + 796 ≤ buf.length)
    (hs : VkSpec.size buf off * 8 ≠ columns buf off * rows buf off * VkSpec.bits buf off) :
    readHeightLayer K off ⟨buf, p⟩ = .error .corrupted := by
  obtain ⟨d, h1⟩ := block_ok (K := K) height_fixed (buf := buf) (p := off) (by rw [height_total]; omega)
    (by simp [heightData, u32, places, CanRead])
  have hf := digit_fields h1
  unfold readHeightLayer
  rw [show (Handle.mk buf p).seek off = ⟨buf, off⟩ from rfl, h1]
  simp only [hf.w, hf.h, hf.b, hf.s]
  rw [if_pos (by intro h; exact hs (by exact_mod_cast h))]

/-! ## Color images -/

/-- A color image that could be read. -/
private theorem rgb_spec {buf : Bytes} {off p : Nat} {im : Rgb} (h : readRgb K off ⟨buf, p⟩ = .ok im) :
    VkSpec.size buf off * 8 = columns buf off * rows buf off * VkSpec.bits buf off ∧
      ∀ i j, i < rows buf off → j < columns buf off →
        off + 20 + 3 * (i * columns buf off + j) + 3 ≤ buf.length ∧
        im.red.rows[i]?.bind (·[j]?) = some (color buf off 2 i j : Int) ∧
        im.green.rows[i]?.bind (·[j]?) = some (color buf off 1 i j : Int) ∧
        im.blue.rows[i]?.bind (·[j]?) = some (color buf off 0 i j : Int) := by
  unfold readRgb at h
  rw [show (Handle.mk buf p).seek off = ⟨buf, off⟩ from rfl] at h
  cases h1 : LayoutM.read (K := K) .utf8 ⟨buf, off⟩ (imageData K) with
  | error e => rw [h1] at h; cases h
  | ok a =>
    obtain ⟨d, h1'⟩ := a
    have e1 := read_end image_fixed h1
    rw [image_total] at e1
    have hf := image_fields h1
    rw [h1] at h
    simp only [hf.w, hf.h, hf.b, hf.s] at h
    split at h
    · cases h
    rename_i hsz
    rw [not_not] at hsz
    have hsz' : VkSpec.size buf off * 8 = columns buf off * rows buf off * VkSpec.bits buf off := by
      have : VkSpec.size buf off * (8 * 3) = columns buf off * rows buf off * 3 * VkSpec.bits buf off := by
        exact_mod_cast hsz
      have h3 : VkSpec.size buf off * 8 * 3 = columns buf off * rows buf off * VkSpec.bits buf off * 3 := by
        rw [Nat.mul_assoc, this]; ring
      exact Nat.eq_of_mul_eq_mul_right (by decide) h3
    rw [show ((columns buf off : Int) * (rows buf off : Int) * 3) = ((columns buf off * rows buf off * 3 : Nat) : Int) by
        push_cast; rfl, e1] at h
    dsimp only at h
    cases hr : readArray 1 (bytesInt false false 1) ((columns buf off * rows buf off * 3 : Nat) : Int) 0
        ⟨buf, off + 20⟩ with
    | error e => rw [hr] at h; cases h
    | ok a =>
      obtain ⟨l, h2⟩ := a
      rw [hr] at h
      dsimp only at h
      split at h
      · cases h
      rename_i hn
      rw [not_not] at hn
      have hn' : l.length = columns buf off * rows buf off * 3 := by
        have : l.length = rows buf off * columns buf off * 3 := by exact_mod_cast hn
        rw [this]; ring
      cases h
      refine ⟨hsz', fun i j hi hj => ?_⟩
      have hk : i * columns buf off + j + 1 ≤ columns buf off * rows buf off := by
        calc i * columns buf off + j + 1 ≤ i * columns buf off + columns buf off := by omega
          _ = columns buf off * (i + 1) := by ring
          _ ≤ columns buf off * rows buf off := Nat.mul_le_mul_left _ hi
      have hlen := readArray_full (by decide) hr hn' (by omega)
      obtain ⟨l2, k1, k2, k3⟩ := readArray_at (w := 1) (by decide) (dec := bytesInt false false 1) hlen
      rw [k1] at hr
      cases hr
      have hchan : ∀ c, c < 3 → (Vk.channel l ((rows buf off : Int).toNat) ((columns buf off : Int).toNat)
          c).rows[i]?.bind (·[j]?) = some (color buf off c i j : Int) := by
        intro c hc
        unfold Vk.channel Grid.ofFn
        rw [Int.toNat_natCast, Int.toNat_natCast]
        simp only [List.getElem?_map, List.getElem?_range hi, Option.map_some, Option.bind_some,
          List.getElem?_range hj]
        rw [List.getD_eq_getElem?_getD, k3 _ (by omega)]
        simp only [Option.getD_some, bytesInt, bytesNat, color, NmsSpec.uint]
        rw [show off + 20 + ((i * columns buf off + j) * 3 + c) * 1 =
          off + 20 + 3 * (i * columns buf off + j) + c by ring]
        simp
      exact ⟨by omega, hchan 2 (by decide), hchan 1 (by decide), hchan 0 (by decide)⟩

/-! ## Times and texts -/

private theorem month_cases {m : Nat} (h1 : 1 ≤ m) (h2 : m ≤ 12) :
    m = 1 ∨ m = 2 ∨ m = 3 ∨ m = 4 ∨ m = 5 ∨ m = 6 ∨ m = 7 ∨ m = 8 ∨ m = 9 ∨ m = 10 ∨ m = 11 ∨ m = 12 := by omega

private theorem leap_iff (y : Nat) : ((4 ∣ y ∧ ¬ 100 ∣ y) ∨ 400 ∣ y) ↔
    ((y : Int) % 4 = 0 ∧ ((y : Int) % 100 ≠ 0 ∨ (y : Int) % 400 = 0)) := by omega

private theorem monthDays_eq {y m : Nat} (h1 : 1 ≤ m) (h2 : m ≤ 12) :
    ∃ n, (monthDays y)[m - 1]? = some n ∧ (n : Int) = daysInMonth y m := by
  rcases month_cases h1 h2 with h | h | h | h | h | h | h | h | h | h | h | h <;> subst h
  case inr.inl =>
    refine ⟨_, rfl, ?_⟩
    simp only [daysInMonth, leap_iff]
    simp only [Nat.cast_ofNat, if_true]
    split <;> rfl
  all_goals exact ⟨_, rfl, by simp [daysInMonth]⟩

/-- `datetime` accepts exactly the times there are. -/
private theorem datetime_iff (y mo d h mi s : Nat) (t : Stamp) :
    datetime ⟨y, mo, d, h, mi, s⟩ = .ok t ↔ (t = ⟨y, mo, d, h, mi, s⟩ ∧ IsTime y mo d h mi s) := by
  unfold datetime IsTime
  dsimp only
  have hm : ∀ {y mo d : Nat}, 1 ≤ mo →
      ((∃ n, (monthDays y)[mo - 1]? = some n ∧ d ≤ n) ↔ mo ≤ 12 ∧ (d : Int) ≤ daysInMonth y mo) := by
    intro y mo d h1
    constructor
    · rintro ⟨n, h2, h3⟩
      have h4 : mo ≤ 12 := by
        by_contra hc
        rw [List.getElem?_eq_none (by simp [monthDays]; omega)] at h2
        cases h2
      obtain ⟨n', k1, k2⟩ := monthDays_eq (y := y) h1 h4
      rw [h2] at k1
      cases k1
      exact ⟨h4, by omega⟩
    · rintro ⟨h4, h5⟩
      obtain ⟨n', k1, k2⟩ := monthDays_eq (y := y) h1 h4
      exact ⟨n', k1, by omega⟩
  have hd : ∀ y mo : Int, daysInMonth y mo ≤ 31 := by
    intro y mo; unfold daysInMonth; split
    · split <;> decide
    · split <;> decide
  have hdd := hd y mo
  constructor
  · intro hh
    split at hh
    · cases hh
    split at hh
    · rename_i hv
      cases hh
      refine ⟨rfl, by omega, by omega, by omega, by omega, (hm (by omega)).2 ⟨by omega, by omega⟩, by omega, by omega,
        by omega⟩
    · cases hh
  · rintro ⟨rfl, h1, h2, h3, h4, h5, h6, h7, h8⟩
    have h9 := (hm h3).1 h5
    rw [if_neg (by omega), if_pos (by omega)]

/-- One of the texts. -/
private theorem text_spec {enc : Encoding} {buf : Bytes} {p : Nat} {s : List Char} {h' : Handle} :
    readText enc ⟨buf, p⟩ = .ok (s, h') ↔ ∃ b s', TextAt buf p b ∧ decode enc b = .ok s' ∧ s = everyOther s' ∧
      h' = ⟨buf, p + 4 + b.length⟩ := by
  unfold readText TextAt
  have e4 : ((Handle.mk buf p).read 4).1 = (buf.drop p).take 4 := rfl
  by_cases hl : p + 4 ≤ buf.length
  · have h4 : ((buf.drop p).take 4).length = 4 := by rw [List.length_take, List.length_drop]; omega
    have e5 : ((Handle.mk buf p).read 4).2 = ⟨buf, p + 4⟩ := by simp only [Handle.read, h4]
    rw [e4, h4, e5, if_neg (by decide)]
    have e6 : ((Handle.mk buf (p + 4)).read (leNat ((buf.drop p).take 4) * 2)).1 =
        (buf.drop (p + 4)).take (2 * word buf p) := by
      simp only [Handle.read, word, NmsSpec.uint, Nat.mul_comm 2]
    have e7 : ((Handle.mk buf (p + 4)).read (leNat ((buf.drop p).take 4) * 2)).2 =
        ⟨buf, p + 4 + ((buf.drop (p + 4)).take (2 * word buf p)).length⟩ := by
      rw [← e6]; rfl
    dsimp only
    rw [e6, e7]
    cases hd : decode enc ((buf.drop (p + 4)).take (2 * word buf p)) with
    | error e =>
      dsimp only
      constructor
      · intro h; cases h
      · rintro ⟨b, s', ⟨-, rfl⟩, h2, -⟩
        rw [hd] at h2
        cases h2
    | ok s' =>
      dsimp only
      constructor
      · intro h
        cases h
        exact ⟨_, s', ⟨hl, rfl⟩, hd, rfl, rfl⟩
      · rintro ⟨b, s'', ⟨-, rfl⟩, h2, rfl, rfl⟩
        rw [hd] at h2
        cases h2
        rfl
  · have h4 : ((buf.drop p).take 4).length ≠ 4 := by rw [List.length_take, List.length_drop]; omega
    rw [e4, if_pos h4]
    constructor
    · intro h; cases h
    · rintro ⟨b, s', ⟨h1, -⟩, -⟩
      exact absurd h1 hl

private theorem strings_spec {enc : Encoding} {buf : Bytes} {off p : Nat} {s t : List Char} :
    readStrings enc off ⟨buf, p⟩ = .ok (s, t) ↔ ∃ b s' c t', TextAt buf off b ∧ decode enc b = .ok s' ∧
      s = everyOther s' ∧ TextAt buf (off + 4 + b.length) c ∧ decode enc c = .ok t' ∧ t = everyOther t' := by
  unfold readStrings
  rw [show (Handle.mk buf p).seek off = ⟨buf, off⟩ from rfl]
  constructor
  · intro h
    cases h1 : readText enc ⟨buf, off⟩ with
    | error e => rw [h1] at h; cases h
    | ok a =>
      obtain ⟨s1, h'⟩ := a
      rw [h1] at h
      obtain ⟨b, s', k1, k2, k3, k4⟩ := text_spec.1 h1
      dsimp only at h
      rw [k4] at h
      cases h2 : readText enc ⟨buf, off + 4 + b.length⟩ with
      | error e => rw [h2] at h; cases h
      | ok a =>
        obtain ⟨t1, h''⟩ := a
        rw [h2] at h
        obtain ⟨c, t', m1, m2, m3, -⟩ := text_spec.1 h2
        cases h
        exact ⟨b, s', c, t', k1, k2, k3, m1, m2, m3⟩
  · rintro ⟨b, s', c, t', k1, k2, k3, m1, m2, m3⟩
    rw [text_spec.2 ⟨b, s', k1, k2, k3, rfl⟩]
    dsimp only
    rw [text_spec.2 ⟨c, t', m1, m2, m3, rfl⟩]

/-! ## The file -/

private structure TableFields (buf : Bytes) (d : Dict K) : Prop where
  a : getInt d "meas_conds" = .ok (conditions buf)
  b : getInt d "color_peak" = .ok (colorPeak buf)
  c : getInt d "color_light" = .ok (colorLight buf)
  e : getInt d "light" = .ok (light buf)
  f : getInt d "height" = .ok (heights buf)
  g : getInt d "string_data" = .ok (strings buf)

private theorem table_fields {buf : Bytes} {d : Dict K} {h' : Handle}
    (hr : LayoutM.read .utf8 ⟨buf, 12⟩ (offsetTable K) = .ok (d, h')) : TableFields buf d :=
  ⟨(word_of table_fixed hr rfl).1, (word_of table_fixed hr rfl).1, (word_of table_fixed hr rfl).1,
    (word_of table_fixed hr rfl).1, (word_of table_fixed hr rfl).1, (word_of table_fixed hr rfl).1⟩

private structure CondFields (buf : Bytes) (d : Dict K) : Prop where
  x : getInt d "x_length_per_pixel" = .ok (xLength buf)
  y : getInt d "y_length_per_pixel" = .ok (yLength buf)
  z : getInt d "z_length_per_digit" = .ok (zLength buf)
  zoom : getInt d "optical_zoom" = .ok (zoom buf)
  mag : getInt d "lens_magnification" = .ok (magnification buf)
  t0 : getInt d "year" = .ok (time buf 0)
  t1 : getInt d "month" = .ok (time buf 1)
  t2 : getInt d "day" = .ok (time buf 2)
  t3 : getInt d "hour" = .ok (time buf 3)
  t4 : getInt d "minute" = .ok (time buf 4)
  t5 : getInt d "second" = .ok (time buf 5)

set_option maxHeartbeats 4000000 in
set_option maxRecDepth 20000 in
private theorem cond_fields {buf : Bytes} {d : Dict K} {h' : Handle}
    (hr : LayoutM.read .utf8 ⟨buf, conditions buf⟩ (measurementConditions K) = .ok (d, h')) : CondFields buf d := by
  have w : ∀ {name off}, locate name (measurementConditions K) (conditions buf) = some (off, .int false false 4) →
      getInt d name = .ok (word buf off) := fun hl => (word_of cond_fixed hr hl).1
  exact ⟨w rfl, w rfl, w rfl, w rfl, w rfl, w rfl, w rfl, w rfl, w rfl, w rfl, w rfl⟩

private theorem finish_spec {buf : Bytes} {d : Dict K} (hf : CondFields buf d) {g : Grid Int}
    {s : List Char × List Char} {r : Raw K} {i : Info K} :
    finish d g s = .ok (r, i) ↔
      (IsTime (time buf 0) (time buf 1) (time buf 2) (time buf 3) (time buf 4) (time buf 5) ∧
      r = ⟨Container.map (fun v : Int => some ((v : K) * (scale K * (zLength buf : K)))) g, (xLength buf : K) * scale K,
        (yLength buf : K) * scale K⟩ ∧
      i = ⟨s.1, s.2, ⟨time buf 0, time buf 1, time buf 2, time buf 3, time buf 4, time buf 5⟩,
        (VkSpec.zoom buf : K) / 10, (magnification buf : K) / 10⟩) := by
  unfold finish
  simp only [hf.x, hf.y, hf.z, hf.zoom, hf.mag, hf.t0, hf.t1, hf.t2, hf.t3, hf.t4, hf.t5]
  cases hd : datetime ⟨time buf 0, time buf 1, time buf 2, time buf 3, time buf 4, time buf 5⟩ with
  | error e =>
    dsimp only
    constructor
    · intro h; cases h
    · rintro ⟨h1, -⟩
      rw [(datetime_iff _ _ _ _ _ _ _).2 ⟨rfl, h1⟩] at hd
      cases hd
  | ok t =>
    obtain ⟨rfl, h1⟩ := (datetime_iff _ _ _ _ _ _ _).1 hd
    dsimp only
    constructor
    · intro h
      have h9 := Except.ok.inj h
      simp only [Int.cast_natCast, Prod.mk.injEq] at h9
      exact ⟨h1, h9.1.symm, h9.2.symm⟩
    · rintro ⟨-, rfl, rfl⟩
      simp

private theorem vk_head (buf : Bytes) (h : 12 ≤ buf.length) : ((Handle.mk buf 0).read 12).2 = ⟨buf, 12⟩ := by
  have : (buf.take 12).length = 12 := by rw [List.length_take]; omega
  simp only [Handle.read, List.drop_zero, this, Nat.zero_add]

/-- What a successful read went through. -/
private theorem vk_spec {enc : Encoding} {images : Bool} {buf : Bytes} {r : Raw K} {i : Info K} {l : Option Layers}
    (h : readVk4 enc images ⟨buf, 0⟩ = .ok (r, i, l)) :
    ∃ (p : Nat) (c : Dict K) (g : Grid Int) (s : List Char × List Char), CondFields buf c ∧
      (if images then (readLayers K (colorPeak buf) (light := colorLight buf) (VkSpec.light buf) ⟨buf, p⟩).map some
        else .ok none) = .ok l ∧
      readHeightLayer K (heights buf) ⟨buf, p⟩ = .ok g ∧ readStrings enc (strings buf) ⟨buf, p⟩ = .ok s ∧
      finish c g s = .ok (r, i) := by
  unfold readVk4 at h
  cases h1 : LayoutM.read (K := K) .utf8 ((Handle.mk buf 0).read 12).2 (offsetTable K) with
  | error e => rw [h1] at h; cases h
  | ok a =>
    obtain ⟨d, h1'⟩ := a
    have hl : 12 ≤ buf.length := by
      by_contra hc
      have h3 := (readGo_int table_fixed h1 (name := "meas_conds") (off := ((Handle.mk buf 0).read 12).2.pos) (w := 4)
        (s := false) (big := false) rfl).2
      rw [List.length_take, List.length_drop] at h3
      simp only [Handle.read, List.drop_zero, List.length_take] at h3
      omega
    rw [h1] at h
    rw [vk_head buf hl] at h1
    have e1 := read_end table_fixed h1
    have hf := table_fields h1
    dsimp only at h
    simp only [hf.a, hf.b, hf.c, hf.e, hf.f, hf.g, Int.toNat_natCast] at h
    rw [e1] at h
    cases h2 : LayoutM.read (K := K) .utf8 ((Handle.mk buf (12 + total (offsetTable K))).seek (conditions buf))
        (measurementConditions K) with
    | error e => rw [h2] at h; cases h
    | ok a =>
      obtain ⟨c, h2'⟩ := a
      have e2 := read_end cond_fixed h2
      have hc := cond_fields h2
      rw [h2] at h
      dsimp only at h
      rw [e2] at h
      dsimp only [Handle.seek] at h
      generalize conditions buf + total (measurementConditions K) = q at h
      cases h3 : (if images then (readLayers K (colorPeak buf) (colorLight buf) (VkSpec.light buf) ⟨buf, q⟩).map some
        else .ok none) with
      | error e => rw [h3] at h; cases h
      | ok l' =>
        rw [h3] at h
        dsimp only at h
        cases h4 : readHeightLayer K (heights buf) ⟨buf, q⟩ with
        | error e => rw [h4] at h; cases h
        | ok g =>
          rw [h4] at h
          dsimp only at h
          cases h5 : readStrings enc (strings buf) ⟨buf, q⟩ with
          | error e => rw [h5] at h; cases h
          | ok s =>
            rw [h5] at h
            dsimp only at h
            cases h6 : finish c g s with
            | error e => rw [h6] at h; cases h
            | ok a =>
              obtain ⟨r', i'⟩ := a
              rw [h6] at h
              have h9 := Except.ok.inj h
              have hr : r' = r := congrArg Prod.fst h9
              have hi : i' = i := congrArg (·.2.1) h9
              have hl' : l' = l := congrArg (·.2.2) h9
              subst hr hi hl'
              exact ⟨q, c, g, s, hc, h3, h4, h5, h6⟩

/-- The read, step by step, for a file with complete headers. -/
private theorem vk_steps {enc : Encoding} {images : Bool} {buf : Bytes} (h0 : 80 ≤ buf.length)
    (hm : conditions buf + 304 ≤ buf.length) :
    ∃ (p : Nat) (c : Dict K), CondFields buf c ∧ readVk4 (K := K) enc images ⟨buf, 0⟩ =
      match (if images then (readLayers K (colorPeak buf) (colorLight buf) (VkSpec.light buf) ⟨buf, p⟩).map some
        else .ok none) with
      | .error e => .error e
      | .ok layers =>
        match readHeightLayer K (heights buf) ⟨buf, p⟩ with
        | .error e => .error e
        | .ok g =>
          match readStrings enc (strings buf) ⟨buf, p⟩ with
          | .error e => .error e
          | .ok s =>
            match finish c g s with
            | .error e => .error e
            | .ok (r, i) => .ok (r, i, layers) := by
  obtain ⟨d, h1⟩ := block_ok (K := K) table_fixed (buf := buf) (p := 12) (by rw [table_total]; omega)
    (by simp [offsetTable, u32, places, CanRead])
  obtain ⟨c, h2⟩ := block_ok (K := K) cond_fixed (buf := buf) (p := conditions buf) (by rw [cond_total]; omega)
    (by simp [measurementConditions, u32, places, CanRead])
  have hf := table_fields h1
  refine ⟨conditions buf + total (measurementConditions K), c, cond_fields h2, ?_⟩
  unfold readVk4
  rw [vk_head buf (by omega), h1]
  dsimp only
  simp only [hf.a, hf.b, hf.c, hf.e, hf.f, hf.g, Int.toNat_natCast]
  rw [show (Handle.mk buf (12 + total (offsetTable K))).seek (conditions buf) = ⟨buf, conditions buf⟩ from rfl, h2]
  rfl

/-- **C80**. A VK4 file that is read gives the surface its headers describe: the number of columns and rows of the height
block, the pixel sizes in µm, and at every point the stored number times the height of a digit; the block states its
size correctly and lies inside the file. -/
theorem C80_vk4 {enc : Encoding} {images : Bool} {buf : Bytes} {r : Raw K} {i : Info K} {l : Option Layers}
    (h : readVk4 enc images ⟨buf, 0⟩ = .ok (r, i, l)) :
    r.data.WF ∧ r.data.nx = columns buf (heights buf) ∧ r.data.ny = rows buf (heights buf) ∧
      r.stepX = (xLength buf : K) / 10 ^ 6 ∧ r.stepY = (yLength buf : K) / 10 ^ 6 ∧
      (VkSpec.bits buf (heights buf) = 16 ∨ VkSpec.bits buf (heights buf) = 32) ∧
      VkSpec.size buf (heights buf) * 8 =
        columns buf (heights buf) * rows buf (heights buf) * VkSpec.bits buf (heights buf) ∧
      (0 < VkSpec.size buf (heights buf) → heights buf + 796 + VkSpec.size buf (heights buf) ≤ buf.length) ∧
      ∀ a b, a < rows buf (heights buf) → b < columns buf (heights buf) →
        r.data.get a b = some ((digit buf (heights buf) a b : K) * (zLength buf : K) / 10 ^ 6) := by
  obtain ⟨p, c, g, s, hc, -, h4, -, h6⟩ := vk_spec h
  obtain ⟨-, rfl, -⟩ := (finish_spec hc).1 h6
  obtain ⟨d1, d2, d3, d4, d5, d6, d7⟩ := digits_spec h4
  refine ⟨map_wf _ d4, d5, by rw [← d6]; exact map_ny _ _, by simp [scale, div_eq_mul_inv], by
    simp [scale, div_eq_mul_inv], d1, d2, d3, fun a b ha hb => ?_⟩
  dsimp only
  rw [get_map_some d4 _ (by omega) (by omega) (d7 a b ha hb)]
  simp only [scale, Int.cast_natCast, Option.some.injEq]
  ring

/-- **C80**, metadata: time, optical zoom and magnification are those of the measurement conditions. -/
theorem C80_vk4_info {enc : Encoding} {images : Bool} {buf : Bytes} {r : Raw K} {i : Info K} {l : Option Layers}
    (h : readVk4 enc images ⟨buf, 0⟩ = .ok (r, i, l)) :
    IsTime (time buf 0) (time buf 1) (time buf 2) (time buf 3) (time buf 4) (time buf 5) ∧
      i.timestamp = ⟨time buf 0, time buf 1, time buf 2, time buf 3, time buf 4, time buf 5⟩ ∧
      i.opticalZoom = (VkSpec.zoom buf : K) / 10 ∧ i.magnification = (magnification buf : K) / 10 := by
  obtain ⟨p, c, g, s, hc, -, -, -, h6⟩ := vk_spec h
  obtain ⟨h1, -, rfl⟩ := (finish_spec hc).1 h6
  exact ⟨h1, rfl, rfl, rfl⟩

/-- **C80**, image layers: the two color images in the order red, green, blue (the file stores blue first), and the
intensities; nothing unless they are asked for. -/
theorem C80_vk4_images {enc : Encoding} {images : Bool} {buf : Bytes} {r : Raw K} {i : Info K} {l : Option Layers}
    (h : readVk4 enc images ⟨buf, 0⟩ = .ok (r, i, l)) :
    (images = false → l = none) ∧ (images = true → ∃ a : Layers, l = some a ∧
      (∀ off im, (off, im) = (colorPeak buf, a.rgb) ∨ (off, im) = (colorLight buf, a.laserRgb) →
        VkSpec.size buf off * 8 = columns buf off * rows buf off * VkSpec.bits buf off ∧
        ∀ y x, y < rows buf off → x < columns buf off → off + 20 + 3 * (y * columns buf off + x) + 3 ≤ buf.length ∧
          im.red.rows[y]?.bind (·[x]?) = some (color buf off 2 y x : Int) ∧
          im.green.rows[y]?.bind (·[x]?) = some (color buf off 1 y x : Int) ∧
          im.blue.rows[y]?.bind (·[x]?) = some (color buf off 0 y x : Int)) ∧
      a.laser.WF ∧ a.laser.nx = columns buf (VkSpec.light buf) ∧ a.laser.ny = rows buf (VkSpec.light buf) ∧
      ∀ y x, y < rows buf (VkSpec.light buf) → x < columns buf (VkSpec.light buf) →
        a.laser.rows[y]?.bind (·[x]?) = some (digit buf (VkSpec.light buf) y x : Int)) := by
  obtain ⟨p, c, g, s, hc, h3, -⟩ := vk_spec h
  refine ⟨fun e => ?_, fun e => ?_⟩
  · rw [e] at h3
    exact (Except.ok.inj h3).symm
  · rw [e, if_pos rfl] at h3
    unfold readLayers at h3
    cases k1 : readRgb K (colorPeak buf) ⟨buf, p⟩ with
    | error e => rw [k1] at h3; cases h3
    | ok a =>
      rw [k1] at h3
      dsimp only at h3
      cases k2 : readRgb K (colorLight buf) ⟨buf, p⟩ with
      | error e => rw [k2] at h3; cases h3
      | ok b =>
        rw [k2] at h3
        dsimp only at h3
        cases k3 : readHeightLayer K (VkSpec.light buf) ⟨buf, p⟩ with
        | error e => rw [k3] at h3; cases h3
        | ok c =>
          rw [k3] at h3
          obtain ⟨-, -, -, d4, d5, d6, d7⟩ := digits_spec k3
          refine ⟨⟨a, b, c⟩, (Except.ok.inj h3).symm, ?_, d4, d5, d6, d7⟩
          rintro off im (h | h)
          · cases h; exact rgb_spec k1
          · cases h; exact rgb_spec k2

/-- Every complete file with a sound height block, an existing time and texts that can be decoded is read. -/
theorem C80_vk4_reads {enc : Encoding} {buf : Bytes} (h0 : 80 ≤ buf.length) (hm : conditions buf + 304 ≤ buf.length)
    (hs : SoundDigits buf (heights buf))
    (ht : IsTime (time buf 0) (time buf 1) (time buf 2) (time buf 3) (time buf 4) (time buf 5))
    {b c : Bytes} (hb : TextAt buf (strings buf) b) (hc : TextAt buf (strings buf + 4 + b.length) c)
    {s t : List Char} (hd : decode enc b = .ok s) (he : decode enc c = .ok t) :
    ∃ (r : Raw K) (i : Info K), readVk4 enc false ⟨buf, 0⟩ = .ok (r, i, none) := by
  obtain ⟨p, d, hf, h1⟩ := vk_steps (K := K) (enc := enc) (images := false) h0 hm
  obtain ⟨g, h2⟩ := digits_ok (K := K) (p := p) hs
  have h3 := (strings_spec (p := p)).2 ⟨b, s, c, t, hb, hd, rfl, hc, he, rfl⟩
  rw [h1]
  simp only [Bool.false_eq_true, if_false]
  rw [h2]
  dsimp only
  rw [h3]
  dsimp only
  rw [(finish_spec hf).2 ⟨ht, rfl, rfl⟩]
  exact ⟨_, _, rfl⟩

/-- A height block that contradicts its own size is reported as a corrupted file. -/
theorem C80_vk4_corrupt {enc : Encoding} {buf : Bytes} (h0 : 80 ≤ buf.length) (hm : conditions buf + 304 ≤ buf.length)
    (hh : heights buf + 796 ≤ buf.length) (hs : VkSpec.size buf (heights buf) * 8 ≠
      columns buf (heights buf) * rows buf (heights buf) * VkSpec.bits buf (heights buf)) :
    readVk4 (K := K) enc false ⟨buf, 0⟩ = .error .corrupted := by
  obtain ⟨p, d, hf, h1⟩ := vk_steps (K := K) (enc := enc) (images := false) h0 hm
  rw [h1]
  simp only [Bool.false_eq_true, if_false]
  rw [digits_corrupt hh hs]

/-- VK6 and VK7 files give what the VK4 file inside gives. -/
theorem C80_vk67 {archive : Bytes → Except Err (List Char → Except Err Bytes)} {enc : Encoding} {images : Bool}
    {h : Handle} {r : Raw K × Info K × Option Layers} :
    readVk67 archive enc images h = .ok r ↔ ∃ m b, archive h.buf = .ok m ∧ m "Vk4File".toList = .ok b ∧
      readVk4 enc images ⟨b, 0⟩ = .ok r := by
  unfold readVk67
  constructor
  · intro hr
    cases h1 : archive h.buf with
    | error e => rw [h1] at hr; cases hr
    | ok m =>
      rw [h1] at hr
      dsimp only at hr
      cases h2 : m "Vk4File".toList with
      | error e => rw [h2] at hr; cases hr
      | ok b => rw [h2] at hr; exact ⟨m, b, rfl, h2, hr⟩
  · rintro ⟨m, b, h1, h2, h3⟩
    rw [h1]
    dsimp only
    rw [h2]
    exact h3

/-- **C81**, what holds: with the encoding `'auto'`, the default of `Surface.load`, title and name of the lens come back
unchanged if they consist of characters below 256. Missing: other characters, see `C81_violated`. -/
theorem C81_partial {images : Bool} {buf : Bytes} {r : Raw K} {i : Info K} {l : Option Layers}
    (h : readVk4 .auto images ⟨buf, 0⟩ = .ok (r, i, l)) {title lens : List Char}
    (hs : ∀ c ∈ title, c.toNat < 256) (hl : ∀ c ∈ lens, c.toNat < 256)
    (ht : TextAt buf (strings buf) (wide title))
    (hu : TextAt buf (strings buf + 4 + 2 * title.length) (wide lens)) :
    i.title = title ∧ i.lensName = lens := by
  obtain ⟨p, c, g, s, hc, -, -, h5, h6⟩ := vk_spec h
  obtain ⟨-, -, rfl⟩ := (finish_spec hc).1 h6
  obtain ⟨s1, s2⟩ := s
  have h7 := (strings_spec (enc := .auto) (p := p)).2 ⟨wide title, _, wide lens, _, ht, decode_wide title hs, rfl,
    by rw [wide_length]; exact hu, decode_wide lens hl, rfl⟩
  rw [everyOther_spaced, everyOther_spaced] at h7
  rw [h5] at h7
  cases h7
  exact ⟨rfl, rfl⟩

/-- **C81**, if the caller asks for UTF-8: plain ASCII texts come back, but a file with any other character in its title
cannot be read at all, heights included. -/
theorem C81_utf8 {images : Bool} {buf : Bytes} {title : List Char} (hs : ∀ c ∈ title, c.toNat < 256)
    (hc : ∃ c ∈ title, 128 ≤ c.toNat) (ht : TextAt buf (strings buf) (wide title))
    (r : Raw K × Info K × Option Layers) : readVk4 .utf8 images ⟨buf, 0⟩ ≠ .ok r := by
  intro h
  obtain ⟨r, i, l⟩ := r
  obtain ⟨p, c, g, s, -, -, -, h5, -⟩ := vk_spec h
  obtain ⟨s1, s2⟩ := s
  obtain ⟨b, s', -, -, k1, k2, -⟩ := strings_spec.1 h5
  have : b = wide title := by rw [k1.2, ht.2]
  rw [this, decode_wide_utf8_none title hs hc] at k2
  cases k2

private theorem everyOther_head {c : Char} {s t : List Char} (h : everyOther s = c :: t) : s.head? = some c := by
  match s with
  | [] => simp [everyOther] at h
  | [a] => simp only [everyOther, List.cons.injEq] at h; simp [h.1]
  | a :: b :: l => simp only [everyOther, List.cons.injEq] at h; simp [h.1]

/-- **C81** (violated). A title that starts with a character between 256 and 2047 (Greek, Cyrillic, Hebrew, ...), stored
with its low byte first as all other characters are, comes back with another first character. -/
theorem C81_violated {enc : Encoding} {images : Bool} {buf : Bytes} {r : Raw K} {i : Info K} {l : Option Layers}
    (h : readVk4 enc images ⟨buf, 0⟩ = .ok (r, i, l)) {c : Char} (h1 : 256 ≤ c.toNat) (h2 : c.toNat < 2048)
    {rest : Bytes} (ht : TextAt buf (strings buf) (UInt8.ofNat (c.toNat % 256) :: UInt8.ofNat (c.toNat / 256) :: rest))
    (title : List Char) : i.title ≠ c :: title := by
  intro he
  obtain ⟨p, d, g, s, hc, -, -, h5, h6⟩ := vk_spec h
  obtain ⟨-, -, rfl⟩ := (finish_spec hc).1 h6
  obtain ⟨s1, s2⟩ := s
  obtain ⟨b, s', -, -, k1, k2, k3, -⟩ := strings_spec.1 h5
  dsimp only at he
  rw [he] at k3
  have hh := everyOther_head k3.symm
  have hb : b = UInt8.ofNat (c.toNat % 256) :: UInt8.ofNat (c.toNat / 256) :: rest := by rw [k1.2, ht.2]
  rw [hb] at k2
  generalize e0 : UInt8.ofNat (c.toNat % 256) = x at k2
  generalize e1 : UInt8.ofNat (c.toNat / 256) = y at k2
  have n0 : x.toNat = c.toNat % 256 := by rw [← e0, UInt8.toNat_ofNat']; omega
  have n1 : y.toNat = c.toNat / 256 := by rw [← e1, UInt8.toNat_ofNat']; omega
  unfold decode at k2
  cases hu : utf8? (x :: y :: rest) with
  | none =>
    rw [hu] at k2
    cases enc with
    | utf8 => cases k2
    | auto =>
      cases k2
      simp only [latin1, List.map_cons, List.head?_cons, Option.some.injEq] at hh
      have h9 := congrArg Char.toNat hh
      unfold Char.ofNat at h9
      rw [dif_pos (show Nat.isValidChar x.toNat by left; omega)] at h9
      have h10 : x.toNat = c.toNat := h9
      omega
  | some t =>
    rw [hu] at k2
    have k2' : t = s' := by cases enc <;> exact Except.ok.inj k2
    subst k2'
    obtain ⟨u, hb'⟩ : ∃ u, x :: y :: rest = utf8 u := Surfalize.utf8?_some hu
    have : u = t := by
      rw [hb', utf8?_utf8] at hu
      exact Option.some.inj hu
    subst this
    cases u with
    | nil => cases hh
    | cons d' u =>
      simp only [List.head?_cons, Option.some.injEq] at hh
      subst hh
      rw [show utf8 (d' :: u) = String.utf8EncodeChar d' ++ utf8 u from rfl] at hb'
      rcases encodeChar_cases d' with ⟨h9, -⟩ | ⟨a, b', r', e, -, h9⟩
      · omega
      · rw [e] at hb'
        simp only [List.cons_append, List.cons.injEq] at hb'
        rw [← hb'.2.1] at h9
        omega

/-! ## An example -/

/-- A file with one row of two points, 5000 pm and 3000 pm wide pixels, 100 pm per digit, the title `µA` and the lens
`L`. -/
private def vkSample : Bytes :=
  List.replicate 12 0 ++
    [80, 0, 0, 0] ++ List.replicate 20 0 ++ [0x80, 1, 0, 0] ++ List.replicate 36 0 ++ [0xa0, 4, 0, 0] ++
    -- conditions
    ([0, 0, 0, 0, 0xe8, 7, 0, 0, 2, 0, 0, 0, 29, 0, 0, 0, 23, 0, 0, 0, 59, 0, 0, 0, 58, 0, 0, 0] ++
      List.replicate 44 0 ++ [10, 0, 0, 0] ++ List.replicate 20 0 ++ [0xf4, 1, 0, 0] ++ List.replicate 68 0 ++
      [0x88, 0x13, 0, 0, 0xb8, 0x0b, 0, 0, 100, 0, 0, 0] ++ List.replicate 124 0) ++
    -- heights
    ([2, 0, 0, 0, 1, 0, 0, 0, 16, 0, 0, 0, 0, 0, 0, 0, 4, 0, 0, 0] ++ List.replicate 776 0 ++ [7, 0, 0, 1]) ++
    -- texts
    [2, 0, 0, 0, 0xb5, 0, 0x41, 0, 1, 0, 0, 0, 0x4c, 0]

set_option maxRecDepth 20000 in
example : ∃ (r : Raw ℚ) (i : Info ℚ), readVk4 .auto false ⟨vkSample, 0⟩ = .ok (r, i, none) ∧ r.stepX = 1 / 200 ∧
    r.stepY = 3 / 1000 ∧ r.data.get 0 0 = some (7 / 10000) ∧ r.data.get 0 1 = some (256 / 10000) ∧
    i.title = ['µ', 'A'] ∧ i.lensName = ['L'] ∧ i.magnification = 50 ∧ i.timestamp = ⟨2024, 2, 29, 23, 59, 58⟩ := by
  have hlen : vkSample.length = 1198 := by decide +kernel
  have hc : conditions vkSample = 80 ∧ heights vkSample = 384 ∧ strings vkSample = 1184 := by decide +kernel
  have hh : columns vkSample 384 = 2 ∧ rows vkSample 384 = 1 ∧ VkSpec.bits vkSample 384 = 16 ∧
    VkSpec.size vkSample 384 = 4 := by decide +kernel
  have hm : xLength vkSample = 5000 ∧ yLength vkSample = 3000 ∧ zLength vkSample = 100 ∧
    magnification vkSample = 500 := by decide +kernel
  have ht : time vkSample 0 = 2024 ∧ time vkSample 1 = 2 ∧ time vkSample 2 = 29 ∧ time vkSample 3 = 23 ∧
    time vkSample 4 = 59 ∧ time vkSample 5 = 58 := by decide +kernel
  have hd : digit vkSample 384 0 0 = 7 ∧ digit vkSample 384 0 1 = 256 := by decide +kernel
  have t1 : TextAt vkSample (strings vkSample) (wide ['µ', 'A']) :=
    ⟨by rw [hc.2.2, hlen]; decide, by rw [hc.2.2]; decide +kernel⟩
  have t2 : TextAt vkSample (strings vkSample + 4 + 2 * 2) (wide ['L']) :=
    ⟨by rw [hc.2.2, hlen]; decide, by rw [hc.2.2]; decide +kernel⟩
  have s1 : ∀ c ∈ ['µ', 'A'], c.toNat < 256 := by decide
  have s2 : ∀ c ∈ ['L'], c.toNat < 256 := by decide
  obtain ⟨r, i, hr⟩ := C80_vk4_reads (K := ℚ) (enc := .auto) (buf := vkSample) (by omega) (by omega)
    ⟨by rw [hc.2.1]; exact .inl hh.2.2.1, by rw [hc.2.1, hh.1, hh.2.1, hh.2.2.1, hh.2.2.2],
      by rw [hc.2.1, hh.2.2.2, hlen]; decide⟩
    (by rw [ht.1, ht.2.1, ht.2.2.1, ht.2.2.2.1, ht.2.2.2.2.1, ht.2.2.2.2.2]
        refine ⟨by decide, by decide, by decide, by decide, ⟨29, rfl, by decide⟩, by decide, by decide, by decide⟩)
    t1 (by rw [wide_length]; exact t2) (decode_wide _ s1) (decode_wide _ s2)
  obtain ⟨-, -, -, h4, h5, -, -, -, h9⟩ := C80_vk4 hr
  obtain ⟨-, i2, -, i4⟩ := C80_vk4_info hr
  obtain ⟨j1, j2⟩ := C81_partial hr s1 s2 t1 t2
  have g0 := h9 0 0 (by rw [hc.2.1, hh.2.1]; decide) (by rw [hc.2.1, hh.1]; decide)
  have g1 := h9 0 1 (by rw [hc.2.1, hh.2.1]; decide) (by rw [hc.2.1, hh.1]; decide)
  rw [hc.2.1, hd.1, hm.2.2.1] at g0
  rw [hc.2.1, hd.2, hm.2.2.1] at g1
  refine ⟨r, i, hr, by rw [h4, hm.1]; norm_num, by rw [h5, hm.2.1]; norm_num, by rw [g0]; norm_num,
    by rw [g1]; norm_num, j1, j2, by rw [i4, hm.2.2.2]; norm_num, ?_⟩
  rw [i2, ht.1, ht.2.1, ht.2.2.1, ht.2.2.2.1, ht.2.2.2.2.1, ht.2.2.2.2.2]
  rfl

end Surfalize.Props
