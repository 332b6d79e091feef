import Verif.Model.Fits
import Verif.Lemmas.Gwy
/-! # Lemmas about FITS files -/
set_option linter.unusedSectionVars false
namespace Surfalize
namespace Fits
open LayoutM FileArr Gwy

variable {K : Type} [Field K] [LinearOrder K]

/-- The `k`-th block of a file. -/
def block (buf : Bytes) (k : Nat) : Bytes := (buf.drop (k * blockSize)).take blockSize

theorem read_block (buf : Bytes) (p : Nat) :
    (Handle.mk buf p).read blockSize =
      ((buf.drop p).take blockSize, ⟨buf, p + ((buf.drop p).take blockSize).length⟩) := rfl

/-- Where the reader is after `k` blocks. -/
def blockPos (buf : Bytes) (k : Nat) : Nat := min (k * blockSize) buf.length

theorem drop_blockPos (buf : Bytes) (k : Nat) : buf.drop (blockPos buf k) = buf.drop (k * blockSize) := by
  unfold blockPos
  rcases Nat.le_total (k * blockSize) buf.length with h | h
  · rw [Nat.min_eq_left h]
  · rw [Nat.min_eq_right h, List.drop_length, List.drop_eq_nil_of_le h]

theorem next_blockPos (buf : Bytes) (k : Nat) :
    blockPos buf k + ((buf.drop (blockPos buf k)).take blockSize).length = blockPos buf (k + 1) := by
  simp only [List.length_take, List.length_drop]
  unfold blockPos
  rw [Nat.add_mul, Nat.one_mul]
  omega

theorem readHeader_step (T : FloatText K) (enc : Encoding) (n : Nat) (hd : Header K) (buf : Bytes) (k : Nat) :
    readHeader T enc (n + 1) hd ⟨buf, blockPos buf k⟩ =
      match parseBytes T enc (block buf k) with
      | .error e => .fail e
      | .ok (p, true) => .done (hd.update p, ⟨buf, blockPos buf (k + 1)⟩)
      | .ok (p, false) => readHeader T enc n (hd.update p) ⟨buf, blockPos buf (k + 1)⟩ := by
  rw [readHeader]
  simp only [read_block, next_blockPos]
  rw [drop_blockPos]
  rfl

theorem readHeader_endless (T : FloatText K) (enc : Encoding) (buf : Bytes)
    (h : ∀ k, ∃ p, parseBytes T enc (block buf k) = .ok (p, false)) :
    ∀ n hd k, readHeader T enc n hd ⟨buf, blockPos buf k⟩ = .more
  | 0, hd, k => by rw [readHeader]
  | n + 1, hd, k => by
    obtain ⟨p, hp⟩ := h k
    rw [readHeader_step, hp]
    exact readHeader_endless T enc buf h n _ (k + 1)

/-- If a block ends the header or cannot be read, the loop ends. -/
theorem readHeader_ends (T : FloatText K) (enc : Encoding) (buf : Bytes) (m : Nat) :
    ∀ k hd, (¬ ∃ p, parseBytes T enc (block buf (k + m)) = .ok (p, false)) →
    ∃ r, r ≠ .more ∧ ∀ n, m + 1 ≤ n → readHeader T enc n hd ⟨buf, blockPos buf k⟩ = r := by
  induction m with
  | zero =>
    intro k hd h
    cases hp : parseBytes T enc (block buf k) with
    | error e =>
      refine ⟨.fail e, by simp, fun n hn => ?_⟩
      obtain ⟨n, rfl⟩ : ∃ n', n = n' + 1 := ⟨n - 1, by omega⟩
      rw [readHeader_step, hp]
    | ok a =>
      obtain ⟨p, b⟩ := a
      cases b with
      | false => exact absurd ⟨p, hp⟩ h
      | true =>
        refine ⟨.done (hd.update p, ⟨buf, blockPos buf (k + 1)⟩), by simp, fun n hn => ?_⟩
        obtain ⟨n, rfl⟩ : ∃ n', n = n' + 1 := ⟨n - 1, by omega⟩
        rw [readHeader_step, hp]
  | succ m ih =>
    intro k hd h
    cases hp : parseBytes T enc (block buf k) with
    | error e =>
      refine ⟨.fail e, by simp, fun n hn => ?_⟩
      obtain ⟨n, rfl⟩ : ∃ n', n = n' + 1 := ⟨n - 1, by omega⟩
      rw [readHeader_step, hp]
    | ok a =>
      obtain ⟨p, b⟩ := a
      cases b with
      | true =>
        refine ⟨.done (hd.update p, ⟨buf, blockPos buf (k + 1)⟩), by simp, fun n hn => ?_⟩
        obtain ⟨n, rfl⟩ : ∃ n', n = n' + 1 := ⟨n - 1, by omega⟩
        rw [readHeader_step, hp]
      | false =>
        obtain ⟨r, h1, h2⟩ := ih (k + 1) (hd.update p) (by rwa [show k + 1 + m = k + (m + 1) by omega])
        refine ⟨r, h1, fun n hn => ?_⟩
        obtain ⟨n, rfl⟩ : ∃ n', n = n' + 1 := ⟨n - 1, by omega⟩
        rw [readHeader_step, hp]
        exact h2 n (by omega)

theorem readHeader_buf (T : FloatText K) (enc : Encoding) : ∀ n hd h a,
    readHeader T enc n hd h = .done a → a.2.buf = h.buf
  | 0, hd, h, a, e => by rw [readHeader] at e; cases e
  | n + 1, hd, h, a, e => by
    rw [readHeader] at e
    split at e
    · cases e
    · injection e with e; rw [← e]; rfl
    · exact (readHeader_buf T enc n _ _ a e).trans rfl

/-! ## The layers -/

theorem readLayer_pos (T : FloatText K) (enc : Encoding) (b : Bytes) (h : Handle) (a)
    (e : readLayer T enc b h = .ok a) : a.2.buf = h.buf ∧ h.pos ≤ a.2.pos := by
  unfold readLayer at e
  split at e
  · cases e
  · split at e
    · split at e
      · cases e
      · split at e
        · cases e
        · split at e
          · cases e
          · rename_i heq
            split at e
            · cases e
            · injection e with e
              rw [← e]
              unfold readArray at heq
              dsimp only at heq
              split at heq
              · cases heq
              · injection heq with heq
                injection heq with _ heq
                rw [← heq]
                simp only [Handle.skip]
                split <;> simp [Handle.read, Handle.readAll] <;> omega
    · cases e

theorem readLayers_ends (T : FloatText K) (enc : Encoding) : ∀ (n : Nat) (ls : Layers K) (h : Handle),
    h.buf.length - h.pos + 1 ≤ n → readLayers T enc n ls h ≠ .more
  | 0, ls, h, hn => by omega
  | n + 1, ls, h, hn => by
    have hr : (h.read blockSize).2.buf = h.buf ∧ h.pos ≤ (h.read blockSize).2.pos ∧
        (¬ h.buf.length ≤ h.pos → h.pos < (h.read blockSize).2.pos) := by
      refine ⟨rfl, ?_, ?_⟩
      · simp [Handle.read]
      · intro hlt
        have : 0 < blockSize := by decide
        simp only [Handle.read, List.length_take, List.length_drop]
        omega
    obtain ⟨h1, h2, h3⟩ := hr
    rw [readLayers]
    split
    · cases hl : readLayer T enc (h.read blockSize).1 (h.read blockSize).2 with
      | error e => simp
      | ok a =>
        obtain ⟨⟨name, g⟩, h'⟩ := a
        obtain ⟨p1, p2⟩ := readLayer_pos T enc _ _ _ hl
        dsimp only at p1 p2 ⊢
        split
        · simp
        · rename_i hlt
          rw [p1, h1] at hlt
          apply readLayers_ends T enc n
          rw [p1, h1]
          omega
    · split
      · simp
      · rename_i hlt
        rw [h1] at hlt
        apply readLayers_ends T enc n
        rw [h1]
        omega

theorem readLayers_step (T : FloatText K) (enc : Encoding) : ∀ (n : Nat) (ls : Layers K) (h : Handle),
    readLayers T enc n ls h ≠ .more → readLayers T enc (n + 1) ls h = readLayers T enc n ls h
  | 0, ls, h, hn => absurd (by rw [readLayers]) hn
  | n + 1, ls, h, hn => by
    rw [readLayers] at hn ⊢
    conv_rhs => rw [readLayers]
    split
    · rename_i hx
      rw [if_pos hx] at hn
      cases hl : readLayer T enc (h.read blockSize).1 (h.read blockSize).2 with
      | error e => rfl
      | ok a =>
        rw [hl] at hn
        dsimp only at hn ⊢
        split
        · rfl
        · rename_i hlt
          rw [if_neg hlt] at hn
          exact readLayers_step T enc n _ _ hn
    · rename_i hx
      rw [if_neg hx] at hn
      split
      · rfl
      · rename_i hlt
        rw [if_neg hlt] at hn
        exact readLayers_step T enc n _ _ hn

theorem readLayers_steps (T : FloatText K) (enc : Encoding) (ls : Layers K) (h : Handle) (n m : Nat) (hm : n ≤ m)
    (hn : readLayers T enc n ls h ≠ .more) : readLayers T enc m ls h = readLayers T enc n ls h := by
  induction hm with
  | refl => rfl
  | step _ ih => rw [readLayers_step T enc _ _ _ (by rw [ih]; exact hn), ih]

end Fits
end Surfalize
