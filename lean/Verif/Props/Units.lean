import Verif.Spec.Units
import Mathlib.Algebra.Order.Field.Basic
import Mathlib.Algebra.Order.Ring.Rat
import Mathlib.Tactic.Linarith

/-!
# C56 — unit conversions compose
-/
set_option linter.unusedSectionVars false
namespace Surfalize.Props
open Surfalize _root_.Surfalize.Units UnitsSpec

/-! ## Helper lemmas -/

private theorem known_lookup {name : String} {e : Int} (h : Known name e) : unitExponent.lookup name.toList = some e := by
  cases h <;> decide

private theorem lookup_known {n : List Char} {e : Int} (h : unitExponent.lookup n = some e) :
    ∃ name, Known name e ∧ name.toList = n := by
  have key : ∀ p ∈ unitExponent, ∃ name, Known name p.2 ∧ name.toList = p.1 := by
    intro p hp
    simp only [unitExponent, List.mem_cons, List.not_mem_nil, or_false] at hp
    rcases hp with rfl | rfl | rfl | rfl | rfl | rfl | rfl | rfl | rfl | rfl | rfl | rfl | rfl | rfl
    · exact ⟨_, .m, rfl⟩
    · exact ⟨_, .meter, rfl⟩
    · exact ⟨_, .dm, rfl⟩
    · exact ⟨_, .decimeter, rfl⟩
    · exact ⟨_, .cm, rfl⟩
    · exact ⟨_, .centimeter, rfl⟩
    · exact ⟨_, .mm, rfl⟩
    · exact ⟨_, .millimeter, rfl⟩
    · exact ⟨_, .um, rfl⟩
    · exact ⟨_, .micrometer, rfl⟩
    · exact ⟨_, .nm, rfl⟩
    · exact ⟨_, .nanometer, rfl⟩
    · exact ⟨_, .pm, rfl⟩
    · exact ⟨_, .picometer, rfl⟩
  have hmem : (n, e) ∈ unitExponent := by
    revert h
    generalize unitExponent = l
    induction l with
    | nil => simp
    | cons p l ih =>
      rcases p with ⟨a, b⟩
      rw [List.lookup_cons]
      by_cases hc : (n == a) = true
      · simp only [hc]
        intro h
        simp only [Option.some.injEq] at h
        rw [beq_iff_eq] at hc
        rw [hc, h]; simp
      · simp only [hc]
        intro h
        exact List.mem_cons_of_mem _ (ih h)
  exact key (n, e) hmem

private theorem known_chars {name : String} {e : Int} (h : Known name e) :
    (∀ c ∈ name.toList, c ≠ 'k' ∧ c.toNat < 128) ∧ ('u' ∈ name.toList → name = "um" ∧ e = -6) := by
  cases h <;> decide

private theorem toLower_eq {d c : Char} (hc : 97 ≤ c.toNat ∧ c.toNat ≤ 122) (h : d.toLower = c) :
    d = c ∨ d.toNat = c.toNat - 32 := by
  unfold Char.toLower at h
  split at h
  · rename_i hu
    right
    have h1 := congrArg Char.toNat h
    have h2 : d.val.toNat ≤ 90 := hu.2
    have h3 : d.toNat = d.val.toNat := rfl
    have h4 : c.toNat = c.val.toNat := rfl
    simp only [Char.toNat] at h1 ⊢
    rw [UInt32.toNat_add] at h1
    simp at h1
    omega
  · exact .inl h

private theorem char_of_toNat {d c : Char} (h : d.toNat = c.toNat) : d = c := by
  apply Char.ext
  apply UInt32.toNat_inj.1
  exact h

private theorem lower_ascii (T : Text) (w : List Char) (h : ∀ c ∈ w, c.toNat < 128) : T.lower w = w.map Char.toLower := by
  induction w with
  | nil => rfl
  | cons c w ih =>
    unfold Text.lower at ih ⊢
    rw [List.flatMap_cons, ih fun x hx => h x (by simp [hx]), if_pos (h c (by simp))]
    rfl

private theorem ascii_of_lower {T : Text} (hT : Faithful T) {w n : List Char} (h : T.lower w = n)
    (hn : ∀ c ∈ n, c ≠ 'k' ∧ c.toNat < 128) : ∀ c ∈ w, c.toNat < 128 := by
  intro c hc
  by_contra hx
  obtain ⟨x, hx1, hx2⟩ := hT.lower_outside c hx
  have : x ∈ T.lower w := by
    unfold Text.lower
    rw [List.mem_flatMap]
    exact ⟨c, hc, by rw [if_neg hx]; exact hx1⟩
  rw [h] at this
  obtain ⟨h1, h2⟩ := hn x this
  rcases hx2 with e | e
  · exact h1 e
  · exact e h2

/-- The lower-case strings in the table are the plain writings. -/
private theorem lookup_lower {T : Text} (hT : Faithful T) (w : List Char) (e : Int) :
    unitExponent.lookup (T.lower w) = some e ↔ Plain w e := by
  constructor
  · intro h
    obtain ⟨name, hk, hn⟩ := lookup_known h
    have ha := ascii_of_lower hT hn.symm (known_chars hk).1
    exact ⟨name, hk, ha, by rw [← lower_ascii T w ha, hn]⟩
  · rintro ⟨name, hk, ha, hn⟩
    rw [lower_ascii T w ha, hn]
    exact known_lookup hk

private theorem sanitize_plain (w : List Char) (h : ∀ c ∈ w, c ≠ micro ∧ c ≠ mu ∧ c ≠ squareUm) : sanitizeMu w = w := by
  induction w with
  | nil => rfl
  | cons c w ih =>
    unfold sanitizeMu at ih ⊢
    obtain ⟨h1, h2, h3⟩ := h c (by simp)
    rw [List.flatMap_cons, ih fun x hx => h x (by simp [hx]), if_neg h1, if_neg h2, if_neg h3]
    rfl

private theorem sanitize_length (w : List Char) : w.length ≤ (sanitizeMu w).length := by
  induction w with
  | nil => simp
  | cons c w ih =>
    unfold sanitizeMu at ih ⊢
    rw [List.flatMap_cons, List.length_append, List.length_cons]
    have : 1 ≤ (if c = micro then ['u'] else if c = mu then ['u'] else if c = squareUm then ['u', 'm'] else [c]).length := by
      split
      · simp
      · split
        · simp
        · split <;> simp
    omega

private theorem signs : ¬ micro.toNat < 128 ∧ ¬ mu.toNat < 128 ∧ ¬ squareUm.toNat < 128 := by decide

private theorem letter_m {d : Char} (h : d.toLower = 'm') : d = 'm' ∨ d = 'M' := by
  rcases toLower_eq (by decide) h with h | h
  · exact .inl h
  · exact .inr (char_of_toNat h)

/-- What a source unit may look like. -/
private theorem lookup_from {T : Text} (hT : Faithful T) (w : List Char) (e : Int) :
    unitExponent.lookup (T.lower (sanitizeMu w)) = some e ↔
      Plain w e ∨ (e = -6 ∧ (WithSign micro w ∨ WithSign mu w ∨ w = [squareUm])) := by
  constructor
  · intro h
    by_cases hs : ∀ c ∈ w, c ≠ micro ∧ c ≠ mu ∧ c ≠ squareUm
    · rw [sanitize_plain w hs] at h
      exact .inl ((lookup_lower hT w e).1 h)
    · right
      push Not at hs
      obtain ⟨c, hc, hc2⟩ := hs
      have halias : c = micro ∨ c = mu ∨ c = squareUm := by
        by_cases h1 : c = micro
        · exact .inl h1
        · by_cases h2 : c = mu
          · exact .inr (.inl h2)
          · exact .inr (.inr (hc2 h1 h2))
      obtain ⟨name, hk, ha, hn⟩ := (lookup_lower hT _ e).1 h
      have hu : 'u' ∈ name.toList := by
        rw [← hn]
        refine List.mem_map.2 ⟨'u', ?_, by decide⟩
        unfold sanitizeMu
        rw [List.mem_flatMap]
        refine ⟨c, hc, ?_⟩
        rcases halias with rfl | rfl | rfl
        · simp
        · rw [if_neg (by decide), if_pos rfl]; simp
        · rw [if_neg (by decide), if_neg (by decide), if_pos rfl]; simp
      obtain ⟨rfl, rfl⟩ := (known_chars hk).2 hu
      refine ⟨rfl, ?_⟩
      have hlen : (sanitizeMu w).length = 2 := by
        have := congrArg List.length hn
        simpa using this
      have hwl := sanitize_length w
      match w, hc, hlen, hwl, hn with
      | [], hc, _, _, _ => simp at hc
      | [a], hc, hlen, _, _ =>
        have hca : c = a := by simpa using hc
        subst hca
        rcases halias with rfl | rfl | rfl
        · simp [sanitizeMu] at hlen
        · rw [show sanitizeMu [mu] = ['u'] by decide] at hlen; simp at hlen
        · exact .inr (.inr rfl)
      | [a, b], hc, hlen, _, hn =>
        have hsplit : ∀ x : Char, x ≠ squareUm → sanitizeMu [x] = [if x = micro ∨ x = mu then 'u' else x] := by
          intro x hx
          simp only [sanitizeMu, List.flatMap_cons, List.flatMap_nil, List.append_nil]
          by_cases h1 : x = micro
          · rw [if_pos h1, if_pos (.inl h1)]
          · by_cases h2 : x = mu
            · rw [if_neg h1, if_pos h2, if_pos (.inr h2)]
            · rw [if_neg h1, if_neg h2, if_neg hx, if_neg (by tauto)]
        have happ : sanitizeMu [a, b] = sanitizeMu [a] ++ sanitizeMu [b] := by simp [sanitizeMu]
        rw [happ, List.length_append] at hlen
        have hla := sanitize_length [a]
        have hlb := sanitize_length [b]
        simp only [List.length_singleton] at hla hlb
        have ha2 : a ≠ squareUm := by
          rintro rfl
          rw [show sanitizeMu [squareUm] = ['u', 'm'] by decide] at hlen
          simp only [List.length_cons, List.length_nil] at hlen; omega
        have hb2 : b ≠ squareUm := by
          rintro rfl
          rw [show sanitizeMu [squareUm] = ['u', 'm'] by decide] at hlen
          simp only [List.length_cons, List.length_nil] at hlen; omega
        rw [happ, hsplit a ha2, hsplit b hb2] at hn
        have hn' : [Char.toLower (if a = micro ∨ a = mu then 'u' else a), Char.toLower (if b = micro ∨ b = mu then 'u' else b)]
            = ['u', 'm'] := hn
        simp only [List.cons.injEq, and_true] at hn'
        have hb : ¬ (b = micro ∨ b = mu) := by
          intro hb
          have := hn'.2
          rw [if_pos hb] at this
          exact absurd this (by decide)
        rw [if_neg hb] at hn'
        have hcb : c = a := by
          rcases List.mem_cons.1 hc with h | h
          · exact h
          · have h' : c = b := by simpa using h
            exfalso
            rw [h'] at halias
            rcases halias with h | h | h
            · exact hb (.inl h)
            · exact hb (.inr h)
            · exact hb2 h
        rw [hcb] at halias
        rcases halias with rfl | rfl | rfl
        · rcases letter_m hn'.2 with rfl | rfl
          · exact .inl (.inl rfl)
          · exact .inl (.inr rfl)
        · rcases letter_m hn'.2 with rfl | rfl
          · exact .inr (.inl (.inl rfl))
          · exact .inr (.inl (.inr rfl))
        · exact absurd rfl ha2
      | _ :: _ :: _ :: _, _, hlen, hwl, _ =>
        simp only [List.length_cons] at hwl
        omega
  · rintro (h | ⟨rfl, h⟩)
    · have hw : sanitizeMu w = w := by
        obtain ⟨_, _, ha, _⟩ := h
        apply sanitize_plain
        intro c hc
        have := ha c hc
        refine ⟨?_, ?_, ?_⟩ <;> rintro rfl
        · exact signs.1 this
        · exact signs.2.1 this
        · exact signs.2.2 this
      rw [hw]; exact (lookup_lower hT w e).2 h
    · have hlow : T.lower ['u', 'm'] = ['u', 'm'] ∧ T.lower ['u', 'M'] = ['u', 'm'] := by
        rw [lower_ascii T _ (by decide), lower_ascii T _ (by decide)]
        decide
      have hres : sanitizeMu w = ['u', 'm'] ∨ sanitizeMu w = ['u', 'M'] := by
        rcases h with (rfl | rfl) | (rfl | rfl) | rfl
        · exact .inl (by decide)
        · exact .inr (by decide)
        · exact .inl (by decide)
        · exact .inr (by decide)
        · exact .inl (by decide)
      rcases hres with h | h <;> rw [h]
      · rw [hlow.1]; decide
      · rw [hlow.2]; decide

private theorem fix_cases (T : Text) (u : List Char) :
    fixDecodingIssues T u = u ∨ (fixDecodingIssues T u = "um".toList ∧ ∃ d, u = d ++ ['m'] ∧ T.decodings d = true) := by
  unfold fixDecodingIssues
  by_cases h : u.getLast? = some 'm'
  · rw [if_pos h]
    by_cases hd : T.decodings u.dropLast = true
    · rw [if_pos hd]
      refine .inr ⟨rfl, u.dropLast, ?_, hd⟩
      have hne : u ≠ [] := by rintro rfl; simp at h
      have := List.dropLast_concat_getLast hne
      rw [List.getLast?_eq_some_getLast hne, Option.some.injEq] at h
      rw [h] at this
      exact this.symm
    · rw [if_neg hd]; exact .inl rfl
  · rw [if_neg h]; exact .inl rfl

private theorem fix_decoded (T : Text) (d : List Char) (h : T.decodings d = true) :
    fixDecodingIssues T (d ++ ['m']) = "um".toList := by
  unfold fixDecodingIssues
  simp [h]

/-! ## Statements -/

/-- The exponents a source unit may stand for: a known unit in any capitalisation, a micrometre with either micro sign
or with the square sign (U+00B5, U+03BC, U+339B), or a string that consists of a misdecoded micro sign and `m` and is not itself a known unit. -/
def FromUnit (T : Text) (w : List Char) (e : Int) : Prop :=
  Plain w e ∨ (e = -6 ∧ (WithSign '\u00b5' w ∨ WithSign '\u03bc' w ∨ w = ['\u339b'])) ∨
  (e = -6 ∧ (∀ e', ¬ Plain w e') ∧ ∃ d, T.lower (sanitizeMu w) = d ++ ['m'] ∧ T.decodings d = true)

/-- The exponents a target unit may stand for: a known unit in any capitalisation, or (in lower case) a misdecoded micro
sign and `m`. -/
def ToUnit (T : Text) (w : List Char) (e : Int) : Prop :=
  Plain w e ∨ (e = -6 ∧ (∀ e', ¬ Plain w e') ∧ ∃ d, T.lower w = d ++ ['m'] ∧ T.decodings d = true)

private theorem from_lookup {T : Text} (hT : Faithful T) (w : List Char) (e : Int) :
    unitExponent.lookup (if (unitExponent.lookup (T.lower (sanitizeMu w))).isNone
      then fixDecodingIssues T (T.lower (sanitizeMu w)) else T.lower (sanitizeMu w)) = some e ↔ FromUnit T w e := by
  cases hl : unitExponent.lookup (T.lower (sanitizeMu w)) with
  | some e0 =>
    rw [if_neg (by simp), hl]
    have h0 := (lookup_from hT w e0).1 hl
    constructor
    · intro h
      rw [Option.some.injEq] at h
      subst h
      rcases h0 with h0 | h0
      · exact .inl h0
      · exact .inr (.inl h0)
    · intro h
      rcases h with h | h | h
      · rw [← hl, (lookup_from hT w e).2 (.inl h)]
      · rw [← hl, (lookup_from hT w e).2 (.inr h)]
      · obtain ⟨rfl, hp, _⟩ := h
        rcases h0 with h0 | h0
        · exact absurd h0 (hp e0)
        · rw [h0.1]
  | none =>
    rw [if_pos (by simp)]
    have hno : ∀ e', ¬ (Plain w e' ∨ (e' = -6 ∧ (WithSign micro w ∨ WithSign mu w ∨ w = [squareUm]))) := by
      intro e' h
      rw [(lookup_from hT w e').2 h] at hl; cases hl
    constructor
    · intro h
      rcases fix_cases T (T.lower (sanitizeMu w)) with hf | ⟨hf, d, hd1, hd2⟩
      · rw [hf, hl] at h; cases h
      · rw [hf] at h
        have he : e = -6 := by
          have : unitExponent.lookup "um".toList = some (-6) := by decide
          rw [this, Option.some.injEq] at h
          exact h.symm
        exact .inr (.inr ⟨he, fun e' hp => hno e' (.inl hp), d, hd1, hd2⟩)
    · rintro (h | h | ⟨rfl, _, d, hd1, hd2⟩)
      · exact absurd (.inl h) (hno e)
      · exact absurd (.inr h) (hno e)
      · rw [hd1, fix_decoded T d hd2]; decide

private theorem to_lookup {T : Text} (hT : Faithful T) (w : List Char) (e : Int) :
    unitExponent.lookup (if (unitExponent.lookup (T.lower w)).isNone
      then fixDecodingIssues T (T.lower w) else T.lower w) = some e ↔ ToUnit T w e := by
  cases hl : unitExponent.lookup (T.lower w) with
  | some e0 =>
    rw [if_neg (by simp), hl]
    have h0 := (lookup_lower hT w e0).1 hl
    constructor
    · intro h
      rw [Option.some.injEq] at h
      subst h
      exact .inl h0
    · rintro (h | ⟨_, hp, _⟩)
      · rw [← hl, (lookup_lower hT w e).2 h]
      · exact absurd h0 (hp e0)
  | none =>
    rw [if_pos (by simp)]
    have hno : ∀ e', ¬ Plain w e' := by
      intro e' h
      rw [(lookup_lower hT w e').2 h] at hl; cases hl
    constructor
    · intro h
      rcases fix_cases T (T.lower w) with hf | ⟨hf, d, hd1, hd2⟩
      · rw [hf, hl] at h; cases h
      · rw [hf] at h
        have he : e = -6 := by
          have : unitExponent.lookup "um".toList = some (-6) := by decide
          rw [this, Option.some.injEq] at h
          exact h.symm
        exact .inr ⟨he, hno, d, hd1, hd2⟩
    · rintro (h | ⟨rfl, _, d, hd1, hd2⟩)
      · exact absurd h (hno e)
      · rw [hd1, fix_decoded T d hd2]; decide

/-- **C56** (complete description). The conversion succeeds exactly when both strings name a unit, and the factor is
the quotient of their lengths; otherwise it raises `ValueError`. -/
theorem C56_conversion_partial {K : Type} [Field K] {T : Text} (hT : Faithful T) (a b : List Char) :
    (∀ ea eb, FromUnit T a ea → ToUnit T b eb → getUnitConversion (K := K) T a b = .ok ((10 : K) ^ (ea - eb))) ∧
    (¬ ((∃ ea, FromUnit T a ea) ∧ ∃ eb, ToUnit T b eb) → getUnitConversion (K := K) T a b = .error .valueError) := by
  constructor
  · intro ea eb ha hb
    unfold getUnitConversion
    simp only [(from_lookup hT a ea).2 ha, (to_lookup hT b eb).2 hb]
  · intro h
    unfold getUnitConversion
    dsimp only
    rcases hf : unitExponent.lookup (if (unitExponent.lookup (T.lower (sanitizeMu a))).isNone
      then fixDecodingIssues T (T.lower (sanitizeMu a)) else T.lower (sanitizeMu a)) with _ | ea
    · rfl
    · rcases ht : unitExponent.lookup (if (unitExponent.lookup (T.lower b)).isNone
        then fixDecodingIssues T (T.lower b) else T.lower b) with _ | eb
      · rfl
      · exact absurd ⟨⟨ea, (from_lookup hT a ea).1 hf⟩, eb, (to_lookup hT b eb).1 ht⟩ h

/-- **C56** (composition). For all strings for which the conversions are defined: converting to the same unit is
multiplication by 1, going there and back is the identity, and conversions compose. -/
theorem C56_compose {K : Type} [Field K] [CharZero K] {T : Text} (hT : Faithful T) (a b c : List Char) (ea eb ec : Int)
    (fa : FromUnit T a ea) (fb : FromUnit T b eb) (ta : ToUnit T a ea) (tb : ToUnit T b eb) (tc : ToUnit T c ec) :
    getUnitConversion (K := K) T a a = .ok 1 ∧
    ∃ x y z w : K, getUnitConversion T a b = .ok x ∧ getUnitConversion T b c = .ok y ∧ getUnitConversion T a c = .ok z ∧
      getUnitConversion T b a = .ok w ∧ x * y = z ∧ x * w = 1 ∧ x ≠ 0 := by
  have h10 : (10 : K) ≠ 0 := by norm_num
  refine ⟨?_, _, _, _, _, (C56_conversion_partial hT a b).1 ea eb fa tb, (C56_conversion_partial hT b c).1 eb ec fb tc,
    (C56_conversion_partial hT a c).1 ea ec fa tc, (C56_conversion_partial hT b a).1 eb ea fb ta, ?_, ?_, zpow_ne_zero _ h10⟩
  · rw [(C56_conversion_partial hT a a).1 ea ea fa ta]; simp
  · rw [← zpow_add₀ h10]; congr 1; omega
  · rw [← zpow_add₀ h10]
    rw [show ea - eb + (eb - ea) = 0 by omega, zpow_zero]

/-- **C56** (which strings). Every known unit in every capitalisation may be used on both sides. On the source side a
micrometre may be written with either micro sign or the square sign, on the target side with the micro sign in
lower case `m` or upper case. -/
theorem C56_writings {T : Text} (hT : Faithful T) (w : List Char) :
    (∀ e, Plain w e → FromUnit T w e ∧ ToUnit T w e) ∧
    (WithSign '\u00b5' w → FromUnit T w (-6) ∧ ToUnit T w (-6)) ∧
    (WithSign '\u03bc' w → FromUnit T w (-6)) ∧ (w = ['\u339b'] → FromUnit T w (-6)) := by
  refine ⟨fun e h => ⟨.inl h, .inl h⟩, ?_, fun h => .inr (.inl ⟨rfl, .inr (.inl h)⟩),
    fun h => .inr (.inl ⟨rfl, .inr (.inr h)⟩)⟩
  intro h
  change WithSign micro w at h
  refine ⟨.inr (.inl ⟨rfl, .inl h⟩), .inr ⟨rfl, ?_, [micro], ?_, hT.micro_decodes⟩⟩
  · rintro e ⟨_, _, ha, _⟩
    have : micro ∈ w := by rcases h with rfl | rfl <;> simp
    exact signs.1 (ha _ this)
  · have hl : ∀ c : Char, c.toNat < 128 → T.lower [micro, c] = [micro, c.toLower] := by
      intro c hc
      simp only [Text.lower, List.flatMap_cons, List.flatMap_nil]
      rw [if_neg signs.1, if_pos hc, hT.micro_lower]
      rfl
    rcases h with rfl | rfl <;> rw [hl _ (by decide)] <;> rfl

/-- **C56**, limit: on the target side the square sign is rejected, and the Greek mu is accepted only if some pair of
codecs decodes the micro sign as a Greek mu (`'μ'` is not replaced there as it is on the source side). -/
theorem C56_target_signs {T : Text} (hsq : T.lowerC '\u339b' = ['\u339b']) (hmu : T.lowerC '\u03bc' = ['\u03bc']) :
    (∀ e, ¬ ToUnit T ['\u339b'] e) ∧ ((∃ e, ToUnit T ['\u03bc', 'm'] e) ↔ T.decodings ['\u03bc'] = true) := by
  change T.lowerC squareUm = [squareUm] at hsq
  change T.lowerC mu = [mu] at hmu
  change (∀ e, ¬ ToUnit T [squareUm] e) ∧ ((∃ e, ToUnit T [mu, 'm'] e) ↔ T.decodings [mu] = true)
  constructor
  · rintro e (⟨_, _, ha, _⟩ | ⟨_, _, d, hd, _⟩)
    · exact signs.2.2 (ha _ (by simp))
    · have : T.lower [squareUm] = [squareUm] := by
        simp only [Text.lower, List.flatMap_cons, List.flatMap_nil]
        rw [if_neg signs.2.2, hsq]; rfl
      rw [this] at hd
      cases d with
      | nil =>
        simp only [List.nil_append, List.cons.injEq, and_true] at hd
        exact absurd hd (by decide)
      | cons x d => simp at hd
  · have hl : T.lower [mu, 'm'] = [mu] ++ ['m'] := by
      simp only [Text.lower, List.flatMap_cons, List.flatMap_nil]
      rw [if_neg signs.2.1, if_pos (by decide), hmu]; rfl
    have hnp : ∀ e', ¬ Plain [mu, 'm'] e' := by
      rintro e' ⟨_, _, ha, _⟩
      exact signs.2.1 (ha _ (by simp))
    constructor
    · rintro ⟨e, h | ⟨_, _, d, hd, hdd⟩⟩
      · exact absurd h (hnp e)
      · rw [hl] at hd
        have := List.append_inj_left' hd rfl
        rw [this]; exact hdd
    · intro h
      exact ⟨-6, .inr ⟨rfl, hnp, [mu], hl, h⟩⟩

/-! ## Non-vacuity -/

/-- Text routines as Python has them on the characters that matter: everything outside ASCII is its own lower case, and
the micro sign is decoded to itself only. -/
def demoText : Text where
  lowerC := fun c => [c]
  decodings := fun d => d == [micro]

theorem C56_faithful_exists : Faithful demoText :=
  ⟨by decide, rfl, fun c hc => ⟨c, by simp [demoText], .inr hc⟩⟩

example : getUnitConversion (K := ℚ) demoText "Nanometer".toList "mm".toList = .ok ((10 : ℚ) ^ (-6 : Int)) := by
  have h := (C56_conversion_partial (K := ℚ) C56_faithful_exists "Nanometer".toList "mm".toList).1 (-9) (-3)
    (.inl ⟨"nanometer", .nanometer, by decide, by decide⟩) (.inl ⟨"mm", .mm, by decide, by decide⟩)
  simpa using h

/-- A string that is no unit. -/
example : getUnitConversion (K := ℚ) demoText "inch".toList "um".toList = .error .valueError := by rfl

end Surfalize.Props
