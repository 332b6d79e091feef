import Verif.Prelude.Bytes
import Mathlib.Tactic.Linarith
import Mathlib.Tactic.Ring
import Mathlib.Tactic.FieldSimp
import Mathlib.Tactic.Positivity
import Mathlib.Algebra.Order.Archimedean.Basic
import Mathlib.Algebra.Order.Round
import Mathlib.Data.Finset.Max
import Mathlib.Data.Finset.Range
/-! # Lemmas about bytes, integers and floats -/
set_option linter.unusedSectionVars false
namespace Surfalize

@[simp] theorem leBytes_length : ∀ w n, (leBytes w n).length = w
  | 0, _ => rfl
  | w + 1, n => by simp [leBytes, leBytes_length w]

theorem leNat_leBytes : ∀ w n, n < 256 ^ w → leNat (leBytes w n) = n
  | 0, n, h => by simp at h; simp [leBytes, leNat, h]
  | w + 1, n, h => by
    have h2 : n / 256 < 256 ^ w := by rw [pow_succ] at h; omega
    have h3 : (UInt8.ofNat n).toNat = n % 256 := by simp
    rw [leBytes, leNat, leNat_leBytes w _ h2, h3]; omega

theorem leNat_lt : ∀ bs : Bytes, leNat bs < 256 ^ bs.length
  | [] => by simp [leNat]
  | b :: bs => by
    have := leNat_lt bs
    have hb := b.toNat_lt
    rw [leNat, List.length_cons, pow_succ]; omega

theorem leBytes_leNat : ∀ bs : Bytes, leBytes bs.length (leNat bs) = bs
  | [] => rfl
  | b :: bs => by
    have hb := b.toNat_lt
    rw [List.length_cons, leNat, leBytes]
    have h1 : (b.toNat + 256 * leNat bs) / 256 = leNat bs := by omega
    rw [h1, leBytes_leNat bs]
    congr 1
    apply UInt8.toNat_inj.1
    simp only [UInt8.toNat_ofNat']
    omega

@[simp] theorem natBytes_length (big w n) : (natBytes big w n).length = w := by
  unfold natBytes; split <;> simp

theorem bytesNat_natBytes (big : Bool) (w n : Nat) (h : n < 256 ^ w) :
    bytesNat big (natBytes big w n) = n := by
  unfold bytesNat natBytes
  cases big <;> simp [leNat_leBytes w n h]

@[simp] theorem intBytes_length (big w v) : (intBytes big w v).length = w := by simp [intBytes]

theorem bytesInt_intBytes (signed big : Bool) (w : Nat) (v : Int) (hw : 0 < w)
    (h1 : intMin signed w ≤ v) (h2 : v ≤ intMax signed w) :
    bytesInt signed big w (intBytes big w v) = v := by
  obtain ⟨M, hM⟩ : ∃ M : Int, (256 : Int) ^ w = 2 * M := by
    obtain ⟨k, rfl⟩ : ∃ k, w = k + 1 := ⟨w - 1, by omega⟩
    exact ⟨128 * 256 ^ k, by rw [pow_succ]; ring⟩
  have hpos : (0 : Int) < (256 : Int) ^ w := by positivity
  have hlt : (v % (256 : Int) ^ w).toNat < 256 ^ w := by
    have := Int.emod_lt_of_pos v hpos
    have := Int.emod_nonneg v hpos.ne'
    zify; omega
  have hcast : (((v % (256 : Int) ^ w).toNat : Nat) : Int) = v % (256 : Int) ^ w :=
    Int.toNat_of_nonneg (Int.emod_nonneg v hpos.ne')
  unfold bytesInt intBytes
  dsimp only
  rw [bytesNat_natBytes big w _ hlt, hcast]
  unfold intMin at h1; unfold intMax at h2
  have hdiv : 2 * M / 2 = M := by omega
  rw [hM] at h1 h2 hpos
  rw [hM]
  rw [hdiv] at h1 h2
  rw [hdiv]
  cases signed
  · simp only [Bool.false_eq_true, if_false, false_and] at *
    exact Int.emod_eq_of_lt h1 (by omega)
  · simp only [if_true, true_and] at *
    by_cases hv : 0 ≤ v
    · rw [Int.emod_eq_of_lt hv (by omega), if_neg (by omega)]
    · have : v % (2 * M) = v + 2 * M := by
        rw [← Int.add_emod_right, Int.emod_eq_of_lt (by omega) (by omega)]
      rw [this, if_pos (by omega)]; omega

/-! ## Floats -/
namespace FFormat
variable {K : Type} [Field K] [LinearOrder K] [IsStrictOrderedRing K]

theorem val_mk (f : FFormat) (s e m : Nat) (hs : s < 2) (he : e < 2 ^ f.eb - 1)
    (hm : m < 2 ^ f.mb) :
    f.val K ((s * 2 ^ f.eb + e) * 2 ^ f.mb + m) =
      .fin (if s = 1 then -magnitude K f e m else magnitude K f e m) := by
  have hpm : 0 < 2 ^ f.mb := by positivity
  have hpe : 0 < 2 ^ f.eb := by positivity
  unfold val
  have h1 : ((s * 2 ^ f.eb + e) * 2 ^ f.mb + m) % 2 ^ f.mb = m := by
    rw [Nat.add_comm, Nat.add_mul_mod_self_right, Nat.mod_eq_of_lt hm]
  have h2 : ((s * 2 ^ f.eb + e) * 2 ^ f.mb + m) / 2 ^ f.mb = s * 2 ^ f.eb + e := by
    rw [Nat.add_comm, Nat.add_mul_div_right _ _ hpm, Nat.div_eq_of_lt hm, Nat.zero_add]
  have h3 : (s * 2 ^ f.eb + e) % 2 ^ f.eb = e := by
    rw [Nat.add_comm, Nat.add_mul_mod_self_right, Nat.mod_eq_of_lt (by omega)]
  have h4 : ((s * 2 ^ f.eb + e) * 2 ^ f.mb + m) / 2 ^ (f.mb + f.eb) = s := by
    rw [pow_add, ← Nat.div_div_eq_div_mul, h2, Nat.add_comm, Nat.add_mul_div_right _ _ hpe,
      Nat.div_eq_of_lt (by omega), Nat.zero_add]
  have h5 : s % 2 = s := Nat.mod_eq_of_lt hs
  simp only [h1, h2, h3, h4, h5]
  rw [if_neg (by omega)]
  simp

/-- A number a float can hold exactly. -/
def Repr (f : FFormat) (x : K) : Prop := ∃ n, f.val K n = .fin x

theorem repr_mag (f : FFormat) (e m : Nat) (he : e < 2 ^ f.eb - 1) (hm : m < 2 ^ f.mb) :
    f.Repr (magnitude K f e m) ∧ f.Repr (-magnitude K f e m) := by
  constructor
  · exact ⟨_, by simpa using val_mk (K := K) f 0 e m (by omega) he hm⟩
  · exact ⟨_, by simpa using val_mk (K := K) f 1 e m (by omega) he hm⟩

theorem mag_exists [FloorRing K] (f : FFormat) (hf : 2 ≤ f.eb) (a : K) (h0 : 0 ≤ a)
    (ha : a < f.threshold K) :
    ∃ e m, e < 2 ^ f.eb - 1 ∧ m < 2 ^ f.mb ∧
      |magnitude K f e m - a| ≤
        max (a * (2 : K) ^ (-(f.mb : Int) - 1)) ((2 : K) ^ (-f.bias - (f.mb : Int))) := by
  have h2 : (0 : K) < 2 := by norm_num
  have h2' : (2 : K) ≠ 0 := h2.ne'
  have heb : (4 : Nat) ≤ 2 ^ f.eb := by
    calc 4 = 2 ^ 2 := rfl
      _ ≤ 2 ^ f.eb := Nat.pow_le_pow_right (by omega) hf
  have hebs : (2 : Nat) ^ f.eb = 2 * 2 ^ (f.eb - 1) := by
    obtain ⟨k, hk⟩ : ∃ k, f.eb = k + 1 := ⟨f.eb - 1, by omega⟩
    rw [hk, pow_succ]; simp; ring
  have hbias : f.bias = ((2 ^ (f.eb - 1) : Nat) : Int) - 1 := by simp [bias]
  have hmbpos : 0 < 2 ^ f.mb := by positivity
  by_cases hsub : a < (2 : K) ^ (1 - f.bias)
  · -- subnormal
    set u : K := (2 : K) ^ (1 - f.bias - (f.mb : Int)) with hu
    have hupos : 0 < u := zpow_pos h2 _
    have hmul : (2 : K) ^ f.mb * u = (2 : K) ^ (1 - f.bias) := by
      rw [hu, ← zpow_natCast, ← zpow_add₀ h2']; congr 1; ring
    have ht0 : 0 ≤ a / u := by positivity
    have htl : a / u < (2 : K) ^ f.mb := by
      rw [div_lt_iff₀ hupos, hmul]; exact hsub
    have hk0 : 0 ≤ round (a / u) := by
      rw [round_eq]; exact Int.floor_nonneg.2 (by linarith)
    have hk1 : round (a / u) ≤ ((2 ^ f.mb : Nat) : Int) := by
      rw [round_eq]
      have : ⌊a / u + 1 / 2⌋ < ((2 ^ f.mb : Nat) : Int) + 1 := by
        rw [Int.floor_lt]; push_cast; linarith
      omega
    have herr : |((round (a / u) : Int) : K) * u - a| ≤ (2 : K) ^ (-f.bias - (f.mb : Int)) := by
      have h := abs_sub_round (a / u)
      have e1 : ((round (a / u) : Int) : K) * u - a = -((a / u - (round (a / u) : Int)) * u) := by
        field_simp; ring
      rw [e1, abs_neg, abs_mul, abs_of_pos hupos]
      have e2 : (2 : K) ^ (-f.bias - (f.mb : Int)) = 1 / 2 * u := by
        rw [hu, show (1 - f.bias - (f.mb : Int)) = (-f.bias - (f.mb : Int)) + 1 by ring,
          zpow_add₀ h2', zpow_one]; field_simp
      rw [e2]; exact mul_le_mul_of_nonneg_right h hupos.le
    obtain ⟨k, hk⟩ : ∃ k : Nat, round (a / u) = (k : Int) := ⟨_, (Int.toNat_of_nonneg hk0).symm⟩
    rw [hk] at hk1 herr
    by_cases hlt : k < 2 ^ f.mb
    · refine ⟨0, k, by omega, hlt, le_trans ?_ (le_max_right _ _)⟩
      simpa [magnitude, hu] using herr
    · have hke : k = 2 ^ f.mb := by omega
      refine ⟨1, 0, by omega, hmbpos, le_trans ?_ (le_max_right _ _)⟩
      have : magnitude K f 1 0 = ((k : Int) : K) * u := by
        rw [hke]; simp [magnitude, hu]
      rw [this]; exact herr
  · -- normal
    push Not at hsub
    have hapos : 0 < a := lt_of_lt_of_le (zpow_pos h2 _) hsub
    obtain ⟨e, he1, he2⟩ := exists_mem_Ico_zpow hapos (by norm_num : (1 : K) < 2)
    have hthr : f.threshold K < (2 : K) ^ (f.bias + 1) := by
      unfold threshold
      have : (2 : K) ^ (f.bias + 1) = 2 ^ (f.mb + 2) * (2 : K) ^ (f.bias - (f.mb : Int) - 1) := by
        rw [← zpow_natCast, ← zpow_add₀ h2']; congr 1; push_cast; ring
      rw [this]
      exact mul_lt_mul_of_pos_right (by linarith) (zpow_pos h2 _)
    have hemax : e ≤ f.bias := by
      have : (2 : K) ^ e < (2 : K) ^ (f.bias + 1) := by linarith
      have := (zpow_lt_zpow_iff_right₀ (by norm_num : (1 : K) < 2)).1 this
      omega
    have hemin : 1 - f.bias ≤ e := by
      have : (2 : K) ^ (1 - f.bias) < (2 : K) ^ (e + 1) := by linarith
      have := (zpow_lt_zpow_iff_right₀ (by norm_num : (1 : K) < 2)).1 this
      omega
    set u : K := (2 : K) ^ (e - (f.mb : Int)) with hu
    have hupos : 0 < u := zpow_pos h2 _
    have hmul : (2 : K) ^ f.mb * u = (2 : K) ^ e := by
      rw [hu, ← zpow_natCast, ← zpow_add₀ h2']; congr 1; ring
    have hmul' : (2 : K) ^ (f.mb + 1) * u = (2 : K) ^ (e + 1) := by
      rw [hu, ← zpow_natCast, ← zpow_add₀ h2']; congr 1; push_cast; ring
    have ht0 : (2 : K) ^ f.mb ≤ a / u := by rw [le_div_iff₀ hupos, hmul]; exact he1
    have htl : a / u < (2 : K) ^ (f.mb + 1) := by rw [div_lt_iff₀ hupos, hmul']; exact he2
    have hk0 : ((2 ^ f.mb : Nat) : Int) ≤ round (a / u) := by
      rw [round_eq, Int.le_floor]; push_cast; linarith
    have hk1 : round (a / u) ≤ ((2 ^ (f.mb + 1) : Nat) : Int) := by
      rw [round_eq]
      have : ⌊a / u + 1 / 2⌋ < ((2 ^ (f.mb + 1) : Nat) : Int) + 1 := by
        rw [Int.floor_lt]; push_cast; linarith
      omega
    have herr : |((round (a / u) : Int) : K) * u - a| ≤ a * (2 : K) ^ (-(f.mb : Int) - 1) := by
      have h := abs_sub_round (a / u)
      have e1 : ((round (a / u) : Int) : K) * u - a = -((a / u - (round (a / u) : Int)) * u) := by
        field_simp; ring
      rw [e1, abs_neg, abs_mul, abs_of_pos hupos]
      have e2 : (1 : K) / 2 * u = (2 : K) ^ e * (2 : K) ^ (-(f.mb : Int) - 1) := by
        rw [← zpow_add₀ h2', hu,
          show e - (f.mb : Int) = e + (-(f.mb : Int) - 1) + 1 by ring, zpow_add₀ h2' _ 1, zpow_one]
        field_simp
      calc |a / u - (round (a / u) : Int)| * u ≤ 1 / 2 * u :=
            mul_le_mul_of_nonneg_right h hupos.le
        _ = (2 : K) ^ e * (2 : K) ^ (-(f.mb : Int) - 1) := e2
        _ ≤ a * (2 : K) ^ (-(f.mb : Int) - 1) :=
            mul_le_mul_of_nonneg_right he1 (zpow_pos h2 _).le
    obtain ⟨k, hk⟩ : ∃ k : Nat, round (a / u) = (k : Int) :=
      ⟨_, (Int.toNat_of_nonneg (le_trans (by positivity) hk0)).symm⟩
    have hround := hk
    rw [hk] at hk0 hk1 herr
    obtain ⟨E, hE⟩ : ∃ E : Nat, e + f.bias = (E : Int) :=
      ⟨_, (Int.toNat_of_nonneg (by omega)).symm⟩
    have hE' : e = (E : Int) - f.bias := by omega
    by_cases hlt : k < 2 ^ (f.mb + 1)
    · refine ⟨E, k - 2 ^ f.mb, by omega, by rw [pow_succ] at hlt; omega,
        le_trans ?_ (le_max_left _ _)⟩
      have : magnitude K f E (k - 2 ^ f.mb) = ((k : Int) : K) * u := by
        unfold magnitude
        rw [if_neg (by omega), Nat.add_sub_cancel' (by omega), hu, hE']
        push_cast; rfl
      rw [this]; exact herr
    · have hke : k = 2 ^ (f.mb + 1) := by omega
      by_cases hmax : e = f.bias
      · exfalso
        have hthr2 : a / u < (2 : K) ^ (f.mb + 1) - 1 / 2 := by
          rw [div_lt_iff₀ hupos]
          refine lt_of_lt_of_eq ha ?_
          unfold threshold
          rw [hu, hmax, show f.bias - (f.mb : Int) = f.bias - (f.mb : Int) - 1 + 1 by ring,
            zpow_add₀ h2', zpow_one]
          ring_nf
        have : round (a / u) < ((2 ^ (f.mb + 1) : Nat) : Int) := by
          rw [round_eq, Int.floor_lt]; push_cast; linarith
        rw [hround, hke] at this
        exact lt_irrefl _ this
      · refine ⟨E + 1, 0, by omega, hmbpos, le_trans ?_ (le_max_left _ _)⟩
        have : magnitude K f (E + 1) 0 = ((k : Int) : K) * u := by
          unfold magnitude
          rw [if_neg (by omega), hke, hu, hE']
          push_cast
          rw [show (E : Int) + 1 - f.bias - (f.mb : Int) = ((E : Int) - f.bias - (f.mb : Int)) + 1 by
            ring, zpow_add₀ h2', zpow_one, pow_succ]
          ring
        rw [this]; exact herr

theorem near_exists [FloorRing K] (f : FFormat) (hf : 2 ≤ f.eb) (x : K)
    (hx : |x| < f.threshold K) :
    ∃ y : K, f.Repr y ∧ |y - x| ≤
        max (|x| * (2 : K) ^ (-(f.mb : Int) - 1)) ((2 : K) ^ (-f.bias - (f.mb : Int))) := by
  obtain ⟨e, m, he, hm, h⟩ := mag_exists f hf |x| (abs_nonneg x) hx
  obtain ⟨h1, h2⟩ := repr_mag (K := K) f e m he hm
  rcases le_total 0 x with h0 | h0
  · rw [abs_of_nonneg h0] at h ⊢
    exact ⟨_, h1, h⟩
  · rw [abs_of_nonpos h0] at h ⊢
    refine ⟨_, h2, le_trans (le_of_eq ?_) h⟩
    rw [← abs_neg]; congr 1; ring

theorem repr_zero (f : FFormat) (hf : 2 ≤ f.eb) : f.Repr (0 : K) := by
  have heb : (4 : Nat) ≤ 2 ^ f.eb := by
    calc 4 = 2 ^ 2 := rfl
      _ ≤ 2 ^ f.eb := Nat.pow_le_pow_right (by omega) hf
  have := (repr_mag (K := K) f 0 0 (by omega) (by positivity)).1
  simpa [magnitude] using this

end FFormat

namespace FFormat
variable {K : Type} [Field K] [LinearOrder K] [IsStrictOrderedRing K]

/-- Integers up to `2^(mb+1)` times a power of two in range are representable. -/
theorem repr_nat (f : FFormat) (hf : 2 ≤ f.eb) (hb : (f.mb : Int) ≤ f.bias) (n : Nat)
    (hn : n < 2 ^ (f.mb + 1)) : f.Repr (n : K) ∧ f.Repr (-(n : K)) := by
  have h2 : (0 : K) < 2 := by norm_num
  have heb : (4 : Nat) ≤ 2 ^ f.eb := by
    calc 4 = 2 ^ 2 := rfl
      _ ≤ 2 ^ f.eb := Nat.pow_le_pow_right (by omega) hf
  have hebs : (2 : Nat) ^ f.eb = 2 * 2 ^ (f.eb - 1) := by
    obtain ⟨k, hk⟩ : ∃ k, f.eb = k + 1 := ⟨f.eb - 1, by omega⟩
    rw [hk, pow_succ]; simp; ring
  have hbias : f.bias = ((2 ^ (f.eb - 1) : Nat) : Int) - 1 := by simp [bias]
  rcases Nat.eq_zero_or_pos n with h0 | h0
  · subst h0
    have := repr_zero (K := K) f hf
    simpa using this
  · have hl1 := Nat.log2_self_le h0.ne'
    have hl2 := Nat.lt_log2_self (n := n)
    set l := Nat.log2 n
    have hlm : l ≤ f.mb := by
      by_contra hc
      have : 2 ^ (f.mb + 1) ≤ 2 ^ l := Nat.pow_le_pow_right (by omega) (by omega)
      omega
    have hmul : n * 2 ^ (f.mb - l) < 2 ^ (f.mb + 1) := by
      calc n * 2 ^ (f.mb - l) < 2 ^ (l + 1) * 2 ^ (f.mb - l) :=
            Nat.mul_lt_mul_of_pos_right hl2 (by positivity)
        _ = 2 ^ (f.mb + 1) := by rw [← pow_add]; congr 1; omega
    have hge : 2 ^ f.mb ≤ n * 2 ^ (f.mb - l) := by
      calc 2 ^ f.mb = 2 ^ l * 2 ^ (f.mb - l) := by rw [← pow_add]; congr 1; omega
        _ ≤ n * 2 ^ (f.mb - l) := Nat.mul_le_mul_right _ hl1
    obtain ⟨E, hE⟩ : ∃ E : Nat, (l : Int) + f.bias = (E : Int) :=
      ⟨_, (Int.toNat_of_nonneg (by omega)).symm⟩
    have hmag : magnitude K f E (n * 2 ^ (f.mb - l) - 2 ^ f.mb) = (n : K) := by
      unfold magnitude
      rw [if_neg (by omega), Nat.add_sub_cancel' hge]
      push_cast
      rw [mul_assoc, ← zpow_natCast (2 : K), ← zpow_add₀ h2.ne']
      have : ((f.mb - l : Nat) : Int) + ((E : Int) - f.bias - (f.mb : Int)) = 0 := by omega
      rw [this]; simp
    have := repr_mag (K := K) f E (n * 2 ^ (f.mb - l) - 2 ^ f.mb) (by omega)
      (by rw [pow_succ] at hmul; omega)
    rwa [hmag] at this

end FFormat

namespace FloatCodec
variable {K : Type} [Field K] [LinearOrder K] [IsStrictOrderedRing K]

/-- Value read back after writing `x` in format `f` (`0` where the format overflows). -/
noncomputable def round (c : FloatCodec K) (f : FFormat) (x : K) : K :=
  match f.val K (c.enc f (some x)) with
  | .fin y => y
  | _ => 0

theorem Nearest.val_round {c : FloatCodec K} (hc : c.Nearest) {f : FFormat}
    (hf : f = f32 ∨ f = f64) (x : K) (hx : |x| < f.threshold K) :
    f.val K (c.enc f (some x)) = .fin (c.round f x) := by
  obtain ⟨y, hy, -⟩ := hc.fin f hf x hx
  simp [FloatCodec.round, hy]

theorem Nearest.round_best {c : FloatCodec K} (hc : c.Nearest) {f : FFormat}
    (hf : f = f32 ∨ f = f64) (x : K) (hx : |x| < f.threshold K) (y' : K) (hy' : f.Repr y') :
    |c.round f x - x| ≤ |y' - x| := by
  obtain ⟨y, hy, h⟩ := hc.fin f hf x hx
  obtain ⟨n, hn⟩ := hy'
  have : c.round f x = y := by simp [FloatCodec.round, hy]
  rw [this]; exact h n y' hn

theorem Nearest.round_exact {c : FloatCodec K} (hc : c.Nearest) {f : FFormat}
    (hf : f = f32 ∨ f = f64) (x : K) (hx : |x| < f.threshold K) (hr : f.Repr x) :
    c.round f x = x := by
  have := hc.round_best hf x hx x hr
  simp only [sub_self, abs_zero, abs_nonpos_iff] at this
  linarith

theorem Nearest.round_error [FloorRing K] {c : FloatCodec K} (hc : c.Nearest) {f : FFormat}
    (hf : f = f32 ∨ f = f64) (x : K) (hx : |x| < f.threshold K) :
    |c.round f x - x| ≤
      max (|x| * (2 : K) ^ (-(f.mb : Int) - 1)) ((2 : K) ^ (-f.bias - (f.mb : Int))) := by
  have h2 : 2 ≤ f.eb := by rcases hf with rfl | rfl <;> decide
  obtain ⟨y, hy, h⟩ := FFormat.near_exists f h2 x hx
  exact le_trans (hc.round_best hf x hx y hy) h

/-- There is an encoder that rounds to nearest. -/
theorem exists_nearest (K : Type) [Field K] [LinearOrder K] [IsStrictOrderedRing K]
    : ∃ c : FloatCodec K, c.Nearest := by
  classical
  have hmod : ∀ (f : FFormat) (n : Nat), f.val K (n % 2 ^ f.bits) = f.val K n := by
    intro f n
    have e1 : n % 2 ^ f.bits % 2 ^ f.mb = n % 2 ^ f.mb := by
      apply Nat.mod_mod_of_dvd
      exact pow_dvd_pow 2 (by unfold FFormat.bits; omega)
    have hb : 2 ^ f.bits = 2 ^ f.mb * 2 ^ (f.eb + 1) := by
      rw [← pow_add]; congr 1; unfold FFormat.bits; omega
    have hb' : 2 ^ f.bits = 2 ^ (f.mb + f.eb) * 2 := by
      rw [← pow_succ]; congr 1; unfold FFormat.bits; omega
    have e2 : n % 2 ^ f.bits / 2 ^ f.mb % 2 ^ f.eb = n / 2 ^ f.mb % 2 ^ f.eb := by
      rw [hb, Nat.mod_mul_right_div_self]
      exact Nat.mod_mod_of_dvd _ (pow_dvd_pow 2 (by omega))
    have e3 : n % 2 ^ f.bits / 2 ^ (f.mb + f.eb) % 2 = n / 2 ^ (f.mb + f.eb) % 2 := by
      rw [hb', Nat.mod_mul_right_div_self, Nat.mod_mod]
    simp only [FFormat.val, e1, e2, e3]
  have key : ∀ (f : FFormat) (x : Option K), ∃ n, n < 2 ^ f.bits ∧ ((f = f32 ∨ f = f64) →
      match x with
      | none => f.val K n = .nan
      | some x => (|x| < f.threshold K → ∃ y : K, f.val K n = .fin y ∧
          ∀ n' (y' : K), f.val K n' = .fin y' → |y - x| ≤ |y' - x|) ∧
          (f.threshold K ≤ |x| → f.val K n = .inf (decide (x < 0)))) := by
    intro f x
    by_cases hf : f = f32 ∨ f = f64
    swap
    · exact ⟨0, by positivity, fun h => absurd h hf⟩
    cases x with
    | none =>
      rcases hf with rfl | rfl
      · exact ⟨0x7fc00000, by decide, fun _ => by simp [FFormat.val, f32]⟩
      · exact ⟨0x7ff8000000000000, by decide, fun _ => by simp [FFormat.val, f64]⟩
    | some x =>
      by_cases hx : |x| < f.threshold K
      · have h2 : 2 ≤ f.eb := by rcases hf with rfl | rfl <;> decide
        let S : Finset Nat := (Finset.range (2 ^ f.bits)).filter
          (fun n => ∃ y, f.val K n = .fin y)
        have hne : S.Nonempty := by
          obtain ⟨n, hn⟩ := FFormat.repr_zero (K := K) f h2
          exact ⟨n % 2 ^ f.bits, by
            simp only [S, Finset.mem_filter, Finset.mem_range]
            exact ⟨Nat.mod_lt _ (by positivity), 0, by rw [hmod]; exact hn⟩⟩
        let g : Nat → K := fun n => match f.val K n with | .fin y => |y - x| | _ => 0
        obtain ⟨n, hnS, hmin⟩ := Finset.exists_min_image S g hne
        simp only [S, Finset.mem_filter, Finset.mem_range] at hnS
        obtain ⟨hlt, y, hy⟩ := hnS
        refine ⟨n, hlt, fun _ => ⟨fun _ => ⟨y, hy, ?_⟩, fun h => absurd hx (not_lt.2 h)⟩⟩
        intro n' y' hy'
        have := hmin (n' % 2 ^ f.bits) (by
          simp only [S, Finset.mem_filter, Finset.mem_range]
          exact ⟨Nat.mod_lt _ (by positivity), y', by rw [hmod]; exact hy'⟩)
        simpa [g, hmod, hy, hy'] using this
      · by_cases hneg : x < 0
        · rcases hf with rfl | rfl
          · exact ⟨0xff800000, by decide, fun _ => ⟨fun h => absurd h hx, fun _ => by
              simp [FFormat.val, f32, hneg]⟩⟩
          · exact ⟨0xfff0000000000000, by decide, fun _ => ⟨fun h => absurd h hx, fun _ => by
              simp [FFormat.val, f64, hneg]⟩⟩
        · rcases hf with rfl | rfl
          · exact ⟨0x7f800000, by decide, fun _ => ⟨fun h => absurd h hx, fun _ => by
              simp [FFormat.val, f32, hneg]⟩⟩
          · exact ⟨0x7ff0000000000000, by decide, fun _ => ⟨fun h => absurd h hx, fun _ => by
              simp [FFormat.val, f64, hneg]⟩⟩
  choose enc hlt hspec using key
  exact ⟨⟨enc⟩, {
    lt := hlt
    nan := fun f hf => hspec f none hf
    fin := fun f hf x hx => (hspec f (some x) hf).1 hx
    inf := fun f hf x hx => (hspec f (some x) hf).2 hx }⟩

end FloatCodec

/-! ## Text -/

theorem utf8_toByteArray (s : List Char) : (utf8 s).toByteArray = s.utf8Encode := by
  simp [utf8, List.utf8Encode]

theorem utf8?_utf8 (s : List Char) : utf8? (utf8 s) = some s := by
  simp [utf8?, utf8_toByteArray]

theorem utf8_append (s t : List Char) : utf8 (s ++ t) = utf8 s ++ utf8 t := by
  simp [utf8]

theorem utf8_ascii (s : List Char) (h : ∀ c ∈ s, c.toNat < 128) :
    utf8 s = s.map fun c => UInt8.ofNat c.toNat := by
  induction s with
  | nil => rfl
  | cons c s ih =>
    have hc := h c (by simp)
    have h1 : c.utf8Size = 1 := by
      unfold Char.utf8Size
      rw [if_pos]
      exact UInt32.le_iff_toNat_le.2 (Nat.lt_succ_iff.1 hc)
    have h2 := String.utf8EncodeChar_eq_singleton h1
    simp only [utf8, List.flatMap_cons, List.map_cons] at ih ⊢
    rw [h2, ih (fun c' h' => h c' (by simp [h']))]
    rfl

theorem utf8_length_le (s : List Char) : s.length ≤ (utf8 s).length := by
  induction s with
  | nil => simp
  | cons c s ih =>
    have : 0 < c.utf8Size := Char.utf8Size_pos c
    simp only [utf8, List.flatMap_cons, List.length_append, List.length_cons,
      String.length_utf8EncodeChar] at ih ⊢
    omega

end Surfalize
