import Verif.Spec.Report
import Verif.Props.Convert
import Verif.Props.Autocorr
import Verif.Lemmas.Text
import Verif.Lemmas.MapM
import Mathlib.Tactic.NormNum

/-!
# C98 — `surfalize report`
-/
set_option linter.unusedSectionVars false
namespace Surfalize.Props
open Surfalize Report ReportSpec Object

/-! ### The text of a number -/
section
variable {K : Type} [Field K] [LinearOrder K] [IsStrictOrderedRing K] [FloorRing K]

theorem roundEven_near (y : K) : |y - roundEven y| ≤ 1 / 2 := by
  have h1 := Int.floor_le y
  have h2 := Int.lt_floor_add_one y
  unfold roundEven
  rw [abs_le]
  split_ifs <;> push_cast <;> constructor <;> linarith

theorem roundEven_nonneg {y : K} (hy : 0 ≤ y) : 0 ≤ roundEven y := by
  have := Int.floor_nonneg.2 hy
  unfold roundEven
  split_ifs <;> omega

theorem roundEven_mono {x y : K} (h : x ≤ y) : roundEven x ≤ roundEven y := by
  have hf := Int.floor_le_floor h
  rcases lt_or_eq_of_le hf with hlt | heq
  · have : roundEven x ≤ ⌊x⌋ + 1 := by unfold roundEven; split_ifs <;> omega
    have : ⌊y⌋ ≤ roundEven y := by unfold roundEven; split_ifs <;> omega
    omega
  · unfold roundEven
    rw [← heq]
    split_ifs <;> first | omega | (exfalso; linarith)

theorem digit_isDigit' (d : Nat) : (digit d).isDigit = true := digit_isDigit (Nat.mod_lt _ (by omega))

theorem digit_val (d : Nat) : (digit d).toNat - 48 = d % 10 := by
  unfold digit
  rw [digit_toNat (Nat.mod_lt _ (by omega))]
  omega

theorem digits3 (n : Nat) : digitsNat [digit (n / 100), digit (n / 10), digit n] = n % 1000 := by
  simp only [digitsNat, List.foldl_cons, List.foldl_nil, digit_val]
  omega

theorem isDigit_ne {c : Char} (h : c.isDigit = true) : c ≠ '.' ∧ c ≠ '-' := by
  constructor <;> rintro rfl <;> simp at h

theorem magnitude_text {ip fp : List Char} (hi : ∀ c ∈ ip, c.isDigit = true) :
    (magnitude (ip ++ '.' :: fp) : K) = digitsNat ip + digitsNat fp / 10 ^ fp.length := by
  have e1 : (ip ++ '.' :: fp).takeWhile (· ≠ '.') = ip := by
    rw [List.takeWhile_append_of_pos (by intro c hc; simpa using (isDigit_ne (hi c hc)).1)]
    simp
  have e2 : (ip ++ '.' :: fp).dropWhile (· ≠ '.') = '.' :: fp := by
    rw [List.dropWhile_append_of_pos (by intro c hc; simpa using (isDigit_ne (hi c hc)).1)]
    simp
  unfold magnitude
  rw [e1, e2]
  rfl

/-- what is shown -/
theorem value_fixed3 (x : K) : value (fixed3 x) = (if x < 0 then -1 else 1) * ((roundEven (|x| * 1000) : K) / 1000) := by
  have h0 : 0 ≤ roundEven (|x| * 1000) := roundEven_nonneg (by positivity)
  obtain ⟨n, hn⟩ := Int.eq_ofNat_of_zero_le h0
  unfold fixed3
  rw [hn]
  dsimp only [Int.toNat_natCast]
  have hm : (magnitude (natText (n / 1000) ++ '.' :: [digit (n / 100), digit (n / 10), digit n]) : K) = (n : K) / 1000 := by
    rw [magnitude_text (natText_digits _), digitsNat_natText, digits3]
    have : (n : K) = (n / 1000 : Nat) * 1000 + (n % 1000 : Nat) := by exact_mod_cast (Nat.div_add_mod' n 1000).symm
    rw [this]
    simp only [List.length_cons, List.length_nil]
    norm_num
    ring
  by_cases hx : x < 0
  · rw [if_pos hx, if_pos hx]
    show -magnitude (natText (n / 1000) ++ '.' :: [digit (n / 100), digit (n / 10), digit n]) = _
    rw [hm]
    push_cast
    ring
  · rw [if_neg hx, if_neg hx, List.nil_append]
    have : ∀ s : List Char, (∀ c r, s = c :: r → c ≠ '-') → (value s : K) = magnitude s := by
      intro s hs
      unfold value
      split
      · rename_i r
        exact absurd rfl (hs '-' r rfl)
      · rfl
    rw [this, hm]
    · push_cast; ring
    · intro c r hs
      have hne := natText_ne_nil (n / 1000)
      have hd := natText_digits (n / 1000)
      cases hnt : natText (n / 1000) with
      | nil => exact absurd hnt hne
      | cons a l =>
        rw [hnt] at hs hd
        simp only [List.cons_append, List.cons.injEq] at hs
        rw [← hs.1]
        exact (isDigit_ne (hd a (by simp))).2

/-- **C98** (numbers). Every finite number is shown with exactly three places and differs from what is shown by at most
half a unit of the last place; it is shown with a sign exactly if it is negative. -/
theorem C98_number (x : K) :
    ThreePlaces (Num.text (.fin x)) ∧ |x - value (Num.text (.fin x))| ≤ 1 / 2000 ∧
      ((∃ r, Num.text (.fin x) = '-' :: r) ↔ x < 0) := by
  show ThreePlaces (fixed3 x) ∧ |x - value (fixed3 x)| ≤ 1 / 2000 ∧ ((∃ r, fixed3 x = '-' :: r) ↔ x < 0)
  refine ⟨?_, ?_, ?_⟩
  · refine ⟨if x < 0 then ['-'] else [], natText ((roundEven (|x| * 1000)).toNat / 1000), _, rfl, ?_, natText_ne_nil _, rfl,
      natText_digits _, ?_⟩
    · split
      · exact Or.inr rfl
      · exact Or.inl rfl
    · intro c hc
      simp only [List.mem_cons, List.not_mem_nil, or_false] at hc
      rcases hc with rfl | rfl | rfl <;> exact digit_isDigit' _
  · rw [value_fixed3]
    have h := roundEven_near (|x| * 1000)
    rw [abs_le] at h ⊢
    by_cases hx : x < 0
    · rw [if_pos hx]
      rw [abs_of_neg hx] at h ⊢
      constructor <;> linarith
    · rw [if_neg hx]
      rw [abs_of_nonneg (not_lt.1 hx)] at h ⊢
      constructor <;> linarith
  · constructor
    · rintro ⟨r, hr⟩
      by_contra hx
      unfold fixed3 at hr
      rw [if_neg hx] at hr
      dsimp only at hr
      rw [List.nil_append] at hr
      have hne := natText_ne_nil ((roundEven (|x| * 1000)).toNat / 1000)
      have hd := natText_digits ((roundEven (|x| * 1000)).toNat / 1000)
      cases hnt : natText ((roundEven (|x| * 1000)).toNat / 1000) with
      | nil => exact hne hnt
      | cons a l =>
        rw [hnt] at hr hd
        simp only [List.cons_append, List.cons.injEq] at hr
        exact (isDigit_ne (hd a (by simp))).2 hr.1
    · intro hx
      unfold fixed3
      rw [if_pos hx]
      exact ⟨_, rfl⟩

/-- **C98** (order). A report never shows a larger number for a smaller value. -/
theorem C98_order {x y : K} (h : x ≤ y) : (value (Num.text (.fin x)) : K) ≤ value (Num.text (.fin y)) := by
  show (value (fixed3 x) : K) ≤ value (fixed3 y)
  rw [value_fixed3, value_fixed3]
  have n1 : (0 : K) ≤ (roundEven (|x| * 1000) : K) := by exact_mod_cast roundEven_nonneg (by positivity : 0 ≤ |x| * 1000)
  have n2 : (0 : K) ≤ (roundEven (|y| * 1000) : K) := by exact_mod_cast roundEven_nonneg (by positivity : 0 ≤ |y| * 1000)
  by_cases hx : x < 0
  · by_cases hy : y < 0
    · rw [if_pos hx, if_pos hy]
      have : (roundEven (|y| * 1000) : K) ≤ roundEven (|x| * 1000) := by
        exact_mod_cast roundEven_mono (by rw [abs_of_neg hx, abs_of_neg hy]; linarith)
      linarith
    · rw [if_pos hx, if_neg hy]; linarith
  · have hy : ¬ y < 0 := by linarith
    rw [if_neg hx, if_neg hy]
    have : (roundEven (|x| * 1000) : K) ≤ roundEven (|y| * 1000) := by
      exact_mod_cast roundEven_mono (by rw [abs_of_nonneg (by linarith), abs_of_nonneg (by linarith)]; linarith)
    linarith

/-- **C98** (ties). Of the two nearest numbers of three places the one with the even last digit is shown. -/
theorem C98_ties (x : K) (n : Nat) (h : |x| * 1000 = n + 1 / 2) :
    ∃ k : Nat, k % 2 = 0 ∧ (k = n ∨ k = n + 1) ∧ |value (Num.text (.fin x))| = (k : K) / 1000 := by
  have hf : ⌊|x| * 1000⌋ = (n : Int) := by
    rw [h, Int.floor_eq_iff]
    push_cast
    constructor <;> linarith
  have hr : roundEven (|x| * 1000) = if (n : Int) % 2 = 0 then (n : Int) else n + 1 := by
    unfold roundEven
    rw [hf, h]
    push_cast
    have : ((n : K) + 1 / 2 - n) = 1 / 2 := by ring
    rw [this, if_neg (lt_irrefl _), if_neg (lt_irrefl _)]
  have hv : ∀ k : Nat, roundEven (|x| * 1000) = (k : Int) → |value (Num.text (.fin x))| = (k : K) / 1000 := by
    intro k hk
    show |value (fixed3 x)| = _
    rw [value_fixed3, hk]
    have h0 : (0 : K) ≤ (k : K) / 1000 := by positivity
    split
    · rw [show (-1 : K) * (((k : Int) : K) / 1000) = -((k : K) / 1000) by push_cast; ring, abs_neg, abs_of_nonneg h0]
    · rw [one_mul, Int.cast_natCast, abs_of_nonneg h0]
  by_cases he : (n : Int) % 2 = 0
  · rw [if_pos he] at hr
    exact ⟨n, by omega, Or.inl rfl, hv n hr⟩
  · rw [if_neg he] at hr
    exact ⟨n + 1, by omega, Or.inr rfl, hv (n + 1) (by rw [hr]; push_cast; rfl)⟩

/-- **C98** (values that are no numbers). A parameter that evaluates to nan or to an infinity is shown as such, and no
number is shown like that. -/
theorem C98_special :
    Num.text (.nan : Num K) = "nan".toList ∧ Num.text (.inf false : Num K) = "inf".toList ∧
      Num.text (.inf true : Num K) = "-inf".toList ∧
      ∀ x : K, Num.text (.fin x) ≠ "nan".toList ∧ Num.text (.fin x) ≠ "inf".toList ∧ Num.text (.fin x) ≠ "-inf".toList := by
  refine ⟨rfl, rfl, rfl, fun x => ?_⟩
  have hdot : '.' ∈ Num.text (.fin x) := by
    show '.' ∈ fixed3 x
    unfold fixed3
    simp
  refine ⟨?_, ?_, ?_⟩ <;> · intro h; rw [h] at hdot; revert hdot; decide

end

example : fixed3 (2.7182818 : ℚ) = "2.718".toList ∧ fixed3 (-1/16 : ℚ) = "-0.062".toList ∧ fixed3 (1234567/1000 : ℚ) = "1234.567".toList ∧
    fixed3 (3/16 : ℚ) = "0.188".toList ∧ |(3/16 : ℚ)| * 1000 = (187 : Nat) + 1 / 2 := by
  refine ⟨?_, ?_, ?_, ?_, by norm_num [abs_of_pos]⟩ <;> decide +kernel

/-! ### The table -/
section
variable {K : Type} [Field K] [LinearOrder K] [FloorRing K] {S : Type}

theorem isoData_ok {M : Methods S K} {s : S} {v : String → Num K} (h : ∀ p ∈ Roughness.surfaceIso, M.param p s = .ok (v p)) :
    isoData M s = .ok (Roughness.surfaceIso.map fun p => (p, v p)) := by
  unfold isoData
  apply mapM_ok_of
  intro p hp
  rw [h p hp]
  rfl

theorem mapM_ok_all {ε α β : Type} {f : α → Except ε β} : ∀ {l : List α} {r : List β}, l.mapM f = .ok r → ∀ a ∈ l, ∃ b, f a = .ok b
  | [], _, _, a, ha => by simp at ha
  | x :: l, r, h, a, ha => by
    rw [List.mapM_cons] at h
    cases hx : f x with
    | error e => rw [hx] at h; simp [Bind.bind, Except.bind] at h
    | ok v =>
      rw [hx] at h
      cases hl : l.mapM f with
      | error e => rw [hl] at h; simp [Bind.bind, Except.bind] at h
      | ok vs =>
        rcases List.mem_cons.1 ha with rfl | ha
        · exact ⟨v, hx⟩
        · exact mapM_ok_all hl a ha

theorem bind_ok {α β : Type} (x : α) (f : α → Except Err β) : (Except.ok x).bind f = f x := rfl

theorem isoData_error {M : Methods S K} {s : S} (h : ¬ AllIso M s) : ∃ e, isoData M s = .error e := by
  unfold isoData
  cases hx : Roughness.surfaceIso.mapM (fun p => (M.param p s).map fun v => (p, v)) with
  | error e => exact ⟨e, rfl⟩
  | ok r =>
    exfalso
    apply h
    intro p hp
    obtain ⟨b, hb⟩ := mapM_ok_all hx p hp
    cases hv : M.param p s with
    | ok v => exact ⟨v, rfl⟩
    | error e => rw [hv] at hb; cases hb

/-- **C98** (the table). A surface gets a table exactly if both plots can be drawn, every ISO parameter can be computed
and, with `--periodic-parameters`, the four periodic parameters can be computed; the table shows the values of the
height parameters, the functional parameters and the periodic parameters with their units, in a fixed order. -/
theorem C98_table (M : Methods S K) (periodic : Bool) (s : S) (t : List Row) :
    rows M periodic s = .ok t ↔ M.plots s = .ok () ∧ AllIso M s ∧ IsTable M periodic s t := by
  unfold rows
  cases hp : M.plots s with
  | error e => simp [Except.bind]
  | ok u =>
    by_cases hall : AllIso M s
    · have hv : ∃ v : String → Num K, ∀ p ∈ Roughness.surfaceIso, M.param p s = .ok (v p) := by
        refine ⟨fun p => match M.param p s with | .ok v => v | .error _ => .nan, fun p hp => ?_⟩
        obtain ⟨v, hv⟩ := hall p hp
        simp only [hv]
      obtain ⟨v, hv⟩ := hv
      rw [isoData_ok hv]
      have g1 : group (Roughness.surfaceIso.map fun p => (p, v p)) "Spatial" ["Sa", "Sq", "Sv", "Sp", "Sz"]
          = .ok [.wide "Spatial", .entry "Sa" (v "Sa").text "µm", .entry "Sq" (v "Sq").text "µm",
            .entry "Sv" (v "Sv").text "µm", .entry "Sp" (v "Sp").text "µm", .entry "Sz" (v "Sz").text "µm"] := rfl
      have g2 : group (Roughness.surfaceIso.map fun p => (p, v p)) "Functional" ["Sk", "Spk", "Svk"]
          = .ok [.wide "Functional", .entry "Sk" (v "Sk").text "µm", .entry "Spk" (v "Spk").text "µm",
            .entry "Svk" (v "Svk").text "µm"] := rfl
      have hm : ∀ p, p ∈ Roughness.surfaceIso → ∀ w, M.param p s = .ok w ↔ w = v p := fun p hp w => by
        rw [hv p hp]; exact ⟨fun h => (Except.ok.inj h).symm, fun h => by rw [h]⟩
      have hT : ∀ more, ((.wide "ISO 25178" : Row) :: ([.wide "Spatial", .entry "Sa" (v "Sa").text "µm", .entry "Sq" (v "Sq").text "µm",
            .entry "Sv" (v "Sv").text "µm", .entry "Sp" (v "Sp").text "µm", .entry "Sz" (v "Sz").text "µm"] ++
            [.wide "Functional", .entry "Sk" (v "Sk").text "µm", .entry "Spk" (v "Spk").text "µm",
            .entry "Svk" (v "Svk").text "µm"] ++ more) = t) ↔ t = [.wide "ISO 25178", .wide "Spatial", .entry "Sa" (v "Sa").text "µm", .entry "Sq" (v "Sq").text "µm",
      .entry "Sv" (v "Sv").text "µm", .entry "Sp" (v "Sp").text "µm", .entry "Sz" (v "Sz").text "µm", .wide "Functional",
      .entry "Sk" (v "Sk").text "µm", .entry "Spk" (v "Spk").text "µm", .entry "Svk" (v "Svk").text "µm"] ++ more := fun more => eq_comm
      have hI : IsTable M periodic s t ↔ ∃ more, t = [.wide "ISO 25178", .wide "Spatial", .entry "Sa" (v "Sa").text "µm", .entry "Sq" (v "Sq").text "µm",
      .entry "Sv" (v "Sv").text "µm", .entry "Sp" (v "Sp").text "µm", .entry "Sz" (v "Sz").text "µm", .wide "Functional",
      .entry "Sk" (v "Sk").text "µm", .entry "Spk" (v "Spk").text "µm", .entry "Svk" (v "Svk").text "µm"] ++ more ∧
          (periodic = false → more = []) ∧
    (periodic = true → ∃ p d a h, M.param "period" s = .ok p ∧ M.depth s = .ok d ∧ M.param "aspect_ratio" s = .ok a ∧
      M.param "homogeneity" s = .ok h ∧ more = [.wide "Periodic", .entry "Period" p.text "µm",
        .entry "Depth" d.text "µm", .entry "Aspect ratio" a.text "", .entry "Homogeneity" h.text ""]) := by
        constructor
        · rintro ⟨sa, sq, sv, sp, sz, sk, spk, svk, h1, h2, h3, h4, h5, h6, h7, h8, hrest⟩
          rw [hm _ (by decide)] at h1 h2 h3 h4 h5 h6 h7 h8
          subst h1 h2 h3 h4 h5 h6 h7 h8
          exact hrest
        · intro hrest
          exact ⟨_, _, _, _, _, _, _, _, hv _ (by decide), hv _ (by decide), hv _ (by decide), hv _ (by decide),
            hv _ (by decide), hv _ (by decide), hv _ (by decide), hv _ (by decide), hrest⟩
      rw [hI]
      cases periodic with
      | false =>
        simp only [bind_ok, g1, g2, Bool.false_eq_true, if_false]
        show (Except.ok _ = _) ↔ _
        rw [Except.ok.injEq, hT]
        simp [hall]
      | true =>
        simp only [bind_ok, g1, g2, if_true]
        cases hpd : periodicData M s with
        | error e =>
          constructor
          · intro h; cases h
          · rintro ⟨_, _, more, _, _, h⟩
            obtain ⟨p, d, a, hh, e1, e2, e3, e4, _⟩ := h trivial
            exfalso
            unfold periodicData at hpd
            rw [e1, e2, e3, e4] at hpd
            cases hpd
        | ok pd =>
          have : ∃ p d a hh, M.param "period" s = .ok p ∧ M.depth s = .ok d ∧ M.param "aspect_ratio" s = .ok a ∧
              M.param "homogeneity" s = .ok hh ∧ pd = [("Period", p), ("Depth", d), ("Aspect ratio", a), ("Homogeneity", hh)] := by
            unfold periodicData at hpd
            cases e1 : M.param "period" s with
            | error e => rw [e1] at hpd; cases hpd
            | ok p =>
              cases e2 : M.depth s with
              | error e => rw [e1, e2] at hpd; cases hpd
              | ok d =>
                cases e3 : M.param "aspect_ratio" s with
                | error e => rw [e1, e2, e3] at hpd; cases hpd
                | ok a =>
                  cases e4 : M.param "homogeneity" s with
                  | error e => rw [e1, e2, e3, e4] at hpd; cases hpd
                  | ok hh =>
                    rw [e1, e2, e3, e4] at hpd
                    exact ⟨p, d, a, hh, rfl, rfl, rfl, rfl, (Except.ok.inj hpd).symm⟩
          obtain ⟨p, d, a, hh, e1, e2, e3, e4, rfl⟩ := this
          have g3 : group [("Period", p), ("Depth", d), ("Aspect ratio", a), ("Homogeneity", hh)] "Periodic"
              ["Period", "Depth", "Aspect ratio", "Homogeneity"] = .ok [.wide "Periodic", .entry "Period" p.text "µm",
            .entry "Depth" d.text "µm", .entry "Aspect ratio" a.text "", .entry "Homogeneity" hh.text ""] := rfl
          simp only [bind_ok, List.map_cons, List.map_nil, g3]
          show (Except.ok _ = _) ↔ _
          rw [Except.ok.injEq, hT, e1, e2, e3, e4]
          constructor
          · intro h
            exact ⟨trivial, hall, _, h, fun h => (by cases h), fun _ => ⟨_, _, _, _, rfl, rfl, rfl, rfl, rfl⟩⟩
          · rintro ⟨_, _, more, h, _, h'⟩
            obtain ⟨_, _, _, _, q1, q2, q3, q4, q5⟩ := h' trivial
            cases q1; cases q2; cases q3; cases q4
            rw [h, q5]
    · obtain ⟨e, he⟩ := isoData_error hall
      rw [he]
      simp [Except.bind, hall]

end

/-! ### Files -/
section
variable {D K V : Type} [DecidableEq D] [Field K] [LinearOrder K] [FloorRing K]
open Surfalize.Convert ConvertSpec Files

/-- The table the report of a file with this name and content shows: of the loaded and processed surface. -/
def Reports (E : Ext K V) (read : Format → ReadFn (Surf K V)) (args : List (Cli.Arg K)) (M : Methods (Surf K V) K)
    (periodic : Bool) (n : List Char) (b : Bytes) (t : List Row) : Prop :=
  ∃ s s', Loads read (Convert.suffix n) b s ∧ Cli.process E args s = .ok s' ∧ M.plots s' = .ok () ∧ AllIso M s' ∧
    IsTable M periodic s' t

theorem process_of_check {E : Ext K V} {args : List (Cli.Arg K)} (hc : Cli.check (Cli.parse args) = .ok ()) (s : Surf K V) :
    Cli.process E args s = Cli.perform E (Cli.parse args) s := by
  unfold Cli.process
  rw [hc]
  rfl

theorem reportFile_ok {E : Ext K V} {read : Format → ReadFn (Surf K V)} {args : List (Cli.Arg K)} {M : Methods (Surf K V) K}
    {periodic : Bool} {render : List Char → List Row → Bytes} {d : D} {n : List Char} {fs : FS D} {b : Bytes} {t : List Row}
    (hc : Cli.check (Cli.parse args) = .ok ()) (hb : fs d n = some b) (h : Reports E read args M periodic n b t) :
    reportFile E read (Cli.parse args) M periodic render d n fs = (.ok (), fs.put d (reportName n) (render n t)) := by
  obtain ⟨s, s', hl, hp, h1, h2, h3⟩ := h
  rw [process_of_check hc] at hp
  have hr := (C98_table M periodic s' t).2 ⟨h1, h2, h3⟩
  unfold reportFile
  rw [hb]
  dsimp only
  unfold Loads at hl
  rw [hl]
  dsimp only
  rw [hp]
  show (match rows M periodic s' with | .error e => _ | .ok t => _) = _
  rw [hr]

theorem reportFile_error {E : Ext K V} {read : Format → ReadFn (Surf K V)} {args : List (Cli.Arg K)} {M : Methods (Surf K V) K}
    {periodic : Bool} {render : List Char → List Row → Bytes} {d : D} {n : List Char} {fs : FS D}
    (hc : Cli.check (Cli.parse args) = .ok ()) (h : ¬ ∃ b t, fs d n = some b ∧ Reports E read args M periodic n b t) :
    ∃ e, reportFile E read (Cli.parse args) M periodic render d n fs = (.error e, fs) := by
  unfold reportFile
  cases hb : fs d n with
  | none => exact ⟨_, rfl⟩
  | some b =>
    dsimp only
    cases hl : (Files.load (package read) (.path (Convert.suffix n) b) none).1 with
    | error e => exact ⟨_, rfl⟩
    | ok s =>
      dsimp only
      cases hp : (Cli.perform E (Cli.parse args) s).bind (rows M periodic) with
      | error e => exact ⟨_, rfl⟩
      | ok t =>
        exfalso
        cases hq : Cli.perform E (Cli.parse args) s with
        | error e => rw [hq] at hp; cases hp
        | ok s' =>
          rw [hq, bind_ok] at hp
          obtain ⟨h1, h2, h3⟩ := (C98_table M periodic s' t).1 hp
          exact h ⟨b, t, hb, s, s', hl, by rw [process_of_check hc]; exact hq, h1, h2, h3⟩

/-- **C98** (one file). The report of a file is written next to it, under its whole name and `.pdf`, and shows the
parameters of the surface the file holds after the requested processing; nothing else is written. If the file cannot
be loaded or processed, or a parameter or plot fails, the command stops with an exception and nothing is written. -/
theorem C98_file {E : Ext K V} {read : Format → ReadFn (Surf K V)} {args : List (Cli.Arg K)} {M : Methods (Surf K V) K}
    {periodic : Bool} {render : List Char → List Row → Bytes} {formats listing : List (List Char)} {d : D} {n : List Char}
    {fs : FS D} (hc : Cli.check (Cli.parse args) = .ok ()) :
    (∀ b t, fs d n = some b → Reports E read args M periodic n b t →
      ∃ fs', report E read args M periodic render formats listing d (some n) fs = (.ok (), fs') ∧
        fs' d (n ++ ".pdf".toList) = some (render n t) ∧
        ∀ d' m, ¬ (d' = d ∧ m = n ++ ".pdf".toList) → fs' d' m = fs d' m) ∧
    ((¬ ∃ b t, fs d n = some b ∧ Reports E read args M periodic n b t) →
      ∃ e, report E read args M periodic render formats listing d (some n) fs = (.error e, fs)) := by
  constructor
  · intro b t hb h
    refine ⟨fs.put d (reportName n) (render n t), ?_, ?_, ?_⟩
    · unfold report
      rw [hc]
      dsimp only
      unfold reportAll
      rw [reportFile_ok hc hb h]
      rfl
    · rw [(C87_report n).1]
      unfold FS.put
      rw [if_pos ⟨rfl, rfl⟩]
    · intro d' m hne
      rw [(C87_report n).1]
      unfold FS.put
      rw [if_neg hne]
  · intro h
    obtain ⟨e, he⟩ := reportFile_error (render := render) hc h
    refine ⟨e, ?_⟩
    unfold report
    rw [hc]
    dsimp only
    unfold reportAll
    rw [he]

theorem not_report_name {m n t : List Char} (ht : Readable t) (hn : t <:+ n) : n ≠ reportName m := by
  rintro rfl
  rw [(C87_report m).1] at hn
  obtain ⟨f, hf⟩ := ht
  have := suffix_of_suffix (suffix_shape hf) ⟨_, rfl, by decide, by decide⟩ hn ⟨m, rfl⟩
  subst this
  revert hf
  cases f <;> decide

/-- the loop over files with supported suffixes -/
theorem reportAll_ok {E : Ext K V} {read : Format → ReadFn (Surf K V)} {args : List (Cli.Arg K)} {M : Methods (Surf K V) K}
    {periodic : Bool} {render : List Char → List Row → Bytes} {d : D} (hc : Cli.check (Cli.parse args) = .ok ())
    (post : List (List Char)) :
    ∀ (l : List (List Char)) (fs : FS D), (∀ n ∈ l, ∃ t, Readable t ∧ t <:+ n) →
      (∀ n ∈ l, ∃ b t, fs d n = some b ∧ Reports E read args M periodic n b t) →
    ∃ fs', reportAll E read (Cli.parse args) M periodic render d (l ++ post) fs =
        reportAll E read (Cli.parse args) M periodic render d post fs' ∧
      (∀ n ∈ l, ∀ b t, fs d n = some b → Reports E read args M periodic n b t → fs' d (n ++ ".pdf".toList) = some (render n t)) ∧
      ∀ d' m, (∀ n ∈ l, ¬ (d' = d ∧ m = n ++ ".pdf".toList)) → fs' d' m = fs d' m := by
  intro l
  induction l with
  | nil => intro fs _ _; exact ⟨fs, rfl, by simp, fun _ _ _ => rfl⟩
  | cons n l ih =>
    intro fs hl hr
    obtain ⟨b, t, hb, ht⟩ := hr n (by simp)
    have hkeep : ∀ m, (∃ t, Readable t ∧ t <:+ m) → (fs.put d (reportName n) (render n t)) d m = fs d m := by
      rintro m ⟨t', h1, h2⟩
      unfold FS.put
      rw [if_neg fun h => not_report_name h1 h2 h.2]
    obtain ⟨fs', k1, k2, k3⟩ := ih (fs.put d (reportName n) (render n t)) (fun m hm => hl m (by simp [hm])) (by
      intro m hm
      rw [hkeep m (hl m (by simp [hm]))]
      exact hr m (by simp [hm]))
    refine ⟨fs', ?_, ?_, ?_⟩
    · rw [← k1]
      show (match reportFile E read (Cli.parse args) M periodic render d n fs with | (.error e, fs') => _ | (.ok _, fs') => _) = _
      rw [reportFile_ok hc hb ht]
      rfl
    · intro m hm b' t' hb' ht'
      by_cases hml : m ∈ l
      · exact k2 m hml b' t' (by rw [hkeep m (hl m (by simp [hml]))]; exact hb') ht'
      · have : m = n := by
          rcases List.mem_cons.1 hm with h | h
          · exact h
          · exact absurd h hml
        subst this
        rw [hb] at hb'
        cases hb'
        obtain ⟨s, s', a1, a2, a3, a4, a5⟩ := ht
        obtain ⟨r, r', c1, c2, c3, c4, c5⟩ := ht'
        unfold Loads at a1 c1
        rw [a1] at c1
        cases c1
        rw [a2] at c2
        cases c2
        have e1 := (C98_table M periodic s' t).2 ⟨a3, a4, a5⟩
        have e2 := (C98_table M periodic s' t').2 ⟨c3, c4, c5⟩
        rw [e1] at e2
        cases e2
        rw [k3 d (m ++ ".pdf".toList) (by
          rintro m' hm' ⟨_, h⟩
          rw [List.append_cancel_right h] at hml
          exact hml hm')]
        rw [← (C87_report m).1]
        unfold FS.put
        rw [if_pos ⟨rfl, rfl⟩]
    · intro d' m hne
      rw [k3 d' m fun m' hm' => hne m' (by simp [hm'])]
      unfold FS.put
      rw [if_neg]
      rw [(C87_report n).1]
      exact hne n (by simp)

theorem mem_found {formats listing : List (List Char)} {n : List Char} (hset : ∀ e, e ∈ formats ↔ Readable e) :
    (n ∈ formats.flatMap fun e => glob listing e) ↔ n ∈ listing ∧ ∃ t, Readable t ∧ t <:+ n := by
  simp only [List.mem_flatMap, glob, List.mem_filter, List.isSuffixOf_iff_suffix]
  constructor
  · rintro ⟨e, he, h1, h2⟩
    exact ⟨h1, e, (hset e).1 he, h2⟩
  · rintro ⟨h1, e, he, h2⟩
    exact ⟨e, (hset e).2 he, h1, h2⟩

/-- **C98** (a directory). If every file of a directory with a supported suffix can be reported, the command gives each
of them its report, in whatever order the formats are iterated, and changes no other file; in particular no report
is reported on, and no measurement is changed. -/
theorem C98_directory {E : Ext K V} {read : Format → ReadFn (Surf K V)} {args : List (Cli.Arg K)} {M : Methods (Surf K V) K}
    {periodic : Bool} {render : List Char → List Row → Bytes} {formats listing : List (List Char)}
    (hset : ∀ e, e ∈ formats ↔ Readable e) {d : D} {fs : FS D} (hc : Cli.check (Cli.parse args) = .ok ())
    (hall : ∀ n ∈ listing, (∃ t, Readable t ∧ t <:+ n) → ∃ b t, fs d n = some b ∧ Reports E read args M periodic n b t) :
    ∃ fs', report E read args M periodic render formats listing d none fs = (.ok (), fs') ∧
      (∀ n ∈ listing, (∃ t, Readable t ∧ t <:+ n) → ∀ b t, fs d n = some b → Reports E read args M periodic n b t →
        fs' d (n ++ ".pdf".toList) = some (render n t)) ∧
      ∀ d' m, (∀ n ∈ listing, (∃ t, Readable t ∧ t <:+ n) → ¬ (d' = d ∧ m = n ++ ".pdf".toList)) → fs' d' m = fs d' m := by
  obtain ⟨fs', k1, k2, k3⟩ := reportAll_ok (E := E) (read := read) (M := M) (periodic := periodic) (render := render) (d := d) hc []
    (formats.flatMap fun e => glob listing e) fs (fun n hn => ((mem_found hset).1 hn).2)
    (fun n hn => hall n ((mem_found hset).1 hn).1 ((mem_found hset).1 hn).2)
  refine ⟨fs', ?_, fun n h1 h2 => k2 n ((mem_found hset).2 ⟨h1, h2⟩), fun d' m h => k3 d' m fun n hn =>
    h n ((mem_found hset).1 hn).1 ((mem_found hset).1 hn).2⟩
  unfold report
  rw [hc]
  dsimp only
  rw [List.append_nil] at k1
  rw [k1]
  rfl

/-- **C98** (failure). The first file (in the order the formats are iterated) that cannot be reported stops the command:
the files before it have their reports, the files behind it get none. -/
theorem C98_stops {E : Ext K V} {read : Format → ReadFn (Surf K V)} {args : List (Cli.Arg K)} {M : Methods (Surf K V) K}
    {periodic : Bool} {render : List Char → List Row → Bytes} {formats listing : List (List Char)}
    (hset : ∀ e, e ∈ formats ↔ Readable e) {d : D} {fs : FS D} (hc : Cli.check (Cli.parse args) = .ok ())
    {pre post : List (List Char)} {n : List Char} (hsplit : (formats.flatMap fun e => glob listing e) = pre ++ n :: post)
    (hpre : ∀ m ∈ pre, ∃ b t, fs d m = some b ∧ Reports E read args M periodic m b t)
    (hn : ¬ ∃ b t, fs d n = some b ∧ Reports E read args M periodic n b t) :
    ∃ e fs', report E read args M periodic render formats listing d none fs = (.error e, fs') ∧
      (∀ m ∈ pre, ∀ b t, fs d m = some b → Reports E read args M periodic m b t →
        fs' d (m ++ ".pdf".toList) = some (render m t)) ∧
      ∀ d' k, (∀ m ∈ pre, ¬ (d' = d ∧ k = m ++ ".pdf".toList)) → fs' d' k = fs d' k := by
  have hread : ∀ m ∈ pre ++ n :: post, ∃ t, Readable t ∧ t <:+ m := fun m hm => ((mem_found hset).1 (hsplit ▸ hm)).2
  obtain ⟨fs', k1, k2, k3⟩ := reportAll_ok (E := E) (read := read) (M := M) (periodic := periodic) (render := render) (d := d) hc (n :: post)
    pre fs (fun m hm => hread m (by simp [hm])) hpre
  obtain ⟨t0, ht0, hs0⟩ := hread n (by simp)
  have hkeep : fs' d n = fs d n := k3 d n fun m _ ⟨_, h⟩ => not_report_name (m := m) ht0 hs0 (by rw [(C87_report m).1]; exact h)
  obtain ⟨e, he⟩ := reportFile_error (render := render) (fs := fs') hc (by rw [hkeep]; exact hn)
  refine ⟨e, fs', ?_, k2, k3⟩
  unfold report
  rw [hc]
  dsimp only
  rw [hsplit, k1]
  show (match reportFile E read (Cli.parse args) M periodic render d n fs' with | (.error e, fs') => _ | (.ok _, fs') => _) = _
  rw [he]

/-- **C98** (options). Contradictory options are a usage error before any file is read or written. -/
theorem C98_usage {E : Ext K V} {read : Format → ReadFn (Surf K V)} {args : List (Cli.Arg K)} {M : Methods (Surf K V) K}
    {periodic : Bool} {render : List Char → List Row → Bytes} {formats listing : List (List Char)} {d : D}
    {name : Option (List Char)} {fs : FS D} (hc : Cli.check (Cli.parse args) ≠ .ok ()) :
    report E read args M periodic render formats listing d name fs = (.error .usage, fs) := by
  have : Cli.check (Cli.parse args) = .error .usage := by
    unfold Cli.check at hc ⊢
    split
    · rfl
    · split
      · rfl
      · rename_i h1 h2
        rw [if_neg h1, if_neg h2] at hc
        exact absurd rfl hc
  unfold report
  rw [this]

end

/-- **C98** fails in that a parameter the report does not show can prevent it: a surface whose heights are all equal
never gets a report, although each parameter shown may be computed, because Sal raises ValueError for it. -/
theorem C98_flat_violated {D V : Type} [DecidableEq D] {E : Ext ℝ V} {read : Files.Format → Files.ReadFn (Surf ℝ V)}
    {args : List (Cli.Arg ℝ)} {M : Methods (Surf ℝ V) ℝ} {periodic : Bool} {render : List Char → List Row → Bytes}
    {formats listing : List (List Char)} {d : D} {n : List Char} {fs : Convert.FS D} {b : Bytes} {s s' : Surf ℝ V}
    (hc : Cli.check (Cli.parse args) = .ok ()) (hb : fs d n = some b) (hl : ConvertSpec.Loads read (Convert.suffix n) b s)
    (hp : Cli.process E args s = .ok s')
    (line : Autocorr.LineInterp) (hsal : M.param "Sal" s' = (Autocorr.sal line s'.data s'.stepX s'.stepY (1 / 5)).map Num.fin)
    (hw : s'.data.WF) (hy : 0 < s'.data.ny) (hx : 0 < s'.data.nx) (z : ℝ)
    (hz : ∀ i < s'.data.ny, ∀ j < s'.data.nx, s'.data.get i j = some z) :
    ∃ e, report E read args M periodic render formats listing d (some n) fs = (.error e, fs) := by
  refine (C98_file hc).2 ?_
  rintro ⟨b', t, hb', r, r', h1, h2, _, h4, _⟩
  rw [hb] at hb'
  cases hb'
  unfold ConvertSpec.Loads at hl h1
  rw [hl] at h1
  cases h1
  rw [hp] at h2
  cases h2
  have hf : none ∉ Container.flat s'.data := by
    intro hn
    obtain ⟨i, hi, j, hj, e⟩ := mem_flat_get hw hn
    rw [hz i hi j hj] at e
    cases e
  obtain ⟨v, hv⟩ := h4 "Sal" (by decide)
  rw [hsal, (C75_flat line s'.data hw hf hy hx z hz s'.stepX s'.stepY (1 / 5)).1] at hv
  cases hv

/-! A concrete case: two measurements and a note; every parameter is 2.7182818. -/
section Examples
open Surfalize.Convert ConvertSpec Files

private def demoM : Methods (Surf ℚ Unit) ℚ := ⟨fun _ _ => .ok (.fin 2.7182818), fun _ => .ok (.fin 1), fun _ => .ok ()⟩
private def demoS : Surf ℚ Unit := ⟨⟨[[some 1, some 2]], 2⟩, 1, 1, 1, 0, []⟩
private def demoRead : Format → ReadFn (Surf ℚ Unit) := fun _ _ => (.ok demoS, 0)
private def demoFS : FS Bool := fun d n =>
  if d then none else [("a.vk4".toList, [1]), ("b.plu".toList, [2]), ("note.txt".toList, [3])].lookup n
private def demoT : List Row := [.wide "ISO 25178", .wide "Spatial", .entry "Sa" "2.718".toList "µm", .entry "Sq" "2.718".toList "µm",
  .entry "Sv" "2.718".toList "µm", .entry "Sp" "2.718".toList "µm", .entry "Sz" "2.718".toList "µm", .wide "Functional",
  .entry "Sk" "2.718".toList "µm", .entry "Spk" "2.718".toList "µm", .entry "Svk" "2.718".toList "µm"]

private theorem demo_reports (E : Ext ℚ Unit) {f : Format} {n : List Char} (ht : (Convert.suffix n).map Char.toLower ∈ f.suffixes)
    (b : Bytes) : Reports E demoRead [] demoM false n b demoT := by
  refine ⟨demoS, demoS, ?_, rfl, rfl, fun p _ => ⟨_, rfl⟩, ?_⟩
  · have := C63_asked demoRead (src := .path (Convert.suffix n) b) (format := none) (f := f) (.inr ⟨rfl, _, _, rfl, ht⟩) (x := demoS) rfl
    exact congrArg Prod.fst this
  · refine ⟨_, _, _, _, _, _, _, _, rfl, rfl, rfl, rfl, rfl, rfl, rfl, rfl, [], ?_, fun _ => rfl, fun h => by cases h⟩
    have e : (Num.fin (2.7182818 : ℚ)).text = "2.718".toList := by decide +kernel
    rw [e, List.append_nil]
    rfl

example (E : Ext ℚ Unit) (render : List Char → List Row → Bytes) : ∃ fs', report E demoRead [] demoM false render readable
    ["a.vk4".toList, "b.plu".toList, "note.txt".toList] false none demoFS = (.ok (), fs') ∧
      fs' false "a.vk4.pdf".toList = some (render "a.vk4".toList demoT) ∧
      fs' false "b.plu.pdf".toList = some (render "b.plu".toList demoT) ∧ fs' false "note.txt.pdf".toList = none := by
  have hset : ∀ e, e ∈ readable ↔ Readable e := by
    intro e
    unfold readable Readable
    simp only [List.mem_flatMap]
    exact ⟨fun ⟨f, _, h⟩ => ⟨f, h⟩, fun ⟨f, h⟩ => ⟨f, by cases f <;> decide, h⟩⟩
  have hnote : ¬ ∃ t, Readable t ∧ t <:+ "note.txt".toList := by
    rintro ⟨t, ⟨f, hf⟩, hs⟩
    have : ∀ f : Format, ∀ t ∈ f.suffixes, ¬ t <:+ "note.txt".toList := by intro f; cases f <;> decide
    exact this f t hf hs
  have ha : ∃ t, Readable t ∧ t <:+ "a.vk4".toList := ⟨".vk4".toList, ⟨.vk4, by decide⟩, "a".toList, rfl⟩
  have hb : ∃ t, Readable t ∧ t <:+ "b.plu".toList := ⟨".plu".toList, ⟨.plu, by decide⟩, "b".toList, rfl⟩
  have ra := demo_reports E (f := .vk4) (n := "a.vk4".toList) (by decide) [1]
  have rb := demo_reports E (f := .plu) (n := "b.plu".toList) (by decide) [2]
  obtain ⟨fs', k1, k2, k3⟩ := C98_directory (E := E) (read := demoRead) (args := []) (M := demoM) (periodic := false) (render := render)
    (formats := readable) (listing := ["a.vk4".toList, "b.plu".toList, "note.txt".toList]) hset (d := false) (fs := demoFS) rfl (by
      intro n hn hs
      simp only [List.mem_cons, List.not_mem_nil, or_false] at hn
      rcases hn with rfl | rfl | rfl
      · exact ⟨_, _, rfl, ra⟩
      · exact ⟨_, _, rfl, rb⟩
      · exact absurd hs hnote)
  refine ⟨fs', k1, k2 _ (by simp) ha _ _ rfl ra, k2 _ (by simp) hb _ _ rfl rb, ?_⟩
  rw [k3 false "note.txt.pdf".toList]
  · rfl
  · intro n hn hs
    simp only [List.mem_cons, List.not_mem_nil, or_false] at hn
    rcases hn with rfl | rfl | rfl
    · decide
    · decide
    · exact absurd hs hnote

end Examples

end Surfalize.Props
