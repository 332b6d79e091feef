import Verif.Lemmas.Al3d
import Verif.Lemmas.ArrayAt
import Verif.Spec.Al3d
/-!
# C67: Alicona files

What any file that is read gives, in terms of its bytes (`Verif/Spec/Al3d.lean`).
-/
set_option linter.unusedSectionVars false
namespace Surfalize
namespace Props
open LayoutM LayoutSpec FileArr Al3dFile Al3d
variable {K : Type} [Field K] [LinearOrder K] [IsStrictOrderedRing K]

private theorem text_unique {enc : Encoding} {buf : Bytes} {o w : Nat} {a b : List Char} (ha : Text enc buf o w a)
    (hb : Text enc buf o w b) : a = b := by
  obtain ⟨t, h1, rfl⟩ := ha
  obtain ⟨t', h2, rfl⟩ := hb
  rw [h1] at h2
  cases h2
  rfl

private theorem readTag_ok {enc : Encoding} {buf : Bytes} {t : Nat} {k v : List Char} {h' : Handle}
    (h : readTag enc ⟨buf, 17 + 52 * t⟩ = .ok ((k, v), h')) :
    Tag enc buf t k v ∧ h' = ⟨buf, 17 + 52 * (t + 1)⟩ := by
  unfold readTag at h
  dsimp only at h
  split at h
  · cases h
  rename_i hl
  push Not at hl
  simp only [Handle.read] at h hl
  split at h
  · rename_i a b lf e1 e2 e3
    split at h
    · cases h
    · cases h
      rw [List.take_take, Nat.min_eq_left (by omega)] at e1
      rw [List.drop_take, List.take_take, Nat.min_eq_left (by omega), List.drop_drop] at e2
      refine ⟨⟨⟨a, e1, rfl⟩, b, e2, rfl⟩, ?_⟩
      rw [hl]
      rfl
  all_goals cases h

/-- The dictionary after `n` tags. -/
private def Good (enc : Encoding) (buf : Bytes) (n : Nat) (d : List (List Char × List Char)) : Prop :=
  ∀ k v, d.lookup k.toList = some v → Last enc buf n k v

private theorem good_cons {enc : Encoding} {buf : Bytes} {n : Nat} {d : List (List Char × List Char)}
    (hd : Good enc buf n d) {k v : List Char} (ht : Tag enc buf n k v) : Good enc buf (n + 1) ((k, v) :: d) := by
  intro k' v' h
  rw [List.lookup_cons] at h
  by_cases hk : k'.toList = k
  · rw [hk, beq_self_eq_true] at h
    cases h
    exact ⟨n, by omega, hk ▸ ht, fun t' _ h1 h2 => by omega⟩
  · rw [beq_eq_false_iff_ne.2 hk] at h
    obtain ⟨t, h1, h2, h3⟩ := hd k' v' h
    refine ⟨t, by omega, h2, fun t' v'' h4 h5 => ?_⟩
    by_cases ht' : t' = n
    · subst ht'
      exact fun h6 => hk (text_unique h6.1 ht.1)
    · exact h3 t' v'' h4 (by omega)

private theorem readTags_ok {enc : Encoding} {buf : Bytes} {m : Nat} : ∀ {n : Nat} {d d' : List (List Char × List Char)}
    {h' : Handle}, Good enc buf n d → readTags enc m d ⟨buf, 17 + 52 * n⟩ = .ok (d', h') →
    Good enc buf (n + m) d' ∧ h'.buf = buf := by
  induction m with
  | zero => intro n d d' h' hd h; cases h; exact ⟨hd, rfl⟩
  | succ m ih =>
    intro n d d' h' hd h
    rw [readTags] at h
    cases ht : readTag enc ⟨buf, 17 + 52 * n⟩ with
    | error e => rw [ht] at h; cases h
    | ok x =>
      obtain ⟨⟨k, v⟩, h1⟩ := x
      rw [ht] at h
      dsimp only at h
      obtain ⟨t1, rfl⟩ := readTag_ok ht
      have := ih (good_cons hd t1) h
      rw [Nat.add_assoc, Nat.add_comm 1 m] at this
      exact this

private theorem lookInt_ok {enc : Encoding} {buf : Bytes} {n : Nat} {d : List (List Char × List Char)}
    (hd : Good enc buf n d) {k : String} {i : Int} (h : lookInt d k = .ok i) :
    ∃ v, Last enc buf n k v ∧ intOf v = .ok i := by
  unfold lookInt look at h
  cases hv : d.lookup k.toList with
  | none => rw [hv] at h; cases h
  | some v => rw [hv] at h; exact ⟨v, hd k v hv, h⟩

private theorem lookNum_ok {T : FloatText K} {enc : Encoding} {buf : Bytes} {n : Nat}
    {d : List (List Char × List Char)} (hd : Good enc buf n d) {k : String} {x : FVal K}
    (h : lookNum T d k = .ok x) : ∃ v, Last enc buf n k v ∧ T.parse v = .ok x := by
  unfold lookNum look at h
  cases hv : d.lookup k.toList with
  | none => rw [hv] at h; cases h
  | some v => rw [hv] at h; exact ⟨v, hd k v hv, h⟩

private theorem invalid_nearest {c : FloatCodec K} (hc : c.Nearest) {w : FVal K} {x : K}
    (h : invalidSingle c w = some x) : ∃ v, w = .fin v ∧ NearestSingle v x := by
  cases w with
  | inf b => cases h
  | nan => cases h
  | fin v =>
    refine ⟨v, rfl, ?_⟩
    have h' : decFloat K false (encFloat c false (some v)) = some x := h
    have e : decFloat K false (encFloat c false (some v)) = toOpt (f32.val K (c.enc f32 (some v))) := by
      unfold decFloat encFloat
      rw [bytesNat_natBytes _ _ _ (lt_of_lt_of_le (hc.lt _ _) (by decide))]
      rfl
    rw [e] at h'
    by_cases hv : |v| < f32.threshold K
    · obtain ⟨y, h1, h2⟩ := hc.fin f32 (.inl rfl) v hv
      rw [h1] at h'
      cases h'
      exact h2
    · rw [hc.inf f32 (.inl rfl) v (not_lt.1 hv)] at h'
      cases h'

private theorem invalid_exists {c : FloatCodec K} (hc : c.Nearest) {v : K} (hv : |v| < f32.threshold K) :
    ∃ x n, invalidSingle c (.fin v) = some x ∧ f32.val K n = .fin x := by
  obtain ⟨y, h1, h2⟩ := hc.fin f32 (.inl rfl) v hv
  refine ⟨y, _, ?_, h1⟩
  show decFloat K false (encFloat c false (some v)) = some y
  unfold decFloat encFloat
  rw [bytesNat_natBytes _ _ _ (lt_of_lt_of_le (hc.lt _ _) (by decide))]
  show toOpt (f32.val K (c.enc f32 (some v))) = _
  rw [h1]
  rfl

/-- **C67** for AL3D files. In any file that is read, size and steps are those of the tags (steps in metres, so they are
multiplied by a million), and a point is
* missing if NaN or an infinity is stored;
* missing if the stored number is the only single-precision number nearest to the invalid value announced;
* otherwise missing only if it is one of two such numbers;
* in all other cases the stored number times a million. -/
theorem C67_al3d {c : FloatCodec K} (hc : c.Nearest) {T : FloatText K} {enc : Encoding} {buf : Bytes} {r : Raw K}
    (h : readAl3d c T enc ⟨buf, 0⟩ = .ok r) :
    buf.take 17 = utf8 ("AliconaImaging".toList ++ ['\x00', '\r', '\n']) ∧
    ∃ (vn vc vr vx vy vo vi : List Char) (count off : Int) (sx sy : K) (invalid : FVal K),
      (∃ v, Tag enc buf 0 "Version".toList v) ∧ Tag enc buf 1 "TagCount".toList vn ∧ intOf vn = .ok count ∧
      Last enc buf (2 + count.toNat) "Cols" vc ∧ intOf vc = .ok (r.data.nx : Int) ∧
      Last enc buf (2 + count.toNat) "Rows" vr ∧ intOf vr = .ok (r.data.ny : Int) ∧
      Last enc buf (2 + count.toNat) "PixelSizeXMeter" vx ∧ T.parse vx = .ok (.fin sx) ∧ r.stepX = sx * 10 ^ 6 ∧
      Last enc buf (2 + count.toNat) "PixelSizeYMeter" vy ∧ T.parse vy = .ok (.fin sy) ∧ r.stepY = sy * 10 ^ 6 ∧
      Last enc buf (2 + count.toNat) "DepthImageOffset" vo ∧ intOf vo = .ok off ∧ 0 ≤ off ∧
      Last enc buf (2 + count.toNat) "InvalidPixelValue" vi ∧ T.parse vi = .ok invalid ∧
      r.data.WF ∧ ∀ i j, i < r.data.ny → j < r.data.nx →
        off.toNat + (i * r.data.nx + j + 1) * 4 ≤ buf.length ∧
        ((∀ x : K, stored K buf off.toNat r.data.nx i j ≠ .fin x) → r.data.get i j = none) ∧
        ∀ x : K, stored K buf off.toNat r.data.nx i j = .fin x →
          (r.data.get i j = none ∨ r.data.get i j = some (x * 10 ^ 6)) ∧
          (r.data.get i j = none → ∃ v, invalid = .fin v ∧ NearestSingle v x) ∧
          ∀ v, invalid = .fin v → |v| < f32.threshold K →
            (∀ n y, f32.val K n = .fin y → NearestSingle v y → y = x) → r.data.get i j = none := by
  unfold readAl3d at h
  dsimp only at h
  split at h
  · cases h
  rename_i hm
  push Not at hm
  have hm' : buf.take 17 = utf8 magic := hm
  have h17 : (utf8 magic).length = 17 := by decide
  have hr17 : ((Handle.mk buf 0).read 17).2 = ⟨buf, 17 + 52 * 0⟩ := by
    have : (buf.take 17).length = 17 := by rw [hm', h17]
    simp only [Handle.read, List.drop_zero, this]
  refine ⟨hm', ?_⟩
  rw [hr17] at h
  cases t1 : readTag enc ⟨buf, 17 + 52 * 0⟩ with
  | error e => rw [t1] at h; cases h
  | ok p1 =>
  obtain ⟨⟨k1, v1⟩, h1⟩ := p1
  rw [t1] at h
  obtain ⟨g1, rfl⟩ := readTag_ok t1
  dsimp only at h
  split at h
  · cases h
  rename_i hk1
  push Not at hk1
  subst hk1
  cases t2 : readTag enc ⟨buf, 17 + 52 * (0 + 1)⟩ with
  | error e => rw [t2] at h; cases h
  | ok p2 =>
  obtain ⟨⟨k2, v2⟩, h2⟩ := p2
  rw [t2] at h
  obtain ⟨g2, rfl⟩ := readTag_ok t2
  dsimp only at h
  split at h
  · cases h
  rename_i hk2
  push Not at hk2
  subst hk2
  cases hcnt : intOf v2 with
  | error e => rw [hcnt] at h; cases h
  | ok count =>
  rw [hcnt] at h
  dsimp only at h
  cases t3 : readTags enc count.toNat [("TagCount".toList, v2), ("Version".toList, v1)] ⟨buf, 17 + 52 * (0 + 1 + 1)⟩ with
  | error e => rw [t3] at h; cases h
  | ok p3 =>
  obtain ⟨d, h3⟩ := p3
  rw [t3] at h
  dsimp only at h
  have hgood0 : Good enc buf 0 [] := fun k v hk => by cases hk
  obtain ⟨hd, hbuf⟩ := readTags_ok (good_cons (good_cons hgood0 g1) g2) t3
  split at h
  · rename_i nx ny sx sy off invalid e1 e2 e3 e4 e5 e6
    split at h
    · cases h
    rename_i hoff
    push Not at hoff
    have hseek : h3.seek off.toNat = ⟨buf, off.toNat⟩ := by
      cases h3; cases hbuf; rfl
    rw [hseek] at h
    cases hra : readArray 4 (decFloat K false) (nx * ny) 0 ⟨buf, off.toNat⟩ with
    | error e => rw [hra] at h; cases h
    | ok p4 =>
    obtain ⟨l, h4⟩ := p4
    rw [hra] at h
    dsimp only at h
    cases hre : reshape l ny nx with
    | error e => rw [hre] at h; cases h
    | ok g =>
    rw [hre] at h
    cases h
    have hnn : 0 ≤ ny ∧ 0 ≤ nx := by
      unfold reshape at hre
      split at hre
      · rename_i hcond; exact ⟨hcond.1, hcond.2.1⟩
      · cases hre
    obtain ⟨mx, rfl⟩ := Int.eq_ofNat_of_zero_le hnn.2
    obtain ⟨my, rfl⟩ := Int.eq_ofNat_of_zero_le hnn.1
    rw [← Int.natCast_mul] at hra
    obtain ⟨a1, a2, a3, a4, a5⟩ := array_grid (by decide) hra hre
    obtain ⟨vc, c1, c2⟩ := lookInt_ok hd e1
    obtain ⟨vr, r1, r2⟩ := lookInt_ok hd e2
    obtain ⟨vx, x1, x2⟩ := lookNum_ok hd e3
    obtain ⟨vy, y1, y2⟩ := lookNum_ok hd e4
    obtain ⟨vo, o1, o2⟩ := lookInt_ok hd e5
    obtain ⟨vi, i1, i2⟩ := lookNum_ok hd e6
    have hnx : (Container.map (height (invalidSingle c invalid)) g).nx = mx := a2
    have hny : (Container.map (height (invalidSingle c invalid)) g).ny = my := by rw [map_ny]; exact a3
    refine ⟨v2, vc, vr, vx, vy, vo, vi, count, off, sx, sy, invalid, ⟨v1, g1⟩, g2, hcnt, c1, ?_, r1, ?_, x1, x2, rfl,
      y1, y2, rfl, o1, o2, hoff, i1, i2, map_wf _ a1, ?_⟩
    · dsimp only; rw [hnx]; exact c2
    · dsimp only; rw [hny]; exact r2
    · intro i j hi hj
      dsimp only at hi hj ⊢
      rw [hny] at hi
      rw [hnx] at hj ⊢
      have hx := a5 i j hi hj
      rw [get_map_some a1 _ (by omega) (by omega) hx]
      have hst : decFloat K false ((buf.drop (off.toNat + (i * mx + j) * 4)).take 4) =
          toOpt (stored K buf off.toNat mx i j) := rfl
      rw [hst]
      refine ⟨?_, fun hno => ?_, fun x hxx => ?_⟩
      · have hk : (i * mx + j) + 1 ≤ mx * my := by
          calc i * mx + j + 1 ≤ i * mx + mx := by omega
            _ = mx * (i + 1) := by ring
            _ ≤ mx * my := Nat.mul_le_mul_left _ hi
        have := a4 (by omega)
        have h2 : (i * mx + j + 1) * 4 ≤ mx * my * 4 := Nat.mul_le_mul_right _ hk
        omega
      · cases hv : stored K buf off.toNat mx i j with
        | fin x => exact absurd hv (hno x)
        | inf b => rfl
        | nan => rfl
      · rw [hxx]
        simp only [toOpt, height]
        refine ⟨?_, ?_, ?_⟩
        · split
          · exact .inl rfl
          · exact .inr rfl
        · split
          · rename_i hiv
            exact fun _ => invalid_nearest hc hiv
          · intro hf; cases hf
        · rintro v rfl hv huniq
          obtain ⟨y, n, k1, k2⟩ := invalid_exists hc hv
          obtain ⟨v', hv', hn⟩ := invalid_nearest hc k1
          cases hv'
          rw [if_pos]
          rw [k1, huniq n y k2 hn]
  all_goals cases h

/-! ## An example -/

private def tagOf (k v : String) : Bytes :=
  utf8 k.toList ++ List.replicate (20 - k.length) 0 ++ (utf8 v.toList ++ List.replicate (30 - v.length) 0) ++ [13, 10]

/-- Two points, 1 and 2, of which 2 is the invalid value. -/
private def al3dFile : Bytes :=
  utf8 magic ++ tagOf "Version" "1" ++ tagOf "TagCount" "6" ++ tagOf "Cols" "2" ++ tagOf "Rows" "1" ++
    tagOf "DepthImageOffset" "433" ++ tagOf "InvalidPixelValue" "2" ++ tagOf "PixelSizeXMeter" "1" ++
    tagOf "PixelSizeYMeter" "1" ++ [0, 0, 0x80, 0x3f, 0, 0, 0, 0x40]

/-- Enough of `float` for the example. -/
private def al3dText : FloatText ℚ :=
  ⟨fun _ => [], fun s => if s = ['1'] then .ok (.fin 1) else if s = ['2'] then .ok (.fin 2) else .error .valueError⟩

private def isOk {α : Type} (x : Except Err α) : Bool := match x with | .ok _ => true | .error _ => false

private theorem isOk_iff {α : Type} {x : Except Err α} (h : isOk x = true) : ∃ a, x = .ok a := by
  cases x with
  | ok a => exact ⟨a, rfl⟩
  | error e => cases h

set_option maxRecDepth 20000 in
example : ∃ (c : FloatCodec ℚ) (r : Raw ℚ), c.Nearest ∧ readAl3d c al3dText .utf8 ⟨al3dFile, 0⟩ = .ok r := by
  obtain ⟨c, hc⟩ := FloatCodec.exists_nearest ℚ
  obtain ⟨r, hr⟩ := isOk_iff (x := readAl3d c al3dText .utf8 ⟨al3dFile, 0⟩) (by rfl)
  exact ⟨c, r, hc, hr⟩

end Props
end Surfalize
