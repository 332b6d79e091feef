import Verif.Model.Sdf
import Verif.Lemmas.FileFloat
import Verif.Lemmas.Text
import Verif.Lemmas.Num
import Mathlib.Data.Int.Log
/-! # Lemmas for C59 -/
set_option linter.unusedSectionVars false
namespace Surfalize
namespace Sdf
open LayoutM LayoutSpec FileArr Props
variable {K : Type} [Field K] [LinearOrder K] [IsStrictOrderedRing K]

theorem wf_layout : WellFormed [] (layout K) := by simp [layout, WellFormed]

theorem names_nodup : (names (layout K)).Nodup := by
  have : names (layout K) = ["ManufacID", "CreateDate", "ModDate", "NumPoints", "NumProfiles",
    "Xscale", "Yscale", "Zscale", "Zresolution", "Compression", "DataType", "CheckType"] := rfl
  rw [this]; decide

theorem width_layout (d : Dict K) : ((layout K).map (width d)).sum = 73 := by
  simp only [layout, List.map_cons, List.map_nil, width, bytesOf, List.sum_cons, List.sum_nil,
    Nat.reduceMul, Nat.reduceAdd]

theorem text_fits {created modified : List Char} (h1 : (utf8 created).length ≤ 12)
    (h2 : (utf8 modified).length ≤ 12) (scale : Option K) (s : Raw K) :
    TextFits (header created modified scale s) (layout K) := by
  simp only [layout, TextFits]
  exact ⟨⟨_, _, rfl, cutTo_self _ _ (by decide +kernel)⟩, ⟨_, _, rfl, cutTo_self _ _ h1⟩,
    ⟨_, _, rfl, cutTo_self _ _ h2⟩, trivial⟩

/-- What reading a written file gives. -/
theorem read_written {c : FloatCodec K} (hc : c.Nearest)
    (finish : List (List Char × List Char) → List Char → Except Err (Raw K)) (enc : Encoding)
    (log : K → Int) {created modified : List Char} (h1 : (utf8 created).length ≤ 12)
    (h2 : (utf8 modified).length ≤ 12) (s : Raw K) (hwf : s.data.WF) (b : Bytes)
    (hw : writeBinary c log created modified s = .ok b) (post : Bytes) :
    ∃ m scale zs lx ly, maxAbs s.data = .ok m ∧ scaleFactor log m = scale ∧
      readSdf finish enc ⟨b ++ post, 0⟩ = .ok
        ⟨Container.map (fun z => height zs (decFloat K true (encFloat c true
          (scaleHeight scale z)))) s.data, lx * 10 ^ 6, ly * 10 ^ 6⟩ ∧
      Nearest true (s.stepX * (10 ^ 6)⁻¹) lx ∧ Nearest true (s.stepY * (10 ^ 6)⁻¹) ly ∧
      (∀ f, scale = some f → ∃ q, zs = some q ∧ Nearest true ((10 ^ 6)⁻¹ / f) q) := by
  unfold writeBinary at hw
  cases hm : maxAbs s.data with
  | error e => rw [hm] at hw; cases hw
  | ok m =>
    rw [hm] at hw
    dsimp only at hw
    set scale := scaleFactor log m with hscale
    cases hh : write c (header created modified scale s) (layout K) with
    | error e => rw [hh] at hw; cases hw
    | ok hdr =>
      rw [hh] at hw
      simp only [Except.ok.injEq] at hw
      subst hw
      set l := (Container.flat s.data).map (scaleHeight scale) with hl
      set arr := writeArray (encFloat c true) l with harr
      obtain ⟨hlen, d', hr, hb⟩ := header_back hc enc wf_layout names_nodup
        (text_fits h1 h2 scale s) hh (utf8 magicBinary) (arr ++ post)
      rw [width_layout] at hlen
      have hnx : getInt d' "NumPoints" = .ok s.data.nx :=
        hb.int (sg := false) (big := false) (w := 2) (by simp [layout]) rfl
      have hny : getInt d' "NumProfiles" = .ok s.data.ny :=
        hb.int (sg := false) (big := false) (w := 2) (by simp [layout]) rfl
      have hty : getInt d' "DataType" = .ok 7 :=
        hb.int (sg := false) (big := false) (w := 1) (by simp [layout]) rfl
      obtain ⟨lx, hlx, hlx2⟩ := hb.num (name := "Xscale") (dbl := true) (big := false)
        (x := s.stepX * (10 ^ 6)⁻¹) (by simp [layout]) rfl
      obtain ⟨ly, hly, hly2⟩ := hb.num (name := "Yscale") (dbl := true) (big := false)
        (x := s.stepY * (10 ^ 6)⁻¹) (by simp [layout]) rfl
      have hz : ∃ zs, getNum d' "Zscale" = .ok zs ∧
          (∀ f, scale = some f → ∃ q, zs = some q ∧ Nearest true (((10 : K) ^ 6)⁻¹ / f) q) := by
        cases hsc : scale with
        | none =>
          refine ⟨none, ?_, fun f h => by cases h⟩
          refine hb.nan (dbl := true) (big := false) (by simp [layout]) ?_
          rw [hsc]; rfl
        | some f =>
          obtain ⟨q, hq1, hq2⟩ := hb.num (name := "Zscale") (dbl := true) (big := false)
            (x := ((10 : K) ^ 6)⁻¹ / f) (by simp [layout]) (by rw [hsc]; rfl)
          exact ⟨some q, hq1, fun f' h => by cases h; exact ⟨q, rfl, hq2⟩⟩
      obtain ⟨zs, hzs, hzs2⟩ := hz
      refine ⟨m, scale, zs, lx, ly, rfl, rfl, ?_, hlx2, hly2, hzs2⟩
      have h8 : (utf8 magicBinary).length = 8 := by decide
      have hm8 : (Handle.mk (utf8 magicBinary ++ (hdr ++ arr) ++ post) 0).read 8 =
          (utf8 magicBinary, ⟨utf8 magicBinary ++ (hdr ++ arr) ++ post, 8⟩) := by
        have : (utf8 magicBinary ++ (hdr ++ arr) ++ post).take 8 = utf8 magicBinary := by
          rw [List.append_assoc, List.take_append_of_le_length (by rw [h8]), List.take_of_length_le (by rw [h8])]
        simp [Handle.read, h8]
      have eB : utf8 magicBinary ++ hdr ++ (arr ++ post) = utf8 magicBinary ++ (hdr ++ arr) ++ post := by simp
      rw [eB, h8] at hr
      unfold readSdf
      rw [hm8]
      dsimp only
      rw [if_neg (by decide), if_pos rfl]
      unfold readBinary
      rw [hr]
      dsimp only
      rw [hnx, hny, hty, hzs, hlx, hly]
      dsimp only
      have hdt : dtypeOf 7 = some .double := rfl
      rw [hdt]
      dsimp only
      have hal : arr.length = l.length * 8 := by
        have := writeArray_length (Fmt.fw true) (encFloat c true) l (fun x _ => encFloat_length c true x)
        rw [harr, this]; rfl
      have hll : l.length = s.data.ny * s.data.nx := by rw [hl, List.length_map, flat_length _ hwf]
      have hn : DType.double.size * (s.data.nx : Int).toNat * (s.data.ny : Int).toNat = arr.length := by
        rw [hal, hll]; simp only [DType.size, Int.toNat_natCast]; ring
      have hrd : ((Handle.mk (utf8 magicBinary ++ (hdr ++ arr) ++ post) (8 + hdr.length)).read
          arr.length).1 = arr := by
        have hd : (utf8 magicBinary ++ (hdr ++ arr) ++ post).drop (8 + hdr.length) = arr ++ post := by
          rw [← eB]
          exact List.drop_left' (by rw [List.length_append, h8])
        simp only [Handle.read, hd]
        exact List.take_left
      rw [hn, hrd]
      rw [if_neg (by simp)]
      have hfb := fromBuffer_writeArray (Fmt.fw true) (fw_pos true) (encFloat c true)
        (DType.double.item K) l (fun x _ => encFloat_length c true x)
      have hfw : Fmt.fw true = DType.double.size := rfl
      rw [hfw, ← harr] at hfb
      rw [hfb]
      dsimp only
      rw [hl, List.map_map, List.map_map, reshape_map _ hwf]
      rfl

/-! ### Rounding -/

variable [FloorRing K]

/-- Rounding error of double precision away from underflow. -/
theorem nearest_rel {x y : K} (h : Nearest true x y) (hx : 1 / 2 ^ 1022 ≤ |x|) :
    |y - x| ≤ |x| / 2 ^ 53 := by
  refine le_trans (nearest_error_double h) (max_le le_rfl ?_)
  have : (1 : K) / 2 ^ 1075 = (1 / 2 ^ 1022) / 2 ^ 53 := by
    rw [div_div, ← pow_add]
  rw [this]
  exact div_le_div_of_nonneg_right hx (by positivity)

/-- Two rounded factors. -/
theorem product_error {a t y q u e : K} (hu0 : 0 ≤ u) (hu1 : u ≤ 1 / 2) (he : 0 ≤ e)
    (ht : 0 ≤ t) (hy : |y - a| ≤ |a| * u + e) (hq : |q - t| ≤ t * u) :
    |y * q - a * t| ≤ |a| * t * (4 * u) + 2 * e * t := by
  have e1 : y * q - a * t = (y - a) * q + a * (q - t) := by ring
  have hqb : |q| ≤ t * (1 + u) := by
    have : |q| ≤ |q - t| + |t| := by
      have := abs_add_le (q - t) t
      simpa using this
    rw [abs_of_nonneg ht] at this
    linarith
  rw [e1]
  refine le_trans (abs_add_le _ _) ?_
  rw [abs_mul, abs_mul]
  have ha := abs_nonneg a
  have h1 : |y - a| * |q| ≤ (|a| * u + e) * (t * (1 + u)) :=
    mul_le_mul hy hqb (abs_nonneg _) (by positivity)
  have h2 : |a| * |q - t| ≤ |a| * (t * u) := mul_le_mul_of_nonneg_left hq ha
  have hau : 0 ≤ |a| * t * u := by positivity
  have het : 0 ≤ e * t := by positivity
  nlinarith [mul_nonneg hau hu0, mul_nonneg het hu0, mul_nonneg hau (sub_nonneg.2 hu1),
    mul_nonneg het (sub_nonneg.2 hu1)]

end Sdf
end Surfalize
