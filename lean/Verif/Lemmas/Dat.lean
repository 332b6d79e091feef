import Verif.Lemmas.LayoutRead
import Verif.Lemmas.ArrayAt
import Verif.Model.Dat
import Verif.Spec.Dat
/-! # Lemmas for MetroPro files -/
set_option linter.unusedSectionVars false
set_option maxRecDepth 20000
namespace Surfalize
namespace Dat
open LayoutM FileArr
variable {K : Type} [Field K] [LinearOrder K]

theorem layout_fixed : ∀ e ∈ layout K, isFixed e = true := by rw [← List.all_eq_true]; rfl
theorem layout3_fixed : ∀ e ∈ layout3 K, isFixed e = true := by rw [← List.all_eq_true]; rfl
theorem layout_total : total (layout K) = 830 := by simp [layout, total, entrySize, Fmt.size, Fmt.fw]
theorem layout3_total : total (layout3 K) = 3262 := by simp [layout3, total, entrySize, Fmt.size, Fmt.fw]

section
set_option maxHeartbeats 2000000
theorem at_format : locate "header_format" (layout K) 4 = some (4, .int false true 2) := by rfl
theorem at_size : locate "header_size" (layout K) 4 = some (6, .int false true 4) := by rfl
theorem at_acw : locate "ac_width" (layout K) 4 = some (52, .int false true 2) := by rfl
theorem at_ach : locate "ac_height" (layout K) 4 = some (54, .int false true 2) := by rfl
theorem at_acb : locate "ac_n_buckets" (layout K) 4 = some (56, .int false true 2) := by rfl
theorem at_acr : locate "ac_range" (layout K) 4 = some (58, .int true true 2) := by rfl
theorem at_acn : locate "ac_n_bytes" (layout K) 4 = some (60, .int false true 4) := by rfl
theorem at_w : locate "cn_width" (layout K) 4 = some (68, .int false true 2) := by rfl
theorem at_h : locate "cn_height" (layout K) 4 = some (70, .int false true 2) := by rfl
theorem at_scale : locate "intf_scale_factor" (layout K) 4 = some (164, .flt false true 1) := by rfl
theorem at_wave : locate "wavelength_in" (layout K) 4 = some (168, .flt false true 1) := by rfl
theorem at_obl : locate "obliquity_factor" (layout K) 4 = some (176, .flt false true 1) := by rfl
theorem at_lat : locate "lateral_res" (layout K) 4 = some (184, .flt false true 1) := by rfl
theorem at_res : locate "phase_res" (layout K) 4 = some (218, .int true true 2) := by rfl
end

theorem unsigned (big : Bool) (w : Nat) (bs : Bytes) : bytesInt false big w bs = bytesNat big bs := by
  simp [bytesInt]

/-- The header of a file whose layout could be read. -/
structure Fields (buf : Bytes) (d : Dict K) : Prop where
  hf : getInt d "header_format" = .ok (DatSpec.headerFormat buf)
  hs : getInt d "header_size" = .ok (DatSpec.headerSize buf)
  aw : getInt d "ac_width" = .ok (DatSpec.acWidth buf)
  ah : getInt d "ac_height" = .ok (DatSpec.acHeight buf)
  ab : getInt d "ac_n_buckets" = .ok (DatSpec.acBuckets buf)
  ar : getInt d "ac_range" = .ok (DatSpec.acRange buf)
  an : getInt d "ac_n_bytes" = .ok (DatSpec.acBytes buf)
  w : getInt d "cn_width" = .ok (DatSpec.width buf)
  h : getInt d "cn_height" = .ok (DatSpec.height buf)
  sc : getNum d "intf_scale_factor" = .ok (toOpt (DatSpec.scaleFactor K buf))
  wl : getNum d "wavelength_in" = .ok (toOpt (DatSpec.wavelength K buf))
  ob : getNum d "obliquity_factor" = .ok (toOpt (DatSpec.obliquity K buf))
  lr : getNum d "lateral_res" = .ok (toOpt (DatSpec.lateralRes K buf))
  pr : getInt d "phase_res" = .ok (DatSpec.phaseRes buf)

theorem getInt_some {d : Dict K} {k : String} {i : Int} (h : d k = some (.int i)) : getInt d k = .ok i := by
  unfold getInt; rw [h]
theorem getNum_some {d : Dict K} {k : String} {x : FVal K} (h : d k = some (.num x)) :
    getNum d k = .ok (toOpt x) := by unfold getNum; rw [h]

theorem fields {buf : Bytes} {d : Dict K} {h' : Handle}
    (hr : LayoutM.read .utf8 ⟨buf, 4⟩ (layout K) = .ok (d, h')) : Fields buf d := by
  have i : ∀ {name off w s}, locate name (layout K) 4 = some (off, .int s true w) →
      getInt d name = .ok (bytesInt s true w ((buf.drop off).take w)) := fun hl =>
    getInt_some (readGo_int layout_fixed hr hl).1
  have f : ∀ {name off}, locate name (layout K) 4 = some (off, .flt false true 1) →
      getNum d name = .ok (toOpt (DatSpec.real K buf off)) := fun hl =>
    getNum_some (readGo_num layout_fixed hr hl).1
  constructor
  · rw [i at_format, unsigned]; rfl
  · rw [i at_size, unsigned]; rfl
  · rw [i at_acw, unsigned]; rfl
  · rw [i at_ach, unsigned]; rfl
  · rw [i at_acb, unsigned]; rfl
  · rw [i at_acr]; rfl
  · rw [i at_acn, unsigned]; rfl
  · rw [i at_w, unsigned]; rfl
  · rw [i at_h, unsigned]; rfl
  · rw [f at_scale]; rfl
  · rw [f at_wave]; rfl
  · rw [f at_obl]; rfl
  · rw [f at_lat]; rfl
  · rw [i at_res]; rfl

end Dat
end Surfalize
