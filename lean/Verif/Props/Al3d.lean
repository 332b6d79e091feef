import Verif.Lemmas.Al3d
/-!
# C60: Alicona files round-trip
-/
set_option linter.unusedSectionVars false
namespace Surfalize
namespace Props
open LayoutM LayoutSpec FileArr
variable {K : Type} [Field K] [LinearOrder K] [IsStrictOrderedRing K] [FloorRing K]

/-- Saving as AL3D always succeeds, and loading the file returns the same size, the same non-measured
points, every height within single precision of the original and the lateral steps within double
precision, whatever encoding the reader assumes.

The sizes may have up to 30 decimal digits (the width of a tag). Bytes `post` behind the file are ignored. -/
theorem C60_round_trip {c : FloatCodec K} (hc : c.Nearest) {T : FloatText K} (hT : T.Faithful)
    (enc : Encoding) (s : Raw K) (hwf : s.data.WF) (hnx : s.data.nx < 10 ^ 30)
    (hny : s.data.ny < 10 ^ 30)
    (hsx : |s.stepX / 10 ^ 6| < f64.threshold K) (hsy : |s.stepY / 10 ^ 6| < f64.threshold K) (post : Bytes) :
    ∃ r : Raw K, Al3d.readAl3d c T enc ⟨Al3d.writeAl3d c T s ++ post, 0⟩ = .ok r ∧ r.data.WF ∧
      r.data.ny = s.data.ny ∧ r.data.nx = s.data.nx ∧
      |r.stepX - s.stepX| ≤ max (|s.stepX| / 2 ^ 53) (10 ^ 6 / 2 ^ 1075) ∧
      |r.stepY - s.stepY| ≤ max (|s.stepY| / 2 ^ 53) (10 ^ 6 / 2 ^ 1075) ∧
      ∀ i j, i < s.data.ny → j < s.data.nx →
        (s.data.get i j = none → r.data.get i j = none) ∧
        ∀ z, s.data.get i j = some z → |z / 10 ^ 6| < f32.threshold K →
          ∃ z', r.data.get i j = some z' ∧
            |z' - z| ≤ max (|z| / 2 ^ 24) (10 ^ 6 / 2 ^ 150) := by
  rw [div_eq_mul_inv] at hsx hsy
  obtain ⟨lx, hx1, hx2, hx3⟩ := hT.back _ hsx
  obtain ⟨ly, hy1, hy2, hy3⟩ := hT.back _ hsy
  refine ⟨_, Al3d.read_written c hT enc s hwf (natText_length_le 29 _ hnx)
    (natText_length_le 29 _ hny) hx1 hy1 post, map_wf _ hwf, map_ny _ _, rfl,
    micro_error_double ⟨hsx, hx2, hx3⟩, micro_error_double ⟨hsy, hy2, hy3⟩, ?_⟩
  intro i j hi hj
  rw [get_map_height hwf _ hi hj]
  have hst := decFloat_encFloat hc false ((s.data.get i j).map fun x => x * ((10 : K) ^ 6)⁻¹)
  constructor
  · intro h
    rw [h] at hst ⊢
    have hst' : decFloat K false (encFloat c false none) = none := hst
    simp [hst']
  · intro z h hz
    rw [h] at hst ⊢
    rw [div_eq_mul_inv] at hz
    obtain ⟨y, hy, hn⟩ := hst hz
    exact ⟨y * 10 ^ 6, by rw [hy]; rfl, micro_error hn⟩

/-- The heights start at the announced position: the file is 845 bytes of header followed by four
bytes per point. -/
theorem C60_offset (c : FloatCodec K) (T : FloatText K) (s : Raw K) (hwf : s.data.WF) :
    (Al3d.writeAl3d c T s).length = 845 + 4 * (s.data.ny * s.data.nx) ∧
    ∃ head, head.length = 845 ∧ Al3d.writeAl3d c T s = head ++ (Container.flat s.data).flatMap
      fun z => encFloat c false (z.map fun x => x / 10 ^ 6) := by
  have e : Al3d.writeAl3d c T s = Al3d.head T s ++ (Container.flat s.data).flatMap
      fun z => encFloat c false (z.map fun x => x / 10 ^ 6) := by
    rw [Al3d.written_eq, writeArray, List.flatMap_map]
    simp only [div_eq_mul_inv]
  refine ⟨?_, _, Al3d.head_length T s, e⟩
  have hl := writeArray_length 4 (fun z => encFloat c false (z.map fun x => x / 10 ^ 6))
    (Container.flat s.data) (fun x _ => encFloat_length c false _)
  rw [writeArray] at hl
  rw [e, List.length_append, Al3d.head_length, hl, flat_length _ hwf]
  ring

/-- A surface with a missing point meets the hypotheses: an encoder and number texts exist, and the
bound for its heights is far below a nanometre. -/
example : ∃ (c : FloatCodec ℚ) (T : FloatText ℚ), c.Nearest ∧ T.Faithful ∧
    ∃ r : Raw ℚ, Al3d.readAl3d c T .utf8
      ⟨Al3d.writeAl3d c T ⟨⟨[[some (1/3), none], [some 2, some 3]], 2⟩, 1/10, 2/10⟩, 0⟩ = .ok r ∧
      r.data.get 0 1 = none ∧ ∃ z, r.data.get 0 0 = some z ∧ |z - 1/3| ≤ 1 / 10 ^ 7 := by
  obtain ⟨c, hc⟩ := FloatCodec.exists_nearest ℚ
  obtain ⟨T, hT⟩ := exists_faithful ℚ
  have h1 := one_lt_threshold (K := ℚ) true
  have h2 := one_lt_threshold (K := ℚ) false
  simp only [if_true] at h1
  simp only [Bool.false_eq_true, if_false] at h2
  obtain ⟨r, hr, -, -, -, -, -, h⟩ := C60_round_trip hc hT .utf8
    ⟨⟨[[some (1/3), none], [some 2, some 3]], 2⟩, 1/10, 2/10⟩ (by decide +kernel) (by decide +kernel)
    (by decide +kernel)
    (lt_trans (by norm_num [abs_of_pos]) h1) (lt_trans (by norm_num [abs_of_pos]) h1) []
  rw [List.append_nil] at hr
  refine ⟨c, T, hc, hT, r, hr, (h 0 1 (by decide) (by decide)).1 rfl, ?_⟩
  obtain ⟨z, hz1, hz2⟩ := (h 0 0 (by decide) (by decide)).2 (1/3) rfl
    (lt_trans (by norm_num [abs_of_pos]) h2)
  refine ⟨z, hz1, le_trans hz2 ?_⟩
  norm_num [abs_of_pos]

end Props
end Surfalize
