import Verif.Model.FileArray
/-!
# Zygo MetroPro files: surfalize/file/dat.py

Arithmetic is exact; infinities in the header are not distinguished from NaN. Metadata are not modelled.
-/
namespace Surfalize
namespace Dat
open LayoutM FileArr

/-- `MAGIC_1`, `MAGIC_2`, `MAGIC_3` (surfalize/file/dat.py:8-10). -/
def magic1 : Bytes := [0x88, 0x1b, 0x03, 0x6f]
def magic2 : Bytes := [0x88, 0x1b, 0x03, 0x70]
def magic3 : Bytes := [0x88, 0x1b, 0x03, 0x71]

/-- `VALID_FORMAT_SPECIFICATIONS` (surfalize/file/dat.py:13-17): magic, header format, header size. -/
def validFormats : List (Bytes × Int × Int) := [(magic1, 1, 834), (magic2, 2, 834), (magic3, 3, 4096)]

/-- `INVALID_VALUE_PHASE` (surfalize/file/dat.py:20). -/
def invalidPhase : Int := 2147483640

/-- `RESOLUTION_MAP[phase_res]` (surfalize/file/dat.py:25-29): KeyError for other values. -/
def resolution (r : Int) : Except Err Nat :=
  if r = 1 then .ok 4096 else if r = 2 then .ok 32768 else if r = 3 then .ok 131072 else .error .keyError

/-- `LAYOUT_HEADER` (surfalize/file/dat.py:31-185). -/
def layout (K : Type) : List (Entry K) :=
[.field "header_format" (.fixed (.int false true 2)), .field "header_size" (.fixed (.int false true 4)),
   .field "swinfo_type" (.fixed (.int true true 2)), .field "swinfo_date" (.fixed (.str 30)),
   .field "swinfo_vers_maj" (.fixed (.int true true 2)),
   .field "swinfo_vers_min" (.fixed (.int true true 2)),
   .field "swinfo_vers_bug" (.fixed (.int true true 2)), .field "ac_org_x" (.fixed (.int true true 2)),
   .field "ac_org_y" (.fixed (.int true true 2)), .field "ac_width" (.fixed (.int false true 2)),
   .field "ac_height" (.fixed (.int false true 2)), .field "ac_n_buckets" (.fixed (.int false true 2)),
   .field "ac_range" (.fixed (.int true true 2)), .field "ac_n_bytes" (.fixed (.int false true 4)),
   .field "cn_org_x" (.fixed (.int true true 2)), .field "cn_org_y" (.fixed (.int true true 2)),
   .field "cn_width" (.fixed (.int false true 2)), .field "cn_height" (.fixed (.int false true 2)),
   .field "cn_n_bytes" (.fixed (.int false true 4)), .field "time_stamp" (.fixed (.int true true 4)),
   .field "comment" (.fixed (.str 82)), .field "source" (.fixed (.int true true 2)),
   .field "intf_scale_factor" (.fixed (.flt false true 1)),
   .field "wavelength_in" (.fixed (.flt false true 1)), .field "num_aperture" (.fixed (.flt false true 1)),
   .field "obliquity_factor" (.fixed (.flt false true 1)),
   .field "magnification" (.fixed (.flt false true 1)), .field "lateral_res" (.fixed (.flt false true 1)),
   .field "acq_type" (.fixed (.int true true 2)), .field "intens_avg_cnt" (.fixed (.int true true 2)),
   .field "ramp_cal" (.fixed (.int true true 2)), .field "sfac_limit" (.fixed (.int true true 2)),
   .field "ramp_gain" (.fixed (.int true true 2)), .field "part_thickness" (.fixed (.flt false true 1)),
   .field "sw_llc" (.fixed (.int true true 2)), .field "target_range" (.fixed (.flt false true 1)),
   .field "rad_crv_veasure_eeq" (.fixed (.int true false 2)), .field "min_mod" (.fixed (.int true true 4)),
   .field "min_mod_count" (.fixed (.int true true 4)), .field "phase_res" (.fixed (.int true true 2)),
   .field "min_area" (.fixed (.int true true 4)), .field "discon_action" (.fixed (.int true true 2)),
   .field "discon_filter" (.fixed (.flt false true 1)), .field "connect_order" (.fixed (.int true true 2)),
   .field "sign" (.fixed (.int true true 2)), .field "camera_width" (.fixed (.int true true 2)),
   .field "camera_height" (.fixed (.int true true 2)), .field "sys_type" (.fixed (.int true true 2)),
   .field "sys_board" (.fixed (.int true true 2)), .field "sys_serial" (.fixed (.int true true 2)),
   .field "inst_id" (.fixed (.int true true 2)), .field "obj_name" (.fixed (.str 12)),
   .field "part_name" (.fixed (.str 40)), .field "codev_type" (.fixed (.int true true 2)),
   .field "phase_avg_cnt" (.fixed (.int true true 2)), .field "sub_sys_err" (.fixed (.int true true 2)),
   .reserved 16, .field "part_ser_num" (.fixed (.str 40)),
   .field "refractive_index" (.fixed (.flt false true 1)),
   .field "rem_tilt_bias" (.fixed (.int true true 2)), .field "rem_fringes" (.fixed (.int true true 2)),
   .field "max_area" (.fixed (.int true true 4)), .field "setup_type" (.fixed (.int true true 2)),
   .field "wrapped" (.fixed (.int true true 2)), .field "pre_connect_filter" (.fixed (.flt false true 1)),
   .field "wavelength_in_2" (.fixed (.flt false true 1)),
   .field "wavelength_fold" (.fixed (.int true true 2)),
   .field "wavelength_in_1" (.fixed (.flt false true 1)),
   .field "wavelength_in_3" (.fixed (.flt false true 1)),
   .field "wavelength_in_4" (.fixed (.flt false true 1)), .field "wavelen_select" (.fixed (.str 8)),
   .field "fda_res" (.fixed (.int true true 2)), .field "scan_descr" (.fixed (.str 20)),
   .field "n_fiducials_a" (.fixed (.int true true 2)), .field "fiducials_a" (.fixed (.flt false true 14)),
   .field "pixel_width" (.fixed (.flt false true 1)), .field "pixel_height" (.fixed (.flt false true 1)),
   .field "exit_pupil_diam" (.fixed (.flt false true 1)),
   .field "light_level_pct" (.fixed (.flt false true 1)),
   .field "coords_state" (.fixed (.int true false 4)), .field "coords_x_pos" (.fixed (.flt false false 1)),
   .field "coords_y_pos" (.fixed (.flt false false 1)), .field "coords_z_pos" (.fixed (.flt false false 1)),
   .field "coords_x_rot" (.fixed (.flt false false 1)), .field "coords_y_rot" (.fixed (.flt false false 1)),
   .field "coords_z_rot" (.fixed (.flt false false 1)),
   .field "coherence_mode" (.fixed (.int true false 2)),
   .field "surface_filter" (.fixed (.int true false 2)), .field "sys_err_file_name" (.fixed (.str 28)),
   .field "zoom_descr" (.fixed (.str 8)), .field "alpha_part" (.fixed (.flt false false 1)),
   .field "beta_part" (.fixed (.flt false false 1)), .field "dist_part" (.fixed (.flt false false 1)),
   .field "cam_split_loc_x" (.fixed (.int true false 2)),
   .field "cam_split_loc_y" (.fixed (.int true false 2)),
   .field "cam_split_trans_x" (.fixed (.int true false 2)),
   .field "cam_split_trans_y" (.fixed (.int true false 2)), .field "material_a" (.fixed (.str 24)),
   .field "material_b" (.fixed (.str 24)), .field "cam_split_unused" (.fixed (.int true false 2)),
   .reserved 2, .field "dmi_ctr_x" (.fixed (.flt false false 1)),
   .field "dmi_ctr_y" (.fixed (.flt false false 1)), .field "sph_dist_corr" (.fixed (.int true false 2)),
   .reserved 2, .field "sph_dist_part_na" (.fixed (.flt false false 1)),
   .field "sph_dist_part_radius" (.fixed (.flt false false 1)),
   .field "sph_dist_cal_na" (.fixed (.flt false false 1)),
   .field "sph_dist_cal_radius" (.fixed (.flt false false 1)),
   .field "surface_type" (.fixed (.int true false 2)),
   .field "ac_surface_type" (.fixed (.int true false 2)), .field "z_position" (.fixed (.flt false false 1)),
   .field "power_multiplier" (.fixed (.flt false false 1)),
   .field "focus_multiplier" (.fixed (.flt false false 1)),
   .field "rad_crv_vocus_sal_lactor" (.fixed (.flt false false 1)),
   .field "rad_crv_vower_ral_lactor" (.fixed (.flt false false 1)),
   .field "ftp_left_pos" (.fixed (.flt false false 1)),
   .field "ftp_right_pos" (.fixed (.flt false false 1)),
   .field "ftp_pitch_pos" (.fixed (.flt false false 1)),
   .field "ftp_roll_pos" (.fixed (.flt false false 1)), .field "min_mod_pct" (.fixed (.flt false false 1)),
   .field "max_inten" (.fixed (.int true false 4)), .field "ring_of_fire" (.fixed (.int true false 2)),
   .reserved 1, .field "rc_orientation" (.fixed (.int false false 1)),
   .field "rc_distance" (.fixed (.flt false false 1)), .field "rc_angle" (.fixed (.flt false false 1)),
   .field "rc_diameter" (.fixed (.flt false false 1)),
   .field "rem_fringes_mode" (.fixed (.int true true 2)), .reserved 1,
   .field "ftpsi_phase_res" (.fixed (.int false false 1)),
   .field "frames_acquired" (.fixed (.int true false 2)), .field "cavity_type" (.fixed (.int true false 2)),
   .field "cam_frame_rate" (.fixed (.flt false false 1)), .field "tune_range" (.fixed (.flt false false 1)),
   .field "cal_pix_loc_x" (.fixed (.int true false 2)), .field "cal_pix_loc_y" (.fixed (.int true false 2)),
   .field "n_tst_cal_pts" (.fixed (.int true false 2)), .field "n_ref_cal_pts" (.fixed (.int true false 2)),
   .field "tst_cal_pts" (.fixed (.flt false false 4)), .field "ref_cal_pts" (.fixed (.flt false false 4)),
   .field "tst_cal_pix_opd" (.fixed (.flt false false 1)),
   .field "ref_cal_pix_opd" (.fixed (.flt false false 1)),
   .field "sys_serial2" (.fixed (.int true false 4)),
   .field "flash_phase_dc_mask" (.fixed (.flt false false 1)),
   .field "flash_phase_alias_mask" (.fixed (.flt false false 1)),
   .field "flash_phase_filter" (.fixed (.flt false false 1)),
   .field "scan_direction" (.fixed (.int false false 1)), .reserved 1,
   .field "pre_fda_filter" (.fixed (.int true true 2)), .reserved 4,
   .field "ftpsi_res_factor" (.fixed (.int true false 4)), .reserved 8]

/-- `LAYOUT_HEADER_3` (surfalize/file/dat.py:187-252). -/
def layout3 (K : Type) : List (Entry K) :=
  [.reserved 4, .field "films_mode" (.fixed (.int true true 2)),
   .field "films_reflectivity_ratio" (.fixed (.int true true 2)),
   .field "films_obliquity_correction" (.fixed (.flt false true 1)),
   .field "films_refraction_index" (.fixed (.flt false true 1)),
   .field "films_min_mod" (.fixed (.flt false true 1)),
   .field "films_min_thickness" (.fixed (.flt false true 1)),
   .field "films_max_thickness" (.fixed (.flt false true 1)),
   .field "films_min_refl_ratio" (.fixed (.flt false true 1)),
   .field "films_max_refl_ratio" (.fixed (.flt false true 1)),
   .field "films_sys_char_file_name" (.fixed (.str 28)), .field "films_dfmt" (.fixed (.int true true 2)),
   .field "films_merit_mode" (.fixed (.int true true 2)), .field "films_h2g" (.fixed (.int true true 2)),
   .field "anti_vibration_cal_file_name" (.fixed (.str 28)), .reserved 2,
   .field "films_fringe_remove_perc" (.fixed (.flt false true 1)),
   .field "asphere_job_file_name" (.fixed (.str 28)), .field "asphere_test_plan_name" (.fixed (.str 28)),
   .reserved 4, .field "asphere_nzones" (.fixed (.flt false true 1)),
   .field "asphere_rv" (.fixed (.flt false true 1)), .field "asphere_voffset" (.fixed (.flt false true 1)),
   .field "asphere_att4" (.fixed (.flt false true 1)), .field "asphere_r0" (.fixed (.flt false true 1)),
   .field "asphere_att6" (.fixed (.flt false true 1)),
   .field "asphere_r0_optimization" (.fixed (.flt false true 1)),
   .field "asphere_att8" (.fixed (.flt false true 1)),
   .field "asphere_aperture_pct" (.fixed (.flt false true 1)),
   .field "asphere_optimized_r0" (.fixed (.flt false true 1)),
   .field "iff_state" (.fixed (.int true false 2)), .field "iff_idr_filename" (.fixed (.str 42)),
   .field "iff_ise_filename" (.fixed (.str 42)), .reserved 2,
   .field "asphere_eqn_r0" (.fixed (.flt false true 1)),
   .field "asphere_eqn_k" (.fixed (.flt false true 1)),
   .field "asphere_eqn_coef" (.fixed (.flt false true 21)),
   .field "awm_enable" (.fixed (.int true false 4)),
   .field "awm_vacuum_wavelength_nm" (.fixed (.flt false false 1)),
   .field "awm_air_wavelength_nm" (.fixed (.flt false false 1)),
   .field "awm_air_temperature_degc" (.fixed (.flt false false 1)),
   .field "awm_air_pressure_mmhg" (.fixed (.flt false false 1)),
   .field "awm_air_rel_humidity_pct" (.fixed (.flt false false 1)),
   .field "awm_air_quality" (.fixed (.flt false false 1)),
   .field "awm_input_power_mw" (.fixed (.flt false false 1)),
   .field "asphere_optimizations" (.fixed (.int true true 4)),
   .field "asphere_optimization_mode" (.fixed (.int true true 4)),
   .field "asphere_optimized_k" (.fixed (.flt false true 1)), .reserved 2,
   .field "n_fiducials_b" (.fixed (.int true true 2)), .field "fiducials_b" (.fixed (.flt false true 14)),
   .reserved 2, .field "n_fiducials_c" (.fixed (.int true true 2)),
   .field "fiducials_c" (.fixed (.flt false true 14)), .reserved 2,
   .field "n_fiducials_d" (.fixed (.int true true 2)), .field "fiducials_d" (.fixed (.flt false true 14)),
   .field "gpi_enc_zoom_mag" (.fixed (.flt false false 1)),
   .field "asphere_max_distortion" (.fixed (.flt false true 1)),
   .field "asphere_distortion_uncert" (.fixed (.flt false true 1)),
   .field "field_stop_name" (.fixed (.str 12)), .field "apert_stop_name" (.fixed (.str 12)),
   .field "illum_filt_name" (.fixed (.str 12)), .reserved 2606]

/-- The surface and the intensity layers, in the order of their numbers. -/
structure Out (K : Type) where
  surface : Raw K
  layers : List (Grid Int)

/-- The intensity values (surfalize/file/dat.py:272-282): one layer per bucket; CorruptedFileError if a value
is above the stated range. Called for a positive number of points. -/
def intensity (width height buckets range : Int) (h : Handle) : Except Err (List (Grid Int) × Handle) :=
  match readArray 2 (bytesInt false true 2) (width * height * buckets) 0 h with
  | .error e => .error e
  | .ok (l, h') =>
    if (l.length : Int) ≠ width * height * buckets then .error .valueError
    else if ∃ x ∈ l, range < x then .error .corrupted
    else
      .ok ((List.range buckets.toNat).map fun k =>
        ⟨(List.range height.toNat).map fun i => (List.range width.toNat).map fun j =>
          l.getD ((i * width.toNat + j) * buckets.toNat + k) 0, width.toNat⟩, h')

section
variable {K : Type} [Field K] [LinearOrder K]

/-- The height of a point in µm (surfalize/file/dat.py:289-293): NaN from `INVALID_VALUE_PHASE` on. -/
def height (scale wavelength obliquity : Option K) (res : Nat) (x : Int) : Option K :=
  if invalidPhase ≤ x then none
  else
    match scale, wavelength, obliquity with
    | some s, some w, some o => some ((x : K) * s * w * o / (res : K) * 10 ^ 6)
    | _, _, _ => none

/-- The phase data and the result (surfalize/file/dat.py:286-301). A step that is not a number, which numpy
would pass on, is a ValueError here. -/
def surface (d : Dict K) (layers : List (Grid Int)) (h : Handle) : Except Err (Out K) :=
  match getInt d "cn_width", getInt d "cn_height", getNum d "intf_scale_factor", getNum d "wavelength_in",
    getNum d "obliquity_factor", getInt d "phase_res", getNum d "lateral_res" with
  | .ok nx, .ok ny, .ok s, .ok w, .ok o, .ok pr, .ok step =>
    match readArray 4 (bytesInt true true 4) (nx * ny) 0 h with
    | .error e => .error e
    | .ok (l, _) =>
      match reshape l ny nx with
      | .error e => .error e
      | .ok g =>
        match resolution pr with
        | .error e => .error e
        | .ok res =>
          match step with
          | none => .error .valueError
          | some t => .ok ⟨⟨Container.map (height s w o res) g, t * 10 ^ 6, t * 10 ^ 6⟩, layers⟩
  | _, _, _, _, _, _, _ => .error .typeError

/-- The rest of the header and the intensity layers (surfalize/file/dat.py:262-284). -/
def afterHeader (images : Bool) (magic : Bytes) (d : Dict K) (h : Handle) : Except Err (Out K) :=
  match getInt d "header_format", getInt d "header_size", getInt d "ac_width", getInt d "ac_height",
    getInt d "ac_n_buckets", getInt d "ac_n_bytes", getInt d "ac_range" with
  | .ok hf, .ok hs, .ok aw, .ok ah, .ok ab, .ok an, .ok ar =>
    if (magic, hf, hs) ∉ validFormats then .error .corrupted
    else
      match (if hf = 3 then (LayoutM.read .utf8 h (layout3 K)).map (fun r => r.2) else .ok h) with
      | .error e => .error e
      | .ok h1 =>
        if aw * ah * ab * 2 ≠ an then .error .corrupted
        else if 0 < an ∧ images = true then
          match intensity aw ah ab ar h1 with
          | .error e => .error e
          | .ok (ls, h2) => surface d ls h2
        else surface d [] (h1.skip an.toNat)
  | _, _, _, _, _, _, _ => .error .typeError

/-- `read_dat` (surfalize/file/dat.py:255-301). The header is always decoded as UTF-8: the `encoding` argument
is not passed on. -/
def readDat (images : Bool) (h : Handle) : Except Err (Out K) :=
  let m := h.read 4
  if m.1 ∉ [magic1, magic2, magic3] then .error .corrupted
  else
    match LayoutM.read .utf8 m.2 (layout K) with
    | .error e => .error e
    | .ok (d, h1) => afterHeader images m.1 d h1

end
end Dat
end Surfalize
