{
 "claims": [
  {
   "property": "C01",
   "status": "proved",
   "theorems": [
    "Surfalize.Props.C01_cache_transparent",
    "Surfalize.Props.C01_read_is_fresh",
    "Surfalize.Props.C01_mutation_clears",
    "Surfalize.Props.C01_second_call_hits",
    "Surfalize.Props.C01_needs_faithful_keys"
   ],
   "note": ""
  },
  {
   "property": "C02",
   "status": "proved",
   "theorems": [
    "Surfalize.Props.C02_failure_not_cached",
    "Surfalize.Props.C02_guard_leaves_cache",
    "Surfalize.Props.C02_retry"
   ],
   "note": ""
  },
  {
   "property": "C03",
   "status": "partial",
   "theorems": [
    "Surfalize.Props.C03_inplace_eq_copy_partial",
    "Surfalize.Props.C03_both_not_inplace",
    "Surfalize.Props.C93_second_inplace_violated"
   ],
   "note": "All methods with an inplace flag, all arguments and data, any numerical routines, on a cold cache. False of the code: filter('both') raises in place (C03_both_not_inplace), and a repeated stepheight_level in place does nothing while the copy is levelled (C93_second_inplace_violated)."
  },
  {
   "property": "C04",
   "status": "proved",
   "theorems": [
    "Surfalize.Props.C04_extents",
    "Surfalize.Props.C04_step_assignment_breaks"
   ],
   "note": "Every history of API operations; direct assignment of step_x/step_y is excluded by the statement and shown to break the invariant."
  },
  {
   "property": "C05",
   "status": "partial",
   "theorems": [
    "Surfalize.Props.C05_families_partial",
    "Surfalize.Props.C05_reads_partial",
    "Surfalize.Props.C05_operations",
    "Surfalize.Props.C05_results",
    "Surfalize.Props.C05_marks",
    "Surfalize.Props.C05_no_sharing_partial",
    "Surfalize.Props.C05_reads_current_without_edits_partial",
    "Surfalize.Props.C05_slice_shares",
    "Surfalize.Props.C05_crop_shares"
   ],
   "note": "For every history (slices, crops, zooms, in-place operations, .data passed on, fills, edits, reads): surfaces of different families are isolated from each other's edits, relatives change at most to the assigned value, no other operation changes any surface but its in-place target, results are computed from current heights, and reads are current unless a relative was edited after the first read. The full property is false: slices and crops share memory with the original (C05_slice_shares, C05_crop_shares)."
  },
  {
   "property": "C06",
   "status": "partial",
   "theorems": [
    "Surfalize.Props.C06_isolated_partial",
    "Surfalize.Props.C06_dict_mutation",
    "Surfalize.Props.C06_step_assignment"
   ],
   "note": "Proved for callers that neither modify a returned dictionary nor reassign steps; both excluded actions are shown to break the property."
  },
  {
   "property": "C07",
   "status": "proved",
   "theorems": [
    "Surfalize.Props.C07_center",
    "Surfalize.Props.C07_center_all_missing"
   ],
   "note": "Any container shape, any mask."
  },
  {
   "property": "C08",
   "status": "proved",
   "theorems": [
    "Surfalize.Props.C08_zero"
   ],
   "note": ""
  },
  {
   "property": "C09",
   "status": "partial",
   "theorems": [
    "Surfalize.Props.C09_invert_measured_partial",
    "Surfalize.Props.C09_invert_missing_destroys",
    "Surfalize.Props.C09_invert_not_mask_preserving"
   ],
   "note": "Proved on fully measured data. The second sentence (mask preserved) is false of the code: base.py:256 uses NaN-propagating min/max, so one non-measured point destroys everything; negation proved."
  },
  {
   "property": "C10",
   "status": "proved",
   "theorems": [
    "Surfalize.Props.C10_median",
    "Surfalize.Props.C10_mean",
    "Surfalize.Props.C10_dispatch"
   ],
   "note": ""
  },
  {
   "property": "C100",
   "status": "partial",
   "theorems": [
    "Surfalize.Props.C100_affine",
    "Surfalize.Props.C100_inverted",
    "Surfalize.Props.C100_exchange_partial",
    "Surfalize.Props.C100_exchange_one_section",
    "Surfalize.Props.C100_exchange_fails",
    "Surfalize.Props.C100_reversed_partial",
    "Surfalize.Props.C100_direction_matters"
   ],
   "note": "Datum, unit, inversion (except the exchange of Rp and Rv) and reversal (except Rp, Rv, Rz with sections of unequal length) are proved. Both exceptions are false in the code: C100_exchange_fails (Rv takes the absolute value of the lowest point of a section above the mean line) and C100_direction_matters."
  },
  {
   "property": "C101",
   "status": "proved",
   "theorems": [
    "Surfalize.Props.C101_defined",
    "Surfalize.Props.C101_ignore_missing",
    "Surfalize.Props.C101_order",
    "Surfalize.Props.C101_affine",
    "Surfalize.Props.C101_operations",
    "Surfalize.Props.C101_height_parameters"
   ],
   "note": ""
  },
  {
   "property": "C102",
   "status": "partial",
   "theorems": [
    "Surfalize.Props.C102_heights",
    "Surfalize.Props.C102_default",
    "Surfalize.Props.C102_images_partial",
    "Surfalize.Props.C102_order_partial",
    "Surfalize.Props.C102_untitled_violated",
    "Surfalize.Props.C102_same_title_violated",
    "Surfalize.Props.C102_file"
   ],
   "note": "Proved for files whose images have titles that differ, and as many values as points; the two failing cases are C102_untitled_violated and C102_same_title_violated. The stored values are modelled as their 64-bit patterns; the float32/uint8 conversion that Image or matplotlib may do is not modelled."
  },
  {
   "property": "C103",
   "status": "partial",
   "theorems": [
    "Surfalize.Props.C103_shape",
    "Surfalize.Props.C103_kept",
    "Surfalize.Props.C103_cells",
    "Surfalize.Props.C103_values",
    "Surfalize.Props.C103_rowwise",
    "Surfalize.Props.C103_twice",
    "Surfalize.Props.C103_commute",
    "Surfalize.Props.C103_deferred",
    "Surfalize.Props.C103_fails_iff",
    "Surfalize.Props.C103_template",
    "Surfalize.Props.C103_independent",
    "Surfalize.Props.C103_source",
    "Surfalize.Props.C103_wrap",
    "Surfalize.Props.C103_set",
    "Surfalize.Props.C103_dataframe",
    "Surfalize.Props.C103_attributes",
    "Surfalize.Props.C103_copy_violated",
    "Surfalize.Props.C103_taken_name_violated",
    "Surfalize.Props.C103_misfit_violated",
    "Surfalize.Props.C103_not_a_text",
    "Surfalize.Props.C103_methods"
   ],
   "note": "Full statement except the three violated cases (C103_taken_name_violated, C103_misfit_violated, C103_copy_violated). Literal text of templates without regex metacharacters, as in C53; integers beyond 64 bits and pandas column types are not modelled."
  },
  {
   "property": "C104",
   "status": "partial",
   "theorems": [
    "Surfalize.Props.C104_dat",
    "Surfalize.Props.C104_nms",
    "Surfalize.Props.C104_opd",
    "Surfalize.Props.C104_os3d",
    "Surfalize.Props.C104_plu",
    "Surfalize.Props.C104_plux",
    "Surfalize.Props.C104_vk4",
    "Surfalize.Props.C104_vk67",
    "Surfalize.Props.C104_sflz",
    "Surfalize.Props.C104_sur_heights",
    "Surfalize.Props.C104_sur_default",
    "Surfalize.Props.C104_sur_images",
    "Surfalize.Props.C104_sur_kind",
    "Surfalize.Props.C104_fits_heights",
    "Surfalize.Props.C104_fits_default",
    "Surfalize.Props.C104_fits_always",
    "Surfalize.Props.C104_fits_images",
    "Surfalize.Props.C102_heights",
    "Surfalize.Props.C66_dat_invalid_intensity",
    "Surfalize.Props.C66_nms_images",
    "Surfalize.Props.C84_plux_images",
    "Surfalize.Props.C102_untitled_violated"
   ],
   "note": "The stated direction (images never change the heights) is proved for every format with images and arbitrary bytes, with the contents of the images for SUR and FITS (GWY: C102; DAT, NMS, OPD, OS3D, PLU, VK: C66/C84). Partial: the converse fails - files readable without images may be rejected with them (C66_dat_invalid_intensity, C66_nms_images, C84_plux_images, C102_untitled_violated); FITS is the exception (C104_fits_always)."
  },
  {
   "property": "C105",
   "status": "partial",
   "theorems": [
    "Surfalize.Props.C105_heights",
    "Surfalize.Props.C105_images",
    "Surfalize.Props.C105_points3d",
    "Surfalize.Props.C105_profile",
    "Surfalize.Props.C105_vertical_profile",
    "Surfalize.Props.C105_horizontal_profile_partial",
    "Surfalize.Props.C105_crop",
    "Surfalize.Props.C105_horizontal_profile_violated",
    "Surfalize.Props.C105_cropped_image_violated",
    "Surfalize.Props.C105_shadowed_violated",
    "Surfalize.Props.C105_detail_partial",
    "Surfalize.Props.C105_detail_violated",
    "Surfalize.Props.C105_autocorrelation",
    "Surfalize.Props.C105_spectrum",
    "Surfalize.Props.C105_spectrum_drawn",
    "Surfalize.Props.C105_spectrum_data",
    "Surfalize.Props.C105_spectrum_limits_partial",
    "Surfalize.Props.C105_spectrum_limits_violated",
    "Surfalize.Props.C105_spectrum_small_limit_violated",
    "Surfalize.Props.C105_bars",
    "Surfalize.Props.C105_triangles",
    "Surfalize.Props.C105_polar",
    "Surfalize.Props.C105_polar_place_partial",
    "Surfalize.Props.C105_polar_place_violated"
   ],
   "note": "violated for: y of horizontal profiles, images after crop in place, an image called Topography, reduced detail of the 3d plot, limits of the spectrum for odd sizes; polar axes in place of axes over several cells"
  },
  {
   "property": "C106",
   "status": "partial",
   "theorems": [
    "Surfalize.Props.C106_load",
    "Surfalize.Props.C106_kept",
    "Surfalize.Props.C106_isolated_partial",
    "Surfalize.Props.C106_shared_violated",
    "Surfalize.Props.C106_copies",
    "Surfalize.Props.C106_copy_violated",
    "Surfalize.Props.C106_raster_partial",
    "Surfalize.Props.C106_raster_violated"
   ],
   "note": "Edits are isolated unless the caller hands one dictionary to two surfaces (C106_shared_violated); copies lose metadata and images (C106_copy_violated); geometric methods in place leave images at the old size (C106_raster_violated)."
  },
  {
   "property": "C107",
   "status": "partial",
   "theorems": [
    "Surfalize.Props.C107_params",
    "Surfalize.Props.C107_fourier",
    "Surfalize.Props.C107_acf",
    "Surfalize.Props.C107_held_partial",
    "Surfalize.Props.C107_abbott_kept",
    "Surfalize.Props.C107_stale",
    "Surfalize.Props.C107_mixed",
    "Surfalize.Props.C107_fourier_violated",
    "Surfalize.Props.C107_acf_violated",
    "Surfalize.Props.C107_abbott_violated",
    "Surfalize.Props.C107_render_exists",
    "Surfalize.Props.C107_abbott",
    "Surfalize.Props.C107_same",
    "Surfalize.Props.C107_acf_stale"
   ],
   "note": "Parameters read from the surface are always those of the present heights (C107_params, for all three classes; C107_fourier and C107_acf spell it out in the functions of C43, C44, C76 and C42, C75), objects answer as new ones until heights are stored (C107_held_partial), curves keep their functional parameters for ever (C107_abbott_kept). Violated for objects held while the heights change (C107_stale, C107_mixed, C107_fourier_violated, C107_acf_violated, C107_abbott_violated)."
  },
  {
   "property": "C108",
   "status": "partial",
   "theorems": [
    "Surfalize.Props.C108_turn",
    "Surfalize.Props.C108_mirror_partial",
    "Surfalize.Props.C108_flip_partial",
    "Surfalize.Props.C108_transpose_partial",
    "Surfalize.Props.C108_unit",
    "Surfalize.Props.C108_spline_moves",
    "Surfalize.Props.C108_spline_partial",
    "Surfalize.Props.C108_ties_violated"
   ],
   "note": "Turning (C108_turn) and units (C108_unit) are proved for all surfaces. Mirroring and transposing are proved when no two lags, apart from opposite ones, have both the same length and the same autocorrelation (NoTies): the code breaks such ties by the row-major order of the array, which depends on the placement. Without that hypothesis the claim is false: C108_ties_violated gives a sample of 2 × 3 heights whose Str changes when it is mirrored. C108_spline_moves proves for the cubic spline of map_coordinates (Model/SplineLine) what C108_mirror_partial etc. assume of the interpolation; of the spline filter only that the spline interpolates is assumed (satisfiable: exists_interpolates). Inversion and the datum are C75_affine."
  },
  {
   "property": "C109",
   "status": "partial",
   "theorems": [
    "Surfalize.Props.C109_literal_partial",
    "Surfalize.Props.C109_read_partial",
    "Surfalize.Props.C109_roundtrip_partial",
    "Surfalize.Props.C109_duplicate",
    "Surfalize.Props.C109_point_violated",
    "Surfalize.Props.C109_brackets_violated",
    "Surfalize.Props.C109_plus_violated",
    "Surfalize.Props.C109_rejected_violated"
   ],
   "note": "Proved for literal text without the characters \\ . | ( ) [ { ^ $ * + ? and names that are identifiers: the template is accepted and reads exactly the file names that contain the literal text verbatim, under the right names. The full statement is false, and the negation is proved: construct_regex pastes the literal text into the expression without escaping it, so that a dot matches any character (C109_point_violated, for every text before it, every other character and every number), 'sample(1)_<n|int>' does not match 'sample(1)_5', 'a+b_<n|int>' does not match 'a+b_5', 'a)_<n|int>' and '<laser power|int>' raise re.error. Sets, counted repetitions, anchors and lazy quantifiers in literal text are outside of the model of re."
  },
  {
   "property": "C11",
   "status": "proved",
   "theorems": [
    "Surfalize.Props.C11_threshold_error",
    "Surfalize.Props.C11_threshold",
    "Surfalize.Props.C11_threshold_distinct",
    "Surfalize.Props.C11_scalar",
    "Surfalize.Props.C11_threshold_fails"
   ],
   "note": ""
  },
  {
   "property": "C110",
   "status": "partial",
   "theorems": [
    "Surfalize.Props.C110_crop_px",
    "Surfalize.Props.C110_crop_units_partial",
    "Surfalize.Props.C110_slices",
    "Surfalize.Props.C110_profile_partial",
    "Surfalize.Props.C110_profile_violated",
    "Surfalize.Props.C110_crop_units_violated"
   ],
   "note": "Pixel boxes (C110_crop_px) and slices (C110_slices) in full. Boxes in units: proved unless a bound of the second box lies exactly half-way between two points and the corner of the first is odd; there the claim is false (C110_crop_units_violated: round() goes to the even pixel). Profiles: proved for all rows of the cut but its last, where the code returns only non-measured points for every surface (C110_profile_violated)."
  },
  {
   "property": "C111",
   "status": "partial",
   "theorems": [
    "Surfalize.Props.C111_camera",
    "Surfalize.Props.C111_degrees",
    "Surfalize.Props.C111_middle",
    "Surfalize.Props.C111_outside_partial",
    "Surfalize.Props.C111_narrow_violated",
    "Surfalize.Props.C111_crop",
    "Surfalize.Props.C111_colorbar",
    "Surfalize.Props.C111_save",
    "Surfalize.Props.C111_picture",
    "Surfalize.Props.C111_grayscale"
   ],
   "note": "Everything but 'the camera is outside the measured area', which is proved for areas at most three times as high as wide (C111_outside_partial) and false of narrow ones (C111_narrow_violated). Colours, axes box, projection and the renderer are not modelled."
  },
  {
   "property": "C112",
   "status": "partial",
   "theorems": [
    "Surfalize.Props.C112_load",
    "Surfalize.Props.C112_restored",
    "Surfalize.Props.C112_any_schedule",
    "Surfalize.Props.C112_finishes",
    "Surfalize.Props.C112_threads_partial",
    "Surfalize.Props.C112_again_partial",
    "Surfalize.Props.C112_shared_violated",
    "Surfalize.Props.C112_again_violated"
   ],
   "note": "Proved for batches without shared buffers under every schedule (C112_any_schedule, C112_threads_partial), and, one after the other, for direct loads that succeed, shared buffers included (C112_again_partial, C112_restored). False of the code, proved: entries that share a buffer get each other's bytes under threads (C112_shared_violated), and a load that raises leaves the buffer elsewhere, so that the same batch executed again loads other data (C112_again_violated)."
  },
  {
   "property": "C113",
   "status": "proved",
   "theorems": [
    "Surfalize.Props.C113_height",
    "Surfalize.Props.C113_curve",
    "Surfalize.Props.C113_area",
    "Surfalize.Props.C113_sdq",
    "Surfalize.Props.C113_sdr",
    "Surfalize.Props.C113_profile",
    "Surfalize.Props.C113_sections",
    "Surfalize.Props.C113_rq",
    "Surfalize.Props.C113_rdq",
    "Surfalize.Props.C113_saved",
    "Surfalize.Props.C113_sound_exists",
    "Surfalize.Props.C113_demo"
   ],
   "note": "bounds for every named parameter; nothing is claimed for Ssk and Sku, which are ratios of moments"
  },
  {
   "property": "C114",
   "status": "proved",
   "theorems": [
    "Surfalize.Props.C114_center",
    "Surfalize.Props.C114_zero",
    "Surfalize.Props.C114_invert",
    "Surfalize.Props.C114_fill",
    "Surfalize.Props.C114_filter",
    "Surfalize.Props.C114_detrend",
    "Surfalize.Props.C114_pick_exists"
   ],
   "note": "the neighbour search of fill_nonmeasured is assumed to look at positions only (C114_pick_exists)"
  },
  {
   "property": "C115",
   "status": "partial",
   "theorems": [
    "Surfalize.Props.C115_two_levels",
    "Surfalize.Props.C115_step",
    "Surfalize.Props.C115_wave",
    "Surfalize.Props.C115_wave_profile",
    "Surfalize.Props.C115_plane",
    "Surfalize.Props.C115_profile_slope",
    "Surfalize.Props.C115_plane_slope_partial",
    "Surfalize.Props.C115_plane_slope_violated",
    "Surfalize.Props.C115_ramp_partial",
    "Surfalize.Props.C115_ramp_violated",
    "Surfalize.Props.C115_square_period",
    "Surfalize.Props.C115_square_depth",
    "Surfalize.Props.C115_square_aspect_ratio",
    "Surfalize.Props.C115_square_period_y",
    "Surfalize.Props.C115_square_depth_y",
    "Surfalize.Props.C115_wave_depth"
   ],
   "note": "Violated by the code: Spk and Svk of evenly spaced heights are NaN (0/0) instead of 0 (C115_ramp_violated); Sdq of an inclined plane is below its slope (C115_plane_slope_violated; what it is: C115_plane_slope_partial). Everything else is proved."
  },
  {
   "property": "C116",
   "status": "partial",
   "theorems": [
    "Surfalize.Props.C116_consistent_partial",
    "Surfalize.Props.C116_axes",
    "Surfalize.Props.C116_violated"
   ],
   "note": "Proved for every sampled wave: Std is the orientation with the opposite sign modulo 180 degrees, up to angle_step (C116_consistent_partial); both agree for textures along the axes (C116_axes). Missing: agreement for oblique textures, which the code violates (C116_violated)."
  },
  {
   "property": "C117",
   "status": "partial",
   "theorems": [
    "Surfalize.Props.C117_heights",
    "Surfalize.Props.C117_profile",
    "Surfalize.Props.C117_profile_y",
    "Surfalize.Props.C117_slope_violated",
    "Surfalize.Props.C117_functional_violated",
    "Surfalize.Props.C117_period_violated"
   ],
   "note": "Height parameters of rows and columns (C117_heights) and extracted profiles with any averaging (C117_profile, C117_profile_y) are those of the profile. The code violates the rest: Sdq is Rdq times sqrt((n-1)/n) (C117_slope_violated), Smc differs from Rmc (C117_functional_violated), the surface period is (n-1)/n times the profile period (C117_period_violated)."
  },
  {
   "property": "C118",
   "status": "partial",
   "theorems": [
    "Surfalize.Props.C118_center",
    "Surfalize.Props.C118_zero",
    "Surfalize.Props.C118_invert",
    "Surfalize.Props.C118_threshold",
    "Surfalize.Props.C118_detrend",
    "Surfalize.Props.C118_outliers",
    "Surfalize.Props.C118_filter",
    "Surfalize.Props.C118_crop",
    "Surfalize.Props.C118_zoom_partial",
    "Surfalize.Props.C118_zoom_violated",
    "Surfalize.Props.C118_fill_partial",
    "Surfalize.Props.C118_fill_violated",
    "Surfalize.Props.C118_center_units",
    "Surfalize.Props.C118_zero_units",
    "Surfalize.Props.C118_invert_units",
    "Surfalize.Props.C118_threshold_units",
    "Surfalize.Props.C118_detrend_units",
    "Surfalize.Props.C118_fill_units",
    "Surfalize.Props.C118_outliers_units",
    "Surfalize.Props.C118_filter_units_partial",
    "Surfalize.Props.C118_filter_lateral",
    "Surfalize.Props.C118_filter_datum_violated"
   ],
   "note": "Proved in full for center, zero, invert, threshold, remove_outliers, detrending and crop. zoom by an even number of left-out points keeps one more point on one side (C118_zoom_violated), fill_nonmeasured decides ties by position (C118_fill_violated), and filter with zeros beyond the ends depends on the datum (C118_filter_datum_violated); elsewhere they satisfy it."
  },
  {
   "property": "C119",
   "status": "partial",
   "theorems": [
    "Surfalize.Props.C119_center_zero",
    "Surfalize.Props.C119_zero_center",
    "Surfalize.Props.C119_detrend_shift",
    "Surfalize.Props.C119_center_detrend",
    "Surfalize.Props.C119_detrend_detrend",
    "Surfalize.Props.C119_filters_partial",
    "Surfalize.Props.C119_profile_filters_partial",
    "Surfalize.Props.C119_filters_violated",
    "Surfalize.Props.C119_center_filter_partial"
   ],
   "note": "proved for reflect (default), mirror and wrap; for endeffect_mode 'constant' and 'nearest' two low-pass filters do not commute (C119_filters_violated)"
  },
  {
   "property": "C12",
   "status": "proved",
   "theorems": [
    "Surfalize.Props.C12_validation",
    "Surfalize.Props.C12_complement",
    "Surfalize.Props.C12_both",
    "Surfalize.Props.C12_bandpass"
   ],
   "note": "For every smoothing kernel (parameter), 1-d and 2-d data."
  },
  {
   "property": "C120",
   "status": "partial",
   "theorems": [
    "Surfalize.Props.C120_refused",
    "Surfalize.Props.C120_accepted",
    "Surfalize.Props.C120_mask",
    "Surfalize.Props.C120_mask_array",
    "Surfalize.Props.C120_mask_shape",
    "Surfalize.Props.C120_slices",
    "Surfalize.Props.C120_points",
    "Surfalize.Props.C120_points_outside",
    "Surfalize.Props.C120_put_back",
    "Surfalize.Props.C120_rows",
    "Surfalize.Props.C120_mask_rows",
    "Surfalize.Props.C120_mask_rows_length",
    "Surfalize.Props.C120_no_surface",
    "Surfalize.Props.C120_slices_select",
    "Surfalize.Props.C120_rows_step_violated",
    "Surfalize.Props.C120_ellipsis_steps_violated",
    "Surfalize.Props.C120_one_tuple_violated",
    "Surfalize.Props.C120_too_many",
    "Surfalize.Props.C120_mask_matrix",
    "Surfalize.Props.C120_points_repeat"
   ],
   "note": "Assignments: proved in full. Selections: rows by lists and masks, slices and '...' proved; violated by the code: step sizes of listed rows (C120_rows_step_violated), slices behind '...' scale the wrong axis (C120_ellipsis_steps_violated), tuples of one component and the empty tuple raise IndexError (C120_one_tuple_violated). New axes, index arrays of more than one dimension and Booleans as indices are not modelled."
  },
  {
   "property": "C121",
   "status": "partial",
   "theorems": [
    "Surfalize.Props.C121_listing",
    "Surfalize.Props.C121_no_connection",
    "Surfalize.Props.C121_load_partial",
    "Surfalize.Props.C121_probe_violated",
    "Surfalize.Props.C121_misnamed_violated"
   ],
   "note": "Listing proved; loading proved for files readable in the format of their suffix and for files without suffix that begin with a magic number. Violated: an example is never probed (C121_probe_violated) and a misnamed example is not recognised by its content (C121_misnamed_violated), while the same file on disk is read."
  },
  {
   "property": "C122",
   "status": "partial",
   "theorems": [
    "Surfalize.Props.C122_warns",
    "Surfalize.Props.C122_scale_violated"
   ],
   "note": "The condition for the warning is proved. Violated: the tolerance is absolute, so for every ratio of the steps there are surfaces without a warning, and for every ratio other than 1 surfaces with one (C122_scale_violated)."
  },
  {
   "property": "C123",
   "status": "proved",
   "theorems": [
    "Surfalize.Props.C123_formats",
    "Surfalize.Props.C123_groups",
    "Surfalize.Props.C123_package",
    "Surfalize.Props.C123_writer"
   ],
   "note": "Functions are known by identity; sets as duplicate-free lists."
  },
  {
   "property": "C124",
   "status": "partial",
   "theorems": [
    "Surfalize.Props.C124_silent",
    "Surfalize.Props.C124_warned",
    "Surfalize.Props.C124_buffer",
    "Surfalize.Props.C124_damaged_partial",
    "Surfalize.Props.C124_own_format_violated"
   ],
   "note": "Violated for damaged FITS, VK6 and VK7 files with the right name: their _suffix is the tuple of suffixes, never equal to the suffix, so a warning says they are of another type. Everything else proved; buffers never warn."
  },
  {
   "property": "C125",
   "status": "partial",
   "theorems": [
    "Surfalize.Props.C125_lying_partial",
    "Surfalize.Props.C125_units_partial",
    "Surfalize.Props.C125_lying_violated",
    "Surfalize.Props.C125_datum_violated",
    "Surfalize.Props.C125_solver_exists"
   ],
   "note": "Proved when the upper level contains three points not on one line. Violated otherwise: numpy's solver returns the plane with the smallest coefficients, which depends on the position of the origin and on the datum (C125_lying_violated, C125_datum_violated); C125_solver_exists shows that the assumptions on the solver can be met."
  },
  {
   "property": "C126",
   "status": "partial",
   "theorems": [
    "Surfalize.Props.C126_untouched",
    "Surfalize.Props.C126_cut",
    "Surfalize.Props.C126_entry_partial",
    "Surfalize.Props.C126_next_violated",
    "Surfalize.Props.C126_prose_violated"
   ],
   "note": "Proved for entries followed by a line at the left margin or an empty line. Violated: in texts that keep their common indentation (Python before 3.13) all entries that follow directly are lost, as endeffect_mode of filter (C126_next_violated, example); sentences that mention the parameter are cut (C126_prose_violated). C126_cut says exactly what is removed."
  },
  {
   "property": "C127",
   "status": "partial",
   "theorems": [
    "Surfalize.Props.C127_aligned_partial",
    "Surfalize.Props.C127_refined_partial",
    "Surfalize.Props.C127_axis",
    "Surfalize.Props.C127_stretched_violated",
    "Surfalize.Props.C127_rotation_exists",
    "Surfalize.Props.C127_errors"
   ],
   "note": "Proved for every grating on arrays not wider than high (and not too narrow), both axes: coarse method if the surface's width is to its height as the numbers of points; refined (default) method for all steps, under C88's conditions. Violated by the coarse method in all other cases on such arrays (C127_stretched_violated): the angle is measured on the surface but the array is turned as if its points were square, so every oblique grating stays oblique. Wide arrays are not covered (see C71_wide_violated)."
  },
  {
   "property": "C13",
   "status": "proved",
   "theorems": [
    "Surfalize.Props.C13_cutoff",
    "Surfalize.Props.C13_transmission"
   ],
   "note": "Exact continuous Gaussian; the kernel as implemented (sampled, truncated) is treated in C96."
  },
  {
   "property": "C14",
   "status": "proved",
   "theorems": [
    "Surfalize.Props.C14_success",
    "Surfalize.Props.C14_definitions",
    "Surfalize.Props.C14_ordering",
    "Surfalize.Props.C14_failure"
   ],
   "note": "All non-empty fully measured 2-d arrays, exact reals."
  },
  {
   "property": "C15",
   "status": "proved",
   "theorems": [
    "Surfalize.Props.C15_offset",
    "Surfalize.Props.C15_scale",
    "Surfalize.Props.C15_invert"
   ],
   "note": "Offset, positive scaling and invert."
  },
  {
   "property": "C16",
   "status": "proved",
   "theorems": [
    "Surfalize.Props.C16_kurtosis"
   ],
   "note": "Power-mean inequality for every non-flat surface."
  },
  {
   "property": "C17",
   "status": "proved",
   "theorems": [
    "Surfalize.Props.C17_arrangement",
    "Surfalize.Props.C17_flip",
    "Surfalize.Props.C36_arrangement",
    "Surfalize.Props.C17_functional_parameters",
    "Surfalize.Props.C72_order"
   ],
   "note": "Height parameters, Abbott curve with all functional and volume parameters, and the Otsu threshold, for every permutation."
  },
  {
   "property": "C18",
   "status": "proved",
   "theorems": [
    "Surfalize.Props.C18_sections"
   ],
   "note": "np.array_split modelled; every profile and every n_sections."
  },
  {
   "property": "C19",
   "status": "partial",
   "theorems": [
    "Surfalize.Props.C19_bounds",
    "Surfalize.Props.C19_rz_partial",
    "Surfalize.Props.C19_one_section",
    "Surfalize.Props.C19_rz_not_rp_plus_rv",
    "Surfalize.Props.C19_ra_le_rq",
    "Surfalize.Props.C19_profile_is_one_row_surface"
   ],
   "note": "All orderings proved; the clause Rz = Rp + Rv is false of the code for more than one section (C19_rz_not_rp_plus_rv), proved for one section."
  },
  {
   "property": "C20",
   "status": "partial",
   "theorems": [
    "Surfalize.Props.C20_pointwise",
    "Surfalize.Props.C20_division_partial",
    "Surfalize.Props.C20_zero_divisor",
    "Surfalize.Props.C20_dimension_check",
    "Surfalize.Props.C20_cancel",
    "Surfalize.Props.C20_scalar"
   ],
   "note": "+,-,* pointwise, dimension checks, cancellation and scalars proved; division produces non-numbers at zero divisors (C20_zero_divisor), proved elsewhere."
  },
  {
   "property": "C21",
   "status": "partial",
   "theorems": [
    "Surfalize.Props.C21_eq_iff",
    "Surfalize.Props.C21_refl_symm_partial",
    "Surfalize.Props.C21_not_transitive",
    "Surfalize.Props.C21_hash_incompatible"
   ],
   "note": "Exact meaning of ==, reflexivity, symmetry, mask awareness proved; transitivity and hash compatibility are false of the code (C21_not_transitive, C21_hash_incompatible)."
  },
  {
   "property": "C22",
   "status": "partial",
   "theorems": [
    "Surfalize.Props.C22_crop_px",
    "Surfalize.Props.C22_crop_px_error_partial",
    "Surfalize.Props.C22_crop_units",
    "Surfalize.Props.C22_crop_profile",
    "Surfalize.Props.C22_crop_accepts_inverted_box",
    "Surfalize.Props.C22_crop_profile_units"
   ],
   "note": "Block, unit boxes and the exact error condition proved. 'Any box not inside raises' is false of the code for boxes ending before pixel 0 (negation proved)."
  },
  {
   "property": "C23",
   "status": "proved",
   "theorems": [
    "Surfalize.Props.C23_zoom",
    "Surfalize.Props.C23_zoom_profile",
    "Surfalize.Props.C23_zoom_below_one_not_centred"
   ],
   "note": ""
  },
  {
   "property": "C24",
   "status": "proved",
   "theorems": [
    "Surfalize.Props.C24_slice_points",
    "Surfalize.Props.C24_slice_steps",
    "Surfalize.Props.C24_slice_rows",
    "Surfalize.Props.C24_int_index_error",
    "Surfalize.Props.C24_negative_step_size"
   ],
   "note": "Slices with any start/stop/step (masks, index arrays and ...: C120). Finding: negative slice steps give negative step sizes."
  },
  {
   "property": "C25",
   "status": "partial",
   "theorems": [
    "Surfalize.Props.C25_horizontal_partial",
    "Surfalize.Props.C25_vertical_partial",
    "Surfalize.Props.C25_outside_error",
    "Surfalize.Props.C25_average_odd",
    "Surfalize.Props.C25_last_row_is_nan",
    "Surfalize.Props.C25_last_column_is_nan",
    "Surfalize.Props.C25_average_even_uses_one_more",
    "Surfalize.Props.C25_not_nearest"
   ],
   "note": "Proved for all rows but the last and odd averaging; last row/column, even averaging and nearest-rounding are violated by the code (negations proved)."
  },
  {
   "property": "C26",
   "status": "partial",
   "theorems": [
    "Surfalize.Props.C26_oblique_partial",
    "Surfalize.Props.C26_oblique_ignores_offset",
    "Surfalize.Props.C26_vertical_segment_fails",
    "Surfalize.Props.C26_inside",
    "Surfalize.Props.C26_outside"
   ],
   "note": "Characterised exactly: right iff the line passes through the origin; offset ignored and vertical segments fail (negations proved)."
  },
  {
   "property": "C27",
   "status": "proved",
   "theorems": [
    "Surfalize.Props.C27_surface",
    "Surfalize.Props.C27_level",
    "Surfalize.Props.C27_profile",
    "Surfalize.Props.C27_defined",
    "Surfalize.Props.C27_solver_exists",
    "Surfalize.Props.C27_level_profile"
   ],
   "note": "Any least-squares solver returning a minimiser; existence of such a solver proved (C27_solver_exists). 1-D for >=2 points."
  },
  {
   "property": "C28",
   "status": "proved",
   "theorems": [
    "Surfalize.Props.C28_blind",
    "Surfalize.Props.C28_idempotent",
    "Surfalize.Props.C28_mean_zero",
    "Surfalize.Props.C28_profile"
   ],
   "note": "Exact arithmetic; residual mean 0 for all data, no rank assumption."
  },
  {
   "property": "C29",
   "status": "proved",
   "theorems": [
    "Surfalize.Props.C29_heights",
    "Surfalize.Props.C29_object",
    "Surfalize.Props.C29_profile",
    "Surfalize.Props.C29_pick_exists"
   ],
   "note": "Nearest-neighbour search is a parameter with ties open; existence proved."
  },
  {
   "property": "C30",
   "status": "partial",
   "theorems": [
    "Surfalize.Props.C30_straight_partial",
    "Surfalize.Props.C30_not_identity"
   ],
   "note": "Property is false of the code: rotate(0) drops the first row and column (C30_not_identity); steps are kept exactly at 0/180 degrees."
  },
  {
   "property": "C31",
   "status": "partial",
   "theorems": [
    "Surfalize.Props.C31_area_ge_projected",
    "Surfalize.Props.C31_flat_partial",
    "Surfalize.Props.C31_corner_ignored",
    "Surfalize.Props.C31_sdr_pos",
    "Surfalize.Props.C31_plane_partial",
    "Surfalize.Props.C31_plane_wrong_for_unequal_steps"
   ],
   "note": "Area >= projected area; Sdr strictly positive (>=3x3). 'Sdr=0 iff flat' is refuted for every surface (C31_sdr_pos), the plane area is proved for equal steps and refuted for unequal steps, and the last corner is shown to be ignored."
  },
  {
   "property": "C32",
   "status": "proved",
   "theorems": [
    "Surfalize.Props.C32_offset",
    "Surfalize.Props.C32_scale",
    "Surfalize.Props.C32_zero_iff_flat",
    "Surfalize.Props.C32_le_rms_slope",
    "Surfalize.Props.C32_rdq"
   ],
   "note": "Sdq and Rdq for all fully measured data."
  },
  {
   "property": "C33",
   "status": "partial",
   "theorems": [
    "Surfalize.Props.C33_range",
    "Surfalize.Props.C33_one_iff_equal",
    "Surfalize.Props.C33_order",
    "Surfalize.Props.C33_scale_partial",
    "Surfalize.Props.C33_reported",
    "Surfalize.Props.C33_equal_cells",
    "Surfalize.Props.C33_cells",
    "Surfalize.Props.C33_scale_fails_when_rounded",
    "Surfalize.Props.C33_period_below_one_pixel",
    "Surfalize.Props.C33_nan_cell",
    "Surfalize.Props.C33_flat_cell_violated",
    "Surfalize.Props.C33_names"
   ],
   "note": "All four parts hold for the unrounded index of a value list (the code's Gini/Lorenz computation); the number homogeneity() reports is rounded (values to 8, result to 4 digits) and stays in [0,1], but scaling invariance fails through that rounding (C33_scale_fails_when_rounded). A cell with all heights equal makes the result NaN (C33_flat_cell_violated)."
  },
  {
   "property": "C34",
   "status": "proved",
   "theorems": [
    "Surfalize.Props.C34_threshold",
    "Surfalize.Props.C34_classes",
    "Surfalize.Props.C34_stepheight",
    "Surfalize.Props.C34_undefined",
    "Surfalize.Props.C34_affine",
    "Surfalize.Props.C34_arrangement"
   ],
   "note": "For every ordered field, every data set. Also: NaN exactly on flat surfaces or surfaces with missing points; equivariance; independence of arrangement."
  },
  {
   "property": "C35",
   "status": "proved",
   "theorems": [
    "Surfalize.Props.C35_value",
    "Surfalize.Props.C35_undefined",
    "Surfalize.Props.C35_nonneg",
    "Surfalize.Props.C35_antitone",
    "Surfalize.Props.C35_steps",
    "Surfalize.Props.C35_affine",
    "Surfalize.Props.C35_arrangement",
    "Surfalize.Props.C35_unit"
   ],
   "note": "C35_undefined: flat surfaces and surfaces with missing points silently give 0."
  },
  {
   "property": "C36",
   "status": "proved",
   "theorems": [
    "Surfalize.Props.C36_curve",
    "Surfalize.Props.C36_material_ratio",
    "Surfalize.Props.C36_arrangement",
    "Surfalize.Props.C36_missing",
    "Surfalize.Props.C36_defined"
   ],
   "note": "Any number of classes n >= 2; also the counting meaning of the ratio."
  },
  {
   "property": "C37",
   "status": "partial",
   "theorems": [
    "Surfalize.Props.C37_smc",
    "Surfalize.Props.C37_smc_bounds",
    "Surfalize.Props.C37_smr_range",
    "Surfalize.Props.C37_smr_antitone_across",
    "Surfalize.Props.C37_distinct",
    "Surfalize.Props.C37_smr_partial",
    "Surfalize.Props.C37_plateau"
   ],
   "note": "Smc: all data. Smr: all data for the range and for monotonicity across plateaus; monotone/inverse/end values proved for curves without plateaus (implied by distinct heights). On plateaus the property is false of the code (C37_plateau)."
  },
  {
   "property": "C38",
   "status": "proved",
   "theorems": [
    "Surfalize.Props.C38_window"
   ],
   "note": "Includes which points enter the least squares line."
  },
  {
   "property": "C39",
   "status": "partial",
   "theorems": [
    "Surfalize.Props.C39_sk",
    "Surfalize.Props.C39_pk_vk",
    "Surfalize.Props.C39_extreme",
    "Surfalize.Props.C39_smr_order_partial",
    "Surfalize.Props.C39_smr_order_fails"
   ],
   "note": "Everything for all data (n >= 4 classes) except Smr1 <= Smr2, which is proved for curves without plateaus and false of the code on plateaus (C39_smr_order_fails)."
  },
  {
   "property": "C40",
   "status": "proved",
   "theorems": [
    "Surfalize.Props.C40_sdc"
   ],
   "note": ""
  },
  {
   "property": "C41",
   "status": "proved",
   "theorems": [
    "Surfalize.Props.C41_volumes",
    "Surfalize.Props.C41_ends"
   ],
   "note": ""
  },
  {
   "property": "C42",
   "status": "proved",
   "theorems": [
    "Surfalize.Props.C42_mean_of_products",
    "Surfalize.Props.C42_symmetric",
    "Surfalize.Props.C42_bound",
    "Surfalize.Props.C42_missing",
    "Surfalize.Props.C42_zero_lag",
    "Surfalize.Props.C42_unweighted_exceeds"
   ],
   "note": "fftconvolve is taken as exact linear convolution. C42_unweighted_exceeds shows the unweighted values may exceed the zero-lag one."
  },
  {
   "property": "C43",
   "status": "proved",
   "theorems": [
    "Surfalize.Props.C43_argsort_exists",
    "Surfalize.Props.C43_consistent",
    "Surfalize.Props.C43_errors"
   ],
   "note": "For every index order np.argsort may return."
  },
  {
   "property": "C44",
   "status": "proved",
   "theorems": [
    "Surfalize.Props.C44_bins",
    "Surfalize.Props.C44_power",
    "Surfalize.Props.C44_errors",
    "Surfalize.Props.C44_std",
    "Surfalize.Props.C44_grating"
   ],
   "note": "Exact arithmetic: bin boundaries as real numbers."
  },
  {
   "property": "C45",
   "status": "partial",
   "theorems": [
    "Surfalize.Props.C45_normalised",
    "Surfalize.Props.C45_extrema_partial",
    "Surfalize.Props.C45_negative_period"
   ],
   "note": "Proved for positive fitted periods; the fit is unbounded and a negative period gives positions <= 0 (C45_negative_period), so the range claim is false of the code in general."
  },
  {
   "property": "C46",
   "status": "proved",
   "theorems": [
    "Surfalize.Props.C46_sort_exists",
    "Surfalize.Props.C46_samples",
    "Surfalize.Props.C46_linear",
    "Surfalize.Props.C46_outside",
    "Surfalize.Props.C46_range",
    "Surfalize.Props.C46_monotone",
    "Surfalize.Props.C46_order",
    "Surfalize.Props.C46_ties_order_matters",
    "Surfalize.Props.C46_argclosest"
   ],
   "note": "The order np.argsort gives to ties is open; with distinct abscissae the result does not depend on it (C46_order), with ties it does (C46_ties_order_matters)."
  },
  {
   "property": "C47",
   "status": "partial",
   "theorems": [
    "Surfalize.Props.C47_positions_partial",
    "Surfalize.Props.C47_nan_empty"
   ],
   "note": "Proved for arrays of numbers; one NaN makes both return an empty list (C47_nan_empty)."
  },
  {
   "property": "C48",
   "status": "proved",
   "theorems": [
    "Surfalize.Props.C48_any_schedule",
    "Surfalize.Props.C48_delivered_so_far",
    "Surfalize.Props.C48_same_rows",
    "Surfalize.Props.C48_failure",
    "Surfalize.Props.C48_finishes",
    "Surfalize.Props.C48_table"
   ],
   "note": "Thread pool as arbitrary interleaving of per-file work items over the cached-object model; queue is always a permutation of the per-file outcomes; termination; table equality up to row order"
  },
  {
   "property": "C49",
   "status": "proved",
   "theorems": [
    "Surfalize.Props.C49_row",
    "Surfalize.Props.C49_sites_chained",
    "Surfalize.Props.C49_sites_unordered",
    "Surfalize.Props.C49_cell",
    "Surfalize.Props.C49_row_columns",
    "Surfalize.Props.C49_file_column"
   ],
   "note": "row = evaluation from scratch on the heights transformed by the preceding operations (via the cache model, for key-faithful classes below the recursion limit)"
  },
  {
   "property": "C50",
   "status": "partial",
   "theorems": [
    "Surfalize.Props.C50_duplicate_rejected_partial",
    "Surfalize.Props.C50_accepted",
    "Surfalize.Props.C50_operations_repeat",
    "Surfalize.Props.C50_history",
    "Surfalize.Props.C50_custom_name",
    "Surfalize.Props.C50_fixed_arguments",
    "Surfalize.Props.C50_no_steps",
    "Surfalize.Props.C50_bulk",
    "Surfalize.Props.C50_custom_duplicate_wrong_error",
    "Surfalize.Props.C50_bulk_not_atomic"
   ],
   "note": "violated by custom parameters (AttributeError instead of BatchError) and roughness_parameters is not atomic"
  },
  {
   "property": "C51",
   "status": "partial",
   "theorems": [
    "Surfalize.Props.C51_failure_single_partial",
    "Surfalize.Props.C51_failure_labels_partial",
    "Surfalize.Props.C51_values",
    "Surfalize.Props.C51_values_columns",
    "Surfalize.Props.C51_same_columns",
    "Surfalize.Props.C51_not_ignored",
    "Surfalize.Props.C51_other_errors_raised",
    "Surfalize.Props.C51_cell_nan",
    "Surfalize.Props.C51_custom_violates"
   ],
   "note": "violated by custom parameters (UnboundLocalError); only CalculationError is ignored"
  },
  {
   "property": "C52",
   "status": "partial",
   "theorems": [
    "Surfalize.Props.C52_plain",
    "Surfalize.Props.C52_join_rows_partial",
    "Surfalize.Props.C52_files",
    "Surfalize.Props.C52_both_columns",
    "Surfalize.Props.C52_join_count",
    "Surfalize.Props.C52_shared_columns",
    "Surfalize.Props.C52_empty_batch_raises"
   ],
   "note": "empty batch with additional data raises KeyError (C52_empty_batch_raises)"
  },
  {
   "property": "C53",
   "status": "partial",
   "theorems": [
    "Surfalize.Props.C53_token_forms",
    "Surfalize.Props.C53_token_malformed_partial",
    "Surfalize.Props.C53_token_too_many_parts",
    "Surfalize.Props.C53_parse",
    "Surfalize.Props.C53_unclosed",
    "Surfalize.Props.C53_nested",
    "Surfalize.Props.C53_bad_token",
    "Surfalize.Props.C53_stray_close",
    "Surfalize.Props.C53_regex",
    "Surfalize.Props.C53_items",
    "Surfalize.Props.C53_unknown_type",
    "Surfalize.Props.C53_extracted_occurs",
    "Surfalize.Props.C53_matched",
    "Surfalize.Props.C53_roundtrip",
    "Surfalize.Props.C53_int_value",
    "Surfalize.Props.C53_float_value",
    "Surfalize.Props.C53_roundtrip_values",
    "Surfalize.Props.C53_unmatched",
    "Surfalize.Props.C53_columns"
   ],
   "note": "Parsing of tokens and templates, the generated pattern, extraction, round trip and conversion of field values are proved for every template and name. Partial because the code violates the full property: more than four token parts raise a bare ValueError, a stray closing bracket repeats the previous token, template text is not escaped (literals with regex metacharacters are outside the item model), a name without a match aborts for int columns."
  },
  {
   "property": "C54",
   "status": "proved",
   "theorems": [
    "Surfalize.Props.C54_success",
    "Surfalize.Props.C54_failure",
    "Surfalize.Props.C54_no_trace",
    "Surfalize.Props.C54_default",
    "Surfalize.Props.C54_documented",
    "Surfalize.Props.C54_documented_refused"
   ],
   "note": "For every class, history and name list; the exception is exactly that of the first name that is unavailable (ValueError) or whose method raises."
  },
  {
   "property": "C55",
   "status": "proved",
   "theorems": [
    "Surfalize.Props.C55_plan",
    "Surfalize.Props.C55_option_order",
    "Surfalize.Props.C55_filter_last",
    "Surfalize.Props.C55_no_missing",
    "Surfalize.Props.C55_unfilled",
    "Surfalize.Props.C55_sound_exists"
   ],
   "note": "For every command line giving each option at most once. Outlier removal is assumed with n >= 1 (n = 0 can remove every point, after which nothing can be filled and the filter raises)."
  },
  {
   "property": "C56",
   "status": "partial",
   "theorems": [
    "Surfalize.Props.C56_conversion_partial",
    "Surfalize.Props.C56_compose",
    "Surfalize.Props.C56_writings",
    "Surfalize.Props.C56_target_signs",
    "Surfalize.Props.C56_faithful_exists"
   ],
   "note": "str.lower on non-ASCII characters and the codec table are parameters (UnitsSpec.Faithful). Partial: as the target unit the square sign is rejected and Greek mu accepted only through the codec pair."
  },
  {
   "property": "C57",
   "status": "partial",
   "theorems": [
    "Surfalize.Props.C57_round_trip_partial",
    "Surfalize.Props.C57_offsets",
    "Surfalize.Props.C57_text_iff",
    "Surfalize.Props.C57_no_short_read",
    "Surfalize.Props.C57_reserved"
   ],
   "note": "Proved for every layout, dictionary and following bytes: fields read back as written, widths and offsets are the declared ones, text reads back iff it does not end in strip characters and is not cut inside a multi-byte character. Missing: text cut in the middle of a multi-byte character is written but cannot be read (C57_text_iff)."
  },
  {
   "property": "C58",
   "status": "partial",
   "theorems": [
    "Surfalize.Props.C58_round_trip_partial",
    "Surfalize.Props.C58_one_step_partial",
    "Surfalize.Props.C58_not_one_step",
    "Surfalize.Props.C58_flat",
    "Surfalize.Props.C58_flat_missing_lost",
    "Surfalize.Props.C58_compressed_unreadable",
    "Surfalize.Props.C58_saves"
   ],
   "note": "Step and midpoint are stored in single precision, so the one-step bound holds only when both are representable (C58_one_step_partial); the general bound has the single-precision terms added; C58_not_one_step, C58_flat_missing_lost and C58_compressed_unreadable prove where the English claim is false of the code."
  },
  {
   "property": "C59",
   "status": "partial",
   "theorems": [
    "Surfalize.Props.C59_round_trip_partial",
    "Surfalize.Props.C59_saves",
    "Surfalize.Props.C59_too_large",
    "Surfalize.Props.C59_no_points",
    "Surfalize.Props.C59_ascii_saves",
    "Surfalize.Props.C59_ascii_unreadable",
    "Surfalize.Props.C59_ascii_heights",
    "Surfalize.Props.C59_ascii_header",
    "Surfalize.Props.C59_ascii_read",
    "Surfalize.Props.C59_ascii_rest",
    "Surfalize.Props.C59_ascii_name"
   ],
   "note": "Binary variant proved (C59_round_trip_partial) to the precision of the stored doubles. The claim is false of the ASCII variant: what the writer produces the reader always rejects (C59_ascii_unreadable, C59_ascii_saves)."
  },
  {
   "property": "C60",
   "status": "proved",
   "theorems": [
    "Surfalize.Props.C60_round_trip",
    "Surfalize.Props.C60_offset"
   ],
   "note": ""
  },
  {
   "property": "C61",
   "status": "partial",
   "theorems": [
    "Surfalize.Props.C61_round_trip_partial",
    "Surfalize.Props.C61_exact",
    "Surfalize.Props.C61_comment_too_long",
    "Surfalize.Props.C61_ascii",
    "Surfalize.Props.C61_saves",
    "Surfalize.Props.C61_unreadable"
   ],
   "note": "Heights are stored in single precision after conversion to millimetres, so the round trip is exact only for representable values (C61_exact); C61_round_trip_partial gives the bound for all. A comment cut inside a multi-byte character is written but not readable (C61_unreadable)."
  },
  {
   "property": "C62",
   "status": "partial",
   "theorems": [
    "Surfalize.Props.C62_round_trip_partial",
    "Surfalize.Props.C62_unsigned_partial",
    "Surfalize.Props.C62_missing_lost",
    "Surfalize.Props.C62_signed_wrong",
    "Surfalize.Props.C62_saves",
    "Surfalize.Props.C62_no_points",
    "Surfalize.Props.C62_names_partial",
    "Surfalize.Props.C62_name_violated",
    "Surfalize.Props.C62_name_unreadable",
    "Surfalize.Props.C62_compressed",
    "Surfalize.Props.C62_names_collide",
    "Surfalize.Props.C62_dtype_names"
   ],
   "note": "Float dtypes: size, mask, steps, image layers and heights to the precision of the type, for all surfaces, compressions and both byte orders. Unsigned integers up to 4 bytes without missing points: within one quantisation step; flat surfaces exactly. The code violates the rest: C62_missing_lost (one missing point loses every height with an integer dtype), C62_signed_wrong (every height too low by more than the whole range). 8-byte integers are not covered (2^64-1 is no double; arithmetic here is exact). Layer names beyond ASCII come back cut (C62_names_partial gives what is left, C62_name_violated that it differs) or make the file unreadable (C62_name_unreadable)."
  },
  {
   "property": "C63",
   "status": "partial",
   "theorems": [
    "Surfalize.Props.C63_magic_unique",
    "Surfalize.Props.C63_asked",
    "Surfalize.Props.C63_path_magic",
    "Surfalize.Props.C63_path_probe",
    "Surfalize.Props.C63_path_iff",
    "Surfalize.Props.C63_buffer_magic_partial",
    "Surfalize.Props.C63_position_restored",
    "Surfalize.Props.C63_position_moved",
    "Surfalize.Props.C63_buffer_not_probed",
    "Surfalize.Props.C63_buffer_wrong_format",
    "Surfalize.Props.C63_plux_shadowed",
    "Surfalize.Props.C63_save_path",
    "Surfalize.Props.C63_save_format_ignored",
    "Surfalize.Props.C63_save_no_suffix",
    "Surfalize.Props.C63_save_buffer",
    "Surfalize.Props.C63_save_case",
    "Surfalize.Props.C63_register",
    "Surfalize.Props.C63_register_other",
    "Surfalize.Props.C63_register_magic",
    "Surfalize.Props.C63_documented",
    "Surfalize.Props.C63_documented_writing"
   ],
   "note": "Paths: the loading decision is characterised completely (C63_path_iff, C63_path_magic, C63_path_probe, C63_asked) for arbitrary readers and the registered suffixes and magic numbers, which are shown to be unambiguous. Buffers: recognised by magic number at the beginning, position restored when no reader failed. The code violates the rest: buffers are never probed (C63_buffer_not_probed), a wrong format argument hides the magic number of a buffer and moves the position (C63_buffer_wrong_format, C63_position_moved), PLUX archives are shadowed by X3P (C63_plux_shadowed), the format argument is ignored when saving to a path (C63_save_format_ignored, C63_save_no_suffix), saving does not lower-case (C63_save_case)."
  },
  {
   "property": "C64",
   "status": "partial",
   "theorems": [
    "Surfalize.Props.C64_gwy_tree",
    "Surfalize.Props.C64_gwy",
    "Surfalize.Props.C64_fits_header",
    "Surfalize.Props.C64_fits_endless",
    "Surfalize.Props.C64_fits_violated",
    "Surfalize.Props.C64_fits_extensions",
    "Surfalize.Props.C64_fits_partial",
    "Surfalize.Props.C102_file"
   ],
   "note": "GWY: parsing any byte string ends within one step more than there are bytes (fuel model, more steps change nothing). FITS: violated – the header loop ends exactly if a block has an END line or cannot be parsed; a file cut off within its header is never finished (C64_fits_endless, C64_fits_violated); otherwise it ends. Other readers have no loops whose end depends on the content (they are total functions in the model)."
  },
  {
   "property": "C65",
   "status": "partial",
   "theorems": [
    "Surfalize.Props.C65_round_trip_partial",
    "Surfalize.Props.C65_file_partial",
    "Surfalize.Props.C65_long_text_lost",
    "Surfalize.Props.C65_order_irrelevant",
    "Surfalize.Props.C65_choice",
    "Surfalize.Props.C65_found",
    "Surfalize.Props.C65_surface",
    "Surfalize.Props.C65_leading_zeros_lost",
    "Surfalize.Props.C65_repeated",
    "Surfalize.Props.C65_other_numbers_lost"
   ],
   "note": "Round trip of every tree with text below 4096 bytes; longer text is lost (C65_long_text_lost). Height channel independent of the order of entries and of Python's set order; which channel is chosen; heights, steps, mask. Channel numbers with leading zeros cannot be read when there are several (C65_leading_zeros_lost); a number used for a graph or a volume only makes the file unreadable (C65_other_numbers_lost). Image layers: C102."
  },
  {
   "property": "C66",
   "status": "partial",
   "theorems": [
    "Surfalize.Props.C66_dat",
    "Surfalize.Props.C66_dat_reads",
    "Surfalize.Props.C66_dat_images",
    "Surfalize.Props.C66_dat_invalid_intensity",
    "Surfalize.Props.C66_fits_partial",
    "Surfalize.Props.C66_fits_unit_y_ignored",
    "Surfalize.Props.C66_nms_partial",
    "Surfalize.Props.C66_nms_violated",
    "Surfalize.Props.C66_nms_reads",
    "Surfalize.Props.C66_nms_images",
    "Surfalize.Props.C66_xyz_order",
    "Surfalize.Props.C66_xyz_partial",
    "Surfalize.Props.C66_xyz_violated",
    "Surfalize.Props.C66_xyz_transposed",
    "Surfalize.Props.C66_xyz_incomplete",
    "Surfalize.Props.C66_opd",
    "Surfalize.Props.C66_opd_image",
    "Surfalize.Props.C66_opd_same_name",
    "Surfalize.Props.C66_xyz_no_table",
    "Surfalize.Props.C66_fits_file_partial",
    "Surfalize.Props.C66_opd_array_size",
    "Surfalize.Props.C66_fits_lines_violated"
   ],
   "note": "DAT: heights and both steps follow the header's scale, obliquity and camera resolution, invalid points exactly (full). OPD: steps, heights and invalid points follow the blocks for files with distinct block names (full); two blocks of one name derail all offsets (C66_opd_same_name). FITS: unit factors for heights and steps; the unit of the second axis is ignored (C66_fits_unit_y_ignored), and a HISTORY line or a value with an equals sign makes the file unreadable (C66_fits_lines_violated). NMS: heights are zmax + raw*(zmax-zmin)/65534, i.e. all lie above the stated range (C66_nms_violated). XYZ: the step is d*(n-1)/n, violated (C66_xyz_violated); the order of the points is not checked (C66_xyz_order/transposed)."
  },
  {
   "property": "C67",
   "status": "partial",
   "theorems": [
    "Surfalize.Props.C67_sur",
    "Surfalize.Props.C67_sur_compressed",
    "Surfalize.Props.C67_al3d",
    "Surfalize.Props.C67_sdf_integers",
    "Surfalize.Props.C67_sdf_doubles",
    "Surfalize.Props.C66_dat",
    "Surfalize.Props.C66_opd",
    "Surfalize.Props.C67_plu",
    "Surfalize.Props.C67_plu_reads",
    "Surfalize.Props.C67_plu_images",
    "Surfalize.Props.C67_fits_mask_lost",
    "Surfalize.Props.C66_fits_file_partial",
    "Surfalize.Props.C67_fits_file_mask_lost",
    "Surfalize.Props.C80_vk4",
    "Surfalize.Props.C80_vk4_info",
    "Surfalize.Props.C80_vk4_images",
    "Surfalize.Props.C80_vk4_reads",
    "Surfalize.Props.C80_vk4_corrupt",
    "Surfalize.Props.C80_vk67",
    "Surfalize.Props.C82_zmg",
    "Surfalize.Props.C82_zmg_reads",
    "Surfalize.Props.C82_zmg_magic",
    "Surfalize.Props.C83_os3d",
    "Surfalize.Props.C83_os3d_reads",
    "Surfalize.Props.C83_os3d_magic",
    "Surfalize.Props.C84_plux",
    "Surfalize.Props.C84_plux_reads",
    "Surfalize.Props.C84_plux_info",
    "Surfalize.Props.C84_plux_layer",
    "Surfalize.Props.C84_plux_images",
    "Surfalize.Props.C85_x3p_partial",
    "Surfalize.Props.C85_x3p_reads",
    "Surfalize.Props.C85_x3p_checksum",
    "Surfalize.Props.C85_x3p_members",
    "Surfalize.Props.C85_x3p_metadata",
    "Surfalize.Props.C85_x3p_violated",
    "Surfalize.Props.C67_sur_kinds"
   ],
   "note": "SUR (plain and compressed), AL3D, SDF (integers, doubles), DAT, OPD, PLU, VK, ZMG, OS3D, PLUX and X3P floating-point heights proved for all raw data (C80, C82-C85). FITS loses the mask when it follows data that fills its blocks exactly (C67_fits_mask_lost); SUR adds the offset in um whatever the unit; X3P integer heights are not scaled (C85_x3p_violated)."
  },
  {
   "property": "C68",
   "status": "partial",
   "theorems": [
    "Surfalize.Props.C68_own_parameters_partial",
    "Surfalize.Props.C68_foreign_mask",
    "Surfalize.Props.C93_edited_copy_violated"
   ],
   "note": "Violated by the code: the returned surface carries the mask of the original heights (surface.py:811), witness C68_foreign_mask. The aliasing of two copying calls (the result object itself is cached) is recorded in DESIGN.md."
  },
  {
   "property": "C69",
   "status": "partial",
   "theorems": [
    "Surfalize.Props.C69_depth_partial",
    "Surfalize.Props.C69_two_profiles_fail",
    "Surfalize.Props.C69_errors"
   ],
   "note": "IndexError exactly when (nprofiles-1) divides the number of available profiles; nprofiles=2 always fails (C69_two_profiles_fail), so the property is false of the code."
  },
  {
   "property": "C70",
   "status": "partial",
   "theorems": [
    "Surfalize.Props.C70_assignment",
    "Surfalize.Props.C70_partial",
    "Surfalize.Props.C70_crop_not_editable",
    "Surfalize.Props.C70_violated"
   ],
   "note": "Assignments s[item]=z with integer and slice indices: exact success condition and exact effect for every history (C70_assignment); every surface obtained without crop/zoom/passing .data on is editable (C70_partial). Results of crop and zoom are always read-only, so the property is false for them (C70_crop_not_editable, C70_violated)."
  },
  {
   "property": "C71",
   "status": "partial",
   "theorems": [
    "Surfalize.Props.C71_crop_rectangle",
    "Surfalize.Props.C71_crop_indices",
    "Surfalize.Props.C71_inside_partial",
    "Surfalize.Props.C71_wide_partial",
    "Surfalize.Props.C71_wide_violated",
    "Surfalize.Props.C71_zero_exists"
   ],
   "note": "Continuous crop rectangle for the exact bounding size, pixel indices, and (C71_inside_partial) every kept pixel of an array not wider than high shows a place inside the original, however the turned shape is rounded. Violated by wide arrays: the crop is computed from the rounded shape and may keep points off the surface (C71_wide_violated: a flat 11x18 surface at height 1 turned by 73.7 degrees shows a height 0), but never by a pixel or more (C71_wide_partial). Interpolation is idealised."
  },
  {
   "property": "C72",
   "status": "proved",
   "theorems": [
    "Surfalize.Props.C72_optimal",
    "Surfalize.Props.C72_affine",
    "Surfalize.Props.C72_order",
    "Surfalize.Props.C72_threshold_not_cut"
   ],
   "note": "Optimality is that of the cut at the upper edge of the chosen bin; the returned number is the centre of that bin (C72_threshold_not_cut shows a value classified differently)."
  },
  {
   "property": "C73",
   "status": "proved",
   "theorems": [
    "Surfalize.Props.C73_level",
    "Surfalize.Props.C73_mean"
   ],
   "note": "np.linalg.lstsq is a parameter assumed to return a minimiser (exists: C27_solver_exists)."
  },
  {
   "property": "C74",
   "status": "proved",
   "theorems": [
    "Surfalize.Props.C74_affine",
    "Surfalize.Props.C74_sort_exists"
   ],
   "note": "numpy's sort assumed to depend only on comparisons (satisfiable: C74_sort_exists); n >= 4 classes."
  },
  {
   "property": "C75",
   "status": "proved",
   "theorems": [
    "Surfalize.Props.C75_sal",
    "Surfalize.Props.C75_flat",
    "Surfalize.Props.C75_affine",
    "Surfalize.Props.C75_spline"
   ],
   "note": "ndimage.label/binary_dilation modelled by 4-connectivity; of the interpolation along the line only the length (1000) and, for C75_affine, homogeneity is assumed; C75_spline proves both for the cubic spline of map_coordinates."
  },
  {
   "property": "C76",
   "status": "partial",
   "theorems": [
    "Surfalize.Props.C76_grating_partial",
    "Surfalize.Props.C76_period_too_small"
   ],
   "note": "The period is the grating's period computed with the extents (n-1)*step instead of n*step: C76_period_too_small shows it is off by (n-1)/n for every axis-parallel grating, so the property itself is false of the code."
  },
  {
   "property": "C77",
   "status": "proved",
   "theorems": [
    "Surfalize.Props.C77_depth_bounded"
   ],
   "note": "For every behaviour of the optimiser."
  },
  {
   "property": "C78",
   "status": "proved",
   "theorems": [
    "Surfalize.Props.C78_window",
    "Surfalize.Props.C78_interval",
    "Surfalize.Props.C78_aspect_ratio",
    "Surfalize.Props.C78_aspect_ratio_error"
   ],
   "note": ""
  },
  {
   "property": "C79",
   "status": "partial",
   "theorems": [
    "Surfalize.Props.C79_refused_partial",
    "Surfalize.Props.C79_success",
    "Surfalize.Props.C79_failed_save_destroys",
    "Surfalize.Props.C79_failed_save_buffer"
   ],
   "note": "Holds for saves refused because of the suffix or format (C79_refused_partial) and for successful saves (C79_success). The code violates the rest: a writer that fails destroys the file, C79_failed_save_destroys; the same for a buffer, whose position moves too, C79_failed_save_buffer."
  },
  {
   "property": "C80",
   "status": "proved",
   "theorems": [
    "Surfalize.Props.C80_vk4",
    "Surfalize.Props.C80_vk4_info",
    "Surfalize.Props.C80_vk4_images",
    "Surfalize.Props.C80_vk4_reads",
    "Surfalize.Props.C80_vk4_corrupt",
    "Surfalize.Props.C80_vk67"
   ],
   "note": "Exact arithmetic; PIL/zip decoding of the VK6/7 container as modelled in Model/Vk."
  },
  {
   "property": "C81",
   "status": "partial",
   "theorems": [
    "Surfalize.Props.C81_partial",
    "Surfalize.Props.C81_utf8",
    "Surfalize.Props.C81_violated"
   ],
   "note": "Only texts of characters below 256 with encoding 'auto' come back (C81_partial); UTF-8 refuses every other character than ASCII (C81_utf8), and characters from 256 to 2047 come back wrong (C81_violated)."
  },
  {
   "property": "C82",
   "status": "proved",
   "theorems": [
    "Surfalize.Props.C82_zmg",
    "Surfalize.Props.C82_zmg_reads",
    "Surfalize.Props.C82_zmg_magic"
   ],
   "note": "Exact arithmetic; distances that are not finite are an error in the model."
  },
  {
   "property": "C83",
   "status": "proved",
   "theorems": [
    "Surfalize.Props.C83_os3d",
    "Surfalize.Props.C83_os3d_reads",
    "Surfalize.Props.C83_os3d_magic"
   ],
   "note": "The threshold is the single-precision number nearest to -3e38."
  },
  {
   "property": "C84",
   "status": "proved",
   "theorems": [
    "Surfalize.Props.C84_plux",
    "Surfalize.Props.C84_plux_reads",
    "Surfalize.Props.C84_plux_info",
    "Surfalize.Props.C84_plux_layer",
    "Surfalize.Props.C84_plux_images"
   ],
   "note": "zipfile, XML parser, date parser are parameters. C84_plux_images: asking for images makes a file without one unreadable (UnboundLocalError)."
  },
  {
   "property": "C85",
   "status": "partial",
   "theorems": [
    "Surfalize.Props.C85_x3p_partial",
    "Surfalize.Props.C85_x3p_reads",
    "Surfalize.Props.C85_x3p_checksum",
    "Surfalize.Props.C85_x3p_members",
    "Surfalize.Props.C85_x3p_metadata",
    "Surfalize.Props.C85_x3p_violated"
   ],
   "note": "Proved: checksum, sizes, distances, floating-point heights, metadata. Missing: integer heights ignore sign and increment of the vertical axis (C85_x3p_violated)."
  },
  {
   "property": "C86",
   "status": "partial",
   "theorems": [
    "Surfalize.Props.C86_file_partial",
    "Surfalize.Props.C86_file_violated",
    "Surfalize.Props.C86_dir_partial",
    "Surfalize.Props.C86_dir_stops",
    "Surfalize.Props.C86_dir_violated",
    "Surfalize.Props.C86_same_dir_violated",
    "Surfalize.Props.C86_options"
   ],
   "note": "Proved: one file whose output exists or whose suffix is --format; directories into another directory (last file of a stem wins, the rest of the file system unchanged), and where an unreadable file stops the command. The property itself is false of the code, proved: a new output that is not SUR without --format ends in a TypeError and an empty file, files with the same stem overwrite each other, in-place conversion overwrites a file before it is read."
  },
  {
   "property": "C87",
   "status": "partial",
   "theorems": [
    "Surfalize.Props.C87_partial",
    "Surfalize.Props.C87_append",
    "Surfalize.Props.C87_add",
    "Surfalize.Props.C87_violated",
    "Surfalize.Props.C87_report"
   ],
   "note": "Proved for suffixes in lower case and every iteration order of the set; order and completeness over any calls; report names. False of the code, proved: a suffix in capitals can be loaded but is not found."
  },
  {
   "property": "C88",
   "status": "partial",
   "theorems": [
    "Surfalize.Props.C88_square_partial",
    "Surfalize.Props.C88_rows",
    "Surfalize.Props.C88_columns",
    "Surfalize.Props.C88_rectangular_violated",
    "Surfalize.Props.C88_parallel_violated",
    "Surfalize.Props.C88_short_violated",
    "Surfalize.Props.C88_inside",
    "Surfalize.Props.C88_rejects",
    "Surfalize.Props.C88_recovers_exists",
    "Surfalize.Props.C88_parallel_rows_violated"
   ],
   "note": "Exact for all gratings on square points with an ideal fit (which is shown to exist), a period of at least ten points, at least five profiles and half a period of drift; never samples outside. False of the code, proved: rectangular points give the angle counted in points, gratings parallel to an axis give NaN (0/0) whatever is fitted, periods below ten points a ZeroDivisionError."
  },
  {
   "property": "C89",
   "status": "partial",
   "theorems": [
    "Surfalize.Props.C89_path",
    "Surfalize.Props.C89_buffer_partial",
    "Surfalize.Props.C89_tmd_reused_buffer",
    "Surfalize.Props.C89_sound_exists",
    "Surfalize.Props.C89_demo_holds"
   ],
   "note": "Round trip through every writable format (SUR, TMD, AL3D, SDF, SFLZ) by path and by buffer, incl. format dispatch. Fails for TMD written over a longer buffer (C89_tmd_reused_buffer proves it: the reader raises). SFLZ needs no missing points, and all need two different heights (see C58/C62 for the proved failures)."
  },
  {
   "property": "C90",
   "status": "proved",
   "theorems": [
    "Surfalize.Props.C90_same",
    "Surfalize.Props.C90_values",
    "Surfalize.Props.C90_errors"
   ],
   "note": "All functional and volume methods of Profile and Surface with defaults, values and errors. Parameters: least squares (IsLstsq), order of ties (IsSort); caching is C01."
  },
  {
   "property": "C91",
   "status": "partial",
   "theorems": [
    "Surfalize.Props.C91_index",
    "Surfalize.Props.C91_extract_partial",
    "Surfalize.Props.C91_safe",
    "Surfalize.Props.C91_errors",
    "Surfalize.Props.C91_same_name_violated",
    "Surfalize.Props.C91_one_line_violated",
    "Surfalize.Props.C91_misaligned_violated",
    "Surfalize.Props.C91_windows_violated",
    "Surfalize.Props.C91_indexed_example"
   ],
   "note": "Proved: the index lists identifiers and names line by line; every measurement whose name no later one has is written byte for byte and nothing else changes; path safety for arbitrary archives, also after a failure; errors. Missing because the code violates it: measurements with the same base name overwrite each other, two entries on one line merge, an entry without name shifts all following names, Windows paths are not taken apart on POSIX."
  },
  {
   "property": "C92",
   "status": "partial",
   "theorems": [
    "Surfalize.Props.C92_bind",
    "Surfalize.Props.C92_call_partial",
    "Surfalize.Props.C92_operations_partial",
    "Surfalize.Props.C92_positional_violated",
    "Surfalize.Props.C92_filter_violated",
    "Surfalize.Props.C92_methods",
    "Surfalize.Props.opInfo_eq"
   ],
   "note": "Argument passing is proved equal to a separate specification (C92_bind); availability for every hierarchy (C92_methods); every allowed call of every operation but filter, and of filter with at most three positional arguments, runs with the given arguments in place. False of the code: filter's endeffect_mode given by position, which the displayed signature allows, is a TypeError during execution (C92_filter_violated, C92_positional_violated in general)."
  },
  {
   "property": "C93",
   "status": "partial",
   "theorems": [
    "Surfalize.Props.C93_fresh_partial",
    "Surfalize.Props.C93_others",
    "Surfalize.Props.C93_second_inplace_noop",
    "Surfalize.Props.C93_second_inplace_violated",
    "Surfalize.Props.C93_edited_copy_violated",
    "Surfalize.Props.C93_copy_of_copy",
    "Surfalize.Props.C93_copy_violated",
    "Surfalize.Props.C93_package"
   ],
   "note": "Proved for every history in which, since the last assignment of heights, the surface was not levelled in place or by a call spelled in the same way; a levelling never changes other surfaces. False of the code: a second in-place call does nothing although levelling would change the heights (witness for every solver), a repeated copying call returns the first copy with whatever was done to it, and the copy is levelled with the original's mask."
  },
  {
   "property": "C94",
   "status": "partial",
   "theorems": [
    "Surfalize.Props.C94_dominant_partial",
    "Surfalize.Props.C94_sinusoid_partial",
    "Surfalize.Props.C94_range",
    "Surfalize.Props.C94_shallow_violated",
    "Surfalize.Props.C94_single_violated",
    "Surfalize.Props.C94_single",
    "Surfalize.Props.C94_missing",
    "Surfalize.Props.C94_profile",
    "Surfalize.Props.C94_short"
   ],
   "note": "Proved for k >= 2 periods that exceed the others and the absolute prominence 10, and for one period when the amplitude is large compared with the offset. Missing because the code violates it: shallow profiles and single periods with an offset raise IndexError (negations proved). Exact DFT; find_peaks modelled from scipy's source."
  },
  {
   "property": "C95",
   "status": "proved",
   "theorems": [
    "Surfalize.Props.C95_surface",
    "Surfalize.Props.C95_bandpass",
    "Surfalize.Props.C95_linear",
    "Surfalize.Props.C95_mirror",
    "Surfalize.Props.C95_profile",
    "Surfalize.Props.C95_small_cutoff",
    "Surfalize.Props.C95_constant_pads",
    "Surfalize.Props.C95_object"
   ],
   "note": "scipy.ndimage.gaussian_filter is modelled from its source with exact arithmetic. Findings: cutoffs below about two thirds of the steps, zero and negative cutoffs are accepted and do nothing (C95_small_cutoff); endeffect_mode='constant' assumes zeros beyond the ends, so that flat surfaces do not stay flat (C95_constant_pads); the range and shift statements exclude that mode."
  },
  {
   "property": "C96",
   "status": "proved",
   "theorems": [
    "Surfalize.Props.C96_profile",
    "Surfalize.Props.C96_surface",
    "Surfalize.Props.C96_bands"
   ],
   "note": "scipy.ndimage.gaussian_filter modelled from its source, exact arithmetic."
  },
  {
   "property": "C97",
   "status": "proved",
   "theorems": [
    "Surfalize.Props.C97_dominant_wave",
    "Surfalize.Props.C97_noise",
    "Surfalize.Props.C97_mirror",
    "Surfalize.Props.C97_transpose",
    "Surfalize.Props.C97_affine",
    "Surfalize.Props.C97_argsort_exists"
   ],
   "note": "Extents are width_um and height_um, which are one step short of the sampled period (C76). C97_affine assumes that argsort depends on comparisons only (ScaleFree); all others hold for every argsort."
  },
  {
   "property": "C98",
   "status": "partial",
   "theorems": [
    "Surfalize.Props.C98_number",
    "Surfalize.Props.C98_order",
    "Surfalize.Props.C98_table",
    "Surfalize.Props.C98_file",
    "Surfalize.Props.C98_directory",
    "Surfalize.Props.C98_stops",
    "Surfalize.Props.C98_usage",
    "Surfalize.Props.C98_flat_violated",
    "Surfalize.Props.C98_ties",
    "Surfalize.Props.C98_special"
   ],
   "note": "Violated in one point: a parameter that is not shown can prevent the report, because all 27 ISO parameters are computed; a flat surface never gets one (C98_flat_violated). Everything else is proved. Layout of the PDF and the plots are not modelled."
  },
  {
   "property": "C99",
   "status": "partial",
   "theorems": [
    "Surfalize.Props.C99_mirror_partial",
    "Surfalize.Props.C99_transpose",
    "Surfalize.Props.C99_datum",
    "Surfalize.Props.C99_unit",
    "Surfalize.Props.C99_area_not_mirror_invariant"
   ],
   "note": "Proved for Sdq, and for surface_area and Sdr under turning, inversion, datum and unit. Mirror invariance of surface_area and Sdr is false in the code (one corner of every cell is ignored): C99_area_not_mirror_invariant."
  }
 ]
}