# Axioms of the theorems in the manifest

- `Surfalize.Props.C01_cache_transparent`: propext
- `Surfalize.Props.C01_read_is_fresh`: propext
- `Surfalize.Props.C01_mutation_clears`: propext
- `Surfalize.Props.C01_second_call_hits`: propext
- `Surfalize.Props.C01_needs_faithful_keys`: none
- `Surfalize.Props.C02_failure_not_cached`: propext
- `Surfalize.Props.C02_guard_leaves_cache`: none
- `Surfalize.Props.C02_retry`: propext, Quot.sound
- `Surfalize.Props.C03_inplace_eq_copy_partial`: propext, Classical.choice, Quot.sound
- `Surfalize.Props.C03_both_not_inplace`: propext, Classical.choice, Quot.sound
- `Surfalize.Props.C93_second_inplace_violated`: propext, Classical.choice, Quot.sound
- `Surfalize.Props.C04_extents`: propext, Quot.sound
- `Surfalize.Props.C04_step_assignment_breaks`: propext, Classical.choice, Quot.sound
- `Surfalize.Props.C05_families_partial`: propext, Classical.choice, Quot.sound
- `Surfalize.Props.C05_reads_partial`: propext, Classical.choice, Quot.sound
- `Surfalize.Props.C05_operations`: propext, Classical.choice, Quot.sound
- `Surfalize.Props.C05_results`: propext, Classical.choice, Quot.sound
- `Surfalize.Props.C05_marks`: propext, Classical.choice, Quot.sound
- `Surfalize.Props.C05_no_sharing_partial`: propext, Classical.choice, Quot.sound
- `Surfalize.Props.C05_reads_current_without_edits_partial`: propext, Classical.choice, Quot.sound
- `Surfalize.Props.C05_slice_shares`: propext, Classical.choice, Quot.sound
- `Surfalize.Props.C05_crop_shares`: propext, Classical.choice, Quot.sound
- `Surfalize.Props.C06_isolated_partial`: propext, Classical.choice, Quot.sound
- `Surfalize.Props.C06_dict_mutation`: propext, Classical.choice, Quot.sound
- `Surfalize.Props.C06_step_assignment`: propext, Classical.choice, Quot.sound
- `Surfalize.Props.C07_center`: propext, Classical.choice, Quot.sound
- `Surfalize.Props.C07_center_all_missing`: propext, Quot.sound
- `Surfalize.Props.C08_zero`: propext, Classical.choice, Quot.sound
- `Surfalize.Props.C09_invert_measured_partial`: propext, Classical.choice, Quot.sound
- `Surfalize.Props.C09_invert_missing_destroys`: propext, Quot.sound
- `Surfalize.Props.C09_invert_not_mask_preserving`: propext, Classical.choice, Quot.sound
- `Surfalize.Props.C10_median`: propext, Classical.choice, Quot.sound
- `Surfalize.Props.C10_mean`: propext, Classical.choice, Quot.sound
- `Surfalize.Props.C10_dispatch`: propext, Classical.choice, Quot.sound
- `Surfalize.Props.C100_affine`: propext, Classical.choice, Quot.sound
- `Surfalize.Props.C100_inverted`: propext, Classical.choice, Quot.sound
- `Surfalize.Props.C100_exchange_partial`: propext, Classical.choice, Quot.sound
- `Surfalize.Props.C100_exchange_one_section`: propext, Classical.choice, Quot.sound
- `Surfalize.Props.C100_exchange_fails`: propext, Classical.choice, Quot.sound
- `Surfalize.Props.C100_reversed_partial`: propext, Classical.choice, Quot.sound
- `Surfalize.Props.C100_direction_matters`: propext, Classical.choice, Quot.sound
- `Surfalize.Props.C101_defined`: propext, Classical.choice, Quot.sound
- `Surfalize.Props.C101_ignore_missing`: propext, Classical.choice, Quot.sound
- `Surfalize.Props.C101_order`: propext, Classical.choice, Quot.sound
- `Surfalize.Props.C101_affine`: propext, Classical.choice, Quot.sound
- `Surfalize.Props.C101_operations`: propext, Classical.choice, Quot.sound
- `Surfalize.Props.C101_height_parameters`: propext, Classical.choice, Quot.sound
- `Surfalize.Props.C102_heights`: propext, Classical.choice, Quot.sound
- `Surfalize.Props.C102_default`: propext, Classical.choice, Quot.sound
- `Surfalize.Props.C102_images_partial`: propext, Classical.choice, Quot.sound
- `Surfalize.Props.C102_order_partial`: propext, Classical.choice, Quot.sound
- `Surfalize.Props.C102_untitled_violated`: propext, Classical.choice, Quot.sound
- `Surfalize.Props.C102_same_title_violated`: propext, Classical.choice, Quot.sound
- `Surfalize.Props.C102_file`: propext, Classical.choice, Quot.sound
- `Surfalize.Props.C103_shape`: propext, Classical.choice, Quot.sound
- `Surfalize.Props.C103_kept`: propext, Classical.choice, Quot.sound
- `Surfalize.Props.C103_cells`: propext, Classical.choice, Quot.sound
- `Surfalize.Props.C103_values`: propext, Classical.choice, Quot.sound
- `Surfalize.Props.C103_rowwise`: propext, Classical.choice, Quot.sound
- `Surfalize.Props.C103_twice`: propext, Classical.choice, Quot.sound
- `Surfalize.Props.C103_commute`: propext, Classical.choice, Quot.sound
- `Surfalize.Props.C103_deferred`: propext, Classical.choice, Quot.sound
- `Surfalize.Props.C103_fails_iff`: propext, Classical.choice, Quot.sound
- `Surfalize.Props.C103_template`: propext, Classical.choice, Quot.sound
- `Surfalize.Props.C103_independent`: propext, Classical.choice, Quot.sound
- `Surfalize.Props.C103_source`: propext, Classical.choice, Quot.sound
- `Surfalize.Props.C103_wrap`: propext, Classical.choice, Quot.sound
- `Surfalize.Props.C103_set`: propext, Classical.choice, Quot.sound
- `Surfalize.Props.C103_dataframe`: propext, Classical.choice, Quot.sound
- `Surfalize.Props.C103_attributes`: propext
- `Surfalize.Props.C103_copy_violated`: propext
- `Surfalize.Props.C103_taken_name_violated`: propext, Classical.choice, Quot.sound
- `Surfalize.Props.C103_misfit_violated`: propext, Classical.choice, Quot.sound
- `Surfalize.Props.C103_not_a_text`: propext, Classical.choice, Quot.sound
- `Surfalize.Props.C103_methods`: propext
- `Surfalize.Props.C104_dat`: propext, Classical.choice, Quot.sound
- `Surfalize.Props.C104_nms`: propext, Classical.choice, Quot.sound
- `Surfalize.Props.C104_opd`: propext, Classical.choice, Quot.sound
- `Surfalize.Props.C104_os3d`: propext, Classical.choice, Quot.sound
- `Surfalize.Props.C104_plu`: propext, Classical.choice, Quot.sound
- `Surfalize.Props.C104_plux`: propext, Classical.choice, Quot.sound
- `Surfalize.Props.C104_vk4`: propext, Classical.choice, Quot.sound
- `Surfalize.Props.C104_vk67`: propext, Classical.choice, Quot.sound
- `Surfalize.Props.C104_sflz`: propext, Classical.choice, Quot.sound
- `Surfalize.Props.C104_sur_heights`: propext, Classical.choice, Quot.sound
- `Surfalize.Props.C104_sur_default`: propext, Classical.choice, Quot.sound
- `Surfalize.Props.C104_sur_images`: propext, Classical.choice, Quot.sound
- `Surfalize.Props.C104_sur_kind`: propext, Classical.choice, Quot.sound
- `Surfalize.Props.C104_fits_heights`: propext, Classical.choice, Quot.sound
- `Surfalize.Props.C104_fits_default`: propext, Classical.choice, Quot.sound
- `Surfalize.Props.C104_fits_always`: propext, Classical.choice, Quot.sound
- `Surfalize.Props.C104_fits_images`: propext, Classical.choice, Quot.sound
- `Surfalize.Props.C66_dat_invalid_intensity`: propext, Classical.choice, Quot.sound
- `Surfalize.Props.C66_nms_images`: propext, Classical.choice, Quot.sound
- `Surfalize.Props.C84_plux_images`: propext, Classical.choice, Quot.sound
- `Surfalize.Props.C105_heights`: propext, Classical.choice, Quot.sound
- `Surfalize.Props.C105_images`: propext, Classical.choice, Quot.sound
- `Surfalize.Props.C105_points3d`: propext, Classical.choice, Quot.sound
- `Surfalize.Props.C105_profile`: propext, Classical.choice, Quot.sound
- `Surfalize.Props.C105_vertical_profile`: propext, Classical.choice, Quot.sound
- `Surfalize.Props.C105_horizontal_profile_partial`: propext, Classical.choice, Quot.sound
- `Surfalize.Props.C105_crop`: propext, Classical.choice, Quot.sound
- `Surfalize.Props.C105_horizontal_profile_violated`: propext, Classical.choice, Quot.sound
- `Surfalize.Props.C105_cropped_image_violated`: propext, Classical.choice, Quot.sound
- `Surfalize.Props.C105_shadowed_violated`: propext, Quot.sound
- `Surfalize.Props.C105_detail_partial`: propext, Classical.choice, Quot.sound
- `Surfalize.Props.C105_detail_violated`: propext, Classical.choice, Quot.sound
- `Surfalize.Props.C105_autocorrelation`: propext, Classical.choice, Quot.sound
- `Surfalize.Props.C105_spectrum`: propext, Classical.choice, Quot.sound
- `Surfalize.Props.C105_spectrum_drawn`: propext, Classical.choice, Quot.sound
- `Surfalize.Props.C105_spectrum_data`: propext, Classical.choice, Quot.sound
- `Surfalize.Props.C105_spectrum_limits_partial`: propext, Classical.choice, Quot.sound
- `Surfalize.Props.C105_spectrum_limits_violated`: propext, Classical.choice, Quot.sound
- `Surfalize.Props.C105_spectrum_small_limit_violated`: propext, Classical.choice, Quot.sound
- `Surfalize.Props.C105_bars`: propext, Classical.choice, Quot.sound
- `Surfalize.Props.C105_triangles`: propext, Classical.choice, Quot.sound
- `Surfalize.Props.C105_polar`: propext, Classical.choice, Quot.sound
- `Surfalize.Props.C105_polar_place_partial`: propext, Classical.choice, Quot.sound
- `Surfalize.Props.C105_polar_place_violated`: propext, Classical.choice, Quot.sound
- `Surfalize.Props.C106_load`: propext, Classical.choice, Quot.sound
- `Surfalize.Props.C106_kept`: propext, Classical.choice, Quot.sound
- `Surfalize.Props.C106_isolated_partial`: propext, Classical.choice, Quot.sound
- `Surfalize.Props.C106_shared_violated`: propext, Quot.sound
- `Surfalize.Props.C106_copies`: propext, Classical.choice, Quot.sound
- `Surfalize.Props.C106_copy_violated`: propext, Quot.sound
- `Surfalize.Props.C106_raster_partial`: propext, Classical.choice, Quot.sound
- `Surfalize.Props.C106_raster_violated`: propext, Classical.choice, Quot.sound
- `Surfalize.Props.C107_params`: propext, Classical.choice, Quot.sound
- `Surfalize.Props.C107_fourier`: propext, Classical.choice, Quot.sound
- `Surfalize.Props.C107_acf`: propext, Classical.choice, Quot.sound
- `Surfalize.Props.C107_held_partial`: propext, Classical.choice, Quot.sound
- `Surfalize.Props.C107_abbott_kept`: propext, Classical.choice, Quot.sound
- `Surfalize.Props.C107_stale`: propext
- `Surfalize.Props.C107_mixed`: propext, Classical.choice, Quot.sound
- `Surfalize.Props.C107_fourier_violated`: propext, Classical.choice, Quot.sound
- `Surfalize.Props.C107_acf_violated`: propext, Classical.choice, Quot.sound
- `Surfalize.Props.C107_abbott_violated`: propext, Classical.choice, Quot.sound
- `Surfalize.Props.C107_render_exists`: propext, Classical.choice, Quot.sound
- `Surfalize.Props.C107_abbott`: propext, Classical.choice, Quot.sound
- `Surfalize.Props.C107_same`: propext
- `Surfalize.Props.C107_acf_stale`: propext, Classical.choice, Quot.sound
- `Surfalize.Props.C108_turn`: propext, Classical.choice, Quot.sound
- `Surfalize.Props.C108_mirror_partial`: propext, Classical.choice, Quot.sound
- `Surfalize.Props.C108_flip_partial`: propext, Classical.choice, Quot.sound
- `Surfalize.Props.C108_transpose_partial`: propext, Classical.choice, Quot.sound
- `Surfalize.Props.C108_unit`: propext, Classical.choice, Quot.sound
- `Surfalize.Props.C108_spline_moves`: propext, Classical.choice, Quot.sound
- `Surfalize.Props.C108_spline_partial`: propext, Classical.choice, Quot.sound
- `Surfalize.Props.C108_ties_violated`: propext, Classical.choice, Quot.sound
- `Surfalize.Props.C109_literal_partial`: propext, Classical.choice, Quot.sound
- `Surfalize.Props.C109_read_partial`: propext, Classical.choice, Quot.sound
- `Surfalize.Props.C109_roundtrip_partial`: propext, Classical.choice, Quot.sound
- `Surfalize.Props.C109_duplicate`: propext, Classical.choice, Quot.sound
- `Surfalize.Props.C109_point_violated`: propext, Classical.choice, Quot.sound
- `Surfalize.Props.C109_brackets_violated`: propext, Classical.choice, Quot.sound
- `Surfalize.Props.C109_plus_violated`: propext, Classical.choice, Quot.sound
- `Surfalize.Props.C109_rejected_violated`: propext, Classical.choice, Quot.sound
- `Surfalize.Props.C11_threshold_error`: propext, Classical.choice, Quot.sound
- `Surfalize.Props.C11_threshold`: propext, Classical.choice, Quot.sound
- `Surfalize.Props.C11_threshold_distinct`: propext, Classical.choice, Quot.sound
- `Surfalize.Props.C11_scalar`: propext, Classical.choice, Quot.sound
- `Surfalize.Props.C11_threshold_fails`: propext, Classical.choice, Quot.sound
- `Surfalize.Props.C110_crop_px`: propext, Quot.sound
- `Surfalize.Props.C110_crop_units_partial`: propext, Classical.choice, Quot.sound
- `Surfalize.Props.C110_slices`: propext, Classical.choice, Quot.sound
- `Surfalize.Props.C110_profile_partial`: propext, Classical.choice, Quot.sound
- `Surfalize.Props.C110_profile_violated`: propext, Classical.choice, Quot.sound
- `Surfalize.Props.C110_crop_units_violated`: propext, Classical.choice, Quot.sound
- `Surfalize.Props.C111_camera`: propext, Classical.choice, Quot.sound
- `Surfalize.Props.C111_degrees`: propext, Classical.choice, Quot.sound
- `Surfalize.Props.C111_middle`: propext, Classical.choice, Quot.sound
- `Surfalize.Props.C111_outside_partial`: propext, Classical.choice, Quot.sound
- `Surfalize.Props.C111_narrow_violated`: propext, Classical.choice, Quot.sound
- `Surfalize.Props.C111_crop`: propext, Classical.choice, Quot.sound
- `Surfalize.Props.C111_colorbar`: propext, Classical.choice, Quot.sound
- `Surfalize.Props.C111_save`: propext, Quot.sound
- `Surfalize.Props.C111_picture`: propext
- `Surfalize.Props.C111_grayscale`: propext, Quot.sound
- `Surfalize.Props.C112_load`: propext, Classical.choice, Quot.sound
- `Surfalize.Props.C112_restored`: propext, Classical.choice, Quot.sound
- `Surfalize.Props.C112_any_schedule`: propext, Quot.sound
- `Surfalize.Props.C112_finishes`: propext, Classical.choice, Quot.sound
- `Surfalize.Props.C112_threads_partial`: propext, Classical.choice, Quot.sound
- `Surfalize.Props.C112_again_partial`: propext, Classical.choice, Quot.sound
- `Surfalize.Props.C112_shared_violated`: propext, Classical.choice, Quot.sound
- `Surfalize.Props.C112_again_violated`: propext, Classical.choice, Quot.sound
- `Surfalize.Props.C113_height`: propext, Classical.choice, Quot.sound
- `Surfalize.Props.C113_curve`: propext, Classical.choice, Quot.sound
- `Surfalize.Props.C113_area`: propext, Classical.choice, Quot.sound
- `Surfalize.Props.C113_sdq`: propext, Classical.choice, Quot.sound
- `Surfalize.Props.C113_sdr`: propext, Classical.choice, Quot.sound
- `Surfalize.Props.C113_profile`: propext, Classical.choice, Quot.sound
- `Surfalize.Props.C113_sections`: propext, Classical.choice, Quot.sound
- `Surfalize.Props.C113_rq`: propext, Classical.choice, Quot.sound
- `Surfalize.Props.C113_rdq`: propext, Classical.choice, Quot.sound
- `Surfalize.Props.C113_saved`: propext, Classical.choice, Quot.sound
- `Surfalize.Props.C113_sound_exists`: propext, Classical.choice, Quot.sound
- `Surfalize.Props.C113_demo`: propext, Classical.choice, Quot.sound
- `Surfalize.Props.C114_center`: propext, Classical.choice, Quot.sound
- `Surfalize.Props.C114_zero`: propext, Classical.choice, Quot.sound
- `Surfalize.Props.C114_invert`: propext, Classical.choice, Quot.sound
- `Surfalize.Props.C114_fill`: propext, Classical.choice, Quot.sound
- `Surfalize.Props.C114_filter`: propext, Classical.choice, Quot.sound
- `Surfalize.Props.C114_detrend`: propext, Classical.choice, Quot.sound
- `Surfalize.Props.C114_pick_exists`: propext, Classical.choice, Quot.sound
- `Surfalize.Props.C115_two_levels`: propext, Classical.choice, Quot.sound
- `Surfalize.Props.C115_step`: propext, Classical.choice, Quot.sound
- `Surfalize.Props.C115_wave`: propext, Classical.choice, Quot.sound
- `Surfalize.Props.C115_wave_profile`: propext, Classical.choice, Quot.sound
- `Surfalize.Props.C115_plane`: propext, Classical.choice, Quot.sound
- `Surfalize.Props.C115_profile_slope`: propext, Classical.choice, Quot.sound
- `Surfalize.Props.C115_plane_slope_partial`: propext, Classical.choice, Quot.sound
- `Surfalize.Props.C115_plane_slope_violated`: propext, Classical.choice, Quot.sound
- `Surfalize.Props.C115_ramp_partial`: propext, Classical.choice, Quot.sound
- `Surfalize.Props.C115_ramp_violated`: propext, Classical.choice, Quot.sound
- `Surfalize.Props.C115_square_period`: propext, Classical.choice, Quot.sound
- `Surfalize.Props.C115_square_depth`: propext, Classical.choice, Quot.sound
- `Surfalize.Props.C115_square_aspect_ratio`: propext, Classical.choice, Quot.sound
- `Surfalize.Props.C115_square_period_y`: propext, Classical.choice, Quot.sound
- `Surfalize.Props.C115_square_depth_y`: propext, Classical.choice, Quot.sound
- `Surfalize.Props.C115_wave_depth`: propext, Classical.choice, Quot.sound
- `Surfalize.Props.C116_consistent_partial`: propext, Classical.choice, Quot.sound
- `Surfalize.Props.C116_axes`: propext, Classical.choice, Quot.sound
- `Surfalize.Props.C116_violated`: propext, Classical.choice, Quot.sound
- `Surfalize.Props.C117_heights`: propext, Classical.choice, Quot.sound
- `Surfalize.Props.C117_profile`: propext, Classical.choice, Quot.sound
- `Surfalize.Props.C117_profile_y`: propext, Classical.choice, Quot.sound
- `Surfalize.Props.C117_slope_violated`: propext, Classical.choice, Quot.sound
- `Surfalize.Props.C117_functional_violated`: propext, Classical.choice, Quot.sound
- `Surfalize.Props.C117_period_violated`: propext, Classical.choice, Quot.sound
- `Surfalize.Props.C118_center`: propext, Classical.choice, Quot.sound
- `Surfalize.Props.C118_zero`: propext, Classical.choice, Quot.sound
- `Surfalize.Props.C118_invert`: propext, Classical.choice, Quot.sound
- `Surfalize.Props.C118_threshold`: propext, Classical.choice, Quot.sound
- `Surfalize.Props.C118_detrend`: propext, Classical.choice, Quot.sound
- `Surfalize.Props.C118_outliers`: propext, Classical.choice, Quot.sound
- `Surfalize.Props.C118_filter`: propext, Classical.choice, Quot.sound
- `Surfalize.Props.C118_crop`: propext, Classical.choice, Quot.sound
- `Surfalize.Props.C118_zoom_partial`: propext, Classical.choice, Quot.sound
- `Surfalize.Props.C118_zoom_violated`: propext, Classical.choice, Quot.sound
- `Surfalize.Props.C118_fill_partial`: propext, Classical.choice, Quot.sound
- `Surfalize.Props.C118_fill_violated`: propext, Classical.choice, Quot.sound
- `Surfalize.Props.C118_center_units`: propext, Classical.choice, Quot.sound
- `Surfalize.Props.C118_zero_units`: propext, Classical.choice, Quot.sound
- `Surfalize.Props.C118_invert_units`: propext, Classical.choice, Quot.sound
- `Surfalize.Props.C118_threshold_units`: propext, Classical.choice, Quot.sound
- `Surfalize.Props.C118_detrend_units`: propext, Classical.choice, Quot.sound
- `Surfalize.Props.C118_fill_units`: propext, Quot.sound
- `Surfalize.Props.C118_outliers_units`: propext, Classical.choice, Quot.sound
- `Surfalize.Props.C118_filter_units_partial`: propext, Classical.choice, Quot.sound
- `Surfalize.Props.C118_filter_lateral`: propext, Classical.choice, Quot.sound
- `Surfalize.Props.C118_filter_datum_violated`: propext, Classical.choice, Quot.sound
- `Surfalize.Props.C119_center_zero`: propext, Classical.choice, Quot.sound
- `Surfalize.Props.C119_zero_center`: propext, Classical.choice, Quot.sound
- `Surfalize.Props.C119_detrend_shift`: propext, Classical.choice, Quot.sound
- `Surfalize.Props.C119_center_detrend`: propext, Classical.choice, Quot.sound
- `Surfalize.Props.C119_detrend_detrend`: propext, Classical.choice, Quot.sound
- `Surfalize.Props.C119_filters_partial`: propext, Classical.choice, Quot.sound
- `Surfalize.Props.C119_profile_filters_partial`: propext, Classical.choice, Quot.sound
- `Surfalize.Props.C119_filters_violated`: propext, Classical.choice, Quot.sound
- `Surfalize.Props.C119_center_filter_partial`: propext, Classical.choice, Quot.sound
- `Surfalize.Props.C12_validation`: propext, Classical.choice, Quot.sound
- `Surfalize.Props.C12_complement`: propext, Classical.choice, Quot.sound
- `Surfalize.Props.C12_both`: propext, Classical.choice, Quot.sound
- `Surfalize.Props.C12_bandpass`: propext, Classical.choice, Quot.sound
- `Surfalize.Props.C120_refused`: propext
- `Surfalize.Props.C120_accepted`: propext, Classical.choice, Quot.sound
- `Surfalize.Props.C120_mask`: propext, Classical.choice, Quot.sound
- `Surfalize.Props.C120_mask_array`: propext, Classical.choice, Quot.sound
- `Surfalize.Props.C120_mask_shape`: propext
- `Surfalize.Props.C120_slices`: propext, Classical.choice, Quot.sound
- `Surfalize.Props.C120_points`: propext, Classical.choice, Quot.sound
- `Surfalize.Props.C120_points_outside`: propext, Classical.choice, Quot.sound
- `Surfalize.Props.C120_put_back`: propext, Classical.choice, Quot.sound
- `Surfalize.Props.C120_rows`: propext, Classical.choice, Quot.sound
- `Surfalize.Props.C120_mask_rows`: propext, Classical.choice, Quot.sound
- `Surfalize.Props.C120_mask_rows_length`: propext
- `Surfalize.Props.C120_no_surface`: propext, Classical.choice, Quot.sound
- `Surfalize.Props.C120_slices_select`: propext, Classical.choice, Quot.sound
- `Surfalize.Props.C120_rows_step_violated`: propext
- `Surfalize.Props.C120_ellipsis_steps_violated`: propext
- `Surfalize.Props.C120_one_tuple_violated`: propext
- `Surfalize.Props.C120_too_many`: propext, Classical.choice, Quot.sound
- `Surfalize.Props.C120_mask_matrix`: propext
- `Surfalize.Props.C120_points_repeat`: propext, Classical.choice, Quot.sound
- `Surfalize.Props.C121_listing`: propext, Classical.choice, Quot.sound
- `Surfalize.Props.C121_no_connection`: propext, Classical.choice, Quot.sound
- `Surfalize.Props.C121_load_partial`: propext, Classical.choice, Quot.sound
- `Surfalize.Props.C121_probe_violated`: propext, Classical.choice, Quot.sound
- `Surfalize.Props.C121_misnamed_violated`: propext, Classical.choice, Quot.sound
- `Surfalize.Props.C122_warns`: propext, Classical.choice, Quot.sound
- `Surfalize.Props.C122_scale_violated`: propext, Classical.choice, Quot.sound
- `Surfalize.Props.C123_formats`: propext, Classical.choice, Quot.sound
- `Surfalize.Props.C123_groups`: propext, Classical.choice, Quot.sound
- `Surfalize.Props.C123_package`: propext, Classical.choice, Quot.sound
- `Surfalize.Props.C123_writer`: propext, Classical.choice, Quot.sound
- `Surfalize.Props.C124_silent`: propext, Classical.choice, Quot.sound
- `Surfalize.Props.C124_warned`: propext, Classical.choice, Quot.sound
- `Surfalize.Props.C124_buffer`: propext
- `Surfalize.Props.C124_damaged_partial`: propext, Classical.choice, Quot.sound
- `Surfalize.Props.C124_own_format_violated`: propext, Classical.choice, Quot.sound
- `Surfalize.Props.C125_lying_partial`: propext, Classical.choice, Quot.sound
- `Surfalize.Props.C125_units_partial`: propext, Classical.choice, Quot.sound
- `Surfalize.Props.C125_lying_violated`: propext, Classical.choice, Quot.sound
- `Surfalize.Props.C125_datum_violated`: propext, Classical.choice, Quot.sound
- `Surfalize.Props.C125_solver_exists`: propext, Classical.choice, Quot.sound
- `Surfalize.Props.C126_untouched`: propext, Classical.choice, Quot.sound
- `Surfalize.Props.C126_cut`: propext, Classical.choice, Quot.sound
- `Surfalize.Props.C126_entry_partial`: propext, Classical.choice, Quot.sound
- `Surfalize.Props.C126_next_violated`: propext, Classical.choice, Quot.sound
- `Surfalize.Props.C126_prose_violated`: propext, Classical.choice, Quot.sound
- `Surfalize.Props.C127_aligned_partial`: propext, Classical.choice, Quot.sound
- `Surfalize.Props.C127_refined_partial`: propext, Classical.choice, Quot.sound
- `Surfalize.Props.C127_axis`: propext, Classical.choice, Quot.sound
- `Surfalize.Props.C127_stretched_violated`: propext, Classical.choice, Quot.sound
- `Surfalize.Props.C127_rotation_exists`: propext, Classical.choice, Quot.sound
- `Surfalize.Props.C127_errors`: propext, Classical.choice, Quot.sound
- `Surfalize.Props.C13_cutoff`: propext, Classical.choice, Quot.sound
- `Surfalize.Props.C13_transmission`: propext, Classical.choice, Quot.sound
- `Surfalize.Props.C14_success`: propext, Classical.choice, Quot.sound
- `Surfalize.Props.C14_definitions`: propext, Classical.choice, Quot.sound
- `Surfalize.Props.C14_ordering`: propext, Classical.choice, Quot.sound
- `Surfalize.Props.C14_failure`: propext, Classical.choice, Quot.sound
- `Surfalize.Props.C15_offset`: propext, Classical.choice, Quot.sound
- `Surfalize.Props.C15_scale`: propext, Classical.choice, Quot.sound
- `Surfalize.Props.C15_invert`: propext, Classical.choice, Quot.sound
- `Surfalize.Props.C16_kurtosis`: propext, Classical.choice, Quot.sound
- `Surfalize.Props.C17_arrangement`: propext, Classical.choice, Quot.sound
- `Surfalize.Props.C17_flip`: propext, Classical.choice, Quot.sound
- `Surfalize.Props.C36_arrangement`: propext, Classical.choice, Quot.sound
- `Surfalize.Props.C17_functional_parameters`: propext, Classical.choice, Quot.sound
- `Surfalize.Props.C72_order`: propext, Classical.choice, Quot.sound
- `Surfalize.Props.C18_sections`: propext, Classical.choice, Quot.sound
- `Surfalize.Props.C19_bounds`: propext, Classical.choice, Quot.sound
- `Surfalize.Props.C19_rz_partial`: propext, Classical.choice, Quot.sound
- `Surfalize.Props.C19_one_section`: propext, Classical.choice, Quot.sound
- `Surfalize.Props.C19_rz_not_rp_plus_rv`: propext, Classical.choice, Quot.sound
- `Surfalize.Props.C19_ra_le_rq`: propext, Classical.choice, Quot.sound
- `Surfalize.Props.C19_profile_is_one_row_surface`: propext, Classical.choice, Quot.sound
- `Surfalize.Props.C20_pointwise`: propext, Quot.sound
- `Surfalize.Props.C20_division_partial`: propext, Quot.sound
- `Surfalize.Props.C20_zero_divisor`: propext, Classical.choice, Quot.sound
- `Surfalize.Props.C20_dimension_check`: propext, Quot.sound
- `Surfalize.Props.C20_cancel`: propext, Quot.sound
- `Surfalize.Props.C20_scalar`: propext, Quot.sound
- `Surfalize.Props.C21_eq_iff`: propext, Classical.choice, Quot.sound
- `Surfalize.Props.C21_refl_symm_partial`: propext, Classical.choice, Quot.sound
- `Surfalize.Props.C21_not_transitive`: propext, Classical.choice, Quot.sound
- `Surfalize.Props.C21_hash_incompatible`: propext, Classical.choice, Quot.sound
- `Surfalize.Props.C22_crop_px`: propext, Quot.sound
- `Surfalize.Props.C22_crop_px_error_partial`: propext
- `Surfalize.Props.C22_crop_units`: propext, Classical.choice, Quot.sound
- `Surfalize.Props.C22_crop_profile`: propext, Classical.choice, Quot.sound
- `Surfalize.Props.C22_crop_accepts_inverted_box`: none
- `Surfalize.Props.C22_crop_profile_units`: propext, Classical.choice, Quot.sound
- `Surfalize.Props.C23_zoom`: propext, Classical.choice, Quot.sound
- `Surfalize.Props.C23_zoom_profile`: propext, Classical.choice, Quot.sound
- `Surfalize.Props.C23_zoom_below_one_not_centred`: propext, Classical.choice, Quot.sound
- `Surfalize.Props.C24_slice_points`: propext, Classical.choice, Quot.sound
- `Surfalize.Props.C24_slice_steps`: propext, Classical.choice, Quot.sound
- `Surfalize.Props.C24_slice_rows`: propext, Classical.choice, Quot.sound
- `Surfalize.Props.C24_int_index_error`: propext, Quot.sound
- `Surfalize.Props.C24_negative_step_size`: propext, Classical.choice, Quot.sound
- `Surfalize.Props.C25_horizontal_partial`: propext, Classical.choice, Quot.sound
- `Surfalize.Props.C25_vertical_partial`: propext, Classical.choice, Quot.sound
- `Surfalize.Props.C25_outside_error`: propext, Quot.sound
- `Surfalize.Props.C25_average_odd`: propext, Classical.choice, Quot.sound
- `Surfalize.Props.C25_last_row_is_nan`: propext, Classical.choice, Quot.sound
- `Surfalize.Props.C25_last_column_is_nan`: propext, Classical.choice, Quot.sound
- `Surfalize.Props.C25_average_even_uses_one_more`: propext, Quot.sound
- `Surfalize.Props.C25_not_nearest`: propext, Classical.choice, Quot.sound
- `Surfalize.Props.C26_oblique_partial`: propext, Classical.choice, Quot.sound
- `Surfalize.Props.C26_oblique_ignores_offset`: propext, Classical.choice, Quot.sound
- `Surfalize.Props.C26_vertical_segment_fails`: propext, Classical.choice, Quot.sound
- `Surfalize.Props.C26_inside`: propext, Classical.choice, Quot.sound
- `Surfalize.Props.C26_outside`: propext, Classical.choice, Quot.sound
- `Surfalize.Props.C27_surface`: propext, Classical.choice, Quot.sound
- `Surfalize.Props.C27_level`: propext, Classical.choice, Quot.sound
- `Surfalize.Props.C27_profile`: propext, Classical.choice, Quot.sound
- `Surfalize.Props.C27_defined`: propext, Classical.choice, Quot.sound
- `Surfalize.Props.C27_solver_exists`: propext, Classical.choice, Quot.sound
- `Surfalize.Props.C27_level_profile`: propext, Classical.choice, Quot.sound
- `Surfalize.Props.C28_blind`: propext, Classical.choice, Quot.sound
- `Surfalize.Props.C28_idempotent`: propext, Classical.choice, Quot.sound
- `Surfalize.Props.C28_mean_zero`: propext, Classical.choice, Quot.sound
- `Surfalize.Props.C28_profile`: propext, Classical.choice, Quot.sound
- `Surfalize.Props.C29_heights`: propext, Classical.choice, Quot.sound
- `Surfalize.Props.C29_object`: propext, Quot.sound
- `Surfalize.Props.C29_profile`: propext, Classical.choice, Quot.sound
- `Surfalize.Props.C29_pick_exists`: propext, Classical.choice, Quot.sound
- `Surfalize.Props.C30_straight_partial`: propext, Classical.choice, Quot.sound
- `Surfalize.Props.C30_not_identity`: propext, Classical.choice, Quot.sound
- `Surfalize.Props.C31_area_ge_projected`: propext, Classical.choice, Quot.sound
- `Surfalize.Props.C31_flat_partial`: propext, Classical.choice, Quot.sound
- `Surfalize.Props.C31_corner_ignored`: propext, Classical.choice, Quot.sound
- `Surfalize.Props.C31_sdr_pos`: propext, Classical.choice, Quot.sound
- `Surfalize.Props.C31_plane_partial`: propext, Classical.choice, Quot.sound
- `Surfalize.Props.C31_plane_wrong_for_unequal_steps`: propext, Classical.choice, Quot.sound
- `Surfalize.Props.C32_offset`: propext, Classical.choice, Quot.sound
- `Surfalize.Props.C32_scale`: propext, Classical.choice, Quot.sound
- `Surfalize.Props.C32_zero_iff_flat`: propext, Classical.choice, Quot.sound
- `Surfalize.Props.C32_le_rms_slope`: propext, Classical.choice, Quot.sound
- `Surfalize.Props.C32_rdq`: propext, Classical.choice, Quot.sound
- `Surfalize.Props.C33_range`: propext, Classical.choice, Quot.sound
- `Surfalize.Props.C33_one_iff_equal`: propext, Classical.choice, Quot.sound
- `Surfalize.Props.C33_order`: propext, Classical.choice, Quot.sound
- `Surfalize.Props.C33_scale_partial`: propext, Classical.choice, Quot.sound
- `Surfalize.Props.C33_reported`: propext, Classical.choice, Quot.sound
- `Surfalize.Props.C33_equal_cells`: propext, Classical.choice, Quot.sound
- `Surfalize.Props.C33_cells`: propext, Classical.choice, Quot.sound
- `Surfalize.Props.C33_scale_fails_when_rounded`: propext, Classical.choice, Quot.sound
- `Surfalize.Props.C33_period_below_one_pixel`: propext, Quot.sound
- `Surfalize.Props.C33_nan_cell`: propext, Classical.choice, Quot.sound
- `Surfalize.Props.C33_flat_cell_violated`: propext, Classical.choice, Quot.sound
- `Surfalize.Props.C33_names`: propext, Classical.choice, Quot.sound
- `Surfalize.Props.C34_threshold`: propext, Classical.choice, Quot.sound
- `Surfalize.Props.C34_classes`: propext, Classical.choice, Quot.sound
- `Surfalize.Props.C34_stepheight`: propext, Classical.choice, Quot.sound
- `Surfalize.Props.C34_undefined`: propext, Classical.choice, Quot.sound
- `Surfalize.Props.C34_affine`: propext, Classical.choice, Quot.sound
- `Surfalize.Props.C34_arrangement`: propext, Classical.choice, Quot.sound
- `Surfalize.Props.C35_value`: propext, Classical.choice, Quot.sound
- `Surfalize.Props.C35_undefined`: propext, Classical.choice, Quot.sound
- `Surfalize.Props.C35_nonneg`: propext, Classical.choice, Quot.sound
- `Surfalize.Props.C35_antitone`: propext, Classical.choice, Quot.sound
- `Surfalize.Props.C35_steps`: propext, Classical.choice, Quot.sound
- `Surfalize.Props.C35_affine`: propext, Classical.choice, Quot.sound
- `Surfalize.Props.C35_arrangement`: propext, Classical.choice, Quot.sound
- `Surfalize.Props.C35_unit`: propext, Classical.choice, Quot.sound
- `Surfalize.Props.C36_curve`: propext, Classical.choice, Quot.sound
- `Surfalize.Props.C36_material_ratio`: propext, Classical.choice, Quot.sound
- `Surfalize.Props.C36_missing`: propext, Quot.sound
- `Surfalize.Props.C36_defined`: propext, Classical.choice, Quot.sound
- `Surfalize.Props.C37_smc`: propext, Classical.choice, Quot.sound
- `Surfalize.Props.C37_smc_bounds`: propext, Classical.choice, Quot.sound
- `Surfalize.Props.C37_smr_range`: propext, Classical.choice, Quot.sound
- `Surfalize.Props.C37_smr_antitone_across`: propext, Classical.choice, Quot.sound
- `Surfalize.Props.C37_distinct`: propext, Classical.choice, Quot.sound
- `Surfalize.Props.C37_smr_partial`: propext, Classical.choice, Quot.sound
- `Surfalize.Props.C37_plateau`: propext, Classical.choice, Quot.sound
- `Surfalize.Props.C38_window`: propext, Classical.choice, Quot.sound
- `Surfalize.Props.C39_sk`: propext, Classical.choice, Quot.sound
- `Surfalize.Props.C39_pk_vk`: propext, Classical.choice, Quot.sound
- `Surfalize.Props.C39_extreme`: propext, Classical.choice, Quot.sound
- `Surfalize.Props.C39_smr_order_partial`: propext, Classical.choice, Quot.sound
- `Surfalize.Props.C39_smr_order_fails`: propext, Classical.choice, Quot.sound
- `Surfalize.Props.C40_sdc`: propext, Classical.choice, Quot.sound
- `Surfalize.Props.C41_volumes`: propext, Classical.choice, Quot.sound
- `Surfalize.Props.C41_ends`: propext, Classical.choice, Quot.sound
- `Surfalize.Props.C42_mean_of_products`: propext, Classical.choice, Quot.sound
- `Surfalize.Props.C42_symmetric`: propext, Classical.choice, Quot.sound
- `Surfalize.Props.C42_bound`: propext, Classical.choice, Quot.sound
- `Surfalize.Props.C42_missing`: propext, Classical.choice, Quot.sound
- `Surfalize.Props.C42_zero_lag`: propext, Classical.choice, Quot.sound
- `Surfalize.Props.C42_unweighted_exceeds`: propext, Classical.choice, Quot.sound
- `Surfalize.Props.C43_argsort_exists`: propext, Classical.choice, Quot.sound
- `Surfalize.Props.C43_consistent`: propext, Classical.choice, Quot.sound
- `Surfalize.Props.C43_errors`: propext, Classical.choice, Quot.sound
- `Surfalize.Props.C44_bins`: propext, Classical.choice, Quot.sound
- `Surfalize.Props.C44_power`: propext, Classical.choice, Quot.sound
- `Surfalize.Props.C44_errors`: propext, Classical.choice, Quot.sound
- `Surfalize.Props.C44_std`: propext, Classical.choice, Quot.sound
- `Surfalize.Props.C44_grating`: propext, Classical.choice, Quot.sound
- `Surfalize.Props.C45_normalised`: propext, Classical.choice, Quot.sound
- `Surfalize.Props.C45_extrema_partial`: propext, Classical.choice, Quot.sound
- `Surfalize.Props.C45_negative_period`: propext, Classical.choice, Quot.sound
- `Surfalize.Props.C46_sort_exists`: propext, Classical.choice, Quot.sound
- `Surfalize.Props.C46_samples`: propext, Classical.choice, Quot.sound
- `Surfalize.Props.C46_linear`: propext, Classical.choice, Quot.sound
- `Surfalize.Props.C46_outside`: propext, Classical.choice, Quot.sound
- `Surfalize.Props.C46_range`: propext, Classical.choice, Quot.sound
- `Surfalize.Props.C46_monotone`: propext, Classical.choice, Quot.sound
- `Surfalize.Props.C46_order`: propext, Quot.sound
- `Surfalize.Props.C46_ties_order_matters`: propext, Classical.choice, Quot.sound
- `Surfalize.Props.C46_argclosest`: propext, Classical.choice, Quot.sound
- `Surfalize.Props.C47_positions_partial`: propext, Classical.choice, Quot.sound
- `Surfalize.Props.C47_nan_empty`: propext, Quot.sound
- `Surfalize.Props.C48_any_schedule`: propext, Quot.sound
- `Surfalize.Props.C48_delivered_so_far`: propext
- `Surfalize.Props.C48_same_rows`: propext, Quot.sound
- `Surfalize.Props.C48_failure`: propext, Quot.sound
- `Surfalize.Props.C48_finishes`: propext, Quot.sound
- `Surfalize.Props.C48_table`: propext, Quot.sound
- `Surfalize.Props.C49_row`: propext, Quot.sound
- `Surfalize.Props.C49_sites_chained`: propext, Quot.sound
- `Surfalize.Props.C49_sites_unordered`: propext, Quot.sound
- `Surfalize.Props.C49_cell`: propext, Classical.choice, Quot.sound
- `Surfalize.Props.C49_row_columns`: propext, Quot.sound
- `Surfalize.Props.C49_file_column`: propext, Classical.choice, Quot.sound
- `Surfalize.Props.C50_duplicate_rejected_partial`: propext, Quot.sound
- `Surfalize.Props.C50_accepted`: propext, Quot.sound
- `Surfalize.Props.C50_operations_repeat`: propext, Quot.sound
- `Surfalize.Props.C50_history`: propext, Classical.choice, Quot.sound
- `Surfalize.Props.C50_custom_name`: propext
- `Surfalize.Props.C50_fixed_arguments`: propext, Classical.choice, Quot.sound
- `Surfalize.Props.C50_no_steps`: propext
- `Surfalize.Props.C50_bulk`: propext, Classical.choice, Quot.sound
- `Surfalize.Props.C50_custom_duplicate_wrong_error`: propext, Quot.sound
- `Surfalize.Props.C50_bulk_not_atomic`: propext
- `Surfalize.Props.C51_failure_single_partial`: propext
- `Surfalize.Props.C51_failure_labels_partial`: propext, Quot.sound
- `Surfalize.Props.C51_values`: propext
- `Surfalize.Props.C51_values_columns`: propext, Quot.sound
- `Surfalize.Props.C51_same_columns`: propext, Quot.sound
- `Surfalize.Props.C51_not_ignored`: propext
- `Surfalize.Props.C51_other_errors_raised`: propext
- `Surfalize.Props.C51_cell_nan`: propext, Classical.choice, Quot.sound
- `Surfalize.Props.C51_custom_violates`: propext
- `Surfalize.Props.C52_plain`: propext, Classical.choice, Quot.sound
- `Surfalize.Props.C52_join_rows_partial`: propext, Quot.sound
- `Surfalize.Props.C52_files`: propext, Quot.sound
- `Surfalize.Props.C52_both_columns`: propext, Classical.choice, Quot.sound
- `Surfalize.Props.C52_join_count`: propext, Quot.sound
- `Surfalize.Props.C52_shared_columns`: propext, Classical.choice, Quot.sound
- `Surfalize.Props.C52_empty_batch_raises`: propext, Quot.sound
- `Surfalize.Props.C53_token_forms`: propext, Quot.sound
- `Surfalize.Props.C53_token_malformed_partial`: propext
- `Surfalize.Props.C53_token_too_many_parts`: propext, Classical.choice, Quot.sound
- `Surfalize.Props.C53_parse`: propext
- `Surfalize.Props.C53_unclosed`: propext
- `Surfalize.Props.C53_nested`: propext
- `Surfalize.Props.C53_bad_token`: propext
- `Surfalize.Props.C53_stray_close`: propext
- `Surfalize.Props.C53_regex`: propext, Classical.choice, Quot.sound
- `Surfalize.Props.C53_items`: propext, Classical.choice, Quot.sound
- `Surfalize.Props.C53_unknown_type`: propext, Classical.choice, Quot.sound
- `Surfalize.Props.C53_extracted_occurs`: propext, Classical.choice, Quot.sound
- `Surfalize.Props.C53_matched`: propext, Classical.choice, Quot.sound
- `Surfalize.Props.C53_roundtrip`: propext, Classical.choice, Quot.sound
- `Surfalize.Props.C53_int_value`: propext, Classical.choice, Quot.sound
- `Surfalize.Props.C53_float_value`: propext, Classical.choice, Quot.sound
- `Surfalize.Props.C53_roundtrip_values`: propext, Classical.choice, Quot.sound
- `Surfalize.Props.C53_unmatched`: propext, Classical.choice, Quot.sound
- `Surfalize.Props.C53_columns`: propext, Classical.choice, Quot.sound
- `Surfalize.Props.C54_success`: propext, Classical.choice, Quot.sound
- `Surfalize.Props.C54_failure`: propext, Quot.sound
- `Surfalize.Props.C54_no_trace`: propext, Quot.sound
- `Surfalize.Props.C54_default`: propext
- `Surfalize.Props.C54_documented`: propext
- `Surfalize.Props.C54_documented_refused`: propext
- `Surfalize.Props.C55_plan`: propext, Classical.choice, Quot.sound
- `Surfalize.Props.C55_option_order`: propext, Quot.sound
- `Surfalize.Props.C55_filter_last`: propext, Classical.choice, Quot.sound
- `Surfalize.Props.C55_no_missing`: propext, Classical.choice, Quot.sound
- `Surfalize.Props.C55_unfilled`: propext, Classical.choice, Quot.sound
- `Surfalize.Props.C55_sound_exists`: propext, Classical.choice, Quot.sound
- `Surfalize.Props.C56_conversion_partial`: propext, Classical.choice, Quot.sound
- `Surfalize.Props.C56_compose`: propext, Classical.choice, Quot.sound
- `Surfalize.Props.C56_writings`: propext, Classical.choice, Quot.sound
- `Surfalize.Props.C56_target_signs`: propext, Classical.choice, Quot.sound
- `Surfalize.Props.C56_faithful_exists`: propext
- `Surfalize.Props.C57_round_trip_partial`: propext, Classical.choice, Quot.sound
- `Surfalize.Props.C57_offsets`: propext, Quot.sound
- `Surfalize.Props.C57_text_iff`: propext, Classical.choice, Quot.sound
- `Surfalize.Props.C57_no_short_read`: propext, Classical.choice, Quot.sound
- `Surfalize.Props.C57_reserved`: propext, Quot.sound
- `Surfalize.Props.C58_round_trip_partial`: propext, Classical.choice, Quot.sound
- `Surfalize.Props.C58_one_step_partial`: propext, Classical.choice, Quot.sound
- `Surfalize.Props.C58_not_one_step`: propext, Classical.choice, Quot.sound
- `Surfalize.Props.C58_flat`: propext, Classical.choice, Quot.sound
- `Surfalize.Props.C58_flat_missing_lost`: propext, Classical.choice, Quot.sound
- `Surfalize.Props.C58_compressed_unreadable`: propext, Classical.choice, Quot.sound
- `Surfalize.Props.C58_saves`: propext, Classical.choice, Quot.sound
- `Surfalize.Props.C59_round_trip_partial`: propext, Classical.choice, Quot.sound
- `Surfalize.Props.C59_saves`: propext, Classical.choice, Quot.sound
- `Surfalize.Props.C59_too_large`: propext, Classical.choice, Quot.sound
- `Surfalize.Props.C59_no_points`: propext, Classical.choice, Quot.sound
- `Surfalize.Props.C59_ascii_saves`: propext, Classical.choice, Quot.sound
- `Surfalize.Props.C59_ascii_unreadable`: propext, Classical.choice, Quot.sound
- `Surfalize.Props.C59_ascii_heights`: propext, Classical.choice, Quot.sound
- `Surfalize.Props.C59_ascii_header`: propext, Classical.choice, Quot.sound
- `Surfalize.Props.C59_ascii_read`: propext, Classical.choice, Quot.sound
- `Surfalize.Props.C59_ascii_rest`: propext, Classical.choice, Quot.sound
- `Surfalize.Props.C59_ascii_name`: propext, Classical.choice, Quot.sound
- `Surfalize.Props.C60_round_trip`: propext, Classical.choice, Quot.sound
- `Surfalize.Props.C60_offset`: propext, Classical.choice, Quot.sound
- `Surfalize.Props.C61_round_trip_partial`: propext, Classical.choice, Quot.sound
- `Surfalize.Props.C61_exact`: propext, Classical.choice, Quot.sound
- `Surfalize.Props.C61_comment_too_long`: propext, Classical.choice, Quot.sound
- `Surfalize.Props.C61_ascii`: propext, Classical.choice, Quot.sound
- `Surfalize.Props.C61_saves`: propext, Classical.choice, Quot.sound
- `Surfalize.Props.C61_unreadable`: propext, Classical.choice, Quot.sound
- `Surfalize.Props.C62_round_trip_partial`: propext, Classical.choice, Quot.sound
- `Surfalize.Props.C62_unsigned_partial`: propext, Classical.choice, Quot.sound
- `Surfalize.Props.C62_missing_lost`: propext, Classical.choice, Quot.sound
- `Surfalize.Props.C62_signed_wrong`: propext, Classical.choice, Quot.sound
- `Surfalize.Props.C62_saves`: propext, Classical.choice, Quot.sound
- `Surfalize.Props.C62_no_points`: propext, Classical.choice, Quot.sound
- `Surfalize.Props.C62_names_partial`: propext, Classical.choice, Quot.sound
- `Surfalize.Props.C62_name_violated`: propext, Classical.choice, Quot.sound
- `Surfalize.Props.C62_name_unreadable`: propext, Classical.choice, Quot.sound
- `Surfalize.Props.C62_compressed`: propext, Classical.choice, Quot.sound
- `Surfalize.Props.C62_names_collide`: propext, Classical.choice, Quot.sound
- `Surfalize.Props.C62_dtype_names`: propext, Classical.choice, Quot.sound
- `Surfalize.Props.C63_magic_unique`: propext, Classical.choice, Quot.sound
- `Surfalize.Props.C63_asked`: propext, Classical.choice, Quot.sound
- `Surfalize.Props.C63_path_magic`: propext, Classical.choice, Quot.sound
- `Surfalize.Props.C63_path_probe`: propext, Classical.choice, Quot.sound
- `Surfalize.Props.C63_path_iff`: propext, Classical.choice, Quot.sound
- `Surfalize.Props.C63_buffer_magic_partial`: propext, Classical.choice, Quot.sound
- `Surfalize.Props.C63_position_restored`: propext, Classical.choice, Quot.sound
- `Surfalize.Props.C63_position_moved`: propext, Classical.choice, Quot.sound
- `Surfalize.Props.C63_buffer_not_probed`: propext, Classical.choice, Quot.sound
- `Surfalize.Props.C63_buffer_wrong_format`: propext, Classical.choice, Quot.sound
- `Surfalize.Props.C63_plux_shadowed`: propext, Classical.choice, Quot.sound
- `Surfalize.Props.C63_save_path`: propext, Classical.choice, Quot.sound
- `Surfalize.Props.C63_save_format_ignored`: none
- `Surfalize.Props.C63_save_no_suffix`: none
- `Surfalize.Props.C63_save_buffer`: propext, Classical.choice, Quot.sound
- `Surfalize.Props.C63_save_case`: propext, Classical.choice, Quot.sound
- `Surfalize.Props.C63_register`: propext, Quot.sound
- `Surfalize.Props.C63_register_other`: propext, Quot.sound
- `Surfalize.Props.C63_register_magic`: propext, Classical.choice, Quot.sound
- `Surfalize.Props.C63_documented`: propext, Classical.choice, Quot.sound
- `Surfalize.Props.C63_documented_writing`: propext, Classical.choice, Quot.sound
- `Surfalize.Props.C64_gwy_tree`: propext, Classical.choice, Quot.sound
- `Surfalize.Props.C64_gwy`: propext, Classical.choice, Quot.sound
- `Surfalize.Props.C64_fits_header`: propext, Classical.choice, Quot.sound
- `Surfalize.Props.C64_fits_endless`: propext, Classical.choice, Quot.sound
- `Surfalize.Props.C64_fits_violated`: propext, Classical.choice, Quot.sound
- `Surfalize.Props.C64_fits_extensions`: propext, Classical.choice, Quot.sound
- `Surfalize.Props.C64_fits_partial`: propext, Classical.choice, Quot.sound
- `Surfalize.Props.C65_round_trip_partial`: propext, Classical.choice, Quot.sound
- `Surfalize.Props.C65_file_partial`: propext, Classical.choice, Quot.sound
- `Surfalize.Props.C65_long_text_lost`: propext, Classical.choice, Quot.sound
- `Surfalize.Props.C65_order_irrelevant`: propext, Classical.choice, Quot.sound
- `Surfalize.Props.C65_choice`: propext, Classical.choice, Quot.sound
- `Surfalize.Props.C65_found`: propext, Classical.choice, Quot.sound
- `Surfalize.Props.C65_surface`: propext, Classical.choice, Quot.sound
- `Surfalize.Props.C65_leading_zeros_lost`: propext, Classical.choice, Quot.sound
- `Surfalize.Props.C65_repeated`: propext, Classical.choice, Quot.sound
- `Surfalize.Props.C65_other_numbers_lost`: propext, Classical.choice, Quot.sound
- `Surfalize.Props.C66_dat`: propext, Classical.choice, Quot.sound
- `Surfalize.Props.C66_dat_reads`: propext, Classical.choice, Quot.sound
- `Surfalize.Props.C66_dat_images`: propext, Classical.choice, Quot.sound
- `Surfalize.Props.C66_fits_partial`: propext, Classical.choice, Quot.sound
- `Surfalize.Props.C66_fits_unit_y_ignored`: propext, Classical.choice, Quot.sound
- `Surfalize.Props.C66_nms_partial`: propext, Classical.choice, Quot.sound
- `Surfalize.Props.C66_nms_violated`: propext, Classical.choice, Quot.sound
- `Surfalize.Props.C66_nms_reads`: propext, Classical.choice, Quot.sound
- `Surfalize.Props.C66_xyz_order`: propext, Classical.choice, Quot.sound
- `Surfalize.Props.C66_xyz_partial`: propext, Classical.choice, Quot.sound
- `Surfalize.Props.C66_xyz_violated`: propext, Classical.choice, Quot.sound
- `Surfalize.Props.C66_xyz_transposed`: propext, Classical.choice, Quot.sound
- `Surfalize.Props.C66_xyz_incomplete`: propext, Classical.choice, Quot.sound
- `Surfalize.Props.C66_opd`: propext, Classical.choice, Quot.sound
- `Surfalize.Props.C66_opd_image`: propext, Classical.choice, Quot.sound
- `Surfalize.Props.C66_opd_same_name`: propext, Classical.choice, Quot.sound
- `Surfalize.Props.C66_xyz_no_table`: propext, Quot.sound
- `Surfalize.Props.C66_fits_file_partial`: propext, Classical.choice, Quot.sound
- `Surfalize.Props.C66_opd_array_size`: propext, Quot.sound
- `Surfalize.Props.C66_fits_lines_violated`: propext, Classical.choice, Quot.sound
- `Surfalize.Props.C67_sur`: propext, Classical.choice, Quot.sound
- `Surfalize.Props.C67_sur_compressed`: propext, Classical.choice, Quot.sound
- `Surfalize.Props.C67_al3d`: propext, Classical.choice, Quot.sound
- `Surfalize.Props.C67_sdf_integers`: propext, Classical.choice, Quot.sound
- `Surfalize.Props.C67_sdf_doubles`: propext, Classical.choice, Quot.sound
- `Surfalize.Props.C67_plu`: propext, Classical.choice, Quot.sound
- `Surfalize.Props.C67_plu_reads`: propext, Classical.choice, Quot.sound
- `Surfalize.Props.C67_plu_images`: propext, Classical.choice, Quot.sound
- `Surfalize.Props.C67_fits_mask_lost`: propext, Classical.choice, Quot.sound
- `Surfalize.Props.C67_fits_file_mask_lost`: propext, Classical.choice, Quot.sound
- `Surfalize.Props.C80_vk4`: propext, Classical.choice, Quot.sound
- `Surfalize.Props.C80_vk4_info`: propext, Classical.choice, Quot.sound
- `Surfalize.Props.C80_vk4_images`: propext, Classical.choice, Quot.sound
- `Surfalize.Props.C80_vk4_reads`: propext, Classical.choice, Quot.sound
- `Surfalize.Props.C80_vk4_corrupt`: propext, Classical.choice, Quot.sound
- `Surfalize.Props.C80_vk67`: propext, Classical.choice, Quot.sound
- `Surfalize.Props.C82_zmg`: propext, Classical.choice, Quot.sound
- `Surfalize.Props.C82_zmg_reads`: propext, Classical.choice, Quot.sound
- `Surfalize.Props.C82_zmg_magic`: propext, Classical.choice, Quot.sound
- `Surfalize.Props.C83_os3d`: propext, Classical.choice, Quot.sound
- `Surfalize.Props.C83_os3d_reads`: propext, Classical.choice, Quot.sound
- `Surfalize.Props.C83_os3d_magic`: propext, Classical.choice, Quot.sound
- `Surfalize.Props.C84_plux`: propext, Classical.choice, Quot.sound
- `Surfalize.Props.C84_plux_reads`: propext, Classical.choice, Quot.sound
- `Surfalize.Props.C84_plux_info`: propext, Classical.choice, Quot.sound
- `Surfalize.Props.C84_plux_layer`: propext, Classical.choice, Quot.sound
- `Surfalize.Props.C85_x3p_partial`: propext, Classical.choice, Quot.sound
- `Surfalize.Props.C85_x3p_reads`: propext, Classical.choice, Quot.sound
- `Surfalize.Props.C85_x3p_checksum`: propext, Classical.choice, Quot.sound
- `Surfalize.Props.C85_x3p_members`: propext, Classical.choice, Quot.sound
- `Surfalize.Props.C85_x3p_metadata`: propext, Classical.choice, Quot.sound
- `Surfalize.Props.C85_x3p_violated`: propext, Classical.choice, Quot.sound
- `Surfalize.Props.C67_sur_kinds`: propext, Classical.choice, Quot.sound
- `Surfalize.Props.C68_own_parameters_partial`: propext, Quot.sound
- `Surfalize.Props.C68_foreign_mask`: propext, Classical.choice, Quot.sound
- `Surfalize.Props.C93_edited_copy_violated`: propext, Classical.choice, Quot.sound
- `Surfalize.Props.C69_depth_partial`: propext, Classical.choice, Quot.sound
- `Surfalize.Props.C69_two_profiles_fail`: propext, Classical.choice, Quot.sound
- `Surfalize.Props.C69_errors`: propext, Classical.choice, Quot.sound
- `Surfalize.Props.C70_assignment`: propext, Classical.choice, Quot.sound
- `Surfalize.Props.C70_partial`: propext, Classical.choice, Quot.sound
- `Surfalize.Props.C70_crop_not_editable`: propext, Classical.choice, Quot.sound
- `Surfalize.Props.C70_violated`: propext, Classical.choice, Quot.sound
- `Surfalize.Props.C71_crop_rectangle`: propext, Classical.choice, Quot.sound
- `Surfalize.Props.C71_crop_indices`: propext, Classical.choice, Quot.sound
- `Surfalize.Props.C71_inside_partial`: propext, Classical.choice, Quot.sound
- `Surfalize.Props.C71_wide_partial`: propext, Classical.choice, Quot.sound
- `Surfalize.Props.C71_wide_violated`: propext, Classical.choice, Quot.sound
- `Surfalize.Props.C71_zero_exists`: propext, Classical.choice, Quot.sound
- `Surfalize.Props.C72_optimal`: propext, Classical.choice, Quot.sound
- `Surfalize.Props.C72_affine`: propext, Classical.choice, Quot.sound
- `Surfalize.Props.C72_threshold_not_cut`: propext, Classical.choice, Quot.sound
- `Surfalize.Props.C73_level`: propext, Classical.choice, Quot.sound
- `Surfalize.Props.C73_mean`: propext, Classical.choice, Quot.sound
- `Surfalize.Props.C74_affine`: propext, Classical.choice, Quot.sound
- `Surfalize.Props.C74_sort_exists`: propext, Classical.choice, Quot.sound
- `Surfalize.Props.C75_sal`: propext, Classical.choice, Quot.sound
- `Surfalize.Props.C75_flat`: propext, Classical.choice, Quot.sound
- `Surfalize.Props.C75_affine`: propext, Classical.choice, Quot.sound
- `Surfalize.Props.C75_spline`: propext, Classical.choice, Quot.sound
- `Surfalize.Props.C76_grating_partial`: propext, Classical.choice, Quot.sound
- `Surfalize.Props.C76_period_too_small`: propext, Classical.choice, Quot.sound
- `Surfalize.Props.C77_depth_bounded`: propext, Classical.choice, Quot.sound
- `Surfalize.Props.C78_window`: propext, Classical.choice, Quot.sound
- `Surfalize.Props.C78_interval`: propext, Classical.choice, Quot.sound
- `Surfalize.Props.C78_aspect_ratio`: propext, Classical.choice, Quot.sound
- `Surfalize.Props.C78_aspect_ratio_error`: propext, Classical.choice, Quot.sound
- `Surfalize.Props.C79_refused_partial`: none
- `Surfalize.Props.C79_success`: propext, Classical.choice, Quot.sound
- `Surfalize.Props.C79_failed_save_destroys`: propext, Classical.choice, Quot.sound
- `Surfalize.Props.C79_failed_save_buffer`: propext, Classical.choice, Quot.sound
- `Surfalize.Props.C81_partial`: propext, Classical.choice, Quot.sound
- `Surfalize.Props.C81_utf8`: propext, Classical.choice, Quot.sound
- `Surfalize.Props.C81_violated`: propext, Classical.choice, Quot.sound
- `Surfalize.Props.C86_file_partial`: propext, Classical.choice, Quot.sound
- `Surfalize.Props.C86_file_violated`: propext, Classical.choice, Quot.sound
- `Surfalize.Props.C86_dir_partial`: propext, Classical.choice, Quot.sound
- `Surfalize.Props.C86_dir_stops`: propext, Classical.choice, Quot.sound
- `Surfalize.Props.C86_dir_violated`: propext, Classical.choice, Quot.sound
- `Surfalize.Props.C86_same_dir_violated`: propext, Classical.choice, Quot.sound
- `Surfalize.Props.C86_options`: propext, Classical.choice, Quot.sound
- `Surfalize.Props.C87_partial`: propext, Classical.choice, Quot.sound
- `Surfalize.Props.C87_append`: propext, Quot.sound
- `Surfalize.Props.C87_add`: propext, Quot.sound
- `Surfalize.Props.C87_violated`: propext, Classical.choice, Quot.sound
- `Surfalize.Props.C87_report`: propext, Classical.choice, Quot.sound
- `Surfalize.Props.C88_square_partial`: propext, Classical.choice, Quot.sound
- `Surfalize.Props.C88_rows`: propext, Classical.choice, Quot.sound
- `Surfalize.Props.C88_columns`: propext, Classical.choice, Quot.sound
- `Surfalize.Props.C88_rectangular_violated`: propext, Classical.choice, Quot.sound
- `Surfalize.Props.C88_parallel_violated`: propext, Classical.choice, Quot.sound
- `Surfalize.Props.C88_short_violated`: propext, Classical.choice, Quot.sound
- `Surfalize.Props.C88_inside`: propext, Classical.choice, Quot.sound
- `Surfalize.Props.C88_rejects`: propext, Classical.choice, Quot.sound
- `Surfalize.Props.C88_recovers_exists`: propext, Classical.choice, Quot.sound
- `Surfalize.Props.C88_parallel_rows_violated`: propext, Classical.choice, Quot.sound
- `Surfalize.Props.C89_path`: propext, Classical.choice, Quot.sound
- `Surfalize.Props.C89_buffer_partial`: propext, Classical.choice, Quot.sound
- `Surfalize.Props.C89_tmd_reused_buffer`: propext, Classical.choice, Quot.sound
- `Surfalize.Props.C89_sound_exists`: propext, Classical.choice, Quot.sound
- `Surfalize.Props.C89_demo_holds`: propext, Classical.choice, Quot.sound
- `Surfalize.Props.C90_same`: propext, Classical.choice, Quot.sound
- `Surfalize.Props.C90_values`: propext, Classical.choice, Quot.sound
- `Surfalize.Props.C90_errors`: propext, Classical.choice, Quot.sound
- `Surfalize.Props.C91_index`: propext, Classical.choice, Quot.sound
- `Surfalize.Props.C91_extract_partial`: propext, Classical.choice, Quot.sound
- `Surfalize.Props.C91_safe`: propext, Classical.choice, Quot.sound
- `Surfalize.Props.C91_errors`: propext, Classical.choice, Quot.sound
- `Surfalize.Props.C91_same_name_violated`: propext, Classical.choice, Quot.sound
- `Surfalize.Props.C91_one_line_violated`: propext, Classical.choice, Quot.sound
- `Surfalize.Props.C91_misaligned_violated`: propext, Classical.choice, Quot.sound
- `Surfalize.Props.C91_windows_violated`: propext, Quot.sound
- `Surfalize.Props.C91_indexed_example`: propext, Classical.choice, Quot.sound
- `Surfalize.Props.C92_bind`: propext, Classical.choice, Quot.sound
- `Surfalize.Props.C92_call_partial`: propext, Classical.choice, Quot.sound
- `Surfalize.Props.C92_operations_partial`: propext, Classical.choice, Quot.sound
- `Surfalize.Props.C92_positional_violated`: propext, Classical.choice, Quot.sound
- `Surfalize.Props.C92_filter_violated`: propext, Classical.choice, Quot.sound
- `Surfalize.Props.C92_methods`: propext, Classical.choice, Quot.sound
- `Surfalize.Props.opInfo_eq`: propext, Classical.choice, Quot.sound
- `Surfalize.Props.C93_fresh_partial`: propext, Classical.choice, Quot.sound
- `Surfalize.Props.C93_others`: propext
- `Surfalize.Props.C93_second_inplace_noop`: propext
- `Surfalize.Props.C93_copy_of_copy`: propext, Classical.choice, Quot.sound
- `Surfalize.Props.C93_copy_violated`: propext, Classical.choice, Quot.sound
- `Surfalize.Props.C93_package`: propext, Quot.sound
- `Surfalize.Props.C94_dominant_partial`: propext, Classical.choice, Quot.sound
- `Surfalize.Props.C94_sinusoid_partial`: propext, Classical.choice, Quot.sound
- `Surfalize.Props.C94_range`: propext, Classical.choice, Quot.sound
- `Surfalize.Props.C94_shallow_violated`: propext, Classical.choice, Quot.sound
- `Surfalize.Props.C94_single_violated`: propext, Classical.choice, Quot.sound
- `Surfalize.Props.C94_single`: propext, Classical.choice, Quot.sound
- `Surfalize.Props.C94_missing`: propext, Classical.choice, Quot.sound
- `Surfalize.Props.C94_profile`: propext, Classical.choice, Quot.sound
- `Surfalize.Props.C94_short`: propext, Classical.choice, Quot.sound
- `Surfalize.Props.C95_surface`: propext, Classical.choice, Quot.sound
- `Surfalize.Props.C95_bandpass`: propext, Classical.choice, Quot.sound
- `Surfalize.Props.C95_linear`: propext, Classical.choice, Quot.sound
- `Surfalize.Props.C95_mirror`: propext, Classical.choice, Quot.sound
- `Surfalize.Props.C95_profile`: propext, Classical.choice, Quot.sound
- `Surfalize.Props.C95_small_cutoff`: propext, Classical.choice, Quot.sound
- `Surfalize.Props.C95_constant_pads`: propext, Classical.choice, Quot.sound
- `Surfalize.Props.C95_object`: propext, Classical.choice, Quot.sound
- `Surfalize.Props.C96_profile`: propext, Classical.choice, Quot.sound
- `Surfalize.Props.C96_surface`: propext, Classical.choice, Quot.sound
- `Surfalize.Props.C96_bands`: propext, Classical.choice, Quot.sound
- `Surfalize.Props.C97_dominant_wave`: propext, Classical.choice, Quot.sound
- `Surfalize.Props.C97_noise`: propext, Classical.choice, Quot.sound
- `Surfalize.Props.C97_mirror`: propext, Classical.choice, Quot.sound
- `Surfalize.Props.C97_transpose`: propext, Classical.choice, Quot.sound
- `Surfalize.Props.C97_affine`: propext, Classical.choice, Quot.sound
- `Surfalize.Props.C97_argsort_exists`: propext, Classical.choice, Quot.sound
- `Surfalize.Props.C98_number`: propext, Classical.choice, Quot.sound
- `Surfalize.Props.C98_order`: propext, Classical.choice, Quot.sound
- `Surfalize.Props.C98_table`: propext, Classical.choice, Quot.sound
- `Surfalize.Props.C98_file`: propext, Classical.choice, Quot.sound
- `Surfalize.Props.C98_directory`: propext, Classical.choice, Quot.sound
- `Surfalize.Props.C98_stops`: propext, Classical.choice, Quot.sound
- `Surfalize.Props.C98_usage`: propext, Classical.choice, Quot.sound
- `Surfalize.Props.C98_flat_violated`: propext, Classical.choice, Quot.sound
- `Surfalize.Props.C98_ties`: propext, Classical.choice, Quot.sound
- `Surfalize.Props.C98_special`: propext, Classical.choice, Quot.sound
- `Surfalize.Props.C99_mirror_partial`: propext, Classical.choice, Quot.sound
- `Surfalize.Props.C99_transpose`: propext, Classical.choice, Quot.sound
- `Surfalize.Props.C99_datum`: propext, Classical.choice, Quot.sound
- `Surfalize.Props.C99_unit`: propext, Classical.choice, Quot.sound
- `Surfalize.Props.C99_area_not_mirror_invariant`: propext, Classical.choice, Quot.sound
