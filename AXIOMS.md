# Axioms of the manifest theorems

Output of `#print axioms`, grouped.

## none

* `IMT.Points.C26_no_interval_violated`
* `IMT.Points.C28_units_violated`
* `IMT.File.C66_new_file_violated`
* `IMT.Protocol.C78_default_violated`
* `IMT.Utils.C79_points_violated`
* `IMT.Weird.C239_scalar_violated`
* `IMT.Spatial.C277_divide_violated`
* `IMT.Color.C320_one_violated`
* `IMT.Color.C320_rows_violated`
* `IMT.Refine.C324_instants`
* `IMT.Coherence.C326_smooth_violated`
* `IMT.Meas.C335_unit_violated`
* `IMT.Treat.C360_swirling_violated`
* `IMT.Spatial.C389_empty`
* `IMT.Spatial.C389_iterate_violated`
* `IMT.Spatial.C389_mask_violated`

## `propext`

* `IMT.Axis.C04_crop_refused`
* `IMT.SF.C08_rotate_refused`
* `IMT.Profile.C30_lengths`
* `IMT.Temporal.C47_neg`
* `IMT.TPoints.C48_refused`
* `IMT.Cp.C61_crop`
* `IMT.File.C66_orientation`
* `IMT.File.C66_list_violated`
* `IMT.File.C67_other_names`
* `IMT.File.C70_search_partial`
* `IMT.File.C70_empty_first_violated`
* `IMT.Utils.Files.C73_add`
* `IMT.Utils.C76_no_argument_violated`
* `IMT.Utils.C76_return`
* `IMT.Protocol.C78_rebuild`
* `IMT.Protocol.C78_mean_violated`
* `IMT.Protocol.C78_broken_violated`
* `IMT.Protocol.C78_silent_violated`
* `IMT.Protocol.C78_stale_violated`
* `IMT.Profile.C88_mask_flag_violated`
* `IMT.Same.C213_value_violated`
* `IMT.Same.C214_empty_violated`
* `IMT.Cps.C240_none_violated`
* `IMT.Series.C295_compressed_violated`
* `IMT.Series.C295_new_violated`
* `IMT.Cleaning.C307_refused`
* `IMT.Cleaning.C307_empty_violated`
* `IMT.Cleaning.C310_files_violated`
* `IMT.Cleaning.C310_lost_violated`
* `IMT.Color.C315_masked_violated`
* `IMT.Color.C320_reuse`
* `IMT.Coherence.C326_copy_violated`
* `IMT.Spatial.C328_profile_violated`
* `IMT.Frames.C373_none_violated`
* `IMT.Browse.C379_current_partial`
* `IMT.Browse.C379_writer`
* `IMT.Browse.C379_figure_violated`
* `IMT.Browse.C379_plain_violated`
* `IMT.Browse.C379_empty_violated`

## `Quot.sound`

* `IMT.Fill.C252_scalar_violated`

## `Quot.sound`, `propext`

* `IMT.Axis.C05_cropInd_keeps_range`
* `IMT.Axis.C05_cropInd_refused`
* `IMT.SF.C06_cropInd_keeps_readings`
* `IMT.SF.C15_import_single_point`
* `IMT.SF.C20_hard_nothing_to_do`
* `IMT.SF.C22_iter_complete`
* `IMT.Points.C24_add_missing_violated`
* `IMT.Points.C24_add_extra_violated`
* `IMT.Points.C25_nan_violated`
* `IMT.Points.C26_values_violated`
* `IMT.Points.C28_reverse_partial`
* `IMT.Points.C29_add_missing_violated`
* `IMT.Points.C29_iter_violated`
* `IMT.Profile.C35_add_points`
* `IMT.Temporal.C38_removal_violated`
* `IMT.Temporal.C44_all_runs`
* `IMT.Temporal.C47_div_number_violated`
* `IMT.Cp.C61_add_refused`
* `IMT.Cp.C61_remove_index_refused`
* `IMT.Cp.C61_remove_time_refused`
* `IMT.Cp.C62_trajectories_violated`
* `IMT.Cp.C62_epsilon_partial`
* `IMT.File.C66_bad_axes`
* `IMT.File.C67_dots_violated`
* `IMT.File.C70_member_partial`
* `IMT.Utils.Files.C73_parallel`
* `IMT.Utils.Files.C73_remove_negative`
* `IMT.Utils.Files.C73_remove_regex_violated`
* `IMT.Utils.C76_variadic_violated`
* `IMT.Protocol.C78_run_partial`
* `IMT.Protocol.C78_crash_partial`
* `IMT.Utils.C79_history_partial`
* `IMT.Utils.C79_exact`
* `IMT.Utils.C79_time_string_violated`
* `IMT.SF.C82_fill_value`
* `IMT.Profile.C90_crop_y_refused`
* `IMT.Temporal.C99_rotate_refused`
* `IMT.VF.C107_cropInd_keeps_readings`
* `IMT.VF.C110_iter_complete`
* `IMT.VF.C111_import_single_point`
* `IMT.VF.C115_nothing_returned_violated`
* `IMT.File.C118_order_violated`
* `IMT.Crit.C138_raw_violated`
* `IMT.Crit.C139_masked`
* `IMT.Zone.C164_property`
* `IMT.Zone.C164_nothing`
* `IMT.Same.C213_points_partial`
* `IMT.Same.C213_copies_violated`
* `IMT.Same.C213_nan_violated`
* `IMT.Polar.C218_line_violated`
* `IMT.Path.C227_decompose_refused`
* `IMT.Cps.C240_single_violated`
* `IMT.Cps.C240_copy_violated`
* `IMT.Cps.C245_simplify_violated`
* `IMT.Around.C287_kinds`
* `IMT.Same.C288_equal_partial`
* `IMT.Same.C288_refl`
* `IMT.Same.C288_empty_violated`
* `IMT.Same.C288_uncomputed_violated`
* `IMT.Same.C288_orientations_violated`
* `IMT.Vtk.C289_refused`
* `IMT.Vtk.C289_accepted`
* `IMT.Vtk.C289_bare_violated`
* `IMT.Vtk.C290_points_partial`
* `IMT.Vtk.C290_axis_violated`
* `IMT.Vtk.C290_values_violated`
* `IMT.Text.C291_single_violated`
* `IMT.Text.C291_single_profile_violated`
* `IMT.Series.C294_files`
* `IMT.Series.C295_folder`
* `IMT.Series.C295_vector_violated`
* `IMT.Mat.C296_grids`
* `IMT.Mat.C296_thin_violated`
* `IMT.Mat.C296_single_violated`
* `IMT.Browse.C302_animation_partial`
* `IMT.Browse.C302_first_violated`
* `IMT.Browse.C306_behind_violated`
* `IMT.Browse.C306_link_violated`
* `IMT.Points.C312_decompose_partial`
* `IMT.Points.C312_no_values_violated`
* `IMT.Color.C319_adjustable`
* `IMT.Refine.C323_other`
* `IMT.Refine.C324_outside_violated`
* `IMT.Spatial.C328_crossed_violated`
* `IMT.Spatial.C329_scalar_violated`
* `IMT.Cleaning.C345_lines`
* `IMT.Cleaning.C345_files_violated`
* `IMT.Browse.C363_leftover_violated`
* `IMT.Frames.C373_nothing_violated`
* `IMT.Dtype.C374_same`
* `IMT.Dtype.C374_unmasked_violated`
* `IMT.Browse.C379_all_partial`
* `IMT.Snap.C383_line_violated`
* `IMT.Trace.C384_line_violated`
* `IMT.Temporal.C385_refused`
* `IMT.Temporal.C388_indices_partial`

## `Classical.choice`, `Quot.sound`, `propext`

* `IMT.Axis.C01_bounds_bracket`
* `IMT.Axis.C01_bounds_refused_iff`
* `IMT.Axis.C02_nearest_minimal`
* `IMT.Axis.C03_decimal_inverts`
* `IMT.Axis.C04_crop_keeps_window`
* `IMT.SF.C06_crop_keeps_readings`
* `IMT.SF.C06_crop_consistent`
* `IMT.SF.C06_crop_missing_interval`
* `IMT.Alias.C07_copy_independent`
* `IMT.Alias.C07_crop_copy_partial`
* `IMT.Alias.C07_crop_axis_violated`
* `IMT.Alias.C07_crop_values_violated`
* `IMT.SF.C08_rotate_moves_readings`
* `IMT.SF.C08_single_point_violated`
* `IMT.SF.C09_rotate_compose`
* `IMT.SF.C09_full_turn`
* `IMT.SF.C09_rotate_back`
* `IMT.SF.C10_scale_moves_readings`
* `IMT.SF.C10_scale_units`
* `IMT.VF.C11_scale_partial`
* `IMT.VF.C11_mask_violated`
* `IMT.SF.C12_setOrigin_shifts`
* `IMT.SF.C13_changeUnit_physical`
* `IMT.SF.C13_changeUnit_refused`
* `IMT.SF.C14_extend_reads`
* `IMT.SF.C14_extend_axis`
* `IMT.SF.C14_extend_copy_violated`
* `IMT.SF.C15_import_reads_partial`
* `IMT.SF.C15_import_transposed`
* `IMT.SF.C15_import_mask_violated`
* `IMT.SF.C16_add_pointwise`
* `IMT.SF.C16_add_comm`
* `IMT.SF.C16_sub_pointwise`
* `IMT.SF.C16_add_refused`
* `IMT.SF.C16_axis_units_violated`
* `IMT.SF.C17_add_shared_partial`
* `IMT.SF.C17_add_disjoint_refused`
* `IMT.SF.C17_single_shared_violated`
* `IMT.SF.C18_div_pointwise`
* `IMT.SF.C18_divArr_pointwise`
* `IMT.SF.C18_div_refused`
* `IMT.SF.C18_rdiv_violated`
* `IMT.SF.C18_rdivArr_violated`
* `IMT.SF.C18_divArr_nan_violated`
* `IMT.SF.C19_soft_bounding_box`
* `IMT.SF.C19_soft_returns_partial`
* `IMT.SF.C19_soft_none_violated`
* `IMT.SF.C19_soft_first_row_violated`
* `IMT.SF.C20_hard_terminates`
* `IMT.SF.C20_hard_mask_free_partial`
* `IMT.SF.C20_hard_error_violated`
* `IMT.SF.C20_hard_empty_violated`
* `IMT.SF.C21_reduce_blocks`
* `IMT.SF.C21_mean_preserved`
* `IMT.SF.C21_reduce_copy_units`
* `IMT.SF.C21_inplace_units_violated`
* `IMT.SF.C21_odd_violated`
* `IMT.SF.C21_one_inplace_violated`
* `IMT.SF.C22_iter_order`
* `IMT.SF.C23_node`
* `IMT.SF.C23_out_of_range`
* `IMT.SF.C23_edge_y`
* `IMT.SF.C23_edge_x`
* `IMT.SF.C23_edge_between`
* `IMT.SF.C23_inside_between`
* `IMT.SF.C23_inside_affine`
* `IMT.SF.C23_masked_corner_partial`
* `IMT.SF.C23_masked_corner_violated`
* `IMT.Points.C24_history_partial`
* `IMT.Points.C25_crop_partial`
* `IMT.Points.C25_crop_ind`
* `IMT.Points.C26_cut_partial`
* `IMT.Points.C27_place_violated`
* `IMT.Points.C27_sum_partial`
* `IMT.Points.C27_mixed_refused`
* `IMT.Points.C27_units_violated`
* `IMT.Points.C27_operand_violated`
* `IMT.Points.C29_history_partial`
* `IMT.Points.C29_crop`
* `IMT.Points.C29_remove`
* `IMT.Profile.C30_new`
* `IMT.Profile.C31_crop_partial`
* `IMT.Profile.C31_lower_violated`
* `IMT.Profile.C31_upper_violated`
* `IMT.Profile.C31_both_violated`
* `IMT.Profile.C31_refused`
* `IMT.Profile.C32_inplace_ties_violated`
* `IMT.Profile.C32_inplace_partial`
* `IMT.Profile.C32_crop_ind`
* `IMT.Profile.C32_crop_ind_refused`
* `IMT.Profile.C33_fill_partial`
* `IMT.Profile.C33_fill_inplace_partial`
* `IMT.Profile.C33_value_violated`
* `IMT.Profile.C33_crop_violated`
* `IMT.Profile.C33_single_violated`
* `IMT.Profile.C33_no_value`
* `IMT.Profile.C34_node`
* `IMT.Profile.C34_between`
* `IMT.Profile.C34_no_overshoot`
* `IMT.Profile.C34_outside`
* `IMT.Profile.C34_array`
* `IMT.Profile.C35_history`
* `IMT.Profile.C35_add_point`
* `IMT.Profile.C35_remove_point`
* `IMT.Profile.C35_insertions`
* `IMT.Profile.C36_add_partial`
* `IMT.Profile.C36_add_units_violated`
* `IMT.Profile.C36_add_refused`
* `IMT.Profile.C36_div`
* `IMT.Profile.C36_div_operand_violated`
* `IMT.Profile.C36_div_operand_partial`
* `IMT.Profile.C37_border`
* `IMT.Profile.C37_all_masked`
* `IMT.Temporal.C38_add`
* `IMT.Temporal.C38_remove_one`
* `IMT.Temporal.C38_history_partial`
* `IMT.Temporal.C38_scale_violated`
* `IMT.Temporal.C39_remove_partial`
* `IMT.Temporal.C39_negative`
* `IMT.Temporal.C39_two_violated`
* `IMT.Temporal.C40_crop`
* `IMT.Temporal.C40_refused`
* `IMT.Temporal.C40_accepted`
* `IMT.Temporal.C41_mean_partial`
* `IMT.Temporal.C41_limit_violated`
* `IMT.Temporal.C42_min_partial`
* `IMT.Temporal.C42_max_partial`
* `IMT.Temporal.C42_first_violated`
* `IMT.Temporal.C42_units_violated`
* `IMT.Temporal.C43_stored`
* `IMT.Temporal.C43_stored_unique`
* `IMT.Temporal.C43_between`
* `IMT.Temporal.C43_convex`
* `IMT.Temporal.C43_out`
* `IMT.Temporal.C44_mean_partial`
* `IMT.Temporal.C44_first_partial`
* `IMT.Temporal.C44_last_run_violated`
* `IMT.Temporal.C45_augment_partial`
* `IMT.Temporal.C45_again_violated`
* `IMT.Temporal.C46_refused_partial`
* `IMT.Temporal.C46_accepted`
* `IMT.Temporal.C46_grid_violated`
* `IMT.Temporal.C46_time_partial`
* `IMT.Temporal.C46_time_violated`
* `IMT.Temporal.C46_dimension_violated`
* `IMT.Temporal.C47_add_partial`
* `IMT.Temporal.C47_add_field`
* `IMT.Temporal.C47_add_number`
* `IMT.Temporal.C47_mul_number_violated`
* `IMT.Temporal.C47_product_violated`
* `IMT.Temporal.C47_add_times_violated`
* `IMT.Temporal.C47_add_units_violated`
* `IMT.Temporal.C47_pow_violated`
* `IMT.Temporal.C47_div_field_violated`
* `IMT.TPoints.C48_in_place`
* `IMT.TPoints.C48_time_partial`
* `IMT.TPoints.C48_source_violated`
* `IMT.Spatial.C49_first_partial`
* `IMT.Spatial.C49_units_violated`
* `IMT.Spatial.C49_border_violated`
* `IMT.Traj.C50_partition`
* `IMT.Traj.C51_consecutive`
* `IMT.Traj.C52_links_partial`
* `IMT.Traj.C52_small_epsilon_violated`
* `IMT.Traj.C53_step_greedy_partial`
* `IMT.Traj.C53_step_terminates`
* `IMT.Traj.C53_reach_violated`
* `IMT.Topo.C54_replacement_partial`
* `IMT.Topo.C54_only_delete`
* `IMT.Topo.C54_replacement_violated`
* `IMT.Topo.C55_terminates_separated`
* `IMT.Topo.C55_empty_refused`
* `IMT.Topo.C55_infinite_radius_diverges`
* `IMT.Topo.C56_barycentre`
* `IMT.Topo.C56_mass_conserved`
* `IMT.Pbi.C57_velocity_cell`
* `IMT.Pbi.C57_integer`
* `IMT.Pbi.C57_additive_x`
* `IMT.Pbi.C57_additive_y`
* `IMT.Pbi.C57_cell_range`
* `IMT.Pbi.C58_sign_test_partial`
* `IMT.Pbi.C58_horizontal_violated`
* `IMT.Pbi.C58_null_corner_violated`
* `IMT.Pbi.C59_lookup_partial`
* `IMT.Pbi.C59_lookup_violated`
* `IMT.Pbi.C59_affine_dropped_violated`
* `IMT.Pbi.C59_corner_violated`
* `IMT.Pbi.C59_corner_swapped_violated`
* `IMT.Pbi.C59_null_component_violated`
* `IMT.Pbi.C59_unique_zero_partial`
* `IMT.Pbi.C59_in_cell`
* `IMT.Pbi.C59_affine_violated`
* `IMT.Pbi.C59_detected_has_zero`
* `IMT.Pbi.C59_detected_partial`
* `IMT.Cp.C60_sum`
* `IMT.Cp.C60_refused`
* `IMT.Cp.C60_order`
* `IMT.Cp.C61_add`
* `IMT.Cp.C61_remove_index`
* `IMT.Cp.C61_remove_time`
* `IMT.Cp.C61_history`
* `IMT.Cp.Mean.C63_terminates`
* `IMT.Cp.Mean.C63_partition`
* `IMT.Cp.Mean.C63_saturated`
* `IMT.Ascii.C64_roundtrip`
* `IMT.Ascii.C65_import_rows`
* `IMT.Ascii.C65_roundtrip_partial`
* `IMT.Ascii.C65_masked_violated`
* `IMT.File.C66_roundtrip_partial`
* `IMT.File.C66_default_axes`
* `IMT.File.C67_roundtrip_partial`
* `IMT.File.C67_second_export_partial`
* `IMT.File.C67_two_formats`
* `IMT.File.C68_im7`
* `IMT.File.C69_frames`
* `IMT.File.C69_undecodable`
* `IMT.File.C69_frame_field`
* `IMT.File.C69_unit_violated`
* `IMT.File.C70_empty_after_violated`
* `IMT.Utils.C71_history_partial`
* `IMT.Utils.C71_restart_partial`
* `IMT.Utils.C71_unpicklable_violated`
* `IMT.Utils.C71_mutation_violated`
* `IMT.Utils.C71_mutation_persists_violated`
* `IMT.Utils.C71_shared_violated`
* `IMT.Utils.C72_kill_partial`
* `IMT.Utils.C72_crash_violated`
* `IMT.Utils.Files.C73_remove_index`
* `IMT.Utils.Files.C73_remove_array_partial`
* `IMT.Utils.Files.C73_remove_array_violated`
* `IMT.Utils.C74_last`
* `IMT.Utils.C74_lines`
* `IMT.Utils.C74_count`
* `IMT.Utils.C74_finish`
* `IMT.Utils.C74_zero_violated`
* `IMT.Utils.C75_display_partial`
* `IMT.Utils.C75_canonical`
* `IMT.Utils.C75_days_violated`
* `IMT.Utils.C76_checks_partial`
* `IMT.Utils.C77_restore_partial`
* `IMT.Utils.C77_leak_violated`
* `IMT.Utils.C79_axis_partial`
* `IMT.Utils.C79_other`
* `IMT.Utils.C79_scalar_violated`
* `IMT.Utils.C79_string_violated`
* `IMT.Disc.C80_disc_exact_partial`
* `IMT.Disc.C80_disc_refused`
* `IMT.Disc.C80_disc_outside_violated`
* `IMT.SF.C81_mul_pointwise`
* `IMT.SF.C81_mul_refused`
* `IMT.SF.C81_mul_div`
* `IMT.SF.C82_fill_copy_partial`
* `IMT.SF.C82_fill_crop_violated`
* `IMT.Traj.C83_longest_first`
* `IMT.Topo.C84_only_delete`
* `IMT.Pbi.C85_total_index_partial`
* `IMT.Pbi.C85_horizontal_violated`
* `IMT.Points.C86_sort`
* `IMT.Points.C87_remove_partial`
* `IMT.Points.C87_values_violated`
* `IMT.Profile.C88_mask_false_partial`
* `IMT.Points.C89_scale`
* `IMT.Points.C89_set_origin`
* `IMT.Profile.C90_crop_y`
* `IMT.Profile.C91_scale`
* `IMT.Profile.C91_change_unit_x`
* `IMT.Profile.C91_change_unit_y`
* `IMT.Profile.C92_mul`
* `IMT.Profile.C92_add_number`
* `IMT.Profile.C92_neg`
* `IMT.Profile.C92_pow_partial`
* `IMT.Profile.C92_pow_zero_violated`
* `IMT.Profile.C93_interpolated_sound`
* `IMT.Profile.C93_round_trip`
* `IMT.Profile.C93_interpolated_complete_partial`
* `IMT.Profile.C93_interpolated_violated`
* `IMT.Profile.C93_position_sound`
* `IMT.Profile.C93_position_complete_partial`
* `IMT.Profile.C93_position_violated`
* `IMT.Profile.C94_remove_nans`
* `IMT.Profile.C95_extrema`
* `IMT.Profile.C96_additive`
* `IMT.Profile.C96_segment`
* `IMT.Profile.C96_masked`
* `IMT.Profile.C96_nonneg`
* `IMT.Profile.C96_linear`
* `IMT.Temporal.C97_times`
* `IMT.Temporal.C97_fields_partial`
* `IMT.Temporal.C97_negative_violated`
* `IMT.Temporal.C98_change_unit`
* `IMT.Temporal.C98_change_unit_time`
* `IMT.Temporal.C98_refused`
* `IMT.Temporal.C98_refused_axes`
* `IMT.Temporal.C99_set_origin`
* `IMT.Temporal.C99_rotate`
* `IMT.TPoints.C100_add`
* `IMT.TPoints.C100_remove_one`
* `IMT.TPoints.C100_removed_violated`
* `IMT.TPoints.C100_unit_violated`
* `IMT.TPoints.C100_history_partial`
* `IMT.TPoints.C101_crop_violated`
* `IMT.TPoints.C102_scale_partial`
* `IMT.TPoints.C102_default_violated`
* `IMT.TPoints.C103_points`
* `IMT.TPoints.C103_time`
* `IMT.TPoints.C103_refused`
* `IMT.TPoints.C103_values_violated`
* `IMT.TPoints.C103_stale_violated`
* `IMT.TPoints.C103_sets_partial`
* `IMT.Spatial.C104_mean_partial`
* `IMT.Spatial.C104_outside`
* `IMT.Spatial.C104_border_violated`
* `IMT.Spatial.C105_add`
* `IMT.Spatial.C105_refused`
* `IMT.VF.C106_rotate`
* `IMT.VF.C106_refused`
* `IMT.VF.C107_crop_keeps_readings`
* `IMT.VF.C107_crop_consistent`
* `IMT.VF.C107_crop_missing_interval`
* `IMT.VF.C108_setOrigin_shifts`
* `IMT.VF.C108_changeUnit_physical`
* `IMT.VF.C108_changeUnit_refused`
* `IMT.VF.C109_extend_reads`
* `IMT.VF.C111_import_reads_partial`
* `IMT.VF.C111_import_mask_violated`
* `IMT.VF.C111_import_transposed`
* `IMT.VF.C112_add_pointwise`
* `IMT.VF.C112_neg`
* `IMT.VF.C112_sub_pointwise`
* `IMT.VF.C112_add_comm`
* `IMT.VF.C112_add_refused`
* `IMT.VF.C113_add_shared_partial`
* `IMT.VF.C113_zero_violated`
* `IMT.VF.C114_mulNum`
* `IMT.VF.C114_mulSF_partial`
* `IMT.VF.C114_unit_violated`
* `IMT.VF.C114_grid_violated`
* `IMT.VF.C115_soft_bounding_box`
* `IMT.VF.C115_soft_returns_partial`
* `IMT.VF.C115_hard_terminates`
* `IMT.VF.C115_hard_mask_free_partial`
* `IMT.VF.C115_hard_error_violated`
* `IMT.Ascii.C116_columns`
* `IMT.Ascii.C116_columns_violated`
* `IMT.Ascii.C116_rows_partial`
* `IMT.Ascii.C116_rows_violated`
* `IMT.Ascii.C116_close_violated`
* `IMT.Ascii.C116_incomplete_violated`
* `IMT.Ascii.C116_any_order_partial`
* `IMT.Ascii.C116_square_violated`
* `IMT.File.C117_vc7_partial`
* `IMT.File.C117_pixel_violated`
* `IMT.File.C118_order_partial`
* `IMT.File.C118_injective`
* `IMT.Treat.C119_gradients_partial`
* `IMT.Treat.C119_uneven_violated`
* `IMT.Treat.C120_affine_partial`
* `IMT.Treat.C120_shown`
* `IMT.Treat.C120_uneven_violated`
* `IMT.Treat.C121_gradients_partial`
* `IMT.Treat.C121_divergence_partial`
* `IMT.Treat.C121_divergence_refused`
* `IMT.Treat.C121_uneven_violated`
* `IMT.Treat.C122_numbers_partial`
* `IMT.Treat.C122_unit_violated`
* `IMT.Treat.C123_track_field`
* `IMT.Treat.C123_fieldlines`
* `IMT.Treat.C123_tracklines_partial`
* `IMT.Treat.C123_reverse_violated`
* `IMT.Treat.C124_reconstruct_partial`
* `IMT.Treat.C124_quadratic_partial`
* `IMT.Treat.C124_units_violated`
* `IMT.Treat.C124_masked_violated`
* `IMT.Treat.C124_roundtrip_partial`
* `IMT.Treat.C125_streamlines`
* `IMT.Treat.C125_reverse`
* `IMT.Treat.C125_refused`
* `IMT.Treat.C126_starts_partial`
* `IMT.Treat.C126_integers_violated`
* `IMT.Treat.C127_left_partial`
* `IMT.Treat.C127_near_violated`
* `IMT.Treat.C127_right_violated`
* `IMT.Treat.C127_first_violated`
* `IMT.Crit.C128_motif`
* `IMT.Crit.C128_shown`
* `IMT.Crit.C128_local`
* `IMT.Crit.C128_units_partial`
* `IMT.Crit.C128_units_violated`
* `IMT.Crit.C129_bounds`
* `IMT.Crit.C129_bounds_units`
* `IMT.Crit.C129_gamma2b`
* `IMT.Crit.C129_gamma1b`
* `IMT.Crit.C130_scale`
* `IMT.Crit.C130_galilean`
* `IMT.Crit.C130_turn`
* `IMT.Crit.C131_vortex`
* `IMT.Crit.C131_source`
* `IMT.Crit.C131_rotation`
* `IMT.Crit.C131_vortex_only`
* `IMT.Crit.C131_units_violated`
* `IMT.Crit.C132_kappa2_partial`
* `IMT.Crit.C132_centre_violated`
* `IMT.Crit.C133_slopes_partial`
* `IMT.Crit.C133_never_masked`
* `IMT.Crit.C133_half_violated`
* `IMT.Crit.C133_unit_violated`
* `IMT.Crit.C134_curl_of_gradient`
* `IMT.Crit.C134_galilean`
* `IMT.Crit.C134_turned`
* `IMT.Crit.C135_split`
* `IMT.Crit.C135_rotation`
* `IMT.Crit.C135_shear`
* `IMT.Crit.C135_turned_partial`
* `IMT.Crit.C135_turned_violated`
* `IMT.Crit.C135_expansion_violated`
* `IMT.Crit.C136_q_partial`
* `IMT.Crit.C136_q_violated`
* `IMT.Crit.C136_missed_violated`
* `IMT.Crit.C136_nk`
* `IMT.Crit.C136_nk_invariant`
* `IMT.Crit.C136_nk_undefined`
* `IMT.Crit.C137_masked`
* `IMT.Crit.C137_sign_violated`
* `IMT.Crit.C137_rotation_violated`
* `IMT.Crit.C137_unit_violated`
* `IMT.Crit.C138_lambda2`
* `IMT.Crit.C138_swirl`
* `IMT.Crit.C138_agree`
* `IMT.Crit.C139_sum`
* `IMT.Crit.C139_border`
* `IMT.Crit.C139_affine_partial`
* `IMT.Crit.C139_area_violated`
* `IMT.Crit.C139_potential`
* `IMT.Crit.C139_axis`
* `IMT.Crit.C140_affine`
* `IMT.Crit.C141_sign`
* `IMT.Crit.C141_centre_violated`
* `IMT.Vortex.C142_solid`
* `IMT.Vortex.C142_free`
* `IMT.Vortex.C142_lamb_oseen`
* `IMT.Vortex.C142_burger`
* `IMT.Vortex.C142_rankine`
* `IMT.Vortex.C142_burger_as_lamb`
* `IMT.Vortex.C142_perso`
* `IMT.Vortex.C142_perso_vorticity_violated`
* `IMT.Vortex.C142_dipole_violated`
* `IMT.Vortex.C143_wall_partial`
* `IMT.Vortex.C143_position`
* `IMT.Vortex.C143_parallel_violated`
* `IMT.Vortex.C143_hill_violated`
* `IMT.Vortex.C143_custom_violated`
* `IMT.Vortex.C144_history_partial`
* `IMT.Vortex.C144_field`
* `IMT.Vortex.C144_kept`
* `IMT.Vortex.C144_index_violated`
* `IMT.Vortex.C144_count_violated`
* `IMT.Vortex.C144_shared_field_violated`
* `IMT.Vortex.C145_one`
* `IMT.Vortex.C145_sum`
* `IMT.Vortex.C145_detailed_violated`
* `IMT.Vortex.C145_map`
* `IMT.Vortex.C146_trajectories`
* `IMT.Vortex.C146_refused`
* `IMT.Vortex.C146_step`
* `IMT.Vortex.C147_conserved`
* `IMT.Vortex.C147_along_wall`
* `IMT.Vortex.C147_pair_violated`
* `IMT.Pod.C148_residual`
* `IMT.Pod.C148_all`
* `IMT.Pod.C148_wanted`
* `IMT.Pod.C148_wanted_violated`
* `IMT.Pod.C149_orthonormal`
* `IMT.Pod.C149_evolutions`
* `IMT.Pod.C149_energies`
* `IMT.Pod.C150_keep_partial`
* `IMT.Pod.C150_vectors_violated`
* `IMT.Pod.C150_remove_violated`
* `IMT.Pod.C150_index_violated`
* `IMT.Pod.C151_each`
* `IMT.Pod.C151_between`
* `IMT.Pod.C151_outside`
* `IMT.Pod.C152_space`
* `IMT.Pod.C152_scale`
* `IMT.Pod.C152_time_partial`
* `IMT.Pod.C152_accepted`
* `IMT.Pod.C152_start_violated`
* `IMT.Pod.C152_last_violated`
* `IMT.Pod.C153_rates`
* `IMT.Pod.C153_grows`
* `IMT.Pod.C153_real_partial`
* `IMT.Pod.C153_oscillating_violated`
* `IMT.Pod.C153_shift_violated`
* `IMT.Panel.C154_wall`
* `IMT.Panel.C154_on`
* `IMT.Panel.C154_off`
* `IMT.Panel.C154_extent_violated`
* `IMT.Panel.C155_far`
* `IMT.Panel.C155_proportional`
* `IMT.Panel.C156_solve`
* `IMT.Panel.C156_asked`
* `IMT.Panel.C156_inverse_violated`
* `IMT.Panel.C156_stream_violated`
* `IMT.Panel.C157_closed`
* `IMT.Panel.C157_close`
* `IMT.Panel.C157_open_violated`
* `IMT.Panel.C157_wall_violated`
* `IMT.Panel.C158_line_partial`
* `IMT.Panel.C158_backwards_violated`
* `IMT.Panel.C158_slanted_violated`
* `IMT.Panel.C158_pressure`
* `IMT.Zone.C159_zone_partial`
* `IMT.Zone.C159_peak`
* `IMT.Zone.C159_outside_violated`
* `IMT.Zone.C159_clockwise_violated`
* `IMT.Zone.C159_none_violated`
* `IMT.Zone.C159_still_violated`
* `IMT.Zone.C159_position`
* `IMT.Zone.C160_velocity`
* `IMT.Zone.C160_length`
* `IMT.Zone.C161_barycentre`
* `IMT.Zone.C161_within`
* `IMT.Zone.C162_bounds_partial`
* `IMT.Zone.C162_only_zone`
* `IMT.Zone.C162_scale`
* `IMT.Zone.C162_rest_violated`
* `IMT.Zone.C162_parity_violated`
* `IMT.Zone.C163_zone`
* `IMT.Zone.C163_out`
* `IMT.Zone.C163_scale`
* `IMT.Zone.C163_grows`
* `IMT.Zone.C163_dipole_violated`
* `IMT.Zone.C164_radius`
* `IMT.Zone.C164_missing`
* `IMT.Zone.C164_mask_violated`
* `IMT.Bl.C165_pointwise`
* `IMT.Bl.C165_laminar`
* `IMT.Bl.C165_turbulent`
* `IMT.Bl.C165_grows`
* `IMT.Bl.C165_karman_partial`
* `IMT.Bl.C165_karman_violated`
* `IMT.Bl.C165_percent`
* `IMT.Bl.C165_refused`
* `IMT.Bl.C166_turbulent_partial`
* `IMT.Bl.C166_laminar_violated`
* `IMT.Bl.C166_monotone_violated`
* `IMT.Bl.C167_confined_partial`
* `IMT.Bl.C167_negative_violated`
* `IMT.Bl.C168_y`
* `IMT.Bl.C168_prandtl`
* `IMT.Bl.C168_blasius`
* `IMT.Bl.C168_inverse_violated`
* `IMT.Bl.C169_between`
* `IMT.Bl.C169_affine`
* `IMT.Bl.C169_tolerance_violated`
* `IMT.Bl.C169_verbose_violated`
* `IMT.Bl.C169_stops_partial`
* `IMT.Bl.C170_equation`
* `IMT.Bl.C170_plate`
* `IMT.Bl.C170_power`
* `IMT.Bl.C170_rest`
* `IMT.Bl.C170_shape`
* `IMT.Bl.C170_displacement`
* `IMT.Bl.C170_lambda_violated`
* `IMT.Bl.C171_domain`
* `IMT.Bl.C171_sublayer`
* `IMT.Bl.C171_log`
* `IMT.Bl.C171_outside_partial`
* `IMT.Bl.C171_edge_violated`
* `IMT.Bl.C171_increasing_violated`
* `IMT.Bl.C171_wake`
* `IMT.Bl.C171_rest`
* `IMT.Meas.C172_reached`
* `IMT.Meas.C172_first_partial`
* `IMT.Meas.C172_stored`
* `IMT.Meas.C172_first_violated`
* `IMT.Meas.C172_exists_partial`
* `IMT.Meas.C172_uniform_violated`
* `IMT.Meas.C172_gap_violated`
* `IMT.Meas.C172_masked`
* `IMT.Meas.C172_scale`
* `IMT.Meas.C173_formula_partial`
* `IMT.Meas.C173_order`
* `IMT.Meas.C173_flow`
* `IMT.Meas.C173_masked_violated`
* `IMT.Meas.C173_normal_violated`
* `IMT.Meas.C173_scale`
* `IMT.Meas.C174_shape`
* `IMT.Meas.C174_scale`
* `IMT.Meas.C174_masked_violated`
* `IMT.Meas.C175_simple`
* `IMT.Meas.C175_affine`
* `IMT.Meas.C175_pascal`
* `IMT.Meas.C175_masked_violated`
* `IMT.Meas.C175_uneven`
* `IMT.Meas.C175_lin`
* `IMT.Meas.C175_refused`
* `IMT.Stab.C176_running`
* `IMT.Stab.C176_continuous`
* `IMT.Stab.C176_from_first`
* `IMT.Stab.C176_found`
* `IMT.Stab.C177_refused`
* `IMT.Stab.C177_places`
* `IMT.Stab.C177_rigid`
* `IMT.Stab.C177_translation`
* `IMT.Stab.C177_follows_partial`
* `IMT.Stab.C177_zoom_violated`
* `IMT.Stab.C177_first_partial`
* `IMT.Stab.C177_first_violated`
* `IMT.Stab.C178_film_partial`
* `IMT.Stab.C178_axis_violated`
* `IMT.Stab.C178_first`
* `IMT.Stab.C179_example`
* `IMT.Stab.C179_residual_partial`
* `IMT.Stab.C179_residual_violated`
* `IMT.Stab.C180_border_partial`
* `IMT.Stab.C180_place`
* `IMT.Stab.C180_border_violated`
* `IMT.Stab.C181_history`
* `IMT.Stab.C181_order`
* `IMT.Stab.C181_unchanged`
* `IMT.Stab.C181_stale_violated`
* `IMT.Ftle.C182_time`
* `IMT.Ftle.C182_refused`
* `IMT.Ftle.C182_rounds`
* `IMT.Ftle.C183_uniform_partial`
* `IMT.Ftle.C183_back`
* `IMT.Ftle.C183_rest`
* `IMT.Ftle.C183_reverse`
* `IMT.Ftle.C183_endless_violated`
* `IMT.Ftle.C184_fifth`
* `IMT.Ftle.C184_estimate`
* `IMT.Ftle.C184_control`
* `IMT.Ftle.C184_control_violated`
* `IMT.Ftle.C184_linear`
* `IMT.Ftle.C184_centre`
* `IMT.Ftle.C184_spiral`
* `IMT.Ftle.C184_rotation`
* `IMT.Ftle.C185_points`
* `IMT.Ftle.C185_number_violated`
* `IMT.Ftle.C186_stretch`
* `IMT.Ftle.C186_masked`
* `IMT.Ftle.C186_affine_partial`
* `IMT.Ftle.C186_uniform_violated`
* `IMT.Line.C187_grid`
* `IMT.Line.C187_between`
* `IMT.Line.C187_refused`
* `IMT.Line.C187_index`
* `IMT.Line.C187_nearest_partial`
* `IMT.Line.C187_nearest_violated`
* `IMT.Line.C187_interval`
* `IMT.Line.C187_all`
* `IMT.Line.C187_indices_violated`
* `IMT.Line.C188_area`
* `IMT.Line.C188_exact`
* `IMT.Line.C188_refused`
* `IMT.Line.C188_unit_partial`
* `IMT.Line.C188_unit_violated`
* `IMT.Line.C189_mean`
* `IMT.Line.C189_exact`
* `IMT.Line.C189_bounds`
* `IMT.Line.C189_masked`
* `IMT.Line.C189_whole`
* `IMT.Line.C189_additive_violated`
* `IMT.Line.C190_scatter`
* `IMT.Line.C190_refused`
* `IMT.Line.C190_masked_violated`
* `IMT.Stat.C191_counts`
* `IMT.Stat.C191_total`
* `IMT.Stat.C191_cumulative`
* `IMT.Stat.C191_density`
* `IMT.Stat.C191_cumulative_density_violated`
* `IMT.Stat.C191_positions_partial`
* `IMT.Stat.C191_positions_violated`
* `IMT.Stat.C191_masked_violated`
* `IMT.Stat.C191_refused`
* `IMT.Stat.C192_values`
* `IMT.Stat.C192_centre`
* `IMT.Stat.C192_scale`
* `IMT.Stat.C192_bound`
* `IMT.Stat.C192_refused`
* `IMT.Stat.C192_last_violated`
* `IMT.Stat.C192_lag_violated`
* `IMT.Stat.C192_field`
* `IMT.Stat.C192_zero_line_violated`
* `IMT.Stat.C193_norm`
* `IMT.Stat.C193_zero`
* `IMT.Stat.C193_bound`
* `IMT.Stat.C193_scale`
* `IMT.Stat.C193_triangle`
* `IMT.Stat.C193_triangle_perpoint`
* `IMT.Stat.C193_perpoint_violated`
* `IMT.Mirror.C194_keeps`
* `IMT.Mirror.C194_values`
* `IMT.Mirror.C194_fill`
* `IMT.Mirror.C194_middle`
* `IMT.Mirror.C194_lines_before`
* `IMT.Mirror.C194_lines_after`
* `IMT.Mirror.C194_all_violated`
* `IMT.Mirror.C194_masked_violated`
* `IMT.Mirror.C194_defined`
* `IMT.Mirror.C195_keeps`
* `IMT.Mirror.C195_values`
* `IMT.Mirror.C195_lines_before`
* `IMT.Mirror.C195_lines_after`
* `IMT.Mirror.C195_fill`
* `IMT.Mirror.C195_defined`
* `IMT.Turb.C196_mean_partial`
* `IMT.Turb.C196_limit_violated`
* `IMT.Turb.C197_fluctuations`
* `IMT.Turb.C197_zero_sum`
* `IMT.Turb.C198_tke`
* `IMT.Turb.C198_means`
* `IMT.Turb.C198_balance`
* `IMT.Turb.C199_stresses_partial`
* `IMT.Turb.C199_realizable`
* `IMT.Turb.C199_single_violated`
* `IMT.Turb.C200_correlation_partial`
* `IMT.Turb.C200_first`
* `IMT.Turb.C200_bound`
* `IMT.Turb.C200_masked_violated`
* `IMT.Turb.C201_fluctuations`
* `IMT.Turb.C201_zero_sum`
* `IMT.Turb.C202_raises_violated`
* `IMT.Trace.C203_profile`
* `IMT.Trace.C203_refused`
* `IMT.Trace.C203_index`
* `IMT.Trace.C204_follow_partial`
* `IMT.Trace.C204_interval_violated`
* `IMT.Trace.C205_inject_partial`
* `IMT.Trace.C205_readback`
* `IMT.Trace.C205_roundtrip`
* `IMT.Trace.C205_refused`
* `IMT.Trace.C205_masked_violated`
* `IMT.Trace.C205_nan_violated`
* `IMT.Trace.C205_points_violated`
* `IMT.Trace.C206_mask_cum`
* `IMT.Trace.C207_soft_partial`
* `IMT.Trace.C207_none_violated`
* `IMT.Trace.C207_soft_returns_partial`
* `IMT.Trace.C207_first_row_violated`
* `IMT.Trace.C208_hard_terminates`
* `IMT.Trace.C208_hard_borders_partial`
* `IMT.Trace.C208_none_violated`
* `IMT.Trace.C208_first_row_violated`
* `IMT.Trace.C208_hole_violated`
* `IMT.Trace.C209_extend`
* `IMT.Trace.C210_fields_partial`
* `IMT.Trace.C210_values_partial`
* `IMT.Trace.C210_axes_violated`
* `IMT.Trace.C210_grid_violated`
* `IMT.Trace.C210_empty`
* `IMT.Same.C211_vector`
* `IMT.Same.C211_self`
* `IMT.Same.C211_answers`
* `IMT.Same.C212_scalar_partial`
* `IMT.Same.C212_self`
* `IMT.Same.C212_small_violated`
* `IMT.Same.C212_shape_violated`
* `IMT.Same.C212_symmetric_violated`
* `IMT.Same.C212_transitive_violated`
* `IMT.Same.C213_against_single_violated`
* `IMT.Same.C214_profile_partial`
* `IMT.Polar.C215_magnitude_partial`
* `IMT.Polar.C215_line_violated`
* `IMT.Polar.C216_theta_partial`
* `IMT.Polar.C216_masked_violated`
* `IMT.Polar.C216_unit_violated`
* `IMT.Polar.C217_min`
* `IMT.Polar.C217_max`
* `IMT.Polar.C217_masked`
* `IMT.Polar.C218_parts_partial`
* `IMT.Linear.C219_inside`
* `IMT.Linear.C219_outside`
* `IMT.Linear.C219_node_violated`
* `IMT.Linear.C220_type`
* `IMT.Linear.C220_saddle_any_step`
* `IMT.Linear.C220_steps_violated`
* `IMT.Linear.C220_documented_violated`
* `IMT.Linear.C220_natures`
* `IMT.Linear.C221_sorted`
* `IMT.Linear.C221_linear`
* `IMT.Linear.C222_orientations`
* `IMT.Linear.C222_border_violated`
* `IMT.Path.C223_increment`
* `IMT.Path.C223_velocity`
* `IMT.Path.C223_no_times`
* `IMT.Path.C223_positions`
* `IMT.Path.C223_unit_violated`
* `IMT.Path.C224_bound`
* `IMT.Path.C224_uniform`
* `IMT.Path.C225_evolution`
* `IMT.Path.C225_nodes`
* `IMT.Path.C225_default`
* `IMT.Path.C225_outside`
* `IMT.Path.C225_empty`
* `IMT.Path.C226_evolution`
* `IMT.Path.C226_default`
* `IMT.Path.C226_missing`
* `IMT.Path.C226_no_times`
* `IMT.Path.C227_export`
* `IMT.Path.C227_no_values`
* `IMT.Path.C227_decompose`
* `IMT.Reshape.C228_masked`
* `IMT.Reshape.C228_few`
* `IMT.Reshape.C228_some_left`
* `IMT.Reshape.C228_no_value`
* `IMT.Reshape.C229_polyline`
* `IMT.Reshape.C229_grid`
* `IMT.Reshape.C229_abscissa_violated`
* `IMT.Reshape.C229_refused`
* `IMT.Reshape.C229_points`
* `IMT.Reshape.C229_one_point`
* `IMT.Reshape.C230_already`
* `IMT.Reshape.C230_step_violated`
* `IMT.Reshape.C230_one_point`
* `IMT.Reshape.C230_even_partial`
* `IMT.Reshape.C230_long_step`
* `IMT.Reshape.C230_masked_end_violated`
* `IMT.Reshape.C231_convolution_partial`
* `IMT.Reshape.C231_comm`
* `IMT.Reshape.C231_refused`
* `IMT.Reshape.C231_origin_violated`
* `IMT.Reshape.C231_negative_violated`
* `IMT.Reshape.C231_uneven_violated`
* `IMT.Reshape.C232_product_partial`
* `IMT.Reshape.C232_shift_violated`
* `IMT.Reshape.C232_refused`
* `IMT.Reshape.C232_one_point_violated`
* `IMT.Reshape.C233_abscissae`
* `IMT.Reshape.C233_average`
* `IMT.Reshape.C233_extremum`
* `IMT.Reshape.C233_unmasked_partial`
* `IMT.Reshape.C233_masked_violated`
* `IMT.Reshape.C233_rounded_violated`
* `IMT.Reshape.C233_nothing`
* `IMT.Reshape.C234_smooth`
* `IMT.Reshape.C234_bounds`
* `IMT.Reshape.C235_points`
* `IMT.Reshape.C235_distance`
* `IMT.Reshape.C235_group`
* `IMT.Reshape.C235_profile_partial`
* `IMT.Reshape.C235_sense_violated`
* `IMT.Back.C236_rounds`
* `IMT.Back.C236_between`
* `IMT.Back.C236_majority`
* `IMT.Back.C236_constant_violated`
* `IMT.Back.C236_tie_violated`
* `IMT.Back.C236_shift`
* `IMT.Back.C236_unit_violated`
* `IMT.Back.C236_masked_violated`
* `IMT.Back.C237_blend_partial`
* `IMT.Back.C237_uniform`
* `IMT.Back.C237_background`
* `IMT.Back.C237_foreground_partial`
* `IMT.Back.C237_blend_violated`
* `IMT.Recur.C238_distance`
* `IMT.Recur.C238_vectors`
* `IMT.Recur.C238_symmetric`
* `IMT.Recur.C238_metric`
* `IMT.Recur.C238_masked_violated`
* `IMT.Recur.C238_single`
* `IMT.Weird.C239_interpolated_partial`
* `IMT.Weird.C239_none`
* `IMT.Weird.C239_first_violated`
* `IMT.Weird.C239_last_violated`
* `IMT.Weird.C239_times_violated`
* `IMT.Weird.C239_few`
* `IMT.Weird.C239_short_violated`
* `IMT.Weird.C239_remove_one`
* `IMT.Weird.C239_remove_violated`
* `IMT.Weird.C239_refused`
* `IMT.Weird.C239_mean_violated`
* `IMT.Cps.C240_crop_partial`
* `IMT.Cps.C240_indices_violated`
* `IMT.Cps.C241_clean`
* `IMT.Cps.C241_refused`
* `IMT.Cps.C242_origin_partial`
* `IMT.Cps.C242_none_violated`
* `IMT.Cps.C243_axis`
* `IMT.Cps.C243_time_partial`
* `IMT.Cps.C243_time_violated`
* `IMT.Cps.C243_refused`
* `IMT.Cps.C244_scale`
* `IMT.Cps.C244_order_partial`
* `IMT.Cps.C244_negative_violated`
* `IMT.Cps.C246_break_partial`
* `IMT.Cps.C246_overlap_violated`
* `IMT.Cps.C246_all`
* `IMT.Cps.C246_crop_violated`
* `IMT.Cps.C246_refused`
* `IMT.Fill.C247_nearest`
* `IMT.Fill.C248_linear_partial`
* `IMT.Fill.C248_wall_violated`
* `IMT.Fill.C249_cubic_partial`
* `IMT.Fill.C249_value`
* `IMT.Fill.C249_unmasked`
* `IMT.Fill.C249_refused`
* `IMT.Fill.C250_nearest`
* `IMT.Fill.C250_value`
* `IMT.Fill.C250_linear_partial`
* `IMT.Fill.C250_wall_violated`
* `IMT.Fill.C251_smooth_partial`
* `IMT.Fill.C251_affine`
* `IMT.Fill.C251_even_violated`
* `IMT.Fill.C251_wall_violated`
* `IMT.Fill.C251_vector_partial`
* `IMT.Fill.C252_temporal_partial`
* `IMT.Fill.C252_value_partial`
* `IMT.Fill.C252_source_violated`
* `IMT.Fill.C252_nothing_violated`
* `IMT.Fill.C253_scalar`
* `IMT.Fill.C253_vector`
* `IMT.Fill.C253_filled`
* `IMT.Centre.C254_uneven_violated`
* `IMT.Centre.C254_zero_violated`
* `IMT.Centre.C254_negative_partial`
* `IMT.Centre.C254_centres_partial`
* `IMT.Centre.C254_relative_partial`
* `IMT.Centre.C254_extremum`
* `IMT.Centre.C254_minimum`
* `IMT.Centre.C254_order`
* `IMT.Centre.C255_default_violated`
* `IMT.Centre.C255_drift_violated`
* `IMT.Centre.C255_list_violated`
* `IMT.Centre.C255_array_violated`
* `IMT.Even.C256_resample_partial`
* `IMT.Even.C256_affine`
* `IMT.Even.C256_bounds`
* `IMT.Even.C256_step_violated`
* `IMT.Even.C256_even_violated`
* `IMT.Even.C256_two_violated`
* `IMT.Even.C257_vector_partial`
* `IMT.Even.C258_record_partial`
* `IMT.Even.C258_vectors_partial`
* `IMT.Even.C259_blocks_partial`
* `IMT.Even.C259_units_violated`
* `IMT.Even.C259_odd_violated`
* `IMT.Even.C260_inplace_partial`
* `IMT.Even.C260_units_violated`
* `IMT.Even.C260_copy_violated`
* `IMT.Even.C260_vectors_partial`
* `IMT.Even.C260_copies_violated`
* `IMT.Phase.C261_map_partial`
* `IMT.Phase.C261_square_violated`
* `IMT.Phase.C261_default_violated`
* `IMT.Same.C262_vectors_partial`
* `IMT.Same.C262_scalars_partial`
* `IMT.Same.C262_python_violated`
* `IMT.Utils.C263_refused`
* `IMT.Utils.C263_call_partial`
* `IMT.Utils.C263_executed`
* `IMT.Utils.C263_call_violated`
* `IMT.Utils.C263_names_violated`
* `IMT.Quant.C264_scalar_number`
* `IMT.Quant.C264_scalar_quantity`
* `IMT.Quant.C264_vector`
* `IMT.Quant.C264_vector_quantity_partial`
* `IMT.Quant.C264_dimension_violated`
* `IMT.Quant.C264_list_violated`
* `IMT.Quant.C265_number`
* `IMT.Quant.C265_scalar_div`
* `IMT.Quant.C265_scalar_mul_partial`
* `IMT.Quant.C265_unit_violated`
* `IMT.Quant.C265_zero_violated`
* `IMT.Quant.C265_scalar_rdiv_partial`
* `IMT.Quant.C265_vector_mul_partial`
* `IMT.Quant.C265_vector_div`
* `IMT.Quant.C266_scalar_array`
* `IMT.Quant.C266_vector_array`
* `IMT.Quant.C266_abs`
* `IMT.Quant.C266_power`
* `IMT.Tidy.C267_merge_partial`
* `IMT.Tidy.C267_null_violated`
* `IMT.Tidy.C267_rounded_violated`
* `IMT.Tidy.C268_order_partial`
* `IMT.Tidy.C268_values_violated`
* `IMT.Tidy.C268_lost_violated`
* `IMT.Tidy.C268_small_refused`
* `IMT.Tidy.C269_between`
* `IMT.Tidy.C269_outside`
* `IMT.Tidy.C269_affine`
* `IMT.Tidy.C269_profile`
* `IMT.Tidy.C269_units_violated`
* `IMT.Tidy.C270_masked_partial`
* `IMT.Tidy.C270_some_left`
* `IMT.Tidy.C270_smooth_kept`
* `IMT.Tidy.C270_single_violated`
* `IMT.Tidy.C271_null_gradient`
* `IMT.Tidy.C271_monotone`
* `IMT.Tidy.C271_concave_partial`
* `IMT.Tidy.C271_parabola`
* `IMT.Tidy.C271_zigzag_violated`
* `IMT.Tidy.C271_hidden_violated`
* `IMT.Probe.C272_node`
* `IMT.Probe.C272_edge_y`
* `IMT.Probe.C272_edge_x`
* `IMT.Probe.C272_affine`
* `IMT.Probe.C272_out`
* `IMT.Probe.C272_profile`
* `IMT.Probe.C272_profile_between`
* `IMT.Probe.C272_nearest`
* `IMT.Probe.C272_index`
* `IMT.Probe.C272_interval`
* `IMT.Probe.C272_refused`
* `IMT.Probe.C272_thin_violated`
* `IMT.Probe.C273_norm`
* `IMT.Probe.C273_zero`
* `IMT.Probe.C273_magnitude`
* `IMT.Probe.C273_scale`
* `IMT.Probe.C273_perpoint_violated`
* `IMT.Detect.C274_crop`
* `IMT.Detect.C274_zones_partial`
* `IMT.Detect.C274_found_partial`
* `IMT.Detect.C274_field`
* `IMT.Detect.C274_record_partial`
* `IMT.Detect.C274_first_violated`
* `IMT.Detect.C274_refused`
* `IMT.Detect.C275_walls_partial`
* `IMT.Detect.C275_front`
* `IMT.Detect.C275_plain`
* `IMT.Detect.C275_argument_partial`
* `IMT.Detect.C275_argument_violated`
* `IMT.Detect.C275_record_partial`
* `IMT.Detect.C275_record_argument_partial`
* `IMT.Detect.C275_interp_violated`
* `IMT.Probe.C276_crop`
* `IMT.Probe.C276_origin`
* `IMT.Probe.C276_scale_partial`
* `IMT.Probe.C276_unit`
* `IMT.Probe.C276_sum`
* `IMT.Probe.C276_product`
* `IMT.Probe.C276_opposite`
* `IMT.Probe.C276_mirror_violated`
* `IMT.Spatial.C277_opposite`
* `IMT.Spatial.C277_scale_partial`
* `IMT.Spatial.C277_units_violated`
* `IMT.Spatial.C277_origin`
* `IMT.Spatial.C277_product_partial`
* `IMT.Spatial.C277_reachable`
* `IMT.Spatial.C277_line_violated`
* `IMT.Spatial.C277_computed_partial`
* `IMT.Crit.C278_bounds`
* `IMT.Crit.C278_extremes`
* `IMT.Crit.C278_shown`
* `IMT.Crit.C278_scale`
* `IMT.Crit.C278_galilean`
* `IMT.Crit.C278_turned`
* `IMT.Crit.C278_departure`
* `IMT.Crit.C278_local_violated`
* `IMT.Crit.C278_vortex`
* `IMT.Cp.MeanTraj.C279_points`
* `IMT.Cp.MeanTraj.C279_average_partial`
* `IMT.Cp.MeanTraj.C279_steps_violated`
* `IMT.Cp.MeanTraj.C279_crop`
* `IMT.Cp.MeanTraj.C279_crop_ind`
* `IMT.Cp.MeanTraj.C279_scale_partial`
* `IMT.Cp.MeanTraj.C279_negative_violated`
* `IMT.Cp.MeanTraj.C279_inplace_violated`
* `IMT.Cp.MeanTraj.C279_remove_violated`
* `IMT.Cp.MeanTraj.C279_sort_violated`
* `IMT.SysField.C280_field`
* `IMT.SysField.C280_vector_partial`
* `IMT.SysField.C280_unit_violated`
* `IMT.SysField.C280_refused_violated`
* `IMT.SysField.C280_default_violated`
* `IMT.SysField.C280_reversed_violated`
* `IMT.Turn.C281_points`
* `IMT.Turn.C281_null`
* `IMT.Turn.C281_monotone`
* `IMT.Turn.C281_turn`
* `IMT.Turn.C281_direction_violated`
* `IMT.Turn.C281_direction_partial`
* `IMT.Turn.C281_empty_violated`
* `IMT.Turn.C281_uneven_violated`
* `IMT.Turn.C281_lost_violated`
* `IMT.Points.C282_sets`
* `IMT.Points.C282_all`
* `IMT.Points.C282_dense_partial`
* `IMT.Points.C282_noise_violated`
* `IMT.Points.C283_positions`
* `IMT.Points.C283_values_partial`
* `IMT.Points.C283_refused`
* `IMT.Points.C283_back`
* `IMT.Points.C283_integers_violated`
* `IMT.Points.C284_array_partial`
* `IMT.Points.C284_array_violated`
* `IMT.Points.C284_origin_violated`
* `IMT.Points.C284_set`
* `IMT.Panel.C285_grid`
* `IMT.Panel.C285_refused`
* `IMT.Panel.C285_raw_violated`
* `IMT.Panel.C285_junk_violated`
* `IMT.Panel.C285_line`
* `IMT.Panel.C285_pressure`
* `IMT.Around.C286_window`
* `IMT.Around.C286_size_partial`
* `IMT.Around.C286_size_violated`
* `IMT.Around.C287_points`
* `IMT.Around.C287_refined_partial`
* `IMT.Around.C287_masked`
* `IMT.Around.C287_saddle_violated`
* `IMT.Around.C287_odd_violated`
* `IMT.Vtk.C289_scalar_partial`
* `IMT.Vtk.C289_order_violated`
* `IMT.Vtk.C289_vector_partial`
* `IMT.Vtk.C289_mask_violated`
* `IMT.Text.C291_points_partial`
* `IMT.Text.C291_profile_partial`
* `IMT.Text.C291_crit`
* `IMT.Series.C292_pictures_partial`
* `IMT.Series.C292_order`
* `IMT.Series.C292_refused`
* `IMT.Series.C292_argument_violated`
* `IMT.Series.C292_tuple_violated`
* `IMT.Series.C293_davis_partial`
* `IMT.Series.C293_part_violated`
* `IMT.Series.C293_origin_violated`
* `IMT.Series.C293_spatial_violated`
* `IMT.Series.C294_content_partial`
* `IMT.Series.C294_times_violated`
* `IMT.Mat.C296_scalar_partial`
* `IMT.Mat.C296_vector_partial`
* `IMT.Mat.C296_profile_partial`
* `IMT.Browse.C297_range_partial`
* `IMT.Browse.C297_zero_violated`
* `IMT.Browse.C297_limit_violated`
* `IMT.Browse.C298_next`
* `IMT.Browse.C298_prev`
* `IMT.Browse.C298_back`
* `IMT.Browse.C298_number`
* `IMT.Browse.C298_step`
* `IMT.Browse.C298_interval`
* `IMT.Browse.C299_goto_partial`
* `IMT.Browse.C299_last_violated`
* `IMT.Browse.C299_ends`
* `IMT.Browse.C300_alone_violated`
* `IMT.Browse.C300_play_partial`
* `IMT.Browse.C300_last_violated`
* `IMT.Browse.C300_limits_partial`
* `IMT.Browse.C300_limit_violated`
* `IMT.Browse.C301_first`
* `IMT.Browse.C301_second`
* `IMT.Browse.C301_remove`
* `IMT.Browse.C301_clear`
* `IMT.Browse.C301_visit`
* `IMT.Browse.C301_order_violated`
* `IMT.Browse.C301_stuck_violated`
* `IMT.Browse.C301_no_error`
* `IMT.Browse.C303_one_drawing_partial`
* `IMT.Browse.C303_pile_violated`
* `IMT.Browse.C303_twice_violated`
* `IMT.Browse.C303_current`
* `IMT.Browse.C304_kept`
* `IMT.Browse.C304_reuse`
* `IMT.Browse.C305_both_ways`
* `IMT.Browse.C306_all_follow_partial`
* `IMT.Browse.C306_same_frame`
* `IMT.Browse.C306_length_violated`
* `IMT.Cleaning.C307_only_listed`
* `IMT.Cleaning.C307_files_kept`
* `IMT.Cleaning.C307_all_gone`
* `IMT.Cleaning.C307_returns_partial`
* `IMT.Cleaning.C307_nested_violated`
* `IMT.Cleaning.C307_full_violated`
* `IMT.Cleaning.C307_searched_violated`
* `IMT.Cleaning.C308_exactly`
* `IMT.Cleaning.C308_refused`
* `IMT.Cleaning.C308_arguments_violated`
* `IMT.Cleaning.C309_all`
* `IMT.Cleaning.C309_depth_bound`
* `IMT.Cleaning.C309_depth_partial`
* `IMT.Cleaning.C309_depth_violated`
* `IMT.Cleaning.C310_tree_partial`
* `IMT.Points.C311_sum_partial`
* `IMT.Points.C311_directions_refused`
* `IMT.Points.C311_aligned`
* `IMT.Points.C311_place_violated`
* `IMT.Points.C311_plain_violated`
* `IMT.Points.C313_streams`
* `IMT.Points.C313_starts`
* `IMT.Points.C313_refused`
* `IMT.Points.C313_options_violated`
* `IMT.Color.C314_global`
* `IMT.Color.C315_lower_partial`
* `IMT.Color.C315_upper_violated`
* `IMT.Color.C316_discrete_partial`
* `IMT.Color.C316_uneven_violated`
* `IMT.Color.C316_few_violated`
* `IMT.Color.C317_gradient_partial`
* `IMT.Color.C317_one_violated`
* `IMT.Color.C318_segments`
* `IMT.Color.C319_aspect`
* `IMT.Color.C320_grid_partial`
* `IMT.Cursor.C321_outside`
* `IMT.Cursor.C321_field`
* `IMT.Cursor.C321_profile_partial`
* `IMT.Cursor.C321_points_violated`
* `IMT.Cursor.C321_guess`
* `IMT.Cursor.C322_text_partial`
* `IMT.Cursor.C322_masked_violated`
* `IMT.Refine.C323_classes`
* `IMT.Refine.C323_count`
* `IMT.Refine.C324_refine_partial`
* `IMT.Refine.C325_average`
* `IMT.Refine.C325_missing`
* `IMT.Coherence.C326_temporal_partial`
* `IMT.Coherence.C326_spatial_partial`
* `IMT.Coherence.C326_space_violated`
* `IMT.Coherence.C327_modes_partial`
* `IMT.Coherence.C327_mean_violated`
* `IMT.Coherence.C327_masked_violated`
* `IMT.Coherence.C327_reconstruct_violated`
* `IMT.Spatial.C328_nothing_partial`
* `IMT.Spatial.C329_grid_partial`
* `IMT.Profile.C330_shift_partial`
* `IMT.Profile.C330_units`
* `IMT.Profile.C330_available_violated`
* `IMT.Profile.C331_smallest`
* `IMT.Profile.C331_copy`
* `IMT.Eigen.C332_values`
* `IMT.Eigen.C332_masked`
* `IMT.Eigen.C332_vectors_partial`
* `IMT.Eigen.C332_turning_violated`
* `IMT.Eigen.C332_unit_violated`
* `IMT.Eigen.C333_lines_partial`
* `IMT.Eigen.C333_turning_violated`
* `IMT.Eigen.C333_masked`
* `IMT.Bl.C334_turbulent_violated`
* `IMT.Bl.C334_stretched_partial`
* `IMT.Bl.C334_switch_violated`
* `IMT.Meas.C335_letter_partial`
* `IMT.Meas.C335_three_partial`
* `IMT.Meas.C335_number_violated`
* `IMT.Meas.C335_x_violated`
* `IMT.Meas.C335_shear_violated`
* `IMT.Meas.C336_separation_violated`
* `IMT.Meas.C336_error`
* `IMT.Density.C337_points_partial`
* `IMT.Density.C337_mass_violated`
* `IMT.Density.C337_bandwidth_violated`
* `IMT.Density.C338_formats`
* `IMT.Density.C338_points_partial`
* `IMT.Density.C338_translated`
* `IMT.Density.C338_window_violated`
* `IMT.Density.C338_mass_violated`
* `IMT.Density.C338_bandwidth_violated`
* `IMT.Density.C338_masked_violated`
* `IMT.Density.C338_unit_violated`
* `IMT.Cloud.C339_mass_partial`
* `IMT.Cloud.C339_few`
* `IMT.Cloud.C339_line_violated`
* `IMT.Cloud.C339_flat_violated`
* `IMT.Cloud.C340_counts_partial`
* `IMT.Cloud.C340_subgrid_violated`
* `IMT.Cloud.C341_edges_partial`
* `IMT.Cloud.C341_length_violated`
* `IMT.Crit.Iota.C342_angle_partial`
* `IMT.Crit.Iota.C342_turned_partial`
* `IMT.Crit.Iota.C342_mask_violated`
* `IMT.Crit.Iota.C342_hole_violated`
* `IMT.Crit.Iota.C342_quarter_violated`
* `IMT.Crit.Iota.C342_axes_violated`
* `IMT.Spectrum.C343_energy_partial`
* `IMT.Spectrum.C343_trend_violated`
* `IMT.Spectrum.C343_interval_violated`
* `IMT.Spectrum.C343_irregular_violated`
* `IMT.Spectrum.C343_arguments`
* `IMT.Spectrum.C344_sum_partial`
* `IMT.Spectrum.C344_offset`
* `IMT.Spectrum.C344_cutoff_violated`
* `IMT.Spectrum.C344_one_violated`
* `IMT.Cleaning.C345_shown_partial`
* `IMT.Cleaning.C345_heading`
* `IMT.Utils.C346_lines`
* `IMT.Utils.C346_end`
* `IMT.Utils.C346_again_violated`
* `IMT.Utils.C346_each_violated`
* `IMT.Trace.C347_mean_partial`
* `IMT.Trace.C347_masked_violated`
* `IMT.Trace.C347_outside`
* `IMT.Trace.C347_reversed_violated`
* `IMT.Trace.C347_point`
* `IMT.Trace.C348_map_partial`
* `IMT.Trace.C348_unit_violated`
* `IMT.Trace.C348_masked_violated`
* `IMT.Trace.C349_values_partial`
* `IMT.Trace.C349_original_violated`
* `IMT.Trace.C349_masked_violated`
* `IMT.Wave.C350_filled_partial`
* `IMT.Wave.C350_mean_partial`
* `IMT.Wave.C350_integers_violated`
* `IMT.Wave.C350_truncated_violated`
* `IMT.Wave.C350_refused`
* `IMT.Wave.C351_mean_partial`
* `IMT.Wave.C351_single_violated`
* `IMT.Wave.C351_integers_violated`
* `IMT.Wave.C352_shows_partial`
* `IMT.Wave.C352_default`
* `IMT.Wave.C352_refused`
* `IMT.Wave.C352_uneven_violated`
* `IMT.Wave.C352_single_violated`
* `IMT.Panel.C353_found`
* `IMT.Panel.C353_converges_partial`
* `IMT.Panel.C353_endless_violated`
* `IMT.Panel.C353_wall_violated`
* `IMT.Panel.C354_late_violated`
* `IMT.Panel.C354_small_violated`
* `IMT.Panel.C354_first`
* `IMT.Kappa.C355_decreasing`
* `IMT.Kappa.C355_field_decreasing`
* `IMT.Kappa.C355_positive`
* `IMT.Kappa.C355_sign_partial`
* `IMT.Kappa.C355_few_violated`
* `IMT.Cloud.C356_mass_partial`
* `IMT.Cloud.C356_absolute_partial`
* `IMT.Cloud.C356_sum_partial`
* `IMT.Cloud.C356_few_violated`
* `IMT.Cloud.C356_empty_violated`
* `IMT.Cloud.C356_unknown`
* `IMT.Trace.C357_vectors_partial`
* `IMT.Trace.C357_original`
* `IMT.Trace.C357_masked_violated`
* `IMT.TPoints.C358_uniform_partial`
* `IMT.TPoints.C358_box`
* `IMT.TPoints.C358_constant`
* `IMT.TPoints.C358_refused`
* `IMT.TPoints.C358_integers_violated`
* `IMT.TPoints.C358_few_violated`
* `IMT.TPoints.C359_inplace_partial`
* `IMT.TPoints.C359_copy_partial`
* `IMT.TPoints.C359_shared_violated`
* `IMT.TPoints.C359_halfway_violated`
* `IMT.Treat.C360_slopes_partial`
* `IMT.Treat.C360_total_partial`
* `IMT.Treat.C360_unit_violated`
* `IMT.Treat.C360_filled_violated`
* `IMT.Meas.C361_profile_partial`
* `IMT.Meas.C361_small_violated`
* `IMT.Meas.C361_field_violated`
* `IMT.Crit.C362_ratio`
* `IMT.Crit.C362_masked`
* `IMT.Crit.C362_turned`
* `IMT.Crit.C362_scaled`
* `IMT.Crit.C362_incompressible`
* `IMT.Crit.C362_field_partial`
* `IMT.Crit.C362_filled_violated`
* `IMT.Browse.C363_marks_partial`
* `IMT.Browse.C363_none_violated`
* `IMT.Profile.C364_between`
* `IMT.Profile.C364_node`
* `IMT.Profile.C364_outside`
* `IMT.Profile.C364_agrees`
* `IMT.Profile.C364_index`
* `IMT.Profile.C364_value_violated`
* `IMT.Ascii.C365_never_violated`
* `IMT.Ascii.C365_expected_violated`
* `IMT.Ascii.C365_refused`
* `IMT.Color.C366_line`
* `IMT.Color.C366_refined_partial`
* `IMT.Color.C366_count_violated`
* `IMT.Color.C366_corner_violated`
* `IMT.Color.C366_log_violated`
* `IMT.Color.C366_refused`
* `IMT.Color.C366_alone`
* `IMT.Color.C367_map_partial`
* `IMT.Color.C367_even`
* `IMT.Color.C367_one_violated`
* `IMT.Color.C367_places_violated`
* `IMT.Color.C367_refused`
* `IMT.Systems.C368_hsv_partial`
* `IMT.Systems.C368_wall`
* `IMT.Systems.C368_stream_violated`
* `IMT.Systems.C368_step_partial`
* `IMT.Systems.C368_far_violated`
* `IMT.Systems.C368_speed_violated`
* `IMT.Video.C369_levels_partial`
* `IMT.Video.C369_order`
* `IMT.Video.C369_mask_violated`
* `IMT.Video.C369_uniform_violated`
* `IMT.Video.C369_array_violated`
* `IMT.Video.C369_empty`
* `IMT.Vortex.C370_fields`
* `IMT.Vortex.C370_positions`
* `IMT.Vortex.C370_steady`
* `IMT.Vortex.C370_refused`
* `IMT.Detect.C371_centres_partial`
* `IMT.Detect.C371_small_violated`
* `IMT.Detect.C371_moving_violated`
* `IMT.Cps.C372_smoothed_partial`
* `IMT.Cps.C372_refused`
* `IMT.Cps.C372_times_violated`
* `IMT.Cps.C372_lost_violated`
* `IMT.Frames.C373_series_partial`
* `IMT.Frames.C373_single_partial`
* `IMT.Frames.C373_list_violated`
* `IMT.Frames.C373_empty_first_violated`
* `IMT.Dtype.C374_scalar_partial`
* `IMT.Dtype.C374_vector`
* `IMT.Color.C375_shared_partial`
* `IMT.Color.C375_one_partial`
* `IMT.Color.C375_given_partial`
* `IMT.Color.C375_two_violated`
* `IMT.Color.C375_points_violated`
* `IMT.Color.C375_asked_violated`
* `IMT.Color.C375_unshared_partial`
* `IMT.Spatial.C376_power_partial`
* `IMT.Spatial.C376_computed_partial`
* `IMT.Spatial.C376_line_violated`
* `IMT.Ftle.C377_points`
* `IMT.Ftle.C377_computed_partial`
* `IMT.Ftle.C377_refused`
* `IMT.Ftle.C377_uniform_partial`
* `IMT.Ftle.C377_long_violated`
* `IMT.Temporal.C378_series_partial`
* `IMT.Temporal.C378_number_violated`
* `IMT.Temporal.C378_grid_violated`
* `IMT.Browse.C379_kind_violated`
* `IMT.Profile.C380_values`
* `IMT.Profile.C380_target_partial`
* `IMT.Profile.C380_exact_partial`
* `IMT.Profile.C380_masked_violated`
* `IMT.Pbi.C381_count`
* `IMT.Pbi.C381_cell`
* `IMT.Pbi.C381_none_partial`
* `IMT.Pbi.C381_hidden_violated`
* `IMT.Fill.C382_inplace_partial`
* `IMT.Fill.C382_copy_partial`
* `IMT.Fill.C382_vector_inplace_partial`
* `IMT.Fill.C382_vector_copy_partial`
* `IMT.Fill.C382_shared_violated`
* `IMT.Fill.C382_halfway_violated`
* `IMT.Fill.C382_kind_violated`
* `IMT.Fill.C382_vector_kind_violated`
* `IMT.Snap.C383_product`
* `IMT.Snap.C383_modes_partial`
* `IMT.Snap.C383_back_partial`
* `IMT.Trace.C384_field_partial`
* `IMT.Trace.C384_each_partial`
* `IMT.Trace.C384_cum_partial`
* `IMT.Trace.C384_unit_violated`
* `IMT.Temporal.C385_once_partial`
* `IMT.Temporal.C385_twice_violated`
* `IMT.Spatial.C386_origin_partial`
* `IMT.Spatial.C386_scale_partial`
* `IMT.Spatial.C386_copy_partial`
* `IMT.Spatial.C386_origin_violated`
* `IMT.Spatial.C386_scale_violated`
* `IMT.Temporal.C387_content_partial`
* `IMT.Temporal.C387_accepted`
* `IMT.Temporal.C387_refused_partial`
* `IMT.Temporal.C387_halfway_violated`
* `IMT.Temporal.C387_foreign_violated`
* `IMT.Temporal.C388_window_partial`
* `IMT.Temporal.C388_indices_violated`
* `IMT.Spatial.C389_bounds_partial`
