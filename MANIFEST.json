{
 "claims": [
  {
   "property": "C01",
   "status": "proved",
   "theorems": [
    "IMT.Axis.C01_bounds_bracket",
    "IMT.Axis.C01_bounds_refused_iff"
   ],
   "note": ""
  },
  {
   "property": "C02",
   "status": "proved",
   "theorems": [
    "IMT.Axis.C02_nearest_minimal"
   ],
   "note": ""
  },
  {
   "property": "C03",
   "status": "proved",
   "theorems": [
    "IMT.Axis.C03_decimal_inverts"
   ],
   "note": ""
  },
  {
   "property": "C04",
   "status": "proved",
   "theorems": [
    "IMT.Axis.C04_crop_keeps_window",
    "IMT.Axis.C04_crop_refused"
   ],
   "note": ""
  },
  {
   "property": "C05",
   "status": "proved",
   "theorems": [
    "IMT.Axis.C05_cropInd_keeps_range",
    "IMT.Axis.C05_cropInd_refused"
   ],
   "note": ""
  },
  {
   "property": "C06",
   "status": "proved",
   "theorems": [
    "IMT.SF.C06_crop_keeps_readings",
    "IMT.SF.C06_crop_consistent",
    "IMT.SF.C06_crop_missing_interval",
    "IMT.SF.C06_cropInd_keeps_readings"
   ],
   "note": ""
  },
  {
   "property": "C07",
   "status": "partial",
   "theorems": [
    "IMT.Alias.C07_copy_independent",
    "IMT.Alias.C07_crop_copy_partial",
    "IMT.Alias.C07_crop_axis_violated",
    "IMT.Alias.C07_crop_values_violated"
   ],
   "note": "Proved for an explicit copy and for a copied crop, over all histories of operations. The crop itself returns views of the source arrays (core/field.py:545-575), so set_origin or scale on the crop changes the source: C07_crop_axis_violated, C07_crop_values_violated."
  },
  {
   "property": "C08",
   "status": "partial",
   "theorems": [
    "IMT.SF.C08_rotate_moves_readings",
    "IMT.SF.C08_rotate_refused",
    "IMT.SF.C08_single_point_violated"
   ],
   "note": "Proved for every consistent field with at least two points per axis; the single-point axis case is refuted by C08_single_point_violated (core/field.py:418-422)."
  },
  {
   "property": "C09",
   "status": "proved",
   "theorems": [
    "IMT.SF.C09_rotate_compose",
    "IMT.SF.C09_full_turn",
    "IMT.SF.C09_rotate_back"
   ],
   "note": ""
  },
  {
   "property": "C10",
   "status": "proved",
   "theorems": [
    "IMT.SF.C10_scale_moves_readings",
    "IMT.SF.C10_scale_units"
   ],
   "note": ""
  },
  {
   "property": "C11",
   "status": "partial",
   "theorems": [
    "IMT.VF.C11_scale_partial",
    "IMT.VF.C11_mask_violated"
   ],
   "note": "Proved for positive factors and for fields without masked point. With a negative factor the mask is not mirrored with the components (core/vectorfield.py:730-738): C11_mask_violated."
  },
  {
   "property": "C12",
   "status": "proved",
   "theorems": [
    "IMT.SF.C12_setOrigin_shifts"
   ],
   "note": ""
  },
  {
   "property": "C13",
   "status": "proved",
   "theorems": [
    "IMT.SF.C13_changeUnit_physical",
    "IMT.SF.C13_changeUnit_refused"
   ],
   "note": ""
  },
  {
   "property": "C14",
   "status": "partial",
   "theorems": [
    "IMT.SF.C14_extend_reads",
    "IMT.SF.C14_extend_axis",
    "IMT.SF.C14_extend_copy_violated"
   ],
   "note": "In-place form proved; the default (not in place) form always raises NameError (core/scalarfield.py:1493), C14_extend_copy_violated."
  },
  {
   "property": "C15",
   "status": "partial",
   "theorems": [
    "IMT.SF.C15_import_reads_partial",
    "IMT.SF.C15_import_transposed",
    "IMT.SF.C15_import_single_point",
    "IMT.SF.C15_import_mask_violated"
   ],
   "note": "Proved for increasing axes and for unmasked data on decreasing axes; masked data on a decreasing axis is misplaced (core/scalarfield.py:503-508), C15_import_mask_violated."
  },
  {
   "property": "C16",
   "status": "partial",
   "theorems": [
    "IMT.SF.C16_add_pointwise",
    "IMT.SF.C16_add_comm",
    "IMT.SF.C16_sub_pointwise",
    "IMT.SF.C16_add_refused",
    "IMT.SF.C16_axis_units_violated"
   ],
   "note": "Proved for fields whose axis units are equal. With axis units of one dimension but different sizes the coordinates are compared as bare numbers (core/scalarfield.py:84-92): C16_axis_units_violated."
  },
  {
   "property": "C17",
   "status": "partial",
   "theorems": [
    "IMT.SF.C17_add_shared_partial",
    "IMT.SF.C17_add_disjoint_refused",
    "IMT.SF.C17_single_shared_violated"
   ],
   "note": "Proved with at least two shared coordinates per axis; with exactly one the import of the result raises IndexError: C17_single_shared_violated."
  },
  {
   "property": "C18",
   "status": "partial",
   "theorems": [
    "IMT.SF.C18_div_pointwise",
    "IMT.SF.C18_divArr_pointwise",
    "IMT.SF.C18_div_refused",
    "IMT.SF.C18_rdiv_violated",
    "IMT.SF.C18_rdivArr_violated",
    "IMT.SF.C18_divArr_nan_violated"
   ],
   "note": "Field/field and field/array (array without NaN) proved. Reversed division by a zero shows unmasked infinities (core/scalarfield.py:207-227) and an array holding NaN gives unmasked NaN."
  },
  {
   "property": "C19",
   "status": "partial",
   "theorems": [
    "IMT.SF.C19_soft_bounding_box",
    "IMT.SF.C19_soft_returns_partial",
    "IMT.SF.C19_soft_none_violated",
    "IMT.SF.C19_soft_first_row_violated"
   ],
   "note": "Everything the soft variant returns is proved right. It returns nothing when the field has no masked value, and raises ValueError when only the first row or column holds valid values."
  },
  {
   "property": "C20",
   "status": "partial",
   "theorems": [
    "IMT.SF.C20_hard_terminates",
    "IMT.SF.C20_hard_mask_free_partial",
    "IMT.SF.C20_hard_nothing_to_do",
    "IMT.SF.C20_hard_error_violated",
    "IMT.SF.C20_hard_empty_violated"
   ],
   "note": "Termination and mask-freeness proved for every field; the result can be empty and a ValueError can be raised (two witnesses)."
  },
  {
   "property": "C21",
   "status": "partial",
   "theorems": [
    "IMT.SF.C21_reduce_blocks",
    "IMT.SF.C21_mean_preserved",
    "IMT.SF.C21_reduce_copy_units",
    "IMT.SF.C21_inplace_units_violated",
    "IMT.SF.C21_odd_violated",
    "IMT.SF.C21_one_inplace_violated"
   ],
   "note": "Even factors proved (block means, masks, positions, conservation of the mean). Odd factors always raise, factor 1 in place raises TypeError, in-place reduction loses the units."
  },
  {
   "property": "C22",
   "status": "proved",
   "theorems": [
    "IMT.SF.C22_iter_complete",
    "IMT.SF.C22_iter_order"
   ],
   "note": ""
  },
  {
   "property": "C23",
   "status": "partial",
   "theorems": [
    "IMT.SF.C23_node",
    "IMT.SF.C23_out_of_range",
    "IMT.SF.C23_edge_y",
    "IMT.SF.C23_edge_x",
    "IMT.SF.C23_edge_between",
    "IMT.SF.C23_inside_between",
    "IMT.SF.C23_inside_affine",
    "IMT.SF.C23_masked_corner_partial",
    "IMT.SF.C23_masked_corner_violated"
   ],
   "note": "Nodes, edges, interior bounds, affine exactness and range errors proved for both triangulations; a masked off-diagonal corner is not detected when the cell is split along the main diagonal."
  },
  {
   "property": "C24",
   "status": "partial",
   "theorems": [
    "IMT.Points.C24_history_partial",
    "IMT.Points.C24_add_missing_violated",
    "IMT.Points.C24_add_extra_violated"
   ],
   "note": "Holds for histories whose additions give a value exactly when the set has values. add stores the position before checking the value (C24_add_missing_violated) and accepts a value on a set without values (C24_add_extra_violated)."
  },
  {
   "property": "C25",
   "status": "partial",
   "theorems": [
    "IMT.Points.C25_crop_partial",
    "IMT.Points.C25_nan_violated",
    "IMT.Points.C25_crop_ind"
   ],
   "note": "Full characterisation of the kept rows; a NaN coordinate or value is outside no window and is kept (C25_nan_violated)."
  },
  {
   "property": "C26",
   "status": "partial",
   "theorems": [
    "IMT.Points.C26_cut_partial",
    "IMT.Points.C26_values_violated",
    "IMT.Points.C26_no_interval_violated"
   ],
   "note": "Positions are right; all values are lost as soon as a point is removed (C26_values_violated) and a call without interval raises TypeError (C26_no_interval_violated)."
  },
  {
   "property": "C27",
   "status": "partial",
   "theorems": [
    "IMT.Points.C27_place_violated",
    "IMT.Points.C27_sum_partial",
    "IMT.Points.C27_mixed_refused",
    "IMT.Points.C27_units_violated",
    "IMT.Points.C27_operand_violated"
   ],
   "note": "Right for equal units. The conversion factor is inverted (C27_units_violated) and written into the right operand's array (C27_operand_violated)."
  },
  {
   "property": "C28",
   "status": "partial",
   "theorems": [
    "IMT.Points.C28_reverse_partial",
    "IMT.Points.C28_units_violated"
   ],
   "note": "Coordinates are exchanged and the operation is an involution; the units are not exchanged (C28_units_violated)."
  },
  {
   "property": "C29",
   "status": "partial",
   "theorems": [
    "IMT.Points.C29_history_partial",
    "IMT.Points.C29_crop",
    "IMT.Points.C29_remove",
    "IMT.Points.C29_add_missing_violated",
    "IMT.Points.C29_iter_violated"
   ],
   "note": "Alignment holds for histories whose additions respect the values; a refused addition leaves a point without orientation (C29_add_missing_violated); iteration yields the first point only (C29_iter_violated)."
  },
  {
   "property": "C30",
   "status": "proved",
   "theorems": [
    "IMT.Profile.C30_new",
    "IMT.Profile.C30_lengths"
   ],
   "note": ""
  },
  {
   "property": "C31",
   "status": "partial",
   "theorems": [
    "IMT.Profile.C31_crop_partial",
    "IMT.Profile.C31_lower_violated",
    "IMT.Profile.C31_upper_violated",
    "IMT.Profile.C31_both_violated",
    "IMT.Profile.C31_refused"
   ],
   "note": "Proved for intervals whose lower bound is a stored abscissa or before the profile and whose upper bound is inside it. Otherwise the first, resp. last, point of the interval is lost (core/profile.py:1430-1447): C31_lower_violated, C31_upper_violated; giving both intervals raises IndexError: C31_both_violated."
  },
  {
   "property": "C32",
   "status": "partial",
   "theorems": [
    "IMT.Profile.C32_inplace_ties_violated",
    "IMT.Profile.C32_inplace_partial",
    "IMT.Profile.C32_crop_ind",
    "IMT.Profile.C32_crop_ind_refused"
   ],
   "note": "Proved. The in-place form sorts y and then assigns the unsorted mask: with an unstable sort, tied abscissae can receive each other's mask (C32_inplace_ties_violated); proved for distinct abscissae or a stable sort (C32_inplace_partial, C35_history)."
  },
  {
   "property": "C33",
   "status": "partial",
   "theorems": [
    "IMT.Profile.C33_fill_partial",
    "IMT.Profile.C33_fill_inplace_partial",
    "IMT.Profile.C33_value_violated",
    "IMT.Profile.C33_crop_violated",
    "IMT.Profile.C33_single_violated",
    "IMT.Profile.C33_no_value"
   ],
   "note": "Proved for the piecewise linear kind with at least two valid points. kind='value' overwrites the valid values and leaves the masked ones (core/profile.py:1589-1591): C33_value_violated; crop=True raises TypeError: C33_crop_violated; a single valid point raises ValueError: C33_single_violated."
  },
  {
   "property": "C34",
   "status": "proved",
   "theorems": [
    "IMT.Profile.C34_node",
    "IMT.Profile.C34_between",
    "IMT.Profile.C34_no_overshoot",
    "IMT.Profile.C34_outside",
    "IMT.Profile.C34_array"
   ],
   "note": ""
  },
  {
   "property": "C35",
   "status": "proved",
   "theorems": [
    "IMT.Profile.C35_history",
    "IMT.Profile.C35_add_point",
    "IMT.Profile.C35_add_points",
    "IMT.Profile.C35_remove_point",
    "IMT.Profile.C35_insertions"
   ],
   "note": ""
  },
  {
   "property": "C36",
   "status": "partial",
   "theorems": [
    "IMT.Profile.C36_add_partial",
    "IMT.Profile.C36_add_units_violated",
    "IMT.Profile.C36_add_refused",
    "IMT.Profile.C36_div",
    "IMT.Profile.C36_div_operand_violated",
    "IMT.Profile.C36_div_operand_partial"
   ],
   "note": "Sums proved for equal units; with units of different size the conversion factor is inverted (core/profile.py:118): C36_add_units_violated. Quotients proved; the zeros of the divisor are overwritten by 1 (core/profile.py:205): C36_div_operand_violated."
  },
  {
   "property": "C37",
   "status": "proved",
   "theorems": [
    "IMT.Profile.C37_border",
    "IMT.Profile.C37_all_masked"
   ],
   "note": ""
  },
  {
   "property": "C38",
   "status": "partial",
   "theorems": [
    "IMT.Temporal.C38_add",
    "IMT.Temporal.C38_remove_one",
    "IMT.Temporal.C38_history_partial",
    "IMT.Temporal.C38_removal_violated",
    "IMT.Temporal.C38_scale_violated"
   ],
   "note": "Proved for every history of additions, removals and temporal crops in which no removal of several fields raises. remove_fields([0, n-1]) raises IndexError and leaves more fields than times on every container, and a negative time scale leaves the times unsorted."
  },
  {
   "property": "C39",
   "status": "partial",
   "theorems": [
    "IMT.Temporal.C39_remove_partial",
    "IMT.Temporal.C39_negative",
    "IMT.Temporal.C39_two_violated"
   ],
   "note": "Proved for one index and for strictly decreasing lists of indices. For increasing indices i < j the code removes i and j+1, or raises (temporalfields.py:1155-1156): C39_two_violated."
  },
  {
   "property": "C40",
   "status": "proved",
   "theorems": [
    "IMT.Temporal.C40_crop",
    "IMT.Temporal.C40_refused",
    "IMT.Temporal.C40_accepted"
   ],
   "note": ""
  },
  {
   "property": "C41",
   "status": "partial",
   "theorems": [
    "IMT.Temporal.C41_mean_partial",
    "IMT.Temporal.C41_limit_violated"
   ],
   "note": "Mean over the valid fields proved for every mask pattern, with cells of exactly nmb_min valid fields masked although documented as sufficient (<= instead of <, temporalfields.py:316): C41_limit_violated."
  },
  {
   "property": "C42",
   "status": "partial",
   "theorems": [
    "IMT.Temporal.C42_min_partial",
    "IMT.Temporal.C42_max_partial",
    "IMT.Temporal.C42_first_violated",
    "IMT.Temporal.C42_units_violated"
   ],
   "note": "Proved for cells where the first field is valid, values in one unit. Where the first field is masked the result shows an unmasked NaN; units are ignored."
  },
  {
   "property": "C43",
   "status": "proved",
   "theorems": [
    "IMT.Temporal.C43_stored",
    "IMT.Temporal.C43_stored_unique",
    "IMT.Temporal.C43_between",
    "IMT.Temporal.C43_convex",
    "IMT.Temporal.C43_out"
   ],
   "note": ""
  },
  {
   "property": "C44",
   "status": "partial",
   "theorems": [
    "IMT.Temporal.C44_mean_partial",
    "IMT.Temporal.C44_first_partial",
    "IMT.Temporal.C44_all_runs",
    "IMT.Temporal.C44_last_run_violated"
   ],
   "note": "The runs used are proved to be averaged exactly; they are all the complete runs unless the number of fields is a multiple of n, when the last run is dropped (or the call refused)."
  },
  {
   "property": "C45",
   "status": "partial",
   "theorems": [
    "IMT.Temporal.C45_augment_partial",
    "IMT.Temporal.C45_again_violated"
   ],
   "note": "Proved for containers whose fields are a numpy array; the result holds a python list and cannot be augmented again (TypeError): C45_again_violated."
  },
  {
   "property": "C46",
   "status": "partial",
   "theorems": [
    "IMT.Temporal.C46_refused_partial",
    "IMT.Temporal.C46_accepted",
    "IMT.Temporal.C46_grid_violated",
    "IMT.Temporal.C46_time_partial",
    "IMT.Temporal.C46_time_violated",
    "IMT.Temporal.C46_dimension_violated"
   ],
   "note": "A different x axis with the same y axis is refused; a different y axis is always accepted (operator precedence, temporalfields.py:1131-1134). The time factor is inverted unless both units have the same size, and a unit of another dimension is accepted."
  },
  {
   "property": "C47",
   "status": "partial",
   "theorems": [
    "IMT.Temporal.C47_add_partial",
    "IMT.Temporal.C47_add_field",
    "IMT.Temporal.C47_add_number",
    "IMT.Temporal.C47_neg",
    "IMT.Temporal.C47_mul_number_violated",
    "IMT.Temporal.C47_product_violated",
    "IMT.Temporal.C47_div_number_violated",
    "IMT.Temporal.C47_add_times_violated",
    "IMT.Temporal.C47_add_units_violated",
    "IMT.Temporal.C47_pow_violated",
    "IMT.Temporal.C47_div_field_violated"
   ],
   "note": "Sums with the same times, with a field, with a number and opposites keep the times. Products and quotients put every field at time 0, division by a number raises TypeError, sums with other times insert fields at time 0, time units are ignored."
  },
  {
   "property": "C48",
   "status": "partial",
   "theorems": [
    "IMT.TPoints.C48_in_place",
    "IMT.TPoints.C48_time_partial",
    "IMT.TPoints.C48_source_violated",
    "IMT.TPoints.C48_refused"
   ],
   "note": "Consistency and exactness of the crop for point sets over a common time axis are proved; see the suffix of each theorem for what is left out."
  },
  {
   "property": "C49",
   "status": "partial",
   "theorems": [
    "IMT.Spatial.C49_first_partial",
    "IMT.Spatial.C49_units_violated",
    "IMT.Spatial.C49_border_violated"
   ],
   "note": "Proved for the first field of a collection, without masked point: the caller's field is untouched. Fails: other units (C49_units_violated), fully masked borders (C49_border_violated)."
  },
  {
   "property": "C50",
   "status": "proved",
   "theorems": [
    "IMT.Traj.C50_partition"
   ],
   "note": ""
  },
  {
   "property": "C51",
   "status": "proved",
   "theorems": [
    "IMT.Traj.C51_consecutive"
   ],
   "note": ""
  },
  {
   "property": "C52",
   "status": "partial",
   "theorems": [
    "IMT.Traj.C52_links_partial",
    "IMT.Traj.C52_small_epsilon_violated"
   ],
   "note": "compute_traj compares the squared distance with epsilon (vortex_detection.py:1680-1760): links are shorter than epsilon when epsilon >= 1 (C52_links_partial); for epsilon < 1 a link longer than epsilon exists (C52_small_epsilon_violated)."
  },
  {
   "property": "C53",
   "status": "partial",
   "theorems": [
    "IMT.Traj.C53_step_greedy_partial",
    "IMT.Traj.C53_step_terminates",
    "IMT.Traj.C53_reach_violated"
   ],
   "note": "One-to-one, greedy and maximal with respect to the threshold the code really uses, distance squared <= epsilon (C53_step_greedy_partial); points closer than epsilon can stay unlinked when epsilon > 1 (C53_reach_violated)."
  },
  {
   "property": "C54",
   "status": "partial",
   "theorems": [
    "IMT.Topo.C54_replacement_partial",
    "IMT.Topo.C54_only_delete",
    "IMT.Topo.C54_replacement_violated"
   ],
   "note": "'only_delete' conserves the index always; 'replacement' conserves it when no returned point has type 0. A group whose index is neither -1 nor 1 gets type 0, whose index is 0, so its index is lost (vortex_detection.py:2305-2320): C54_replacement_violated."
  },
  {
   "property": "C55",
   "status": "proved",
   "theorems": [
    "IMT.Topo.C55_terminates_separated",
    "IMT.Topo.C55_empty_refused",
    "IMT.Topo.C55_infinite_radius_diverges"
   ],
   "note": "Termination with an explicit bound on the number of rounds; separation for every finite radius. An empty collection is refused and an infinite radius, outside the property, diverges."
  },
  {
   "property": "C56",
   "status": "proved",
   "theorems": [
    "IMT.Topo.C56_barycentre",
    "IMT.Topo.C56_mass_conserved"
   ],
   "note": ""
  },
  {
   "property": "C57",
   "status": "proved",
   "theorems": [
    "IMT.Pbi.C57_velocity_cell",
    "IMT.Pbi.C57_integer",
    "IMT.Pbi.C57_additive_x",
    "IMT.Pbi.C57_additive_y",
    "IMT.Pbi.C57_cell_range"
   ],
   "note": ""
  },
  {
   "property": "C58",
   "status": "partial",
   "theorems": [
    "IMT.Pbi.C58_sign_test_partial",
    "IMT.Pbi.C58_horizontal_violated",
    "IMT.Pbi.C58_null_corner_violated"
   ],
   "note": "Proved over the real angles of VectorField.theta for cells without a null corner and without corners pointing exactly left and right at once; both exclusions are necessary (two witnesses, vd.py:107-108 counts strictly positive components)."
  },
  {
   "property": "C59",
   "status": "partial",
   "theorems": [
    "IMT.Pbi.C59_lookup_partial",
    "IMT.Pbi.C59_lookup_violated",
    "IMT.Pbi.C59_affine_dropped_violated",
    "IMT.Pbi.C59_corner_violated",
    "IMT.Pbi.C59_corner_swapped_violated",
    "IMT.Pbi.C59_null_component_violated",
    "IMT.Pbi.C59_unique_zero_partial",
    "IMT.Pbi.C59_in_cell",
    "IMT.Pbi.C59_affine_violated",
    "IMT.Pbi.C59_detected_has_zero",
    "IMT.Pbi.C59_detected_partial"
   ],
   "note": "For a non-degenerate cell of non-zero index the interpolated velocity has exactly one zero in the cell and it is the returned position (C59_detected_partial, degree argument over the reals); every returned position lies in its cell (C59_in_cell); the cell is found back on evenly spaced axes. Witnesses: affine cells, null components and NaN are dropped, a corner with vx+vy=0 is returned instead of the zero (with row and column exchanged), irregular axes designate another cell."
  },
  {
   "property": "C60",
   "status": "proved",
   "theorems": [
    "IMT.Cp.C60_sum",
    "IMT.Cp.C60_refused",
    "IMT.Cp.C60_order"
   ],
   "note": "Collections of equal units with at least one time each, as get_critical_points produces them; the sum is compared as a whole, trajectories and linking distance included."
  },
  {
   "property": "C61",
   "status": "proved",
   "theorems": [
    "IMT.Cp.C61_add",
    "IMT.Cp.C61_add_refused",
    "IMT.Cp.C61_remove_index",
    "IMT.Cp.C61_remove_index_refused",
    "IMT.Cp.C61_remove_time",
    "IMT.Cp.C61_remove_time_refused",
    "IMT.Cp.C61_crop",
    "IMT.Cp.C61_history"
   ],
   "note": "Histories of add_point, remove_point (by time or index) and in-place spatial crops, refused calls included. Time crop and changes of units are not in the history."
  },
  {
   "property": "C62",
   "status": "partial",
   "theorems": [
    "IMT.Cp.C62_trajectories_violated",
    "IMT.Cp.C62_epsilon_partial"
   ],
   "note": "_remove_trajectories assigns local variables only: for every collection and every operation the old trajectories stay (C62_trajectories_violated). What holds is that the stored linking distance is erased (C62_epsilon_partial)."
  },
  {
   "property": "C63",
   "status": "proved",
   "theorems": [
    "IMT.Cp.Mean.C63_terminates",
    "IMT.Cp.Mean.C63_partition",
    "IMT.Cp.Mean.C63_saturated"
   ],
   "note": "The resemblance and averaging tests are arbitrary functions of the group and the candidate; exceptions inside them are not modelled."
  },
  {
   "property": "C64",
   "status": "proved",
   "theorems": [
    "IMT.Ascii.C64_roundtrip"
   ],
   "note": "The round trip is proved for every consistent field with at least two points per axis (text formatting of numbers is taken to be exact)."
  },
  {
   "property": "C65",
   "status": "partial",
   "theorems": [
    "IMT.Ascii.C65_import_rows",
    "IMT.Ascii.C65_roundtrip_partial",
    "IMT.Ascii.C65_masked_violated"
   ],
   "note": "Import shows each row's vector at its coordinates for rows in any order; the round trip is proved for every row order when masked points hold a NaN component, and fails exactly by un-masking points whose stored components are numbers (C65_masked_violated)."
  },
  {
   "property": "C66",
   "status": "partial",
   "theorems": [
    "IMT.File.C66_roundtrip_partial",
    "IMT.File.C66_orientation",
    "IMT.File.C66_default_axes",
    "IMT.File.C66_bad_axes",
    "IMT.File.C66_new_file_violated",
    "IMT.File.C66_list_violated"
   ],
   "note": "Geometry of the pixels only: codes of pixels are not modelled. New files cannot be created (C66_new_file_violated) and lists of fields are written unturned (C66_list_violated)."
  },
  {
   "property": "C67",
   "status": "partial",
   "theorems": [
    "IMT.File.C67_roundtrip_partial",
    "IMT.File.C67_second_export_partial",
    "IMT.File.C67_two_formats",
    "IMT.File.C67_dots_violated",
    "IMT.File.C67_other_names"
   ],
   "note": "Proved for every store and every name whose basename is not made of dots only; for those the written file can never be read (C67_dots_violated)."
  },
  {
   "property": "C68",
   "status": "proved",
   "theorems": [
    "IMT.File.C68_im7"
   ],
   "note": "Proved for every size, scale, origin and non-zero steps of any sign; decoding of the buffers is not modelled."
  },
  {
   "property": "C69",
   "status": "partial",
   "theorems": [
    "IMT.File.C69_frames",
    "IMT.File.C69_undecodable",
    "IMT.File.C69_frame_field",
    "IMT.File.C69_unit_violated"
   ],
   "note": "Frame selection, times and geometry are proved; the unit of the values is dropped (C69_unit_violated)."
  },
  {
   "property": "C70",
   "status": "partial",
   "theorems": [
    "IMT.File.C70_search_partial",
    "IMT.File.C70_member_partial",
    "IMT.File.C70_empty_first_violated",
    "IMT.File.C70_empty_after_violated"
   ],
   "note": "Proved for trees in which every folder holds a file; folders without file raise NameError or are reported by mistake (C70_empty_*_violated)."
  },
  {
   "property": "C71",
   "status": "partial",
   "theorems": [
    "IMT.Utils.C71_history_partial",
    "IMT.Utils.C71_restart_partial",
    "IMT.Utils.C71_unpicklable_violated",
    "IMT.Utils.C71_mutation_violated",
    "IMT.Utils.C71_mutation_persists_violated",
    "IMT.Utils.C71_shared_violated"
   ],
   "note": "Over all histories of calls, restarts and kills without in-place changes, results are those of the wrapped function and each key is run once. Violated for unpicklable values, and for callers changing a returned object in place (the change is returned later, and persisted). Two functions of the same name share a file."
  },
  {
   "property": "C72",
   "status": "partial",
   "theorems": [
    "IMT.Utils.C72_kill_partial",
    "IMT.Utils.C72_crash_violated"
   ],
   "note": "A death outside the write keeps the cache; a death during the write leaves a truncated file and the next start raises EOFError."
  },
  {
   "property": "C73",
   "status": "partial",
   "theorems": [
    "IMT.Utils.Files.C73_parallel",
    "IMT.Utils.Files.C73_add",
    "IMT.Utils.Files.C73_remove_index",
    "IMT.Utils.Files.C73_remove_negative",
    "IMT.Utils.Files.C73_remove_array_partial",
    "IMT.Utils.Files.C73_remove_array_violated",
    "IMT.Utils.Files.C73_remove_regex_violated"
   ],
   "note": "Adding, merging and removing one index keep the three lists parallel. Removing an array of indices removes shifted ones, removing by expression drops the wrong rows."
  },
  {
   "property": "C74",
   "status": "partial",
   "theorems": [
    "IMT.Utils.C74_last",
    "IMT.Utils.C74_lines",
    "IMT.Utils.C74_count",
    "IMT.Utils.C74_finish",
    "IMT.Utils.C74_zero_violated"
   ],
   "note": "Lines, their number and the last line are proved for every number of things but 0, for which finish() raises ZeroDivisionError."
  },
  {
   "property": "C75",
   "status": "partial",
   "theorems": [
    "IMT.Utils.C75_display_partial",
    "IMT.Utils.C75_canonical",
    "IMT.Utils.C75_days_violated"
   ],
   "note": "Proved below one day; from one day on, the number of minutes is shown instead of the days."
  },
  {
   "property": "C76",
   "status": "partial",
   "theorems": [
    "IMT.Utils.C76_checks_partial",
    "IMT.Utils.C76_variadic_violated",
    "IMT.Utils.C76_no_argument_violated",
    "IMT.Utils.C76_return"
   ],
   "note": "Proved for calls Python would accept without *args, for functions with at least one argument; functions with *args and functions without variables raise IndexError."
  },
  {
   "property": "C77",
   "status": "partial",
   "theorems": [
    "IMT.Utils.C77_restore_partial",
    "IMT.Utils.C77_leak_violated"
   ],
   "note": "Restoration proved for all nestings; two descriptors leak at every use."
  },
  {
   "property": "C78",
   "status": "partial",
   "theorems": [
    "IMT.Protocol.C78_run_partial",
    "IMT.Protocol.C78_crash_partial",
    "IMT.Protocol.C78_rebuild",
    "IMT.Protocol.C78_mean_violated",
    "IMT.Protocol.C78_broken_violated",
    "IMT.Protocol.C78_silent_violated",
    "IMT.Protocol.C78_stale_violated",
    "IMT.Protocol.C78_default_violated"
   ],
   "note": "Proved for crashes outside the writing of a file and not between the cleaned fields and their mean; the other crash points and the detailed products are shown to violate it. Stages are abstract functions."
  },
  {
   "property": "C79",
   "status": "partial",
   "theorems": [
    "IMT.Utils.C79_history_partial",
    "IMT.Utils.C79_exact",
    "IMT.Utils.C79_axis_partial",
    "IMT.Utils.C79_other",
    "IMT.Utils.C79_scalar_violated",
    "IMT.Utils.C79_points_violated",
    "IMT.Utils.C79_string_violated",
    "IMT.Utils.C79_time_string_violated"
   ],
   "note": "Vector values and times accept exactly factor 1, axes a tolerance around 1; scalar values accept every factor up to 1, point sets and profiles everything, strings are not tested, a string given as unit of times is ignored."
  },
  {
   "property": "C80",
   "status": "partial",
   "theorems": [
    "IMT.Disc.C80_disc_exact_partial",
    "IMT.Disc.C80_disc_refused",
    "IMT.Disc.C80_disc_outside_violated"
   ],
   "note": "The returned indices are exactly the lattice points of the disc; nothing clips them to the field, so near a border indices that designate no point are returned: C80_disc_outside_violated."
  },
  {
   "property": "C81",
   "status": "proved",
   "theorems": [
    "IMT.SF.C81_mul_pointwise",
    "IMT.SF.C81_mul_refused",
    "IMT.SF.C81_mul_div"
   ],
   "note": ""
  },
  {
   "property": "C82",
   "status": "partial",
   "theorems": [
    "IMT.SF.C82_fill_value",
    "IMT.SF.C82_fill_copy_partial",
    "IMT.SF.C82_fill_crop_violated"
   ],
   "note": "Proved without crop; crop=True crops the source of a non-inplace call: C82_fill_crop_violated."
  },
  {
   "property": "C83",
   "status": "proved",
   "theorems": [
    "IMT.Traj.C83_longest_first"
   ],
   "note": ""
  },
  {
   "property": "C84",
   "status": "proved",
   "theorems": [
    "IMT.Topo.C84_only_delete"
   ],
   "note": ""
  },
  {
   "property": "C85",
   "status": "partial",
   "theorems": [
    "IMT.Pbi.C85_total_index_partial",
    "IMT.Pbi.C85_horizontal_violated"
   ],
   "note": "Proved for unmasked fields without null vectors and without a cell having corners pointing exactly right and exactly left; fails without the last hypothesis (C85_horizontal_violated, from C58)."
  },
  {
   "property": "C86",
   "status": "proved",
   "theorems": [
    "IMT.Points.C86_sort"
   ],
   "note": ""
  },
  {
   "property": "C87",
   "status": "partial",
   "theorems": [
    "IMT.Points.C87_remove_partial",
    "IMT.Points.C87_values_violated"
   ],
   "note": "Positions are right; the values of all points are lost (C87_values_violated)."
  },
  {
   "property": "C88",
   "status": "partial",
   "theorems": [
    "IMT.Profile.C88_mask_flag_violated",
    "IMT.Profile.C88_mask_false_partial"
   ],
   "note": "mask=True masks nothing (core/profile.py:66-72): C88_mask_flag_violated; mask=False proved."
  },
  {
   "property": "C89",
   "status": "proved",
   "theorems": [
    "IMT.Points.C89_scale",
    "IMT.Points.C89_set_origin"
   ],
   "note": ""
  },
  {
   "property": "C90",
   "status": "proved",
   "theorems": [
    "IMT.Profile.C90_crop_y",
    "IMT.Profile.C90_crop_y_refused"
   ],
   "note": ""
  },
  {
   "property": "C91",
   "status": "proved",
   "theorems": [
    "IMT.Profile.C91_scale",
    "IMT.Profile.C91_change_unit_x",
    "IMT.Profile.C91_change_unit_y"
   ],
   "note": ""
  },
  {
   "property": "C92",
   "status": "partial",
   "theorems": [
    "IMT.Profile.C92_mul",
    "IMT.Profile.C92_add_number",
    "IMT.Profile.C92_neg",
    "IMT.Profile.C92_pow_partial",
    "IMT.Profile.C92_pow_zero_violated"
   ],
   "note": "Proved except for the power 0, where masked points get the value 1: C92_pow_zero_violated."
  },
  {
   "property": "C93",
   "status": "partial",
   "theorems": [
    "IMT.Profile.C93_interpolated_sound",
    "IMT.Profile.C93_round_trip",
    "IMT.Profile.C93_interpolated_complete_partial",
    "IMT.Profile.C93_interpolated_violated",
    "IMT.Profile.C93_position_sound",
    "IMT.Profile.C93_position_complete_partial",
    "IMT.Profile.C93_position_violated"
   ],
   "note": "Soundness and round trip proved for all values; completeness proved for values that are not stored. When the value is stored, crossings elsewhere, and for get_value_position all but the first stored position, are lost: C93_interpolated_violated, C93_position_violated."
  },
  {
   "property": "C94",
   "status": "proved",
   "theorems": [
    "IMT.Profile.C94_remove_nans"
   ],
   "note": ""
  },
  {
   "property": "C95",
   "status": "proved",
   "theorems": [
    "IMT.Profile.C95_extrema"
   ],
   "note": ""
  },
  {
   "property": "C96",
   "status": "proved",
   "theorems": [
    "IMT.Profile.C96_additive",
    "IMT.Profile.C96_segment",
    "IMT.Profile.C96_masked",
    "IMT.Profile.C96_nonneg",
    "IMT.Profile.C96_linear"
   ],
   "note": ""
  },
  {
   "property": "C97",
   "status": "partial",
   "theorems": [
    "IMT.Temporal.C97_times",
    "IMT.Temporal.C97_fields_partial",
    "IMT.Temporal.C97_negative_violated"
   ],
   "note": "Times proved for all factors, fields for positive factors. A negative axis factor reverses the axis of each field but not its values: C97_negative_violated."
  },
  {
   "property": "C98",
   "status": "proved",
   "theorems": [
    "IMT.Temporal.C98_change_unit",
    "IMT.Temporal.C98_change_unit_time",
    "IMT.Temporal.C98_refused",
    "IMT.Temporal.C98_refused_axes"
   ],
   "note": ""
  },
  {
   "property": "C99",
   "status": "proved",
   "theorems": [
    "IMT.Temporal.C99_set_origin",
    "IMT.Temporal.C99_rotate",
    "IMT.Temporal.C99_rotate_refused"
   ],
   "note": ""
  },
  {
   "property": "C100",
   "status": "partial",
   "theorems": [
    "IMT.TPoints.C100_add",
    "IMT.TPoints.C100_remove_one",
    "IMT.TPoints.C100_removed_violated",
    "IMT.TPoints.C100_unit_violated",
    "IMT.TPoints.C100_history_partial"
   ],
   "note": "History theorem over all additions and crops with times in the unit of the collection; after any removal every addition raises AttributeError, and a time in another unit is converted with the inverse factor."
  },
  {
   "property": "C101",
   "status": "partial",
   "theorems": [
    "IMT.TPoints.C101_crop_violated"
   ],
   "note": "The collection keeps the caller's object itself; C101_crop_violated shows, for every collection, that an in-place crop reaches it."
  },
  {
   "property": "C102",
   "status": "partial",
   "theorems": [
    "IMT.TPoints.C102_scale_partial",
    "IMT.TPoints.C102_default_violated"
   ],
   "note": "Proved when the three factors of the points are given; with a default factor TypeError is raised (C102_default_violated)."
  },
  {
   "property": "C103",
   "status": "partial",
   "theorems": [
    "IMT.TPoints.C103_points",
    "IMT.TPoints.C103_time",
    "IMT.TPoints.C103_refused",
    "IMT.TPoints.C103_values_violated",
    "IMT.TPoints.C103_stale_violated",
    "IMT.TPoints.C103_sets_partial"
   ],
   "note": "Positions and times proved; changing the unit of the values always raises, and the units the collection displays stay the former ones."
  },
  {
   "property": "C104",
   "status": "partial",
   "theorems": [
    "IMT.Spatial.C104_mean_partial",
    "IMT.Spatial.C104_outside",
    "IMT.Spatial.C104_border_violated"
   ],
   "note": "Proved strictly inside the rectangles of fields that show a value there; on the border of a field the point is refused (C104_border_violated)."
  },
  {
   "property": "C105",
   "status": "proved",
   "theorems": [
    "IMT.Spatial.C105_add",
    "IMT.Spatial.C105_refused"
   ],
   "note": ""
  },
  {
   "property": "C106",
   "status": "proved",
   "theorems": [
    "IMT.VF.C106_rotate",
    "IMT.VF.C106_refused"
   ],
   "note": ""
  },
  {
   "property": "C107",
   "status": "proved",
   "theorems": [
    "IMT.VF.C107_crop_keeps_readings",
    "IMT.VF.C107_crop_consistent",
    "IMT.VF.C107_crop_missing_interval",
    "IMT.VF.C107_cropInd_keeps_readings"
   ],
   "note": ""
  },
  {
   "property": "C108",
   "status": "proved",
   "theorems": [
    "IMT.VF.C108_setOrigin_shifts",
    "IMT.VF.C108_changeUnit_physical",
    "IMT.VF.C108_changeUnit_refused"
   ],
   "note": ""
  },
  {
   "property": "C109",
   "status": "proved",
   "theorems": [
    "IMT.VF.C109_extend_reads"
   ],
   "note": ""
  },
  {
   "property": "C110",
   "status": "proved",
   "theorems": [
    "IMT.VF.C110_iter_complete"
   ],
   "note": ""
  },
  {
   "property": "C111",
   "status": "partial",
   "theorems": [
    "IMT.VF.C111_import_reads_partial",
    "IMT.VF.C111_import_mask_violated",
    "IMT.VF.C111_import_transposed",
    "IMT.VF.C111_import_single_point"
   ],
   "note": "Proved for increasing axes and for unmasked data; on a decreasing axis the mask is not reversed with the components: C111_import_mask_violated."
  },
  {
   "property": "C112",
   "status": "proved",
   "theorems": [
    "IMT.VF.C112_add_pointwise",
    "IMT.VF.C112_neg",
    "IMT.VF.C112_sub_pointwise",
    "IMT.VF.C112_add_comm",
    "IMT.VF.C112_add_refused"
   ],
   "note": ""
  },
  {
   "property": "C113",
   "status": "partial",
   "theorems": [
    "IMT.VF.C113_add_shared_partial",
    "IMT.VF.C113_zero_violated"
   ],
   "note": "Proved for shared coordinates other than 0, with at least two of them per axis; the coordinate 0 is always dropped: C113_zero_violated."
  },
  {
   "property": "C114",
   "status": "partial",
   "theorems": [
    "IMT.VF.C114_mulNum",
    "IMT.VF.C114_mulSF_partial",
    "IMT.VF.C114_unit_violated",
    "IMT.VF.C114_grid_violated"
   ],
   "note": "Values and masks proved; the unit of the scalar field is ignored and its grid not compared: C114_unit_violated, C114_grid_violated."
  },
  {
   "property": "C115",
   "status": "partial",
   "theorems": [
    "IMT.VF.C115_soft_bounding_box",
    "IMT.VF.C115_soft_returns_partial",
    "IMT.VF.C115_nothing_returned_violated",
    "IMT.VF.C115_hard_terminates",
    "IMT.VF.C115_hard_mask_free_partial",
    "IMT.VF.C115_hard_error_violated"
   ],
   "note": "Everything the soft variant returns is proved right, the hard variant terminates and is mask-free. Nothing is returned when nothing is masked, and ValueError can be raised."
  },
  {
   "property": "C116",
   "status": "partial",
   "theorems": [
    "IMT.Ascii.C116_columns",
    "IMT.Ascii.C116_columns_violated",
    "IMT.Ascii.C116_rows_partial",
    "IMT.Ascii.C116_rows_violated",
    "IMT.Ascii.C116_close_violated",
    "IMT.Ascii.C116_incomplete_violated",
    "IMT.Ascii.C116_any_order_partial",
    "IMT.Ascii.C116_square_violated"
   ],
   "note": "Proved for tables by increasing columns, by rows from the top (abscissae not closer than the np.allclose tolerance) and for complete tables in other orders on non-square grids; all other listed layouts are shown mirrored, transposed or refused (C116_*_violated)."
  },
  {
   "property": "C117",
   "status": "partial",
   "theorems": [
    "IMT.File.C117_vc7_partial",
    "IMT.File.C117_pixel_violated"
   ],
   "note": "Proved except when the y axis is in pixels with a positive step and some vector is masked or null: the mask is then mirrored (C117_pixel_violated)."
  },
  {
   "property": "C118",
   "status": "partial",
   "theorems": [
    "IMT.File.C118_order_partial",
    "IMT.File.C118_injective",
    "IMT.File.C118_order_violated"
   ],
   "note": "Proved up to 100000 pictures; beyond, the order is lost (C118_order_violated)."
  },
  {
   "property": "C119",
   "status": "partial",
   "theorems": [
    "IMT.Treat.C119_gradients_partial",
    "IMT.Treat.C119_uneven_violated"
   ],
   "note": "Even axes; on uneven axes the code uses the first step everywhere (C119_uneven_violated, C120_uneven_violated)."
  },
  {
   "property": "C120",
   "status": "partial",
   "theorems": [
    "IMT.Treat.C120_affine_partial",
    "IMT.Treat.C120_shown",
    "IMT.Treat.C120_uneven_violated"
   ],
   "note": "Uneven axes give other slopes (C120_uneven_violated)."
  },
  {
   "property": "C121",
   "status": "partial",
   "theorems": [
    "IMT.Treat.C121_gradients_partial",
    "IMT.Treat.C121_divergence_partial",
    "IMT.Treat.C121_divergence_refused",
    "IMT.Treat.C121_uneven_violated"
   ],
   "note": "Even axes; fails on uneven ones (C121_uneven_violated). Profile gradients are not modelled."
  },
  {
   "property": "C122",
   "status": "partial",
   "theorems": [
    "IMT.Treat.C122_numbers_partial",
    "IMT.Treat.C122_unit_violated"
   ],
   "note": "The numbers are right, the unit is the one of the original field instead of the one of the gradient (C122_unit_violated)."
  },
  {
   "property": "C123",
   "status": "partial",
   "theorems": [
    "IMT.Treat.C123_track_field",
    "IMT.Treat.C123_fieldlines",
    "IMT.Treat.C123_tracklines_partial",
    "IMT.Treat.C123_reverse_violated"
   ],
   "note": "get_tracklines ignores reverse (C123_reverse_violated); get_fieldlines forwards it."
  },
  {
   "property": "C124",
   "status": "partial",
   "theorems": [
    "IMT.Treat.C124_reconstruct_partial",
    "IMT.Treat.C124_quadratic_partial",
    "IMT.Treat.C124_units_violated",
    "IMT.Treat.C124_masked_violated",
    "IMT.Treat.C124_roundtrip_partial"
   ],
   "note": "Exact for all fields satisfying the trapezoidal rule, one unit product for both gradients, no masked point. With other units for y the result is scaled (C124_units_violated); one masked point masks everything (C124_masked_violated)."
  },
  {
   "property": "C125",
   "status": "proved",
   "theorems": [
    "IMT.Treat.C125_streamlines",
    "IMT.Treat.C125_reverse",
    "IMT.Treat.C125_refused"
   ],
   "note": "Over every ordered field with floor and every norm function with the square property; instantiated at the real numbers."
  },
  {
   "property": "C126",
   "status": "partial",
   "theorems": [
    "IMT.Treat.C126_starts_partial",
    "IMT.Treat.C126_integers_violated"
   ],
   "note": "Integer arrays of seeds are rescaled in place and truncated: every seed inside goes to the lower left corner (C126_integers_violated)."
  },
  {
   "property": "C127",
   "status": "partial",
   "theorems": [
    "IMT.Treat.C127_left_partial",
    "IMT.Treat.C127_near_violated",
    "IMT.Treat.C127_right_violated",
    "IMT.Treat.C127_first_violated"
   ],
   "note": "Left and lower walls within one step; walls nearer than one step overwrite data, right and upper walls overshoot by n-2 steps, a wall on the first line raises."
  },
  {
   "property": "C128",
   "status": "partial",
   "theorems": [
    "IMT.Crit.C128_motif",
    "IMT.Crit.C128_shown",
    "IMT.Crit.C128_local",
    "IMT.Crit.C128_units_partial",
    "IMT.Crit.C128_units_violated"
   ],
   "note": "Radius in number of vectors: proved in full. Radius in axis units: proved for equal steps along both axes; with different steps it fails (IndexError, C128_units_violated)."
  },
  {
   "property": "C129",
   "status": "proved",
   "theorems": [
    "IMT.Crit.C129_bounds",
    "IMT.Crit.C129_bounds_units",
    "IMT.Crit.C129_gamma2b",
    "IMT.Crit.C129_gamma1b"
   ],
   "note": ""
  },
  {
   "property": "C130",
   "status": "proved",
   "theorems": [
    "IMT.Crit.C130_scale",
    "IMT.Crit.C130_galilean",
    "IMT.Crit.C130_turn"
   ],
   "note": ""
  },
  {
   "property": "C131",
   "status": "partial",
   "theorems": [
    "IMT.Crit.C131_vortex",
    "IMT.Crit.C131_source",
    "IMT.Crit.C131_rotation",
    "IMT.Crit.C131_vortex_only",
    "IMT.Crit.C131_units_violated"
   ],
   "note": "Proved for a radius in number of vectors; with a radius in axis units the point counts itself and gamma1 is n/(n+1) (C131_units_violated)."
  },
  {
   "property": "C132",
   "status": "partial",
   "theorems": [
    "IMT.Crit.C132_kappa2_partial",
    "IMT.Crit.C132_centre_violated"
   ],
   "note": "kappa2 subtracts the velocity of the point itself instead of the mean (C132_centre_violated); what it computes is C132_kappa2_partial."
  },
  {
   "property": "C133",
   "status": "partial",
   "theorems": [
    "IMT.Crit.C133_slopes_partial",
    "IMT.Crit.C133_never_masked",
    "IMT.Crit.C133_half_violated",
    "IMT.Crit.C133_unit_violated"
   ],
   "note": "Half of the curl is returned (C133_half_violated) and the unit of x is used for both axes (C133_unit_violated); evenly spaced axes assumed."
  },
  {
   "property": "C134",
   "status": "proved",
   "theorems": [
    "IMT.Crit.C134_curl_of_gradient",
    "IMT.Crit.C134_galilean",
    "IMT.Crit.C134_turned"
   ],
   "note": ""
  },
  {
   "property": "C135",
   "status": "partial",
   "theorems": [
    "IMT.Crit.C135_split",
    "IMT.Crit.C135_rotation",
    "IMT.Crit.C135_shear",
    "IMT.Crit.C135_turned_partial",
    "IMT.Crit.C135_turned_violated",
    "IMT.Crit.C135_expansion_violated"
   ],
   "note": "The strain assumes a flow without divergence; with one, the split depends on the axes (C135_turned_violated, C135_expansion_violated)."
  },
  {
   "property": "C136",
   "status": "partial",
   "theorems": [
    "IMT.Crit.C136_q_partial",
    "IMT.Crit.C136_q_violated",
    "IMT.Crit.C136_missed_violated",
    "IMT.Crit.C136_nk",
    "IMT.Crit.C136_nk_invariant",
    "IMT.Crit.C136_nk_undefined"
   ],
   "note": "Q: the half multiplies the rotation only (C136_q_violated, C136_missed_violated). Nk: proved in full."
  },
  {
   "property": "C137",
   "status": "partial",
   "theorems": [
    "IMT.Crit.C137_masked",
    "IMT.Crit.C137_sign_violated",
    "IMT.Crit.C137_rotation_violated",
    "IMT.Crit.C137_unit_violated"
   ],
   "note": "Mask proved. Sign and unit fail (C137_sign_violated, C137_unit_violated)."
  },
  {
   "property": "C138",
   "status": "partial",
   "theorems": [
    "IMT.Crit.C138_lambda2",
    "IMT.Crit.C138_swirl",
    "IMT.Crit.C138_agree",
    "IMT.Crit.C138_raw_violated"
   ],
   "note": "Proved, but raw=True always raises (C138_raw_violated)."
  },
  {
   "property": "C139",
   "status": "partial",
   "theorems": [
    "IMT.Crit.C139_sum",
    "IMT.Crit.C139_masked",
    "IMT.Crit.C139_border",
    "IMT.Crit.C139_affine_partial",
    "IMT.Crit.C139_area_violated",
    "IMT.Crit.C139_potential",
    "IMT.Crit.C139_axis"
   ],
   "note": "The circulation is divided by the number of points of the window, not its area (C139_area_violated); the rest is proved."
  },
  {
   "property": "C140",
   "status": "proved",
   "theorems": [
    "IMT.Crit.C140_affine"
   ],
   "note": ""
  },
  {
   "property": "C141",
   "status": "partial",
   "theorems": [
    "IMT.Crit.C141_sign",
    "IMT.Crit.C141_centre_violated"
   ],
   "note": "The point itself is left out with a radius in number of vectors (C141_centre_violated)."
  },
  {
   "property": "C142",
   "status": "partial",
   "theorems": [
    "IMT.Vortex.C142_solid",
    "IMT.Vortex.C142_free",
    "IMT.Vortex.C142_lamb_oseen",
    "IMT.Vortex.C142_burger",
    "IMT.Vortex.C142_rankine",
    "IMT.Vortex.C142_burger_as_lamb",
    "IMT.Vortex.C142_perso",
    "IMT.Vortex.C142_perso_vorticity_violated",
    "IMT.Vortex.C142_dipole_violated"
   ],
   "note": "Proved for solid, free, Lamb-Oseen, Burger, Rankine and Perso vortices (given by their circulation). Not so: a Perso vortex given by its peak vorticity has twice this vorticity; outside a Lamb-Chaplygin dipole the speed grows without bound."
  },
  {
   "property": "C143",
   "status": "partial",
   "theorems": [
    "IMT.Vortex.C143_wall_partial",
    "IMT.Vortex.C143_position",
    "IMT.Vortex.C143_parallel_violated",
    "IMT.Vortex.C143_hill_violated",
    "IMT.Vortex.C143_custom_violated"
   ],
   "note": "Proved for round vortices and the last wall, or walls followed by perpendicular ones only, whatever the history. Violated with two parallel walls (one reflection order only), for Hill vortices, and when a custom field is added (fields are not reflected)."
  },
  {
   "property": "C144",
   "status": "partial",
   "theorems": [
    "IMT.Vortex.C144_history_partial",
    "IMT.Vortex.C144_field",
    "IMT.Vortex.C144_kept",
    "IMT.Vortex.C144_index_violated",
    "IMT.Vortex.C144_count_violated",
    "IMT.Vortex.C144_shared_field_violated"
   ],
   "note": "Proved for all histories whose removals do not count further back than the first vortex. Violated otherwise: the index wraps twice; nmb_vortex is not updated by removals; a custom field given to two systems shares its identifier."
  },
  {
   "property": "C145",
   "status": "partial",
   "theorems": [
    "IMT.Vortex.C145_one",
    "IMT.Vortex.C145_sum",
    "IMT.Vortex.C145_detailed_violated",
    "IMT.Vortex.C145_map"
   ],
   "note": "Proved for selections, the parts of get_compounded_vector and the velocity map. With detailed=True the parts miss the images when they were not refreshed."
  },
  {
   "property": "C146",
   "status": "proved",
   "theorems": [
    "IMT.Vortex.C146_trajectories",
    "IMT.Vortex.C146_refused",
    "IMT.Vortex.C146_step"
   ],
   "note": ""
  },
  {
   "property": "C147",
   "status": "partial",
   "theorems": [
    "IMT.Vortex.C147_conserved",
    "IMT.Vortex.C147_along_wall",
    "IMT.Vortex.C147_pair_violated"
   ],
   "note": "Impulses conserved for any number of vortices and steps. Two equal vortices drift apart at each step (explicit Euler step)."
  },
  {
   "property": "C148",
   "status": "partial",
   "theorems": [
    "IMT.Pod.C148_residual",
    "IMT.Pod.C148_all",
    "IMT.Pod.C148_wanted",
    "IMT.Pod.C148_wanted_violated"
   ],
   "note": "Proved for every eigendecomposition satisfying what modred guarantees (orthonormal eigenvectors of the correlation matrix, positive eigenvalues); 'all modes give the originals back' needs that no kept-out eigenvalue is non-zero."
  },
  {
   "property": "C149",
   "status": "proved",
   "theorems": [
    "IMT.Pod.C149_orthonormal",
    "IMT.Pod.C149_evolutions",
    "IMT.Pod.C149_energies"
   ],
   "note": ""
  },
  {
   "property": "C150",
   "status": "partial",
   "theorems": [
    "IMT.Pod.C150_keep_partial",
    "IMT.Pod.C150_vectors_violated",
    "IMT.Pod.C150_remove_violated",
    "IMT.Pod.C150_index_violated"
   ],
   "note": "Keeping modes proved. Violated: modes_to_remove always raises AttributeError; the eigenvectors lose rows (fields) along with columns; an index equal to the number of modes raises IndexError instead of ValueError."
  },
  {
   "property": "C151",
   "status": "proved",
   "theorems": [
    "IMT.Pod.C151_each",
    "IMT.Pod.C151_between",
    "IMT.Pod.C151_outside"
   ],
   "note": ""
  },
  {
   "property": "C152",
   "status": "partial",
   "theorems": [
    "IMT.Pod.C152_space",
    "IMT.Pod.C152_scale",
    "IMT.Pod.C152_time_partial",
    "IMT.Pod.C152_accepted",
    "IMT.Pod.C152_start_violated",
    "IMT.Pod.C152_last_violated"
   ],
   "note": "Space and scale proved; in time proved when the interval does not begin at a time after the first. Violated otherwise: such a time is dropped, and the interval beginning at the last time is refused."
  },
  {
   "property": "C153",
   "status": "partial",
   "theorems": [
    "IMT.Pod.C153_rates",
    "IMT.Pod.C153_grows",
    "IMT.Pod.C153_real_partial",
    "IMT.Pod.C153_oscillating_violated",
    "IMT.Pod.C153_shift_violated"
   ],
   "note": "Growth rate and pulsation proved. Evolutions proved for real Ritz values; violated for all oscillating modes (imaginary part lost in the profile), and when a field is asked alone (shifted by one step less the first time)."
  },
  {
   "property": "C154",
   "status": "partial",
   "theorems": [
    "IMT.Panel.C154_wall",
    "IMT.Panel.C154_on",
    "IMT.Panel.C154_off",
    "IMT.Panel.C154_extent_violated"
   ],
   "note": "Proved for any panels whose centres are not on other panels. Violated on the prolongation of a panel: up to a fifth of its length beyond its ends, points are taken as on the panel."
  },
  {
   "property": "C155",
   "status": "proved",
   "theorems": [
    "IMT.Panel.C155_far",
    "IMT.Panel.C155_proportional"
   ],
   "note": ""
  },
  {
   "property": "C156",
   "status": "partial",
   "theorems": [
    "IMT.Panel.C156_solve",
    "IMT.Panel.C156_asked",
    "IMT.Panel.C156_inverse_violated",
    "IMT.Panel.C156_stream_violated"
   ],
   "note": "Proved for all histories of additions, solutions and questions. Violated after inverse_normals (the sources vanish until solving_sigma is called) and after a change of the free stream."
  },
  {
   "property": "C157",
   "status": "partial",
   "theorems": [
    "IMT.Panel.C157_closed",
    "IMT.Panel.C157_close",
    "IMT.Panel.C157_open_violated",
    "IMT.Panel.C157_wall_violated"
   ],
   "note": "Proved for closed paths (solids). Violated for boundaries: an open path is cut up to its last vertex, then goes back to its first; a single straight wall is refused with the resolution by default."
  },
  {
   "property": "C158",
   "status": "partial",
   "theorems": [
    "IMT.Panel.C158_line_partial",
    "IMT.Panel.C158_backwards_violated",
    "IMT.Panel.C158_slanted_violated",
    "IMT.Panel.C158_pressure"
   ],
   "note": "Proved when both coordinates increase along the line; violated otherwise: negative abscissae backwards, wrong ones on a slanted line."
  },
  {
   "property": "C159",
   "status": "partial",
   "theorems": [
    "IMT.Zone.C159_zone_partial",
    "IMT.Zone.C159_peak",
    "IMT.Zone.C159_outside_violated",
    "IMT.Zone.C159_clockwise_violated",
    "IMT.Zone.C159_none_violated",
    "IMT.Zone.C159_still_violated",
    "IMT.Zone.C159_position"
   ],
   "note": "Proved for positive vorticity at the point when the point is above the threshold of its peak. Violated: below it, and for clockwise vortices, the area is the one of the background; never 0; the whole field without vorticity."
  },
  {
   "property": "C160",
   "status": "proved",
   "theorems": [
    "IMT.Zone.C160_velocity",
    "IMT.Zone.C160_length"
   ],
   "note": ""
  },
  {
   "property": "C161",
   "status": "proved",
   "theorems": [
    "IMT.Zone.C161_barycentre",
    "IMT.Zone.C161_within"
   ],
   "note": ""
  },
  {
   "property": "C162",
   "status": "partial",
   "theorems": [
    "IMT.Zone.C162_bounds_partial",
    "IMT.Zone.C162_only_zone",
    "IMT.Zone.C162_scale",
    "IMT.Zone.C162_rest_violated",
    "IMT.Zone.C162_parity_violated"
   ],
   "note": "Proved: dependence on the zone only, proportionality, bounds 1/9 and 16/9 of the sum. Violated: Simpson's rule on a masked field weighs cells by parity; a point at rest (the centre of a vortex) is refused."
  },
  {
   "property": "C163",
   "status": "partial",
   "theorems": [
    "IMT.Zone.C163_zone",
    "IMT.Zone.C163_out",
    "IMT.Zone.C163_scale",
    "IMT.Zone.C163_grows",
    "IMT.Zone.C163_dipole_violated"
   ],
   "note": "Violated only for touching vortices of opposite signs, which are one zone."
  },
  {
   "property": "C164",
   "status": "partial",
   "theorems": [
    "IMT.Zone.C164_radius",
    "IMT.Zone.C164_missing",
    "IMT.Zone.C164_mask_violated",
    "IMT.Zone.C164_property",
    "IMT.Zone.C164_nothing"
   ],
   "note": "Violated: radii are masked when zero, which never happens."
  },
  {
   "property": "C165",
   "status": "partial",
   "theorems": [
    "IMT.Bl.C165_pointwise",
    "IMT.Bl.C165_laminar",
    "IMT.Bl.C165_turbulent",
    "IMT.Bl.C165_grows",
    "IMT.Bl.C165_karman_partial",
    "IMT.Bl.C165_karman_violated",
    "IMT.Bl.C165_percent",
    "IMT.Bl.C165_refused"
   ],
   "note": "Momentum balance proved in the laminar part only; violated in the turbulent part, where the momentum and displacement thicknesses are zero."
  },
  {
   "property": "C166",
   "status": "partial",
   "theorems": [
    "IMT.Bl.C166_turbulent_partial",
    "IMT.Bl.C166_laminar_violated",
    "IMT.Bl.C166_monotone_violated"
   ],
   "note": "Proved in the turbulent part. Violated in the laminar part, where the constant 4.92 is used instead of 4.91, and at the transition, where a thicker layer may be located upstream."
  },
  {
   "property": "C167",
   "status": "partial",
   "theorems": [
    "IMT.Bl.C167_confined_partial",
    "IMT.Bl.C167_negative_violated"
   ],
   "note": "Proved: upper bounds, limit, and positivity for layers thinner than the depth. Violated: thick layers get a negative thickness."
  },
  {
   "property": "C168",
   "status": "partial",
   "theorems": [
    "IMT.Bl.C168_y",
    "IMT.Bl.C168_prandtl",
    "IMT.Bl.C168_blasius",
    "IMT.Bl.C168_inverse_violated"
   ],
   "note": "Equations proved for every pressure gradient. Violated: get_mu multiplies by sqrt((m+1)/2) with respect to the inverse of get_y."
  },
  {
   "property": "C169",
   "status": "partial",
   "theorems": [
    "IMT.Bl.C169_between",
    "IMT.Bl.C169_affine",
    "IMT.Bl.C169_tolerance_violated",
    "IMT.Bl.C169_verbose_violated",
    "IMT.Bl.C169_stops_partial"
   ],
   "note": "Proved: position between the guesses, exact for affine responses, and with messages the stopping rule, which also stops when two shots are close. Violated: without messages the accuracy is ignored."
  },
  {
   "property": "C170",
   "status": "partial",
   "theorems": [
    "IMT.Bl.C170_equation",
    "IMT.Bl.C170_plate",
    "IMT.Bl.C170_power",
    "IMT.Bl.C170_rest",
    "IMT.Bl.C170_shape",
    "IMT.Bl.C170_displacement",
    "IMT.Bl.C170_lambda_violated"
   ],
   "note": "Violated: the derivative of the outer velocity in the pressure gradient parameter ignores the spacing of the positions."
  },
  {
   "property": "C171",
   "status": "partial",
   "theorems": [
    "IMT.Bl.C171_domain",
    "IMT.Bl.C171_sublayer",
    "IMT.Bl.C171_log",
    "IMT.Bl.C171_outside_partial",
    "IMT.Bl.C171_edge_violated",
    "IMT.Bl.C171_increasing_violated",
    "IMT.Bl.C171_wake",
    "IMT.Bl.C171_rest"
   ],
   "note": "Violated: the velocity drops when leaving the viscous sublayer, and beyond the edge when the edge is in the logarithmic region."
  },
  {
   "property": "C172",
   "status": "partial",
   "theorems": [
    "IMT.Meas.C172_reached",
    "IMT.Meas.C172_first_partial",
    "IMT.Meas.C172_stored",
    "IMT.Meas.C172_first_violated",
    "IMT.Meas.C172_exists_partial",
    "IMT.Meas.C172_uniform_violated",
    "IMT.Meas.C172_gap_violated",
    "IMT.Meas.C172_masked",
    "IMT.Meas.C172_scale"
   ],
   "note": "First place proved when no stored velocity is exactly the wanted one, existence without masked points. Violated: stored exact values hide earlier crossings; profiles that start above the wanted velocity, or whose crossing is masked, raise IndexError."
  },
  {
   "property": "C173",
   "status": "partial",
   "theorems": [
    "IMT.Meas.C173_formula_partial",
    "IMT.Meas.C173_order",
    "IMT.Meas.C173_flow",
    "IMT.Meas.C173_masked_violated",
    "IMT.Meas.C173_normal_violated",
    "IMT.Meas.C173_scale"
   ],
   "note": "Formula proved with the largest velocity stored below the edge. Violated: that velocity is used instead of the one outside, so the displacement thickness is too small by at least 1/19 of the velocity integral; a masked point in the layer gives NaN."
  },
  {
   "property": "C174",
   "status": "partial",
   "theorems": [
    "IMT.Meas.C174_shape",
    "IMT.Meas.C174_scale",
    "IMT.Meas.C174_masked_violated"
   ],
   "note": "Violated: ZeroDivisionError for a masked profile (and NaN for a masked point in the layer, C173_masked_violated)."
  },
  {
   "property": "C175",
   "status": "partial",
   "theorems": [
    "IMT.Meas.C175_simple",
    "IMT.Meas.C175_affine",
    "IMT.Meas.C175_pascal",
    "IMT.Meas.C175_masked_violated",
    "IMT.Meas.C175_uneven",
    "IMT.Meas.C175_lin",
    "IMT.Meas.C175_refused"
   ],
   "note": "Violated: a masked point between two shown ones gets a stress. Not modelled: the logarithmic law, respace, scalar fields."
  },
  {
   "property": "C176",
   "status": "proved",
   "theorems": [
    "IMT.Stab.C176_running",
    "IMT.Stab.C176_continuous",
    "IMT.Stab.C176_from_first",
    "IMT.Stab.C176_found"
   ],
   "note": ""
  },
  {
   "property": "C177",
   "status": "partial",
   "theorems": [
    "IMT.Stab.C177_refused",
    "IMT.Stab.C177_places",
    "IMT.Stab.C177_rigid",
    "IMT.Stab.C177_translation",
    "IMT.Stab.C177_follows_partial",
    "IMT.Stab.C177_zoom_violated",
    "IMT.Stab.C177_first_partial",
    "IMT.Stab.C177_first_violated"
   ],
   "note": "Exact in mode 'continuous' when the estimated motions are rotations and translations (C177_follows_partial), in mode 'from_first' when nothing turns. Violated: the scale of an estimate is dropped; in mode 'from_first' a picture shifted then turned is tracked wrongly."
  },
  {
   "property": "C178",
   "status": "partial",
   "theorems": [
    "IMT.Stab.C178_film_partial",
    "IMT.Stab.C178_axis_violated",
    "IMT.Stab.C178_first"
   ],
   "note": "y axis right when the x step is not larger than the y step. Violated otherwise: the end of the y axis is computed with the x step, so the axis is longer than the pictures."
  },
  {
   "property": "C179",
   "status": "partial",
   "theorems": [
    "IMT.Stab.C179_example",
    "IMT.Stab.C179_residual_partial",
    "IMT.Stab.C179_residual_violated"
   ],
   "note": "Proved: the detail is shown at the smoothed trajectory plus the last frame to frame displacement, without rotation. Violated: the transform applied is raw + smoothed - trajectory instead of smoothed - trajectory, so the shaking is left in."
  },
  {
   "property": "C180",
   "status": "partial",
   "theorems": [
    "IMT.Stab.C180_border_partial",
    "IMT.Stab.C180_place",
    "IMT.Stab.C180_border_violated"
   ],
   "note": "Proved when the picture does not turn. Violated: with a border, rotations are made around the corner of the widened picture."
  },
  {
   "property": "C181",
   "status": "partial",
   "theorems": [
    "IMT.Stab.C181_history",
    "IMT.Stab.C181_order",
    "IMT.Stab.C181_unchanged",
    "IMT.Stab.C181_stale_violated"
   ],
   "note": "Violated for the steps made by hand: computing new transforms leaves the old smoothed ones in use."
  },
  {
   "property": "C182",
   "status": "proved",
   "theorems": [
    "IMT.Ftle.C182_time",
    "IMT.Ftle.C182_refused",
    "IMT.Ftle.C182_rounds"
   ],
   "note": ""
  },
  {
   "property": "C183",
   "status": "partial",
   "theorems": [
    "IMT.Ftle.C183_uniform_partial",
    "IMT.Ftle.C183_back",
    "IMT.Ftle.C183_rest",
    "IMT.Ftle.C183_reverse",
    "IMT.Ftle.C183_endless_violated"
   ],
   "note": "Violated: with dampl = 1, which is accepted, the step is multiplied by 1 - dampl = 0 after the first step in a uniform flow and the loop never ends. Proved for every damping below 1."
  },
  {
   "property": "C184",
   "status": "partial",
   "theorems": [
    "IMT.Ftle.C184_fifth",
    "IMT.Ftle.C184_estimate",
    "IMT.Ftle.C184_control",
    "IMT.Ftle.C184_control_violated",
    "IMT.Ftle.C184_linear",
    "IMT.Ftle.C184_centre",
    "IMT.Ftle.C184_spiral",
    "IMT.Ftle.C184_rotation"
   ],
   "note": "Proved: fourth and fifth order Taylor polynomials of both estimates in linear flows, explicit bounds, and the step control. Violated: the next step is NaN for a particle at rest and infinite where both estimates agree."
  },
  {
   "property": "C185",
   "status": "partial",
   "theorems": [
    "IMT.Ftle.C185_points",
    "IMT.Ftle.C185_number_violated"
   ],
   "note": "Proved: regular, inside, from half a spacing to less than a spacing of the end. Violated: the spacing used is half the diagonal of the cell, the same along both axes, so in a square field there are more points than asked."
  },
  {
   "property": "C186",
   "status": "partial",
   "theorems": [
    "IMT.Ftle.C186_stretch",
    "IMT.Ftle.C186_masked",
    "IMT.Ftle.C186_affine_partial",
    "IMT.Ftle.C186_uniform_violated"
   ],
   "note": "Proved: the value is the logarithm of the largest stretching (greatest over the unit vectors), the masking rule. Violated: gradients are taken with the spacing asked while the particles are at another spacing, so the exponent of a uniform flow is not zero; for equal spacings the value is off by log 2 / (2 |dt|), which is what C186_affine_partial proves."
  },
  {
   "property": "C187",
   "status": "partial",
   "theorems": [
    "IMT.Line.C187_grid",
    "IMT.Line.C187_between",
    "IMT.Line.C187_refused",
    "IMT.Line.C187_index",
    "IMT.Line.C187_nearest_partial",
    "IMT.Line.C187_nearest_violated",
    "IMT.Line.C187_interval",
    "IMT.Line.C187_all",
    "IMT.Line.C187_indices_violated"
   ],
   "note": "Proved for positions, indices, intervals and 'all'. Violated: interp='nearest' raises NameError on a field with one line only; intervals of indices (and 'all' with ind=True) never give a profile."
  },
  {
   "property": "C188",
   "status": "partial",
   "theorems": [
    "IMT.Line.C188_area",
    "IMT.Line.C188_exact",
    "IMT.Line.C188_refused",
    "IMT.Line.C188_unit_partial",
    "IMT.Line.C188_unit_violated"
   ],
   "note": "Violated: for lines of constant x the unit is that of the wrong axis."
  },
  {
   "property": "C189",
   "status": "partial",
   "theorems": [
    "IMT.Line.C189_mean",
    "IMT.Line.C189_exact",
    "IMT.Line.C189_bounds",
    "IMT.Line.C189_masked",
    "IMT.Line.C189_whole",
    "IMT.Line.C189_additive_violated"
   ],
   "note": "Violated: the integral is not additive over windows (plain mean times extents)."
  },
  {
   "property": "C190",
   "status": "partial",
   "theorems": [
    "IMT.Line.C190_scatter",
    "IMT.Line.C190_refused",
    "IMT.Line.C190_masked_violated"
   ],
   "note": "Violated: a field whose points are all masked raises TypeError."
  },
  {
   "property": "C191",
   "status": "partial",
   "theorems": [
    "IMT.Stat.C191_counts",
    "IMT.Stat.C191_total",
    "IMT.Stat.C191_cumulative",
    "IMT.Stat.C191_density",
    "IMT.Stat.C191_cumulative_density_violated",
    "IMT.Stat.C191_positions_partial",
    "IMT.Stat.C191_positions_violated",
    "IMT.Stat.C191_masked_violated",
    "IMT.Stat.C191_refused"
   ],
   "note": "Violated: the abscissae are shifted by the start of the range; a cumulated density does not end at one; without given range a masked point makes it fail."
  },
  {
   "property": "C192",
   "status": "partial",
   "theorems": [
    "IMT.Stat.C192_values",
    "IMT.Stat.C192_centre",
    "IMT.Stat.C192_scale",
    "IMT.Stat.C192_bound",
    "IMT.Stat.C192_refused",
    "IMT.Stat.C192_last_violated",
    "IMT.Stat.C192_lag_violated",
    "IMT.Stat.C192_field",
    "IMT.Stat.C192_zero_line_violated"
   ],
   "note": "Violated: the last value of the profile is never used; the lags start at zero instead of being centred; a line without energy makes the mean of a field NaN."
  },
  {
   "property": "C193",
   "status": "partial",
   "theorems": [
    "IMT.Stat.C193_norm",
    "IMT.Stat.C193_zero",
    "IMT.Stat.C193_bound",
    "IMT.Stat.C193_scale",
    "IMT.Stat.C193_triangle",
    "IMT.Stat.C193_triangle_perpoint",
    "IMT.Stat.C193_perpoint_violated"
   ],
   "note": "Proved: value, zero, homogeneity, bound, triangle inequality. Violated: the norm per point of a constant field c on n points is |c| n^(1/p-1)."
  },
  {
   "property": "C194",
   "status": "partial",
   "theorems": [
    "IMT.Mirror.C194_keeps",
    "IMT.Mirror.C194_values",
    "IMT.Mirror.C194_fill",
    "IMT.Mirror.C194_middle",
    "IMT.Mirror.C194_lines_before",
    "IMT.Mirror.C194_lines_after",
    "IMT.Mirror.C194_all_violated",
    "IMT.Mirror.C194_masked_violated",
    "IMT.Mirror.C194_defined"
   ],
   "note": "Proved: kept values (any mirror position); every reading, and which lines are mirrored, on an even axis with the mirror on a line or halfway between two lines. Violated: 'all' mirrors all lines but one; with masked first lines fewer lines than asked are mirrored."
  },
  {
   "property": "C195",
   "status": "proved",
   "theorems": [
    "IMT.Mirror.C195_keeps",
    "IMT.Mirror.C195_values",
    "IMT.Mirror.C195_lines_before",
    "IMT.Mirror.C195_lines_after",
    "IMT.Mirror.C195_fill",
    "IMT.Mirror.C195_defined"
   ],
   "note": "Proved: kept vectors (any mirror position); every reading, and which lines are mirrored, on an even axis with the mirror on a line or halfway between two lines. 'all' mirrors all lines but one, as for C194."
  },
  {
   "property": "C196",
   "status": "partial",
   "theorems": [
    "IMT.Turb.C196_mean_partial",
    "IMT.Turb.C196_limit_violated"
   ],
   "note": "Proved: the mean of the vectors shown. Violated: with exactly nmb_min vectors the mean is masked; more than nmb_min are needed."
  },
  {
   "property": "C197",
   "status": "proved",
   "theorems": [
    "IMT.Turb.C197_fluctuations",
    "IMT.Turb.C197_zero_sum"
   ],
   "note": ""
  },
  {
   "property": "C198",
   "status": "proved",
   "theorems": [
    "IMT.Turb.C198_tke",
    "IMT.Turb.C198_means",
    "IMT.Turb.C198_balance"
   ],
   "note": ""
  },
  {
   "property": "C199",
   "status": "partial",
   "theorems": [
    "IMT.Turb.C199_stresses_partial",
    "IMT.Turb.C199_realizable",
    "IMT.Turb.C199_single_violated"
   ],
   "note": "Proved with the strict threshold of the code (more than nmb_val_min and at least two vectors). Violated: with nmb_val_min = 0 a point seen once is masked."
  },
  {
   "property": "C200",
   "status": "partial",
   "theorems": [
    "IMT.Turb.C200_correlation_partial",
    "IMT.Turb.C200_first",
    "IMT.Turb.C200_bound",
    "IMT.Turb.C200_masked_violated"
   ],
   "note": "Proved for records without masked points. Violated: one masked point in the first field makes every correlation NaN."
  },
  {
   "property": "C201",
   "status": "proved",
   "theorems": [
    "IMT.Turb.C201_fluctuations",
    "IMT.Turb.C201_zero_sum"
   ],
   "note": ""
  },
  {
   "property": "C202",
   "status": "partial",
   "theorems": [
    "IMT.Turb.C202_raises_violated"
   ],
   "note": "Violated: for every record of two fields or more the method raises an exception."
  },
  {
   "property": "C203",
   "status": "proved",
   "theorems": [
    "IMT.Trace.C203_profile",
    "IMT.Trace.C203_refused",
    "IMT.Trace.C203_index"
   ],
   "note": ""
  },
  {
   "property": "C204",
   "status": "partial",
   "theorems": [
    "IMT.Trace.C204_follow_partial",
    "IMT.Trace.C204_interval_violated"
   ],
   "note": "Proved without a time interval, for points given at the times of the fields. Violated: when the interval leaves the first time out, each field is read at the position of the preceding time."
  },
  {
   "property": "C205",
   "status": "partial",
   "theorems": [
    "IMT.Trace.C205_inject_partial",
    "IMT.Trace.C205_readback",
    "IMT.Trace.C205_roundtrip",
    "IMT.Trace.C205_refused",
    "IMT.Trace.C205_masked_violated",
    "IMT.Trace.C205_nan_violated",
    "IMT.Trace.C205_points_violated"
   ],
   "note": "Proved for fields not masked at the point. Violated: at a masked point the value is lost; a masked value of the profile leaves a NaN that is not masked; a Points object is always refused (unbound name)."
  },
  {
   "property": "C206",
   "status": "proved",
   "theorems": [
    "IMT.Trace.C206_mask_cum"
   ],
   "note": ""
  },
  {
   "property": "C207",
   "status": "partial",
   "theorems": [
    "IMT.Trace.C207_soft_partial",
    "IMT.Trace.C207_none_violated",
    "IMT.Trace.C207_soft_returns_partial",
    "IMT.Trace.C207_first_row_violated"
   ],
   "note": "Proved whenever a record is returned, and that one is returned when some point is never seen and the points seen reach past the first row and column. Violated: None is returned when every point is seen; ValueError when the points seen are all on the first row."
  },
  {
   "property": "C208",
   "status": "partial",
   "theorems": [
    "IMT.Trace.C208_hard_terminates",
    "IMT.Trace.C208_hard_borders_partial",
    "IMT.Trace.C208_none_violated",
    "IMT.Trace.C208_first_row_violated",
    "IMT.Trace.C208_hole_violated"
   ],
   "note": "Termination is proved for every record, the shape of the result whenever one is returned. Fails: None for a record with nothing to crop (C208_none_violated), ValueError for a record seen on its first row only (C208_first_row_violated), points masked inside the grid stay (C208_hole_violated)."
  },
  {
   "property": "C209",
   "status": "proved",
   "theorems": [
    "IMT.Trace.C209_extend"
   ],
   "note": ""
  },
  {
   "property": "C210",
   "status": "partial",
   "theorems": [
    "IMT.Trace.C210_fields_partial",
    "IMT.Trace.C210_values_partial",
    "IMT.Trace.C210_axes_violated",
    "IMT.Trace.C210_grid_violated",
    "IMT.Trace.C210_empty"
   ],
   "note": "Proved for the fields. Violated: the axes of the record itself are never updated (name mangling), so the record returned disagrees with its fields."
  },
  {
   "property": "C211",
   "status": "proved",
   "theorems": [
    "IMT.Same.C211_vector",
    "IMT.Same.C211_self",
    "IMT.Same.C211_answers"
   ],
   "note": ""
  },
  {
   "property": "C212",
   "status": "partial",
   "theorems": [
    "IMT.Same.C212_scalar_partial",
    "IMT.Same.C212_self",
    "IMT.Same.C212_small_violated",
    "IMT.Same.C212_shape_violated",
    "IMT.Same.C212_symmetric_violated",
    "IMT.Same.C212_transitive_violated"
   ],
   "note": "Proved for fields with as many points in each direction, with the tolerance of np.allclose (1e-8 + 1e-5 relative to the second field). Violated: fields of small values are equal whatever they are, the equality is neither symmetric nor transitive, and fields of different sizes raise ValueError."
  },
  {
   "property": "C213",
   "status": "partial",
   "theorems": [
    "IMT.Same.C213_points_partial",
    "IMT.Same.C213_copies_violated",
    "IMT.Same.C213_against_single_violated",
    "IMT.Same.C213_value_violated",
    "IMT.Same.C213_nan_violated"
   ],
   "note": "Proved for sets with as many points and values, without NaN. Violated: a single point is equal to any number of copies of itself, and to itself with a value; a set with a NaN value is not equal to itself."
  },
  {
   "property": "C214",
   "status": "partial",
   "theorems": [
    "IMT.Same.C214_profile_partial",
    "IMT.Same.C214_empty_violated"
   ],
   "note": "Proved for profiles with as many points. Violated: every profile of one point is equal to the empty profile."
  },
  {
   "property": "C215",
   "status": "partial",
   "theorems": [
    "IMT.Polar.C215_magnitude_partial",
    "IMT.Polar.C215_line_violated"
   ],
   "note": "Proved for fields with at least two points in each direction, over the reals. Violated: fields of one line or one column raise IndexError."
  },
  {
   "property": "C216",
   "status": "partial",
   "theorems": [
    "IMT.Polar.C216_theta_partial",
    "IMT.Polar.C216_masked_violated",
    "IMT.Polar.C216_unit_violated"
   ],
   "note": "Proved at the points that are not masked. Violated: masked points show the angle 0 and are not masked, and the angles bear the unit of the vectors."
  },
  {
   "property": "C217",
   "status": "proved",
   "theorems": [
    "IMT.Polar.C217_min",
    "IMT.Polar.C217_max",
    "IMT.Polar.C217_masked"
   ],
   "note": ""
  },
  {
   "property": "C218",
   "status": "partial",
   "theorems": [
    "IMT.Polar.C218_parts_partial",
    "IMT.Polar.C218_line_violated"
   ],
   "note": "Proved for fields with at least two points in each direction. Violated: fields of one line or one column raise IndexError."
  },
  {
   "property": "C219",
   "status": "partial",
   "theorems": [
    "IMT.Linear.C219_inside",
    "IMT.Linear.C219_outside",
    "IMT.Linear.C219_node_violated"
   ],
   "note": "Proved for a critical point strictly inside a cell, on any increasing axes, and for one outside of the field. Violated: a solid rotation centred on a point of the grid is not reported at all."
  },
  {
   "property": "C220",
   "status": "partial",
   "theorems": [
    "IMT.Linear.C220_type",
    "IMT.Linear.C220_saddle_any_step",
    "IMT.Linear.C220_steps_violated",
    "IMT.Linear.C220_documented_violated",
    "IMT.Linear.C220_natures"
   ],
   "note": "Proved for square cells (saddle points: for all cells). Violated: in every cell that is not square some anticlockwise focus is taken for an outgoing node, the jacobian being computed with steps 1; the documentation names the types 1 and 2 unstable and stable focus whereas the code tells the sense of rotation."
  },
  {
   "property": "C221",
   "status": "proved",
   "theorems": [
    "IMT.Linear.C221_sorted",
    "IMT.Linear.C221_linear"
   ],
   "note": ""
  },
  {
   "property": "C222",
   "status": "partial",
   "theorems": [
    "IMT.Linear.C222_orientations",
    "IMT.Linear.C222_border_violated"
   ],
   "note": "Proved when the 4 x 4 points around the saddle point are in the field. Violated: the cells of the border get null vectors."
  },
  {
   "property": "C223",
   "status": "partial",
   "theorems": [
    "IMT.Path.C223_increment",
    "IMT.Path.C223_velocity",
    "IMT.Path.C223_no_times",
    "IMT.Path.C223_positions",
    "IMT.Path.C223_unit_violated"
   ],
   "note": "Violated: with xaxis='x' or 'y' the positions are labelled with the unit of the instants."
  },
  {
   "property": "C224",
   "status": "proved",
   "theorems": [
    "IMT.Path.C224_bound",
    "IMT.Path.C224_uniform"
   ],
   "note": ""
  },
  {
   "property": "C225",
   "status": "proved",
   "theorems": [
    "IMT.Path.C225_evolution",
    "IMT.Path.C225_nodes",
    "IMT.Path.C225_default",
    "IMT.Path.C225_outside",
    "IMT.Path.C225_empty"
   ],
   "note": ""
  },
  {
   "property": "C226",
   "status": "proved",
   "theorems": [
    "IMT.Path.C226_evolution",
    "IMT.Path.C226_default",
    "IMT.Path.C226_missing",
    "IMT.Path.C226_no_times"
   ],
   "note": ""
  },
  {
   "property": "C227",
   "status": "proved",
   "theorems": [
    "IMT.Path.C227_export",
    "IMT.Path.C227_no_values",
    "IMT.Path.C227_decompose",
    "IMT.Path.C227_decompose_refused"
   ],
   "note": ""
  },
  {
   "property": "C228",
   "status": "proved",
   "theorems": [
    "IMT.Reshape.C228_masked",
    "IMT.Reshape.C228_few",
    "IMT.Reshape.C228_some_left",
    "IMT.Reshape.C228_no_value"
   ],
   "note": ""
  },
  {
   "property": "C229",
   "status": "partial",
   "theorems": [
    "IMT.Reshape.C229_polyline",
    "IMT.Reshape.C229_grid",
    "IMT.Reshape.C229_abscissa_violated",
    "IMT.Reshape.C229_refused",
    "IMT.Reshape.C229_points",
    "IMT.Reshape.C229_one_point"
   ],
   "note": "Violated: the abscissae of masked points inside are replaced by regular fractions between the unmasked neighbours, even with a factor 1."
  },
  {
   "property": "C230",
   "status": "partial",
   "theorems": [
    "IMT.Reshape.C230_already",
    "IMT.Reshape.C230_step_violated",
    "IMT.Reshape.C230_one_point",
    "IMT.Reshape.C230_even_partial",
    "IMT.Reshape.C230_long_step",
    "IMT.Reshape.C230_masked_end_violated"
   ],
   "note": "Proved for profiles whose first and last points are unmasked. Violated: the step is ignored when the steps are already equal; a masked end makes it fail when a new abscissa falls out of the unmasked points."
  },
  {
   "property": "C231",
   "status": "partial",
   "theorems": [
    "IMT.Reshape.C231_convolution_partial",
    "IMT.Reshape.C231_comm",
    "IMT.Reshape.C231_refused",
    "IMT.Reshape.C231_origin_violated",
    "IMT.Reshape.C231_negative_violated",
    "IMT.Reshape.C231_uneven_violated"
   ],
   "note": "Proved for equal steps on non-negative abscissae (values, length, masks, units, symmetry). Violated: the result starts at 0 wherever the profiles start; profiles that end at 0 or before are refused; a first profile with unequal steps, none longer than the first, is accepted."
  },
  {
   "property": "C232",
   "status": "partial",
   "theorems": [
    "IMT.Reshape.C232_product_partial",
    "IMT.Reshape.C232_shift_violated",
    "IMT.Reshape.C232_refused",
    "IMT.Reshape.C232_one_point_violated"
   ],
   "note": "Proved for the same abscissae and at least two points. Violated: a second profile shifted down by up to half a step is accepted and multiplied index by index; profiles of one point raise IndexError."
  },
  {
   "property": "C233",
   "status": "partial",
   "theorems": [
    "IMT.Reshape.C233_abscissae",
    "IMT.Reshape.C233_average",
    "IMT.Reshape.C233_extremum",
    "IMT.Reshape.C233_unmasked_partial",
    "IMT.Reshape.C233_masked_violated",
    "IMT.Reshape.C233_rounded_violated",
    "IMT.Reshape.C233_nothing"
   ],
   "note": "Proved for every rounding function. Violated: a masked point masks all the points merged with it; an abscissa that is not its own rounding is replaced even without doublon."
  },
  {
   "property": "C234",
   "status": "proved",
   "theorems": [
    "IMT.Reshape.C234_smooth",
    "IMT.Reshape.C234_bounds"
   ],
   "note": ""
  },
  {
   "property": "C235",
   "status": "partial",
   "theorems": [
    "IMT.Reshape.C235_points",
    "IMT.Reshape.C235_distance",
    "IMT.Reshape.C235_group",
    "IMT.Reshape.C235_profile_partial",
    "IMT.Reshape.C235_sense_violated"
   ],
   "note": "Proved for points. Violated for profiles: they are turned clockwise."
  },
  {
   "property": "C236",
   "status": "partial",
   "theorems": [
    "IMT.Back.C236_rounds",
    "IMT.Back.C236_between",
    "IMT.Back.C236_majority",
    "IMT.Back.C236_constant_violated",
    "IMT.Back.C236_tie_violated",
    "IMT.Back.C236_shift",
    "IMT.Back.C236_unit_violated",
    "IMT.Back.C236_masked_violated"
   ],
   "note": "Proved at the points that every field shows. Violated: a point that never changes, or shows two values equally often, is masked; the unit is lost; a point masked in one field has a background or not according to whether the values of this field have been read before."
  },
  {
   "property": "C237",
   "status": "partial",
   "theorems": [
    "IMT.Back.C237_blend_partial",
    "IMT.Back.C237_uniform",
    "IMT.Back.C237_background",
    "IMT.Back.C237_foreground_partial",
    "IMT.Back.C237_blend_violated"
   ],
   "note": "Without blending: full. With blending (the default): the mixture is proved for fields without masked point and a linear filter (scipy gaussian_filter is a parameter; C237_blend_partial, C237_uniform). Violated: one masked point in a field masks all that is not background in it (C237_blend_violated)."
  },
  {
   "property": "C238",
   "status": "partial",
   "theorems": [
    "IMT.Recur.C238_distance",
    "IMT.Recur.C238_vectors",
    "IMT.Recur.C238_symmetric",
    "IMT.Recur.C238_metric",
    "IMT.Recur.C238_masked_violated",
    "IMT.Recur.C238_single"
   ],
   "note": "Proved for fields without masked points. Violated: a masked point in a field masks its whole line of the map."
  },
  {
   "property": "C239",
   "status": "partial",
   "theorems": [
    "IMT.Weird.C239_interpolated_partial",
    "IMT.Weird.C239_none",
    "IMT.Weird.C239_first_violated",
    "IMT.Weird.C239_last_violated",
    "IMT.Weird.C239_times_violated",
    "IMT.Weird.C239_few",
    "IMT.Weird.C239_short_violated",
    "IMT.Weird.C239_remove_one",
    "IMT.Weird.C239_remove_violated",
    "IMT.Weird.C239_refused",
    "IMT.Weird.C239_scalar_violated",
    "IMT.Weird.C239_mean_violated"
   ],
   "note": "Proved for weird fields that have a partner on both sides. Violated: a weird first field is averaged with the end of the record; a weird last field raises IndexError; the times are not used; the sum of the magnitudes is used instead of the mean, so that masks count; with the default coefficient no record of at most ten fields has a weird field; removing leaves the second weird field; scalar fields raise AttributeError."
  },
  {
   "property": "C240",
   "status": "partial",
   "theorems": [
    "IMT.Cps.C240_crop_partial",
    "IMT.Cps.C240_none_violated",
    "IMT.Cps.C240_single_violated",
    "IMT.Cps.C240_copy_violated",
    "IMT.Cps.C240_indices_violated"
   ],
   "note": "Proved in place, with times, when every kind has at least two trajectories. Violated: TypeError before the trajectories are computed, and when a kind has at most one trajectory; not in place the trajectories of the object are cropped and those of the result are not; with indices each trajectory is cropped by its own numbering."
  },
  {
   "property": "C241",
   "status": "proved",
   "theorems": [
    "IMT.Cps.C241_clean",
    "IMT.Cps.C241_refused"
   ],
   "note": "Proved for trajectories in the units of the collection."
  },
  {
   "property": "C242",
   "status": "partial",
   "theorems": [
    "IMT.Cps.C242_origin_partial",
    "IMT.Cps.C242_none_violated"
   ],
   "note": "Proved when the trajectories are computed. Violated otherwise: the points are moved, then TypeError is raised."
  },
  {
   "property": "C243",
   "status": "partial",
   "theorems": [
    "IMT.Cps.C243_axis",
    "IMT.Cps.C243_time_partial",
    "IMT.Cps.C243_time_violated",
    "IMT.Cps.C243_refused"
   ],
   "note": "Proved for x and y, and for time when the trajectories are computed. Violated otherwise: the times of the points are converted, those of the collection are not, and TypeError is raised."
  },
  {
   "property": "C244",
   "status": "partial",
   "theorems": [
    "IMT.Cps.C244_scale",
    "IMT.Cps.C244_order_partial",
    "IMT.Cps.C244_negative_violated"
   ],
   "note": "Proved. Violated: a negative factor of time leaves the times in decreasing order."
  },
  {
   "property": "C245",
   "status": "partial",
   "theorems": [
    "IMT.Cps.C245_simplify_violated"
   ],
   "note": "Violated on every collection that is not empty: TypeError, numbers of np.arange not being int for Python 3."
  },
  {
   "property": "C246",
   "status": "partial",
   "theorems": [
    "IMT.Cps.C246_break_partial",
    "IMT.Cps.C246_overlap_violated",
    "IMT.Cps.C246_all",
    "IMT.Cps.C246_crop_violated",
    "IMT.Cps.C246_refused"
   ],
   "note": "Proved: pieces of intervals, every point in a piece. Violated: points up to one time step after the breaking are in two pieces; afterwards crop in time always raises TypeError."
  },
  {
   "property": "C247",
   "status": "proved",
   "theorems": [
    "IMT.Fill.C247_nearest"
   ],
   "note": "Proved for any choice among nearest points; scipy assumed to choose a nearest one."
  },
  {
   "property": "C248",
   "status": "partial",
   "theorems": [
    "IMT.Fill.C248_linear_partial",
    "IMT.Fill.C248_wall_violated"
   ],
   "note": "Proved when the visible points next to masked ones are not on one line. Violated: with the default arguments a field masked beyond some abscissa raises an error."
  },
  {
   "property": "C249",
   "status": "partial",
   "theorems": [
    "IMT.Fill.C249_cubic_partial",
    "IMT.Fill.C249_value",
    "IMT.Fill.C249_unmasked",
    "IMT.Fill.C249_refused"
   ],
   "note": "Proved; cubic when the visible points next to masked ones are not on one line."
  },
  {
   "property": "C250",
   "status": "partial",
   "theorems": [
    "IMT.Fill.C250_nearest",
    "IMT.Fill.C250_value",
    "IMT.Fill.C250_linear_partial",
    "IMT.Fill.C250_wall_violated"
   ],
   "note": "Proved; linear when the visible points next to masked ones are not on one line. Violated otherwise, as for scalar fields."
  },
  {
   "property": "C251",
   "status": "partial",
   "theorems": [
    "IMT.Fill.C251_smooth_partial",
    "IMT.Fill.C251_affine",
    "IMT.Fill.C251_even_violated",
    "IMT.Fill.C251_wall_violated",
    "IMT.Fill.C251_vector_partial"
   ],
   "note": "Proved for odd sizes when the filling succeeds; the size is the width of the square, not its radius as documented. Violated: even sizes move the field by half a step; fields masked beyond some abscissa raise an error."
  },
  {
   "property": "C252",
   "status": "partial",
   "theorems": [
    "IMT.Fill.C252_temporal_partial",
    "IMT.Fill.C252_value_partial",
    "IMT.Fill.C252_source_violated",
    "IMT.Fill.C252_nothing_violated",
    "IMT.Fill.C252_scalar_violated"
   ],
   "note": "Proved for points visible at three instants or more of records of vector fields. Violated: inplace=False changes the record; NameError when nothing can be filled, always with three fields; scalar fields always fail."
  },
  {
   "property": "C253",
   "status": "proved",
   "theorems": [
    "IMT.Fill.C253_scalar",
    "IMT.Fill.C253_vector",
    "IMT.Fill.C253_filled"
   ],
   "note": "Proved."
  },
  {
   "property": "C254",
   "status": "partial",
   "theorems": [
    "IMT.Centre.C254_uneven_violated",
    "IMT.Centre.C254_zero_violated",
    "IMT.Centre.C254_negative_partial",
    "IMT.Centre.C254_centres_partial",
    "IMT.Centre.C254_relative_partial",
    "IMT.Centre.C254_extremum",
    "IMT.Centre.C254_minimum",
    "IMT.Centre.C254_order"
   ],
   "note": "Proved for scipy's label and extrema as specified in Centre/Props.lean (shown to be satisfiable). The bounds used are the given ones widened by 1e-5 of their absolute value. Barycentres: regular axes only; on other axes the first step is used everywhere and the point may lie outside of its zone. kind='ponderated' fails with ValueError as soon as a zone has only null values and there are two points between the bounds. C254_negative_partial covers negative relative bounds."
  },
  {
   "property": "C255",
   "status": "partial",
   "theorems": [
    "IMT.Centre.C255_default_violated",
    "IMT.Centre.C255_drift_violated",
    "IMT.Centre.C255_list_violated",
    "IMT.Centre.C255_array_violated"
   ],
   "note": "Violated: the default of bornes is one list, widened by each call, so the zones drift to everything above the minimum; lists given are widened in place, arrays of floats given with rel=True become absolute."
  },
  {
   "property": "C256",
   "status": "partial",
   "theorems": [
    "IMT.Even.C256_resample_partial",
    "IMT.Even.C256_affine",
    "IMT.Even.C256_bounds",
    "IMT.Even.C256_step_violated",
    "IMT.Even.C256_even_violated",
    "IMT.Even.C256_two_violated"
   ],
   "note": "Proved for scipy's interp2d taken to be bilinear (shown to be satisfiable). The number of points is the integer part of the length times r over the smallest step, one less than needed for that step: the step is always greater than asked for (C256_step_violated), a regular field of n points comes back with n-1 (C256_even_violated) and one with two points along x is refused with IndexError (C256_two_violated)."
  },
  {
   "property": "C257",
   "status": "partial",
   "theorems": [
    "IMT.Even.C257_vector_partial"
   ],
   "note": "As for scalar fields (C256): the step is greater than asked for."
  },
  {
   "property": "C258",
   "status": "partial",
   "theorems": [
    "IMT.Even.C258_record_partial",
    "IMT.Even.C258_vectors_partial"
   ],
   "note": "As for fields (C256): the step is greater than asked for."
  },
  {
   "property": "C259",
   "status": "partial",
   "theorems": [
    "IMT.Even.C259_blocks_partial",
    "IMT.Even.C259_units_violated",
    "IMT.Even.C259_odd_violated"
   ],
   "note": "Even factors with two blocks or more along each axis. Odd factors, 1 included, always fail (C259_odd_violated); in place, units are lost (C259_units_violated)."
  },
  {
   "property": "C260",
   "status": "partial",
   "theorems": [
    "IMT.Even.C260_inplace_partial",
    "IMT.Even.C260_units_violated",
    "IMT.Even.C260_copy_violated",
    "IMT.Even.C260_vectors_partial",
    "IMT.Even.C260_copies_violated"
   ],
   "note": "Even factors with two blocks or more along each axis. The fields lose their units in place or not while the record keeps them (C260_units_violated); the copy keeps the axes of the record, which are those of none of its fields (C260_copy_violated, C260_copies_violated)."
  },
  {
   "property": "C261",
   "status": "partial",
   "theorems": [
    "IMT.Phase.C261_map_partial",
    "IMT.Phase.C261_square_violated",
    "IMT.Phase.C261_default_violated"
   ],
   "note": "Proved (C261_map_partial) on grids that have not as many points along x as along y, for the times from 0 to tf; numpy's FFT is a parameter. The code violates the rest: on square grids the maps are transposed (C261_square_violated), and the default of tf is the number of fields used as a time, so that records whose second time is greater are refused (C261_default_violated)."
  },
  {
   "property": "C262",
   "status": "partial",
   "theorems": [
    "IMT.Same.C262_vectors_partial",
    "IMT.Same.C262_scalars_partial",
    "IMT.Same.C262_python_violated"
   ],
   "note": "Proved for Python up to 3.13 (C262_vectors_partial, C262_scalars_partial; scalar values are compared with a tolerance as in C212, grids of the same size). From Python 3.14 on every comparison of two distinct records raises TypeError, since the truth value of NotImplemented is used (C262_python_violated)."
  },
  {
   "property": "C263",
   "status": "partial",
   "theorems": [
    "IMT.Utils.C263_refused",
    "IMT.Utils.C263_call_partial",
    "IMT.Utils.C263_executed",
    "IMT.Utils.C263_call_violated",
    "IMT.Utils.C263_names_violated"
   ],
   "note": "Proved: forbidden texts and texts starting with a call are refused whatever executing them would do; every other text is executed with ** for ^. The code violates the rest: calls that are not at the start are executed (C263_call_violated), and names holding 're' or 'np' are refused (C263_names_violated). What Python gives for an expression is a parameter."
  },
  {
   "property": "C264",
   "status": "partial",
   "theorems": [
    "IMT.Quant.C264_scalar_number",
    "IMT.Quant.C264_scalar_quantity",
    "IMT.Quant.C264_vector",
    "IMT.Quant.C264_vector_quantity_partial",
    "IMT.Quant.C264_dimension_violated",
    "IMT.Quant.C264_list_violated"
   ],
   "note": "Proved for numbers, arrays of two numbers, and quantities of the dimension of the field. The code violates the rest: vector fields accept quantities of any dimension (C264_dimension_violated), and a vector given as a list cannot be subtracted (C264_list_violated)."
  },
  {
   "property": "C265",
   "status": "partial",
   "theorems": [
    "IMT.Quant.C265_number",
    "IMT.Quant.C265_scalar_div",
    "IMT.Quant.C265_scalar_mul_partial",
    "IMT.Quant.C265_unit_violated",
    "IMT.Quant.C265_zero_violated",
    "IMT.Quant.C265_scalar_rdiv_partial",
    "IMT.Quant.C265_vector_mul_partial",
    "IMT.Quant.C265_vector_div"
   ],
   "note": "Proved for quantities that are not null; for scalar fields times a quantity (or a quantity over a scalar field) when the unit of the product has a dimension or is at most 1. The code violates the rest: null quantities raise ZeroDivisionError (C265_zero_violated) and products without dimension in a unit greater than 1 are refused (C265_unit_violated)."
  },
  {
   "property": "C266",
   "status": "proved",
   "theorems": [
    "IMT.Quant.C266_scalar_array",
    "IMT.Quant.C266_vector_array",
    "IMT.Quant.C266_abs",
    "IMT.Quant.C266_power"
   ],
   "note": "Proved for natural exponents; negative and fractional ones are not modelled."
  },
  {
   "property": "C267",
   "status": "partial",
   "theorems": [
    "IMT.Tidy.C267_merge_partial",
    "IMT.Tidy.C267_null_violated",
    "IMT.Tidy.C267_rounded_violated"
   ],
   "note": "Proved for values that are not all null, with a tolerance between eps and sqrt(10) eps (the number of decimals is rounded) and a rounded value. The code violates the rest: values all null raise OverflowError (C267_null_violated), and values are rounded even where nothing is merged (C267_rounded_violated)."
  },
  {
   "property": "C268",
   "status": "partial",
   "theorems": [
    "IMT.Tidy.C268_order_partial",
    "IMT.Tidy.C268_values_violated",
    "IMT.Tidy.C268_lost_violated",
    "IMT.Tidy.C268_small_refused"
   ],
   "note": "Proved for the positions when the graph of the two nearest neighbours is in one piece. The code violates the rest: values are not reordered (C268_values_violated), and a whole group of points is lost when the points are in separate groups (C268_lost_violated)."
  },
  {
   "property": "C269",
   "status": "partial",
   "theorems": [
    "IMT.Tidy.C269_between",
    "IMT.Tidy.C269_outside",
    "IMT.Tidy.C269_affine",
    "IMT.Tidy.C269_profile",
    "IMT.Tidy.C269_units_violated"
   ],
   "note": "C269_between, C269_outside and C269_affine are proved for all evenly spaced profiles; C269_profile says what get_gradient() shows. The two agree except where the quotient of the units is a number other than 1: the gradient at a position then ignores it (C269_units_violated)."
  },
  {
   "property": "C270",
   "status": "partial",
   "theorems": [
    "IMT.Tidy.C270_masked_partial",
    "IMT.Tidy.C270_some_left",
    "IMT.Tidy.C270_smooth_kept",
    "IMT.Tidy.C270_single_violated"
   ],
   "note": "Proved for strictly increasing abscissae and at least two values. With masked points and fewer than two values the call raises (C270_single_violated)."
  },
  {
   "property": "C271",
   "status": "partial",
   "theorems": [
    "IMT.Tidy.C271_null_gradient",
    "IMT.Tidy.C271_monotone",
    "IMT.Tidy.C271_concave_partial",
    "IMT.Tidy.C271_parabola",
    "IMT.Tidy.C271_zigzag_violated",
    "IMT.Tidy.C271_hidden_violated"
   ],
   "note": "C271_null_gradient and C271_monotone hold for all evenly spaced profiles; a profile that is concave everywhere has exactly one maximum, within one step of its greatest value (C271_concave_partial), exactly the top for a parabola (C271_parabola). The code violates the rest: a peak is reported as a minimum (C271_zigzag_violated), and peaks are not reported as soon as one gradient is exactly null (C271_hidden_violated). Smoothing and ind=True are not modelled."
  },
  {
   "property": "C272",
   "status": "partial",
   "theorems": [
    "IMT.Probe.C272_node",
    "IMT.Probe.C272_edge_y",
    "IMT.Probe.C272_edge_x",
    "IMT.Probe.C272_affine",
    "IMT.Probe.C272_out",
    "IMT.Probe.C272_profile",
    "IMT.Probe.C272_profile_between",
    "IMT.Probe.C272_nearest",
    "IMT.Probe.C272_index",
    "IMT.Probe.C272_interval",
    "IMT.Probe.C272_refused",
    "IMT.Probe.C272_thin_violated"
   ],
   "note": "Proved for grids with at least two lines in each direction; on a thinner grid every call raises IndexError (C272_thin_violated). Inside of a cell, masked corners behave as for scalar fields (C23). unit=True and get_value(ind=True) are not modelled."
  },
  {
   "property": "C273",
   "status": "partial",
   "theorems": [
    "IMT.Probe.C273_norm",
    "IMT.Probe.C273_zero",
    "IMT.Probe.C273_magnitude",
    "IMT.Probe.C273_scale",
    "IMT.Probe.C273_perpoint_violated"
   ],
   "note": "All proved but the last clause: the norm per point of a uniform flow tends to zero with the number of points when p > 1 (C273_perpoint_violated)."
  },
  {
   "property": "C274",
   "status": "partial",
   "theorems": [
    "IMT.Detect.C274_crop",
    "IMT.Detect.C274_zones_partial",
    "IMT.Detect.C274_found_partial",
    "IMT.Detect.C274_field",
    "IMT.Detect.C274_record_partial",
    "IMT.Detect.C274_first_violated",
    "IMT.Detect.C274_refused"
   ],
   "note": "Barycentres proved for regular axes and non-null thresholds (C274_zones_partial, C274_found_partial); the threshold has the tolerance of 1e-5 of get_zones_centers. Records proved when the first field has a vortex (C274_record_partial); otherwise the call raises ValueError as soon as a later field has one (C274_first_violated). Criteria are arbitrary functions."
  },
  {
   "property": "C275",
   "status": "partial",
   "theorems": [
    "IMT.Detect.C275_walls_partial",
    "IMT.Detect.C275_front",
    "IMT.Detect.C275_plain",
    "IMT.Detect.C275_argument_partial",
    "IMT.Detect.C275_argument_violated",
    "IMT.Detect.C275_record_partial",
    "IMT.Detect.C275_record_argument_partial",
    "IMT.Detect.C275_interp_violated"
   ],
   "note": "The mirroring, the smoothing and the detection are parameters. Walls: at most one on each side (C275_walls_partial, C275_front). Violated: a smoothing without wall changes the field of the caller (C275_argument_violated); for a record mirror_interp is ignored (C275_interp_violated)."
  },
  {
   "property": "C276",
   "status": "partial",
   "theorems": [
    "IMT.Probe.C276_crop",
    "IMT.Probe.C276_origin",
    "IMT.Probe.C276_scale_partial",
    "IMT.Probe.C276_unit",
    "IMT.Probe.C276_sum",
    "IMT.Probe.C276_product",
    "IMT.Probe.C276_opposite",
    "IMT.Probe.C276_mirror_violated"
   ],
   "note": "Scalings proved for positive factors of the axes (C276_scale_partial); a mirrored field can lose values, because only two corners of a cell are tested for a mask (C276_mirror_violated). The diagonal taken by Qhull in a cell is a parameter, the same before and after."
  },
  {
   "property": "C277",
   "status": "partial",
   "theorems": [
    "IMT.Spatial.C277_opposite",
    "IMT.Spatial.C277_scale_partial",
    "IMT.Spatial.C277_units_violated",
    "IMT.Spatial.C277_origin",
    "IMT.Spatial.C277_product_partial",
    "IMT.Spatial.C277_reachable",
    "IMT.Spatial.C277_line_violated",
    "IMT.Spatial.C277_divide_violated",
    "IMT.Spatial.C277_computed_partial"
   ],
   "note": "Positive factors of the axes (C277_scale_partial); with a factor that has a unit, the units of the collection are not changed (C277_units_violated). Products proved whenever the call returns (C277_product_partial, C277_reachable); it returns for fields with several rows and columns (C277_computed_partial) and raises for a single line with a masked point (C277_line_violated)."
  },
  {
   "property": "C278",
   "status": "partial",
   "theorems": [
    "IMT.Crit.C278_bounds",
    "IMT.Crit.C278_extremes",
    "IMT.Crit.C278_shown",
    "IMT.Crit.C278_scale",
    "IMT.Crit.C278_galilean",
    "IMT.Crit.C278_turned",
    "IMT.Crit.C278_departure",
    "IMT.Crit.C278_local_violated",
    "IMT.Crit.C278_vortex"
   ],
   "note": "The option 'local' takes the x component of the centre off both components: in a uniform flow it shows a direction where every relative velocity is null (C278_local_violated). Extremes proved where no velocity used is null (without treatment a null velocity counts as an angle of zero). Real numbers; radius in number of vectors (ind=True)."
  },
  {
   "property": "C279",
   "status": "partial",
   "theorems": [
    "IMT.Cp.MeanTraj.C279_points",
    "IMT.Cp.MeanTraj.C279_average_partial",
    "IMT.Cp.MeanTraj.C279_steps_violated",
    "IMT.Cp.MeanTraj.C279_crop",
    "IMT.Cp.MeanTraj.C279_crop_ind",
    "IMT.Cp.MeanTraj.C279_scale_partial",
    "IMT.Cp.MeanTraj.C279_negative_violated",
    "IMT.Cp.MeanTraj.C279_inplace_violated",
    "IMT.Cp.MeanTraj.C279_remove_violated",
    "IMT.Cp.MeanTraj.C279_sort_violated"
   ],
   "note": "Means proved when the rounding of the times is finer than the tolerance with which values are looked for (C279_average_partial); otherwise time steps are lost (C279_steps_violated: three points per unit of time, eighteen points). crop is right (C279_crop, C279_crop_ind); scale is right for positive factors (C279_scale_partial), gives negative standard deviations for negative ones (C279_negative_violated) and changes the base trajectories in place (C279_inplace_violated); sort and remove leave the associated values behind (C279_sort_violated, C279_remove_violated). min_nmb_to_avg of at least one."
  },
  {
   "property": "C280",
   "status": "partial",
   "theorems": [
    "IMT.SysField.C280_field",
    "IMT.SysField.C280_vector_partial",
    "IMT.SysField.C280_unit_violated",
    "IMT.SysField.C280_refused_violated",
    "IMT.SysField.C280_default_violated",
    "IMT.SysField.C280_reversed_violated"
   ],
   "note": "C280_field for increasing axes of at least two points and custom fields in units of velocity. get_vector agrees with the field when the custom fields are in metres per second (C280_vector_partial); otherwise it adds numbers of different units (C280_unit_violated gives the exact gap), and the field is refused for a custom field without a unit of velocity, among them the default unit, though get_vector answers (C280_refused_violated, C280_default_violated). On a decreasing axis the mask of a custom field is put at the mirrored points (C280_reversed_violated). Velocities are rational here."
  },
  {
   "property": "C281",
   "status": "partial",
   "theorems": [
    "IMT.Turn.C281_points",
    "IMT.Turn.C281_null",
    "IMT.Turn.C281_monotone",
    "IMT.Turn.C281_turn",
    "IMT.Turn.C281_direction_violated",
    "IMT.Turn.C281_direction_partial",
    "IMT.Turn.C281_empty_violated",
    "IMT.Turn.C281_uneven_violated",
    "IMT.Turn.C281_lost_violated"
   ],
   "note": "Without smoothing. C281_points, C281_null, C281_monotone and C281_turn for evenly spaced times; uneven times refuse the whole call (C281_uneven_violated); turns falling exactly on points are lost after the first (C281_lost_violated); no trajectory gives an IndexError (C281_empty_violated); a wrong direction is refused only if some trajectory is long enough (C281_direction_partial, C281_direction_violated)."
  },
  {
   "property": "C282",
   "status": "partial",
   "theorems": [
    "IMT.Points.C282_sets",
    "IMT.Points.C282_all",
    "IMT.Points.C282_dense_partial",
    "IMT.Points.C282_noise_violated"
   ],
   "note": "Any labels and any order of the set of labels; DBSCAN itself is described by IsDbscan (scikit-learn is not modelled). Noise points come back as one more set (C282_noise_violated)."
  },
  {
   "property": "C283",
   "status": "partial",
   "theorems": [
    "IMT.Points.C283_positions",
    "IMT.Points.C283_values_partial",
    "IMT.Points.C283_refused",
    "IMT.Points.C283_back",
    "IMT.Points.C283_integers_violated"
   ],
   "note": "Values stored as integers raise TypeError (C283_integers_violated)."
  },
  {
   "property": "C284",
   "status": "partial",
   "theorems": [
    "IMT.Points.C284_array_partial",
    "IMT.Points.C284_array_violated",
    "IMT.Points.C284_origin_violated",
    "IMT.Points.C284_set"
   ],
   "note": "The positions are np.asarray of the caller's array: in-place operations write in it (C284_array_violated, C284_origin_violated) until the set has an array of its own (C284_array_partial). C284_set: the set itself is right."
  },
  {
   "property": "C285",
   "status": "partial",
   "theorems": [
    "IMT.Panel.C285_grid",
    "IMT.Panel.C285_refused",
    "IMT.Panel.C285_raw_violated",
    "IMT.Panel.C285_junk_violated",
    "IMT.Panel.C285_line",
    "IMT.Panel.C285_pressure"
   ],
   "note": "The containment test of matplotlib is a parameter. raw=True gives transposed arrays (C285_raw_violated), without mask and with uninitialised values in solids (C285_junk_violated)."
  },
  {
   "property": "C286",
   "status": "partial",
   "theorems": [
    "IMT.Around.C286_window",
    "IMT.Around.C286_size_partial",
    "IMT.Around.C286_size_violated"
   ],
   "note": "Content for every field and point; the count of lines for centres of cells of even grids: right for even numbers (C286_size_partial), one too many for odd ones (C286_size_violated)."
  },
  {
   "property": "C287",
   "status": "partial",
   "theorems": [
    "IMT.Around.C287_points",
    "IMT.Around.C287_refined_partial",
    "IMT.Around.C287_masked",
    "IMT.Around.C287_saddle_violated",
    "IMT.Around.C287_odd_violated",
    "IMT.Around.C287_kinds"
   ],
   "note": "The criterions and the spline minimum are parameters. Saddles are never refined, since the stored index is never -1 (C287_saddle_violated); with an odd window no point is (C287_odd_violated)."
  },
  {
   "property": "C288",
   "status": "partial",
   "theorems": [
    "IMT.Same.C288_equal_partial",
    "IMT.Same.C288_refl",
    "IMT.Same.C288_empty_violated",
    "IMT.Same.C288_uncomputed_violated",
    "IMT.Same.C288_orientations_violated"
   ],
   "note": "Without NaN and when numpy does not stretch the arrays (C288_equal_partial). The empty set is equal to every set of one instant (C288_empty_violated), removed trajectories to trajectories not computed (C288_uncomputed_violated), oriented points with other orientations (C288_orientations_violated)."
  },
  {
   "property": "C289",
   "status": "partial",
   "theorems": [
    "IMT.Vtk.C289_scalar_partial",
    "IMT.Vtk.C289_order_violated",
    "IMT.Vtk.C289_vector_partial",
    "IMT.Vtk.C289_mask_violated",
    "IMT.Vtk.C289_refused",
    "IMT.Vtk.C289_accepted",
    "IMT.Vtk.C289_bare_violated"
   ],
   "note": "For the axes put in the reverse order of the file (C289_scalar_partial, C289_vector_partial); with the default axes the positions are exchanged (C289_order_violated). Masked vectors are written with their hidden values (C289_mask_violated); bare file names are refused (C289_bare_violated)."
  },
  {
   "property": "C290",
   "status": "partial",
   "theorems": [
    "IMT.Vtk.C290_points_partial",
    "IMT.Vtk.C290_axis_violated",
    "IMT.Vtk.C290_values_violated"
   ],
   "note": "For the default axes (C290_points_partial); other axes are ignored (C290_axis_violated), points without values make a file with too few of them (C290_values_violated)."
  },
  {
   "property": "C291",
   "status": "partial",
   "theorems": [
    "IMT.Text.C291_points_partial",
    "IMT.Text.C291_single_violated",
    "IMT.Text.C291_profile_partial",
    "IMT.Text.C291_single_profile_violated",
    "IMT.Text.C291_crit"
   ],
   "note": "For at least two points (C291_points_partial, C291_profile_partial); the file of a single point cannot be read (C291_single_violated, C291_single_profile_violated). Critical points: C291_crit. Floats are written exactly."
  },
  {
   "property": "C292",
   "status": "partial",
   "theorems": [
    "IMT.Series.C292_pictures_partial",
    "IMT.Series.C292_order",
    "IMT.Series.C292_refused",
    "IMT.Series.C292_argument_violated",
    "IMT.Series.C292_tuple_violated"
   ],
   "note": "Windows within the pictures (C292_pictures_partial, C292_order, C292_refused). Windows that end after them change the list of the caller (C292_argument_violated) and are refused as tuples (C292_tuple_violated)."
  },
  {
   "property": "C293",
   "status": "partial",
   "theorems": [
    "IMT.Series.C293_davis_partial",
    "IMT.Series.C293_part_violated",
    "IMT.Series.C293_origin_violated",
    "IMT.Series.C293_spatial_violated"
   ],
   "note": "Order, content and spacing for files of the same time step (C293_davis_partial). The time of a file depends on the window and the increment (C293_part_violated), is never 0 (C293_origin_violated); spatial records of vector files cannot be made (C293_spatial_violated). import_from_VC7s with additional fields is not modelled."
  },
  {
   "property": "C294",
   "status": "partial",
   "theorems": [
    "IMT.Series.C294_content_partial",
    "IMT.Series.C294_files",
    "IMT.Series.C294_times_violated"
   ],
   "note": "Content (C294_content_partial, C294_files); all the fields are at time 0 (C294_times_violated)."
  },
  {
   "property": "C295",
   "status": "partial",
   "theorems": [
    "IMT.Series.C295_folder",
    "IMT.Series.C295_compressed_violated",
    "IMT.Series.C295_vector_violated",
    "IMT.Series.C295_new_violated"
   ],
   "note": "Folders (C295_folder, for IM7 files of different names). A single file is always compressed (C295_compressed_violated), a single vector file cannot be converted (C295_vector_violated), nor any vector file to a new name (C295_new_violated)."
  },
  {
   "property": "C296",
   "status": "partial",
   "theorems": [
    "IMT.Mat.C296_scalar_partial",
    "IMT.Mat.C296_vector_partial",
    "IMT.Mat.C296_grids",
    "IMT.Mat.C296_thin_violated",
    "IMT.Mat.C296_profile_partial",
    "IMT.Mat.C296_single_violated"
   ],
   "note": "At least two points per axis (C296_scalar_partial, C296_vector_partial, C296_profile_partial, C296_grids); files of an axis of one point cannot be read (C296_thin_violated, C296_single_violated). Points and critical points are not modelled."
  },
  {
   "property": "C297",
   "status": "partial",
   "theorems": [
    "IMT.Browse.C297_range_partial",
    "IMT.Browse.C297_zero_violated",
    "IMT.Browse.C297_limit_violated"
   ],
   "note": "Histories without a typed 0 before up or down and with limits among the frames (C297_range_partial); 0 then up or down goes to index -1 (C297_zero_violated), and a number beyond the frames is accepted as a limit (C297_limit_violated)."
  },
  {
   "property": "C298",
   "status": "proved",
   "theorems": [
    "IMT.Browse.C298_next",
    "IMT.Browse.C298_prev",
    "IMT.Browse.C298_back",
    "IMT.Browse.C298_number",
    "IMT.Browse.C298_step",
    "IMT.Browse.C298_interval"
   ],
   "note": "Every state, every number of digits."
  },
  {
   "property": "C299",
   "status": "partial",
   "theorems": [
    "IMT.Browse.C299_goto_partial",
    "IMT.Browse.C299_last_violated",
    "IMT.Browse.C299_ends"
   ],
   "note": "All the frames but the last (C299_goto_partial, C299_ends); the last frame cannot be reached by its number (C299_last_violated)."
  },
  {
   "property": "C300",
   "status": "partial",
   "theorems": [
    "IMT.Browse.C300_alone_violated",
    "IMT.Browse.C300_play_partial",
    "IMT.Browse.C300_last_violated",
    "IMT.Browse.C300_limits_partial",
    "IMT.Browse.C300_limit_violated"
   ],
   "note": "The frames played are consecutive and start again (C300_play_partial, C300_limits_partial), but the last frame and the second limit are never shown (C300_last_violated, C300_limit_violated), and playing with only a second limit fails (C300_alone_violated)."
  },
  {
   "property": "C301",
   "status": "partial",
   "theorems": [
    "IMT.Browse.C301_first",
    "IMT.Browse.C301_second",
    "IMT.Browse.C301_remove",
    "IMT.Browse.C301_clear",
    "IMT.Browse.C301_visit",
    "IMT.Browse.C301_order_violated",
    "IMT.Browse.C301_stuck_violated",
    "IMT.Browse.C301_no_error"
   ],
   "note": "First limits, removal, clearing and visits (C301_first, C301_second, C301_remove, C301_clear, C301_visit, C301_no_error); the order is lost when the first limit is removed and set again beyond the second (C301_order_violated), and playing is then stuck (C301_stuck_violated)."
  },
  {
   "property": "C302",
   "status": "partial",
   "theorems": [
    "IMT.Browse.C302_animation_partial",
    "IMT.Browse.C302_first_violated"
   ],
   "note": "The figure is restored and the frames are in order (C302_animation_partial); the first field is missing (C302_first_violated)."
  },
  {
   "property": "C303",
   "status": "partial",
   "theorems": [
    "IMT.Browse.C303_one_drawing_partial",
    "IMT.Browse.C303_pile_violated",
    "IMT.Browse.C303_twice_violated",
    "IMT.Browse.C303_current"
   ],
   "note": "Buffers of positive size and successive drawings of different frames (C303_one_drawing_partial, C303_current); without a buffer the drawings pile up (C303_pile_violated), and drawing the same frame twice without removal hides it (C303_twice_violated)."
  },
  {
   "property": "C304",
   "status": "proved",
   "theorems": [
    "IMT.Browse.C304_kept",
    "IMT.Browse.C304_reuse"
   ],
   "note": "Every positive buffer size and sequence of frames."
  },
  {
   "property": "C305",
   "status": "proved",
   "theorems": [
    "IMT.Browse.C305_both_ways"
   ],
   "note": "Every sequence of links from figures without links."
  },
  {
   "property": "C306",
   "status": "partial",
   "theorems": [
    "IMT.Browse.C306_all_follow_partial",
    "IMT.Browse.C306_same_frame",
    "IMT.Browse.C306_behind_violated",
    "IMT.Browse.C306_link_violated",
    "IMT.Browse.C306_length_violated"
   ],
   "note": "Every graph of links: figures that agree keep agreeing (C306_same_frame), and all follow to a new frame (C306_all_follow_partial). A figure already on the frame stops the update (C306_behind_violated), linking does not bring the figures together (C306_link_violated), and shorter figures are given an index of no frame (C306_length_violated)."
  },
  {
   "property": "C307",
   "status": "partial",
   "theorems": [
    "IMT.Cleaning.C307_only_listed",
    "IMT.Cleaning.C307_files_kept",
    "IMT.Cleaning.C307_refused",
    "IMT.Cleaning.C307_all_gone",
    "IMT.Cleaning.C307_returns_partial",
    "IMT.Cleaning.C307_nested_violated",
    "IMT.Cleaning.C307_full_violated",
    "IMT.Cleaning.C307_empty_violated",
    "IMT.Cleaning.C307_searched_violated"
   ],
   "note": "Safety holds for every disk and outcome (C307_only_listed, C307_files_kept, C307_refused, C307_all_gone); it returns when the folders are not nested and recursive is given (C307_returns_partial). Folders inside one another, as a search lists them, end with an exception after the files are deleted (C307_nested_violated, C307_searched_violated); a folder that is not empty is a NameError on POSIX instead of a question (C307_full_violated); an empty object is an IndexError (C307_empty_violated)."
  },
  {
   "property": "C308",
   "status": "partial",
   "theorems": [
    "IMT.Cleaning.C308_exactly",
    "IMT.Cleaning.C308_refused",
    "IMT.Cleaning.C308_arguments_violated"
   ],
   "note": "C308_exactly, C308_refused; depth, remove_dir and remove_files are never read (C308_arguments_violated)."
  },
  {
   "property": "C309",
   "status": "partial",
   "theorems": [
    "IMT.Cleaning.C309_all",
    "IMT.Cleaning.C309_depth_bound",
    "IMT.Cleaning.C309_depth_partial",
    "IMT.Cleaning.C309_depth_violated"
   ],
   "note": "Any depth (C309_all); with a depth, soundness (C309_depth_bound) and completeness when nothing is deeper (C309_depth_partial); otherwise the search stops at the first folder that is too deep (C309_depth_violated)."
  },
  {
   "property": "C310",
   "status": "partial",
   "theorems": [
    "IMT.Cleaning.C310_tree_partial",
    "IMT.Cleaning.C310_files_violated",
    "IMT.Cleaning.C310_lost_violated"
   ],
   "note": "Without a folder called 'files' (C310_tree_partial); with one, an AttributeError or a lost folder (C310_files_violated, C310_lost_violated)."
  },
  {
   "property": "C311",
   "status": "partial",
   "theorems": [
    "IMT.Points.C311_sum_partial",
    "IMT.Points.C311_directions_refused",
    "IMT.Points.C311_aligned",
    "IMT.Points.C311_place_violated",
    "IMT.Points.C311_plain_violated"
   ],
   "note": "Same units and as many directions (C311_sum_partial), alignment of every result (C311_aligned), refusal of other numbers of directions; other units put the points elsewhere (C311_place_violated) and points without directions are an AttributeError (C311_plain_violated)."
  },
  {
   "property": "C312",
   "status": "partial",
   "theorems": [
    "IMT.Points.C312_decompose_partial",
    "IMT.Points.C312_no_values_violated"
   ],
   "note": "With values (C312_decompose_partial); several points without values are refused (C312_no_values_violated)."
  },
  {
   "property": "C313",
   "status": "partial",
   "theorems": [
    "IMT.Points.C313_streams",
    "IMT.Points.C313_starts",
    "IMT.Points.C313_refused",
    "IMT.Points.C313_options_violated"
   ],
   "note": "get_streamlines is any function; delta and interp are not used (C313_options_violated)."
  },
  {
   "property": "C314",
   "status": "proved",
   "theorems": [
    "IMT.Color.C314_global"
   ],
   "note": "Every series; fails exactly when no frame has a colour."
  },
  {
   "property": "C315",
   "status": "partial",
   "theorems": [
    "IMT.Color.C315_lower_partial",
    "IMT.Color.C315_upper_violated",
    "IMT.Color.C315_masked_violated"
   ],
   "note": "The lower bound only (C315_lower_partial): the upper bound is the lowest colour too (C315_upper_violated), and a masked cell makes both NaN (C315_masked_violated)."
  },
  {
   "property": "C316",
   "status": "partial",
   "theorems": [
    "IMT.Color.C316_discrete_partial",
    "IMT.Color.C316_uneven_violated",
    "IMT.Color.C316_few_violated"
   ],
   "note": "Three centres, or centres whose steps repeat every other time, among them the evenly spaced ones (C316_discrete_partial); for every other list some value has the colour of another centre (C316_uneven_violated); one or two centres are an IndexError (C316_few_violated). The rule of matplotlib for listed colour maps is part of the model."
  },
  {
   "property": "C317",
   "status": "partial",
   "theorems": [
    "IMT.Color.C317_gradient_partial",
    "IMT.Color.C317_one_violated"
   ],
   "note": "Two colours or more (C317_gradient_partial); one colour is a ZeroDivisionError (C317_one_violated)."
  },
  {
   "property": "C318",
   "status": "proved",
   "theorems": [
    "IMT.Color.C318_segments"
   ],
   "note": "Every line."
  },
  {
   "property": "C319",
   "status": "proved",
   "theorems": [
    "IMT.Color.C319_aspect",
    "IMT.Color.C319_adjustable"
   ],
   "note": "Every list; a numeric ratio alone is refused (last clause of C319_aspect)."
  },
  {
   "property": "C320",
   "status": "partial",
   "theorems": [
    "IMT.Color.C320_grid_partial",
    "IMT.Color.C320_reuse",
    "IMT.Color.C320_one_violated",
    "IMT.Color.C320_rows_violated"
   ],
   "note": "Two frames or more, number of rows not given (C320_grid_partial), axes used again (C320_reuse); one frame on a new figure is an AttributeError (C320_one_violated), rows alone are refused when floor(sqrt n) columns are too few (C320_rows_violated)."
  },
  {
   "property": "C321",
   "status": "partial",
   "theorems": [
    "IMT.Cursor.C321_outside",
    "IMT.Cursor.C321_field",
    "IMT.Cursor.C321_profile_partial",
    "IMT.Cursor.C321_points_violated",
    "IMT.Cursor.C321_guess"
   ],
   "note": "Fields (C321_field), profiles (C321_profile_partial), out of the limits (C321_outside); for points the ordinate does not count (C321_points_violated)."
  },
  {
   "property": "C322",
   "status": "partial",
   "theorems": [
    "IMT.Cursor.C322_text_partial",
    "IMT.Cursor.C322_masked_violated"
   ],
   "note": "Unmasked data (C322_text_partial); over a masked node the text raises ValueError, and only there (C322_masked_violated). The text of a number is any function."
  },
  {
   "property": "C323",
   "status": "proved",
   "theorems": [
    "IMT.Refine.C323_classes",
    "IMT.Refine.C323_count",
    "IMT.Refine.C323_other"
   ],
   "note": "The detection itself (positions and kinds of points in cells) is the subject of other properties; the directions of saddles are left out."
  },
  {
   "property": "C324",
   "status": "partial",
   "theorems": [
    "IMT.Refine.C324_refine_partial",
    "IMT.Refine.C324_instants",
    "IMT.Refine.C324_outside_violated"
   ],
   "note": "Proved when all the points are within the axes of the fields. Fails otherwise: a point out of the axes has no streamline, it disappears and the times of all the points of its set are dropped with it (C324_outside_violated). The streamline is an abstract function of the starting point."
  },
  {
   "property": "C325",
   "status": "proved",
   "theorems": [
    "IMT.Refine.C325_average",
    "IMT.Refine.C325_missing"
   ],
   "note": "Proved for records of fields with the same axes; a real time missing from the record, or a mean time without real times, raises IndexError."
  },
  {
   "property": "C326",
   "status": "partial",
   "theorems": [
    "IMT.Coherence.C326_temporal_partial",
    "IMT.Coherence.C326_spatial_partial",
    "IMT.Coherence.C326_smooth_violated",
    "IMT.Coherence.C326_space_violated",
    "IMT.Coherence.C326_copy_violated"
   ],
   "note": "Proved for histories without smoothing (and without spatial crops, for the spatial coherence). Fails after a smoothing or a spatial crop: the former answer is given again (C326_smooth_violated, C326_space_violated). Smoothing the modes of a copy always raises AttributeError (C326_copy_violated)."
  },
  {
   "property": "C327",
   "status": "partial",
   "theorems": [
    "IMT.Coherence.C327_modes_partial",
    "IMT.Coherence.C327_mean_violated",
    "IMT.Coherence.C327_masked_violated",
    "IMT.Coherence.C327_reconstruct_violated"
   ],
   "note": "Fails: the mean of each component is removed from the modes themselves (C327_mean_violated), a masked value wipes the whole component (C327_masked_violated) and reconstructed fields are off by the means (C327_reconstruct_violated). Kept: modes of null mean, or an answer already known (C327_modes_partial)."
  },
  {
   "property": "C328",
   "status": "partial",
   "theorems": [
    "IMT.Spatial.C328_nothing_partial",
    "IMT.Spatial.C328_profile_violated",
    "IMT.Spatial.C328_crossed_violated"
   ],
   "note": "Fails for all arguments: the direction 1 or 2 needed to choose the fields is refused by the profile of a field, and 'x' or 'y' choose no field (C328_profile_violated, C328_crossed_violated). Kept: None when no field is crossed."
  },
  {
   "property": "C329",
   "status": "partial",
   "theorems": [
    "IMT.Spatial.C329_grid_partial",
    "IMT.Spatial.C329_scalar_violated"
   ],
   "note": "Proved for vector fields. Fails for all scalar fields: the class is used in place of an instance (C329_scalar_violated)."
  },
  {
   "property": "C330",
   "status": "partial",
   "theorems": [
    "IMT.Profile.C330_shift_partial",
    "IMT.Profile.C330_units",
    "IMT.Profile.C330_available_violated"
   ],
   "note": "The abscissa and the ordinate are proved for regular axes of the same step, with the other profile taken as zero out of its axis. The documentation says that the average is on the available points: this fails, the zeros are counted (C330_available_violated)."
  },
  {
   "property": "C331",
   "status": "proved",
   "theorems": [
    "IMT.Profile.C331_smallest",
    "IMT.Profile.C331_copy"
   ],
   "note": "Proved for profiles on regular axes of the same step; the other profile is taken as zero out of its axis (see C330)."
  },
  {
   "property": "C332",
   "status": "partial",
   "theorems": [
    "IMT.Eigen.C332_values",
    "IMT.Eigen.C332_masked",
    "IMT.Eigen.C332_vectors_partial",
    "IMT.Eigen.C332_turning_violated",
    "IMT.Eigen.C332_unit_violated"
   ],
   "note": "numpy's eig is a parameter with its algebraic specification (IsEig). The eigenvalues are proved for all matrices, the vectors when the eigenvalues are real. Fails where the flow turns: both vectors are the same and an eigenvector of nothing (C332_turning_violated). No unit is given (C332_unit_violated)."
  },
  {
   "property": "C333",
   "status": "partial",
   "theorems": [
    "IMT.Eigen.C333_lines_partial",
    "IMT.Eigen.C333_turning_violated",
    "IMT.Eigen.C333_masked"
   ],
   "note": "Proved for two different real eigenvalues. Fails where the flow turns (C333_turning_violated)."
  },
  {
   "property": "C334",
   "status": "partial",
   "theorems": [
    "IMT.Bl.C334_turbulent_violated",
    "IMT.Bl.C334_stretched_partial",
    "IMT.Bl.C334_switch_violated"
   ],
   "note": "Fails for all turbulent profiles (AttributeError) and for confined thicknesses whose laminar position is beyond a Reynolds number of 5e5. The derivative of the Blasius function is an abstract function."
  },
  {
   "property": "C335",
   "status": "partial",
   "theorems": [
    "IMT.Meas.C335_letter_partial",
    "IMT.Meas.C335_three_partial",
    "IMT.Meas.C335_number_violated",
    "IMT.Meas.C335_x_violated",
    "IMT.Meas.C335_unit_violated",
    "IMT.Meas.C335_shear_violated"
   ],
   "note": "Proved for the direction 'y'. Fails for the documented directions 1 and 2 (TypeError), for 'x' (positions of the other axis), for the units of 'y' and for the shear stress, never returned."
  },
  {
   "property": "C336",
   "status": "partial",
   "theorems": [
    "IMT.Meas.C336_separation_violated",
    "IMT.Meas.C336_error"
   ],
   "note": "Fails for all fields: the position is never returned (C336_separation_violated, C336_error)."
  },
  {
   "property": "C337",
   "status": "partial",
   "theorems": [
    "IMT.Density.C337_points_partial",
    "IMT.Density.C337_mass_violated",
    "IMT.Density.C337_bandwidth_violated"
   ],
   "note": "The points are proved with the default bandwidth. Fails: the tails out of the range of the values are cut (C337_mass_violated), the bandwidth is ignored (C337_bandwidth_violated)."
  },
  {
   "property": "C338",
   "status": "partial",
   "theorems": [
    "IMT.Density.C338_formats",
    "IMT.Density.C338_points_partial",
    "IMT.Density.C338_translated",
    "IMT.Density.C338_window_violated",
    "IMT.Density.C338_mass_violated",
    "IMT.Density.C338_bandwidth_violated",
    "IMT.Density.C338_masked_violated",
    "IMT.Density.C338_unit_violated"
   ],
   "note": "Formats proved for all arguments; points with the rule of Scott. Fails: mass, bandwidth given as a number, masked points, unit, translation of the positions (the _violated theorems)."
  },
  {
   "property": "C339",
   "status": "partial",
   "theorems": [
    "IMT.Cloud.C339_mass_partial",
    "IMT.Cloud.C339_few",
    "IMT.Cloud.C339_line_violated",
    "IMT.Cloud.C339_flat_violated"
   ],
   "note": "The gaussian kernel is an abstract positive function. Fails for points on a line parallel to an axis (None) and for flat clouds (ValueError)."
  },
  {
   "property": "C340",
   "status": "partial",
   "theorems": [
    "IMT.Cloud.C340_counts_partial",
    "IMT.Cloud.C340_subgrid_violated"
   ],
   "note": "Proved without subgrid; with a subgrid TypeError always (C340_subgrid_violated)."
  },
  {
   "property": "C341",
   "status": "partial",
   "theorems": [
    "IMT.Cloud.C341_edges_partial",
    "IMT.Cloud.C341_length_violated"
   ],
   "note": "The triangulation is an argument (scipy's Delaunay). The length of an edge is not bounded by alpha (C341_length_violated)."
  },
  {
   "property": "C342",
   "status": "partial",
   "theorems": [
    "IMT.Crit.Iota.C342_angle_partial",
    "IMT.Crit.Iota.C342_turned_partial",
    "IMT.Crit.Iota.C342_mask_violated",
    "IMT.Crit.Iota.C342_hole_violated",
    "IMT.Crit.Iota.C342_quarter_violated",
    "IMT.Crit.Iota.C342_axes_violated"
   ],
   "note": "Proved, with the invariance by rotation, where the row and the column have no masked or null vector. Fails: the argument mask is ignored, masked and null vectors count as vectors along the first axis, the rates are per step and not per length (the _violated theorems)."
  },
  {
   "property": "C343",
   "status": "partial",
   "theorems": [
    "IMT.Spectrum.C343_energy_partial",
    "IMT.Spectrum.C343_trend_violated",
    "IMT.Spectrum.C343_interval_violated",
    "IMT.Spectrum.C343_irregular_violated",
    "IMT.Spectrum.C343_arguments"
   ],
   "note": "Proved with the best line removed, whatever the detrending. Fails: detrending and interval have no effect, irregular abscissas are accepted (the _violated theorems). scipy's periodogram is written out (DFT at the reals), welch is a parameter."
  },
  {
   "property": "C344",
   "status": "partial",
   "theorems": [
    "IMT.Spectrum.C344_sum_partial",
    "IMT.Spectrum.C344_offset",
    "IMT.Spectrum.C344_cutoff_violated",
    "IMT.Spectrum.C344_one_violated"
   ],
   "note": "The Butterworth filter is a parameter, assumed linear in C344_sum_partial. Fails: frequencies multiplied by (n-1)/n (C344_cutoff_violated), TypeError with one frequency (C344_one_violated)."
  },
  {
   "property": "C345",
   "status": "partial",
   "theorems": [
    "IMT.Cleaning.C345_lines",
    "IMT.Cleaning.C345_shown_partial",
    "IMT.Cleaning.C345_heading",
    "IMT.Cleaning.C345_files_violated"
   ],
   "note": "C345_lines is about all trees, C345_shown_partial about the sets without a folder called files. Fails for these (C345_files_violated)."
  },
  {
   "property": "C346",
   "status": "partial",
   "theorems": [
    "IMT.Utils.C346_lines",
    "IMT.Utils.C346_end",
    "IMT.Utils.C346_again_violated",
    "IMT.Utils.C346_each_violated"
   ],
   "note": "Fails: the end is printed again by each later call, and the time of each thing is too short (the _violated theorems)."
  },
  {
   "property": "C347",
   "status": "partial",
   "theorems": [
    "IMT.Trace.C347_mean_partial",
    "IMT.Trace.C347_masked_violated",
    "IMT.Trace.C347_outside",
    "IMT.Trace.C347_reversed_violated",
    "IMT.Trace.C347_point"
   ],
   "note": "Proved when each node of the area shows a value at some time; a node masked at all times raises an exception (C347_masked_violated). Intervals out of the axes are refused (C347_outside), but indices in the wrong order can give a number instead of a profile (C347_reversed_violated). The magnitudes of the spectrum of a profile without masked point are a parameter (see C343). C347_point gives the spectrum of one node, the masked values being interpolated."
  },
  {
   "property": "C348",
   "status": "partial",
   "theorems": [
    "IMT.Trace.C348_map_partial",
    "IMT.Trace.C348_unit_violated",
    "IMT.Trace.C348_masked_violated"
   ],
   "note": "Proved for the frequencies and the masks when a node at least is kept. Fails: the maps have the unit of the values (C348_unit_violated), NameError when all nodes are masked (C348_masked_violated). The maps of quality and the smoothing are not modelled."
  },
  {
   "property": "C349",
   "status": "partial",
   "theorems": [
    "IMT.Trace.C349_values_partial",
    "IMT.Trace.C349_original_violated",
    "IMT.Trace.C349_masked_violated"
   ],
   "note": "Proved at every node that shows a value at some time, the masked values being interpolated first. Fails: without inplace the object is changed too (C349_original_violated), and a node masked at all times raises an exception (C349_masked_violated). The filter is a parameter."
  },
  {
   "property": "C350",
   "status": "partial",
   "theorems": [
    "IMT.Wave.C350_filled_partial",
    "IMT.Wave.C350_mean_partial",
    "IMT.Wave.C350_integers_violated",
    "IMT.Wave.C350_truncated_violated",
    "IMT.Wave.C350_refused"
   ],
   "note": "Proved for bounds given as floats. Fails for whole numbers, whose array truncates the bounds of the axis (C350_integers_violated, C350_truncated_violated). The magnitudes of the spectrum of a profile are a parameter (C343); the filling is that of C247-C249."
  },
  {
   "property": "C351",
   "status": "partial",
   "theorems": [
    "IMT.Wave.C351_mean_partial",
    "IMT.Wave.C351_single_violated",
    "IMT.Wave.C351_integers_violated"
   ],
   "note": "Proved for bounds given as floats, the spectrum of a field being any function. Fails: a record with one field is refused (C351_single_violated), bounds given as whole numbers (C351_integers_violated)."
  },
  {
   "property": "C352",
   "status": "partial",
   "theorems": [
    "IMT.Wave.C352_shows_partial",
    "IMT.Wave.C352_default",
    "IMT.Wave.C352_refused",
    "IMT.Wave.C352_uneven_violated",
    "IMT.Wave.C352_single_violated"
   ],
   "note": "Proved for regular profiles and two widths at least; scipy's transform is a parameter. Fails: IndexError for one width (C352_single_violated), profiles with smaller gaps than the first one are accepted (C352_uneven_violated)."
  },
  {
   "property": "C353",
   "status": "partial",
   "theorems": [
    "IMT.Panel.C353_found",
    "IMT.Panel.C353_converges_partial",
    "IMT.Panel.C353_endless_violated",
    "IMT.Panel.C353_wall_violated"
   ],
   "note": "C353_found: any distance given is right. C353_converges_partial: one is given when the pressure is Lipschitz and goes below the wanted value within the hundred turns. Fails: endless search when the pressure is never below (C353_endless_violated), IndexError when it is below at the wall (C353_wall_violated). The pressure on the axis is a parameter, numbers are reals."
  },
  {
   "property": "C354",
   "status": "partial",
   "theorems": [
    "IMT.Panel.C354_late_violated",
    "IMT.Panel.C354_small_violated",
    "IMT.Panel.C354_first"
   ],
   "note": "Fails: the integral stops at the point before (C354_late_violated), which gives too small a thickness (C354_small_violated). True at the first point only (C354_first)."
  },
  {
   "property": "C355",
   "status": "partial",
   "theorems": [
    "IMT.Kappa.C355_decreasing",
    "IMT.Kappa.C355_field_decreasing",
    "IMT.Kappa.C355_positive",
    "IMT.Kappa.C355_sign_partial",
    "IMT.Kappa.C355_few_violated"
   ],
   "note": "The critical value decreases and is positive; the sign is right with eighteen times at least (C355_sign_partial) and inverted with fewer (C355_few_violated), where the critical value is above one."
  },
  {
   "property": "C356",
   "status": "partial",
   "theorems": [
    "IMT.Cloud.C356_mass_partial",
    "IMT.Cloud.C356_absolute_partial",
    "IMT.Cloud.C356_sum_partial",
    "IMT.Cloud.C356_few_violated",
    "IMT.Cloud.C356_empty_violated",
    "IMT.Cloud.C356_unknown"
   ],
   "note": "Proved for the densities that are given, scipy's kernel density being a parameter (C339). Fails: TypeError with 'absolute' for a kind with one point or none (C356_few_violated), NameError for a record without field (C356_empty_violated)."
  },
  {
   "property": "C357",
   "status": "partial",
   "theorems": [
    "IMT.Trace.C357_vectors_partial",
    "IMT.Trace.C357_original",
    "IMT.Trace.C357_masked_violated"
   ],
   "note": "Proved when each node shows a vector at some time; a node masked at all times raises an exception (C357_masked_violated). The filter is a parameter."
  },
  {
   "property": "C358",
   "status": "partial",
   "theorems": [
    "IMT.TPoints.C358_uniform_partial",
    "IMT.TPoints.C358_box",
    "IMT.TPoints.C358_constant",
    "IMT.TPoints.C358_refused",
    "IMT.TPoints.C358_integers_violated",
    "IMT.TPoints.C358_few_violated"
   ],
   "note": "Proved for 'uniform' and values that are not whole numbers in an integer array. Fails: values of integer type are truncated (C358_integers_violated); 'lowpass' raises ValueError with nine points or less (C358_few_violated). The lowpass filter itself is a parameter."
  },
  {
   "property": "C359",
   "status": "partial",
   "theorems": [
    "IMT.TPoints.C359_inplace_partial",
    "IMT.TPoints.C359_copy_partial",
    "IMT.TPoints.C359_shared_violated",
    "IMT.TPoints.C359_halfway_violated"
   ],
   "note": "Proved for distinct sets. Fails: a set held twice is smoothed twice (C359_shared_violated); an exception leaves the sets before it smoothed (C359_halfway_violated)."
  },
  {
   "property": "C360",
   "status": "partial",
   "theorems": [
    "IMT.Treat.C360_slopes_partial",
    "IMT.Treat.C360_total_partial",
    "IMT.Treat.C360_unit_violated",
    "IMT.Treat.C360_filled_violated",
    "IMT.Treat.C360_swirling_violated"
   ],
   "note": "Proved on evenly spaced axes for points whose neighbours are not masked. Fails: the unit is that of the velocity (C360_unit_violated); the field is not filled (C360_filled_violated); get_swirling_vector has no result (C360_swirling_violated). The filling is a parameter."
  },
  {
   "property": "C361",
   "status": "partial",
   "theorems": [
    "IMT.Meas.C361_profile_partial",
    "IMT.Meas.C361_small_violated",
    "IMT.Meas.C361_field_violated"
   ],
   "note": "Proved for a profile whose velocity at the top is the largest of the layer. Fails: too small a thickness otherwise (C361_small_violated), and no result at all for a field (C361_field_violated)."
  },
  {
   "property": "C362",
   "status": "partial",
   "theorems": [
    "IMT.Crit.C362_ratio",
    "IMT.Crit.C362_masked",
    "IMT.Crit.C362_turned",
    "IMT.Crit.C362_scaled",
    "IMT.Crit.C362_incompressible",
    "IMT.Crit.C362_field_partial",
    "IMT.Crit.C362_filled_violated"
   ],
   "note": "At a point the ratio, the mask, the invariances are proved for all gradients; for fields with nothing masked on evenly spaced axes. Fails: the field is not filled, and a masked neighbour raises LinAlgError (C362_filled_violated)."
  },
  {
   "property": "C363",
   "status": "partial",
   "theorems": [
    "IMT.Browse.C363_marks_partial",
    "IMT.Browse.C363_leftover_violated",
    "IMT.Browse.C363_none_violated"
   ],
   "note": "Proved for a figure with one displayer and a buffer of one drawing at least. Fails: with a buffer of no drawing the shown frame is marked (C363_none_violated); when two marked frames leave the buffer between two updates, a mark stays for ever (C363_leftover_violated)."
  },
  {
   "property": "C364",
   "status": "partial",
   "theorems": [
    "IMT.Profile.C364_between",
    "IMT.Profile.C364_node",
    "IMT.Profile.C364_outside",
    "IMT.Profile.C364_agrees",
    "IMT.Profile.C364_index",
    "IMT.Profile.C364_value_violated"
   ],
   "note": "Proved for linear interpolation. Fails: the index of a value, get_interpolated_values(y=v, ind=True), raises TypeError (C364_value_violated)."
  },
  {
   "property": "C365",
   "status": "partial",
   "theorems": [
    "IMT.Ascii.C365_never_violated",
    "IMT.Ascii.C365_expected_violated",
    "IMT.Ascii.C365_refused"
   ],
   "note": "Fails for all arguments: VectorField has no method import_from_ascii (C365_never_violated, C365_expected_violated). Only the refusals hold."
  },
  {
   "property": "C366",
   "status": "partial",
   "theorems": [
    "IMT.Color.C366_line",
    "IMT.Color.C366_refined_partial",
    "IMT.Color.C366_count_violated",
    "IMT.Color.C366_corner_violated",
    "IMT.Color.C366_log_violated",
    "IMT.Color.C366_refused",
    "IMT.Color.C366_alone"
   ],
   "note": "Proved for lines with at least min_colors points; with fewer points, for the versions of numpy that take a float as a number of points. Fails: numpy from 1.18 on refuses these lines (C366_count_violated); corners are not drawn (C366_corner_violated); without z the axes stay linear (C366_log_violated)."
  },
  {
   "property": "C367",
   "status": "partial",
   "theorems": [
    "IMT.Color.C367_map_partial",
    "IMT.Color.C367_even",
    "IMT.Color.C367_one_violated",
    "IMT.Color.C367_places_violated",
    "IMT.Color.C367_refused"
   ],
   "note": "Proved for at least two colours at increasing positions from 0 to 1; the table of matplotlib is modelled. Fails: one colour, or positions that do not go from 0 to 1, give a map that cannot be used (C367_one_violated, C367_places_violated)."
  },
  {
   "property": "C368",
   "status": "partial",
   "theorems": [
    "IMT.Systems.C368_hsv_partial",
    "IMT.Systems.C368_wall",
    "IMT.Systems.C368_stream_violated",
    "IMT.Systems.C368_step_partial",
    "IMT.Systems.C368_far_violated",
    "IMT.Systems.C368_speed_violated"
   ],
   "note": "The Blasius profile and the potential flow are parameters. Proved inside of the tabulated zone. Fails: no flow above the height or farther than 5 D (C368_stream_violated), none farther than h from the step (C368_far_violated), a velocity that does not follow u_D farther than 3 H (C368_speed_violated)."
  },
  {
   "property": "C369",
   "status": "partial",
   "theorems": [
    "IMT.Video.C369_levels_partial",
    "IMT.Video.C369_order",
    "IMT.Video.C369_mask_violated",
    "IMT.Video.C369_uniform_violated",
    "IMT.Video.C369_array_violated",
    "IMT.Video.C369_empty"
   ],
   "note": "Proved for series of complete fields that are not uniform. Fails: one masked point anywhere spoils all the frames (C369_mask_violated), as does a uniform value (C369_uniform_violated); frames of a list of fields are not turned (C369_array_violated)."
  },
  {
   "property": "C370",
   "status": "proved",
   "theorems": [
    "IMT.Vortex.C370_fields",
    "IMT.Vortex.C370_positions",
    "IMT.Vortex.C370_steady",
    "IMT.Vortex.C370_refused"
   ],
   "note": ""
  },
  {
   "property": "C371",
   "status": "partial",
   "theorems": [
    "IMT.Detect.C371_centres_partial",
    "IMT.Detect.C371_small_violated",
    "IMT.Detect.C371_moving_violated"
   ],
   "note": "Proved for unmasked fields with regular axes and more than 2 r points per axis. Fails: IndexError on smaller fields (C371_small_violated); gamma1 is used and not gamma2, so that a vortex carried by a uniform flow is lost (C371_moving_violated)."
  },
  {
   "property": "C372",
   "status": "partial",
   "theorems": [
    "IMT.Cps.C372_smoothed_partial",
    "IMT.Cps.C372_refused",
    "IMT.Cps.C372_times_violated",
    "IMT.Cps.C372_lost_violated"
   ],
   "note": "Uniform smoothing. Fails: the times of the trajectories are averaged too (C372_times_violated), so that clean_traj finds no point at its time (C372_lost_violated)."
  },
  {
   "property": "C373",
   "status": "partial",
   "theorems": [
    "IMT.Frames.C373_series_partial",
    "IMT.Frames.C373_single_partial",
    "IMT.Frames.C373_list_violated",
    "IMT.Frames.C373_empty_first_violated",
    "IMT.Frames.C373_nothing_violated",
    "IMT.Frames.C373_none_violated"
   ],
   "note": "Arrays, or series whose first set is not empty. Fails: a python list of numbers gives a TypeError (C373_list_violated), a series of arrays beginning with an empty one is taken as a single set (C373_empty_first_violated), sets without numbers give a ValueError (C373_nothing_violated), no set at all an IndexError (C373_none_violated)."
  },
  {
   "property": "C374",
   "status": "partial",
   "theorems": [
    "IMT.Dtype.C374_scalar_partial",
    "IMT.Dtype.C374_same",
    "IMT.Dtype.C374_vector",
    "IMT.Dtype.C374_unmasked_violated"
   ],
   "note": "Proved for vector fields and for scalar fields without masked points. Fails for scalar fields: masked points appear, as 0 or as the whole number made of NaN (C374_unmasked_violated). Floating-point rounding is not modelled."
  },
  {
   "property": "C375",
   "status": "partial",
   "theorems": [
    "IMT.Color.C375_shared_partial",
    "IMT.Color.C375_one_partial",
    "IMT.Color.C375_given_partial",
    "IMT.Color.C375_two_violated",
    "IMT.Color.C375_points_violated",
    "IMT.Color.C375_asked_violated",
    "IMT.Color.C375_unshared_partial"
   ],
   "note": "Proved for one displayer, and for bounds given to the displayers too. Fails: two displayers with other extremes share the bar of the first one (C375_two_violated), a displayer without numbers as colours makes a TypeError (C375_points_violated), bounds asked for are not passed to the displayers (C375_asked_violated)."
  },
  {
   "property": "C376",
   "status": "partial",
   "theorems": [
    "IMT.Spatial.C376_power_partial",
    "IMT.Spatial.C376_computed_partial",
    "IMT.Spatial.C376_line_violated"
   ],
   "note": "Natural exponents. Computed for fields with several rows and columns; a field of one column with a masked point between its values makes a ValueError (C376_line_violated). The quotient is in C277."
  },
  {
   "property": "C377",
   "status": "partial",
   "theorems": [
    "IMT.Ftle.C377_points",
    "IMT.Ftle.C377_computed_partial",
    "IMT.Ftle.C377_refused",
    "IMT.Ftle.C377_uniform_partial",
    "IMT.Ftle.C377_long_violated"
   ],
   "note": "Computed as soon as every particle ends (C183 shows travels that never end). Fails in long fields: no particle is followed and nothing is refused (C377_long_violated)."
  },
  {
   "property": "C378",
   "status": "partial",
   "theorems": [
    "IMT.Temporal.C378_series_partial",
    "IMT.Temporal.C378_number_violated",
    "IMT.Temporal.C378_grid_violated"
   ],
   "note": "Scalar fields with the same abscissas. Fails: in a reduced base the times are the places, not the numbers (C378_number_violated); modes on other grids are accepted when both axes differ (C378_grid_violated)."
  },
  {
   "property": "C379",
   "status": "partial",
   "theorems": [
    "IMT.Browse.C379_current_partial",
    "IMT.Browse.C379_all_partial",
    "IMT.Browse.C379_writer",
    "IMT.Browse.C379_figure_violated",
    "IMT.Browse.C379_plain_violated",
    "IMT.Browse.C379_empty_violated",
    "IMT.Browse.C379_kind_violated"
   ],
   "note": "Right for the current figure. Fails: the figure given is ignored (C379_figure_violated, C379_plain_violated), an empty figure is opened (C379_empty_violated), other kinds of files are silently not written and mp4 asks for the writer 'fmpeg' (C379_kind_violated)."
  },
  {
   "property": "C380",
   "status": "partial",
   "theorems": [
    "IMT.Profile.C380_values",
    "IMT.Profile.C380_target_partial",
    "IMT.Profile.C380_exact_partial",
    "IMT.Profile.C380_masked_violated"
   ],
   "note": "The optimiser is a parameter. Fails with a masked point: what is made least is NaN (C380_masked_violated)."
  },
  {
   "property": "C381",
   "status": "partial",
   "theorems": [
    "IMT.Pbi.C381_count",
    "IMT.Pbi.C381_cell",
    "IMT.Pbi.C381_none_partial",
    "IMT.Pbi.C381_hidden_violated"
   ],
   "note": "What is counted are the columns and rows of non zero total index. Fails: opposite structures in a column hide each other (C381_hidden_violated)."
  },
  {
   "property": "C382",
   "status": "partial",
   "theorems": [
    "IMT.Fill.C382_inplace_partial",
    "IMT.Fill.C382_copy_partial",
    "IMT.Fill.C382_vector_inplace_partial",
    "IMT.Fill.C382_vector_copy_partial",
    "IMT.Fill.C382_shared_violated",
    "IMT.Fill.C382_halfway_violated",
    "IMT.Fill.C382_kind_violated",
    "IMT.Fill.C382_vector_kind_violated"
   ],
   "note": "For the uniform filter, distinct fields that can be filled. Fails: a field held twice is smoothed twice (C382_shared_violated), a field that cannot be filled stops the loop after the fields before (C382_halfway_violated), an unknown filter raises once the first field has been filled (C382_kind_violated)."
  },
  {
   "property": "C383",
   "status": "partial",
   "theorems": [
    "IMT.Snap.C383_product",
    "IMT.Snap.C383_modes_partial",
    "IMT.Snap.C383_back_partial",
    "IMT.Snap.C383_line_violated"
   ],
   "note": "For records without masked points (they are filled before). Fails for fields of one column: the modes cannot be made into fields (C383_line_violated)."
  },
  {
   "property": "C384",
   "status": "partial",
   "theorems": [
    "IMT.Trace.C384_field_partial",
    "IMT.Trace.C384_each_partial",
    "IMT.Trace.C384_cum_partial",
    "IMT.Trace.C384_unit_violated",
    "IMT.Trace.C384_line_violated"
   ],
   "note": "For grids of two columns and two rows at least. Fails: the mask of a field has the unit of its values (C384_unit_violated), and a field of one column or row raises an exception (C384_line_violated)."
  },
  {
   "property": "C385",
   "status": "partial",
   "theorems": [
    "IMT.Temporal.C385_once_partial",
    "IMT.Temporal.C385_refused",
    "IMT.Temporal.C385_twice_violated"
   ],
   "note": "For distinct scalar fields and grids of two columns and two rows at least. Fails: a field added twice without copy is turned twice, and for an odd number of quarter turns of a grid that is not square it leaves the grid of the collection (C385_twice_violated)."
  },
  {
   "property": "C386",
   "status": "partial",
   "theorems": [
    "IMT.Spatial.C386_origin_partial",
    "IMT.Spatial.C386_scale_partial",
    "IMT.Spatial.C386_copy_partial",
    "IMT.Spatial.C386_origin_violated",
    "IMT.Spatial.C386_scale_violated"
   ],
   "note": "For fields held once. Fails: a field added twice without copy is moved or multiplied as often as it is held (C386_origin_violated, C386_scale_violated)."
  },
  {
   "property": "C387",
   "status": "partial",
   "theorems": [
    "IMT.Temporal.C387_content_partial",
    "IMT.Temporal.C387_accepted",
    "IMT.Temporal.C387_refused_partial",
    "IMT.Temporal.C387_halfway_violated",
    "IMT.Temporal.C387_foreign_violated"
   ],
   "note": "For fields on the grid of the record, in its units. Fails: when a later field refuses the unit the fields before it are already in the new one (C387_halfway_violated), and a field added with the same numbers in another unit is moved to other physical places (C387_foreign_violated)."
  },
  {
   "property": "C388",
   "status": "partial",
   "theorems": [
    "IMT.Temporal.C388_window_partial",
    "IMT.Temporal.C388_indices_partial",
    "IMT.Temporal.C388_indices_violated"
   ],
   "note": "By coordinates, for fields on the grid of the record and a window that holds a column and a row, shared or not; by indices, for distinct fields. Fails: by indices, a field held twice is cut twice and leaves the grid of the record (C388_indices_violated)."
  },
  {
   "property": "C389",
   "status": "partial",
   "theorems": [
    "IMT.Spatial.C389_bounds_partial",
    "IMT.Spatial.C389_empty",
    "IMT.Spatial.C389_iterate_violated",
    "IMT.Spatial.C389_mask_violated"
   ],
   "note": "The extent is proved. Fails: a collection with a field cannot be iterated on (C389_iterate_violated) and no collection gives its mask (C389_mask_violated), both read attributes it does not have."
  }
 ]
}