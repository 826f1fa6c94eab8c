m("C01", "partial", "format_list_content format_list_raises_iff format_list_dtype format_list_length_violated",
  "Exact result for every positive length and (non-empty input or default); an empty input without default stays empty (format_list_length_violated).")
m("C02", "partial", "format_list_argument_unchanged_violated format_list_argument_partial",
  "False of the code: a caller's list is padded/repeated in place; proved when it is unchanged and that a second call never changes it again.")
m("C03", "proved", "runs_unique boolean_split_runs boolean_split_circular")
m("C04", "proved", "sorted_nearest_minimal sorted_nearest_singleton_violated",
  "At least two elements; behaviour for one element shown separately.")
m("C52", "proved", "compute_cdf_correct compute_cdf_quantiles match_cdf_monotone_bounded match_cdf_exact_at_quantile match_cdf_self")
m("C05", "proved", "in_box_iff intersect_boxes_iff intersect_boxes_raises_iff")
m("C06", "proved", "bounding_box_least")
m("C07", "proved", "grid_axis_exact box_to_grid_points")
m("C08", "proved", "ray_box_exact ray_box_interval ray_box_miss_iff ray_box_face_violated ray_box_face_false_hit",
  "Any number of axes, zero components allowed except a first component of zero with the origin exactly on an x-face, where the code is wrong (the two counterexample theorems).")
m("C53", "partial", "clip_polyline_pieces_partial edge_box_enters edge_box_leaves clip_polyline_empty clip_polyline_exit_violated clip_polyline_face_violated",
  "Full except two cases where the code is wrong, shown as counterexamples: exit lost when the last in-box vertex is where the line touches the boundary, entrance lost on an edge inside an x-face.")
m("C09", "proved", "bresenham_line_near bresenham_line_ends bresenham_line_nodup_bbox")
m("C10", "proved", "rasterize_into_cells rasterize_points_pairs rasterize_raises_iff rasterize_perm")
m("C11", "partial", "select_datetimes_range select_datetimes_snap select_datetimes_single_violated",
  "At least two datetimes when snapping; a single datetime with snap raises (select_datetimes_single_violated).")
m("C12", "proved", "datetime_range_exact datetime_range_zero_step")

m("C13", "proved", "R_mul_transpose R_det R_eq_documented R_preserves_inner")
m("C14", "proved", "Rprime_deriv")
m("C15", "partial", "uv_to_xyz_to_uv uv_to_xyz_to_uv_ideal xyz_to_uv_to_xyz_ideal uv_to_xyz_to_uv_k1 idealize_center uv_to_xyz_vector_depth_violated",
  "The inverse property itself is proved for every camera, point and scalar depth (and for any lens where undistortion is exact); the documented vector depth always raises (uv_to_xyz_vector_depth_violated).")
m("C16", "proved", "xyz_to_uv_nan_iff directions_nan_iff uv_to_xyz_infront inframe_not_nan infront_correction_violated",
  "infront ignores the elevation correction, so with one the two disagree (infront_correction_violated).")
m("C17", "proved", "fmm_read_write fmm_write_read cmm_read_write cmm_write_read mm_requires_sensor resize_keeps_mm resize_fraction_violated",
  "Resizing keeps fmm and cmm even when the aspect ratio changes; only a forced fractional target size breaks it (resize_fraction_violated).")
m("C18", "proved", "resize_history_independent resize_one_restores runResizes_shape resize_factor_size resize_target_size_partial resize_target_half_violated resize_to_zero_violated reset_copy",
  "For histories in which the image size stays positive (otherwise false: resize_to_zero_violated). The size reached for a target size: resize_target_size_partial and its counterexample.")
m("C19", "partial", "distort_undistort_k1_partial undistort_distort_k1_partial k1_pos_unique undistort_k1_axis_violated",
  "Exact for every k1 and every point off the vertical axis; points with x = 0 are all sent to the centre (undistort_k1_axis_violated). Uniqueness for k1 > 0 is proved without restriction.")
m("C20", "proved", "oulu_fixed_is_solution oulu_solution_is_fixed undistort_none oulu_early_exit oulu_exit_first oulu_default_violated",
  "Where the radial factor is non-zero. The default call does not report non-convergence: oulu_default_violated.")
m("C21", "partial", "camera_rasterize_partial camera_rasterize_raises_iff",
  "False as stated: raises exactly when an in-frame point is on the right or lower border; otherwise proved in full.")
m("C54", "partial", "observer_gradient_partial observer_gradient_violated predictedXyz_unit",
  "False as stated: the first camera's gradient is the true one times the ray length, the second camera's is not its derivative at all.")
m("C55", "proved", "spherical_to_xyz_spec directionOf_unit xyz_to_spherical_to_xyz direction_to_spherical_to_xyz spherical_to_xyz_to_spherical")
m("C22", "proved", "inbounds_xy_iff inbounds_vectors_agree rowcol_to_xy_center rowcol_to_xy_inbounds xy_to_rowcol_of_rowcol rowcol_to_xy_of_xy xy_to_rowcol_snap_of_rowcol idx_to_rowcol_of_rowcol idx_to_rowcol_raises rowcol_to_idx_of_idx rowcol_to_idx_returns_iff idx_to_rowcol_returns_iff uv_to_xy_of_xy xy_to_uv_of_uv uv_corners axis_centers_spec grid_XY_spec",
  "In exact arithmetic; in double precision see C123, where it can be one cell off.")
m("C23", "proved", "snap_centers_spec snap_ties snap_not_inbounds_border snap_edges_spec snap_both_spec snap_centers_idempotent snap_raises_iff snap_box_spec",
  "In exact arithmetic; in double precision see C123, where it can be one cell off.")
m("C24", "proved", "crop_extent_raises_iff crop_extent_spec crop_extent_none",
  "In exact arithmetic; in double precision see C123, where it can be one cell off.")
m("C25", "partial", "tiles_partition tiles_overlap tiles_overlap_cover tile_widths tile_exact tile_whole roundHalfEven_spec tiles_overlap_violated",
  "Proved whenever the overlap is at most the tile size; with a larger overlap the statement is false (tiles_overlap_violated).")
m("C26", "partial", "grid_coordinates_fresh_partial grid_shift_spec grid_new_limits_refresh grid_from_centers grid_size_stale_violated grid_X_view_violated grid_matrices_shift_violated grid_int_x_stale_violated grid_default_shift_violated grid_from_X_two_columns_violated",
  "False as stated: the size setter keeps coordinates, X may be a view of x, integer coordinates are not shifted. Proved for all histories avoiding these.")
m("C27", "partial", "raster_fresh_partial raster_shift_partial raster_shift_dy_raises_violated raster_shift_double_violated raster_xlim_stale_violated raster_limits_stale_violated raster_shift_dz_violated",
  "False as stated once an interpolator is cached; proved for all histories that change limits or shift in x, y only while none is.")
m("C28", "proved", "data_extent_raises_iff data_extent_spec")
m("C29", "partial", "nearest_spec nearest_extrapolate_spec interpolate_affine interpolate_missing interpolant_between interpolant_stored_extrapolate interpolant_stored_violated sigma_ge sigma_first",
  "Proved for rasters on one grid, strictly between stored positions, and at stored positions with extrapolate=True; with the default extrapolate=False every stored position fails (interpolant_stored_violated).")
m("C56", "partial", "crop_to_data_spec crop_spec getitem_spec_partial getitem_minus_one_violated getitem_reverse_violated",
  "crop and crop_to_data in full; indexing except negative integers (-1 always raises) and reversed selections of two cells.")
m("C57", "partial", "raster_read_partial raster_read_out_raises raster_read_box_cached_violated raster_read_box_empty_violated",
  "Proved for every history that does not read a box with caching before the array is cached; that case is wrong on every raster. Full resolution only (other cell sizes: C140).")
m("C58", "partial", "target_cell_size_violated target_cell_size_same_partial",
  "False: a target k times coarser gives cells k times finer. Proved only when the size does not change.")
m("C31", "proved", "drawIndexes_valid resampleParticles_spec",
  "All four methods, all random numbers in [0, 1). Residual resampling uses numpy's binary search on a possibly unsorted, possibly non-finite array as it is implemented. In exact arithmetic; in double precision see C124, where an IndexError is possible.")
m("C32", "partial", "systematic_count_partial systematic_zero_offset_violated stratified_count stratified_zero_weight systematic_zero_weight choice_zero_weight",
  "Proved for every offset in (0, 1); for the offset 0, which np.random.random can return, a first particle of zero weight is drawn.")
m("C33", "partial", "residual_count_partial residual_fraction_violated residual_fraction_violated_case",
  "The floor part is proved. The fractional part is false: interior particles with less than one expected copy are never drawn once the integer parts sum to two or more.")
m("C34", "proved", "parse_datetimes_spec parse_datetimes_raises_iff",
  "Also complete: exactly the requested times with an image within maxdt are kept, and it raises exactly when fewer than two remain or the times are not monotone.")
m("C35", "proved", "match_datetimes_spec", "Timestamps are exact integers (no daylight saving time).")
m("C36", "partial", "track_window track_steps track_first_last track_window_unobserved_violated track_unmatched_observer_violated",
  "Proved for every completed track with at least one image, over abstract particles, templates and likelihoods. False for a track without any image (all times are recorded), and an observer without matching images makes the track fail.")
m("C37", "partial", "process_frame track_all_independent track_single track_parallel track_all_unbuildable_violated",
  "Proved for all tasks and worker states, given each track's random numbers; false for exceptions whose class cannot be built from one message.")
m("C38", "partial", "initial_exact initial_spread cartesian_step cartesian_compose cartesian_reverse cartesian_steps base_steps cylindrical_zero_acceleration cylindrical_radial cylindrical_turn_speed cylindrical_rest_violated cylindrical_default_violated timeUnits_add timeUnits_scale",
  "Proved for Cartesian motion (any constant acceleration) and moving particles in cylindrical motion; a resting particle in cylindrical motion becomes NaN. Real numbers.")
m("C39", "proved", "tangent_step_height tangent_cartesian_height tangent_cylindrical_height tangent_horizontal",
  "Any DEM, any sequence of steps; for cylindrical tangent motion as long as the particle never stops (then it is NaN).")
m("C40", "partial", "split_breaks split_int split_int_exact subset_spec mk_spec index_spec split_int_violated split_int_violated'",
  "Proved in full for datetime breaks. For a number of parts: proved when the length is a multiple of n microseconds; otherwise images at the end can be lost (split_int says exactly which).")
m("C59", "partial", "systematic_total resample_mean_squares resample_mean_violated resample_mean_equal_partial",
  "False: the weights are kept after resampling and so applied twice (resample_mean_squares). Proved for equal weights.")
m("C60", "proved", "template_spec search_spec", "Positions only (pixel values, cv2.matchTemplate and the spline are not modelled); rational coordinates.")
m("C30", "proved", "agisoft_from_exact agisoft_to_exact agisoft_round_trip opencv_from_exact opencv_to_exact opencv_round_trip opencv_arrays opencv_matrix matlab_from_exact matlab_to_exact matlab_round_trip photomodeler_from_exact photomodeler_to_exact photomodeler_round_trip photomodeler_no_sensor converter_residuals_zero agisoft_k4_not_exact converted_position",
  "Real numbers; file readers and the least-squares optimization of inexact conversions are not modelled.")
m("C43","partial","Glimpse.ImageRead.image_read_partial Glimpse.ImageRead.image_read_then_cached Glimpse.ImageRead.run_cached round_half_even Glimpse.ImageRead.image_read_box_resized_violated Glimpse.ImageRead.image_read_stale_size_violated","Proved for every file, box and history of reads, resizes and clearings, except for an uncached read of a box while the camera size differs from the cached (or file) size: there the code returns an array of the whole camera image's size, proved as a violation. GDAL is a parameter with stated guarantees.")
m("C41","partial","svg_polyline_round_trip svg_polygon_round_trip_partial svg_polygon_point_violated svg_line_round_trip svg_circle_round_trip bbox_spec svg_rect_round_trip svg_rect_of_rect svg_viewbox_round_trip svg_path_round_trip_partial svg_path_point_violated pyFmt_faithful intFmt_faithful","Proved at the level of characters for every list of points and every numeral format that reads back what it writes (proved for int, assumed of float repr). False for paths of fewer than two points (what is written cannot be read) and for polygons of one point; both proved as violations.")
m("C42","partial","svg_transform_listed_order svg_transform_nested svg_transform_reversed svg_transform_standard_partial svg_transform_unknown svg_transform_as_matrix svg_transform_order_violated","The matrix forms are proved; the order is that of the text, the reverse of the SVG standard's (proved), so the claim about order holds only for functions that commute.")
m("C61","partial","svg_path_read_partial svg_path_no_start svg_path_two_rings_violated svg_path_blank_violated","Proved from the characters up for every path starting with a move whose later subpaths are not closed. False for two closed subpaths and for a text that starts with a blank (proved).")
m("C62","proved","svg_read_spec svg_group_lookup svg_image_frame svg_read_imgsz_needs_image","Transforms in the code's order (see C42); images of zero width or height excluded; XML parsing and namespaces not modelled.")
m("C44","partial","parse_params_partial parse_params_false_violated parse_params_none_bounds_violated parse_params_beyond_violated parse_params_indices parse_params_bounds_number","Proved for selections by True, indices within the attribute, and None without bounds. False where the code differs (each proved): False selects element 0; (None, min, max) writes bounds of the attribute before it or raises UnboundLocalError; an index beyond the attribute selects an element of the next. What every list of integer indices selects or raises, and that bounds of the wrong number raise ValueError, is proved (parse_params_indices, parse_params_bounds_number).")
m("C45","partial","set_cameras_partial set_cameras_no_group_violated test_overlap_sound reset_restores_saved reset_restores_initial predicted_restores_partial predicted_raises_violated slots_nodup","Proved for every layout that passes the code's overlap check. False (proved) for cameras in no group, whose own parameters are never written, and for predicted(params) that raises, which leaves the cameras changed.")
m("C46","proved","sparsity_sound sparsity_iff","For every layout and every residual function that depends only on the control's cameras.")
m("C47","proved","ransac_spec ransac_raises_iff ransac_samples_distinct ransac_samples_complete ransac_samples_zero_violated ransac_min_inliers_violated","For every model (fit may fail or raise) and every sequence of shuffles. The number of combinations is exact (the code estimates it by lgamma). With n = 0 and iterations > 1 the sample generator never ends (proved), so ransac does not return.")
m("C48","partial","matches_filter_partial matches_filter_at_most rotation_filter_violated rotation_xyz_filter_raises_violated rotation_xy_only_violated filter_zero_violated matches_new_ok_iff","Proved for Matches and for RotationMatchesXY without image coordinates. False (proved) for objects with both image and camera coordinates, whose camera coordinates are never filtered, for RotationMatchesXYZ (raises), and for limits equal to zero, which are ignored.")
m("C49","proved","drop_images_spec drop_images_keypoints_violated","For every matrix of matches that refer to existing images. In-memory keypoints are not re-indexed (drop_images_keypoints_violated), which the property does not claim.")
m("C50","partial","match_pairs_exact match_pairs_imgs_partial match_pairs_imgs_violated match_matrix_aligned match_matrix_shape match_matrix_shape_violated","Proved without imgs, for every list of times, maxdt and seq. With imgs only pairs whose second image is listed are matched (proved), against the documentation. The documented (n, n) shape of the matrix is never produced (proved).")
m("C51","partial","keypoints_all_files keypoints_second_run keypoints_resume_partial keypoints_torn_raises_violated keypoints_torn_kept_violated keypoints_torn_reachable keypoints_overwrite_partial keypoints_overwrite_file_violated keypoints_overwrite_memory_violated keypoints_returned","Proved for any number of interruptions between files, under any schedule. False (proved) for a crash inside the writing of a file, and for overwrite=True when keypoints exist in exactly one of file and memory.")
m("C63","partial","match_file_injective_partial match_file_injective_length_partial match_file_collision_violated match_files_distinct_partial match_files_resume match_files_shared_violated","Proved when image names have no hyphen or equal length. False in general: two pairs can share a file name, and then the second pair gets the matches of the first.")
m("C64","partial","matches_per_image_total images_per_image_total match_breaks_spec match_breaks_single match_breaks_min_violated","Counts and breaks proved; match_breaks with min_matches raises (proved) unless exactly one image has matches.")
m("C65","partial","Glimpse.Cams.update_params_spec Glimpse.Cams.update_params_names Glimpse.Cams.initial_values_identity Glimpse.Cams.group_bounds_iff Glimpse.Cams.group_bounds_empty_violated Glimpse.Cams.default_bounds_violated","For every layout; the value given to lmfit is the current one. lmfit moves it into the bounds: a camera beyond the default bounds is then fit from another value (default_bounds_violated). Cameras whose bounds exclude each other give a group minimum above its maximum (proved), the empty intersection.")
m("C66","partial","fit_restores_partial fit_iterations_partial fit_iterations_chain fit_iterations_violated Glimpse.Cams.fit_raises_violated fit_saved fit_iteration_groups_violated fit_iteration_other_groups_violated","Proved for every optimizer (an arbitrary interaction tree of evaluations) when fit returns and no iterations are used. False (proved) if residuals raise, and with iterations when cameras changed since the last save; the iterations also ignore the model's groups.")
m("C67","proved","weights_spec Glimpse.Cams.weights_scale weights_equal weights_none_iff","Exact arithmetic over any ordered field.")
m("C68","partial","sparsity_rows_partial sparsity_rows_bool_violated fit_mask_rows","Proved for integer indices; false for boolean indices (proved).")
m("C69","partial","controls_keep_position controls_untouched lines_merged lines_uv_shared_violated rotation_resize_violated Glimpse.Controls.to_type_violated","Proved for every history of Points, Lines and Matches with positive image sizes in which no control is made from the uv attribute of a Lines object. False (proved) in that case, for the rotation matches (resize raises), and for matches converted with to_type between a resize of the camera and their own.")
m("C70","proved","arrays_kept","For every history; arrays made by the program. (The uv attribute a Lines object makes for itself is changed in place, see C69.)")
m("C71","partial","lines_predicted_nearest lines_predicted_raises lines_predicted_returns lines_in_front lines_out_of_view lines_short_violated lines_in_view","Proved for all projected lines. False (proved) for lines shorter than half the target spacing, which lose all their points. Camera projection is a parameter.")
m("C72","partial","interpolate_line_xi cumulative_spec interpolate_line_fill interpolate_line_n interpolate_line_dx_exact interpolate_line_dx_count interpolate_line_decreasing interpolate_line_dx_short_violated interpolate_line_dx_spacing_violated interpolate_line_fill_decreasing_violated","Proved for increasing distances, given distances or numbers of points, and spacings that divide the length. False (proved): other spacings (short lines get no points, spacing up to 1.5 times too large) and fill values of decreasing distances (exchanged).")
m("C73","partial","number_exact number_absent integers_exact parse_tag_other parse_tag_pair_violated datetime_exact datetime_subsec datetime_raises datetime_nonexistent","Proved for all values of the properties of Exif and for all dates. False (proved) of parse_tag for tags that store two integers that are not a rational (returned as a quotient) or two rationals (raises). Floating-point division is modelled as exact.")
m("C74","proved","dump_group_exact dump_ok_iff dump_exact dump_error","Codes of piexif are a parameter (assumed distinct within a group); the encoding to bytes by piexif is not modelled.")
m("C75","proved","endpoints_one endpoints_exact endpoints_raises success_exact","")
m("C76","partial","match_keypoints_partial match_keypoints_few brute_nearest match_keypoints_none_violated match_keypoints_equal_violated match_keypoints_single_violated match_keypoints_mask_violated","Proved when no masks are given, second best distances are not zero and, with max_distance, some pair passes the other tests. False (proved) otherwise: with max_distance and no pairs it raises or returns flat arrays; identical second best descriptors raise ZeroDivisionError; single keypoints give no matches when ratios are asked; masks raise and are not transposed for the cross check. The descriptor matcher (OpenCV) is a parameter, assumed exact.")
m("C77","partial","circle_near circle_zero ring_connected circle_connected_violated fill_circle_inside fill_circle_zero fill_circle_violated fill_circle_flipped_violated","Proved: all pixels are within one pixel of the circle; fill_circle changes only pixels inside. False (proved): the returned path is not connected (diagonal steps of two quadrants are removed), so fill_circle leaves cells inside unfilled; raises for rasters whose x decreases.")
m("C78","partial","sample_linear_partial sample_nearest_partial sample_raises around_exists sample_center sample_plane sample_missing_linear sample_missing_nearest sample_missing_raises sample_missing_none used_exists sample_int_fill_violated sample_center_missing_violated","Proved for fill values that are floating-point numbers (or none), for all rasters: with missing cells, exactly which samples are missing is proved (sample_missing_linear, sample_missing_nearest). False (proved) for integer fill values, which truncate all samples to integers, and at the centre of a cell next to a missing one (sample_center_missing_violated): its own value is not returned. The interval search and blending of scipy 1.4.1 are modelled; arithmetic is exact.")
m("C79","partial","sample_grid_partial sample_grid_raises sample_grid_unchanged_partial sample_grid_error_violated sample_grid_shape_violated sample_grid_cell_violated sample_grid_low_violated","Proved: shape, bounds, fill values, and the raster unchanged when it returns. False (proved): if the spline raises, missing cells stay replaced by the lowest number of the type; rasters with one row, column or cell give arrays of another shape; values below the lowest cell are returned as missing. The spline of scipy is a parameter.")
m("C80","proved","gradient_plane gradient_quadratic gradient_raises","Arithmetic is exact.")
m("C81","partial","inCell_iff inCell_exists rasterize_partial rasterize_empty_violated rasterize_integer_violated","Proved: means of points per cell, points outside ignored. False (proved): pixels without points keep the values of the raster; rasters of integers truncate the means.")
m("C82","partial","horizon_point_spec horizon_partial horizon_outside_violated horizon_missing_violated horizon_sector_violated","Proved from inside the raster if each line has a cell that is not missing. False (proved): raises from outside; raises if one line is empty or all missing; sectors of headings are joined as if they went around. The ends of the rays are given (intersect_rays_box is a property of its own).")
m("C83","partial","viewshed_length viewshed_visible_partial viewshed_missing viewshed_hidden_partial viewshed_flat viewshed_own_violated viewshed_single_violated","Proved without elevation correction for any periodic interpolation between ring values (np.interp is a parameter: results between two values, missing only if one is). Missing: exact visibility by line of sight (the code interpolates, so it is not exact). False (proved): cells nearer than half a cell width are not visible; a raster wholly within that distance is all visible, even missing cells.")
m("C84","partial","regula_falsi_partial approx_solution regula_falsi_axis_violated regula_falsi_none","Proved for every array of points: each result is the false-position approximation of its own coordinate, at the first iteration within the tolerance, at the last iteration, or where the next step is undefined. False (proved) for points on an axis through the principal point of a camera without tangential distortion: half of the coordinate is returned. Convergence is not claimed. Zero iterations raise UnboundLocalError (proved).")
m("C85","partial","lookup_exact lookup_barrel_violated","Exactness at the table's coordinates for cameras whose distortion is injective on the table; scipy's griddata is a parameter assumed exact at nodes and missing outside the hull. False (proved) for cameras with barrel distortion: coordinates at the sides of the image are missing.")
m("C86","partial","Glimpse.Undistort.reversible_iff Glimpse.Undistort.reversible_false Glimpse.Undistort.reversible_true_violated","Proved: the answer is monotonicity on the two central axes; a false answer is right for radial polynomial distortion. False (proved): a true answer does not exclude two points with the same distortion (diagonals are farther out than the axes).")
m("C87","partial","grid_pixels edges_partial edges_default edges_tall_violated edges_wide_violated","Proved for steps up to the sides' lengths. False (proved) for longer steps: raises, or leaves out the right side.")
m("C88","partial","viewbox_partial viewbox_tight viewpoly_partial viewpoly_k1_partial viewbox_distorted_violated viewpoly_correction_violated","Proved for cameras without lens distortion (viewpoly: also with first-order radial distortion; without elevation correction). False (proved): with first-order distortion and an odd number of rows, the box of a camera that looks north misses what it sees in the middle of the right image edge; with elevation correction, the corners of viewpoly are not seen at the image edges in the row of the principal point.")
m("C89","partial","camera_refused_iff camera_attributes camera_millimeters camera_cmm_violated","Proved for all arguments without empty lists. False (proved): a single principal point offset in mm applies to both directions when the camera is made, but only to x when set later or given in pixels.")
m("C90","partial","json_roundtrip_partial json_roundtrip_default json_correction_violated json_override text_roundtrip_partial from_text_invalid","Proved for the default attributes and the sensor size, in any selection with image size and focal length, for cameras without NaN, also through the text of the file with any indent and flat arrays (assuming that float(repr(x)) is x). False (proved) for the attribute correction: reading raises.")
m("C91","partial","flat_edit flat_same_partial flat_none flat_array flat_objects flat_strings_violated flat_indent_violated flat_nested_violated flat_round_trip_partial","Proved for texts whose strings have no whitespace and no commas, and (one line) for arrays without nesting, with the default separators. False (proved): strings in arrays lose whitespace and get spaces after commas; without indent it raises; nested arrays stay on several lines.")
m("C92","proved","strip_all strip_some strip_directory strip_collision_violated","That two images can have the same name (proved) is not excluded by the property; it matters for files of results named after images.")
m("C93","partial","project_last_tile_wins project_dem_partial project_dem_serial project_raises_iff tile_scale_limits tile_scale_exact project_depth_scaled_violated project_args default_mask_draws project_seam_violated","Proved: the mean of the last tile with a cell in the pixel, for any order of arrival; equal to the mean of all cells if no pixel is shared by tiles. False (proved): pixels shared by tiles keep only the last tile's mean; a cell exactly on the right or lower border raises; depth maps with tile scale not 1 raise. Zoom (scipy) is an arbitrary function.")
m("C94","partial","normalize_mean_std normalize_affine normalize_constant_violated extract_tile_brightness extract_tile_highpass Glimpse.match_cdf_ranks shift_tile shift_tile_argument_violated","Proved over the reals, for any low-pass filter. False (proved): a constant tile becomes NaN, and shift_tile overwrites its argument. Splines (scipy) are an arbitrary function.")
m("C95","partial","gaussian_masked gaussian_excluded gaussian_full_mask gaussian_missing gaussian_integer_violated maximum_masked maximum_fill_partial maximum_fill_violated fill_crevasses_bounds","Proved for floating-point arrays and any kernel of non-negative weights. False (proved) for arrays of integers (weights truncated) and for fill in unsigned arrays. Weights of the Gaussian (scipy) are arbitrary.")
m("C96","partial","write_content write_text write_layout_partial write_layout_violated write_indent_text_violated merge_get svg_elem g_elem path_elem image_elem svg_elem_one_size_violated","Content is kept for all documents. Layout proved where only last children have children; False (proved) in general: the element after a group is indented one level too little. Escaping by the XML library is not modelled.")
m("C97","partial","strip_braces_none strip_braces_qualified strip_attrib_partial strip_children strip_collision_attr_violated strip_values_violated","Proved for attributes with different local names and values without braces. False (proved): colliding local names drop an attribute; braces in values are stripped too.")
m("C98","partial","cameras_accepted_iff cameras_built group_args prune_controls cameras_layout_ok cameras_no_overlap_partial cameras_params_observed_partial cameras_overlap_negative_violated cameras_uncontrolled_negative_violated parse_mask_defaults","The equivalence is proved for all arguments. Consequences proved for indices that do not count from the end. False (proved): negative indices evade the checks of overlaps and of cameras without control. lmfit's own refusals are not modelled.")
m("C99","partial","scale_c scale_imgsz scale_f scale_p scale_k_violated roll_rotates scale_roll scale_view_angle turn_pixels scale_view_edges scale_view_center_violated scale_xyz_violated scale_xyz_none scales_positive scale_k3_negative_violated build_scales default_bounds_keep_iff default_bounds_violated","Exact for principal point, image size, focal length, tangential distortion and roll (per degree). False (proved): radial coefficients (1/√2 pixel at the mean radius), position (grows with the root of the number of points), sign of k[3:6] with negative denominators, default bounds that exclude the camera's own values. The first two angles are exact on average over the image (a turn by n scales moves a point across its n pixels); at its center the scale moves a point by less than a pixel (proved).")
m("C100","partial","grid_points grid_cover grid_number grid_refused_iff converter_sizes grid_panorama_violated optimize_cam_spec optimize_cam_values optimize_xcam_spec optimize_xcam_zero_violated optimize_xcam_index_violated optimize_cam_raise_violated","Proved for all optimizers (interaction trees) that keep the number of values, and selections by True or lists. False (proved): optimize_xcam drops the index 0 and raises for any other single index; a panorama with few points is refused; a failed optimization leaves the camera changed.")
m("C101","partial","agisoft_xml agisoft_refused num_tokens opencv_xml opencv_xml_raises data_text_first data_text_none opencv_exponent_violated matlab_report matlab_suffix_violated photomodeler_report photomodeler_any_text_violated","Proved for every text around entries of the documented form, with the regular expressions modelled by a backtracking matcher; float() of a numeral is a parameter. False (proved): other texts give PhotoModeler cameras of zeros, a Matlab variable whose name ends in a key is read instead, capital exponents split OpenCV numerals.")
m("C102","proved","polyval_eq_sum polynomial_model polynomial_index_error polyval_unique polyfit_exact ransac_polynomial ransac_polynomial_few_outliers least_squares_exists","For every polyfit that returns coefficients of minimal sum of squares (which exist, proved over the reals); exact arithmetic.")
m("C103","partial","splitext_spec crs_reading driver_chosen driver_empty_name write_ok_iff write_effect write_failed_partial write_failed_violated open_raises_iff open_missing open_cells open_cell_size write_open write_nan_violated grid_read_full grid_read_violated copy_crs_violated","Round trip, crops, cell sizes, choice of driver and refusals proved over a model of GDAL that keeps what is written. False (proved): NaN is not written as the nan value, a no-data value of zero is not replaced, a write with a bad crs has already emptied the file when it raises, Grid.read keeps the file's number of cells after a crop, and copies lose the crs. Missing: lossy formats (values at reduced resolution: C140).")
m("C104","partial","index_meaning rows_at_index no_controls_raise residuals_rows errors_rows errors_ransac weights_pruned_violated fit_arguments fit_sparsity_rows fit_mask_violated iteration_arguments_partial iteration_arguments_violated","Proved for the residuals at every index, and for the arguments of a run without iterations for all observations or integers. False (proved): with booleans the sparsity matrix has the wrong number of rows, the iterations are given the scales and the sparsity of the final run and are refused if they have another number of parameters, and weights given for controls that are dropped stay. (The iterations also ignore the weights.)")
m("C105","partial","image_without_metadata image_given_metadata image_datetime image_override image_override_f_violated image_supplement_violated sensorsz_found sensorsz_missing","Proved for every combination of arguments. False (proved): a focal length in pixels alone does not override that of the metadata (the camera is refused), and a focal length in mm with a sensor size is not supplemented by the image size (TypeError). The text of make or model values that are not text is not modelled.")
m("C106","partial","project_raises project_value truncate_spec bilinear_bounds value_at_center project_outside project_behind_linear project_behind_nearest_violated project_same_direction project_same project_opposite_violated","Proved for images of at least two rows and columns, with exact arithmetic; the direction for source cameras without lens distortion. False (proved): with method nearest, pixels behind the source camera get the value of its lower right pixel instead of none. Images of integers are truncated and have an unspecified number where there is no value; the outer half pixel of the source counts as outside.")
m("C107","partial","make_raster make_number new_ok initialize_partial initialize_raises number_partial base_initialize_spec tangent_all tangent_raises likelihoods_spec likelihoods_raise at_unique initialize_missing initialize_velocity initialize_missing_raises test_missing_iff initialize_test tangent_missing likelihoods_missing height_unique default_sigma_violated number_violated likelihoods_gap_violated","Proved for rasters and standard deviations given. False (proved): three of the four classes raise if dem_sigma is not given; a surface given as a number is only defined on the square from 0 to 1, anywhere else initialization raises; above a missing cell the likelihood is silently missing although the particle passes the test. With missing cells, exactly which particles have missing heights, that the test of particles refuses them, and which likelihoods are missing are proved (Props/MotionMissing.lean).")
m("C108","partial","tracks_columns mean_spec mean_between zero_weights weights_mismatch covariance_spec covariance_psd sigma_spec sigma_zero_iff sigma_about Glimpse.TracksStats.weights_scale record_agree Glimpse.TracksStats.assemble_ok tracks_agree particles_mixed_ok particles_mixed_violated","Proved for all particles and weights (real numbers). False (proved): motion models with different numbers of particles cannot be tracked with return_particles; track raises when everything is done.")
m("C109","partial","element_unknown from_svg_cases element_irrelevant element_rect_missing element_defaults element_round_trip_partial element_empty_violated","Round trip proved for point lists each shape can hold (one point for a circle, two for a line, boxes for rect/image/svg, at least two for paths, closed rings for polygons). False for empty point lists: shapes written from no points read back as the origin (element_empty_violated). Attribute values with units (\"10px\") make float() raise and are not modelled.")
m("C110","proved","mask_shape mask_within rasterize_polygons_spec rasterize_polygons_shape fills_within within_or_not within_generic generic_frequently mask_spec rasterize_polygons_partial inside_either_side Glimpse.PolygonMask.fills_iff","Proved for every center on no edge, also at the height of vertices: inside means that all close points in general position have an odd number of edges to their east, which is proved to be well defined off the edges. On an edge, inside is a convention. GDAL's fill (scanlines, half-open crossings, edges along a row) is modelled, with exact arithmetic.")
m("C111","partial","reachable_sound untouched copy_fresh copy_independent copy_kept grid_shared_violated item_shared_violated resample_shared_violated array_shared_violated set_array_seen set_xlim_seen set_ylim_seen","Proved for copies, over all histories on any number of objects (references to blocks of memory; frame property for disjoint blocks). False (proved) for everything else: the grid of a raster shares its limits, a part of a raster shares coordinates and values, resampling shares limits and coordinates with the grid, a raster shares the array it is made of. The cached interpolator is not part of this model.")
m("C112","partial","resample_partial resample_raises resample_own_grid bilinear_interpolates resample_own_grid_bilinear resample_all_missing_violated resample_row_violated resample_cell_violated resample_failed_violated","Limits, size and value of every cell proved for rasters with at least two rows and columns and orders less than the size (scipy's surface is a parameter; for the bilinear one it is proved to go through the cells), refusal outside bounds, identity on the own grid. False (proved): rasters with one row, column or cell get the wrong number of rows; a raster without any value becomes the lowest number of the type; a resampling that raises for its order leaves the missing cells replaced.")
m("C113","partial","observer_tiles_partial uncached_safe no_shift_safe tile_stable images_index_error clear_images_spec cache_images_spec held_no_file shift_tile_cached_violated","Proved over a heap of shared arrays for all histories in which shift_tile is not used on a tile of a cached image; every history without caching, and every history without shift_tile, is proved to be one. False (proved, for every image, box and shift): shift_tile writes into the cached image, so that the next tile extracted there is shifted. Excluded as in C43: uncached parts of resized images.")
m("C114","partial","direction_compass hillshade_mirrored hillshade_values hillshade_order hillshade_partial hillshade_flat hillshade_raises hillshade_north_violated","The value of every cell is proved, for all rasters with at least two rows and columns: it is that of a light at azimuth 180 minus the one given. The claim therefore holds for light from due east or west and for cells without a slope along y (hillshade_partial), and fails otherwise (hillshade_north_violated): matplotlib negates the cell size dy itself, and Raster.hillshade passes the signed cell size. matplotlib's LightSource is modelled from its 3.2.1 source. Rasters with missing values: C142.")
m("C115","partial","set_cameras_short set_cameras_spec set_cameras_shared_violated reset_restores fit_frame fit_resets fun_value fit_result fit_result_new objective_zero_iff anchor_gradient fit_keeps_violated Glimpse.ObsCams.fit_raises_violated","Proved for images with their own cameras, over all histories and all optimizer strategies (trees of evaluations). False (proved): images that share a camera do not each get their direction; a fit turns cameras back to when the object was made, not to how they were before it; an optimizer that raises leaves the directions tried last. Negative anchors and printing are not modelled.")
m("C116","partial","frames_spec draw_iff draw_partial draw_gap_violated draw_tracker_violated draw_scale_violated","Frames proved for all tracks; what is drawn proved when the frames are the first times without a gap. False otherwise (proved, exactly): arrow lengths are looked up by time instead of by position, so frames after a gap show a wrong length or raise; without a tracker every frame raises.")
m("C117","partial","animate_tile_partial animate_outside animate_window animate_window_violated animate_cached_violated animate_large_violated animate_touch_violated track_frame_spec track_default track_sequence_violated track_repeated_violated","Proved for uncached images and windows no larger than the image. False (proved): axes are centered only for square windows; cached images (the default) raise; windows larger than the image show nothing; windows that touch the image raise; frames of Observer.track that are not an array, or repeat an image, fail. The initial drawing before the first frame is not modelled.")
m("C118","partial","careful_good read_after_writes_partial write_original_partial write_array write_resized_violated read_stale_violated","Proved over all histories in which no file is replaced while an image has its pixels cached (GDAL and lossless formats are assumed faithful). False (proved): an image with a resized camera writes resampled pixels, and a cached image goes on reading the old pixels after its file was replaced.")
m("C119","proved","pairwise_returns pairwise_table pairwise_swap euclidean_eq euclidean_metric euclidean_sq pairwise_numbers pairwise_euclidean datetimes_table datetimes_constant datetimes_change_violated pairwise_example pairwise_empty_violated","scipy's cdist is modelled by its definition; coordinates are exact reals. Recorded besides (proved): an empty list counts as points on a line, so it raises against points of the plane; datetimes without time zone are instants of the local zone, so over a change of its offset their distance is not the difference of the readings.")
m("C120","proved","points_of_grid grid_points_any grid_modes grid_raises polygon_of_box mask_of_box polygon_raises parallel_number","Exact arithmetic. Steps are positive and boxes not inverted; steps and snap points have one number per dimension (or one step for all).")
m("C121","partial","detect_bytes root_values root_norm root_inner root_distance root_zero cast_unit_violated cast_wraps_violated","OpenCV's detector is a parameter. Proved for images and masks of 8 bits. False of others (proved): values between 0 and 1 become zero, and values of more than 8 bits wrap around.")
m("C122","partial","insert_returns insert_read history_files history_insert insert_objects insert_thumbnail_violated","piexif is modelled by its documented effect (tables of names and codes agree, values of the type of their tag are read back). Proved for all tags but those of the thumbnail; with a thumbnail read, for these too. False (proved): metadata read as by default and inserted unchanged removes the thumbnail and its group from the file.")
m("C123","partial","float_snap_xy_exact float_xy_to_rowcol_exact float_rowcol_round_trip float_crop_extent_exact float_crop_extent_none float_center_near float_cell_near float_rowcol_round_trip_violated float_xy_to_rowcol_outside_violated float_crop_extent_none_violated float_outer_edge_two_off Glimpse.Double.rnd_nearest","Exact for grids whose limits and cell size are multiples of one power of two by at most 2^46 (such as whole metres), proved for every rounding to nearest. False in general (proved): (0, 7) with 5 columns puts the centre of column 1 in column 0; a point in (0, 1) with 6 columns gets column 6; (0, 100) with 11 columns loses its last column when cropped to itself. For all grids up to 2^40 cells and offsets: at most one cell off, two at the outer edge. Doubles have 53 bits and unbounded exponents here.")
m("C124","partial","float_stratified_sorted float_stratified_valid_iff float_stratified_valid float_zero_weight float_choice_valid float_choice_check kahan_near float_choice_zero_weight float_residual_valid float_systematic_count float_resample_spec resampleParticlesF_id float_resample_returns_iff float_resample_raises_violated leftSum_some_order","Systematic and stratified draw existing particles unless the last random number is within 10 n^2 / 2^53 of 1; false then (proved): ten equal weights and the largest random number below 1 raise IndexError in every order of summation. choice (n up to 2^26) and residual (n up to 2^25) always draw existing particles. Counts of systematic resampling are within 1 + 16 n^2 / 2^53 of the share. numpy's check that probabilities sum to 1 (its compensated sum, within 2^-26) is modelled and never fails up to 2^26 particles; doubles have 53 bits and unbounded exponents here.")
m("C125","partial","raster_plot_shows raster_plot_outside image_plot_shows plot_tile_partial plot_tile_default_violated grid_limits_show camera_limits_show image_fills_limits plot_box_corners","matplotlib's imshow, set_xlim/ylim and plot are modelled by their documentation; points on the edges of cells are not specified. False only of Observer.plot_tile without a box (proved): a tile that is not square is drawn with width and height swapped.")
m("C126","partial","plot_xy_spec plot_xy_raises plot_xy_start_partial plot_xy_start_violated plot_xy_sigma_missing plot_vxy_spec plot_v1d_spec plot_v1d_sigma_missing","Start markers are at the start of tracks that have a position at the first time; false of others (proved): a track that starts later gets no marker. Asking for standard deviations that the tracks do not have raises TypeError. matplotlib is modelled by its documentation.")
m("C127","partial","plot_errors_spec plot_errors_default plot_errors_raises plot_lines_spec poly_plot_partial poly_plot_violated poly_plot_default_violated cams_plot_spec cams_plot_several cams_plot_array_violated cams_plot_restore_violated plot_weights_spec converter_outgoing converter_incoming_partial converter_incoming_violated","Proved for Points, Lines, Matches and plot_weights. False (proved): Polynomial.plot raises TypeError unless some points are selected, others not, and neither are hidden, hence always with its default index; Cameras.plot raises with an array of several indices even for one control, and leaves the cameras changed if the plot of a control raises; Converter.plot with a camera that is projected into draws arrows that start at cam's coordinates, not at xcam's.")
m("C128","partial","loads_renders loads_repeated json_round_trip dumps_injective escape_ascii flat_round_trip_partial pyNumFmt_faithful intNumFmt_faithful Glimpse.Json.flat_text_violated","Proved for all values, with floats whose repr is a JSON number that float reads back; with flat arrays if no string has a space or a comma (false otherwise: flat_text_violated). Lone surrogates and keys that are not text are left out.")
m("C129","partial","pickle_round_trip_partial pickle_wrong_gz pickle_torn pickle_text_violated pickle_read_text_violated","False (proved) for binary=False without gz: writing always raises and empties the file. pickle and gzip are parameters.")
m("C130","partial","Glimpse.CamMem.reset_restores_new Glimpse.CamMem.reset_restores_copy Glimpse.CamMem.others_unchanged Glimpse.CamMem.view_live Glimpse.CamMem.view_write Glimpse.CamMem.set_attribute attributes_partition Glimpse.CamMem.to_array_own Glimpse.CamMem.idealize_spec Glimpse.CamMem.set_sensor Glimpse.CamMem.imgsz_write_violated Glimpse.CamMem.reset_sensor_violated Glimpse.CamMem.view_reset_violated","Every history of a model of memory with references. Three parts of the claim fail and are proved to: writes to imgsz are lost (the getter casts to int, a new array), reset does not restore sensorsz, and a view taken before reset is detached. The correction dictionary is not modelled.")
m("C131","partial","size_history_independent Glimpse.FloatResize.target_same_ratio target_size_partial resize_error factor_size_partial factor_size_violated Glimpse.FloatResize.drift dyadic_exact Glimpse.FloatResize.restore_violated","Doubles have 53 bits and unbounded exponents here. False (proved): 49 pixels resized to one and back changes the focal length by 2^-53; the double nearest to 0.3 times 5 pixels gives 2 although the product is below 1.5. A target size is exact unless the scale found by differential evolution (a parameter) puts a side at half a pixel.")
m("C132","proved","Glimpse.FloatTiles.float_tile_indices_exact Glimpse.FloatTiles.float_tiles_exact Glimpse.FloatTiles.float_tiles_any Glimpse.FloatTiles.float_tiles_partition Glimpse.FloatTiles.float_tiles_fraction","Doubles have 53 bits and unbounded exponents here (the quotients are far from overflow). float_tiles_fraction shows that for fractions the number of tiles can differ by one from exact arithmetic, as the statement allows.")
m("C133","proved","weight_finite weight_ordinary weight_accuracy weight_antitone weight_vanishing update_weights_spec update_weights_value total_append summed64_spec normalize_spec draw_transfer residual_any residual_valid resample_after_update ordinary_values normalize_nan_violated weight_overflow_violated","IEEE 754 double precision with overflow, gradual underflow, infinities and NaN, without the sign of zero. np.exp is any monotone function with the limits in ExpOk. The last clause of the statement (where it fails) is in the two theorems named _violated.")
m("C134","proved","Glimpse.FloatTemplate.float_template_spec Glimpse.FloatTemplate.float_search_spec Glimpse.FloatTemplate.float_template_size_violated Glimpse.FloatTemplate.float_search_raises_violated","Any rounding to a nearest double of 53 bits (exponents unbounded). The two theorems named _violated are the exceptions that the statement makes: a template one pixel wider than requested (mean 121 - 2^-46, 15 pixels requested, 16 given), and ValueError for a particle that rounding puts outside the error box (offset exactly -1/2). Pixel values, and the rounding inside the spline, are not modelled.")
m("C135","partial","Glimpse.FloatStats.float_mean_near Glimpse.FloatStats.float_sigma_about Glimpse.FloatStats.float_sigma_near Glimpse.FloatStats.float_covariance_near Glimpse.FloatStats.float_covariance_symmetric Glimpse.FloatStats.float_stats_errors Glimpse.FloatStats.float_mean_outside_violated Glimpse.FloatStats.float_covariance_asymmetric_violated Glimpse.FloatStats.stats_exact Glimpse.FloatStats.roots_exist","Any rounding to a nearest double of 53 bits (exponents unbounded: no overflow, no underflow); np.sqrt is any square root rounded to a relative error of 2^-53. False (proved): the mean of three particles at 0.1 is 0.10000000000000002, and their standard deviation is not zero; the covariance of two particles with weights 2 and 3 is not exactly symmetric.")
m("C136","partial","likelihood_whole_pixels mismatch_nonneg mismatch_zero_iff likelihood_best likelihood_nonneg bilinear_ok likelihood_bilinear throughNodes_ok likelihood_cubic_violated","Exact arithmetic; the processed tiles are given. Proved at whole displacements for every spline that passes through its nodes, and between them for splines that keep values non-negative (degree one). False (proved) between pixels for the default degree three: half a pixel beside an exact match the value can be negative, hence more likely than the match.")
m("C137","partial","Glimpse.FloatBoxGrid.floor_divide_exact Glimpse.FloatBoxGrid.remainder_spec Glimpse.FloatBoxGrid.float_box_axis Glimpse.FloatBoxGrid.float_box_sorted Glimpse.FloatBoxGrid.float_box_axis_exact Glimpse.FloatBoxGrid.float_box_decimal_violated Glimpse.FloatBoxGrid.float_box_outside_violated","Any rounding to a nearest double of 53 bits (exponents unbounded), at most 2^47 steps. Proved: every coordinate is at least lo and within 2^-48 (relative to the largest number involved) of a snapped value and of the box, no snapped value further than that inside of the box is missing, and the grid is exact when all numbers are multiples of a power of two up to 2^46. False (proved): a box from 0 to 1 with step 0.1 has ten coordinates and not eleven, and the last coordinate may exceed the box.")
m("C138","partial","Glimpse.FloatProject.float_rotation_near Glimpse.FloatProject.float_project_near Glimpse.FloatProject.float_behind Glimpse.FloatProject.float_ray_near Glimpse.FloatProject.float_round_trip Glimpse.FloatProject.float_behind_violated Glimpse.FloatProject.float_round_trip_violated Glimpse.FloatProject.lib_exists","Any rounding to a nearest double of 53 bits (exponents unbounded), angles up to 360 degrees, no distortion and no elevation correction; np.cos and np.sin within 2^-50, and dot products of up to three terms within 2^-51 of the sum of absolute products (any order of summation). Proved: error bounds of the rotation matrix, of projections and rays, and of the round trip in pixels. False (proved): a point behind the camera, within 1e-17 of its plane, gets image coordinates; the corner of an image projected out and back is outside of the image by 7e-15 pixels.")
m("C139","proved","Glimpse.FloatProject.distort_rel Glimpse.FloatProject.float_xy_near Glimpse.FloatProject.float_distorted_near","Any rounding to a nearest double of 53 bits (exponents unbounded), angles up to 360 degrees, no elevation correction, library functions as in C138. The size of the terms (distortScale) is a polynomial of the absolute values of the coefficients and of (1 + M)^2, where M bounds the coordinates before distortion, over the square of the lower bound c of the denominator. The bound is not claimed where the polynomial of the denominator exceeds 2^34 c. Inverting the distortion (uv_to_xyz) is not included.")
m("C140","partial","raster_scaled_partial raster_scaled_coarse Glimpse.RasterIO.open_scaled_cells raster_scaled_box_violated raster_scaled_fine_violated ScaledFile.holds_pixels ScaledFile.Holds.unique","GDAL's resampling is its default, the nearest cell. Proved: the array of a raster opened at any cell size, and boxes after it is cached; boxes read without a cache if their edges are edges of cells of the file (always so if each cell is made of whole cells of the file). False (proved): other boxes read without a cache may have other values (three cells as two: 2 for 3), and raise when smaller than a cell of the file. A box read with caching while nothing is cached is wrong at any cell size (C57).")
m("C141","partial","Glimpse.FloatMotion.float_motion_near Glimpse.FloatMotion.float_motion_total Glimpse.FloatMotion.float_base_motion Glimpse.FloatMotion.float_motion_reverse_violated Glimpse.FloatMotion.float_motion_stuck_violated","Any rounding to a nearest double of 53 bits (exponents unbounded); the square of the time is the rounded product; the random numbers are given doubles; up to 2^53 steps. Proved: the bounds for CartesianMotion in any number of steps (against the exact steps of C38 and against uniformly accelerated motion over the total time), and for one step of the base motion. False (proved): a day forward and a day back from 2^-60 ends at 0, and at position 1 a speed of 2^-54 per step never moves the particle.")
m("C142","partial","Glimpse.Hillshade.gradient_missing Glimpse.Hillshade.hillshade_missing Glimpse.Hillshade.hillshade_complete Glimpse.Hillshade.hillshade_missing_raises Glimpse.Hillshade.hillshade_hole_violated Glimpse.Hillshade.hillshade_stretch_violated","Proved: exactly which slopes and shades are missing, the value of every other one (independent of what fills the missing cells), and agreement with C114 for complete rasters. False (proved): a missing cell within the raster whose neighbours are not missing has slopes and a shade, while the four cells around it have none (any raster); one missing cell anywhere turns off the stretch of all shades (an example goes from 0 to 0.7 at a cell far from it). matplotlib's LightSource is modelled from its 3.2.1 source.")
m("C143","partial","Glimpse.FloatInterp.float_interpolate_start Glimpse.FloatInterp.float_interpolate_equal Glimpse.FloatInterp.float_interpolate_mono Glimpse.FloatInterp.float_interpolate_between Glimpse.FloatInterp.float_interpolate_datetimes Glimpse.FloatInterp.float_interpolate_end Glimpse.FloatInterp.float_interpolate_near Glimpse.FloatInterp.float_variance_near Glimpse.FloatInterp.float_sigma_near Glimpse.FloatInterp.float_interpolate_end_violated Glimpse.FloatInterp.float_interpolate_before_violated","Any rounding to a nearest double of 53 bits (exponents unbounded); squares are rounded products and the square root is within half a unit in the last place. For numbers, results are between the values if the rounded fraction of the way is less than one; false (proved) otherwise: 2^53 - 1 counts as 2^53 after -1. False (proved): at the second position the result may be past the second value (-4 to -0.9) or zero (2^60 to 1).")
m("C144","partial","Glimpse.FloatSample.float_sample_near Glimpse.FloatSample.float_sample_inside Glimpse.FloatSample.float_sample_center Glimpse.FloatSample.float_line_near Glimpse.FloatSample.float_sample_flat_violated Glimpse.FloatSample.float_line_center_violated","Any rounding to a nearest double of 53 bits (exponents unbounded); no missing values (C78). scipy 1.4.1's RegularGridInterpolator and interp1d are modelled operation by operation, in the order of their source. False (proved): samples of a raster of ones are below one at (0.05, 0.05) of a cell and above one at (0.1, 0.2); in a raster of one row with cells 49 apart, the sample at the center of the cell with value 1 is less than 1.")
m("C145","proved","Glimpse.FloatCdf.float_match_cdf Glimpse.FloatCdf.float_match_cdf_exact Glimpse.FloatCdf.float_match_cdf_self Glimpse.FloatCdf.float_match_cdf_near Glimpse.FloatCdf.float_match_cdf_empty","Any rounding to a nearest double of 53 bits (exponents unbounded, so no overflow or underflow). numpy 1.19.5's interp is modelled operation by operation. float_match_cdf_near compares with the model without rounding of C52.")
m("C146","partial","Glimpse.FloatTimes.distance_self Glimpse.FloatTimes.distance_zero Glimpse.FloatTimes.distance_mono Glimpse.FloatTimes.distance_near Glimpse.FloatTimes.distance_seconds Glimpse.FloatTimes.match_equal Glimpse.FloatTimes.match_zero Glimpse.FloatTimes.match_near Glimpse.FloatTimes.match_seconds Glimpse.FloatTimes.match_none Glimpse.FloatTimes.match_maximum_violated Glimpse.FloatTimes.match_future_violated","Any rounding to a nearest double of 53 bits (exponents unbounded). CPython's datetime.timestamp is modelled for a clock whose offset to UTC is zero; one observer and one datetime at a time, as the code treats them. False (proved): a datetime in 2020 that is 0.2 seconds from an image is not matched with a maximum of 0.2 seconds. Outside of the range (proved): in the year 2242, an image a microsecond away is matched with a maximum of zero.")
m("C147","proved","Glimpse.FloatTimes.parse_matches Glimpse.FloatTimes.parse_zero Glimpse.FloatTimes.parse_seconds Glimpse.FloatTimes.parse_keeps Glimpse.FloatTimes.parse_maximum_violated","Any rounding to a nearest double of 53 bits (exponents unbounded); clock at UTC. The result with exact arithmetic is that of C34. Agreement with it holds only in the cases stated: with other maxima it may differ (proved): two datetimes become one and ValueError is raised when a datetime in 2020 is 0.2 seconds from an image and the maximum is 0.2 seconds.")
m("C148","proved","Glimpse.FloatCorrection.correction_near Glimpse.FloatCorrection.correction_nonpos Glimpse.FloatCorrection.correction_neg Glimpse.FloatCorrection.correction_zero Glimpse.FloatCorrection.correction_one Glimpse.FloatCorrection.correction_mono Glimpse.FloatCorrection.correction_mono_refraction Glimpse.FloatCorrection.correction_mono_radius Glimpse.FloatCorrection.corrections_spec","Any rounding to a nearest double of 53 bits (exponents unbounded, so no underflow: a correction at a tiny distance is not zero).")
