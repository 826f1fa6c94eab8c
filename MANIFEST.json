{
 "claims": [
  {
   "property": "C01",
   "status": "partial",
   "theorems": [
    "Glimpse.format_list_content",
    "Glimpse.format_list_raises_iff",
    "Glimpse.format_list_dtype",
    "Glimpse.format_list_length_violated"
   ],
   "note": "Exact result for every positive length and (non-empty input or default); an empty input without default stays empty (format_list_length_violated)."
  },
  {
   "property": "C02",
   "status": "partial",
   "theorems": [
    "Glimpse.format_list_argument_unchanged_violated",
    "Glimpse.format_list_argument_partial"
   ],
   "note": "False of the code: a caller's list is padded/repeated in place; proved when it is unchanged and that a second call never changes it again."
  },
  {
   "property": "C03",
   "status": "proved",
   "theorems": [
    "Glimpse.runs_unique",
    "Glimpse.boolean_split_runs",
    "Glimpse.boolean_split_circular"
   ],
   "note": ""
  },
  {
   "property": "C04",
   "status": "proved",
   "theorems": [
    "Glimpse.sorted_nearest_minimal",
    "Glimpse.sorted_nearest_singleton_violated"
   ],
   "note": "At least two elements; behaviour for one element shown separately."
  },
  {
   "property": "C52",
   "status": "proved",
   "theorems": [
    "Glimpse.compute_cdf_correct",
    "Glimpse.compute_cdf_quantiles",
    "Glimpse.match_cdf_monotone_bounded",
    "Glimpse.match_cdf_exact_at_quantile",
    "Glimpse.match_cdf_self"
   ],
   "note": ""
  },
  {
   "property": "C05",
   "status": "proved",
   "theorems": [
    "Glimpse.in_box_iff",
    "Glimpse.intersect_boxes_iff",
    "Glimpse.intersect_boxes_raises_iff"
   ],
   "note": ""
  },
  {
   "property": "C06",
   "status": "proved",
   "theorems": [
    "Glimpse.bounding_box_least"
   ],
   "note": ""
  },
  {
   "property": "C07",
   "status": "proved",
   "theorems": [
    "Glimpse.grid_axis_exact",
    "Glimpse.box_to_grid_points"
   ],
   "note": ""
  },
  {
   "property": "C08",
   "status": "proved",
   "theorems": [
    "Glimpse.ray_box_exact",
    "Glimpse.ray_box_interval",
    "Glimpse.ray_box_miss_iff",
    "Glimpse.ray_box_face_violated",
    "Glimpse.ray_box_face_false_hit"
   ],
   "note": "Any number of axes, zero components allowed except a first component of zero with the origin exactly on an x-face, where the code is wrong (the two counterexample theorems)."
  },
  {
   "property": "C53",
   "status": "partial",
   "theorems": [
    "Glimpse.clip_polyline_pieces_partial",
    "Glimpse.edge_box_enters",
    "Glimpse.edge_box_leaves",
    "Glimpse.clip_polyline_empty",
    "Glimpse.clip_polyline_exit_violated",
    "Glimpse.clip_polyline_face_violated"
   ],
   "note": "Full except two cases where the code is wrong, shown as counterexamples: exit lost when the last in-box vertex is where the line touches the boundary, entrance lost on an edge inside an x-face."
  },
  {
   "property": "C09",
   "status": "proved",
   "theorems": [
    "Glimpse.bresenham_line_near",
    "Glimpse.bresenham_line_ends",
    "Glimpse.bresenham_line_nodup_bbox"
   ],
   "note": ""
  },
  {
   "property": "C10",
   "status": "proved",
   "theorems": [
    "Glimpse.rasterize_into_cells",
    "Glimpse.rasterize_points_pairs",
    "Glimpse.rasterize_raises_iff",
    "Glimpse.rasterize_perm"
   ],
   "note": ""
  },
  {
   "property": "C11",
   "status": "partial",
   "theorems": [
    "Glimpse.select_datetimes_range",
    "Glimpse.select_datetimes_snap",
    "Glimpse.select_datetimes_single_violated"
   ],
   "note": "At least two datetimes when snapping; a single datetime with snap raises (select_datetimes_single_violated)."
  },
  {
   "property": "C12",
   "status": "proved",
   "theorems": [
    "Glimpse.datetime_range_exact",
    "Glimpse.datetime_range_zero_step"
   ],
   "note": ""
  },
  {
   "property": "C13",
   "status": "proved",
   "theorems": [
    "Glimpse.R_mul_transpose",
    "Glimpse.R_det",
    "Glimpse.R_eq_documented",
    "Glimpse.R_preserves_inner"
   ],
   "note": ""
  },
  {
   "property": "C14",
   "status": "proved",
   "theorems": [
    "Glimpse.Rprime_deriv"
   ],
   "note": ""
  },
  {
   "property": "C15",
   "status": "partial",
   "theorems": [
    "Glimpse.uv_to_xyz_to_uv",
    "Glimpse.uv_to_xyz_to_uv_ideal",
    "Glimpse.xyz_to_uv_to_xyz_ideal",
    "Glimpse.uv_to_xyz_to_uv_k1",
    "Glimpse.idealize_center",
    "Glimpse.uv_to_xyz_vector_depth_violated"
   ],
   "note": "The inverse property itself is proved for every camera, point and scalar depth (and for any lens where undistortion is exact); the documented vector depth always raises (uv_to_xyz_vector_depth_violated)."
  },
  {
   "property": "C16",
   "status": "proved",
   "theorems": [
    "Glimpse.xyz_to_uv_nan_iff",
    "Glimpse.directions_nan_iff",
    "Glimpse.uv_to_xyz_infront",
    "Glimpse.inframe_not_nan",
    "Glimpse.infront_correction_violated"
   ],
   "note": "infront ignores the elevation correction, so with one the two disagree (infront_correction_violated)."
  },
  {
   "property": "C17",
   "status": "proved",
   "theorems": [
    "Glimpse.fmm_read_write",
    "Glimpse.fmm_write_read",
    "Glimpse.cmm_read_write",
    "Glimpse.cmm_write_read",
    "Glimpse.mm_requires_sensor",
    "Glimpse.resize_keeps_mm",
    "Glimpse.resize_fraction_violated"
   ],
   "note": "Resizing keeps fmm and cmm even when the aspect ratio changes; only a forced fractional target size breaks it (resize_fraction_violated)."
  },
  {
   "property": "C18",
   "status": "proved",
   "theorems": [
    "Glimpse.resize_history_independent",
    "Glimpse.resize_one_restores",
    "Glimpse.runResizes_shape",
    "Glimpse.resize_factor_size",
    "Glimpse.resize_target_size_partial",
    "Glimpse.resize_target_half_violated",
    "Glimpse.resize_to_zero_violated",
    "Glimpse.reset_copy"
   ],
   "note": "For histories in which the image size stays positive (otherwise false: resize_to_zero_violated). The size reached for a target size: resize_target_size_partial and its counterexample."
  },
  {
   "property": "C19",
   "status": "partial",
   "theorems": [
    "Glimpse.distort_undistort_k1_partial",
    "Glimpse.undistort_distort_k1_partial",
    "Glimpse.k1_pos_unique",
    "Glimpse.undistort_k1_axis_violated"
   ],
   "note": "Exact for every k1 and every point off the vertical axis; points with x = 0 are all sent to the centre (undistort_k1_axis_violated). Uniqueness for k1 > 0 is proved without restriction."
  },
  {
   "property": "C20",
   "status": "proved",
   "theorems": [
    "Glimpse.oulu_fixed_is_solution",
    "Glimpse.oulu_solution_is_fixed",
    "Glimpse.undistort_none",
    "Glimpse.oulu_early_exit",
    "Glimpse.oulu_exit_first",
    "Glimpse.oulu_default_violated"
   ],
   "note": "Where the radial factor is non-zero. The default call does not report non-convergence: oulu_default_violated."
  },
  {
   "property": "C21",
   "status": "partial",
   "theorems": [
    "Glimpse.camera_rasterize_partial",
    "Glimpse.camera_rasterize_raises_iff"
   ],
   "note": "False as stated: raises exactly when an in-frame point is on the right or lower border; otherwise proved in full."
  },
  {
   "property": "C54",
   "status": "partial",
   "theorems": [
    "Glimpse.observer_gradient_partial",
    "Glimpse.observer_gradient_violated",
    "Glimpse.predictedXyz_unit"
   ],
   "note": "False as stated: the first camera's gradient is the true one times the ray length, the second camera's is not its derivative at all."
  },
  {
   "property": "C55",
   "status": "proved",
   "theorems": [
    "Glimpse.spherical_to_xyz_spec",
    "Glimpse.directionOf_unit",
    "Glimpse.xyz_to_spherical_to_xyz",
    "Glimpse.direction_to_spherical_to_xyz",
    "Glimpse.spherical_to_xyz_to_spherical"
   ],
   "note": ""
  },
  {
   "property": "C22",
   "status": "proved",
   "theorems": [
    "Glimpse.inbounds_xy_iff",
    "Glimpse.inbounds_vectors_agree",
    "Glimpse.rowcol_to_xy_center",
    "Glimpse.rowcol_to_xy_inbounds",
    "Glimpse.xy_to_rowcol_of_rowcol",
    "Glimpse.rowcol_to_xy_of_xy",
    "Glimpse.xy_to_rowcol_snap_of_rowcol",
    "Glimpse.idx_to_rowcol_of_rowcol",
    "Glimpse.idx_to_rowcol_raises",
    "Glimpse.rowcol_to_idx_of_idx",
    "Glimpse.rowcol_to_idx_returns_iff",
    "Glimpse.idx_to_rowcol_returns_iff",
    "Glimpse.uv_to_xy_of_xy",
    "Glimpse.xy_to_uv_of_uv",
    "Glimpse.uv_corners",
    "Glimpse.axis_centers_spec",
    "Glimpse.grid_XY_spec"
   ],
   "note": "In exact arithmetic; in double precision see C123, where it can be one cell off."
  },
  {
   "property": "C23",
   "status": "proved",
   "theorems": [
    "Glimpse.snap_centers_spec",
    "Glimpse.snap_ties",
    "Glimpse.snap_not_inbounds_border",
    "Glimpse.snap_edges_spec",
    "Glimpse.snap_both_spec",
    "Glimpse.snap_centers_idempotent",
    "Glimpse.snap_raises_iff",
    "Glimpse.snap_box_spec"
   ],
   "note": "In exact arithmetic; in double precision see C123, where it can be one cell off."
  },
  {
   "property": "C24",
   "status": "proved",
   "theorems": [
    "Glimpse.crop_extent_raises_iff",
    "Glimpse.crop_extent_spec",
    "Glimpse.crop_extent_none"
   ],
   "note": "In exact arithmetic; in double precision see C123, where it can be one cell off."
  },
  {
   "property": "C25",
   "status": "partial",
   "theorems": [
    "Glimpse.tiles_partition",
    "Glimpse.tiles_overlap",
    "Glimpse.tiles_overlap_cover",
    "Glimpse.tile_widths",
    "Glimpse.tile_exact",
    "Glimpse.tile_whole",
    "Glimpse.roundHalfEven_spec",
    "Glimpse.tiles_overlap_violated"
   ],
   "note": "Proved whenever the overlap is at most the tile size; with a larger overlap the statement is false (tiles_overlap_violated)."
  },
  {
   "property": "C26",
   "status": "partial",
   "theorems": [
    "Glimpse.grid_coordinates_fresh_partial",
    "Glimpse.grid_shift_spec",
    "Glimpse.grid_new_limits_refresh",
    "Glimpse.grid_from_centers",
    "Glimpse.grid_size_stale_violated",
    "Glimpse.grid_X_view_violated",
    "Glimpse.grid_matrices_shift_violated",
    "Glimpse.grid_int_x_stale_violated",
    "Glimpse.grid_default_shift_violated",
    "Glimpse.grid_from_X_two_columns_violated"
   ],
   "note": "False as stated: the size setter keeps coordinates, X may be a view of x, integer coordinates are not shifted. Proved for all histories avoiding these."
  },
  {
   "property": "C27",
   "status": "partial",
   "theorems": [
    "Glimpse.raster_fresh_partial",
    "Glimpse.raster_shift_partial",
    "Glimpse.raster_shift_dy_raises_violated",
    "Glimpse.raster_shift_double_violated",
    "Glimpse.raster_xlim_stale_violated",
    "Glimpse.raster_limits_stale_violated",
    "Glimpse.raster_shift_dz_violated"
   ],
   "note": "False as stated once an interpolator is cached; proved for all histories that change limits or shift in x, y only while none is."
  },
  {
   "property": "C28",
   "status": "proved",
   "theorems": [
    "Glimpse.data_extent_raises_iff",
    "Glimpse.data_extent_spec"
   ],
   "note": ""
  },
  {
   "property": "C29",
   "status": "partial",
   "theorems": [
    "Glimpse.nearest_spec",
    "Glimpse.nearest_extrapolate_spec",
    "Glimpse.interpolate_affine",
    "Glimpse.interpolate_missing",
    "Glimpse.interpolant_between",
    "Glimpse.interpolant_stored_extrapolate",
    "Glimpse.interpolant_stored_violated",
    "Glimpse.sigma_ge",
    "Glimpse.sigma_first"
   ],
   "note": "Proved for rasters on one grid, strictly between stored positions, and at stored positions with extrapolate=True; with the default extrapolate=False every stored position fails (interpolant_stored_violated)."
  },
  {
   "property": "C56",
   "status": "partial",
   "theorems": [
    "Glimpse.crop_to_data_spec",
    "Glimpse.crop_spec",
    "Glimpse.getitem_spec_partial",
    "Glimpse.getitem_minus_one_violated",
    "Glimpse.getitem_reverse_violated"
   ],
   "note": "crop and crop_to_data in full; indexing except negative integers (-1 always raises) and reversed selections of two cells."
  },
  {
   "property": "C57",
   "status": "partial",
   "theorems": [
    "Glimpse.raster_read_partial",
    "Glimpse.raster_read_out_raises",
    "Glimpse.raster_read_box_cached_violated",
    "Glimpse.raster_read_box_empty_violated"
   ],
   "note": "Proved for every history that does not read a box with caching before the array is cached; that case is wrong on every raster. Full resolution only (other cell sizes: C140)."
  },
  {
   "property": "C58",
   "status": "partial",
   "theorems": [
    "Glimpse.target_cell_size_violated",
    "Glimpse.target_cell_size_same_partial"
   ],
   "note": "False: a target k times coarser gives cells k times finer. Proved only when the size does not change."
  },
  {
   "property": "C31",
   "status": "proved",
   "theorems": [
    "Glimpse.Resample.drawIndexes_valid",
    "Glimpse.Resample.resampleParticles_spec"
   ],
   "note": "All four methods, all random numbers in [0, 1). Residual resampling uses numpy's binary search on a possibly unsorted, possibly non-finite array as it is implemented. In exact arithmetic; in double precision see C124, where an IndexError is possible."
  },
  {
   "property": "C32",
   "status": "partial",
   "theorems": [
    "Glimpse.Resample.systematic_count_partial",
    "Glimpse.Resample.systematic_zero_offset_violated",
    "Glimpse.Resample.stratified_count",
    "Glimpse.Resample.stratified_zero_weight",
    "Glimpse.Resample.systematic_zero_weight",
    "Glimpse.Resample.choice_zero_weight"
   ],
   "note": "Proved for every offset in (0, 1); for the offset 0, which np.random.random can return, a first particle of zero weight is drawn."
  },
  {
   "property": "C33",
   "status": "partial",
   "theorems": [
    "Glimpse.Resample.residual_count_partial",
    "Glimpse.Resample.residual_fraction_violated",
    "Glimpse.Resample.residual_fraction_violated_case"
   ],
   "note": "The floor part is proved. The fractional part is false: interior particles with less than one expected copy are never drawn once the integer parts sum to two or more."
  },
  {
   "property": "C34",
   "status": "proved",
   "theorems": [
    "Glimpse.Tracker.parse_datetimes_spec",
    "Glimpse.Tracker.parse_datetimes_raises_iff"
   ],
   "note": "Also complete: exactly the requested times with an image within maxdt are kept, and it raises exactly when fewer than two remain or the times are not monotone."
  },
  {
   "property": "C35",
   "status": "proved",
   "theorems": [
    "Glimpse.Tracker.match_datetimes_spec"
   ],
   "note": "Timestamps are exact integers (no daylight saving time)."
  },
  {
   "property": "C36",
   "status": "partial",
   "theorems": [
    "Glimpse.Tracker.track_window",
    "Glimpse.Tracker.track_steps",
    "Glimpse.Tracker.track_first_last",
    "Glimpse.Tracker.track_window_unobserved_violated",
    "Glimpse.Tracker.track_unmatched_observer_violated"
   ],
   "note": "Proved for every completed track with at least one image, over abstract particles, templates and likelihoods. False for a track without any image (all times are recorded), and an observer without matching images makes the track fail."
  },
  {
   "property": "C37",
   "status": "partial",
   "theorems": [
    "Glimpse.Tracker.process_frame",
    "Glimpse.Tracker.track_all_independent",
    "Glimpse.Tracker.track_single",
    "Glimpse.Tracker.track_parallel",
    "Glimpse.Tracker.track_all_unbuildable_violated"
   ],
   "note": "Proved for all tasks and worker states, given each track's random numbers; false for exceptions whose class cannot be built from one message."
  },
  {
   "property": "C38",
   "status": "partial",
   "theorems": [
    "Glimpse.Motion.initial_exact",
    "Glimpse.Motion.initial_spread",
    "Glimpse.Motion.cartesian_step",
    "Glimpse.Motion.cartesian_compose",
    "Glimpse.Motion.cartesian_reverse",
    "Glimpse.Motion.cartesian_steps",
    "Glimpse.Motion.base_steps",
    "Glimpse.Motion.cylindrical_zero_acceleration",
    "Glimpse.Motion.cylindrical_radial",
    "Glimpse.Motion.cylindrical_turn_speed",
    "Glimpse.Motion.cylindrical_rest_violated",
    "Glimpse.Motion.cylindrical_default_violated",
    "Glimpse.Motion.timeUnits_add",
    "Glimpse.Motion.timeUnits_scale"
   ],
   "note": "Proved for Cartesian motion (any constant acceleration) and moving particles in cylindrical motion; a resting particle in cylindrical motion becomes NaN. Real numbers."
  },
  {
   "property": "C39",
   "status": "proved",
   "theorems": [
    "Glimpse.Motion.tangent_step_height",
    "Glimpse.Motion.tangent_cartesian_height",
    "Glimpse.Motion.tangent_cylindrical_height",
    "Glimpse.Motion.tangent_horizontal"
   ],
   "note": "Any DEM, any sequence of steps; for cylindrical tangent motion as long as the particle never stops (then it is NaN)."
  },
  {
   "property": "C40",
   "status": "partial",
   "theorems": [
    "Glimpse.Observer.split_breaks",
    "Glimpse.Observer.split_int",
    "Glimpse.Observer.split_int_exact",
    "Glimpse.Observer.subset_spec",
    "Glimpse.Observer.mk_spec",
    "Glimpse.Observer.index_spec",
    "Glimpse.Observer.split_int_violated",
    "Glimpse.Observer.split_int_violated'"
   ],
   "note": "Proved in full for datetime breaks. For a number of parts: proved when the length is a multiple of n microseconds; otherwise images at the end can be lost (split_int says exactly which)."
  },
  {
   "property": "C59",
   "status": "partial",
   "theorems": [
    "Glimpse.Resample.systematic_total",
    "Glimpse.Resample.resample_mean_squares",
    "Glimpse.Resample.resample_mean_violated",
    "Glimpse.Resample.resample_mean_equal_partial"
   ],
   "note": "False: the weights are kept after resampling and so applied twice (resample_mean_squares). Proved for equal weights."
  },
  {
   "property": "C60",
   "status": "proved",
   "theorems": [
    "Glimpse.Tiles.template_spec",
    "Glimpse.Tiles.search_spec"
   ],
   "note": "Positions only (pixel values, cv2.matchTemplate and the spline are not modelled); rational coordinates."
  },
  {
   "property": "C30",
   "status": "proved",
   "theorems": [
    "Glimpse.Convert.agisoft_from_exact",
    "Glimpse.Convert.agisoft_to_exact",
    "Glimpse.Convert.agisoft_round_trip",
    "Glimpse.Convert.opencv_from_exact",
    "Glimpse.Convert.opencv_to_exact",
    "Glimpse.Convert.opencv_round_trip",
    "Glimpse.Convert.opencv_arrays",
    "Glimpse.Convert.opencv_matrix",
    "Glimpse.Convert.matlab_from_exact",
    "Glimpse.Convert.matlab_to_exact",
    "Glimpse.Convert.matlab_round_trip",
    "Glimpse.Convert.photomodeler_from_exact",
    "Glimpse.Convert.photomodeler_to_exact",
    "Glimpse.Convert.photomodeler_round_trip",
    "Glimpse.Convert.photomodeler_no_sensor",
    "Glimpse.Convert.converter_residuals_zero",
    "Glimpse.Convert.agisoft_k4_not_exact",
    "Glimpse.Convert.converted_position"
   ],
   "note": "Real numbers; file readers and the least-squares optimization of inexact conversions are not modelled."
  },
  {
   "property": "C43",
   "status": "partial",
   "theorems": [
    "Glimpse.ImageRead.image_read_partial",
    "Glimpse.ImageRead.image_read_then_cached",
    "Glimpse.ImageRead.run_cached",
    "Glimpse.ImageRead.round_half_even",
    "Glimpse.ImageRead.image_read_box_resized_violated",
    "Glimpse.ImageRead.image_read_stale_size_violated"
   ],
   "note": "Proved for every file, box and history of reads, resizes and clearings, except for an uncached read of a box while the camera size differs from the cached (or file) size: there the code returns an array of the whole camera image's size, proved as a violation. GDAL is a parameter with stated guarantees."
  },
  {
   "property": "C41",
   "status": "partial",
   "theorems": [
    "Glimpse.Svg.svg_polyline_round_trip",
    "Glimpse.Svg.svg_polygon_round_trip_partial",
    "Glimpse.Svg.svg_polygon_point_violated",
    "Glimpse.Svg.svg_line_round_trip",
    "Glimpse.Svg.svg_circle_round_trip",
    "Glimpse.Svg.bbox_spec",
    "Glimpse.Svg.svg_rect_round_trip",
    "Glimpse.Svg.svg_rect_of_rect",
    "Glimpse.Svg.svg_viewbox_round_trip",
    "Glimpse.Svg.svg_path_round_trip_partial",
    "Glimpse.Svg.svg_path_point_violated",
    "Glimpse.Svg.pyFmt_faithful",
    "Glimpse.Svg.intFmt_faithful"
   ],
   "note": "Proved at the level of characters for every list of points and every numeral format that reads back what it writes (proved for int, assumed of float repr). False for paths of fewer than two points (what is written cannot be read) and for polygons of one point; both proved as violations."
  },
  {
   "property": "C42",
   "status": "partial",
   "theorems": [
    "Glimpse.Svg.svg_transform_listed_order",
    "Glimpse.Svg.svg_transform_nested",
    "Glimpse.Svg.svg_transform_reversed",
    "Glimpse.Svg.svg_transform_standard_partial",
    "Glimpse.Svg.svg_transform_unknown",
    "Glimpse.Svg.svg_transform_as_matrix",
    "Glimpse.Svg.svg_transform_order_violated"
   ],
   "note": "The matrix forms are proved; the order is that of the text, the reverse of the SVG standard's (proved), so the claim about order holds only for functions that commute."
  },
  {
   "property": "C61",
   "status": "partial",
   "theorems": [
    "Glimpse.Svg.svg_path_read_partial",
    "Glimpse.Svg.svg_path_no_start",
    "Glimpse.Svg.svg_path_two_rings_violated",
    "Glimpse.Svg.svg_path_blank_violated"
   ],
   "note": "Proved from the characters up for every path starting with a move whose later subpaths are not closed. False for two closed subpaths and for a text that starts with a blank (proved)."
  },
  {
   "property": "C62",
   "status": "proved",
   "theorems": [
    "Glimpse.Svg.svg_read_spec",
    "Glimpse.Svg.svg_group_lookup",
    "Glimpse.Svg.svg_image_frame",
    "Glimpse.Svg.svg_read_imgsz_needs_image"
   ],
   "note": "Transforms in the code's order (see C42); images of zero width or height excluded; XML parsing and namespaces not modelled."
  },
  {
   "property": "C44",
   "status": "partial",
   "theorems": [
    "Glimpse.Cams.parse_params_partial",
    "Glimpse.Cams.parse_params_false_violated",
    "Glimpse.Cams.parse_params_none_bounds_violated",
    "Glimpse.Cams.parse_params_beyond_violated",
    "Glimpse.Cams.parse_params_indices",
    "Glimpse.Cams.parse_params_bounds_number"
   ],
   "note": "Proved for selections by True, indices within the attribute, and None without bounds. False where the code differs (each proved): False selects element 0; (None, min, max) writes bounds of the attribute before it or raises UnboundLocalError; an index beyond the attribute selects an element of the next. What every list of integer indices selects or raises, and that bounds of the wrong number raise ValueError, is proved (parse_params_indices, parse_params_bounds_number)."
  },
  {
   "property": "C45",
   "status": "partial",
   "theorems": [
    "Glimpse.Cams.set_cameras_partial",
    "Glimpse.Cams.set_cameras_no_group_violated",
    "Glimpse.Cams.test_overlap_sound",
    "Glimpse.Cams.reset_restores_saved",
    "Glimpse.Cams.reset_restores_initial",
    "Glimpse.Cams.predicted_restores_partial",
    "Glimpse.Cams.predicted_raises_violated",
    "Glimpse.Cams.slots_nodup"
   ],
   "note": "Proved for every layout that passes the code's overlap check. False (proved) for cameras in no group, whose own parameters are never written, and for predicted(params) that raises, which leaves the cameras changed."
  },
  {
   "property": "C46",
   "status": "proved",
   "theorems": [
    "Glimpse.Cams.sparsity_sound",
    "Glimpse.Cams.sparsity_iff"
   ],
   "note": "For every layout and every residual function that depends only on the control's cameras."
  },
  {
   "property": "C47",
   "status": "proved",
   "theorems": [
    "Glimpse.Ransac.ransac_spec",
    "Glimpse.Ransac.ransac_raises_iff",
    "Glimpse.Ransac.ransac_samples_distinct",
    "Glimpse.Ransac.ransac_samples_complete",
    "Glimpse.Ransac.ransac_samples_zero_violated",
    "Glimpse.Ransac.ransac_min_inliers_violated"
   ],
   "note": "For every model (fit may fail or raise) and every sequence of shuffles. The number of combinations is exact (the code estimates it by lgamma). With n = 0 and iterations > 1 the sample generator never ends (proved), so ransac does not return."
  },
  {
   "property": "C48",
   "status": "partial",
   "theorems": [
    "Glimpse.Matches.matches_filter_partial",
    "Glimpse.Matches.matches_filter_at_most",
    "Glimpse.Matches.rotation_filter_violated",
    "Glimpse.Matches.rotation_xyz_filter_raises_violated",
    "Glimpse.Matches.rotation_xy_only_violated",
    "Glimpse.Matches.filter_zero_violated",
    "Glimpse.Matches.matches_new_ok_iff"
   ],
   "note": "Proved for Matches and for RotationMatchesXY without image coordinates. False (proved) for objects with both image and camera coordinates, whose camera coordinates are never filtered, for RotationMatchesXYZ (raises), and for limits equal to zero, which are ignored."
  },
  {
   "property": "C49",
   "status": "proved",
   "theorems": [
    "Glimpse.Kp.drop_images_spec",
    "Glimpse.Kp.drop_images_keypoints_violated"
   ],
   "note": "For every matrix of matches that refer to existing images. In-memory keypoints are not re-indexed (drop_images_keypoints_violated), which the property does not claim."
  },
  {
   "property": "C50",
   "status": "partial",
   "theorems": [
    "Glimpse.Kp.match_pairs_exact",
    "Glimpse.Kp.match_pairs_imgs_partial",
    "Glimpse.Kp.match_pairs_imgs_violated",
    "Glimpse.Kp.match_matrix_aligned",
    "Glimpse.Kp.match_matrix_shape",
    "Glimpse.Kp.match_matrix_shape_violated"
   ],
   "note": "Proved without imgs, for every list of times, maxdt and seq. With imgs only pairs whose second image is listed are matched (proved), against the documentation. The documented (n, n) shape of the matrix is never produced (proved)."
  },
  {
   "property": "C51",
   "status": "partial",
   "theorems": [
    "Glimpse.Kp.keypoints_all_files",
    "Glimpse.Kp.keypoints_second_run",
    "Glimpse.Kp.keypoints_resume_partial",
    "Glimpse.Kp.keypoints_torn_raises_violated",
    "Glimpse.Kp.keypoints_torn_kept_violated",
    "Glimpse.Kp.keypoints_torn_reachable",
    "Glimpse.Kp.keypoints_overwrite_partial",
    "Glimpse.Kp.keypoints_overwrite_file_violated",
    "Glimpse.Kp.keypoints_overwrite_memory_violated",
    "Glimpse.Kp.keypoints_returned"
   ],
   "note": "Proved for any number of interruptions between files, under any schedule. False (proved) for a crash inside the writing of a file, and for overwrite=True when keypoints exist in exactly one of file and memory."
  },
  {
   "property": "C63",
   "status": "partial",
   "theorems": [
    "Glimpse.Kp.match_file_injective_partial",
    "Glimpse.Kp.match_file_injective_length_partial",
    "Glimpse.Kp.match_file_collision_violated",
    "Glimpse.Kp.match_files_distinct_partial",
    "Glimpse.Kp.match_files_resume",
    "Glimpse.Kp.match_files_shared_violated"
   ],
   "note": "Proved when image names have no hyphen or equal length. False in general: two pairs can share a file name, and then the second pair gets the matches of the first."
  },
  {
   "property": "C64",
   "status": "partial",
   "theorems": [
    "Glimpse.Kp.matches_per_image_total",
    "Glimpse.Kp.images_per_image_total",
    "Glimpse.Kp.match_breaks_spec",
    "Glimpse.Kp.match_breaks_single",
    "Glimpse.Kp.match_breaks_min_violated"
   ],
   "note": "Counts and breaks proved; match_breaks with min_matches raises (proved) unless exactly one image has matches."
  },
  {
   "property": "C65",
   "status": "partial",
   "theorems": [
    "Glimpse.Cams.update_params_spec",
    "Glimpse.Cams.update_params_names",
    "Glimpse.Cams.initial_values_identity",
    "Glimpse.Cams.group_bounds_iff",
    "Glimpse.Cams.group_bounds_empty_violated",
    "Glimpse.Cams.default_bounds_violated"
   ],
   "note": "For every layout; the value given to lmfit is the current one. lmfit moves it into the bounds: a camera beyond the default bounds is then fit from another value (default_bounds_violated). Cameras whose bounds exclude each other give a group minimum above its maximum (proved), the empty intersection."
  },
  {
   "property": "C66",
   "status": "partial",
   "theorems": [
    "Glimpse.Cams.fit_restores_partial",
    "Glimpse.Cams.fit_iterations_partial",
    "Glimpse.Cams.fit_iterations_chain",
    "Glimpse.Cams.fit_iterations_violated",
    "Glimpse.Cams.fit_raises_violated",
    "Glimpse.Cams.fit_saved",
    "Glimpse.Cams.fit_iteration_groups_violated",
    "Glimpse.Cams.fit_iteration_other_groups_violated"
   ],
   "note": "Proved for every optimizer (an arbitrary interaction tree of evaluations) when fit returns and no iterations are used. False (proved) if residuals raise, and with iterations when cameras changed since the last save; the iterations also ignore the model's groups."
  },
  {
   "property": "C67",
   "status": "proved",
   "theorems": [
    "Glimpse.Cams.weights_spec",
    "Glimpse.Cams.weights_scale",
    "Glimpse.Cams.weights_equal",
    "Glimpse.Cams.weights_none_iff"
   ],
   "note": "Exact arithmetic over any ordered field."
  },
  {
   "property": "C68",
   "status": "partial",
   "theorems": [
    "Glimpse.Cams.sparsity_rows_partial",
    "Glimpse.Cams.sparsity_rows_bool_violated",
    "Glimpse.Cams.fit_mask_rows"
   ],
   "note": "Proved for integer indices; false for boolean indices (proved)."
  },
  {
   "property": "C69",
   "status": "partial",
   "theorems": [
    "Glimpse.Controls.controls_keep_position",
    "Glimpse.Controls.controls_untouched",
    "Glimpse.Controls.lines_merged",
    "Glimpse.Controls.lines_uv_shared_violated",
    "Glimpse.Controls.rotation_resize_violated",
    "Glimpse.Controls.to_type_violated"
   ],
   "note": "Proved for every history of Points, Lines and Matches with positive image sizes in which no control is made from the uv attribute of a Lines object. False (proved) in that case, for the rotation matches (resize raises), and for matches converted with to_type between a resize of the camera and their own."
  },
  {
   "property": "C70",
   "status": "proved",
   "theorems": [
    "Glimpse.Controls.arrays_kept"
   ],
   "note": "For every history; arrays made by the program. (The uv attribute a Lines object makes for itself is changed in place, see C69.)"
  },
  {
   "property": "C71",
   "status": "partial",
   "theorems": [
    "Glimpse.Interp.lines_predicted_nearest",
    "Glimpse.Interp.lines_predicted_raises",
    "Glimpse.Interp.lines_predicted_returns",
    "Glimpse.Interp.lines_in_front",
    "Glimpse.Interp.lines_out_of_view",
    "Glimpse.Interp.lines_short_violated",
    "Glimpse.Interp.lines_in_view"
   ],
   "note": "Proved for all projected lines. False (proved) for lines shorter than half the target spacing, which lose all their points. Camera projection is a parameter."
  },
  {
   "property": "C72",
   "status": "partial",
   "theorems": [
    "Glimpse.Interp.interpolate_line_xi",
    "Glimpse.Interp.cumulative_spec",
    "Glimpse.Interp.interpolate_line_fill",
    "Glimpse.Interp.interpolate_line_n",
    "Glimpse.Interp.interpolate_line_dx_exact",
    "Glimpse.Interp.interpolate_line_dx_count",
    "Glimpse.Interp.interpolate_line_decreasing",
    "Glimpse.Interp.interpolate_line_dx_short_violated",
    "Glimpse.Interp.interpolate_line_dx_spacing_violated",
    "Glimpse.Interp.interpolate_line_fill_decreasing_violated"
   ],
   "note": "Proved for increasing distances, given distances or numbers of points, and spacings that divide the length. False (proved): other spacings (short lines get no points, spacing up to 1.5 times too large) and fill values of decreasing distances (exchanged)."
  },
  {
   "property": "C73",
   "status": "partial",
   "theorems": [
    "Glimpse.Exif.number_exact",
    "Glimpse.Exif.number_absent",
    "Glimpse.Exif.integers_exact",
    "Glimpse.Exif.parse_tag_other",
    "Glimpse.Exif.parse_tag_pair_violated",
    "Glimpse.Exif.datetime_exact",
    "Glimpse.Exif.datetime_subsec",
    "Glimpse.Exif.datetime_raises",
    "Glimpse.Exif.datetime_nonexistent"
   ],
   "note": "Proved for all values of the properties of Exif and for all dates. False (proved) of parse_tag for tags that store two integers that are not a rational (returned as a quotient) or two rationals (raises). Floating-point division is modelled as exact."
  },
  {
   "property": "C74",
   "status": "proved",
   "theorems": [
    "Glimpse.Exif.dump_group_exact",
    "Glimpse.Exif.dump_ok_iff",
    "Glimpse.Exif.dump_exact",
    "Glimpse.Exif.dump_error"
   ],
   "note": "Codes of piexif are a parameter (assumed distinct within a group); the encoding to bytes by piexif is not modelled."
  },
  {
   "property": "C75",
   "status": "proved",
   "theorems": [
    "Glimpse.Tracks.endpoints_one",
    "Glimpse.Tracks.endpoints_exact",
    "Glimpse.Tracks.endpoints_raises",
    "Glimpse.Tracks.success_exact"
   ],
   "note": ""
  },
  {
   "property": "C76",
   "status": "partial",
   "theorems": [
    "Glimpse.MatchKp.match_keypoints_partial",
    "Glimpse.MatchKp.match_keypoints_few",
    "Glimpse.MatchKp.brute_nearest",
    "Glimpse.MatchKp.match_keypoints_none_violated",
    "Glimpse.MatchKp.match_keypoints_equal_violated",
    "Glimpse.MatchKp.match_keypoints_single_violated",
    "Glimpse.MatchKp.match_keypoints_mask_violated"
   ],
   "note": "Proved when no masks are given, second best distances are not zero and, with max_distance, some pair passes the other tests. False (proved) otherwise: with max_distance and no pairs it raises or returns flat arrays; identical second best descriptors raise ZeroDivisionError; single keypoints give no matches when ratios are asked; masks raise and are not transposed for the cross check. The descriptor matcher (OpenCV) is a parameter, assumed exact."
  },
  {
   "property": "C77",
   "status": "partial",
   "theorems": [
    "Glimpse.Circle.circle_near",
    "Glimpse.Circle.circle_zero",
    "Glimpse.Circle.ring_connected",
    "Glimpse.Circle.circle_connected_violated",
    "Glimpse.Circle.fill_circle_inside",
    "Glimpse.Circle.fill_circle_zero",
    "Glimpse.Circle.fill_circle_violated",
    "Glimpse.Circle.fill_circle_flipped_violated"
   ],
   "note": "Proved: all pixels are within one pixel of the circle; fill_circle changes only pixels inside. False (proved): the returned path is not connected (diagonal steps of two quadrants are removed), so fill_circle leaves cells inside unfilled; raises for rasters whose x decreases."
  },
  {
   "property": "C78",
   "status": "partial",
   "theorems": [
    "Glimpse.Sample.sample_linear_partial",
    "Glimpse.Sample.sample_nearest_partial",
    "Glimpse.Sample.sample_raises",
    "Glimpse.Sample.around_exists",
    "Glimpse.Sample.sample_center",
    "Glimpse.Sample.sample_plane",
    "Glimpse.Sample.sample_missing_linear",
    "Glimpse.Sample.sample_missing_nearest",
    "Glimpse.Sample.sample_missing_raises",
    "Glimpse.Sample.sample_missing_none",
    "Glimpse.Sample.used_exists",
    "Glimpse.Sample.sample_int_fill_violated",
    "Glimpse.Sample.sample_center_missing_violated"
   ],
   "note": "Proved for fill values that are floating-point numbers (or none), for all rasters: with missing cells, exactly which samples are missing is proved (sample_missing_linear, sample_missing_nearest). False (proved) for integer fill values, which truncate all samples to integers, and at the centre of a cell next to a missing one (sample_center_missing_violated): its own value is not returned. The interval search and blending of scipy 1.4.1 are modelled; arithmetic is exact."
  },
  {
   "property": "C79",
   "status": "partial",
   "theorems": [
    "Glimpse.Sample.sample_grid_partial",
    "Glimpse.Sample.sample_grid_raises",
    "Glimpse.Sample.sample_grid_unchanged_partial",
    "Glimpse.Sample.sample_grid_error_violated",
    "Glimpse.Sample.sample_grid_shape_violated",
    "Glimpse.Sample.sample_grid_cell_violated",
    "Glimpse.Sample.sample_grid_low_violated"
   ],
   "note": "Proved: shape, bounds, fill values, and the raster unchanged when it returns. False (proved): if the spline raises, missing cells stay replaced by the lowest number of the type; rasters with one row, column or cell give arrays of another shape; values below the lowest cell are returned as missing. The spline of scipy is a parameter."
  },
  {
   "property": "C80",
   "status": "proved",
   "theorems": [
    "Glimpse.Sample.gradient_plane",
    "Glimpse.Sample.gradient_quadratic",
    "Glimpse.Sample.gradient_raises"
   ],
   "note": "Arithmetic is exact."
  },
  {
   "property": "C81",
   "status": "partial",
   "theorems": [
    "Glimpse.Terrain.inCell_iff",
    "Glimpse.Terrain.inCell_exists",
    "Glimpse.Terrain.rasterize_partial",
    "Glimpse.Terrain.rasterize_empty_violated",
    "Glimpse.Terrain.rasterize_integer_violated"
   ],
   "note": "Proved: means of points per cell, points outside ignored. False (proved): pixels without points keep the values of the raster; rasters of integers truncate the means."
  },
  {
   "property": "C82",
   "status": "partial",
   "theorems": [
    "Glimpse.Terrain.horizon_point_spec",
    "Glimpse.Terrain.horizon_partial",
    "Glimpse.Terrain.horizon_outside_violated",
    "Glimpse.Terrain.horizon_missing_violated",
    "Glimpse.Terrain.horizon_sector_violated"
   ],
   "note": "Proved from inside the raster if each line has a cell that is not missing. False (proved): raises from outside; raises if one line is empty or all missing; sectors of headings are joined as if they went around. The ends of the rays are given (intersect_rays_box is a property of its own)."
  },
  {
   "property": "C83",
   "status": "partial",
   "theorems": [
    "Glimpse.Terrain.viewshed_length",
    "Glimpse.Terrain.viewshed_visible_partial",
    "Glimpse.Terrain.viewshed_missing",
    "Glimpse.Terrain.viewshed_hidden_partial",
    "Glimpse.Terrain.viewshed_flat",
    "Glimpse.Terrain.viewshed_own_violated",
    "Glimpse.Terrain.viewshed_single_violated"
   ],
   "note": "Proved without elevation correction for any periodic interpolation between ring values (np.interp is a parameter: results between two values, missing only if one is). Missing: exact visibility by line of sight (the code interpolates, so it is not exact). False (proved): cells nearer than half a cell width are not visible; a raster wholly within that distance is all visible, even missing cells."
  },
  {
   "property": "C84",
   "status": "partial",
   "theorems": [
    "Glimpse.Undistort.regula_falsi_partial",
    "Glimpse.Undistort.approx_solution",
    "Glimpse.Undistort.regula_falsi_axis_violated",
    "Glimpse.Undistort.regula_falsi_none"
   ],
   "note": "Proved for every array of points: each result is the false-position approximation of its own coordinate, at the first iteration within the tolerance, at the last iteration, or where the next step is undefined. False (proved) for points on an axis through the principal point of a camera without tangential distortion: half of the coordinate is returned. Convergence is not claimed. Zero iterations raise UnboundLocalError (proved)."
  },
  {
   "property": "C85",
   "status": "partial",
   "theorems": [
    "Glimpse.Undistort.lookup_exact",
    "Glimpse.Undistort.lookup_barrel_violated"
   ],
   "note": "Exactness at the table's coordinates for cameras whose distortion is injective on the table; scipy's griddata is a parameter assumed exact at nodes and missing outside the hull. False (proved) for cameras with barrel distortion: coordinates at the sides of the image are missing."
  },
  {
   "property": "C86",
   "status": "partial",
   "theorems": [
    "Glimpse.Undistort.reversible_iff",
    "Glimpse.Undistort.reversible_false",
    "Glimpse.Undistort.reversible_true_violated"
   ],
   "note": "Proved: the answer is monotonicity on the two central axes; a false answer is right for radial polynomial distortion. False (proved): a true answer does not exclude two points with the same distortion (diagonals are farther out than the axes)."
  },
  {
   "property": "C87",
   "status": "partial",
   "theorems": [
    "Glimpse.View.grid_pixels",
    "Glimpse.View.edges_partial",
    "Glimpse.View.edges_default",
    "Glimpse.View.edges_tall_violated",
    "Glimpse.View.edges_wide_violated"
   ],
   "note": "Proved for steps up to the sides' lengths. False (proved) for longer steps: raises, or leaves out the right side."
  },
  {
   "property": "C88",
   "status": "partial",
   "theorems": [
    "Glimpse.View.viewbox_partial",
    "Glimpse.View.viewbox_tight",
    "Glimpse.View.viewpoly_partial",
    "Glimpse.View.viewpoly_k1_partial",
    "Glimpse.View.viewbox_distorted_violated",
    "Glimpse.View.viewpoly_correction_violated"
   ],
   "note": "Proved for cameras without lens distortion (viewpoly: also with first-order radial distortion; without elevation correction). False (proved): with first-order distortion and an odd number of rows, the box of a camera that looks north misses what it sees in the middle of the right image edge; with elevation correction, the corners of viewpoly are not seen at the image edges in the row of the principal point."
  },
  {
   "property": "C89",
   "status": "partial",
   "theorems": [
    "Glimpse.CamJson.camera_refused_iff",
    "Glimpse.CamJson.camera_attributes",
    "Glimpse.CamJson.camera_millimeters",
    "Glimpse.CamJson.camera_cmm_violated"
   ],
   "note": "Proved for all arguments without empty lists. False (proved): a single principal point offset in mm applies to both directions when the camera is made, but only to x when set later or given in pixels."
  },
  {
   "property": "C90",
   "status": "partial",
   "theorems": [
    "Glimpse.CamJson.json_roundtrip_partial",
    "Glimpse.CamJson.json_roundtrip_default",
    "Glimpse.CamJson.json_correction_violated",
    "Glimpse.CamJson.json_override",
    "Glimpse.CamJson.text_roundtrip_partial",
    "Glimpse.CamJson.from_text_invalid"
   ],
   "note": "Proved for the default attributes and the sensor size, in any selection with image size and focal length, for cameras without NaN, also through the text of the file with any indent and flat arrays (assuming that float(repr(x)) is x). False (proved) for the attribute correction: reading raises."
  },
  {
   "property": "C91",
   "status": "partial",
   "theorems": [
    "Glimpse.JsonText.flat_edit",
    "Glimpse.JsonText.flat_same_partial",
    "Glimpse.JsonText.flat_none",
    "Glimpse.JsonText.flat_array",
    "Glimpse.JsonText.flat_objects",
    "Glimpse.JsonText.flat_strings_violated",
    "Glimpse.JsonText.flat_indent_violated",
    "Glimpse.JsonText.flat_nested_violated",
    "Glimpse.Json.flat_round_trip_partial"
   ],
   "note": "Proved for texts whose strings have no whitespace and no commas, and (one line) for arrays without nesting, with the default separators. False (proved): strings in arrays lose whitespace and get spaces after commas; without indent it raises; nested arrays stay on several lines."
  },
  {
   "property": "C92",
   "status": "proved",
   "theorems": [
    "Glimpse.JsonText.strip_all",
    "Glimpse.JsonText.strip_some",
    "Glimpse.JsonText.strip_directory",
    "Glimpse.JsonText.strip_collision_violated"
   ],
   "note": "That two images can have the same name (proved) is not excluded by the property; it matters for files of results named after images."
  },
  {
   "property": "C93",
   "status": "partial",
   "theorems": [
    "Glimpse.Dem.project_last_tile_wins",
    "Glimpse.Dem.project_dem_partial",
    "Glimpse.Dem.project_dem_serial",
    "Glimpse.Dem.project_raises_iff",
    "Glimpse.Dem.tile_scale_limits",
    "Glimpse.Dem.tile_scale_exact",
    "Glimpse.Dem.project_depth_scaled_violated",
    "Glimpse.Dem.project_args",
    "Glimpse.Dem.default_mask_draws",
    "Glimpse.Dem.project_seam_violated"
   ],
   "note": "Proved: the mean of the last tile with a cell in the pixel, for any order of arrival; equal to the mean of all cells if no pixel is shared by tiles. False (proved): pixels shared by tiles keep only the last tile's mean; a cell exactly on the right or lower border raises; depth maps with tile scale not 1 raise. Zoom (scipy) is an arbitrary function."
  },
  {
   "property": "C94",
   "status": "partial",
   "theorems": [
    "Glimpse.Filt.normalize_mean_std",
    "Glimpse.Filt.normalize_affine",
    "Glimpse.Filt.normalize_constant_violated",
    "Glimpse.Filt.extract_tile_brightness",
    "Glimpse.Filt.extract_tile_highpass",
    "Glimpse.match_cdf_ranks",
    "Glimpse.Filt.shift_tile",
    "Glimpse.Filt.shift_tile_argument_violated"
   ],
   "note": "Proved over the reals, for any low-pass filter. False (proved): a constant tile becomes NaN, and shift_tile overwrites its argument. Splines (scipy) are an arbitrary function."
  },
  {
   "property": "C95",
   "status": "partial",
   "theorems": [
    "Glimpse.Filt.gaussian_masked",
    "Glimpse.Filt.gaussian_excluded",
    "Glimpse.Filt.gaussian_full_mask",
    "Glimpse.Filt.gaussian_missing",
    "Glimpse.Filt.gaussian_integer_violated",
    "Glimpse.Filt.maximum_masked",
    "Glimpse.Filt.maximum_fill_partial",
    "Glimpse.Filt.maximum_fill_violated",
    "Glimpse.Filt.fill_crevasses_bounds"
   ],
   "note": "Proved for floating-point arrays and any kernel of non-negative weights. False (proved) for arrays of integers (weights truncated) and for fill in unsigned arrays. Weights of the Gaussian (scipy) are arbitrary."
  },
  {
   "property": "C96",
   "status": "partial",
   "theorems": [
    "Glimpse.Svg.write_content",
    "Glimpse.Svg.write_text",
    "Glimpse.Svg.write_layout_partial",
    "Glimpse.Svg.write_layout_violated",
    "Glimpse.Svg.write_indent_text_violated",
    "Glimpse.Svg.merge_get",
    "Glimpse.Svg.svg_elem",
    "Glimpse.Svg.g_elem",
    "Glimpse.Svg.path_elem",
    "Glimpse.Svg.image_elem",
    "Glimpse.Svg.svg_elem_one_size_violated"
   ],
   "note": "Content is kept for all documents. Layout proved where only last children have children; False (proved) in general: the element after a group is indented one level too little. Escaping by the XML library is not modelled."
  },
  {
   "property": "C97",
   "status": "partial",
   "theorems": [
    "Glimpse.Svg.strip_braces_none",
    "Glimpse.Svg.strip_braces_qualified",
    "Glimpse.Svg.strip_attrib_partial",
    "Glimpse.Svg.strip_children",
    "Glimpse.Svg.strip_collision_attr_violated",
    "Glimpse.Svg.strip_values_violated"
   ],
   "note": "Proved for attributes with different local names and values without braces. False (proved): colliding local names drop an attribute; braces in values are stripped too."
  },
  {
   "property": "C98",
   "status": "partial",
   "theorems": [
    "Glimpse.Cams.cameras_accepted_iff",
    "Glimpse.Cams.cameras_built",
    "Glimpse.Cams.group_args",
    "Glimpse.Cams.prune_controls",
    "Glimpse.Cams.cameras_layout_ok",
    "Glimpse.Cams.cameras_no_overlap_partial",
    "Glimpse.Cams.cameras_params_observed_partial",
    "Glimpse.Cams.cameras_overlap_negative_violated",
    "Glimpse.Cams.cameras_uncontrolled_negative_violated",
    "Glimpse.Cams.parse_mask_defaults"
   ],
   "note": "The equivalence is proved for all arguments. Consequences proved for indices that do not count from the end. False (proved): negative indices evade the checks of overlaps and of cameras without control. lmfit's own refusals are not modelled."
  },
  {
   "property": "C99",
   "status": "partial",
   "theorems": [
    "Glimpse.Cams.scale_c",
    "Glimpse.Cams.scale_imgsz",
    "Glimpse.Cams.scale_f",
    "Glimpse.Cams.scale_p",
    "Glimpse.Cams.scale_k_violated",
    "Glimpse.Cams.roll_rotates",
    "Glimpse.Cams.scale_roll",
    "Glimpse.Cams.scale_view_angle",
    "Glimpse.Cams.turn_pixels",
    "Glimpse.Cams.scale_view_edges",
    "Glimpse.Cams.scale_view_center_violated",
    "Glimpse.Cams.scale_xyz_violated",
    "Glimpse.Cams.scale_xyz_none",
    "Glimpse.Cams.scales_positive",
    "Glimpse.Cams.scale_k3_negative_violated",
    "Glimpse.Cams.build_scales",
    "Glimpse.Cams.default_bounds_keep_iff",
    "Glimpse.Cams.default_bounds_violated"
   ],
   "note": "Exact for principal point, image size, focal length, tangential distortion and roll (per degree). False (proved): radial coefficients (1/√2 pixel at the mean radius), position (grows with the root of the number of points), sign of k[3:6] with negative denominators, default bounds that exclude the camera's own values. The first two angles are exact on average over the image (a turn by n scales moves a point across its n pixels); at its center the scale moves a point by less than a pixel (proved)."
  },
  {
   "property": "C100",
   "status": "partial",
   "theorems": [
    "Glimpse.Convert.grid_points",
    "Glimpse.Convert.grid_cover",
    "Glimpse.Convert.grid_number",
    "Glimpse.Convert.grid_refused_iff",
    "Glimpse.Convert.converter_sizes",
    "Glimpse.Convert.grid_panorama_violated",
    "Glimpse.Convert.optimize_cam_spec",
    "Glimpse.Convert.optimize_cam_values",
    "Glimpse.Convert.optimize_xcam_spec",
    "Glimpse.Convert.optimize_xcam_zero_violated",
    "Glimpse.Convert.optimize_xcam_index_violated",
    "Glimpse.Convert.optimize_cam_raise_violated"
   ],
   "note": "Proved for all optimizers (interaction trees) that keep the number of values, and selections by True or lists. False (proved): optimize_xcam drops the index 0 and raises for any other single index; a panorama with few points is refused; a failed optimization leaves the camera changed."
  },
  {
   "property": "C101",
   "status": "partial",
   "theorems": [
    "Glimpse.Convert.agisoft_xml",
    "Glimpse.Convert.agisoft_refused",
    "Glimpse.Convert.num_tokens",
    "Glimpse.Convert.opencv_xml",
    "Glimpse.Convert.opencv_xml_raises",
    "Glimpse.Convert.data_text_first",
    "Glimpse.Convert.data_text_none",
    "Glimpse.Convert.opencv_exponent_violated",
    "Glimpse.Convert.matlab_report",
    "Glimpse.Convert.matlab_suffix_violated",
    "Glimpse.Convert.photomodeler_report",
    "Glimpse.Convert.photomodeler_any_text_violated"
   ],
   "note": "Proved for every text around entries of the documented form, with the regular expressions modelled by a backtracking matcher; float() of a numeral is a parameter. False (proved): other texts give PhotoModeler cameras of zeros, a Matlab variable whose name ends in a key is read instead, capital exponents split OpenCV numerals."
  },
  {
   "property": "C102",
   "status": "proved",
   "theorems": [
    "Glimpse.Ransac.polyval_eq_sum",
    "Glimpse.Ransac.polynomial_model",
    "Glimpse.Ransac.polynomial_index_error",
    "Glimpse.Ransac.polyval_unique",
    "Glimpse.Ransac.polyfit_exact",
    "Glimpse.Ransac.ransac_polynomial",
    "Glimpse.Ransac.ransac_polynomial_few_outliers",
    "Glimpse.Ransac.least_squares_exists"
   ],
   "note": "For every polyfit that returns coefficients of minimal sum of squares (which exist, proved over the reals); exact arithmetic."
  },
  {
   "property": "C103",
   "status": "partial",
   "theorems": [
    "Glimpse.RasterIO.splitext_spec",
    "Glimpse.RasterIO.crs_reading",
    "Glimpse.RasterIO.driver_chosen",
    "Glimpse.RasterIO.driver_empty_name",
    "Glimpse.RasterIO.write_ok_iff",
    "Glimpse.RasterIO.write_effect",
    "Glimpse.RasterIO.write_failed_partial",
    "Glimpse.RasterIO.write_failed_violated",
    "Glimpse.RasterIO.open_raises_iff",
    "Glimpse.RasterIO.open_missing",
    "Glimpse.RasterIO.open_cells",
    "Glimpse.RasterIO.open_cell_size",
    "Glimpse.RasterIO.write_open",
    "Glimpse.RasterIO.write_nan_violated",
    "Glimpse.RasterIO.grid_read_full",
    "Glimpse.RasterIO.grid_read_violated",
    "Glimpse.RasterIO.copy_crs_violated"
   ],
   "note": "Round trip, crops, cell sizes, choice of driver and refusals proved over a model of GDAL that keeps what is written. False (proved): NaN is not written as the nan value, a no-data value of zero is not replaced, a write with a bad crs has already emptied the file when it raises, Grid.read keeps the file's number of cells after a crop, and copies lose the crs. Missing: lossy formats (values at reduced resolution: C140)."
  },
  {
   "property": "C104",
   "status": "partial",
   "theorems": [
    "Glimpse.Cams.index_meaning",
    "Glimpse.Cams.rows_at_index",
    "Glimpse.Cams.no_controls_raise",
    "Glimpse.Cams.residuals_rows",
    "Glimpse.Cams.errors_rows",
    "Glimpse.Cams.errors_ransac",
    "Glimpse.Cams.weights_pruned_violated",
    "Glimpse.Cams.fit_arguments",
    "Glimpse.Cams.fit_sparsity_rows",
    "Glimpse.Cams.fit_mask_violated",
    "Glimpse.Cams.iteration_arguments_partial",
    "Glimpse.Cams.iteration_arguments_violated"
   ],
   "note": "Proved for the residuals at every index, and for the arguments of a run without iterations for all observations or integers. False (proved): with booleans the sparsity matrix has the wrong number of rows, the iterations are given the scales and the sparsity of the final run and are refused if they have another number of parameters, and weights given for controls that are dropped stay. (The iterations also ignore the weights.)"
  },
  {
   "property": "C105",
   "status": "partial",
   "theorems": [
    "Glimpse.ImgNew.image_without_metadata",
    "Glimpse.ImgNew.image_given_metadata",
    "Glimpse.ImgNew.image_datetime",
    "Glimpse.ImgNew.image_override",
    "Glimpse.ImgNew.image_override_f_violated",
    "Glimpse.ImgNew.image_supplement_violated",
    "Glimpse.ImgNew.sensorsz_found",
    "Glimpse.ImgNew.sensorsz_missing"
   ],
   "note": "Proved for every combination of arguments. False (proved): a focal length in pixels alone does not override that of the metadata (the camera is refused), and a focal length in mm with a sensor size is not supplemented by the image size (TypeError). The text of make or model values that are not text is not modelled."
  },
  {
   "property": "C106",
   "status": "partial",
   "theorems": [
    "Glimpse.ImgProject.project_raises",
    "Glimpse.ImgProject.project_value",
    "Glimpse.ImgProject.truncate_spec",
    "Glimpse.ImgProject.bilinear_bounds",
    "Glimpse.ImgProject.value_at_center",
    "Glimpse.ImgProject.project_outside",
    "Glimpse.ImgProject.project_behind_linear",
    "Glimpse.ImgProject.project_behind_nearest_violated",
    "Glimpse.ImgProject.project_same_direction",
    "Glimpse.ImgProject.project_same",
    "Glimpse.ImgProject.project_opposite_violated"
   ],
   "note": "Proved for images of at least two rows and columns, with exact arithmetic; the direction for source cameras without lens distortion. False (proved): with method nearest, pixels behind the source camera get the value of its lower right pixel instead of none. Images of integers are truncated and have an unspecified number where there is no value; the outer half pixel of the source counts as outside."
  },
  {
   "property": "C107",
   "status": "partial",
   "theorems": [
    "Glimpse.MotionDem.make_raster",
    "Glimpse.MotionDem.make_number",
    "Glimpse.MotionDem.new_ok",
    "Glimpse.MotionDem.initialize_partial",
    "Glimpse.MotionDem.initialize_raises",
    "Glimpse.MotionDem.number_partial",
    "Glimpse.MotionDem.base_initialize_spec",
    "Glimpse.MotionDem.tangent_all",
    "Glimpse.MotionDem.tangent_raises",
    "Glimpse.MotionDem.likelihoods_spec",
    "Glimpse.MotionDem.likelihoods_raise",
    "Glimpse.MotionDem.at_unique",
    "Glimpse.MotionMissing.initialize_missing",
    "Glimpse.MotionMissing.initialize_velocity",
    "Glimpse.MotionMissing.initialize_missing_raises",
    "Glimpse.MotionMissing.test_missing_iff",
    "Glimpse.MotionMissing.initialize_test",
    "Glimpse.MotionMissing.tangent_missing",
    "Glimpse.MotionMissing.likelihoods_missing",
    "Glimpse.MotionMissing.height_unique",
    "Glimpse.MotionDem.default_sigma_violated",
    "Glimpse.MotionDem.number_violated",
    "Glimpse.MotionMissing.likelihoods_gap_violated"
   ],
   "note": "Proved for rasters and standard deviations given. False (proved): three of the four classes raise if dem_sigma is not given; a surface given as a number is only defined on the square from 0 to 1, anywhere else initialization raises; above a missing cell the likelihood is silently missing although the particle passes the test. With missing cells, exactly which particles have missing heights, that the test of particles refuses them, and which likelihoods are missing are proved (Props/MotionMissing.lean)."
  },
  {
   "property": "C108",
   "status": "partial",
   "theorems": [
    "Glimpse.TracksStats.tracks_columns",
    "Glimpse.TracksStats.mean_spec",
    "Glimpse.TracksStats.mean_between",
    "Glimpse.TracksStats.zero_weights",
    "Glimpse.TracksStats.weights_mismatch",
    "Glimpse.TracksStats.covariance_spec",
    "Glimpse.TracksStats.covariance_psd",
    "Glimpse.TracksStats.sigma_spec",
    "Glimpse.TracksStats.sigma_zero_iff",
    "Glimpse.TracksStats.sigma_about",
    "Glimpse.TracksStats.weights_scale",
    "Glimpse.TracksStats.record_agree",
    "Glimpse.TracksStats.assemble_ok",
    "Glimpse.TracksStats.tracks_agree",
    "Glimpse.TracksStats.particles_mixed_ok",
    "Glimpse.TracksStats.particles_mixed_violated"
   ],
   "note": "Proved for all particles and weights (real numbers). False (proved): motion models with different numbers of particles cannot be tracked with return_particles; track raises when everything is done."
  },
  {
   "property": "C109",
   "status": "partial",
   "theorems": [
    "Glimpse.Svg.element_unknown",
    "Glimpse.Svg.from_svg_cases",
    "Glimpse.Svg.element_irrelevant",
    "Glimpse.Svg.element_rect_missing",
    "Glimpse.Svg.element_defaults",
    "Glimpse.Svg.element_round_trip_partial",
    "Glimpse.Svg.element_empty_violated"
   ],
   "note": "Round trip proved for point lists each shape can hold (one point for a circle, two for a line, boxes for rect/image/svg, at least two for paths, closed rings for polygons). False for empty point lists: shapes written from no points read back as the origin (element_empty_violated). Attribute values with units (\"10px\") make float() raise and are not modelled."
  },
  {
   "property": "C110",
   "status": "proved",
   "theorems": [
    "Glimpse.PolygonMask.mask_shape",
    "Glimpse.PolygonMask.mask_within",
    "Glimpse.PolygonMask.rasterize_polygons_spec",
    "Glimpse.PolygonMask.rasterize_polygons_shape",
    "Glimpse.PolygonMask.fills_within",
    "Glimpse.PolygonMask.within_or_not",
    "Glimpse.PolygonMask.within_generic",
    "Glimpse.PolygonMask.generic_frequently",
    "Glimpse.PolygonMask.mask_spec",
    "Glimpse.PolygonMask.rasterize_polygons_partial",
    "Glimpse.PolygonMask.inside_either_side",
    "Glimpse.PolygonMask.fills_iff"
   ],
   "note": "Proved for every center on no edge, also at the height of vertices: inside means that all close points in general position have an odd number of edges to their east, which is proved to be well defined off the edges. On an edge, inside is a convention. GDAL's fill (scanlines, half-open crossings, edges along a row) is modelled, with exact arithmetic."
  },
  {
   "property": "C111",
   "status": "partial",
   "theorems": [
    "Glimpse.RasterMemory.reachable_sound",
    "Glimpse.RasterMemory.untouched",
    "Glimpse.RasterMemory.copy_fresh",
    "Glimpse.RasterMemory.copy_independent",
    "Glimpse.RasterMemory.copy_kept",
    "Glimpse.RasterMemory.grid_shared_violated",
    "Glimpse.RasterMemory.item_shared_violated",
    "Glimpse.RasterMemory.resample_shared_violated",
    "Glimpse.RasterMemory.array_shared_violated",
    "Glimpse.RasterMemory.set_array_seen",
    "Glimpse.RasterMemory.set_xlim_seen",
    "Glimpse.RasterMemory.set_ylim_seen"
   ],
   "note": "Proved for copies, over all histories on any number of objects (references to blocks of memory; frame property for disjoint blocks). False (proved) for everything else: the grid of a raster shares its limits, a part of a raster shares coordinates and values, resampling shares limits and coordinates with the grid, a raster shares the array it is made of. The cached interpolator is not part of this model."
  },
  {
   "property": "C112",
   "status": "partial",
   "theorems": [
    "Glimpse.RasterResample.resample_partial",
    "Glimpse.RasterResample.resample_raises",
    "Glimpse.RasterResample.resample_own_grid",
    "Glimpse.RasterResample.bilinear_interpolates",
    "Glimpse.RasterResample.resample_own_grid_bilinear",
    "Glimpse.RasterResample.resample_all_missing_violated",
    "Glimpse.RasterResample.resample_row_violated",
    "Glimpse.RasterResample.resample_cell_violated",
    "Glimpse.RasterResample.resample_failed_violated"
   ],
   "note": "Limits, size and value of every cell proved for rasters with at least two rows and columns and orders less than the size (scipy's surface is a parameter; for the bilinear one it is proved to go through the cells), refusal outside bounds, identity on the own grid. False (proved): rasters with one row, column or cell get the wrong number of rows; a raster without any value becomes the lowest number of the type; a resampling that raises for its order leaves the missing cells replaced."
  },
  {
   "property": "C113",
   "status": "partial",
   "theorems": [
    "Glimpse.ObserverImages.observer_tiles_partial",
    "Glimpse.ObserverImages.uncached_safe",
    "Glimpse.ObserverImages.no_shift_safe",
    "Glimpse.ObserverImages.tile_stable",
    "Glimpse.ObserverImages.images_index_error",
    "Glimpse.ObserverImages.clear_images_spec",
    "Glimpse.ObserverImages.cache_images_spec",
    "Glimpse.ObserverImages.held_no_file",
    "Glimpse.ObserverImages.shift_tile_cached_violated"
   ],
   "note": "Proved over a heap of shared arrays for all histories in which shift_tile is not used on a tile of a cached image; every history without caching, and every history without shift_tile, is proved to be one. False (proved, for every image, box and shift): shift_tile writes into the cached image, so that the next tile extracted there is shifted. Excluded as in C43: uncached parts of resized images."
  },
  {
   "property": "C114",
   "status": "partial",
   "theorems": [
    "Glimpse.Hillshade.direction_compass",
    "Glimpse.Hillshade.hillshade_mirrored",
    "Glimpse.Hillshade.hillshade_values",
    "Glimpse.Hillshade.hillshade_order",
    "Glimpse.Hillshade.hillshade_partial",
    "Glimpse.Hillshade.hillshade_flat",
    "Glimpse.Hillshade.hillshade_raises",
    "Glimpse.Hillshade.hillshade_north_violated"
   ],
   "note": "The value of every cell is proved, for all rasters with at least two rows and columns: it is that of a light at azimuth 180 minus the one given. The claim therefore holds for light from due east or west and for cells without a slope along y (hillshade_partial), and fails otherwise (hillshade_north_violated): matplotlib negates the cell size dy itself, and Raster.hillshade passes the signed cell size. matplotlib's LightSource is modelled from its 3.2.1 source. Rasters with missing values: C142."
  },
  {
   "property": "C115",
   "status": "partial",
   "theorems": [
    "Glimpse.ObsCams.set_cameras_short",
    "Glimpse.ObsCams.set_cameras_spec",
    "Glimpse.ObsCams.set_cameras_shared_violated",
    "Glimpse.ObsCams.reset_restores",
    "Glimpse.ObsCams.fit_frame",
    "Glimpse.ObsCams.fit_resets",
    "Glimpse.ObsCams.fun_value",
    "Glimpse.ObsCams.fit_result",
    "Glimpse.ObsCams.fit_result_new",
    "Glimpse.ObsCams.objective_zero_iff",
    "Glimpse.ObsCams.anchor_gradient",
    "Glimpse.ObsCams.fit_keeps_violated",
    "Glimpse.ObsCams.fit_raises_violated"
   ],
   "note": "Proved for images with their own cameras, over all histories and all optimizer strategies (trees of evaluations). False (proved): images that share a camera do not each get their direction; a fit turns cameras back to when the object was made, not to how they were before it; an optimizer that raises leaves the directions tried last. Negative anchors and printing are not modelled."
  },
  {
   "property": "C116",
   "status": "partial",
   "theorems": [
    "Glimpse.TracksAnimate.frames_spec",
    "Glimpse.TracksAnimate.draw_iff",
    "Glimpse.TracksAnimate.draw_partial",
    "Glimpse.TracksAnimate.draw_gap_violated",
    "Glimpse.TracksAnimate.draw_tracker_violated",
    "Glimpse.TracksAnimate.draw_scale_violated"
   ],
   "note": "Frames proved for all tracks; what is drawn proved when the frames are the first times without a gap. False otherwise (proved, exactly): arrow lengths are looked up by time instead of by position, so frames after a gap show a wrong length or raise; without a tracker every frame raises."
  },
  {
   "property": "C117",
   "status": "partial",
   "theorems": [
    "Glimpse.ObserverAnimate.animate_tile_partial",
    "Glimpse.ObserverAnimate.animate_outside",
    "Glimpse.ObserverAnimate.animate_window",
    "Glimpse.ObserverAnimate.animate_window_violated",
    "Glimpse.ObserverAnimate.animate_cached_violated",
    "Glimpse.ObserverAnimate.animate_large_violated",
    "Glimpse.ObserverAnimate.animate_touch_violated",
    "Glimpse.ObserverAnimate.track_frame_spec",
    "Glimpse.ObserverAnimate.track_default",
    "Glimpse.ObserverAnimate.track_sequence_violated",
    "Glimpse.ObserverAnimate.track_repeated_violated"
   ],
   "note": "Proved for uncached images and windows no larger than the image. False (proved): axes are centered only for square windows; cached images (the default) raise; windows larger than the image show nothing; windows that touch the image raise; frames of Observer.track that are not an array, or repeat an image, fail. The initial drawing before the first frame is not modelled."
  },
  {
   "property": "C118",
   "status": "partial",
   "theorems": [
    "Glimpse.ImageWrite.careful_good",
    "Glimpse.ImageWrite.read_after_writes_partial",
    "Glimpse.ImageWrite.write_original_partial",
    "Glimpse.ImageWrite.write_array",
    "Glimpse.ImageWrite.write_resized_violated",
    "Glimpse.ImageWrite.read_stale_violated"
   ],
   "note": "Proved over all histories in which no file is replaced while an image has its pixels cached (GDAL and lossless formats are assumed faithful). False (proved): an image with a resized camera writes resampled pixels, and a cached image goes on reading the old pixels after its file was replaced."
  },
  {
   "property": "C119",
   "status": "proved",
   "theorems": [
    "Glimpse.Pairwise.pairwise_returns",
    "Glimpse.Pairwise.pairwise_table",
    "Glimpse.Pairwise.pairwise_swap",
    "Glimpse.Pairwise.euclidean_eq",
    "Glimpse.Pairwise.euclidean_metric",
    "Glimpse.Pairwise.euclidean_sq",
    "Glimpse.Pairwise.pairwise_numbers",
    "Glimpse.Pairwise.pairwise_euclidean",
    "Glimpse.Pairwise.datetimes_table",
    "Glimpse.Pairwise.datetimes_constant",
    "Glimpse.Pairwise.datetimes_change_violated",
    "Glimpse.Pairwise.pairwise_example",
    "Glimpse.Pairwise.pairwise_empty_violated"
   ],
   "note": "scipy's cdist is modelled by its definition; coordinates are exact reals. Recorded besides (proved): an empty list counts as points on a line, so it raises against points of the plane; datetimes without time zone are instants of the local zone, so over a change of its offset their distance is not the difference of the readings."
  },
  {
   "property": "C120",
   "status": "proved",
   "theorems": [
    "Glimpse.BoxGrids.points_of_grid",
    "Glimpse.BoxGrids.grid_points_any",
    "Glimpse.BoxGrids.grid_modes",
    "Glimpse.BoxGrids.grid_raises",
    "Glimpse.BoxGrids.polygon_of_box",
    "Glimpse.BoxGrids.mask_of_box",
    "Glimpse.BoxGrids.polygon_raises",
    "Glimpse.BoxGrids.parallel_number"
   ],
   "note": "Exact arithmetic. Steps are positive and boxes not inverted; steps and snap points have one number per dimension (or one step for all)."
  },
  {
   "property": "C121",
   "status": "partial",
   "theorems": [
    "Glimpse.DetectKp.detect_bytes",
    "Glimpse.DetectKp.root_values",
    "Glimpse.DetectKp.root_norm",
    "Glimpse.DetectKp.root_inner",
    "Glimpse.DetectKp.root_distance",
    "Glimpse.DetectKp.root_zero",
    "Glimpse.DetectKp.cast_unit_violated",
    "Glimpse.DetectKp.cast_wraps_violated"
   ],
   "note": "OpenCV's detector is a parameter. Proved for images and masks of 8 bits. False of others (proved): values between 0 and 1 become zero, and values of more than 8 bits wrap around."
  },
  {
   "property": "C122",
   "status": "partial",
   "theorems": [
    "Glimpse.ExifFile.insert_returns",
    "Glimpse.ExifFile.insert_read",
    "Glimpse.ExifFile.history_files",
    "Glimpse.ExifFile.history_insert",
    "Glimpse.ExifFile.insert_objects",
    "Glimpse.ExifFile.insert_thumbnail_violated"
   ],
   "note": "piexif is modelled by its documented effect (tables of names and codes agree, values of the type of their tag are read back). Proved for all tags but those of the thumbnail; with a thumbnail read, for these too. False (proved): metadata read as by default and inserted unchanged removes the thumbnail and its group from the file."
  },
  {
   "property": "C123",
   "status": "partial",
   "theorems": [
    "Glimpse.FloatGrid.float_snap_xy_exact",
    "Glimpse.FloatGrid.float_xy_to_rowcol_exact",
    "Glimpse.FloatGrid.float_rowcol_round_trip",
    "Glimpse.FloatGrid.float_crop_extent_exact",
    "Glimpse.FloatGrid.float_crop_extent_none",
    "Glimpse.FloatGrid.float_center_near",
    "Glimpse.FloatGrid.float_cell_near",
    "Glimpse.FloatGrid.float_rowcol_round_trip_violated",
    "Glimpse.FloatGrid.float_xy_to_rowcol_outside_violated",
    "Glimpse.FloatGrid.float_crop_extent_none_violated",
    "Glimpse.FloatGrid.float_outer_edge_two_off",
    "Glimpse.Double.rnd_nearest"
   ],
   "note": "Exact for grids whose limits and cell size are multiples of one power of two by at most 2^46 (such as whole metres), proved for every rounding to nearest. False in general (proved): (0, 7) with 5 columns puts the centre of column 1 in column 0; a point in (0, 1) with 6 columns gets column 6; (0, 100) with 11 columns loses its last column when cropped to itself. For all grids up to 2^40 cells and offsets: at most one cell off, two at the outer edge. Doubles have 53 bits and unbounded exponents here."
  },
  {
   "property": "C124",
   "status": "partial",
   "theorems": [
    "Glimpse.FloatResample.float_stratified_sorted",
    "Glimpse.FloatResample.float_stratified_valid_iff",
    "Glimpse.FloatResample.float_stratified_valid",
    "Glimpse.FloatResample.float_zero_weight",
    "Glimpse.FloatResample.float_choice_valid",
    "Glimpse.FloatResample.float_choice_check",
    "Glimpse.FloatResample.kahan_near",
    "Glimpse.FloatResample.float_choice_zero_weight",
    "Glimpse.FloatResample.float_residual_valid",
    "Glimpse.FloatResample.float_systematic_count",
    "Glimpse.FloatResample.float_resample_spec",
    "Glimpse.FloatResample.resampleParticlesF_id",
    "Glimpse.FloatResample.float_resample_returns_iff",
    "Glimpse.FloatResample.float_resample_raises_violated",
    "Glimpse.FloatResample.leftSum_some_order"
   ],
   "note": "Systematic and stratified draw existing particles unless the last random number is within 10 n^2 / 2^53 of 1; false then (proved): ten equal weights and the largest random number below 1 raise IndexError in every order of summation. choice (n up to 2^26) and residual (n up to 2^25) always draw existing particles. Counts of systematic resampling are within 1 + 16 n^2 / 2^53 of the share. numpy's check that probabilities sum to 1 (its compensated sum, within 2^-26) is modelled and never fails up to 2^26 particles; doubles have 53 bits and unbounded exponents here."
  },
  {
   "property": "C125",
   "status": "partial",
   "theorems": [
    "Glimpse.PlotsMap.raster_plot_shows",
    "Glimpse.PlotsMap.raster_plot_outside",
    "Glimpse.PlotsMap.image_plot_shows",
    "Glimpse.PlotsMap.plot_tile_partial",
    "Glimpse.PlotsMap.plot_tile_default_violated",
    "Glimpse.PlotsMap.grid_limits_show",
    "Glimpse.PlotsMap.camera_limits_show",
    "Glimpse.PlotsMap.image_fills_limits",
    "Glimpse.PlotsMap.plot_box_corners"
   ],
   "note": "matplotlib's imshow, set_xlim/ylim and plot are modelled by their documentation; points on the edges of cells are not specified. False only of Observer.plot_tile without a box (proved): a tile that is not square is drawn with width and height swapped."
  },
  {
   "property": "C126",
   "status": "partial",
   "theorems": [
    "Glimpse.PlotsTracks.plot_xy_spec",
    "Glimpse.PlotsTracks.plot_xy_raises",
    "Glimpse.PlotsTracks.plot_xy_start_partial",
    "Glimpse.PlotsTracks.plot_xy_start_violated",
    "Glimpse.PlotsTracks.plot_xy_sigma_missing",
    "Glimpse.PlotsTracks.plot_vxy_spec",
    "Glimpse.PlotsTracks.plot_v1d_spec",
    "Glimpse.PlotsTracks.plot_v1d_sigma_missing"
   ],
   "note": "Start markers are at the start of tracks that have a position at the first time; false of others (proved): a track that starts later gets no marker. Asking for standard deviations that the tracks do not have raises TypeError. matplotlib is modelled by its documentation."
  },
  {
   "property": "C127",
   "status": "partial",
   "theorems": [
    "Glimpse.PlotsControls.plot_errors_spec",
    "Glimpse.PlotsControls.plot_errors_default",
    "Glimpse.PlotsControls.plot_errors_raises",
    "Glimpse.PlotsControls.plot_lines_spec",
    "Glimpse.PlotsControls.poly_plot_partial",
    "Glimpse.PlotsControls.poly_plot_violated",
    "Glimpse.PlotsControls.poly_plot_default_violated",
    "Glimpse.PlotsControls.cams_plot_spec",
    "Glimpse.PlotsControls.cams_plot_several",
    "Glimpse.PlotsControls.cams_plot_array_violated",
    "Glimpse.PlotsControls.cams_plot_restore_violated",
    "Glimpse.PlotsControls.plot_weights_spec",
    "Glimpse.PlotsControls.converter_outgoing",
    "Glimpse.PlotsControls.converter_incoming_partial",
    "Glimpse.PlotsControls.converter_incoming_violated"
   ],
   "note": "Proved for Points, Lines, Matches and plot_weights. False (proved): Polynomial.plot raises TypeError unless some points are selected, others not, and neither are hidden, hence always with its default index; Cameras.plot raises with an array of several indices even for one control, and leaves the cameras changed if the plot of a control raises; Converter.plot with a camera that is projected into draws arrows that start at cam's coordinates, not at xcam's."
  },
  {
   "property": "C128",
   "status": "partial",
   "theorems": [
    "Glimpse.Json.loads_renders",
    "Glimpse.Json.loads_repeated",
    "Glimpse.Json.json_round_trip",
    "Glimpse.Json.dumps_injective",
    "Glimpse.Json.escape_ascii",
    "Glimpse.Json.flat_round_trip_partial",
    "Glimpse.Json.pyNumFmt_faithful",
    "Glimpse.Json.intNumFmt_faithful",
    "Glimpse.Json.flat_text_violated"
   ],
   "note": "Proved for all values, with floats whose repr is a JSON number that float reads back; with flat arrays if no string has a space or a comma (false otherwise: flat_text_violated). Lone surrogates and keys that are not text are left out."
  },
  {
   "property": "C129",
   "status": "partial",
   "theorems": [
    "Glimpse.Pickle.pickle_round_trip_partial",
    "Glimpse.Pickle.pickle_wrong_gz",
    "Glimpse.Pickle.pickle_torn",
    "Glimpse.Pickle.pickle_text_violated",
    "Glimpse.Pickle.pickle_read_text_violated"
   ],
   "note": "False (proved) for binary=False without gz: writing always raises and empties the file. pickle and gzip are parameters."
  },
  {
   "property": "C130",
   "status": "partial",
   "theorems": [
    "Glimpse.CamMem.reset_restores_new",
    "Glimpse.CamMem.reset_restores_copy",
    "Glimpse.CamMem.others_unchanged",
    "Glimpse.CamMem.view_live",
    "Glimpse.CamMem.view_write",
    "Glimpse.CamMem.set_attribute",
    "Glimpse.CamMem.attributes_partition",
    "Glimpse.CamMem.to_array_own",
    "Glimpse.CamMem.idealize_spec",
    "Glimpse.CamMem.set_sensor",
    "Glimpse.CamMem.imgsz_write_violated",
    "Glimpse.CamMem.reset_sensor_violated",
    "Glimpse.CamMem.view_reset_violated"
   ],
   "note": "Every history of a model of memory with references. Three parts of the claim fail and are proved to: writes to imgsz are lost (the getter casts to int, a new array), reset does not restore sensorsz, and a view taken before reset is detached. The correction dictionary is not modelled."
  },
  {
   "property": "C131",
   "status": "partial",
   "theorems": [
    "Glimpse.FloatResize.size_history_independent",
    "Glimpse.FloatResize.target_same_ratio",
    "Glimpse.FloatResize.target_size_partial",
    "Glimpse.FloatResize.resize_error",
    "Glimpse.FloatResize.factor_size_partial",
    "Glimpse.FloatResize.factor_size_violated",
    "Glimpse.FloatResize.drift",
    "Glimpse.FloatResize.dyadic_exact",
    "Glimpse.FloatResize.restore_violated"
   ],
   "note": "Doubles have 53 bits and unbounded exponents here. False (proved): 49 pixels resized to one and back changes the focal length by 2^-53; the double nearest to 0.3 times 5 pixels gives 2 although the product is below 1.5. A target size is exact unless the scale found by differential evolution (a parameter) puts a side at half a pixel."
  },
  {
   "property": "C132",
   "status": "proved",
   "theorems": [
    "Glimpse.FloatTiles.float_tile_indices_exact",
    "Glimpse.FloatTiles.float_tiles_exact",
    "Glimpse.FloatTiles.float_tiles_any",
    "Glimpse.FloatTiles.float_tiles_partition",
    "Glimpse.FloatTiles.float_tiles_fraction"
   ],
   "note": "Doubles have 53 bits and unbounded exponents here (the quotients are far from overflow). float_tiles_fraction shows that for fractions the number of tiles can differ by one from exact arithmetic, as the statement allows."
  },
  {
   "property": "C133",
   "status": "proved",
   "theorems": [
    "Glimpse.FloatWeights.weight_finite",
    "Glimpse.FloatWeights.weight_ordinary",
    "Glimpse.FloatWeights.weight_accuracy",
    "Glimpse.FloatWeights.weight_antitone",
    "Glimpse.FloatWeights.weight_vanishing",
    "Glimpse.FloatWeights.update_weights_spec",
    "Glimpse.FloatWeights.update_weights_value",
    "Glimpse.FloatWeights.total_append",
    "Glimpse.FloatWeights.summed64_spec",
    "Glimpse.FloatWeights.normalize_spec",
    "Glimpse.FloatWeights.draw_transfer",
    "Glimpse.FloatWeights.residual_any",
    "Glimpse.FloatWeights.residual_valid",
    "Glimpse.FloatWeights.resample_after_update",
    "Glimpse.FloatWeights.ordinary_values",
    "Glimpse.FloatWeights.normalize_nan_violated",
    "Glimpse.FloatWeights.weight_overflow_violated"
   ],
   "note": "IEEE 754 double precision with overflow, gradual underflow, infinities and NaN, without the sign of zero. np.exp is any monotone function with the limits in ExpOk. The last clause of the statement (where it fails) is in the two theorems named _violated."
  },
  {
   "property": "C134",
   "status": "proved",
   "theorems": [
    "Glimpse.FloatTemplate.float_template_spec",
    "Glimpse.FloatTemplate.float_search_spec",
    "Glimpse.FloatTemplate.float_template_size_violated",
    "Glimpse.FloatTemplate.float_search_raises_violated"
   ],
   "note": "Any rounding to a nearest double of 53 bits (exponents unbounded). The two theorems named _violated are the exceptions that the statement makes: a template one pixel wider than requested (mean 121 - 2^-46, 15 pixels requested, 16 given), and ValueError for a particle that rounding puts outside the error box (offset exactly -1/2). Pixel values, and the rounding inside the spline, are not modelled."
  },
  {
   "property": "C135",
   "status": "partial",
   "theorems": [
    "Glimpse.FloatStats.float_mean_near",
    "Glimpse.FloatStats.float_sigma_about",
    "Glimpse.FloatStats.float_sigma_near",
    "Glimpse.FloatStats.float_covariance_near",
    "Glimpse.FloatStats.float_covariance_symmetric",
    "Glimpse.FloatStats.float_stats_errors",
    "Glimpse.FloatStats.float_mean_outside_violated",
    "Glimpse.FloatStats.float_covariance_asymmetric_violated",
    "Glimpse.FloatStats.stats_exact",
    "Glimpse.FloatStats.roots_exist"
   ],
   "note": "Any rounding to a nearest double of 53 bits (exponents unbounded: no overflow, no underflow); np.sqrt is any square root rounded to a relative error of 2^-53. False (proved): the mean of three particles at 0.1 is 0.10000000000000002, and their standard deviation is not zero; the covariance of two particles with weights 2 and 3 is not exactly symmetric."
  },
  {
   "property": "C136",
   "status": "partial",
   "theorems": [
    "Glimpse.Likelihood.likelihood_whole_pixels",
    "Glimpse.Likelihood.mismatch_nonneg",
    "Glimpse.Likelihood.mismatch_zero_iff",
    "Glimpse.Likelihood.likelihood_best",
    "Glimpse.Likelihood.likelihood_nonneg",
    "Glimpse.Likelihood.bilinear_ok",
    "Glimpse.Likelihood.likelihood_bilinear",
    "Glimpse.Likelihood.throughNodes_ok",
    "Glimpse.Likelihood.likelihood_cubic_violated"
   ],
   "note": "Exact arithmetic; the processed tiles are given. Proved at whole displacements for every spline that passes through its nodes, and between them for splines that keep values non-negative (degree one). False (proved) between pixels for the default degree three: half a pixel beside an exact match the value can be negative, hence more likely than the match."
  },
  {
   "property": "C137",
   "status": "partial",
   "theorems": [
    "Glimpse.FloatBoxGrid.floor_divide_exact",
    "Glimpse.FloatBoxGrid.remainder_spec",
    "Glimpse.FloatBoxGrid.float_box_axis",
    "Glimpse.FloatBoxGrid.float_box_sorted",
    "Glimpse.FloatBoxGrid.float_box_axis_exact",
    "Glimpse.FloatBoxGrid.float_box_decimal_violated",
    "Glimpse.FloatBoxGrid.float_box_outside_violated"
   ],
   "note": "Any rounding to a nearest double of 53 bits (exponents unbounded), at most 2^47 steps. Proved: every coordinate is at least lo and within 2^-48 (relative to the largest number involved) of a snapped value and of the box, no snapped value further than that inside of the box is missing, and the grid is exact when all numbers are multiples of a power of two up to 2^46. False (proved): a box from 0 to 1 with step 0.1 has ten coordinates and not eleven, and the last coordinate may exceed the box."
  },
  {
   "property": "C138",
   "status": "partial",
   "theorems": [
    "Glimpse.FloatProject.float_rotation_near",
    "Glimpse.FloatProject.float_project_near",
    "Glimpse.FloatProject.float_behind",
    "Glimpse.FloatProject.float_ray_near",
    "Glimpse.FloatProject.float_round_trip",
    "Glimpse.FloatProject.float_behind_violated",
    "Glimpse.FloatProject.float_round_trip_violated",
    "Glimpse.FloatProject.lib_exists"
   ],
   "note": "Any rounding to a nearest double of 53 bits (exponents unbounded), angles up to 360 degrees, no distortion and no elevation correction; np.cos and np.sin within 2^-50, and dot products of up to three terms within 2^-51 of the sum of absolute products (any order of summation). Proved: error bounds of the rotation matrix, of projections and rays, and of the round trip in pixels. False (proved): a point behind the camera, within 1e-17 of its plane, gets image coordinates; the corner of an image projected out and back is outside of the image by 7e-15 pixels."
  },
  {
   "property": "C139",
   "status": "proved",
   "theorems": [
    "Glimpse.FloatProject.distort_rel",
    "Glimpse.FloatProject.float_xy_near",
    "Glimpse.FloatProject.float_distorted_near"
   ],
   "note": "Any rounding to a nearest double of 53 bits (exponents unbounded), angles up to 360 degrees, no elevation correction, library functions as in C138. The size of the terms (distortScale) is a polynomial of the absolute values of the coefficients and of (1 + M)^2, where M bounds the coordinates before distortion, over the square of the lower bound c of the denominator. The bound is not claimed where the polynomial of the denominator exceeds 2^34 c. Inverting the distortion (uv_to_xyz) is not included."
  },
  {
   "property": "C140",
   "status": "partial",
   "theorems": [
    "Glimpse.raster_scaled_partial",
    "Glimpse.raster_scaled_coarse",
    "Glimpse.RasterIO.open_scaled_cells",
    "Glimpse.raster_scaled_box_violated",
    "Glimpse.raster_scaled_fine_violated",
    "Glimpse.ScaledFile.holds_pixels",
    "Glimpse.ScaledFile.Holds.unique"
   ],
   "note": "GDAL's resampling is its default, the nearest cell. Proved: the array of a raster opened at any cell size, and boxes after it is cached; boxes read without a cache if their edges are edges of cells of the file (always so if each cell is made of whole cells of the file). False (proved): other boxes read without a cache may have other values (three cells as two: 2 for 3), and raise when smaller than a cell of the file. A box read with caching while nothing is cached is wrong at any cell size (C57)."
  },
  {
   "property": "C141",
   "status": "partial",
   "theorems": [
    "Glimpse.FloatMotion.float_motion_near",
    "Glimpse.FloatMotion.float_motion_total",
    "Glimpse.FloatMotion.float_base_motion",
    "Glimpse.FloatMotion.float_motion_reverse_violated",
    "Glimpse.FloatMotion.float_motion_stuck_violated"
   ],
   "note": "Any rounding to a nearest double of 53 bits (exponents unbounded); the square of the time is the rounded product; the random numbers are given doubles; up to 2^53 steps. Proved: the bounds for CartesianMotion in any number of steps (against the exact steps of C38 and against uniformly accelerated motion over the total time), and for one step of the base motion. False (proved): a day forward and a day back from 2^-60 ends at 0, and at position 1 a speed of 2^-54 per step never moves the particle."
  },
  {
   "property": "C142",
   "status": "partial",
   "theorems": [
    "Glimpse.Hillshade.gradient_missing",
    "Glimpse.Hillshade.hillshade_missing",
    "Glimpse.Hillshade.hillshade_complete",
    "Glimpse.Hillshade.hillshade_missing_raises",
    "Glimpse.Hillshade.hillshade_hole_violated",
    "Glimpse.Hillshade.hillshade_stretch_violated"
   ],
   "note": "Proved: exactly which slopes and shades are missing, the value of every other one (independent of what fills the missing cells), and agreement with C114 for complete rasters. False (proved): a missing cell within the raster whose neighbours are not missing has slopes and a shade, while the four cells around it have none (any raster); one missing cell anywhere turns off the stretch of all shades (an example goes from 0 to 0.7 at a cell far from it). matplotlib's LightSource is modelled from its 3.2.1 source."
  },
  {
   "property": "C143",
   "status": "partial",
   "theorems": [
    "Glimpse.FloatInterp.float_interpolate_start",
    "Glimpse.FloatInterp.float_interpolate_equal",
    "Glimpse.FloatInterp.float_interpolate_mono",
    "Glimpse.FloatInterp.float_interpolate_between",
    "Glimpse.FloatInterp.float_interpolate_datetimes",
    "Glimpse.FloatInterp.float_interpolate_end",
    "Glimpse.FloatInterp.float_interpolate_near",
    "Glimpse.FloatInterp.float_variance_near",
    "Glimpse.FloatInterp.float_sigma_near",
    "Glimpse.FloatInterp.float_interpolate_end_violated",
    "Glimpse.FloatInterp.float_interpolate_before_violated"
   ],
   "note": "Any rounding to a nearest double of 53 bits (exponents unbounded); squares are rounded products and the square root is within half a unit in the last place. For numbers, results are between the values if the rounded fraction of the way is less than one; false (proved) otherwise: 2^53 - 1 counts as 2^53 after -1. False (proved): at the second position the result may be past the second value (-4 to -0.9) or zero (2^60 to 1)."
  },
  {
   "property": "C144",
   "status": "partial",
   "theorems": [
    "Glimpse.FloatSample.float_sample_near",
    "Glimpse.FloatSample.float_sample_inside",
    "Glimpse.FloatSample.float_sample_center",
    "Glimpse.FloatSample.float_line_near",
    "Glimpse.FloatSample.float_sample_flat_violated",
    "Glimpse.FloatSample.float_line_center_violated"
   ],
   "note": "Any rounding to a nearest double of 53 bits (exponents unbounded); no missing values (C78). scipy 1.4.1's RegularGridInterpolator and interp1d are modelled operation by operation, in the order of their source. False (proved): samples of a raster of ones are below one at (0.05, 0.05) of a cell and above one at (0.1, 0.2); in a raster of one row with cells 49 apart, the sample at the center of the cell with value 1 is less than 1."
  },
  {
   "property": "C145",
   "status": "proved",
   "theorems": [
    "Glimpse.FloatCdf.float_match_cdf",
    "Glimpse.FloatCdf.float_match_cdf_exact",
    "Glimpse.FloatCdf.float_match_cdf_self",
    "Glimpse.FloatCdf.float_match_cdf_near",
    "Glimpse.FloatCdf.float_match_cdf_empty"
   ],
   "note": "Any rounding to a nearest double of 53 bits (exponents unbounded, so no overflow or underflow). numpy 1.19.5's interp is modelled operation by operation. float_match_cdf_near compares with the model without rounding of C52."
  },
  {
   "property": "C146",
   "status": "partial",
   "theorems": [
    "Glimpse.FloatTimes.distance_self",
    "Glimpse.FloatTimes.distance_zero",
    "Glimpse.FloatTimes.distance_mono",
    "Glimpse.FloatTimes.distance_near",
    "Glimpse.FloatTimes.distance_seconds",
    "Glimpse.FloatTimes.match_equal",
    "Glimpse.FloatTimes.match_zero",
    "Glimpse.FloatTimes.match_near",
    "Glimpse.FloatTimes.match_seconds",
    "Glimpse.FloatTimes.match_none",
    "Glimpse.FloatTimes.match_maximum_violated",
    "Glimpse.FloatTimes.match_future_violated"
   ],
   "note": "Any rounding to a nearest double of 53 bits (exponents unbounded). CPython's datetime.timestamp is modelled for a clock whose offset to UTC is zero; one observer and one datetime at a time, as the code treats them. False (proved): a datetime in 2020 that is 0.2 seconds from an image is not matched with a maximum of 0.2 seconds. Outside of the range (proved): in the year 2242, an image a microsecond away is matched with a maximum of zero."
  },
  {
   "property": "C147",
   "status": "proved",
   "theorems": [
    "Glimpse.FloatTimes.parse_matches",
    "Glimpse.FloatTimes.parse_zero",
    "Glimpse.FloatTimes.parse_seconds",
    "Glimpse.FloatTimes.parse_keeps",
    "Glimpse.FloatTimes.parse_maximum_violated"
   ],
   "note": "Any rounding to a nearest double of 53 bits (exponents unbounded); clock at UTC. The result with exact arithmetic is that of C34. Agreement with it holds only in the cases stated: with other maxima it may differ (proved): two datetimes become one and ValueError is raised when a datetime in 2020 is 0.2 seconds from an image and the maximum is 0.2 seconds."
  },
  {
   "property": "C148",
   "status": "proved",
   "theorems": [
    "Glimpse.FloatCorrection.correction_near",
    "Glimpse.FloatCorrection.correction_nonpos",
    "Glimpse.FloatCorrection.correction_neg",
    "Glimpse.FloatCorrection.correction_zero",
    "Glimpse.FloatCorrection.correction_one",
    "Glimpse.FloatCorrection.correction_mono",
    "Glimpse.FloatCorrection.correction_mono_refraction",
    "Glimpse.FloatCorrection.correction_mono_radius",
    "Glimpse.FloatCorrection.corrections_spec"
   ],
   "note": "Any rounding to a nearest double of 53 bits (exponents unbounded, so no underflow: a correction at a tiny distance is not zero)."
  }
 ]
}