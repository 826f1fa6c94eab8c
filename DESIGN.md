# Formal model of ezwelty/glimpse in Lean 4

## Method

* Python source: `/repo/src/glimpse` (paths below are relative to it). The code is never run; the model is a hand
  translation, function by function and branch by branch. Every definition carries a comment with the file and lines it
  models and every simplification.
* Layout: `lean/Verif/Model/*.lean` (definitions that mirror the code), `lean/Verif/Lemmas/*.lean` (helper lemmas),
  `lean/Verif/Props/*.lean` (specification vocabulary at the head, property theorems, and `example`s showing that concrete,
  non-trivial cases meet the hypotheses).
* Exceptions are values (`Except Err α`). Mutation is explicit: a function that mutates returns the new object; where
  aliasing matters (grid caches, `Raster.shift`, `format_list`, cameras shared by controls) there is an explicit heap or
  state machine, and theorems are by induction over histories of operations.
* Random draws, images, optimizer results, directory listings, schedules of worker processes, crash points and third-party
  functions are parameters: theorems quantify over all their values, under stated assumptions where any are needed.
* Numbers: `float64` is modelled by exact arithmetic: `ℚ` where only field operations and comparison occur, `ℝ` where
  roots or trigonometry occur, a general ordered field where it makes no difference. NaN, where the code produces it on
  purpose, is `none : Option _`. Exceptions are C123, C124, C131, C132, C134, C135, C137, C138, C139, C141, C143, C144, C145, C146, C147 and C148, where every operation is rounded to
  nearest with 53 bits (`Model/Double.lean` defines the IEEE rounding, ties to even) and unbounded exponents, and C133, with overflow, subnormals, infinities and NaN. Datetimes and timedeltas are integers (microseconds): exact, as in Python.
* Where the code violates the English property, the negation is proved with a concrete witness or for a whole class of
  inputs (`..._violated`), beside the part that does hold (`..._partial`, or without suffix when the theorem is the whole
  of one clause). The property keeps its full English statement; the manifest then says `partial`.
* Seeded bugs: `seeded/LOG.jsonl` records edits of the model as realistic bugs would change the program, which theorems
  failed, and which theorems were tightened because they did not.

## Trusted base

* Lean 4.33.0's kernel. Axioms: every theorem depends on no others than `propext`, `Classical.choice` and `Quot.sound`
  (checked by `vcheck`, which also replays all modules through the kernel); no compiled code is trusted, no axiom is added.
* That the model definitions say what the Python code does: numpy's and Python's semantics as described in their comments.
* Not modelled: rounding of floating point other than in C123, C124, C131, C132, C133, C134, C135, C137, C138, C139, C141, C143, C144, C145, C146, C147 and C148, overflow and subnormals other than in C133, and signed zeros; the insides of GDAL, PIL, OpenCV, scipy, lmfit,
  piexif, lxml and sklearn (parameters with the assumptions stated in each theorem); real process scheduling (only the order
  of completion); operating system errors other than the crash points named in the properties.


## Properties

Status `proved`: the whole property, for everything it quantifies over. `partial`: the note says what is missing or, with a theorem named `_violated`, in which cases the code does not have the property.

### C01 format_list returns exactly the requested length — partial

format_list(x, length, default) returns a list of exactly `length` items whenever it returns: a longer input is truncated to its first `length` items, a shorter one is padded with `default` when one is given, and otherwise the whole input is repeated cyclically; it raises exactly when no default is given and the length is not a multiple of the input's length.

*For:* every list, every target length, every default.  
*Model:* Model/Lists. *Proofs:* Props/FormatList.  
*Theorems:* `format_list_content`, `format_list_raises_iff`, `format_list_dtype`, `format_list_length_violated`.  
*Note:* Exact result for every positive length and (non-empty input or default); an empty input without default stays empty (format_list_length_violated).

### C02 format_list does not modify its argument — partial

Calling format_list on a list leaves the caller's list unchanged, so the same default list can be reused.

*For:* every list argument and every history of calls sharing it.  
*Model:* Model/Lists. *Proofs:* Props/FormatList.  
*Theorems:* `format_list_argument_unchanged_violated`, `format_list_argument_partial`.  
*Note:* False of the code: a caller's list is padded/repeated in place; proved when it is unchanged and that a second call never changes it again.

### C03 boolean_split loses nothing and splits only where the mask changes — proved

For an array x and a mask of the same length, boolean_split with include='all' returns non-empty pieces whose concatenation is x, every piece has a constant mask value and neighbouring pieces have different mask values; include='true'/'false' return exactly the pieces with that value in order; with circular=True the last piece is merged in front of the first piece iff first and last mask values agree and there is more than one piece.

*For:* every array, every mask, every include mode, circular or not.  
*Model:* Model/Lists. *Proofs:* Props/BooleanSplit.  
*Theorems:* `runs_unique`, `boolean_split_runs`, `boolean_split_circular`.  


### C04 sorted_nearest returns an index of a nearest element — proved

For a sorted array x with at least two elements and any query v, sorted_nearest(x, v) is a valid index i and |x[i]-v| <= |x[j]-v| for every j.

*For:* every sorted array and every query, inside or outside the range.  
*Model:* Model/Search. *Proofs:* Props/SortedNearest.  
*Theorems:* `sorted_nearest_minimal`, `sorted_nearest_singleton_violated`.  
*Note:* At least two elements; behaviour for one element shown separately.

### C05 intersect_boxes is set intersection — proved

When intersect_boxes(boxes) returns a box, a point is inside it (in_box) iff it is inside every input box; it raises exactly when the input boxes do not overlap with positive extent in some dimension.

*For:* every non-empty list of boxes of any dimension and every point.  
*Model:* Model/Boxes. *Proofs:* Props/Boxes.  
*Theorems:* `in_box_iff`, `intersect_boxes_iff`, `intersect_boxes_raises_iff`.  


### C06 bounding_box is the smallest enclosing box — proved

bounding_box(points) contains every point, and any box containing every point contains it.

*For:* every non-empty finite point set.  
*Model:* Model/Boxes. *Proofs:* Props/Boxes.  
*Theorems:* `bounding_box_least`.  


### C07 box_to_grid covers the box with equally spaced coordinates — proved

box_to_grid(box, step, snap) returns along each axis exactly the coordinates that lie in the closed interval of the box and are congruent to the snap coordinate modulo the step, in increasing order.

*For:* every box, positive step and snap point.  
*Model:* Model/Boxes. *Proofs:* Props/Boxes.  
*Theorems:* `grid_axis_exact`, `box_to_grid_points`.  


### C08 Ray-box intersection is sound and complete — proved

intersect_rays_box(t=True) returns as entrance the smallest and as exit the largest parameter for which the ray's line is in the closed box, with NaN for a negative or non-existing one; so the exit is NaN exactly for rays whose forward half-line misses the box.

*For:* every box, origin and direction with no zero component.  
*Model:* Model/Boxes. *Proofs:* Props/Rays.  
*Theorems:* `ray_box_exact`, `ray_box_interval`, `ray_box_miss_iff`, `ray_box_face_violated`, `ray_box_face_false_hit`.  
*Note:* Any number of axes, zero components allowed except a first component of zero with the origin exactly on an x-face, where the code is wrong (the two counterexample theorems).

### C09 bresenham_line is an exact digital line — proved

bresenham_line(start, end) starts at start and ends at end, has max(|dx|,|dy|)+1 points, each step moves by one cell along the major axis and by at most one along the minor axis, no cell repeats, it stays in the bounding box of the endpoints and within half a cell of the ideal segment.

*For:* every pair of integer cells.  
*Model:* Model/Bresenham. *Proofs:* Props/Bresenham.  
*Theorems:* `bresenham_line_near`, `bresenham_line_ends`, `bresenham_line_nodup_bbox`.  


### C10 rasterize_points writes each occupied cell once with its mean and nothing else — proved

rasterize_points(rc, values, shape) sets every cell that received points to the mean of exactly the values of its points, leaves every other cell at its initial value, and raises when some point is outside the array; the order of the points does not matter.

*For:* every list of points and values, every shape, every permutation of the points.  
*Model:* Model/Rasterize. *Proofs:* Props/Rasterize.  
*Theorems:* `rasterize_into_cells`, `rasterize_points_pairs`, `rasterize_raises_iff`, `rasterize_perm`.  


### C11 select_datetimes returns the selected subset and nothing else — partial

select_datetimes returns a mask the length of its input; every selected datetime lies in [start, end] and is within maxdt of some snap time, each snap time selects at most one datetime and selects a nearest one; without snap every datetime in range is selected.

*For:* every strictly increasing sequence of datetimes and every combination of start, end, snap and maxdt.  
*Model:* Model/Datetimes. *Proofs:* Props/Datetimes.  
*Theorems:* `select_datetimes_range`, `select_datetimes_snap`, `select_datetimes_single_violated`.  
*Note:* At least two datetimes when snapping; a single datetime with snap raises (select_datetimes_single_violated).

### C12 datetime_range is the arithmetic progression that fits — proved

datetime_range(start, stop, step) returns exactly start + k*step for those k >= 0 with value <= stop, in increasing order.

*For:* every start, stop and positive step.  
*Model:* Model/Datetimes. *Proofs:* Props/Datetimes.  
*Theorems:* `datetime_range_exact`, `datetime_range_zero_step`.  


### C13 The camera rotation matrix is a proper rotation — proved

For every view direction, Camera.R satisfies R Rᵀ = I and det R = 1, so distances and handedness are preserved by the world-to-camera transformation.

*For:* every (yaw, pitch, roll) in degrees.  
*Model:* Model/Camera. *Proofs:* Props/CameraRotation.  
*Theorems:* `R_mul_transpose`, `R_det`, `R_eq_documented`, `R_preserves_inner`.  


### C14 Camera.Rprime is the derivative of the inverse rotation — proved

Each slice of Camera.Rprime is the partial derivative, per degree, of the matrix that the optimizer multiplies with the ray directions, for yaw, pitch and roll.

*For:* every (yaw, pitch, roll).  
*Model:* Model/Camera. *Proofs:* Props/CameraRotation.  
*Theorems:* `Rprime_deriv`.  


### C15 Projection and back-projection are inverse — partial

Without lens distortion, uv_to_xyz returns for every image point a ray that xyz_to_uv(directions=True) maps back to the same image point; and for a world point in front of the camera the ray through its image point passes through the world point.

*For:* every camera (any position, view direction, focal length > 0, principal point), every image point, every world point in front.  
*Model:* Model/Camera. *Proofs:* Props/CameraProjection, Props/Distortion.  
*Theorems:* `uv_to_xyz_to_uv`, `uv_to_xyz_to_uv_ideal`, `xyz_to_uv_to_xyz_ideal`, `uv_to_xyz_to_uv_k1`, `idealize_center`, `uv_to_xyz_vector_depth_violated`.  
*Note:* The inverse property itself is proved for every camera, point and scalar depth (and for any lens where undistortion is exact); the documented vector depth always raises (uv_to_xyz_vector_depth_violated).

### C16 Points behind the camera never get image coordinates — proved

xyz_to_uv returns NaN for a point exactly when Camera.infront is False for it (no elevation correction), and every point produced by uv_to_xyz is in front.

*For:* every camera and every world point.  
*Model:* Model/Camera. *Proofs:* Props/CameraProjection.  
*Theorems:* `xyz_to_uv_nan_iff`, `directions_nan_iff`, `uv_to_xyz_infront`, `inframe_not_nan`, `infront_correction_violated`.  
*Note:* infront ignores the elevation correction, so with one the two disagree (infront_correction_violated).

### C17 Millimetre and pixel internals stay consistent — proved

With a sensor size, reading fmm/cmm, writing them back leaves f/c unchanged; writing fmm then reading returns the written value; resize leaves fmm and cmm unchanged when the aspect ratio is preserved exactly.

*For:* every camera with non-zero sensor and image size.  
*Model:* Model/Camera. *Proofs:* Props/CameraResize.  
*Theorems:* `fmm_read_write`, `fmm_write_read`, `cmm_read_write`, `cmm_write_read`, `mm_requires_sensor`, `resize_keeps_mm`, `resize_fraction_violated`.  
*Note:* Resizing keeps fmm and cmm even when the aspect ratio changes; only a forced fractional target size breaks it (resize_fraction_violated).

### C18 Resizing is history independent — proved

After any sequence of resize calls the camera equals the camera after only the last one: size is computed from the original image size, f and c keep their ratio to the image size, and resize(1) restores the original imgsz, f and c; R, position and distortion are never changed.

*For:* every camera and every finite history of resize calls with positive resulting sizes.  
*Model:* Model/Camera. *Proofs:* Props/CameraResize.  
*Theorems:* `resize_history_independent`, `resize_one_restores`, `runResizes_shape`, `resize_factor_size`, `resize_target_size_partial`, `resize_target_half_violated`, `resize_to_zero_violated`, `reset_copy`.  
*Note:* For histories in which the image size stays positive (otherwise false: resize_to_zero_violated). The size reached for a target size: resize_target_size_partial and its counterexample.

### C19 One-parameter undistortion is exact — partial

For a camera with only k[0] non-zero, undistort followed by distort returns the original point wherever the closed form returns a real root, and for k[0] > 0 every point has exactly one undistorted position.

*For:* every k1 and every normalized image point.  
*Model:* Model/Camera. *Proofs:* Props/Distortion.  
*Theorems:* `distort_undistort_k1_partial`, `undistort_distort_k1_partial`, `k1_pos_unique`, `undistort_k1_axis_violated`.  
*Note:* Exact for every k1 and every point off the vertical axis; points with x = 0 are all sent to the centre (undistort_k1_axis_violated). Uniqueness for k1 > 0 is proved without restriction.

### C20 Iterative undistortion only returns solutions when it has converged — proved

If an iteration of the Oulu scheme leaves a point unchanged then distorting that point gives the observed point; conversely a true undistorted point is a fixed point; with no distortion it returns its input.

*For:* every distortion, point where its radial factor is not zero, and iteration count.  
*Model:* Model/Camera. *Proofs:* Props/Distortion.  
*Theorems:* `oulu_fixed_is_solution`, `oulu_solution_is_fixed`, `undistort_none`, `oulu_early_exit`, `oulu_exit_first`, `oulu_default_violated`.  
*Note:* Where the radial factor is non-zero. The default call does not report non-convergence: oulu_default_violated.

### C21 Camera.rasterize accepts every in-frame point — partial

Camera.rasterize never fails on finite points: in-frame points are averaged in their pixel and others ignored.

*For:* every point set.  
*Model:* Model/Camera. *Proofs:* Props/CameraRasterize.  
*Theorems:* `camera_rasterize_partial`, `camera_rasterize_raises_iff`.  
*Note:* False as stated: raises exactly when an in-frame point is on the right or lower border; otherwise proved in full.

### C22 Grid indices and coordinates are inverse — proved

For a grid with any axis directions, rowcol_to_xy of a valid cell lies inside the grid and xy_to_rowcol returns that same cell; rowcol_to_idx/idx_to_rowcol and xyz_to_uv/uv_to_xyz are mutually inverse.

*For:* every grid size, limits (ascending or descending) and cell.  
*Model:* Model/Grid. *Proofs:* Props/Grid.  
*Theorems:* `inbounds_xy_iff`, `inbounds_vectors_agree`, `rowcol_to_xy_center`, `rowcol_to_xy_inbounds`, `xy_to_rowcol_of_rowcol`, `rowcol_to_xy_of_xy`, `xy_to_rowcol_snap_of_rowcol`, `idx_to_rowcol_of_rowcol`, `idx_to_rowcol_raises`, `rowcol_to_idx_of_idx`, `rowcol_to_idx_returns_iff`, `idx_to_rowcol_returns_iff`, `uv_to_xy_of_xy`, `xy_to_uv_of_uv`, `uv_corners`, `axis_centers_spec`, `grid_XY_spec`.  
*Note:* In exact arithmetic; in double precision see C123, where it can be one cell off.

### C23 Snapping is to the nearest cell centre (or edge) inside the grid — proved

snap_xy(xy, centers=True) of an in-bounds point is a cell centre of the grid, at most half a cell away along each axis, and xy_to_rowcol is the cell of that centre; every in-bounds point including the outer border gets a valid row and column.

*For:* every grid and every in-bounds point.  
*Model:* Model/Grid. *Proofs:* Props/Grid.  
*Theorems:* `snap_centers_spec`, `snap_ties`, `snap_not_inbounds_border`, `snap_edges_spec`, `snap_both_spec`, `snap_centers_idempotent`, `snap_raises_iff`, `snap_box_spec`.  
*Note:* In exact arithmetic; in double precision see C123, where it can be one cell off.

### C24 crop_extent returns the smallest cell window covering the requested box — proved

crop_extent gives row/column ranges and limits such that the window is aligned with the grid, covers the intersection of the request with the grid, and no smaller aligned window does; it raises when they do not overlap.

*For:* every grid orientation and every requested box.  
*Model:* (see Props). *Proofs:* Props/GridCrop.  
*Theorems:* `crop_extent_raises_iff`, `crop_extent_spec`, `crop_extent_none`.  
*Note:* In exact arithmetic; in double precision see C123, where it can be one cell off.

### C25 Tiles partition the grid — partial

tile_indices without overlap returns slices that cover every cell exactly once for any grid and tile size; with overlap every tile is extended by at most `overlap` cells per side and never reaches outside the grid.

*For:* every grid size, tile size and overlap.  
*Model:* (see Props). *Proofs:* Props/GridTiles.  
*Theorems:* `tiles_partition`, `tiles_overlap`, `tiles_overlap_cover`, `tile_widths`, `tile_exact`, `tile_whole`, `roundHalfEven_spec`, `tiles_overlap_violated`.  
*Note:* Proved whenever the overlap is at most the tile size; with a larger overlap the statement is false (tiles_overlap_violated).

### C26 Grid coordinate caches never go stale — partial

After any sequence of reads and writes (x, X, y, Y, xlim, ylim, shift, resize, size), x, y, X, Y equal the values computed from the current limits and size.

*For:* every finite history of public operations on a grid.  
*Model:* Model/GridState. *Proofs:* Props/GridState.  
*Theorems:* `grid_coordinates_fresh_partial`, `grid_shift_spec`, `grid_new_limits_refresh`, `grid_from_centers`, `grid_size_stale_violated`, `grid_X_view_violated`, `grid_matrices_shift_violated`, `grid_int_x_stale_violated`, `grid_default_shift_violated`, `grid_from_X_two_columns_violated`.  
*Note:* False as stated: the size setter keeps coordinates, X may be a view of x, integer coordinates are not shifted. Proved for all histories avoiding these.

### C27 Raster.shift moves the raster by exactly (dx, dy, dz) — partial

After Raster.shift(dx, dy, dz) the limits, coordinate vectors, array and interpolated samples are those of the raster translated once by (dx, dy, dz), whatever was cached before.

*For:* every raster, every cache state and every shift.  
*Model:* Model/RasterState. *Proofs:* Props/RasterState.  
*Theorems:* `raster_fresh_partial`, `raster_shift_partial`, `raster_shift_dy_raises_violated`, `raster_shift_double_violated`, `raster_xlim_stale_violated`, `raster_limits_stale_violated`, `raster_shift_dz_violated`.  
*Note:* False as stated once an interpolator is cached; proved for all histories that change limits or shift in x, y only while none is.

### C28 data_extent is the tight window of data — proved

data_extent covers every non-missing cell and each of its four borders contains a non-missing cell.

*For:* every array.  
*Model:* Model/RasterWindow. *Proofs:* Props/RasterWindow.  
*Theorems:* `data_extent_raises_iff`, `data_extent_spec`.  


### C29 Raster interpolation in time interpolates — partial

RasterInterpolant returns the stored raster at stored positions (method linear), and between two neighbours a value between theirs, affine in position; nearest returns a raster at minimal distance; extrapolation follows the documented mode.

*For:* every sorted set of means and every query.  
*Model:* Model/RasterInterp. *Proofs:* Props/RasterInterp.  
*Theorems:* `nearest_spec`, `nearest_extrapolate_spec`, `interpolate_affine`, `interpolate_missing`, `interpolant_between`, `interpolant_stored_extrapolate`, `interpolant_stored_violated`, `sigma_ge`, `sigma_first`.  
*Note:* Proved for rasters on one grid, strictly between stored positions, and at stored positions with extrapolate=True; with the default extrapolate=False every stored position fails (interpolant_stored_violated).

### C30 Converters to other camera formats are exact when the models coincide — proved

Camera -> Agisoft/OpenCV/Matlab/PhotoModeler -> projection gives the same image coordinates for every normalized point whenever the target model can represent the camera (Agisoft, Matlab: no k4-k6; OpenCV: always; PhotoModeler: square pixels, no distortion), and the conversion back recovers the camera.

*For:* every camera in the stated class and every normalized camera point.  
*Model:* Model/Converters. *Proofs:* Props/Converters.  
*Theorems:* `Convert.agisoft_from_exact`, `Convert.agisoft_to_exact`, `Convert.agisoft_round_trip`, `Convert.opencv_from_exact`, `Convert.opencv_to_exact`, `Convert.opencv_round_trip`, `Convert.opencv_arrays`, `Convert.opencv_matrix`, `Convert.matlab_from_exact`, `Convert.matlab_to_exact`, `Convert.matlab_round_trip`, `Convert.photomodeler_from_exact`, `Convert.photomodeler_to_exact`, `Convert.photomodeler_round_trip`, `Convert.photomodeler_no_sensor`, `Convert.converter_residuals_zero`, `Convert.agisoft_k4_not_exact`, `Convert.converted_position`.  
*Note:* Real numbers; file readers and the least-squares optimization of inexact conversions are not modelled.

### C31 Particle resampling always draws existing particles — proved

For every resampling method, every random draw and every weight vector with positive sum, exactly n indices in [0, n) are drawn, systematic and stratified draws are sorted, and afterwards particles and weights are those of the drawn indices.

*For:* every n, weights and random numbers.  
*Model:* Model/Resample. *Proofs:* Props/Resample.  
*Theorems:* `Resample.drawIndexes_valid`, `Resample.resampleParticles_spec`.  
*Note:* All four methods, all random numbers in [0, 1). Residual resampling uses numpy's binary search on a possibly unsorted, possibly non-finite array as it is implemented. In exact arithmetic; in double precision see C124, where an IndexError is possible.

### C32 Systematic resampling respects the weights — partial

With systematic resampling particle i is drawn either floor(n*w_i) or ceil(n*w_i) times, for every random offset; with stratified resampling within one of it on both sides (at most 2 off); a particle with zero weight is never drawn.

*For:* every n, normalized weights and random offset.  
*Model:* Model/Resample. *Proofs:* Props/Resample.  
*Theorems:* `Resample.systematic_count_partial`, `Resample.systematic_zero_offset_violated`, `Resample.stratified_count`, `Resample.stratified_zero_weight`, `Resample.systematic_zero_weight`, `Resample.choice_zero_weight`.  
*Note:* Proved for every offset in (0, 1); for the offset 0, which np.random.random can return, a first particle of zero weight is drawn.

### C33 Residual resampling keeps the integer part of the expected copies — partial

With residual resampling particle i is drawn at least floor(n*w_i) times, and the remaining draws follow the fractional parts n*w_i - floor(n*w_i).

*For:* every n, normalized weights and random numbers.  
*Model:* Model/Resample. *Proofs:* Props/Resample.  
*Theorems:* `Resample.residual_count_partial`, `Resample.residual_fraction_violated`, `Resample.residual_fraction_violated_case`.  
*Note:* The floor part is proved. The fractional part is false: interior particles with less than one expected copy are never drawn once the integer parts sum to two or more.

### C34 parse_datetimes returns matched, strictly ordered times — proved

Tracker.parse_datetimes either raises or returns strictly monotone datetimes, a subset of the requested ones, each within maxdt of an image of an observer, with at least two elements.

*For:* every set of observers, requested datetimes and tolerance.  
*Model:* Model/Tracker. *Proofs:* Props/TrackerTimes.  
*Theorems:* `Tracker.parse_datetimes_spec`, `Tracker.parse_datetimes_raises_iff`.  
*Note:* Also complete: exactly the requested times with an image within maxdt are kept, and it raises exactly when fewer than two remain or the times are not monotone.

### C35 match_datetimes assigns each time the nearest image or none — proved

For each time and observer the matched image index is one with minimal time distance, and None exactly when that distance exceeds maxdt.

*For:* every observer, datetimes and maxdt.  
*Model:* Model/Tracker. *Proofs:* Props/TrackerTimes.  
*Theorems:* `Tracker.match_datetimes_spec`.  
*Note:* Timestamps are exact integers (no daylight saving time).

### C36 Tracks are defined exactly on their observed window — partial

For each track, means and covariances are non-NaN exactly between the first and last time at which one of its observers has an image, the first mean is that of the initial particles at the first such time, and each step advances by the time difference and then weights and resamples.

*For:* every observation mask, number of times and observers.  
*Model:* Model/Tracker. *Proofs:* Props/Tracker.  
*Theorems:* `Tracker.track_window`, `Tracker.track_steps`, `Tracker.track_first_last`, `Tracker.track_window_unobserved_violated`, `Tracker.track_unmatched_observer_violated`.  
*Note:* Proved for every completed track with at least one image, over abstract particles, templates and likelihoods. False for a track without any image (all times are recorded), and an observer without matching images makes the track fail.

### C37 Track results do not depend on scheduling, and one failing track does not affect others — partial

Track k's result is a function of its own inputs and random numbers; for any order in which workers finish, results are in input order, and with two or more tracks an error in one track is recorded for it and leaves all others unchanged.

*For:* every number of tracks, schedule and set of failing tracks.  
*Model:* Model/Tracker. *Proofs:* Props/Tracker.  
*Theorems:* `Tracker.process_frame`, `Tracker.track_all_independent`, `Tracker.track_single`, `Tracker.track_parallel`, `Tracker.track_all_unbuildable_violated`.  
*Note:* Proved for all tasks and worker states, given each track's random numbers; false for exceptions whose class cannot be built from one message.

### C38 Cartesian motion integrates exactly — partial

evolve_particles advances x by v*t + a*t²/2 and v by a*t; with zero acceleration, evolving by t1 then t2 equals evolving by t1+t2 and evolving by t then -t is the identity; cylindrical evolution with zero acceleration preserves speed.

*For:* every particle state, time step and acceleration draw.  
*Model:* Model/Motion. *Proofs:* Props/Motion.  
*Theorems:* `Motion.initial_exact`, `Motion.initial_spread`, `Motion.cartesian_step`, `Motion.cartesian_compose`, `Motion.cartesian_reverse`, `Motion.cartesian_steps`, `Motion.base_steps`, `Motion.cylindrical_zero_acceleration`, `Motion.cylindrical_radial`, `Motion.cylindrical_turn_speed`, `Motion.cylindrical_rest_violated`, `Motion.cylindrical_default_violated`, `Motion.timeUnits_add`, `Motion.timeUnits_scale`.  
*Note:* Proved for Cartesian motion (any constant acceleration) and moving particles in cylindrical motion; a resting particle in cylindrical motion becomes NaN. Real numbers.

### C39 Tangent motion stays on the surface — proved

With zero slope noise a tangent-motion particle keeps its height above the DEM through any sequence of evolutions.

*For:* every DEM, particle and sequence of time steps.  
*Model:* Model/Motion. *Proofs:* Props/Motion.  
*Theorems:* `Motion.tangent_step_height`, `Motion.tangent_cartesian_height`, `Motion.tangent_cylindrical_height`, `Motion.tangent_horizontal`.  
*Note:* Any DEM, any sequence of steps; for cylindrical tangent motion as long as the particle never stops (then it is NaN).

### C40 Observer.split covers all images — partial

Splitting an observer at given breaks returns observers whose images, in order, cover every image of the original within the breaks, sharing exactly the requested number of overlapping images.

*For:* every observer and list of breaks.  
*Model:* Model/Observer. *Proofs:* Props/Observer.  
*Theorems:* `Observer.split_breaks`, `Observer.split_int`, `Observer.split_int_exact`, `Observer.subset_spec`, `Observer.mk_spec`, `Observer.index_spec`, `Observer.split_int_violated`, `Observer.split_int_violated'`.  
*Note:* Proved in full for datetime breaks. For a number of parts: proved when the length is a multiple of n microseconds; otherwise images at the end can be lost (split_int says exactly which).

### C41 SVG coordinates survive a write/read round trip — partial

For every list of points, writing as polyline, polygon, path, line, rect or circle and reading back gives the same points (with a closing point for closed shapes).

*For:* every list of coordinates.  
*Model:* Model/Svg. *Proofs:* Props/SvgText.  
*Theorems:* `Svg.svg_polyline_round_trip`, `Svg.svg_polygon_round_trip_partial`, `Svg.svg_polygon_point_violated`, `Svg.svg_line_round_trip`, `Svg.svg_circle_round_trip`, `Svg.bbox_spec`, `Svg.svg_rect_round_trip`, `Svg.svg_rect_of_rect`, `Svg.svg_viewbox_round_trip`, `Svg.svg_path_round_trip_partial`, `Svg.svg_path_point_violated`, `Svg.pyFmt_faithful`, `Svg.intFmt_faithful`.  
*Note:* Proved at the level of characters for every list of points and every numeral format that reads back what it writes (proved for int, assumed of float repr). False for paths of fewer than two points (what is written cannot be read) and for polygons of one point; both proved as violations.

### C42 SVG transforms compose — partial

Applying a transform attribute to points equals applying the matrix product of its parts; translate/scale/matrix agree with their matrix forms; nested groups compose in the order given by the SVG standard.

*For:* every transform list and point.  
*Model:* Model/SvgRead. *Proofs:* Props/SvgTransform.  
*Theorems:* `Svg.svg_transform_listed_order`, `Svg.svg_transform_nested`, `Svg.svg_transform_reversed`, `Svg.svg_transform_standard_partial`, `Svg.svg_transform_unknown`, `Svg.svg_transform_as_matrix`, `Svg.svg_transform_order_violated`.  
*Note:* The matrix forms are proved; the order is that of the text, the reverse of the SVG standard's (proved), so the claim about order holds only for functions that commute.

### C43 Image.read returns the same pixels whether cached or not — partial

For any history of read calls and camera resizes, Image.read(box) equals the requested window of the image at the camera's current size, independent of what has been cached.

*For:* every history of reads with any box and cache flag interleaved with resizes.  
*Model:* Model/ImageRead. *Proofs:* Props/ImageRead.  
*Theorems:* `ImageRead.image_read_partial`, `ImageRead.image_read_then_cached`, `ImageRead.run_cached`, `ImageRead.round_half_even`, `ImageRead.image_read_box_resized_violated`, `ImageRead.image_read_stale_size_violated`.  
*Note:* Proved for every file, box and history of reads, resizes and clearings, except for an uncached read of a box while the camera size differs from the cached (or file) size: there the code returns an array of the whole camera image's size, proved as a violation. GDAL is a parameter with stated guarantees.

### C44 Camera parameter selection selects exactly what is named — partial

Cameras.parse_params marks exactly the named elements of the named attributes, with their bounds; True selects all elements of the attribute, None or False selects none.

*For:* every parameter dictionary.  
*Model:* Model/Cams. *Proofs:* Props/CamsParams.  
*Theorems:* `Cams.parse_params_partial`, `Cams.parse_params_false_violated`, `Cams.parse_params_none_bounds_violated`, `Cams.parse_params_beyond_violated`, `Cams.parse_params_indices`, `Cams.parse_params_bounds_number`.  
*Note:* Proved for selections by True, indices within the attribute, and None without bounds. False where the code differs (each proved): False selects element 0; (None, min, max) writes bounds of the attribute before it or raises UnboundLocalError; an index beyond the attribute selects an element of the next. What every list of integer indices selects or raises, and that bounds of the wrong number raise ValueError, is proved (parse_params_indices, parse_params_bounds_number).

### C45 Fitting parameters land on the right cameras and can be undone — partial

set_cameras writes each group value to every camera of the group and each camera value to its camera and changes nothing else; reset_cameras restores the last saved state; predicted(params) leaves the cameras as they were.

*For:* every number of cameras, groups, masks and every history.  
*Model:* Model/Cams. *Proofs:* Props/CamsSet.  
*Theorems:* `Cams.set_cameras_partial`, `Cams.set_cameras_no_group_violated`, `Cams.test_overlap_sound`, `Cams.reset_restores_saved`, `Cams.reset_restores_initial`, `Cams.predicted_restores_partial`, `Cams.predicted_raises_violated`, `Cams.slots_nodup`.  
*Note:* Proved for every layout that passes the code's overlap check. False (proved) for cameras in no group, whose own parameters are never written, and for predicted(params) that raises, which leaves the cameras changed.

### C46 The Jacobian sparsity pattern is sound — proved

If a parameter can influence the residuals of a control, the sparsity matrix has a one at that (residual, parameter) position.

*For:* every set of cameras, groups, masks and controls.  
*Model:* Model/Cams. *Proofs:* Props/CamsSet.  
*Theorems:* `Cams.sparsity_sound`, `Cams.sparsity_iff`.  
*Note:* For every layout and every residual function that depends only on the control's cameras.

### C47 ransac returns a consensus that meets its criteria — proved

When ransac returns, params come from a fit to a sample with its inliers (more than min_inliers beyond the sample), minimal in mean error among valid samples, and the returned inliers are exactly the observations with error <= max_error; otherwise it raises; samples are pairwise distinct n-subsets.

*For:* every model and every sequence of random samples.  
*Model:* Model/Ransac. *Proofs:* Props/Ransac.  
*Theorems:* `Ransac.ransac_spec`, `Ransac.ransac_raises_iff`, `Ransac.ransac_samples_distinct`, `Ransac.ransac_samples_complete`, `Ransac.ransac_samples_zero_violated`, `Ransac.ransac_min_inliers_violated`.  
*Note:* For every model (fit may fail or raise) and every sequence of shuffles. The number of combinations is exact (the code estimates it by lgamma). With n = 0 and iterations > 1 the sample generator never ends (proved), so ransac does not return.

### C48 Filtering matches keeps all their arrays aligned — partial

After filter, the k-th kept point pair, its weight and its prediction belong to the same original match, exactly those meeting the criteria are kept in order, and at most n_best are kept by descending weight.

*For:* every match set, type and filter arguments.  
*Model:* Model/Matches. *Proofs:* Props/Matches.  
*Theorems:* `Matches.matches_filter_partial`, `Matches.matches_filter_at_most`, `Matches.rotation_filter_violated`, `Matches.rotation_xyz_filter_raises_violated`, `Matches.rotation_xy_only_violated`, `Matches.filter_zero_violated`, `Matches.matches_new_ok_iff`.  
*Note:* Proved for Matches and for RotationMatchesXY without image coordinates. False (proved) for objects with both image and camera coordinates, whose camera coordinates are never filtered, for RotationMatchesXYZ (raises), and for limits equal to zero, which are ignored.

### C49 Dropping images keeps the remaining matches attached to the right images — proved

After drop_images, every remaining match refers to the same two images as before, no match involves a dropped image, and every remaining image has a match.

*For:* every match matrix and image set.  
*Model:* Model/Keypoints. *Proofs:* Props/KeypointPairs.  
*Theorems:* `Kp.drop_images_spec`, `Kp.drop_images_keypoints_violated`.  
*Note:* For every matrix of matches that refer to existing images. In-memory keypoints are not re-indexed (drop_images_keypoints_violated), which the property does not claim.

### C50 build_matches matches exactly the documented pairs — partial

The pairs matched are exactly the (i, j), i < j, with time separation <= maxdt or j - i in seq (all pairs if neither is given), and when imgs is given, those with i or j in imgs.

*For:* every set of datetimes, maxdt, seq and imgs.  
*Model:* Model/Keypoints. *Proofs:* Props/KeypointPairs.  
*Theorems:* `Kp.match_pairs_exact`, `Kp.match_pairs_imgs_partial`, `Kp.match_pairs_imgs_violated`, `Kp.match_matrix_aligned`, `Kp.match_matrix_shape`, `Kp.match_matrix_shape_violated`.  
*Note:* Proved without imgs, for every list of times, maxdt and seq. With imgs only pairs whose second image is listed are matched (proved), against the documentation. The documented (n, n) shape of the matrix is never produced (proved).

### C51 Keypoint building can be interrupted and resumed — partial

After build_keypoints with a path every image has a keypoint file, a second run does no detection, a run interrupted between files and restarted gives the same files, and overwrite=True recomputes every image.

*For:* every set of existing files and cached keypoints, every crash point, every flag.  
*Model:* Model/Keypoints. *Proofs:* Props/KeypointFiles.  
*Theorems:* `Kp.keypoints_all_files`, `Kp.keypoints_second_run`, `Kp.keypoints_resume_partial`, `Kp.keypoints_torn_raises_violated`, `Kp.keypoints_torn_kept_violated`, `Kp.keypoints_torn_reachable`, `Kp.keypoints_overwrite_partial`, `Kp.keypoints_overwrite_file_violated`, `Kp.keypoints_overwrite_memory_violated`, `Kp.keypoints_returned`.  
*Note:* Proved for any number of interruptions between files, under any schedule. False (proved) for a crash inside the writing of a file, and for overwrite=True when keypoints exist in exactly one of file and memory.

### C52 Histogram matching is monotone and bounded — proved

compute_cdf returns sorted unique values with a non-decreasing cumulative fraction ending at 1; match_cdf preserves shape and the order of pixel values and returns only values within the range of the target.

*For:* every non-empty array.  
*Model:* Model/Cdf. *Proofs:* Props/Cdf.  
*Theorems:* `compute_cdf_correct`, `compute_cdf_quantiles`, `match_cdf_monotone_bounded`, `match_cdf_exact_at_quantile`, `match_cdf_self`.  


### C53 clip_polyline_box keeps exactly the in-box runs, extended to the box boundary — partial

clip_polyline_box returns one piece per maximal run of polyline vertices inside the box, in order; every vertex of a piece is in the box; the piece starts where its incoming edge enters the box and ends where its outgoing edge leaves it.

*For:* every polyline and box of any dimension, every position of vertices relative to the box.  
*Model:* (see Props). *Proofs:* Props/Clip.  
*Theorems:* `clip_polyline_pieces_partial`, `edge_box_enters`, `edge_box_leaves`, `clip_polyline_empty`, `clip_polyline_exit_violated`, `clip_polyline_face_violated`.  
*Note:* Full except two cases where the code is wrong, shown as counterexamples: exit lost when the last in-box vertex is where the line touches the boundary, entrance lost on an edge inside an x-face.

### C54 ObserverCameras.fit optimizes with the gradient of its objective — partial

The gradient that ObserverCameras.fit hands to the optimizer is, for every camera angle, the derivative of the objective it hands over (wherever the objective is differentiable).

*For:* every pair of view directions and every matched pair of points.  
*Model:* Model/ObserverCameras. *Proofs:* Props/ObserverCameras.  
*Theorems:* `observer_gradient_partial`, `observer_gradient_violated`, `predictedXyz_unit`.  
*Note:* False as stated: the first camera's gradient is the true one times the ray length, the second camera's is not its derivative at all.

### C55 Spherical coordinates are exact and invertible — proved

spherical_to_xyz gives the direction with the documented azimuth and altitude, at the given distance from the camera; xyz_to_spherical and spherical_to_xyz are inverse, with azimuth in [0, 360) and altitude in [-90, 90].

*For:* every world point other than the camera position; every azimuth, altitude and positive distance.  
*Model:* Model/Camera. *Proofs:* Props/Spherical.  
*Theorems:* `spherical_to_xyz_spec`, `directionOf_unit`, `xyz_to_spherical_to_xyz`, `direction_to_spherical_to_xyz`, `spherical_to_xyz_to_spherical`.  


### C56 Windows of a raster never move data — partial

crop_to_data, crop and indexing of a raster return cells with the content and the position they had before; crop_to_data keeps every cell with data and has data on all four borders; crop keeps every cell whose centre is within the bounds and blanks exactly the values outside zlim; indexing selects the cells numpy would; each raises exactly when nothing is selected.

*For:* every raster (both axis orientations), bounds, integer and slice indices.  
*Model:* Model/RasterWindow. *Proofs:* Props/RasterWindow.  
*Theorems:* `crop_to_data_spec`, `crop_spec`, `getitem_spec_partial`, `getitem_minus_one_violated`, `getitem_reverse_violated`.  
*Note:* crop and crop_to_data in full; indexing except negative integers (-1 always raises) and reversed selections of two cells.

### C57 Raster.read does not depend on the cache — partial

For any history of read calls, array accesses and cache clearings, Raster.read(box) returns the pixels of that box of the opened window, and array returns all of them.

*For:* every file, window, history of reads with any box and cache flag.  
*Model:* Model/RasterRead. *Proofs:* Props/RasterRead.  
*Theorems:* `raster_read_partial`, `raster_read_out_raises`, `raster_read_box_cached_violated`, `raster_read_box_empty_violated`.  
*Note:* Proved for every history that does not read a box with caching before the array is cached; that case is wrong on every raster. Full resolution only (other cell sizes: C140).

### C58 RasterInterpolant resamples to the target cell size — partial

Called with d, RasterInterpolant uses rasters with cells of size d (the largest cell size of the two rasters by default).

*For:* every grid and target size.  
*Model:* Model/RasterInterp. *Proofs:* Props/RasterInterp.  
*Theorems:* `target_cell_size_violated`, `target_cell_size_same_partial`.  
*Note:* False: a target k times coarser gives cells k times finer. Proved only when the size does not change.

### C59 Resampling preserves the weighted mean — partial

When every particle's expected number of copies is whole, resampling changes only the representation of the distribution: the tracker's weighted mean of the particles is the same before and after.

*For:* every set of particles and weights, every random draw.  
*Model:* Model/Resample. *Proofs:* Props/ResampleMean.  
*Theorems:* `Resample.systematic_total`, `Resample.resample_mean_squares`, `Resample.resample_mean_violated`, `Resample.resample_mean_equal_partial`.  
*Note:* False: the weights are kept after resampling and so applied twice (resample_mean_squares). Proved for equal weights.

### C60 Template and search tiles are aligned to the pixel — proved

A template has exactly the requested size, lies in the image, and its recorded offset is within half a pixel; the search box holds the template around every particle, the error image has more cells than the spline degree, sampling at particles never fails, and a cell of the error image is placed exactly where that displacement of the template moves the tracked point; the image is skipped exactly when the search box reaches out of it.

*For:* every projected mean, set of particles, template size, image size and spline degree.  
*Model:* Model/Tiles. *Proofs:* Props/Tiles.  
*Theorems:* `Tiles.template_spec`, `Tiles.search_spec`.  
*Note:* Positions only (pixel values, cv2.matchTemplate and the spline are not modelled); rational coordinates.

### C61 SVG paths are read as the standard says — partial

Reading a path gives the vertices that the SVG standard gives for its commands: absolute and relative moves, lines, horizontal and vertical lines, end points of curves and arcs, and closings back to the start of the current subpath.

*For:* every sequence of path commands with any number of parameters.  
*Model:* (see Props). *Proofs:* Props/SvgPath.  
*Theorems:* `Svg.svg_path_read_partial`, `Svg.svg_path_no_start`, `Svg.svg_path_two_rings_violated`, `Svg.svg_path_blank_violated`.  
*Note:* Proved from the characters up for every path starting with a move whose later subpaths are not closed. False for two closed subpaths and for a text that starts with a blank (proved).

### C62 svg.read returns every shape once, in image coordinates — proved

read returns the vertices of every supported element exactly once, under its name in the dictionary of its group (a list if the name repeats), transformed and expressed in the frame in which the last image spans (0, 0) to imgsz (or its own size); imgsz without an image raises.

*For:* every document tree, transforms, image position and size.  
*Model:* (see Props). *Proofs:* Props/SvgRead.  
*Theorems:* `Svg.svg_read_spec`, `Svg.svg_group_lookup`, `Svg.svg_image_frame`, `Svg.svg_read_imgsz_needs_image`.  
*Note:* Transforms in the code's order (see C42); images of zero width or height excluded; XML parsing and namespaces not modelled.

### C63 Match files hold the matches of their pair — partial

With a path, build_matches stores each pair's matches in its own file; a second run without overwrite computes nothing and gives the same matches; overwrite recomputes all.

*For:* every set of image names, pairs and existing files.  
*Model:* Model/Keypoints. *Proofs:* Props/KeypointPairs.  
*Theorems:* `Kp.match_file_injective_partial`, `Kp.match_file_injective_length_partial`, `Kp.match_file_collision_violated`, `Kp.match_files_distinct_partial`, `Kp.match_files_resume`, `Kp.match_files_shared_violated`.  
*Note:* Proved when image names have no hyphen or equal length. False in general: two pairs can share a file name, and then the second pair gets the matches of the first.

### C64 Match counts and breaks — partial

matches_per_image and images_per_image count every match for exactly its two images; match_breaks lists exactly the images (but the last) with no match to a later image, or with fewer than min_matches.

*For:* every match matrix.  
*Model:* Model/Keypoints. *Proofs:* Props/KeypointPairs.  
*Theorems:* `Kp.matches_per_image_total`, `Kp.images_per_image_total`, `Kp.match_breaks_spec`, `Kp.match_breaks_single`, `Kp.match_breaks_min_violated`.  
*Note:* Counts and breaks proved; match_breaks with min_matches raises (proved) unless exactly one image has matches.

### C65 Fitting parameters match the cameras they are applied to — partial

Cameras.update_params gives the optimizer one parameter for every camera or group element being fitted, in the order in which set_cameras applies values, named uniquely after its owner and element, starting from its current value (mean over a group) and with its bounds; applying the initial values changes no camera when grouped cameras agree; default group bounds are the intersection of the cameras' bounds.

*For:* every number of cameras, groups, masks, camera state and bounds.  
*Model:* Model/CamsFit, Model/CamsScales. *Proofs:* Props/CamsFit, Props/CamsScales.  
*Theorems:* `Cams.update_params_spec`, `Cams.update_params_names`, `Cams.initial_values_identity`, `Cams.group_bounds_iff`, `Cams.group_bounds_empty_violated`, `Cams.default_bounds_violated`.  
*Note:* For every layout; the value given to lmfit is the current one. lmfit moves it into the bounds: a camera beyond the default bounds is then fit from another value (default_bounds_violated). Cameras whose bounds exclude each other give a group minimum above its maximum (proved), the empty intersection.

### C66 Fitting leaves cameras as it found them — partial

Cameras.fit returns fitted parameters without changing any camera: after it returns or raises, every camera has the vector it had before the call.

*For:* every optimizer behaviour (any sequence of evaluations), residual function, camera state and list of iterations.  
*Model:* Model/CamsFit, Model/ObserverFit. *Proofs:* Props/CamsFit, Props/ObserverFit.  
*Theorems:* `Cams.fit_restores_partial`, `Cams.fit_iterations_partial`, `Cams.fit_iterations_chain`, `Cams.fit_iterations_violated`, `Cams.fit_raises_violated`, `Cams.fit_saved`, `Cams.fit_iteration_groups_violated`, `Cams.fit_iteration_other_groups_violated`.  
*Note:* Proved for every optimizer (an arbitrary interaction tree of evaluations) when fit returns and no iterations are used. False (proved) if residuals raise, and with iterations when cameras changed since the last save; the iterations also ignore the model's groups.

### C67 Control weights are relative — proved

Weights given to Cameras keep their ratios and are scaled to a mean of one: multiplying all by a constant changes nothing and equal weights count as no weights.

*For:* every list of weights.  
*Model:* Model/CamsFit, Model/TracksStats. *Proofs:* Props/CamsFit, Props/TracksStats.  
*Theorems:* `Cams.weights_spec`, `Cams.weights_scale`, `Cams.weights_equal`, `Cams.weights_none_iff`.  
*Note:* Exact arithmetic over any ordered field.

### C68 Sparsity rows follow the residual index — partial

When fitting a subset of the observations, the rows of the sparsity matrix given to the optimizer are those of the selected residuals in the same order.

*For:* every list of residuals and every index (integers, negative integers, booleans).  
*Model:* Model/CamsFit. *Proofs:* Props/CamsFit.  
*Theorems:* `Cams.sparsity_rows_partial`, `Cams.sparsity_rows_bool_violated`, `Cams.fit_mask_rows`.  
*Note:* Proved for integer indices; false for boolean indices (proved).

### C69 Controls keep their position relative to the image — partial

Points, Lines and Matches given image coordinates at some image size keep the same relative position in the image: after any history of resizing cameras and controls (together or separately, including calls that raise), a resized control has its original coordinates times the ratio of the current to the original image size, and until it is itself resized its coordinates do not change.

*For:* every camera resize behaviour, number of controls sharing cameras and arrays, and history of resizes.  
*Model:* Model/Controls. *Proofs:* Props/Controls.  
*Theorems:* `Controls.controls_keep_position`, `Controls.controls_untouched`, `Controls.lines_merged`, `Controls.lines_uv_shared_violated`, `Controls.rotation_resize_violated`, `Controls.to_type_violated`.  
*Note:* Proved for every history of Points, Lines and Matches with positive image sizes in which no control is made from the uv attribute of a Lines object. False (proved) in that case, for the rotation matches (resize raises), and for matches converted with to_type between a resize of the camera and their own.

### C70 Controls never change the caller's arrays — proved

Making controls from an array and resizing cameras and controls never changes the array that was passed in.

*For:* every history of making and resizing controls.  
*Model:* Model/Controls. *Proofs:* Props/Controls.  
*Theorems:* `Controls.arrays_kept`.  
*Note:* For every history; arrays made by the program. (The uv attribute a Lines object makes for itself is changed in place, see C69.)

### C71 Lines are compared with the nearest projected point — partial

Lines.predicted returns for every observed image point the nearest point of the world lines as projected (in front of the camera, clipped to the view and sampled at the target density), and raises if the world lines are ray directions and the camera has moved.

*For:* every set of image points and projected world lines.  
*Model:* Model/InterpLine. *Proofs:* Props/InterpLine.  
*Theorems:* `Interp.lines_predicted_nearest`, `Interp.lines_predicted_raises`, `Interp.lines_predicted_returns`, `Interp.lines_in_front`, `Interp.lines_out_of_view`, `Interp.lines_short_violated`, `Interp.lines_in_view`.  
*Note:* Proved for all projected lines. False (proved) for lines shorter than half the target spacing, which lose all their points. Camera projection is a parameter.

### C72 Points at distances along a line — partial

interpolate_line returns the points at the given distances along a line (or n evenly-spaced points from its start to its end, or points at a nominal spacing), raises exactly if a distance is outside the line, or uses the fill values before its start and beyond its end.

*For:* every line with monotonic distances in any number of dimensions and all requested distances.  
*Model:* Model/InterpLine. *Proofs:* Props/InterpLine.  
*Theorems:* `Interp.interpolate_line_xi`, `Interp.cumulative_spec`, `Interp.interpolate_line_fill`, `Interp.interpolate_line_n`, `Interp.interpolate_line_dx_exact`, `Interp.interpolate_line_dx_count`, `Interp.interpolate_line_decreasing`, `Interp.interpolate_line_dx_short_violated`, `Interp.interpolate_line_dx_spacing_violated`, `Interp.interpolate_line_fill_decreasing_violated`.  
*Note:* Proved for increasing distances, given distances or numbers of points, and spacings that divide the length. False (proved): other spacings (short lines get no points, spacing up to 1.5 times too large) and fill values of decreasing distances (exchanged).

### C73 Exif values are those stored — partial

Exif properties return what the tags store: exposure, aperture and focal length are the exact quotient of the stored rational (None if absent or zero, ZeroDivisionError for a zero denominator), the image size and film speed the stored integers, the capture time the stored date with the sub-second digits as a decimal fraction of a second; parse_tag returns every other value as stored.

*For:* every tag dictionary, every rational, every valid date and every list of sub-second digits.  
*Model:* Model/Exif. *Proofs:* Props/Exif.  
*Theorems:* `Exif.number_exact`, `Exif.number_absent`, `Exif.integers_exact`, `Exif.parse_tag_other`, `Exif.parse_tag_pair_violated`, `Exif.datetime_exact`, `Exif.datetime_subsec`, `Exif.datetime_raises`, `Exif.datetime_nonexistent`.  
*Note:* Proved for all values of the properties of Exif and for all dates. False (proved) of parse_tag for tags that store two integers that are not a rational (returned as a quotient) or two rationals (raises). Floating-point division is modelled as exact.

### C74 Exif.dump writes every tag under its code — proved

dump succeeds exactly when every group is valid and every tag name has a code in its group, and what it writes has, group by group and tag by tag in order, the stored value under the tag's code: nothing is lost, duplicated or moved to another tag.

*For:* every tag dictionary and every table of codes.  
*Model:* Model/Exif. *Proofs:* Props/Exif.  
*Theorems:* `Exif.dump_group_exact`, `Exif.dump_ok_iff`, `Exif.dump_exact`, `Exif.dump_error`.  
*Note:* Codes of piexif are a parameter (assumed distinct within a group); the encoding to bytes by piexif is not modelled.

### C75 Track endpoints — proved

Tracks.endpoints returns which of the tracks have a valid datetime and, for these in order, the first and the last valid datetime; with no datetimes it raises. success says for each track whether no error was recorded.

*For:* every number of tracks and datetimes and every pattern of missing values.  
*Model:* Model/Exif. *Proofs:* Props/Exif.  
*Theorems:* `Tracks.endpoints_one`, `Tracks.endpoints_exact`, `Tracks.endpoints_raises`, `Tracks.success_exact`.  


### C76 Keypoint matches — partial

match_keypoints returns the coordinates of pairs of keypoints, in the order of the first image: each pair is a nearest match by descriptor distance; with cross_check also nearest in reverse; with max_ratio its distance is less than this multiple of the second best; with max_distance its coordinates are nearer than this; every keypoint whose unique best match passes the tests is returned; with masks only allowed pairs are considered; too few keypoints give no matches.

*For:* every list of keypoints, matrix of descriptor distances and arguments.  
*Model:* Model/MatchKp. *Proofs:* Props/MatchKp.  
*Theorems:* `MatchKp.match_keypoints_partial`, `MatchKp.match_keypoints_few`, `MatchKp.brute_nearest`, `MatchKp.match_keypoints_none_violated`, `MatchKp.match_keypoints_equal_violated`, `MatchKp.match_keypoints_single_violated`, `MatchKp.match_keypoints_mask_violated`.  
*Note:* Proved when no masks are given, second best distances are not zero and, with max_distance, some pair passes the other tests. False (proved) otherwise: with max_distance and no pairs it raises or returns flat arrays; identical second best descriptors raise ZeroDivisionError; single keypoints give no matches when ratios are asked; masks raise and are not transposed for the cross check. The descriptor matcher (OpenCV) is a parameter, assumed exact.

### C77 Circles of pixels — partial

bresenham_circle returns pixels of a connected closed path all within one pixel of the circle of the given centre and radius; fill_circle sets to the value exactly the pixels of the raster inside the circle and changes no others.

*For:* every centre, radius, raster and value.  
*Model:* Model/Circle. *Proofs:* Props/Circle.  
*Theorems:* `Circle.circle_near`, `Circle.circle_zero`, `Circle.ring_connected`, `Circle.circle_connected_violated`, `Circle.fill_circle_inside`, `Circle.fill_circle_zero`, `Circle.fill_circle_violated`, `Circle.fill_circle_flipped_violated`.  
*Note:* Proved: all pixels are within one pixel of the circle; fill_circle changes only pixels inside. False (proved): the returned path is not connected (diagonal steps of two quadrants are removed), so fill_circle leaves cells inside unfilled; raises for rasters whose x decreases.

### C78 Sampling at points — partial

Raster.sample(xy) returns for each point the bilinear average of the cells around it (order 1) or the value of the nearest cell (order 0), whatever the direction of the axes and also if the raster has a single row or column: exact at cell centres and for planes. With bounds_error it raises exactly if a point is outside; else points outside get the fill value and no other sample depends on it; without a fill value they are extrapolated.

*For:* every raster, list of points, order 0 or 1, bounds_error and fill_value.  
*Model:* Model/Sample, Model/SampleMissing. *Proofs:* Props/Sample, Props/SampleMissing.  
*Theorems:* `Sample.sample_linear_partial`, `Sample.sample_nearest_partial`, `Sample.sample_raises`, `Sample.around_exists`, `Sample.sample_center`, `Sample.sample_plane`, `Sample.sample_missing_linear`, `Sample.sample_missing_nearest`, `Sample.sample_missing_raises`, `Sample.sample_missing_none`, `Sample.used_exists`, `Sample.sample_int_fill_violated`, `Sample.sample_center_missing_violated`.  
*Note:* Proved for fill values that are floating-point numbers (or none), for all rasters: with missing cells, exactly which samples are missing is proved (sample_missing_linear, sample_missing_nearest). False (proved) for integer fill values, which truncate all samples to integers, and at the centre of a cell next to a missing one (sample_center_missing_violated): its own value is not returned. The interval search and blending of scipy 1.4.1 are modelled; arithmetic is exact.

### C79 Sampling on a grid — partial

Raster.sample(xy, grid=True) returns an array with a row for each y and a column for each x that holds the value of the surface there, missing only near missing cells; it leaves the raster unchanged whether it returns or raises; bounds and fill values are as for points.

*For:* every raster with missing cells, coordinate vectors, order, bounds_error and fill_value.  
*Model:* Model/Sample. *Proofs:* Props/Sample.  
*Theorems:* `Sample.sample_grid_partial`, `Sample.sample_grid_raises`, `Sample.sample_grid_unchanged_partial`, `Sample.sample_grid_error_violated`, `Sample.sample_grid_shape_violated`, `Sample.sample_grid_cell_violated`, `Sample.sample_grid_low_violated`.  
*Note:* Proved: shape, bounds, fill values, and the raster unchanged when it returns. False (proved): if the spline raises, missing cells stay replaced by the lowest number of the type; rasters with one row, column or cell give arrays of another shape; values below the lowest cell are returned as missing. The spline of scipy is a parameter.

### C80 Gradient — proved

Raster.gradient returns the derivatives by x and by y in map units: exact in every cell for planes and inside for quadratic surfaces, whatever the direction of the axes and the cell size.

*For:* every grid and surface.  
*Model:* Model/Sample. *Proofs:* Props/Sample.  
*Theorems:* `Sample.gradient_plane`, `Sample.gradient_quadratic`, `Sample.gradient_raises`.  
*Note:* Arithmetic is exact.

### C81 Points to raster — partial

Raster.rasterize(xy, values) returns an array of the shape of the raster where each pixel holds the mean of the values of the points inside it and pixels without points are missing; points outside are ignored.

*For:* every raster, list of points and values.  
*Model:* Model/Terrain. *Proofs:* Props/Terrain.  
*Theorems:* `Terrain.inCell_iff`, `Terrain.inCell_exists`, `Terrain.rasterize_partial`, `Terrain.rasterize_empty_violated`, `Terrain.rasterize_integer_violated`.  
*Note:* Proved: means of points per cell, points outside ignored. False (proved): pixels without points keep the values of the raster; rasters of integers truncate the means.

### C82 Horizon — partial

Raster.horizon(origin, headings) returns, for each heading, the point along the line of cells from the origin to the border of the raster that is seen at the highest angle, unless nothing is visible behind it, and splits the points only where headings have none, joining around the circle.

*For:* every raster with missing cells, origin, headings and correction.  
*Model:* Model/Terrain. *Proofs:* Props/Terrain.  
*Theorems:* `Terrain.horizon_point_spec`, `Terrain.horizon_partial`, `Terrain.horizon_outside_violated`, `Terrain.horizon_missing_violated`, `Terrain.horizon_sector_violated`.  
*Note:* Proved from inside the raster if each line has a cell that is not missing. False (proved): raises from outside; raises if one line is empty or all missing; sectors of headings are joined as if they went around. The ends of the rays are given (intersect_rays_box is a property of its own).

### C83 Viewshed — partial

Raster.viewshed(origin) marks as visible the cells that are not hidden by nearer terrain: a cell seen higher than everything nearer is visible (so, from above flat ground, every cell), a cell behind a closed ring that appears at least as high is hidden, and missing cells are not visible.

*For:* every raster with missing cells, viewer inside or outside.  
*Model:* Model/Terrain. *Proofs:* Props/Viewshed.  
*Theorems:* `Terrain.viewshed_length`, `Terrain.viewshed_visible_partial`, `Terrain.viewshed_missing`, `Terrain.viewshed_hidden_partial`, `Terrain.viewshed_flat`, `Terrain.viewshed_own_violated`, `Terrain.viewshed_single_violated`.  
*Note:* Proved without elevation correction for any periodic interpolation between ring values (np.interp is a parameter: results between two values, missing only if one is). Missing: exact visibility by line of sight (the code interpolates, so it is not exact). False (proved): cells nearer than half a cell width are not visible; a raster wholly within that distance is all visible, even missing cells.

### C84 Undistortion by regula falsi — partial

Camera undistortion with method='regulafalsi' returns, for every distorted camera coordinate, a coordinate whose distortion is the given one, within the tolerance, or the best approximation after the given number of iterations.

*For:* every camera, list of coordinates, number of iterations and tolerance.  
*Model:* Model/Undistort. *Proofs:* Props/Undistort.  
*Theorems:* `Undistort.regula_falsi_partial`, `Undistort.approx_solution`, `Undistort.regula_falsi_axis_violated`, `Undistort.regula_falsi_none`.  
*Note:* Proved for every array of points: each result is the false-position approximation of its own coordinate, at the first iteration within the tolerance, at the last iteration, or where the next step is undefined. False (proved) for points on an axis through the principal point of a camera without tangential distortion: half of the coordinate is returned. Convergence is not claimed. Zero iterations raise UnboundLocalError (proved).

### C85 Undistortion by lookup table — partial

Camera undistortion with method='lookup' returns, for every coordinate of the image, the coordinate that is distorted to it, exactly at the coordinates of the table.

*For:* every camera, table density and coordinate in the image.  
*Model:* Model/Undistort. *Proofs:* Props/Undistort.  
*Theorems:* `Undistort.lookup_exact`, `Undistort.lookup_barrel_violated`.  
*Note:* Exactness at the table's coordinates for cameras whose distortion is injective on the table; scipy's griddata is a parameter assumed exact at nodes and missing outside the hull. False (proved) for cameras with barrel distortion: coordinates at the sides of the image are missing.

### C86 Whether distortion is reversible — partial

Camera.reversible() is true if and only if no two points of the image are distorted to the same coordinate.

*For:* every camera.  
*Model:* Model/Undistort. *Proofs:* Props/Undistort.  
*Theorems:* `Undistort.reversible_iff`, `Undistort.reversible_false`, `Undistort.reversible_true_violated`.  
*Note:* Proved: the answer is monotonicity on the two central axes; a false answer is right for radial polynomial distortion. False (proved): a true answer does not exclude two points with the same distortion (diagonals are farther out than the axes).

### C87 Image grids and image edges — partial

Camera.grid(step=1) gives exactly the pixel centres, each once; Camera.edges(step) gives points on the four sides of the image in order around it, every corner once, evenly spaced by about the step.

*For:* every image size and step.  
*Model:* Model/CameraView. *Proofs:* Props/CameraView.  
*Theorems:* `View.grid_pixels`, `View.edges_partial`, `View.edges_default`, `View.edges_tall_violated`, `View.edges_wide_violated`.  
*Note:* Proved for steps up to the sides' lengths. False (proved) for longer steps: raises, or leaves out the right side.

### C88 Viewed volume — partial

Camera.viewbox(depth) contains every point the camera sees up to that distance and is the smallest box with the camera and the ends of the rays through the image edges; Camera.viewpoly(depth) is a triangle from the camera to points seen at the left and right image edges at that depth.

*For:* every camera, pixel and distance.  
*Model:* Model/CameraView. *Proofs:* Props/CameraView, Props/CameraViewDistorted.  
*Theorems:* `View.viewbox_partial`, `View.viewbox_tight`, `View.viewpoly_partial`, `View.viewpoly_k1_partial`, `View.viewbox_distorted_violated`, `View.viewpoly_correction_violated`.  
*Note:* Proved for cameras without lens distortion (viewpoly: also with first-order radial distortion; without elevation correction). False (proved): with first-order distortion and an odd number of rows, the box of a camera that looks north misses what it sees in the middle of the right image edge; with elevation correction, the corners of viewpoly are not seen at the image edges in the row of the principal point.

### C89 Making a camera — partial

Camera(...) refuses, with ValueError, exactly lengths in mm without a sensor size, a length given both in pixels and in mm, a missing focal length and image sizes that are not integers; otherwise each attribute has the values given, filled up as documented (zeros for position, direction, principal point and distortion; the same value for both directions for image size, focal length and sensor size), and lengths given in mm are read back in mm unchanged.

*For:* every combination of arguments and lengths of lists.  
*Model:* Model/CameraJson. *Proofs:* Props/CameraJson.  
*Theorems:* `CamJson.camera_refused_iff`, `CamJson.camera_attributes`, `CamJson.camera_millimeters`, `CamJson.camera_cmm_violated`.  
*Note:* Proved for all arguments without empty lists. False (proved): a single principal point offset in mm applies to both directions when the camera is made, but only to x when set later or given in pixels.

### C90 Cameras in JSON — partial

Camera.from_json reads what Camera.to_json wrote: attributes written are the same in the new camera, attributes not written have their defaults, and keyword arguments override the file.

*For:* every camera and list of attributes.  
*Model:* Model/CameraJson, Model/CameraText. *Proofs:* Props/CameraJson, Props/CameraText.  
*Theorems:* `CamJson.json_roundtrip_partial`, `CamJson.json_roundtrip_default`, `CamJson.json_correction_violated`, `CamJson.json_override`, `CamJson.text_roundtrip_partial`, `CamJson.from_text_invalid`.  
*Note:* Proved for the default attributes and the sensor size, in any selection with image size and focal length, for cameras without NaN, also through the text of the file with any indent and flat arrays (assuming that float(repr(x)) is x). False (proved) for the attribute correction: reading raises.

### C91 JSON with arrays on one line — partial

helpers.write_json(obj, flat_arrays=True) returns the JSON of the same object as without flat_arrays, with each array on one line.

*For:* every JSON text and indent.  
*Model:* Model/JsonText. *Proofs:* Props/JsonDump, Props/JsonText.  
*Theorems:* `JsonText.flat_edit`, `JsonText.flat_same_partial`, `JsonText.flat_none`, `JsonText.flat_array`, `JsonText.flat_objects`, `JsonText.flat_strings_violated`, `JsonText.flat_indent_violated`, `JsonText.flat_nested_violated`, `Json.flat_round_trip_partial`.  
*Note:* Proved for texts whose strings have no whitespace and no commas, and (one line) for arrays without nesting, with the default separators. False (proved): strings in arrays lose whitespace and get spaces after commas; without indent it raises; nested arrays stay on several lines.

### C92 Names of files — proved

helpers.strip_path returns the last component of the path without its extensions, all or the given number of them.

*For:* every path and number of extensions.  
*Model:* Model/JsonText. *Proofs:* Props/JsonText.  
*Theorems:* `JsonText.strip_all`, `JsonText.strip_some`, `JsonText.strip_directory`, `JsonText.strip_collision_violated`.  
*Note:* That two images can have the same name (proved) is not excluded by the property; it matters for files of results named after images.

### C93 Simulated image from a DEM — partial

Camera.project_dem returns an image of imgsz pixels in which every pixel holds the mean of the values of exactly the selected DEM cells that project into it (NaN if none), whatever the tile size, the overlap and the number of processes; wrongly shaped inputs raise ValueError.

*For:* all DEMs, masks, values, tile sizes, overlaps, arrival orders of tiles and image sizes.  
*Model:* Model/ProjectDem. *Proofs:* Props/ProjectDem.  
*Theorems:* `Dem.project_last_tile_wins`, `Dem.project_dem_partial`, `Dem.project_dem_serial`, `Dem.project_raises_iff`, `Dem.tile_scale_limits`, `Dem.tile_scale_exact`, `Dem.project_depth_scaled_violated`, `Dem.project_args`, `Dem.default_mask_draws`, `Dem.project_seam_violated`.  
*Note:* Proved: the mean of the last tile with a cell in the pixel, for any order of arrival; equal to the mean of all cells if no pixel is shared by tiles. False (proved): pixels shared by tiles keep only the last tile's mean; a cell exactly on the right or lower border raises; depth maps with tile scale not 1 raise. Zoom (scipy) is an arbitrary function.

### C94 Tracking tiles — partial

The tile that Tracker extracts for tracking has mean 0 and standard deviation 1 before high-pass filtering and does not change with the brightness or (positive) contrast of the image; matching to the histogram of the template keeps the order of pixel values; Observer.shift_tile refuses shifts of more than half a pixel and otherwise interpolates the tile, leaving its argument alone.

*For:* all arrays of real numbers, all positive gains and offsets, all low-pass filters and histogram functions, all shifts.  
*Model:* Model/Cdf, Model/Filters, Model/Grid. *Proofs:* Props/Cdf, Props/Filters.  
*Theorems:* `Filt.normalize_mean_std`, `Filt.normalize_affine`, `Filt.normalize_constant_violated`, `Filt.extract_tile_brightness`, `Filt.extract_tile_highpass`, `match_cdf_ranks`, `Filt.shift_tile`, `Filt.shift_tile_argument_violated`.  
*Note:* Proved over the reals, for any low-pass filter. False (proved): a constant tile becomes NaN, and shift_tile overwrites its argument. Splines (scipy) are an arbitrary function.

### C95 Masked filters — partial

gaussian_filter and maximum_filter with a mask compute the weighted mean (the maximum) over the included cells only, whatever the values in excluded cells; with fill, excluded cells are filled from included ones, otherwise they are unchanged; Raster.fill_crevasses keeps values between the minimum and maximum of the raster.

*For:* all arrays, masks, kernels with non-negative weights, windows and data types.  
*Model:* Model/Filters, Model/Grid. *Proofs:* Props/Filters.  
*Theorems:* `Filt.gaussian_masked`, `Filt.gaussian_excluded`, `Filt.gaussian_full_mask`, `Filt.gaussian_missing`, `Filt.gaussian_integer_violated`, `Filt.maximum_masked`, `Filt.maximum_fill_partial`, `Filt.maximum_fill_violated`, `Filt.fill_crevasses_bounds`.  
*Note:* Proved for floating-point arrays and any kernel of non-negative weights. False (proved) for arrays of integers (weights truncated) and for fill in unsigned arrays. Weights of the Gaussian (scipy) are arbitrary.

### C96 Writing SVG — partial

svg.write indents a copy of the document: tags, attributes, texts and order of elements are kept, each element is on its own line, indented by its depth; the builders svg, g, image and path merge attributes and children as given and the root always has the SVG namespaces.

*For:* all documents (of any depth and breadth), all indents, all attribute dictionaries.  
*Model:* Model/SvgWrite. *Proofs:* Props/SvgWrite.  
*Theorems:* `Svg.write_content`, `Svg.write_text`, `Svg.write_layout_partial`, `Svg.write_layout_violated`, `Svg.write_indent_text_violated`, `Svg.merge_get`, `Svg.svg_elem`, `Svg.g_elem`, `Svg.path_elem`, `Svg.image_elem`, `Svg.svg_elem_one_size_violated`.  
*Note:* Content is kept for all documents. Layout proved where only last children have children; False (proved) in general: the element after a group is indented one level too little. Escaping by the XML library is not modelled.

### C97 SVG namespaces — partial

Reading with namespaces stripped turns every qualified tag and attribute name into its local name and changes nothing else.

*For:* all documents, names and attribute values.  
*Model:* Model/SvgWrite. *Proofs:* Props/SvgWrite.  
*Theorems:* `Svg.strip_braces_none`, `Svg.strip_braces_qualified`, `Svg.strip_attrib_partial`, `Svg.strip_children`, `Svg.strip_collision_attr_violated`, `Svg.strip_values_violated`.  
*Note:* Proved for attributes with different local names and values without braces. False (proved): colliding local names drop an attribute; braces in values are stripped too.

### C98 Checks of a camera model — partial

optimize.Cameras is accepted exactly when every camera and group has valid parameters, groups refer to cameras, some control refers to a camera, groups with f or c have images of one size, no two groups set the same element of the same camera, and every camera with parameters is in a control; so every fitting parameter is applied and affects some observation. Controls of other cameras are dropped.

*For:* all lists of cameras, controls, parameter dictionaries and groups.  
*Model:* Model/CamsTest. *Proofs:* Props/CamsTest.  
*Theorems:* `Cams.cameras_accepted_iff`, `Cams.cameras_built`, `Cams.group_args`, `Cams.prune_controls`, `Cams.cameras_layout_ok`, `Cams.cameras_no_overlap_partial`, `Cams.cameras_params_observed_partial`, `Cams.cameras_overlap_negative_violated`, `Cams.cameras_uncontrolled_negative_violated`, `Cams.parse_mask_defaults`.  
*Note:* The equivalence is proved for all arguments. Consequences proved for indices that do not count from the end. False (proved): negative indices evade the checks of overlaps and of cameras without control. lmfit's own refusals are not modelled.

### C99 Scales and default bounds of parameters — partial

Cameras.camera_scales gives for each camera parameter the positive change that moves an image point by one pixel, for position by the mean distance to world points; Cameras.scales has one scale per fitting parameter, in their order; with the default bounds a fit starts from the cameras as they are.

*For:* all cameras, world points, points in view and parameter layouts.  
*Model:* Model/CamsScales. *Proofs:* Props/CamsAngles, Props/CamsScales.  
*Theorems:* `Cams.scale_c`, `Cams.scale_imgsz`, `Cams.scale_f`, `Cams.scale_p`, `Cams.scale_k_violated`, `Cams.roll_rotates`, `Cams.scale_roll`, `Cams.scale_view_angle`, `Cams.turn_pixels`, `Cams.scale_view_edges`, `Cams.scale_view_center_violated`, `Cams.scale_xyz_violated`, `Cams.scale_xyz_none`, `Cams.scales_positive`, `Cams.scale_k3_negative_violated`, `Cams.build_scales`, `Cams.default_bounds_keep_iff`, `Cams.default_bounds_violated`.  
*Note:* Exact for principal point, image size, focal length, tangential distortion and roll (per degree). False (proved): radial coefficients (1/√2 pixel at the mean radius), position (grows with the root of the number of points), sign of k[3:6] with negative denominators, default bounds that exclude the camera's own values. The first two angles are exact on average over the image (a turn by n scales moves a point across its n pixels); at its center the scale moves a point by less than a pixel (proved).

### C100 Camera converters: points and optimization — partial

Converter(xcam, cam, uv=n) compares the cameras at about n points, the centres of equal cells that tile the image, and refuses only cameras of different image sizes; optimize_cam and optimize_xcam set exactly the selected parameters (True: all, an index, or indices) to what the optimizer returns and change nothing else, however many times the optimizer evaluates the residuals.

*For:* all image sizes, numbers of points, parameter selections and optimizers (arbitrary adaptive sequences of evaluations).  
*Model:* Model/Converter. *Proofs:* Props/Converter.  
*Theorems:* `Convert.grid_points`, `Convert.grid_cover`, `Convert.grid_number`, `Convert.grid_refused_iff`, `Convert.converter_sizes`, `Convert.grid_panorama_violated`, `Convert.optimize_cam_spec`, `Convert.optimize_cam_values`, `Convert.optimize_xcam_spec`, `Convert.optimize_xcam_zero_violated`, `Convert.optimize_xcam_index_violated`, `Convert.optimize_cam_raise_violated`.  
*Note:* Proved for all optimizers (interaction trees) that keep the number of values, and selections by True or lists. False (proved): optimize_xcam drops the index 0 and raises for any other single index; a panorama with few points is refused; a failed optimization leaves the camera changed.

### C101 Readers of calibration files — partial

Agisoft.from_xml, OpenCV.from_xml, Matlab.from_report and PhotoModeler.from_report return the camera with the parameters that are written in the file (values or, with sigmas, standard deviations), and refuse files that are not of their kind.

*For:* all files: all document trees, texts around and between the entries, and numerals.  
*Model:* Model/ConvertRead. *Proofs:* Props/ConvertRead.  
*Theorems:* `Convert.agisoft_xml`, `Convert.agisoft_refused`, `Convert.num_tokens`, `Convert.opencv_xml`, `Convert.opencv_xml_raises`, `Convert.data_text_first`, `Convert.data_text_none`, `Convert.opencv_exponent_violated`, `Convert.matlab_report`, `Convert.matlab_suffix_violated`, `Convert.photomodeler_report`, `Convert.photomodeler_any_text_violated`.  
*Note:* Proved for every text around entries of the documented form, with the regular expressions modelled by a backtracking matcher; float() of a numeral is a parameter. False (proved): other texts give PhotoModeler cameras of zeros, a Matlab variable whose name ends in a key is read instead, capital exponents split OpenCV numerals.

### C102 Polynomial model: exact points are recovered, with outliers by ransac — proved

Polynomial.predict evaluates the polynomial with coefficients from highest to lowest degree, errors are distances from the ordinates, and fitting points that lie on a polynomial of the degree (more distinct abscissae than the degree) gives exactly that polynomial. With ransac, if the points in a set I lie on a polynomial, all others are further than max_error from it, a sample inside I was drawn and no other polynomial passes through more than n + min_inliers points, then exactly that polynomial and the set I are returned, wherever the other points are.

*For:* every list of points, degree, sample size, sequence of shuffles and least-squares solver.  
*Model:* Model/Polynomial. *Proofs:* Props/PolyfitExists, Props/Polynomial.  
*Theorems:* `Ransac.polyval_eq_sum`, `Ransac.polynomial_model`, `Ransac.polynomial_index_error`, `Ransac.polyval_unique`, `Ransac.polyfit_exact`, `Ransac.ransac_polynomial`, `Ransac.ransac_polynomial_few_outliers`, `Ransac.least_squares_exists`.  
*Note:* For every polyfit that returns coefficients of minimal sum of squares (which exist, proved over the reals); exact arithmetic.

### C103 Rasters written to files and opened again — partial

A raster written with Raster.write and opened with Raster.open has the same limits, size, coordinate reference system and cell values; opening with a crop gives exactly the cells of the file that cover the request, at their places, with no-data values as NaN; a target cell size gives the fewest cells not larger than it; NaN cells are written as the nan value; a write that raises leaves files as they were; Grid.read gives the grid that Raster.open has; copies keep the coordinate reference system.

*For:* every raster, path, driver table, no-data value, crop request, cell size and file system state.  
*Model:* Model/RasterIO. *Proofs:* Props/RasterIO.  
*Theorems:* `RasterIO.splitext_spec`, `RasterIO.crs_reading`, `RasterIO.driver_chosen`, `RasterIO.driver_empty_name`, `RasterIO.write_ok_iff`, `RasterIO.write_effect`, `RasterIO.write_failed_partial`, `RasterIO.write_failed_violated`, `RasterIO.open_raises_iff`, `RasterIO.open_missing`, `RasterIO.open_cells`, `RasterIO.open_cell_size`, `RasterIO.write_open`, `RasterIO.write_nan_violated`, `RasterIO.grid_read_full`, `RasterIO.grid_read_violated`, `RasterIO.copy_crs_violated`.  
*Note:* Round trip, crops, cell sizes, choice of driver and refusals proved over a model of GDAL that keeps what is written. False (proved): NaN is not written as the nan value, a no-data value of zero is not replaced, a write with a bad crs has already emptied the file when it raises, Grid.read keeps the file's number of cells after a crop, and copies lose the crs. Missing: lossy formats (values at reduced resolution: C140).

### C104 Residuals follow the index, and the optimizer gets arguments of the right size — partial

The observations, predictions and residuals of a model of cameras for an index are the rows at that index of those of all its controls one after another, with one control as with several; residuals are predicted minus observed, times the weight of the observation; errors are their lengths, and the error of an observation does not depend on which others are selected. The optimizer is given one scale for each parameter and a sparsity matrix whose rows are those of the selected residuals, in the final run as in the iterations before it.

*For:* for every list of controls, weights, parameters and index (all, integers, booleans).  
*Model:* Model/CamsResiduals. *Proofs:* Props/CamsResiduals.  
*Theorems:* `Cams.index_meaning`, `Cams.rows_at_index`, `Cams.no_controls_raise`, `Cams.residuals_rows`, `Cams.errors_rows`, `Cams.errors_ransac`, `Cams.weights_pruned_violated`, `Cams.fit_arguments`, `Cams.fit_sparsity_rows`, `Cams.fit_mask_violated`, `Cams.iteration_arguments_partial`, `Cams.iteration_arguments_violated`.  
*Note:* Proved for the residuals at every index, and for the arguments of a run without iterations for all observations or integers. False (proved): with booleans the sparsity matrix has the wrong number of rows, the iterations are given the scales and the sparsity of the final run and are refused if they have another number of parameters, and weights given for controls that are dropped stay. (The iterations also ignore the weights.)

### C105 Making an image — partial

An image made with a camera, or with image size and focal length (in pixels, or in mm with the sensor size), and with a time does not read the metadata of its file. Otherwise metadata (given, or else read) supplies image size, focal length and sensor size of the camera and the time, and what the caller gives overrides it. The sensor size is found by make and model, whatever blanks surround them.

*For:* for every dictionary of camera arguments or camera, time, metadata (values may be missing or raise), and file.  
*Model:* Model/ImageNew. *Proofs:* Props/ImageNew.  
*Theorems:* `ImgNew.image_without_metadata`, `ImgNew.image_given_metadata`, `ImgNew.image_datetime`, `ImgNew.image_override`, `ImgNew.image_override_f_violated`, `ImgNew.image_supplement_violated`, `ImgNew.sensorsz_found`, `ImgNew.sensorsz_missing`.  
*Note:* Proved for every combination of arguments. False (proved): a focal length in pixels alone does not override that of the metadata (the camera is refused), and a focal length in mm with a sensor size is not supplemented by the image size (TypeError). The text of make or model values that are not text is not modelled.

### C106 Image projected into another camera — partial

Projecting an image into a camera at the same position gives each pixel of that camera the value of the image in the same direction: the bilinear interpolation of the pixels around, or the value of the pixel that is met; nothing where the image does not reach. Into its own camera an image is unchanged. A camera at another position is refused.

*For:* for every image (any number of bands), pair of cameras, method, and pixel.  
*Model:* Model/ImageProject. *Proofs:* Props/ImageProject.  
*Theorems:* `ImgProject.project_raises`, `ImgProject.project_value`, `ImgProject.truncate_spec`, `ImgProject.bilinear_bounds`, `ImgProject.value_at_center`, `ImgProject.project_outside`, `ImgProject.project_behind_linear`, `ImgProject.project_behind_nearest_violated`, `ImgProject.project_same_direction`, `ImgProject.project_same`, `ImgProject.project_opposite_violated`.  
*Note:* Proved for images of at least two rows and columns, with exact arithmetic; the direction for source cameras without lens distortion. False (proved): with method nearest, pixels behind the source camera get the value of its lower right pixel instead of none. Images of integers are truncated and have an unspecified number where there is no value; the outer half pixel of the source counts as outside.

### C107 Motion models on their surfaces — partial

A motion model made with a surface (a raster or a number) and its standard deviation (a raster, a number or, by default, none) starts the number of particles asked for, each at the mean position plus its own random offset, at the height of the surface there plus a random multiple of the standard deviation there, with the velocity described; tangent motion keeps each particle's height above the surface up to a random slope; likelihoods use each particle's own height; positions outside of a raster raise ValueError.

*For:* every class of motion, surface, number of particles and random numbers.  
*Model:* Model/MotionDem, Model/MotionMissing. *Proofs:* Props/MotionDem, Props/MotionMissing.  
*Theorems:* `MotionDem.make_raster`, `MotionDem.make_number`, `MotionDem.new_ok`, `MotionDem.initialize_partial`, `MotionDem.initialize_raises`, `MotionDem.number_partial`, `MotionDem.base_initialize_spec`, `MotionDem.tangent_all`, `MotionDem.tangent_raises`, `MotionDem.likelihoods_spec`, `MotionDem.likelihoods_raise`, `MotionDem.at_unique`, `MotionMissing.initialize_missing`, `MotionMissing.initialize_velocity`, `MotionMissing.initialize_missing_raises`, `MotionMissing.test_missing_iff`, `MotionMissing.initialize_test`, `MotionMissing.tangent_missing`, `MotionMissing.likelihoods_missing`, `MotionMissing.height_unique`, `MotionDem.default_sigma_violated`, `MotionDem.number_violated`, `MotionMissing.likelihoods_gap_violated`.  
*Note:* Proved for rasters and standard deviations given. False (proved): three of the four classes raise if dem_sigma is not given; a surface given as a number is only defined on the square from 0 to 1, anywhere else initialization raises; above a missing cell the likelihood is silently missing although the particle passes the test. With missing cells, exactly which particles have missing heights, that the test of particles refuses them, and which likelihoods are missing are proved (Props/MotionMissing.lean).

### C108 Statistics of particles and tracks — partial

The particle mean is the weighted mean and lies among the particles; the covariance matrix is symmetric, never negative, and its diagonal holds the squares of the standard deviations; only proportions of weights matter; tracks have the same positions, velocities and standard deviations whether covariances are returned or not, and can be returned with or without all particles.

*For:* all particles, weights and histories of any number of tracks.  
*Model:* Model/CamsFit, Model/TracksStats. *Proofs:* Props/CamsFit, Props/TracksStats.  
*Theorems:* `TracksStats.tracks_columns`, `TracksStats.mean_spec`, `TracksStats.mean_between`, `TracksStats.zero_weights`, `TracksStats.weights_mismatch`, `TracksStats.covariance_spec`, `TracksStats.covariance_psd`, `TracksStats.sigma_spec`, `TracksStats.sigma_zero_iff`, `TracksStats.sigma_about`, `TracksStats.weights_scale`, `TracksStats.record_agree`, `TracksStats.assemble_ok`, `TracksStats.tracks_agree`, `TracksStats.particles_mixed_ok`, `TracksStats.particles_mixed_violated`.  
*Note:* Proved for all particles and weights (real numbers). False (proved): motion models with different numbers of particles cannot be tracked with return_particles; track raises when everything is done.

### C109 SVG shape elements are read and written faithfully — partial

Reading a shape element (rect, line, polyline, polygon, path, circle-like points) uses only the attributes that define its shape: unknown tags raise, unrelated attributes change nothing, missing positions default to zero and a missing rectangle size raises. Writing points as an element and reading it back gives the same points.

*For:* every element, every attribute set and every point list.  
*Model:* Model/Svg, Model/SvgElement. *Proofs:* Props/SvgElement, Props/SvgText.  
*Theorems:* `Svg.element_unknown`, `Svg.from_svg_cases`, `Svg.element_irrelevant`, `Svg.element_rect_missing`, `Svg.element_defaults`, `Svg.element_round_trip_partial`, `Svg.element_empty_violated`.  
*Note:* Round trip proved for point lists each shape can hold (one point for a circle, two for a line, boxes for rect/image/svg, at least two for paths, closed rings for polygons). False for empty point lists: shapes written from no points read back as the origin (element_empty_violated). Attribute values with units ("10px") make float() raise and are not modelled.

### C110 Polygon masks mark exactly the cells whose centers are inside a polygon and outside every hole — proved

polygons_to_mask(polygons, size, holes) has the shape of the image and is true at a cell exactly if the cell's center is inside of some polygon and of no hole; Raster.rasterize_polygons does the same in the coordinates of the raster, whatever the directions of its axes.

*For:* every list of polygons and holes (rings of any number of points, also self-intersecting), every size and every raster; centers that lie on no edge.  
*Model:* Model/PolygonMask. *Proofs:* Props/PolygonMask.  
*Theorems:* `PolygonMask.mask_shape`, `PolygonMask.mask_within`, `PolygonMask.rasterize_polygons_spec`, `PolygonMask.rasterize_polygons_shape`, `PolygonMask.fills_within`, `PolygonMask.within_or_not`, `PolygonMask.within_generic`, `PolygonMask.generic_frequently`, `PolygonMask.mask_spec`, `PolygonMask.rasterize_polygons_partial`, `PolygonMask.inside_either_side`, `PolygonMask.fills_iff`.  
*Note:* Proved for every center on no edge, also at the height of vertices: inside means that all close points in general position have an odd number of edges to their east, which is proved to be well defined off the edges. On an edge, inside is a convention. GDAL's fill (scanlines, half-open crossings, edges along a row) is modelled, with exact arithmetic.

### C111 Grids and rasters made from one another can be changed independently — partial

An object obtained from another (a copy, the grid of a raster, a part of a raster by index, a raster made of an array, a raster resampled to a grid) can be shifted, written to and read without changing what is seen of the other: limits, coordinates and values.

*For:* every history of making and changing any number of grids and rasters.  
*Model:* Model/RasterMemory. *Proofs:* Props/RasterMemory.  
*Theorems:* `RasterMemory.reachable_sound`, `RasterMemory.untouched`, `RasterMemory.copy_fresh`, `RasterMemory.copy_independent`, `RasterMemory.copy_kept`, `RasterMemory.grid_shared_violated`, `RasterMemory.item_shared_violated`, `RasterMemory.resample_shared_violated`, `RasterMemory.array_shared_violated`, `RasterMemory.set_array_seen`, `RasterMemory.set_xlim_seen`, `RasterMemory.set_ylim_seen`.  
*Note:* Proved for copies, over all histories on any number of objects (references to blocks of memory; frame property for disjoint blocks). False (proved) for everything else: the grid of a raster shares its limits, a part of a raster shares coordinates and values, resampling shares limits and coordinates with the grid, a raster shares the array it is made of. The cached interpolator is not part of this model.

### C112 Raster.resample puts the raster on the target grid — partial

After Raster.resample(grid) the raster has the limits and the number of rows and columns of the grid, and each cell has the value of the interpolating surface of the old raster at the centre of that cell of the grid, missing where the surface is missing and filled where the centre is outside; a grid with a cell centre outside raises by default and changes nothing; resampling to the raster's own grid changes nothing; a resampling that raises leaves the raster as it was.

*For:* every raster (any number of rows and columns, either orientation, any pattern of missing cells), target grid, order, bounds_error and fill value.  
*Model:* Model/RasterResample. *Proofs:* Props/RasterResample.  
*Theorems:* `RasterResample.resample_partial`, `RasterResample.resample_raises`, `RasterResample.resample_own_grid`, `RasterResample.bilinear_interpolates`, `RasterResample.resample_own_grid_bilinear`, `RasterResample.resample_all_missing_violated`, `RasterResample.resample_row_violated`, `RasterResample.resample_cell_violated`, `RasterResample.resample_failed_violated`.  
*Note:* Limits, size and value of every cell proved for rasters with at least two rows and columns and orders less than the size (scipy's surface is a parameter; for the bilinear one it is proved to go through the cells), refusal outside bounds, identity on the own grid. False (proved): rasters with one row, column or cell get the wrong number of rows; a raster without any value becomes the lowest number of the type; a resampling that raises for its order leaves the missing cells replaced.

### C113 An observer's tiles are the pixels of its images, cached or not — partial

After any sequence of extract_tile, shift_tile, cache_images, clear_images and camera resizes, Observer.extract_tile(box, img) returns the pixels of that box of the image at its camera's size; a tile once extracted keeps its pixels; cache_images and clear_images act on exactly the images indexed (negative from the end) and raise before doing anything for an index out of range; tiles of a cached image need no file.

*For:* every number of images, files, camera sizes, cache flag, and history of operations.  
*Model:* Model/ObserverImages. *Proofs:* Props/ObserverImages.  
*Theorems:* `ObserverImages.observer_tiles_partial`, `ObserverImages.uncached_safe`, `ObserverImages.no_shift_safe`, `ObserverImages.tile_stable`, `ObserverImages.images_index_error`, `ObserverImages.clear_images_spec`, `ObserverImages.cache_images_spec`, `ObserverImages.held_no_file`, `ObserverImages.shift_tile_cached_violated`.  
*Note:* Proved over a heap of shared arrays for all histories in which shift_tile is not used on a tile of a cached image; every history without caching, and every history without shift_tile, is proved to be one. False (proved, for every image, box and shift): shift_tile writes into the cached image, so that the next tile extracted there is shifted. Excluded as in C43: uncached parts of resized images.

### C114 Raster.hillshade lights the surface from the azimuth given — partial

Raster.hillshade(azimuth, altitude) returns, for every cell, the illumination of the surface by a light at that compass azimuth and altitude: the cosine of the angle between the light and the normal of the surface there (which has the gradient of Raster.gradient), stretched over the raster to 0 to 1 and clipped, so a cell facing the light more is never darker than another. The orientation of the raster's rows does not matter. A flat raster is as bright as the sine of the altitude; a raster with one row or column raises an error.

*For:* all rasters without missing values of any size and orientation, all azimuths and altitudes.  
*Model:* Model/Hillshade. *Proofs:* Props/Hillshade.  
*Theorems:* `Hillshade.direction_compass`, `Hillshade.hillshade_mirrored`, `Hillshade.hillshade_values`, `Hillshade.hillshade_order`, `Hillshade.hillshade_partial`, `Hillshade.hillshade_flat`, `Hillshade.hillshade_raises`, `Hillshade.hillshade_north_violated`.  
*Note:* The value of every cell is proved, for all rasters with at least two rows and columns: it is that of a light at azimuth 180 minus the one given. The claim therefore holds for light from due east or west and for cells without a slope along y (hillshade_partial), and fails otherwise (hillshade_north_violated): matplotlib negates the cell size dy itself, and Raster.hillshade passes the signed cell size. matplotlib's LightSource is modelled from its 3.2.1 source. Rasters with missing values: C142.

### C115 Orienting the cameras of an observer: set, fit and reset — partial

ObserverCameras.set_cameras(viewdirs) gives the camera of each image its direction and changes nothing else (fewer directions than images raise an error); after any history of set_cameras, fits (returning or raising), resets and changes by others, reset_cameras gives every camera the view direction it had when the object was made; a fit changes nothing but view directions of the observer's cameras and leaves them as they were before; the function it minimizes depends only on the directions tried (the documented objective: squared departure of the anchors from their directions and of matched rays from each other), so its result is what the optimizer makes of that objective.

*For:* every number of images, anchors and matches, every optimizer strategy (evaluations and results, or an exception), every history of operations on cameras shared with others.  
*Model:* Model/CamsFit, Model/ObserverFit. *Proofs:* Props/CamsFit, Props/ObserverFit.  
*Theorems:* `ObsCams.set_cameras_short`, `ObsCams.set_cameras_spec`, `ObsCams.set_cameras_shared_violated`, `ObsCams.reset_restores`, `ObsCams.fit_frame`, `ObsCams.fit_resets`, `ObsCams.fun_value`, `ObsCams.fit_result`, `ObsCams.fit_result_new`, `ObsCams.objective_zero_iff`, `ObsCams.anchor_gradient`, `ObsCams.fit_keeps_violated`, `ObsCams.fit_raises_violated`.  
*Note:* Proved for images with their own cameras, over all histories and all optimizer strategies (trees of evaluations). False (proved): images that share a camera do not each get their direction; a fit turns cameras back to when the object was made, not to how they were before it; an optimizer that raises leaves the directions tried last. Negative anchors and printing are not modelled.

### C116 The animation of a track shows every time with its own image, track and velocity — partial

Tracks.animate shows, in increasing order, the selected times at which the track has a position (and, if asked for, an image and particles), but the last; each frame shows the image of its time, the track until then and the mean velocity as the displacement until the next time shown; no time to show raises an error.

*For:* every track (any number of times, any pattern of missing positions and images), every selection of frames, with or without images and particles.  
*Model:* Model/TracksAnimate. *Proofs:* Props/TracksAnimate.  
*Theorems:* `TracksAnimate.frames_spec`, `TracksAnimate.draw_iff`, `TracksAnimate.draw_partial`, `TracksAnimate.draw_gap_violated`, `TracksAnimate.draw_tracker_violated`, `TracksAnimate.draw_scale_violated`.  
*Note:* Frames proved for all tracks; what is drawn proved when the frames are the first times without a gap. False otherwise (proved, exactly): arrow lengths are looked up by time instead of by position, so frames after a gap show a wrong length or raise; without a tracker every frame raises.

### C117 The animations of an observer show what is around the points — partial

Observer.animate shows, for each image, the part of the image in a window of the requested size centered on the projected point (placed where it was read; white where the window is apart from the image) in axes centered on that point; Observer.track shows for the j-th frame the points until the j-th as that image sees them and a tile of the requested size around the j-th, and raises exactly if that tile reaches out of the image.

*For:* every image size, window size, point, image cache setting and sequence of frames.  
*Model:* Model/ObserverAnimate. *Proofs:* Props/ObserverAnimate.  
*Theorems:* `ObserverAnimate.animate_tile_partial`, `ObserverAnimate.animate_outside`, `ObserverAnimate.animate_window`, `ObserverAnimate.animate_window_violated`, `ObserverAnimate.animate_cached_violated`, `ObserverAnimate.animate_large_violated`, `ObserverAnimate.animate_touch_violated`, `ObserverAnimate.track_frame_spec`, `ObserverAnimate.track_default`, `ObserverAnimate.track_sequence_violated`, `ObserverAnimate.track_repeated_violated`.  
*Note:* Proved for uncached images and windows no larger than the image. False (proved): axes are centered only for square windows; cached images (the default) raise; windows larger than the image show nothing; windows that touch the image raise; frames of Observer.track that are not an array, or repeat an image, fail. The initial drawing before the first frame is not modelled.

### C118 Image.write writes the pixels of the image, and images read what was written — partial

Image.write(path) writes the original pixels of the image's file to the path, Image.write(path, array) writes the array; no other file and no other image changes (without a driver for the path it raises and writes nothing). After any history of writes, reads (cached or not), camera resizes and cleared caches, reading an image returns the pixels its file holds now at the size of its camera.

*For:* every number of images and files, all contents, and every history of operations on them.  
*Model:* Model/ImageWrite. *Proofs:* Props/ImageWrite.  
*Theorems:* `ImageWrite.careful_good`, `ImageWrite.read_after_writes_partial`, `ImageWrite.write_original_partial`, `ImageWrite.write_array`, `ImageWrite.write_resized_violated`, `ImageWrite.read_stale_violated`.  
*Note:* Proved over all histories in which no file is replaced while an image has its pixels cached (GDAL and lossless formats are assumed faithful). False (proved): an image with a resized camera writes resampled pixels, and a cached image goes on reading the old pixels after its file was replaced.

### C119 pairwise_distance is the table of distances — proved

pairwise_distance(x, y) returns a row for every point of x and in it a number for every point of y, [i, j] being the distance of x[i] and y[j] (Euclidean unless another metric is named), numbers counting as points on a line; it raises ValueError exactly if they do not have the same number of coordinates. By default it is a distance: nonnegative, zero exactly between equal points, symmetric under swapping x and y (transposing), no longer than by a third point. pairwise_distance_datetimes returns the seconds between the instants.

*For:* every number of points and coordinates, every metric, all values, all datetimes and time zones.  
*Model:* Model/Pairwise. *Proofs:* Props/Pairwise.  
*Theorems:* `Pairwise.pairwise_returns`, `Pairwise.pairwise_table`, `Pairwise.pairwise_swap`, `Pairwise.euclidean_eq`, `Pairwise.euclidean_metric`, `Pairwise.euclidean_sq`, `Pairwise.pairwise_numbers`, `Pairwise.pairwise_euclidean`, `Pairwise.datetimes_table`, `Pairwise.datetimes_constant`, `Pairwise.datetimes_change_violated`, `Pairwise.pairwise_example`, `Pairwise.pairwise_empty_violated`.  
*Note:* scipy's cdist is modelled by its definition; coordinates are exact reals. Recorded besides (proved): an empty list counts as points on a line, so it raises against points of the plane; datetimes without time zone are instants of the local zone, so over a change of its offset their distance is not the difference of the readings.

### C120 Boxes as grids of points and polygons, in any number of dimensions — proved

box_to_grid returns for any number of dimensions, as vectors, arrays or points, every point of the box that is a whole number of steps from the snap point, each once; the array of a coordinate has at [j, i, ...] the coordinate with indices i, j, ... along the axes; grid_to_points returns the points of the arrays in their order. box_to_polygon returns the closed polygon whose bounding box is the box and which contains what is strictly between the limits; invalid boxes and modes raise. The number of parallel processes is what was asked for, or that of the processors.

*For:* every number of dimensions, every box, steps and snap point; every point and mask size; every request.  
*Model:* Model/BoxGrids. *Proofs:* Props/BoxGrids.  
*Theorems:* `BoxGrids.points_of_grid`, `BoxGrids.grid_points_any`, `BoxGrids.grid_modes`, `BoxGrids.grid_raises`, `BoxGrids.polygon_of_box`, `BoxGrids.mask_of_box`, `BoxGrids.polygon_raises`, `BoxGrids.parallel_number`.  
*Note:* Exact arithmetic. Steps are positive and boxes not inverted; steps and snap points have one number per dimension (or one step for all).

### C121 detect_keypoints passes the image and normalizes the descriptors — partial

detect_keypoints returns the keypoints the detector finds in the image and mask given; with root=True each descriptor is the square root of its part of the sum of the descriptor, so it has nearly unit length and the inner product of two is their Hellinger kernel; no keypoints stay none; without root the descriptors are the detector's.

*For:* every detector, image, mask and descriptors (any number and length, nonnegative values).  
*Model:* Model/DetectKp. *Proofs:* Props/DetectKp.  
*Theorems:* `DetectKp.detect_bytes`, `DetectKp.root_values`, `DetectKp.root_norm`, `DetectKp.root_inner`, `DetectKp.root_distance`, `DetectKp.root_zero`, `DetectKp.cast_unit_violated`, `DetectKp.cast_wraps_violated`.  
*Note:* OpenCV's detector is a parameter. Proved for images and masks of 8 bits. False of others (proved): values between 0 and 1 become zero, and values of more than 8 bits wrap around.

### C122 Exif.insert writes the tags, and images read what was inserted — partial

Exif.insert(path) replaces the tags of the file by those of the object (or raises and changes nothing if a group or tag is unknown), leaves pixels, other files and the object unchanged; after any history of reading, editing and inserting, Exif(path) has the tags of the object that was last inserted there, as they were then.

*For:* every number of files and objects, all tags and values, every history of operations.  
*Model:* Model/ExifFile. *Proofs:* Props/ExifFile.  
*Theorems:* `ExifFile.insert_returns`, `ExifFile.insert_read`, `ExifFile.history_files`, `ExifFile.history_insert`, `ExifFile.insert_objects`, `ExifFile.insert_thumbnail_violated`.  
*Note:* piexif is modelled by its documented effect (tables of names and codes agree, values of the type of their tag are read back). Proved for all tags but those of the thumbnail; with a thumbnail read, for these too. False (proved): metadata read as by default and inserted unchanged removes the thumbnail and its group from the file.

### C123 Grid coordinates in double precision — partial

In double precision (every operation rounded to nearest), Grid.snap_xy, xy_to_rowcol, rowcol_to_xy and crop_extent give the exact results of C22-C24: the centre of a cell belongs to that cell, a point belongs to the cell that contains it, and a grid cropped to its own limits is unchanged.

*For:* every grid, cell and point whose numbers are doubles.  
*Model:* Model/Double, Model/FloatGrid. *Proofs:* Props/Double, Props/FloatGrid, Props/FloatGridNear.  
*Theorems:* `FloatGrid.float_snap_xy_exact`, `FloatGrid.float_xy_to_rowcol_exact`, `FloatGrid.float_rowcol_round_trip`, `FloatGrid.float_crop_extent_exact`, `FloatGrid.float_crop_extent_none`, `FloatGrid.float_center_near`, `FloatGrid.float_cell_near`, `FloatGrid.float_rowcol_round_trip_violated`, `FloatGrid.float_xy_to_rowcol_outside_violated`, `FloatGrid.float_crop_extent_none_violated`, `FloatGrid.float_outer_edge_two_off`, `Double.rnd_nearest`.  
*Note:* Exact for grids whose limits and cell size are multiples of one power of two by at most 2^46 (such as whole metres), proved for every rounding to nearest. False in general (proved): (0, 7) with 5 columns puts the centre of column 1 in column 0; a point in (0, 1) with 6 columns gets column 6; (0, 100) with 11 columns loses its last column when cropped to itself. For all grids up to 2^40 cells and offsets: at most one cell off, two at the outer edge. Doubles have 53 bits and unbounded exponents here.

### C124 Particle resampling in double precision — partial

In double precision (every operation rounded to nearest, sums added in any order), Tracker.resample_particles draws as many particles as there are, all existing and in order, never one of zero weight, and with systematic resampling each as many times as its share of the weight up to one.

*For:* every number of particles, weights and random numbers, every order of summation.  
*Model:* Model/FloatResample. *Proofs:* Props/FloatResample, Props/Kahan.  
*Theorems:* `FloatResample.float_stratified_sorted`, `FloatResample.float_stratified_valid_iff`, `FloatResample.float_stratified_valid`, `FloatResample.float_zero_weight`, `FloatResample.float_choice_valid`, `FloatResample.float_choice_check`, `FloatResample.kahan_near`, `FloatResample.float_choice_zero_weight`, `FloatResample.float_residual_valid`, `FloatResample.float_systematic_count`, `FloatResample.float_resample_spec`, `FloatResample.resampleParticlesF_id`, `FloatResample.float_resample_returns_iff`, `FloatResample.float_resample_raises_violated`, `FloatResample.leftSum_some_order`.  
*Note:* Systematic and stratified draw existing particles unless the last random number is within 10 n^2 / 2^53 of 1; false then (proved): ten equal weights and the largest random number below 1 raise IndexError in every order of summation. choice (n up to 2^26) and residual (n up to 2^25) always draw existing particles. Counts of systematic resampling are within 1 + 16 n^2 / 2^53 of the share. numpy's check that probabilities sum to 1 (its compensated sum, within 2^-26) is modelled and never fails up to 2^26 particles; doubles have 53 bits and unbounded exponents here.

### C125 Plots of maps and images show each value at its own place — partial

Raster.plot shows at every point strictly inside a cell of the grid the value of that cell, whichever way the axes of the grid run, and nothing outside the grid; Image.plot and Observer.plot_tile show each pixel in its own square of image coordinates; Grid.set_plot_limits and Camera/Image.set_plot_limits make the axes show exactly the grid or the image, in its own direction; Observer.plot_box draws the rectangle with the corners of the box.

*For:* all grids, arrays, image sizes, boxes and points.  
*Model:* Model/PlotsMap. *Proofs:* Props/PlotsMap.  
*Theorems:* `PlotsMap.raster_plot_shows`, `PlotsMap.raster_plot_outside`, `PlotsMap.image_plot_shows`, `PlotsMap.plot_tile_partial`, `PlotsMap.plot_tile_default_violated`, `PlotsMap.grid_limits_show`, `PlotsMap.camera_limits_show`, `PlotsMap.image_fills_limits`, `PlotsMap.plot_box_corners`.  
*Note:* matplotlib's imshow, set_xlim/ylim and plot are modelled by their documentation; points on the edges of cells are not specified. False only of Observer.plot_tile without a box (proved): a tile that is not square is drawn with width and height swapped.

### C126 Plots of tracks show the positions, velocities and standard deviations of the tracks selected — partial

Tracks.plot_xy, plot_vxy and plot_v1d draw, for exactly the tracks selected and in their order, the positions (with start markers and standard deviations if asked for), velocity arrows at the positions, or the velocity in one dimension against time with the band of one standard deviation; a track that does not exist raises IndexError.

*For:* all tracks (any number of tracks and times, with missing values), all ways of selecting tracks and all styles.  
*Model:* Model/PlotsTracks. *Proofs:* Props/PlotsTracks.  
*Theorems:* `PlotsTracks.plot_xy_spec`, `PlotsTracks.plot_xy_raises`, `PlotsTracks.plot_xy_start_partial`, `PlotsTracks.plot_xy_start_violated`, `PlotsTracks.plot_xy_sigma_missing`, `PlotsTracks.plot_vxy_spec`, `PlotsTracks.plot_v1d_spec`, `PlotsTracks.plot_v1d_sigma_missing`.  
*Note:* Start markers are at the start of tracks that have a position at the first time; false of others (proved): a track that starts later gets no marker. Asking for standard deviations that the tracks do not have raises TypeError. matplotlib is modelled by its documentation.

### C127 Plots of reprojection errors show each point's own error, selected and unselected — partial

Points.plot, Lines.plot, Matches.plot and Cameras.plot split the points into selected and unselected ones (each point drawn in exactly one of the two groups) and draw for each an arrow from observed to predicted image coordinates, scaled by the scale given; hidden or empty groups are not drawn; Polynomial.plot draws the points and the fitted polynomial; Cameras.plot uses the parameters given and leaves the cameras as they were; Cameras.plot_weights shows each observation with its own weight; Converter.plot draws arrows from xcam to cam image coordinates for every scale.

*For:* all points, predictions, indices (all, integers, masks), styles, scales, cameras and controls.  
*Model:* Model/PlotsControls. *Proofs:* Props/PlotsControls.  
*Theorems:* `PlotsControls.plot_errors_spec`, `PlotsControls.plot_errors_default`, `PlotsControls.plot_errors_raises`, `PlotsControls.plot_lines_spec`, `PlotsControls.poly_plot_partial`, `PlotsControls.poly_plot_violated`, `PlotsControls.poly_plot_default_violated`, `PlotsControls.cams_plot_spec`, `PlotsControls.cams_plot_several`, `PlotsControls.cams_plot_array_violated`, `PlotsControls.cams_plot_restore_violated`, `PlotsControls.plot_weights_spec`, `PlotsControls.converter_outgoing`, `PlotsControls.converter_incoming_partial`, `PlotsControls.converter_incoming_violated`.  
*Note:* Proved for Points, Lines, Matches and plot_weights. False (proved): Polynomial.plot raises TypeError unless some points are selected, others not, and neither are hidden, hence always with its default index; Cameras.plot raises with an array of several indices even for one control, and leaves the cameras changed if the plot of a control raises; Converter.plot with a camera that is projected into draws arrows that start at cam's coordinates, not at xcam's.

### C128 JSON files read back — partial

helpers.read_json of what helpers.write_json wrote is the same value (strings of any characters, numbers of any size, NaN and infinities, nested arrays and objects in order), with any indent or none, with and without flat_arrays; the text is ASCII; two values with the same text are the same.

*For:* every JSON value, indent and flat_arrays.  
*Model:* Model/Json. *Proofs:* Props/Json, Props/JsonDump.  
*Theorems:* `Json.loads_renders`, `Json.loads_repeated`, `Json.json_round_trip`, `Json.dumps_injective`, `Json.escape_ascii`, `Json.flat_round_trip_partial`, `Json.pyNumFmt_faithful`, `Json.intNumFmt_faithful`, `Json.flat_text_violated`.  
*Note:* Proved for all values, with floats whose repr is a JSON number that float reads back; with flat arrays if no string has a space or a comma (false otherwise: flat_text_violated). Lone surrogates and keys that are not text are left out.

### C129 Pickle files read back — partial

helpers.read_pickle(path, gz, binary) returns the object that helpers.write_pickle(obj, path, gz, binary) wrote, whatever is written to other paths in between; other files do not change; with another gz it raises; an interrupted write is not read as an object.

*For:* every object, file system, path, gz, binary, later writes and crash point.  
*Model:* Model/Pickle. *Proofs:* Props/Pickle.  
*Theorems:* `Pickle.pickle_round_trip_partial`, `Pickle.pickle_wrong_gz`, `Pickle.pickle_torn`, `Pickle.pickle_text_violated`, `Pickle.pickle_read_text_violated`.  
*Note:* False (proved) for binary=False without gz: writing always raises and empties the file. pickle and gzip are parameters.

### C130 Cameras own their memory; attributes are live views; reset restores — partial

Whatever is done with a camera and any others (attributes read, kept, written to in place or set, copies, resets, to_array, idealize), Camera.reset restores the twenty numbers it was made of, a copy resets to the state of the original when it was copied, a step about one camera changes nothing of another, an attribute that was read keeps showing (and in-place writes keep reaching) the camera until it is reset, to_array is the caller's own, and idealize zeroes exactly c, k and p.

*For:* every history of operations on any number of cameras and values read from them.  
*Model:* Model/CameraMemory. *Proofs:* Props/CameraMemory.  
*Theorems:* `CamMem.reset_restores_new`, `CamMem.reset_restores_copy`, `CamMem.others_unchanged`, `CamMem.view_live`, `CamMem.view_write`, `CamMem.set_attribute`, `CamMem.attributes_partition`, `CamMem.to_array_own`, `CamMem.idealize_spec`, `CamMem.set_sensor`, `CamMem.imgsz_write_violated`, `CamMem.reset_sensor_violated`, `CamMem.view_reset_violated`.  
*Note:* Every history of a model of memory with references. Three parts of the claim fail and are proved to: writes to imgsz are lost (the getter casts to int, a new array), reset does not restore sensorsz, and a view taken before reset is detached. The correction dictionary is not modelled.

### C131 Resizing in floating point — partial

With the rounding of double precision, the image size after a resize does not depend on earlier resizes and is exactly the one asked for; focal length and principal point offset stay in proportion to it up to one part in 2^51 per resize, exactly if sizes are halved and doubled, so that resize(1) restores the camera.

*For:* every camera of up to 2^40 pixels a side, every history of resizes to positive sizes, every rounding to nearest.  
*Model:* Model/FloatResize. *Proofs:* Props/FloatResize.  
*Theorems:* `FloatResize.size_history_independent`, `FloatResize.target_same_ratio`, `FloatResize.target_size_partial`, `FloatResize.resize_error`, `FloatResize.factor_size_partial`, `FloatResize.factor_size_violated`, `FloatResize.drift`, `FloatResize.dyadic_exact`, `FloatResize.restore_violated`.  
*Note:* Doubles have 53 bits and unbounded exponents here. False (proved): 49 pixels resized to one and back changes the focal length by 2^-53; the double nearest to 0.3 times 5 pixels gives 2 although the product is below 1.5. A target size is exact unless the scale found by differential evolution (a parameter) puts a side at half a pixel.

### C132 Tiles in floating point — proved

Grid.tile_indices computes in double precision. For whole tile sizes (as documented) and grids of fewer than 2^52 cells a side the slices are those of exact arithmetic, with any overlap and any rounding to nearest. For any other positive size the tiles still partition the grid (every cell in exactly one tile), and their number is the integer nearest to size / tile size up to the rounding of that quotient.

*For:* every grid below 2^52 cells a side, every positive tile size, every overlap, every rounding to nearest with 53 bits.  
*Model:* Model/FloatTiles. *Proofs:* Props/FloatTiles.  
*Theorems:* `FloatTiles.float_tile_indices_exact`, `FloatTiles.float_tiles_exact`, `FloatTiles.float_tiles_any`, `FloatTiles.float_tiles_partition`, `FloatTiles.float_tiles_fraction`.  
*Note:* Doubles have 53 bits and unbounded exponents here (the quotients are far from overflow). float_tiles_fraction shows that for fractions the number of tiles can differ by one from exact arithmetic, as the statement allows.

### C133 Particle weights neither vanish nor overflow — proved

In double precision with overflow, underflow, infinities and NaN, Tracker.update_weights gives every particle a finite weight of at least 1e-300 when its total log likelihood (in the code's sign) is -709 or more, of at most 1 when no log likelihood is negative, to within one rounding of exp(-total) + 1e-300, never larger for a less likely particle, and the same 1e-300 for all particles where all likelihoods vanish; without any observation the weights stay. For up to 2^24 particles the normalized weights are then positive numbers of at most 1 and resampling draws as many particles as there are, each an old one with its weight (for systematic and stratified resampling unless the last random number is within 10 n^2 2^-53 of 1, as in C124). One missing log likelihood makes every normalized weight missing, and one below -710 an infinite one.

*For:* all numbers of observers and particles, all log likelihoods (also infinite), all orders of summation, all random numbers, any rounding of exp.  
*Model:* Model/FloatWeights. *Proofs:* Props/FloatWeights.  
*Theorems:* `FloatWeights.weight_finite`, `FloatWeights.weight_ordinary`, `FloatWeights.weight_accuracy`, `FloatWeights.weight_antitone`, `FloatWeights.weight_vanishing`, `FloatWeights.update_weights_spec`, `FloatWeights.update_weights_value`, `FloatWeights.total_append`, `FloatWeights.summed64_spec`, `FloatWeights.normalize_spec`, `FloatWeights.draw_transfer`, `FloatWeights.residual_any`, `FloatWeights.residual_valid`, `FloatWeights.resample_after_update`, `FloatWeights.ordinary_values`, `FloatWeights.normalize_nan_violated`, `FloatWeights.weight_overflow_violated`.  
*Note:* IEEE 754 double precision with overflow, gradual underflow, infinities and NaN, without the sign of zero. np.exp is any monotone function with the limits in ExpOk. The last clause of the statement (where it fails) is in the two theorems named _violated.

### C134 Template and search tiles in double precision — proved

In double precision arithmetic, for images of up to a million pixels a side: the template lies in the image and starts at the same pixel as in exact arithmetic, has the requested size (or one pixel more, when the mean is within rounding before the center of the longer tile), and records its offset from the mean, at most half a pixel; it is placed wherever it would be in exact arithmetic and raises IndexError only. Searching with it never raises unless the offset is within rounding of -1/2: an image is skipped only if the search box reaches out of it, which it does not if the particles are far enough from the limits; otherwise the box contains the template centred on each particle (up to rounding), the cells are as many as the error image has, more than the degree of the spline, strictly increasing, and within rounding of the positions to which the template is moved.

*For:* all image sizes up to 2^20, means, particles (any number), tile sizes, spline degrees up to 5 and roundings to a nearest double.  
*Model:* Model/FloatTemplate. *Proofs:* Props/FloatSearch, Props/FloatTemplate.  
*Theorems:* `FloatTemplate.float_template_spec`, `FloatTemplate.float_search_spec`, `FloatTemplate.float_template_size_violated`, `FloatTemplate.float_search_raises_violated`.  
*Note:* Any rounding to a nearest double of 53 bits (exponents unbounded). The two theorems named _violated are the exceptions that the statement makes: a template one pixel wider than requested (mean 121 - 2^-46, 15 pixels requested, 16 given), and ValueError for a particle that rounding puts outside the error box (offset exactly -1/2). Pixel values, and the rounding inside the spline, are not modelled.

### C135 Statistics of particles in double precision — partial

In double precision arithmetic, in whatever order numpy adds and whether or not it fuses multiplications with additions, for n particles (up to 2^40) and as many weights, none negative and with a positive sum: each coordinate of Tracker.particle_mean is the weighted mean to within 4 n 2^-53 times the weighted mean of the absolute values; Tracker.compute_particle_sigma never gives NaN or a negative number and is the weighted standard deviation to within (4 n + 8) 2^-53 of itself plus 8 n 2^-53 times the weighted mean of the absolute values, the same with or without a precomputed mean; Tracker.particle_covariance has no negative number on its diagonal, its elements are exact to within (4 n + 8) 2^-53 times the mean absolute product of deviations (plus the product of the errors of the means), and elements that mirror each other differ by at most twice that; the mean lies between the smallest and the largest coordinate; equal particles have no spread; and the covariance is symmetric. Zero weights, another number of weights, and (for the covariance) negative weights raise.

*For:* every number of particles up to 2^40, every coordinate and weight, every order of additions, every rounding to nearest.  
*Model:* Model/FloatInterp, Model/FloatStats, Model/RasterInterp. *Proofs:* Props/FloatInterp, Props/FloatStats.  
*Theorems:* `FloatStats.float_mean_near`, `FloatStats.float_sigma_about`, `FloatStats.float_sigma_near`, `FloatStats.float_covariance_near`, `FloatStats.float_covariance_symmetric`, `FloatStats.float_stats_errors`, `FloatStats.float_mean_outside_violated`, `FloatStats.float_covariance_asymmetric_violated`, `FloatStats.stats_exact`, `FloatStats.roots_exist`.  
*Note:* Any rounding to a nearest double of 53 bits (exponents unbounded: no overflow, no underflow); np.sqrt is any square root rounded to a relative error of 2^-53. False (proved): the mean of three particles at 0.1 is 0.10000000000000002, and their standard deviation is not zero; the covariance of two particles with weights 2 and 3 is not exactly symmetric.

### C136 Particle likelihoods from pixels — partial

A particle whose projection is displaced by whole pixels from the point at which the template was taken gets from Tracker.compute_observer_log_likelihoods exactly the mean squared difference between the pixels of the template and the pixels of the search image displaced by as much, divided by twice the observer's variance. It is zero exactly if every pixel of the template is found again there, and positive otherwise, so that an exact match is the most likely. Without an image, or if the search box reaches out of it, no likelihoods are computed; the call never raises. Between pixels no particle gets a negative value.

*For:* every template and search image, every set of particles, every spline through the error image.  
*Model:* Model/Likelihood. *Proofs:* Props/Likelihood.  
*Theorems:* `Likelihood.likelihood_whole_pixels`, `Likelihood.mismatch_nonneg`, `Likelihood.mismatch_zero_iff`, `Likelihood.likelihood_best`, `Likelihood.likelihood_nonneg`, `Likelihood.bilinear_ok`, `Likelihood.likelihood_bilinear`, `Likelihood.throughNodes_ok`, `Likelihood.likelihood_cubic_violated`.  
*Note:* Exact arithmetic; the processed tiles are given. Proved at whole displacements for every spline that passes through its nodes, and between them for splines that keep values non-negative (degree one). False (proved) between pixels for the default degree three: half a pixel beside an exact match the value can be negative, hence more likely than the match.

### C137 Grids of points in a box, in double precision — partial

For finite double-precision bounds lo <= hi, a positive step and a snap value, each axis of `helpers.box_to_grid(box, step, snap, mode='vectors')` holds exactly the values snap + k * step (k an integer) that lie in [lo, hi], in increasing order: rounding neither drops a value, nor adds one outside of the box, and each coordinate is within a few units in the last place of its exact value.

*For:* all bounds, steps and snap values that are doubles (finite, no overflow).  
*Model:* Model/FloatBoxGrid. *Proofs:* Props/FloatBoxGrid.  
*Theorems:* `FloatBoxGrid.floor_divide_exact`, `FloatBoxGrid.remainder_spec`, `FloatBoxGrid.float_box_axis`, `FloatBoxGrid.float_box_sorted`, `FloatBoxGrid.float_box_axis_exact`, `FloatBoxGrid.float_box_decimal_violated`, `FloatBoxGrid.float_box_outside_violated`.  
*Note:* Any rounding to a nearest double of 53 bits (exponents unbounded), at most 2^47 steps. Proved: every coordinate is at least lo and within 2^-48 (relative to the largest number involved) of a snapped value and of the box, no snapped value further than that inside of the box is missing, and the grid is exact when all numbers are multiples of a power of two up to 2^46. False (proved): a box from 0 to 1 with step 0.1 has ten coordinates and not eleven, and the last coordinate may exceed the box.

### C138 Projection and back-projection in double precision — partial

For an undistorted camera, `Camera.xyz_to_uv` and `Camera.uv_to_xyz` compute in double precision what exact arithmetic gives, to within a bound that depends only on the focal length, the size of the field of view and (for absolute coordinates) the distance of the camera from the origin relative to the depth; points behind the camera get NaN; and an image point projected to any positive depth and back is found again in the same place.

*For:* all undistorted cameras with angles up to 360 degrees, all image points, world points and depths that are doubles.  
*Model:* Model/Camera, Model/FloatProject. *Proofs:* Props/FloatProject.  
*Theorems:* `FloatProject.float_rotation_near`, `FloatProject.float_project_near`, `FloatProject.float_behind`, `FloatProject.float_ray_near`, `FloatProject.float_round_trip`, `FloatProject.float_behind_violated`, `FloatProject.float_round_trip_violated`, `FloatProject.lib_exists`.  
*Note:* Any rounding to a nearest double of 53 bits (exponents unbounded), angles up to 360 degrees, no distortion and no elevation correction; np.cos and np.sin within 2^-50, and dot products of up to three terms within 2^-51 of the sum of absolute products (any order of summation). Proved: error bounds of the rotation matrix, of projections and rays, and of the round trip in pixels. False (proved): a point behind the camera, within 1e-17 of its plane, gets image coordinates; the corner of an image projected out and back is outside of the image by 7e-15 pixels.

### C139 Lens distortion in double precision — proved

The image coordinates that Camera.xyz_to_uv computes in double precision for a camera with radial and tangential distortion are close to the exact image coordinates: within 2^-35 of the size of the terms of the distortion, in focal lengths, plus half of the image size and the principal point offset, for any point in front of the camera where the denominator of the radial distortion is not nearly zero.

*For:* every correct rounding and every accurate library, camera with view angles up to 360 degrees, six radial and two tangential coefficients, and point or direction in front of the camera.  
*Model:* Model/FloatDistort. *Proofs:* Props/FloatDistort.  
*Theorems:* `FloatProject.distort_rel`, `FloatProject.float_xy_near`, `FloatProject.float_distorted_near`.  
*Note:* Any rounding to a nearest double of 53 bits (exponents unbounded), angles up to 360 degrees, no elevation correction, library functions as in C138. The size of the terms (distortScale) is a polynomial of the absolute values of the coefficients and of (1 + M)^2, where M bounds the coordinates before distortion, over the square of the lower bound c of the denominator. The bound is not claimed where the polynomial of the denominator exceeds 2^34 c. Inverting the distortion (uv_to_xyz) is not included.

### C140 Rasters opened at another cell size — partial

A raster opened with a target cell size holds in each cell the value of the file at the center of the cell (missing values apart), and Raster.read and Raster.array return this array, or the box of it, whatever has been read before and whether or not it is cached.

*For:* every file, target cell size, crop, box and history of reads.  
*Model:* Model/RasterScale. *Proofs:* Props/RasterScale.  
*Theorems:* `raster_scaled_partial`, `raster_scaled_coarse`, `RasterIO.open_scaled_cells`, `raster_scaled_box_violated`, `raster_scaled_fine_violated`, `ScaledFile.holds_pixels`, `ScaledFile.Holds.unique`.  
*Note:* GDAL's resampling is its default, the nearest cell. Proved: the array of a raster opened at any cell size, and boxes after it is cached; boxes read without a cache if their edges are edges of cells of the file (always so if each cell is made of whole cells of the file). False (proved): other boxes read without a cache may have other values (three cells as two: 2 for 3), and raise when smaller than a cell of the file. A box read with caching while nothing is cached is wrong at any cell size (C57).

### C141 Motion in double precision — partial

Evolving particles in double precision with any steps forward and backward, any accelerations and any random numbers gives positions and velocities within (k + 14) / 2^52 of the exact ones, relative to the sum of the absolute values of the terms added, where k is the number of steps; with a constant acceleration they are those of uniformly accelerated motion over the total time, however it is split. Exactness fails: a step forward and back may not return to the start, and a particle slower than 2^-54 of its coordinate per step never moves, in any number of steps.

*For:* every rounding to a nearest double, particle, acceleration, random number, time unit and sequence of time steps.  
*Model:* Model/FloatMotion, Model/Motion. *Proofs:* Props/FloatMotion.  
*Theorems:* `FloatMotion.float_motion_near`, `FloatMotion.float_motion_total`, `FloatMotion.float_base_motion`, `FloatMotion.float_motion_reverse_violated`, `FloatMotion.float_motion_stuck_violated`.  
*Note:* Any rounding to a nearest double of 53 bits (exponents unbounded); the square of the time is the rounded product; the random numbers are given doubles; up to 2^53 steps. Proved: the bounds for CartesianMotion in any number of steps (against the exact steps of C38 and against uniformly accelerated motion over the total time), and for one step of the base motion. False (proved): a day forward and a day back from 2^-60 ends at 0, and at position 1 a speed of 2^-54 per step never moves the particle.

### C142 Gradients and shades of rasters with missing cells — partial

Raster.gradient and Raster.hillshade of a raster with missing cells: a slope along one axis is missing exactly if one of the two neighbours along that axis is missing (at an edge, the cell or its only neighbour); a shade is missing exactly if one of its two slopes is. The slopes and shades that are not missing do not depend on what the missing cells would contain. Missing cells have no slope and no shade, and the shades elsewhere are those of the complete raster (the last two fail).

*For:* every raster of at least two rows and columns with any pattern of missing cells, every azimuth and altitude.  
*Model:* Model/HillshadeMissing. *Proofs:* Props/HillshadeMissing.  
*Theorems:* `Hillshade.gradient_missing`, `Hillshade.hillshade_missing`, `Hillshade.hillshade_complete`, `Hillshade.hillshade_missing_raises`, `Hillshade.hillshade_hole_violated`, `Hillshade.hillshade_stretch_violated`.  
*Note:* Proved: exactly which slopes and shades are missing, the value of every other one (independent of what fills the missing cells), and agreement with C114 for complete rasters. False (proved): a missing cell within the raster whose neighbours are not missing has slopes and a shade, while the four cells around it have none (any raster); one missing cell anywhere turns off the stretch of all shades (an example goes from 0 to 0.7 at a cell far from it). matplotlib's LightSource is modelled from its 3.2.1 source.

### C143 Rasters interpolated in time in double precision — partial

Each cell interpolated between two rasters in double precision is the first value at the first position exactly, the common value if both are equal, moves only in the direction from the first value to the second as the position grows (also when extrapolating), and is between the two values at every datetime from the first to before the second (285 years apart at most). It is within 7 / 2^52 of the exact value relative to the first value and the change from it, and the standard deviation within 19 / 2^52 of the exact one relative to itself. The result at the second position is the second value (this fails: it may be past it or lose it, unless the difference is a double).

*For:* every rounding to a nearest double, pair of positions (numbers or datetimes), pair of values and standard deviations, and position between or beyond.  
*Model:* Model/FloatInterp, Model/FloatStats, Model/RasterInterp. *Proofs:* Props/FloatInterp, Props/FloatStats.  
*Theorems:* `FloatInterp.float_interpolate_start`, `FloatInterp.float_interpolate_equal`, `FloatInterp.float_interpolate_mono`, `FloatInterp.float_interpolate_between`, `FloatInterp.float_interpolate_datetimes`, `FloatInterp.float_interpolate_end`, `FloatInterp.float_interpolate_near`, `FloatInterp.float_variance_near`, `FloatInterp.float_sigma_near`, `FloatInterp.float_interpolate_end_violated`, `FloatInterp.float_interpolate_before_violated`.  
*Note:* Any rounding to a nearest double of 53 bits (exponents unbounded); squares are rounded products and the square root is within half a unit in the last place. For numbers, results are between the values if the rounded fraction of the way is less than one; false (proved) otherwise: 2^53 - 1 counts as 2^53 after -1. False (proved): at the second position the result may be past the second value (-4 to -0.9) or zero (2^60 to 1).

### C144 Samples of rasters in double precision — partial

A linear sample of a raster in double precision at a point within the outermost cell centers is within 135 / 2^52 of the exact one relative to the largest value (outside, also in proportion to the distance), and at the center of a cell it is the value of the cell, exactly. A sample of a raster of one row or column is within 7 / 2^52 relative to the first value and the change from it. A flat raster has the same sample everywhere, and the sample at the center of a cell of a raster with one row is its value (both fail).

*For:* every rounding to a nearest double, ascending coordinates of any number and spacing, values and points.  
*Model:* Model/FloatSample. *Proofs:* Props/FloatSample.  
*Theorems:* `FloatSample.float_sample_near`, `FloatSample.float_sample_inside`, `FloatSample.float_sample_center`, `FloatSample.float_line_near`, `FloatSample.float_sample_flat_violated`, `FloatSample.float_line_center_violated`.  
*Note:* Any rounding to a nearest double of 53 bits (exponents unbounded); no missing values (C78). scipy 1.4.1's RegularGridInterpolator and interp1d are modelled operation by operation, in the order of their source. False (proved): samples of a raster of ones are below one at (0.05, 0.05) of a cell and above one at (0.1, 0.2); in a raster of one row with cells 49 apart, the sample at the center of the cell with value 1 is less than 1.

### C145 Histogram matching in double precision — proved

With every floating point operation rounded to double precision, match_cdf of two arrays with at most 2^49 pairs of cells returns a value for each cell, never reverses the order of two cells, makes equal cells equal, and returns no value outside the values of the second array. A cell at exactly the quantile of a value of the second array becomes exactly that value, so an array matched to itself, or to the same cells repeated and reordered, is unchanged. All values are within (5 m + 7) / 2^53 of the range of the second array (of m cells) plus 1 / 2^53 of its largest magnitude of the result without rounding. An empty second array raises ValueError.

*For:* for every rounding to a nearest double, every two arrays of at most 2^49 pairs of cells, of doubles.  
*Model:* Model/FloatCdf. *Proofs:* Props/FloatCdf.  
*Theorems:* `FloatCdf.float_match_cdf`, `FloatCdf.float_match_cdf_exact`, `FloatCdf.float_match_cdf_self`, `FloatCdf.float_match_cdf_near`, `FloatCdf.float_match_cdf_empty`.  
*Note:* Any rounding to a nearest double of 53 bits (exponents unbounded, so no overflow or underflow). numpy 1.19.5's interp is modelled operation by operation. float_match_cdf_near compares with the model without rounding of C52.

### C146 Datetimes matched in double precision — partial

With every floating point operation rounded to double precision, for datetimes (on a clock at UTC) less than 2^32 seconds from 1970: pairwise_distance_datetimes gives zero for equal datetimes and only for them, does not decrease away from a datetime in either direction, is within a microsecond and 2^-53 of itself of the true distance, and is exact for datetimes of whole seconds. Tracker.match_datetimes matches a datetime that is the time of an image to the first image of that time whatever the maximum, matches no other with a maximum of zero, and matches an image that is nearest to within two microseconds and within the maximum to within a microsecond (and 2^-53 of the distances); for whole seconds, it is exactly the first nearest image if that is within the maximum. A datetime exactly the maximum from the nearest image is matched.

*For:* for every rounding to a nearest double, all datetimes within the range, all lists of image times, all maxima.  
*Model:* Model/FloatTimes. *Proofs:* Props/FloatTimes.  
*Theorems:* `FloatTimes.distance_self`, `FloatTimes.distance_zero`, `FloatTimes.distance_mono`, `FloatTimes.distance_near`, `FloatTimes.distance_seconds`, `FloatTimes.match_equal`, `FloatTimes.match_zero`, `FloatTimes.match_near`, `FloatTimes.match_seconds`, `FloatTimes.match_none`, `FloatTimes.match_maximum_violated`, `FloatTimes.match_future_violated`.  
*Note:* Any rounding to a nearest double of 53 bits (exponents unbounded). CPython's datetime.timestamp is modelled for a clock whose offset to UTC is zero; one observer and one datetime at a time, as the code treats them. False (proved): a datetime in 2020 that is 0.2 seconds from an image is not matched with a maximum of 0.2 seconds. Outside of the range (proved): in the year 2242, an image a microsecond away is matched with a maximum of zero.

### C147 Datetimes to track at, in double precision — proved

With every floating point operation rounded to double precision, Tracker.parse_datetimes returns exactly those of the datetimes given (once each, in their order) that Tracker.match_datetimes, with the same maximum and precision, matches to an image of at least one observer. A datetime that is the time of an image is always kept. With the default maximum of zero (and times less than 2^32 seconds from 1970), and whenever all times and the maximum are whole seconds, the result or error is the one of exact arithmetic, which keeps any datetime within the maximum of an image.

*For:* for every rounding to a nearest double, all observers, all lists of datetimes, all maxima.  
*Model:* Model/FloatParse. *Proofs:* Props/FloatParse.  
*Theorems:* `FloatTimes.parse_matches`, `FloatTimes.parse_zero`, `FloatTimes.parse_seconds`, `FloatTimes.parse_keeps`, `FloatTimes.parse_maximum_violated`.  
*Note:* Any rounding to a nearest double of 53 bits (exponents unbounded); clock at UTC. The result with exact arithmetic is that of C34. Agreement with it holds only in the cases stated: with other maxima it may differ (proved): two datetimes become one and ValueError is raised when a datetime in 2020 is 0.2 seconds from an image and the maximum is 0.2 seconds.

### C148 Elevation corrections in double precision — proved

With every floating point operation rounded to double precision, elevation_corrections returns one correction for each squared distance, within 5 / 2^53 of its magnitude of (refraction - 1) d / (2 radius). For a positive radius, corrections are never upward if refraction is at most 1, are downward at every distance other than zero if it is less than 1, are exactly zero at distance zero and for a refraction of 1, never decrease in size with distance, and never increase in size with the radius or with refraction up to 1.

*For:* for every rounding to a nearest double, every array of squared distances, radius and refraction.  
*Model:* Model/FloatCorrection. *Proofs:* Props/FloatCorrection.  
*Theorems:* `FloatCorrection.correction_near`, `FloatCorrection.correction_nonpos`, `FloatCorrection.correction_neg`, `FloatCorrection.correction_zero`, `FloatCorrection.correction_one`, `FloatCorrection.correction_mono`, `FloatCorrection.correction_mono_refraction`, `FloatCorrection.correction_mono_radius`, `FloatCorrection.corrections_spec`.  
*Note:* Any rounding to a nearest double of 53 bits (exponents unbounded, so no underflow: a correction at a tiny distance is not zero).


## Code that is modelled

Functions whose lines are cited by a definition of the model (model files after the colon). Each definition's comment gives the exact lines and simplifications.

* `camera.py`: `Camera.__init__` (76-120): Camera, CameraJson, Controls, Converters; `Camera.xyz` (125-127): Camera; `Camera.xyz` (130-131): Camera; `Camera.viewdir` (134-142): Camera, ObserverFit; `Camera.viewdir` (145-146): Camera, ObserverFit; `Camera.imgsz` (149-151): Camera, CameraJson, Controls, FloatResize; `Camera.imgsz` (154-159): Camera, CameraJson, Controls, FloatResize; `Camera.f` (162-164): Camera; `Camera.f` (167-168): Camera; `Camera.c` (171-173): Camera; `Camera.c` (176-177): Camera, Converters; `Camera.k` (180-182): Camera, Converters; `Camera.k` (185-186): Camera, Converters; `Camera.p` (189-191): Camera; `Camera.p` (194-195): Camera; `Camera.sensorsz` (198-200): CameraMemory; `Camera.sensorsz` (203-206): CameraMemory; `Camera.fmm` (209-213): Camera, CameraJson; `Camera.fmm` (216-219): Camera, CameraJson; `Camera.cmm` (222-226): Camera, CameraJson; `Camera.cmm` (229-234): Camera, CameraJson; `Camera.R` (237-277): Camera, FloatProject; `Camera.Rprime` (280-326): Camera; `Camera.from_json` (331-353): CameraJson, CameraText; `Camera.copy` (357-394): Camera, CameraMemory; `Camera.reset` (396-407): Camera, CameraMemory; `Camera.to_array` (409-426): CameraMemory; `Camera.to_dict` (428-448): CameraJson; `Camera.to_json` (450-487): Camera, CameraJson, CameraText; `Camera.idealize` (489-508): Camera, CameraMemory; `Camera.resize` (510-567): Camera, Controls, FloatResize; `Camera.xyz_to_uv` (569-606): Camera, FloatDistort, FloatProject; `Camera.uv_to_xyz` (608-641): Camera, FloatProject; `Camera.infront` (643-676): Camera; `Camera.inframe` (678-696): Camera, ObserverAnimate; `Camera.grid` (698-739): CameraView; `Camera.edges` (741-778): CameraView; `Camera.viewbox` (780-802): CameraView; `Camera.viewpoly` (804-834): CameraView; `Camera.rasterize` (836-861): Camera; `Camera.spherical_to_xyz` (863-904): Camera; `Camera.xyz_to_spherical` (906-943): Camera; `Camera.project_dem` (945-1107): ProjectDem; `Camera.set_plot_limits` (1109-1112): PlotsMap; `Camera._radial_distortion` (1116-1141): Camera, FloatDistort; `Camera._tangential_distortion` (1143-1156): Camera, FloatDistort; `Camera._distort` (1158-1174): Camera, FloatDistort; `Camera._undistort` (1176-1208): Camera, Undistort; `Camera._undistort_k1` (1210-1242): Camera; `Camera._undistort_lookup` (1244-1281): Undistort; `Camera._undistort_oulu` (1283-1315): Camera; `Camera._undistort_regulafalsi` (1317-1367): Undistort; `Camera.reversible` (1369-1411): Undistort; `Camera._xyz_to_xy` (1413-1448): Camera, FloatProject; `Camera._xy_to_xyz` (1450-1475): Camera, FloatProject; `Camera._xy_to_uv` (1477-1486): Camera, FloatDistort, FloatProject; `Camera._uv_to_xy` (1488-1497): Camera, FloatProject.
* `convert/cameras/agisoft.py`: `Agisoft.__init__` (35-55): Converters; `Agisoft.from_xml` (58-95): ConvertRead; `Agisoft._from_camera_initial` (98-110): Converters; `Agisoft.from_camera` (113-145): Converters; `Agisoft._xy_to_uv` (147-169): Converters; `Agisoft._to_camera_initial` (171-178): Converters; `Agisoft.to_camera` (180-223): Converters.
* `convert/cameras/matlab.py`: `Matlab.__init__` (30-44): Converters; `Matlab.from_report` (47-82): ConvertRead; `Matlab._from_camera_initial` (85-94): Converters; `Matlab.from_camera` (97-129): Converters; `Matlab._xy_to_uv` (131-151): Converters; `Matlab._to_camera_initial` (153-163): Converters; `Matlab.to_camera` (165-200): Converters.
* `convert/cameras/opencv.py`: `OpenCV.__init__` (43-70): Converters; `OpenCV.cameraMatrix` (73-79): Converters; `OpenCV.distCoeffs` (82-101): Converters; `OpenCV._parse_camera_matrix` (104-105): Converters; `OpenCV._parse_distortion_coefficients` (108-115): Converters; `OpenCV.from_arrays` (118-137): Converters; `OpenCV.from_xml` (140-165): ConvertRead; `OpenCV._from_camera_initial` (168-183): Converters; `OpenCV.from_camera` (186-196): Converters; `OpenCV._xy_to_uv` (198-217): Converters; `OpenCV._to_camera_initial` (219-226): Converters; `OpenCV.to_camera` (228-263): Converters.
* `convert/cameras/photomodeler.py`: `PhotoModeler.__init__` (34-53): Converters; `PhotoModeler.from_report` (56-88): ConvertRead; `PhotoModeler._from_camera_initial` (91-101): Converters; `PhotoModeler.from_camera` (104-160): Converters; `PhotoModeler._uv_to_xy` (162-185): Converters; `PhotoModeler._to_camera_initial` (187-193): Converters; `PhotoModeler.to_camera` (195-238): Converters.
* `convert/converter.py`: `Converter.__init__` (42-51): Converter; `Converter._grid` (53-63): Converter; `Converter.residuals` (65-85): Converter, Converters, PlotsControls; `Converter.optimize_cam` (87-107): Converter, Converters; `Converter.optimize_xcam` (109-138): Converter, Converters; `Converter.plot` (140-164): PlotsControls.
* `exif.py`: `Exif.__init__` (84-88): ExifFile, ImageNew; `Exif.imgsz` (91-97): Exif; `Exif.datetime` (100-110): Exif; `Exif.exposure` (113-116): Exif; `Exif.aperture` (119-122): Exif; `Exif.iso` (125-128): Exif; `Exif.fmm` (131-134): Exif; `Exif.make` (137-140): ImageNew; `Exif.model` (143-146): ImageNew; `Exif.sensorsz` (149-154): ImageNew; `Exif.parse_tag` (156-177): Exif; `Exif.dump` (179-224): Exif, ExifFile; `Exif.insert` (226-249): ExifFile.
* `helpers.py`: `format_list` (23-81): CameraJson, Lists; `numpy_dtype_minmax` (84-115): Filters; `numpy_to_native` (118-131): CameraText; `strip_path` (134-157): JsonText, Lists; `_sorted_neighbors` (160-177): Search; `sorted_nearest` (180-201): Search; `write_pickle` (207-227): Pickle; `read_pickle` (230-247): Pickle; `read_json` (253-262): Json; `write_json` (265-305): CameraText, Json, JsonText; `normalize` (311-331): Filters; `gaussian_filter` (334-374): Filters; `maximum_filter` (377-417): Filters; `compute_cdf` (420-451): Cdf, FloatCdf; `match_cdf` (454-480): Cdf, FloatCdf; `crs_to_wkt` (486-518): RasterIO; `gdal_driver_from_path` (521-545): RasterIO; `write_raster` (548-615): ImageWrite, RasterIO; `boolean_split` (621-671): Lists; `in_box` (674-691): Boxes; `clip_polyline_box` (694-746): Boxes; `intersect_edge_box` (749-775): Boxes; `intersect_rays_box` (778-860): Boxes; `bresenham_line` (865-939): Bresenham; `bresenham_circle` (942-1020): Circle; `intersect_boxes` (1023-1050): Boxes; `pairwise_distance` (1053-1078): Pairwise; `interpolate_line` (1081-1170): InterpLine; `unravel_box` (1173-1195): Boxes; `bounding_box` (1198-1214): Boxes, CameraView; `box_to_polygon` (1217-1237): BoxGrids, ObserverAnimate; `box_to_grid` (1240-1310): BoxGrids, Boxes, FloatBoxGrid; `grid_to_points` (1313-1329): BoxGrids; `get_scale_from_size` (1332-1370): Camera, FloatResize; `rasterize_points` (1376-1457): Rasterize; `polygons_to_mask` (1460-1527): PolygonMask; `elevation_corrections` (1530-1549): Camera, FloatCorrection; `pairwise_distance_datetimes` (1555-1578): FloatTimes, Pairwise, Tracker; `datetime_range` (1581-1604): Datetimes; `select_datetimes` (1607-1676): Datetimes; `_parse_parallel` (1692-1701): BoxGrids.
* `image.py`: `Image.__init__` (85-113): ImageNew, ImageRead, ImageWrite, ObserverImages; `Image._path_imgsz` (121-123): ImageRead; `Image._cache_imgsz` (126-129): ImageRead; `Image.read` (131-208): ImageRead, ImageWrite, ObserverAnimate, ObserverImages; `Image.write` (210-222): ImageWrite; `Image.plot` (224-248): PlotsMap; `Image.set_plot_limits` (250-270): PlotsMap; `Image.inbounds` (290-292): ObserverAnimate; `Image.project` (294-354): ImageProject.
* `optimize.py`: `Points.__init__` (99-109): Controls; `Points.size` (112-114): CamsResiduals, Controls; `Points.observed` (116-123): CamsResiduals, Controls; `Points._test_position` (125-129): Controls; `Points.predicted` (131-143): CamsResiduals, Controls, ObserverFit, PlotsControls; `Points.plot` (145-195): Controls, PlotsControls; `Points._scale` (197-199): Controls; `Points.resize` (201-235): Controls; `Lines.__init__` (302-317): Controls, InterpLine; `Lines._xyzs_to_uvs` (319-352): Controls, InterpLine; `Lines.predicted` (354-375): CamsResiduals, Controls, InterpLine; `Lines.plot` (377-452): Controls, PlotsControls; `Lines._scale` (454-458): Controls; `Matches.__init__` (522-533): Controls, Matches; `Matches.size` (536-538): CamsResiduals, Controls, Matches; `Matches._test_matches` (540-550): Controls, Matches; `Matches._test_position` (552-554): Controls, Matches; `Matches._cam_index` (556-561): Controls, Matches; `Matches.observed` (563-572): CamsResiduals, Controls, Matches; `Matches.predicted` (574-589): CamsResiduals, Controls, Matches; `Matches.plot` (591-644): Controls, Matches, PlotsControls; `Matches.to_type` (646-650): Controls, Matches; `Matches.resize` (652-674): Controls, Matches; `Matches.filter` (676-739): Matches; `RotationMatches.__init__` (762-776): Controls, Matches; `RotationMatches._initialize_uvs_xys` (778-787): Matches; `RotationMatches._build_xys` (789-792): Matches; `RotationMatches._build_uvs` (794-797): Matches; `RotationMatches._test_internals` (799-806): Matches; `RotationMatches.predicted` (808-825): Matches; `RotationMatches.to_type` (827-831): Matches; `RotationMatchesXY.__init__` (857-870): Controls, Matches; `RotationMatchesXY.size` (873-875): Controls, Matches; `RotationMatchesXY.observed` (877-886): Matches; `RotationMatchesXY.predicted` (888-905): Matches; `RotationMatchesXY.to_type` (907-914): Matches, ObserverFit; `RotationMatchesXY.plot` (916-918): Matches, ObserverFit; `RotationMatchesXYZ.__init__` (944-951): Matches, ObserverCameras, ObserverFit; `RotationMatchesXYZ.predicted` (953-969): Matches, ObserverCameras, ObserverFit; `RotationMatchesXYZ.observed` (971-973): Matches, ObserverFit; `Polynomial.__init__` (1029-1031): Polynomial; `Polynomial.size` (1034-1036): Polynomial; `Polynomial.predict` (1038-1046): Polynomial; `Polynomial.errors` (1048-1057): Polynomial; `Polynomial.fit` (1059-1069): Polynomial; `Polynomial.plot` (1071-1124): PlotsControls; `Cameras.__init__` (1170-1219): Cams, CamsTest; `Cameras.weights` (1222-1224): Cams; `Cameras.weights` (1227-1232): Cams; `Cameras._as_lists` (1235-1261): Cams, CamsTest; `Cameras._lmfit_labels` (1264-1282): Cams, CamsFit; `Cameras._get_control_cams` (1285-1289): Cams, CamsTest; `Cameras.prune_controls` (1292-1323): Cams, CamsTest; `Cameras.camera_scales` (1326-1406): Cams, CamsScales; `Cameras.camera_bounds` (1409-1455): Cams, CamsScales; `Cameras.parse_params` (1458-1521): Cams; `Cameras._test` (1523-1566): Cams, CamsTest; `Cameras._build_scales` (1568-1577): Cams, CamsScales; `Cameras._build_sparsity` (1579-1612): Cams, CamsTest; `Cameras.update_params` (1614-1669): Cams, CamsFit, CamsTest; `Cameras.set_cameras` (1671-1695): Cams; `Cameras.reset_cameras` (1697-1700): Cams; `Cameras.size` (1703-1705): CamsResiduals; `Cameras.observed` (1707-1718): CamsResiduals; `Cameras.predicted` (1720-1745): Cams, CamsResiduals; `Cameras.residuals` (1747-1763): CamsResiduals; `Cameras.errors` (1765-1778): CamsResiduals; `Cameras.fit` (1780-1877): CamsFit, CamsResiduals; `Cameras.plot` (1879-1954): PlotsControls; `Cameras.plot_weights` (1956-1970): PlotsControls; `ObserverCameras.__init__` (1987-2002): ObserverFit; `ObserverCameras.set_cameras` (2004-2007): ObserverFit; `ObserverCameras.reset_cameras` (2009-2011): ObserverFit; `ObserverCameras.build_keypoints` (2013-2015): ObserverFit; `ObserverCameras.build_matches` (2017-2021): ObserverFit; `ObserverCameras.fit` (2023-2082): ObserverCameras, ObserverFit; `ransac` (2090-2149): Polynomial, Ransac; `_ransac_samples` (2152-2185): Ransac; `detect_keypoints` (2191-2228): DetectKp; `match_keypoints` (2231-2294): MatchKp; `KeypointMatcher.__init__` (2319-2334): Keypoints; `KeypointMatcher._prepare_image_basenames` (2336-2341): Keypoints; `KeypointMatcher._prepare_image` (2343-2350): Keypoints; `KeypointMatcher.build_keypoints` (2352-2429): Keypoints; `KeypointMatcher.build_matches` (2431-2601): Keypoints; `KeypointMatcher._test_matches` (2603-2606): Keypoints; `KeypointMatcher._assign_cameras` (2608-2611): Keypoints; `KeypointMatcher.convert_matches` (2613-2650): Keypoints; `KeypointMatcher.filter_matches` (2652-2686): Keypoints; `KeypointMatcher._images_mask` (2688-2692): Keypoints; `KeypointMatcher._images_matches` (2694-2697): Keypoints; `KeypointMatcher.matches_per_image` (2699-2706): Keypoints; `KeypointMatcher.images_per_image` (2708-2712): Keypoints; `KeypointMatcher.drop_images` (2714-2737): Keypoints; `KeypointMatcher.match_breaks` (2739-2752): Keypoints.
* `raster.py`: `Grid.__init__` (47-57): Grid, GridState, MotionDem, RasterMemory; `Grid.__eq__` (59-65): GridState, Tiles; `Grid.size` (70-72): Grid, GridState; `Grid.size` (75-85): Grid, GridState, RasterMemory; `Grid.xlim` (88-90): Grid, GridState, RasterMemory; `Grid.xlim` (93-97): Grid, GridState, RasterMemory, RasterState; `Grid.ylim` (100-102): Grid, GridState, RasterMemory; `Grid.ylim` (105-109): Grid, GridState, RasterMemory, RasterState; `Grid.d` (119-121): FloatGrid, Grid; `Grid.min` (124-126): Grid; `Grid.max` (129-131): Grid; `Grid.x` (139-151): Grid, GridState, RasterMemory; `Grid.X` (154-158): Grid, GridState, RasterMemory; `Grid.y` (161-173): Grid, GridState, RasterMemory; `Grid.Y` (176-180): Grid, GridState, RasterMemory; `Grid.read` (183-220): RasterIO; `Grid._clear_cache` (224-228): GridState; `Grid._parse_limits` (230-239): GridState, MotionDem; `Grid._parse_xy` (241-267): GridState, RasterMemory, RasterWindow; `Grid._shift_xy` (269-282): GridState, RasterMemory; `Grid.copy` (286-288): GridState, RasterIO, RasterMemory; `Grid.resize` (290-300): GridState; `Grid.shift` (302-310): GridState, RasterMemory; `Grid.inbounds_xy` (312-336): Grid; `Grid.snap_xy` (342-387): FloatGrid, Grid; `Grid.snap_box` (389-420): FloatTemplate, Grid; `Grid.xyz_to_uv` (422-444): FloatGrid, Grid; `Grid.uv_to_xyz` (446-458): FloatGrid, Grid; `Grid.rowcol_to_xy` (460-475): FloatGrid, Grid; `Grid.xy_to_rowcol` (477-499): FloatGrid, Grid; `Grid.rowcol_to_idx` (501-511): Grid; `Grid.idx_to_rowcol` (513-523): Grid; `Grid.crop_extent` (525-573): FloatGrid, Grid; `Grid.set_plot_limits` (575-578): PlotsMap; `Grid.tile_indices` (580-609): FloatTiles, Grid; `Raster.__init__` (635-659): MotionDem, RasterIO, RasterMemory, RasterState; `Raster.__eq__` (661-667): RasterMemory, RasterState; `Raster.__getitem__` (669-692): RasterMemory, RasterWindow; `Raster.open` (695-759): RasterIO, RasterRead, RasterScale; `Raster.read` (761-835): RasterRead, RasterScale; `Raster.array` (838-842): RasterMemory, RasterRead, RasterScale, RasterState; `Raster.array` (845-858): RasterMemory, RasterState; `Raster.zlim` (863-866): RasterState; `Raster.size` (869-874): RasterIO, RasterRead, RasterResample, RasterScale; `Raster.box3d` (877-880): RasterMemory, RasterState; `Raster.grid` (883-885): RasterIO, RasterMemory, RasterState; `Raster.Zf` (890-898): FloatSample, RasterMemory, RasterState, Sample; `Raster.copy` (902-909): RasterIO, RasterMemory; `Raster.sample` (911-1025): FloatSample, MotionDem, MotionMissing, RasterState; `Raster._sample_1d` (1027-1038): RasterResample, Sample, SampleMissing; `Raster._sample_grid` (1040-1068): Sample; `Raster.resample` (1070-1081): RasterMemory, RasterResample; `Raster.plot` (1083-1099): PlotsMap; `Raster.rasterize` (1101-1117): Terrain; `Raster.rasterize_polygons` (1119-1145): PolygonMask; `Raster.crop` (1147-1174): RasterWindow; `Raster.resize` (1176-1185): RasterInterp; `Raster.shift` (1187-1217): RasterMemory, RasterState; `Raster.fill_circle` (1219-1245): Circle; `Raster.hillshade` (1247-1262): Hillshade, HillshadeMissing; `Raster.fill_crevasses` (1264-1289): Filters; `Raster.viewshed` (1291-1387): Terrain; `Raster.horizon` (1389-1463): Terrain; `Raster.gradient` (1465-1474): HillshadeMissing, Sample; `Raster.write` (1476-1490): RasterIO; `Raster.data_extent` (1492-1514): RasterWindow; `Raster.crop_to_data` (1516-1525): RasterWindow; `RasterInterpolant.__init__` (1543-1553): RasterInterp; `RasterInterpolant._parse_as_raster` (1555-1592): RasterInterp; `RasterInterpolant._read_mean` (1594-1614): RasterInterp; `RasterInterpolant._read_sigma` (1616-1629): RasterInterp; `RasterInterpolant._read_mean_grid` (1631-1640): RasterInterp; `RasterInterpolant.nearest` (1642-1671): RasterInterp; `RasterInterpolant._interpolate` (1673-1700): FloatInterp, RasterInterp; `RasterInterpolant.__call__` (1702-1771): RasterInterp.
* `svg.py`: `_strip_etree_namespaces` (29-39): SvgWrite; `read` (42-173): SvgRead; `_chunks` (176-191): Svg; `_num` (194-216): Svg; `svg` (219-257): SvgWrite; `g` (260-284): SvgWrite; `image` (287-313): SvgWrite; `path` (316-341): SvgWrite; `_indent_etree` (344-364): SvgWrite; `_etree_to_string` (367-370): SvgWrite; `write` (373-409): SvgWrite; `Points.closed` (423-439): Svg; `Points.bbox` (441-459): Svg; `Points.scale` (461-481): SvgRead; `Points.translate` (483-498): SvgRead; `Points.matrix` (500-523): SvgRead; `Points.transform` (525-560): SvgRead; `Points._points_to_xy` (563-565): Svg; `Points._xy_to_points` (568-569): Svg; `Points._from_polyline` (572-574): Svg; `Points._to_polyline` (576-577): Svg; `Points._from_polygon` (580-585): Svg; `Points._to_polygon` (587-589): Svg; `Points._from_line` (592-596): Svg, SvgElement; `Points._to_line` (598-602): Svg, SvgElement; `Points._from_circle` (605-607): Svg, SvgElement; `Points._to_circle` (609-612): Svg, SvgElement; `Points._from_rect` (615-620): Svg, SvgElement; `Points._to_rect` (622-632): Svg; `Points._from_svg` (635-640): Svg; `Points._to_svg` (642-647): Svg; `Points._from_image` (650-653): Svg; `Points._to_image` (655-656): Svg; `Points._from_path` (659-732): Svg; `Points._to_path` (734-748): Svg; `Points.from_element` (751-791): SvgElement; `Points.to_element` (793-834): SvgElement.
* `track/motion.py`: `Motion.initialize_particles` (53-63): MotionDem; `Motion.evolve_particles` (65-74): FloatMotion, Motion; `CartesianMotion.__init__` (121-147): MotionDem, MotionMissing; `CartesianMotion.initialize_particles` (149-163): Motion, MotionDem, MotionMissing; `CartesianMotion.evolve_particles` (165-179): FloatMotion, Motion; `CartesianMotion.compute_log_likelihoods` (181-204): Motion, MotionDem, MotionMissing; `CylindricalMotion.__init__` (232-258): MotionDem, MotionMissing; `CylindricalMotion.initialize_particles` (260-283): Motion, MotionDem, MotionMissing; `CylindricalMotion.evolve_particles` (285-311): Motion; `TangentCartesianMotion.__init__` (349-377): Motion, MotionDem, MotionMissing; `TangentCartesianMotion.initialize_particles` (379-391): Motion, MotionDem, MotionMissing; `TangentCartesianMotion.evolve_particles` (393-412): Motion, MotionDem, MotionMissing; `TangentCylindricalMotion.__init__` (440-468): MotionDem, MotionMissing; `TangentCylindricalMotion.initialize_particles` (470-490): Motion, MotionDem, MotionMissing; `TangentCylindricalMotion.evolve_particles` (492-522): Motion, MotionDem, MotionMissing.
* `track/observer.py`: `Observer.__init__` (50-69): Observer, ObserverImages; `Observer.index` (71-100): Observer, ObserverImages; `Observer.xyz_to_uv` (102-113): Tiles; `Observer.tile_box` (115-130): FloatTemplate, Tiles; `Observer.extract_tile` (132-144): ObserverImages; `Observer.shift_tile` (146-176): Filters, ObserverImages; `Observer.sample_tile` (178-214): FloatTemplate, Likelihood, ObserverImages, Tiles; `Observer.plot_tile` (216-239): Likelihood, PlotsMap, Tiles; `Observer.plot_box` (241-258): PlotsMap; `Observer.cache_images` (260-268): ObserverImages; `Observer.clear_images` (270-278): ObserverImages; `Observer.animate` (280-366): ObserverAnimate; `Observer.track` (368-453): ObserverAnimate; `Observer.subset` (455-464): Observer; `Observer.split` (466-493): Observer.
* `track/tracker.py`: `Tracker.__init__` (52-70): TracksStats; `Tracker.particle_mean` (73-76): FloatStats, Resample, TracksStats; `Tracker.particle_covariance` (79-82): FloatStats, TracksStats; `Tracker.datetimes` (85-87): Tracker; `Tracker.compute_particle_sigma` (89-104): FloatStats, TracksStats; `Tracker.test_particles` (106-119): Motion, MotionMissing, Tracker; `Tracker.initialize_weights` (121-124): Tracker; `Tracker.update_weights` (126-149): FloatWeights, Tracker; `Tracker.resample_particles` (151-223): FloatResample, Resample, Tracker; `Tracker.track` (225-417): Tracker, TracksStats; `Tracker.reset` (419-423): Tracker; `Tracker.parse_datetimes` (425-464): FloatParse, Tracker; `Tracker.match_datetimes` (466-492): FloatTimes, Tracker; `Tracker.extract_tile` (494-534): Filters; `Tracker.initialize_template` (536-561): FloatTemplate, Tiles, Tracker; `Tracker.compute_observer_log_likelihoods` (563-625): FloatTemplate, Likelihood, Tiles, Tracker.
* `track/tracks.py`: `Tracks.__init__` (52-88): TracksStats; `Tracks.xyz` (91-93): Exif, PlotsTracks, TracksStats; `Tracks.vxyz` (96-98): Exif, PlotsTracks, TracksStats; `Tracks.xyz_sigma` (101-106): Exif, PlotsTracks, TracksStats; `Tracks.vxyz_sigma` (109-114): Exif, PlotsTracks, TracksStats; `Tracks.success` (117-120): Exif; `Tracks.endpoints` (122-138): Exif; `Tracks.plot_xy` (154-215): PlotsTracks; `Tracks.plot_vxy` (217-240): PlotsTracks; `Tracks.plot_v1d` (242-291): PlotsTracks; `Tracks.animate` (293-491): TracksAnimate.

## Code that is not modelled

Progress display; and:

* `helpers.py`: `_progress_bar` (1682-1689).
* `image.py`: `Image.size` (116-118), `Image.xyz_to_uv` (272-278), `Image.uv_to_xyz` (280-288).
* `raster.py`: `Grid.shape` (114-116), `Grid.box2d` (134-136), `Grid.inbounds` (338-340).
* `svg.py`: `Points.__init__` (420-421).
* `track/motion.py`: `Motion.__init__` (41-51), `Motion.compute_log_likelihoods` (76-89).
