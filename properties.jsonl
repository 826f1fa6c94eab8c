{"id": "C01", "title": "format_list returns exactly the requested length", "statement": "format_list(x, length, default) returns a list of exactly `length` items whenever it returns: a longer input is truncated to its first `length` items, a shorter one is padded with `default` when one is given, and otherwise the whole input is repeated cyclically; it raises exactly when no default is given and the length is not a multiple of the input's length.", "quantifier": "every list, every target length, every default", "why_tests_cant": "Tests sample a few lengths; divisibility, truncation and padding interact for every pair of lengths.", "anchors": ["src/glimpse/helpers.py:format_list"]}
{"id": "C02", "title": "format_list does not modify its argument", "statement": "Calling format_list on a list leaves the caller's list unchanged, so the same default list can be reused.", "quantifier": "every list argument and every history of calls sharing it", "why_tests_cant": "Aliasing only shows when the caller keeps the list; the tests look only at return values.", "anchors": ["src/glimpse/helpers.py:format_list"]}
{"id": "C03", "title": "boolean_split loses nothing and splits only where the mask changes", "statement": "For an array x and a mask of the same length, boolean_split with include='all' returns non-empty pieces whose concatenation is x, every piece has a constant mask value and neighbouring pieces have different mask values; include='true'/'false' return exactly the pieces with that value in order; with circular=True the last piece is merged in front of the first piece iff first and last mask values agree and there is more than one piece.", "quantifier": "every array, every mask, every include mode, circular or not", "why_tests_cant": "The number of runs and their positions are unbounded; tests check one or two masks.", "anchors": ["src/glimpse/helpers.py:boolean_split"]}
{"id": "C04", "title": "sorted_nearest returns an index of a nearest element", "statement": "For a sorted array x with at least two elements and any query v, sorted_nearest(x, v) is a valid index i and |x[i]-v| <= |x[j]-v| for every j.", "quantifier": "every sorted array and every query, inside or outside the range", "why_tests_cant": "Nearest-ness quantifies over every element and every query, with ties and queries outside the range.", "anchors": ["src/glimpse/helpers.py:_sorted_neighbors", "src/glimpse/helpers.py:sorted_nearest"]}
{"id": "C05", "title": "intersect_boxes is set intersection", "statement": "When intersect_boxes(boxes) returns a box, a point is inside it (in_box) iff it is inside every input box; it raises exactly when the input boxes do not overlap with positive extent in some dimension.", "quantifier": "every non-empty list of boxes of any dimension and every point", "why_tests_cant": "Set equality quantifies over all points of the plane or space.", "anchors": ["src/glimpse/helpers.py:intersect_boxes", "src/glimpse/helpers.py:in_box", "src/glimpse/helpers.py:unravel_box"]}
{"id": "C06", "title": "bounding_box is the smallest enclosing box", "statement": "bounding_box(points) contains every point, and any box containing every point contains it.", "quantifier": "every non-empty finite point set", "why_tests_cant": "Minimality quantifies over all boxes.", "anchors": ["src/glimpse/helpers.py:bounding_box", "src/glimpse/helpers.py:in_box"]}
{"id": "C07", "title": "box_to_grid covers the box with equally spaced coordinates", "statement": "box_to_grid(box, step, snap) returns along each axis exactly the coordinates that lie in the closed interval of the box and are congruent to the snap coordinate modulo the step, in increasing order.", "quantifier": "every box, positive step and snap point", "why_tests_cant": "Boundary inclusion depends on exact divisibility for all boxes and steps.", "anchors": ["src/glimpse/helpers.py:box_to_grid"]}
{"id": "C08", "title": "Ray-box intersection is sound and complete", "statement": "intersect_rays_box(t=True) returns as entrance the smallest and as exit the largest parameter for which the ray's line is in the closed box, with NaN for a negative or non-existing one; so the exit is NaN exactly for rays whose forward half-line misses the box.", "quantifier": "every box, origin and direction with no zero component", "why_tests_cant": "Slab intersection has many sign cases; completeness quantifies over all points of the ray.", "anchors": ["src/glimpse/helpers.py:intersect_rays_box"]}
{"id": "C09", "title": "bresenham_line is an exact digital line", "statement": "bresenham_line(start, end) starts at start and ends at end, has max(|dx|,|dy|)+1 points, each step moves by one cell along the major axis and by at most one along the minor axis, no cell repeats, it stays in the bounding box of the endpoints and within half a cell of the ideal segment.", "quantifier": "every pair of integer cells", "why_tests_cant": "All octants, slopes and lengths are quantified over; tests check a few lines.", "anchors": ["src/glimpse/helpers.py:bresenham_line"]}
{"id": "C10", "title": "rasterize_points writes each occupied cell once with its mean and nothing else", "statement": "rasterize_points(rc, values, shape) sets every cell that received points to the mean of exactly the values of its points, leaves every other cell at its initial value, and raises when some point is outside the array; the order of the points does not matter.", "quantifier": "every list of points and values, every shape, every permutation of the points", "why_tests_cant": "Permutation invariance and the absence of other writes quantify over all inputs.", "anchors": ["src/glimpse/helpers.py:rasterize_points"]}
{"id": "C11", "title": "select_datetimes returns the selected subset and nothing else", "statement": "select_datetimes returns a mask the length of its input; every selected datetime lies in [start, end] and is within maxdt of some snap time, each snap time selects at most one datetime and selects a nearest one; without snap every datetime in range is selected.", "quantifier": "every strictly increasing sequence of datetimes and every combination of start, end, snap and maxdt", "why_tests_cant": "Interaction of bounds, snap grid and tolerance over unbounded sequences.", "anchors": ["src/glimpse/helpers.py:select_datetimes", "src/glimpse/helpers.py:datetime_range", "src/glimpse/helpers.py:pairwise_distance_datetimes"]}
{"id": "C12", "title": "datetime_range is the arithmetic progression that fits", "statement": "datetime_range(start, stop, step) returns exactly start + k*step for those k >= 0 with value <= stop, in increasing order.", "quantifier": "every start, stop and positive step", "why_tests_cant": "Off-by-one at the end point depends on exact divisibility.", "anchors": ["src/glimpse/helpers.py:datetime_range"]}
{"id": "C13", "title": "The camera rotation matrix is a proper rotation", "statement": "For every view direction, Camera.R satisfies R Rᵀ = I and det R = 1, so distances and handedness are preserved by the world-to-camera transformation.", "quantifier": "every (yaw, pitch, roll) in degrees", "why_tests_cant": "A continuum of angles.", "anchors": ["src/glimpse/camera.py:Camera.R"]}
{"id": "C14", "title": "Camera.Rprime is the derivative of the inverse rotation", "statement": "Each slice of Camera.Rprime is the partial derivative, per degree, of the matrix that the optimizer multiplies with the ray directions, for yaw, pitch and roll.", "quantifier": "every (yaw, pitch, roll)", "why_tests_cant": "A derivative is a limit over a continuum; finite differences only approximate it at sample points.", "anchors": ["src/glimpse/camera.py:Camera.R", "src/glimpse/camera.py:Camera.Rprime", "src/glimpse/optimize.py:ObserverCameras.fit"]}
{"id": "C15", "title": "Projection and back-projection are inverse", "statement": "Without lens distortion, uv_to_xyz returns for every image point a ray that xyz_to_uv(directions=True) maps back to the same image point; and for a world point in front of the camera the ray through its image point passes through the world point.", "quantifier": "every camera (any position, view direction, focal length > 0, principal point), every image point, every world point in front", "why_tests_cant": "Continuum of cameras and points.", "anchors": ["src/glimpse/camera.py:Camera.xyz_to_uv", "src/glimpse/camera.py:Camera.uv_to_xyz", "src/glimpse/camera.py:Camera._xyz_to_xy", "src/glimpse/camera.py:Camera._xy_to_xyz"]}
{"id": "C16", "title": "Points behind the camera never get image coordinates", "statement": "xyz_to_uv returns NaN for a point exactly when Camera.infront is False for it (no elevation correction), and every point produced by uv_to_xyz is in front.", "quantifier": "every camera and every world point", "why_tests_cant": "The sign boundary must hold for every point.", "anchors": ["src/glimpse/camera.py:Camera.infront", "src/glimpse/camera.py:Camera._xyz_to_xy", "src/glimpse/camera.py:Camera.uv_to_xyz"]}
{"id": "C17", "title": "Millimetre and pixel internals stay consistent", "statement": "With a sensor size, reading fmm/cmm, writing them back leaves f/c unchanged; writing fmm then reading returns the written value; resize leaves fmm and cmm unchanged when the aspect ratio is preserved exactly.", "quantifier": "every camera with non-zero sensor and image size", "why_tests_cant": "Unit conversions over all values and histories.", "anchors": ["src/glimpse/camera.py:Camera.fmm", "src/glimpse/camera.py:Camera.cmm", "src/glimpse/camera.py:Camera.resize"]}
{"id": "C18", "title": "Resizing is history independent", "statement": "After any sequence of resize calls the camera equals the camera after only the last one: size is computed from the original image size, f and c keep their ratio to the image size, and resize(1) restores the original imgsz, f and c; R, position and distortion are never changed.", "quantifier": "every camera and every finite history of resize calls with positive resulting sizes", "why_tests_cant": "Histories of unbounded length; rounding of the size at each step.", "anchors": ["src/glimpse/camera.py:Camera.resize", "src/glimpse/camera.py:Camera.reset", "src/glimpse/helpers.py:get_scale_from_size"]}
{"id": "C19", "title": "One-parameter undistortion is exact", "statement": "For a camera with only k[0] non-zero, undistort followed by distort returns the original point wherever the closed form returns a real root, and for k[0] > 0 every point has exactly one undistorted position.", "quantifier": "every k1 and every normalized image point", "why_tests_cant": "Root selection of a cubic over a continuum.", "anchors": ["src/glimpse/camera.py:Camera._undistort_k1", "src/glimpse/camera.py:Camera._distort"]}
{"id": "C20", "title": "Iterative undistortion only returns solutions when it has converged", "statement": "If an iteration of the Oulu scheme leaves a point unchanged then distorting that point gives the observed point; conversely a true undistorted point is a fixed point; with no distortion it returns its input.", "quantifier": "every distortion, point where its radial factor is not zero, and iteration count", "why_tests_cant": "Fixed-point characterisation over a continuum.", "anchors": ["src/glimpse/camera.py:Camera._undistort_oulu"]}
{"id": "C21", "title": "Camera.rasterize accepts every in-frame point", "statement": "Camera.rasterize never fails on finite points: in-frame points are averaged in their pixel and others ignored.", "quantifier": "every point set", "why_tests_cant": "The image border is measure-zero: random tests never hit it.", "anchors": ["src/glimpse/camera.py:Camera.rasterize", "src/glimpse/camera.py:Camera.inframe", "src/glimpse/helpers.py:rasterize_points"]}
{"id": "C22", "title": "Grid indices and coordinates are inverse", "statement": "For a grid with any axis directions, rowcol_to_xy of a valid cell lies inside the grid and xy_to_rowcol returns that same cell; rowcol_to_idx/idx_to_rowcol and xyz_to_uv/uv_to_xyz are mutually inverse.", "quantifier": "every grid size, limits (ascending or descending) and cell", "why_tests_cant": "All sizes, orientations and cells.", "anchors": ["src/glimpse/raster.py:Grid.rowcol_to_xy", "src/glimpse/raster.py:Grid.xy_to_rowcol", "src/glimpse/raster.py:Grid.rowcol_to_idx", "src/glimpse/raster.py:Grid.idx_to_rowcol", "src/glimpse/raster.py:Grid.xyz_to_uv", "src/glimpse/raster.py:Grid.uv_to_xyz"]}
{"id": "C23", "title": "Snapping is to the nearest cell centre (or edge) inside the grid", "statement": "snap_xy(xy, centers=True) of an in-bounds point is a cell centre of the grid, at most half a cell away along each axis, and xy_to_rowcol is the cell of that centre; every in-bounds point including the outer border gets a valid row and column.", "quantifier": "every grid and every in-bounds point", "why_tests_cant": "Ties at cell edges and the outer border are exceptional points in a continuum.", "anchors": ["src/glimpse/raster.py:Grid.snap_xy", "src/glimpse/raster.py:Grid.xy_to_rowcol", "src/glimpse/raster.py:Grid.inbounds_xy"]}
{"id": "C24", "title": "crop_extent returns the smallest cell window covering the requested box", "statement": "crop_extent gives row/column ranges and limits such that the window is aligned with the grid, covers the intersection of the request with the grid, and no smaller aligned window does; it raises when they do not overlap.", "quantifier": "every grid orientation and every requested box", "why_tests_cant": "Alignment and minimality over all boxes.", "anchors": ["src/glimpse/raster.py:Grid.crop_extent", "src/glimpse/raster.py:Grid.snap_box"]}
{"id": "C25", "title": "Tiles partition the grid", "statement": "tile_indices without overlap returns slices that cover every cell exactly once for any grid and tile size; with overlap every tile is extended by at most `overlap` cells per side and never reaches outside the grid.", "quantifier": "every grid size, tile size and overlap", "why_tests_cant": "Rounding of the number of tiles over all sizes.", "anchors": ["src/glimpse/raster.py:Grid.tile_indices"]}
{"id": "C26", "title": "Grid coordinate caches never go stale", "statement": "After any sequence of reads and writes (x, X, y, Y, xlim, ylim, shift, resize, size), x, y, X, Y equal the values computed from the current limits and size.", "quantifier": "every finite history of public operations on a grid", "why_tests_cant": "Staleness needs a particular order of reads and writes; histories are unbounded.", "anchors": ["src/glimpse/raster.py:Grid.x", "src/glimpse/raster.py:Grid.y", "src/glimpse/raster.py:Grid.X", "src/glimpse/raster.py:Grid.Y", "src/glimpse/raster.py:Grid.xlim", "src/glimpse/raster.py:Grid.ylim", "src/glimpse/raster.py:Grid.resize", "src/glimpse/raster.py:Grid._shift_xy"]}
{"id": "C27", "title": "Raster.shift moves the raster by exactly (dx, dy, dz)", "statement": "After Raster.shift(dx, dy, dz) the limits, coordinate vectors, array and interpolated samples are those of the raster translated once by (dx, dy, dz), whatever was cached before.", "quantifier": "every raster, every cache state and every shift", "why_tests_cant": "The outcome depends on hidden aliasing between caches.", "anchors": ["src/glimpse/raster.py:Raster.shift", "src/glimpse/raster.py:Raster.Zf", "src/glimpse/raster.py:Grid._shift_xy"]}
{"id": "C28", "title": "data_extent is the tight window of data", "statement": "data_extent covers every non-missing cell and each of its four borders contains a non-missing cell.", "quantifier": "every array", "why_tests_cant": "Tightness over all masks.", "anchors": ["src/glimpse/raster.py:Raster.data_extent", "src/glimpse/raster.py:Raster.crop_to_data"]}
{"id": "C29", "title": "Raster interpolation in time interpolates", "statement": "RasterInterpolant returns the stored raster at stored positions (method linear), and between two neighbours a value between theirs, affine in position; nearest returns a raster at minimal distance; extrapolation follows the documented mode.", "quantifier": "every sorted set of means and every query", "why_tests_cant": "Continuum of query positions and cell values.", "anchors": ["src/glimpse/raster.py:RasterInterpolant.__call__", "src/glimpse/raster.py:RasterInterpolant.nearest", "src/glimpse/raster.py:RasterInterpolant._interpolate"]}
{"id": "C30", "title": "Converters to other camera formats are exact when the models coincide", "statement": "Camera -> Agisoft/OpenCV/Matlab/PhotoModeler -> projection gives the same image coordinates for every normalized point whenever the target model can represent the camera (Agisoft, Matlab: no k4-k6; OpenCV: always; PhotoModeler: square pixels, no distortion), and the conversion back recovers the camera.", "quantifier": "every camera in the stated class and every normalized camera point", "why_tests_cant": "Functional equality over a continuum of points and parameters.", "anchors": ["src/glimpse/convert/cameras/agisoft.py:Agisoft", "src/glimpse/convert/cameras/opencv.py:OpenCV", "src/glimpse/convert/cameras/matlab.py:Matlab", "src/glimpse/convert/cameras/photomodeler.py:PhotoModeler"]}
{"id": "C31", "title": "Particle resampling always draws existing particles", "statement": "For every resampling method, every random draw and every weight vector with positive sum, exactly n indices in [0, n) are drawn, systematic and stratified draws are sorted, and afterwards particles and weights are those of the drawn indices.", "quantifier": "every n, weights and random numbers", "why_tests_cant": "Random draws cannot be enumerated; boundary draws have probability zero in tests.", "anchors": ["src/glimpse/track/tracker.py:Tracker.resample_particles"]}
{"id": "C32", "title": "Systematic resampling respects the weights", "statement": "With systematic resampling particle i is drawn either floor(n*w_i) or ceil(n*w_i) times, for every random offset; with stratified resampling within one of it on both sides (at most 2 off); a particle with zero weight is never drawn.", "quantifier": "every n, normalized weights and random offset", "why_tests_cant": "A statement about every random draw, not about the average.", "anchors": ["src/glimpse/track/tracker.py:Tracker.resample_particles"]}
{"id": "C33", "title": "Residual resampling keeps the integer part of the expected copies", "statement": "With residual resampling particle i is drawn at least floor(n*w_i) times, and the remaining draws follow the fractional parts n*w_i - floor(n*w_i).", "quantifier": "every n, normalized weights and random numbers", "why_tests_cant": "The distribution of the remaining draws cannot be observed by deterministic tests.", "anchors": ["src/glimpse/track/tracker.py:Tracker.resample_particles"]}
{"id": "C34", "title": "parse_datetimes returns matched, strictly ordered times", "statement": "Tracker.parse_datetimes either raises or returns strictly monotone datetimes, a subset of the requested ones, each within maxdt of an image of an observer, with at least two elements.", "quantifier": "every set of observers, requested datetimes and tolerance", "why_tests_cant": "Unbounded sequences and observers.", "anchors": ["src/glimpse/track/tracker.py:Tracker.parse_datetimes"]}
{"id": "C35", "title": "match_datetimes assigns each time the nearest image or none", "statement": "For each time and observer the matched image index is one with minimal time distance, and None exactly when that distance exceeds maxdt.", "quantifier": "every observer, datetimes and maxdt", "why_tests_cant": "Minimality over all images.", "anchors": ["src/glimpse/track/tracker.py:Tracker.match_datetimes", "src/glimpse/track/observer.py:Observer.index"]}
{"id": "C36", "title": "Tracks are defined exactly on their observed window", "statement": "For each track, means and covariances are non-NaN exactly between the first and last time at which one of its observers has an image, the first mean is that of the initial particles at the first such time, and each step advances by the time difference and then weights and resamples.", "quantifier": "every observation mask, number of times and observers", "why_tests_cant": "Histories of filter steps of unbounded length.", "anchors": ["src/glimpse/track/tracker.py:Tracker.track"]}
{"id": "C37", "title": "Track results do not depend on scheduling, and one failing track does not affect others", "statement": "Track k's result is a function of its own inputs and random numbers; for any order in which workers finish, results are in input order, and with two or more tracks an error in one track is recorded for it and leaves all others unchanged.", "quantifier": "every number of tracks, schedule and set of failing tracks", "why_tests_cant": "Schedules cannot be enumerated by tests.", "anchors": ["src/glimpse/track/tracker.py:Tracker.track", "src/glimpse/config.py:backend"]}
{"id": "C38", "title": "Cartesian motion integrates exactly", "statement": "evolve_particles advances x by v*t + a*t²/2 and v by a*t; with zero acceleration, evolving by t1 then t2 equals evolving by t1+t2 and evolving by t then -t is the identity; cylindrical evolution with zero acceleration preserves speed.", "quantifier": "every particle state, time step and acceleration draw", "why_tests_cant": "Real-valued states and steps.", "anchors": ["src/glimpse/track/motion.py:CartesianMotion.evolve_particles", "src/glimpse/track/motion.py:CylindricalMotion.evolve_particles"]}
{"id": "C39", "title": "Tangent motion stays on the surface", "statement": "With zero slope noise a tangent-motion particle keeps its height above the DEM through any sequence of evolutions.", "quantifier": "every DEM, particle and sequence of time steps", "why_tests_cant": "Unbounded histories.", "anchors": ["src/glimpse/track/motion.py:TangentCartesianMotion.evolve_particles", "src/glimpse/track/motion.py:TangentCylindricalMotion.evolve_particles"]}
{"id": "C40", "title": "Observer.split covers all images", "statement": "Splitting an observer at given breaks returns observers whose images, in order, cover every image of the original within the breaks, sharing exactly the requested number of overlapping images.", "quantifier": "every observer and list of breaks", "why_tests_cant": "All positions of breaks relative to images.", "anchors": ["src/glimpse/track/observer.py:Observer.split", "src/glimpse/track/observer.py:Observer.subset"]}
{"id": "C41", "title": "SVG coordinates survive a write/read round trip", "statement": "For every list of points, writing as polyline, polygon, path, line, rect or circle and reading back gives the same points (with a closing point for closed shapes).", "quantifier": "every list of coordinates", "why_tests_cant": "Strings of unbounded length, exponents and signs.", "anchors": ["src/glimpse/svg.py:Points", "src/glimpse/svg.py:COORD_REGEX"]}
{"id": "C42", "title": "SVG transforms compose", "statement": "Applying a transform attribute to points equals applying the matrix product of its parts; translate/scale/matrix agree with their matrix forms; nested groups compose in the order given by the SVG standard.", "quantifier": "every transform list and point", "why_tests_cant": "Lists of unbounded length.", "anchors": ["src/glimpse/svg.py:Points.transform", "src/glimpse/svg.py:Points.matrix", "src/glimpse/svg.py:Points.scale", "src/glimpse/svg.py:Points.translate", "src/glimpse/svg.py:read"]}
{"id": "C43", "title": "Image.read returns the same pixels whether cached or not", "statement": "For any history of read calls and camera resizes, Image.read(box) equals the requested window of the image at the camera's current size, independent of what has been cached.", "quantifier": "every history of reads with any box and cache flag interleaved with resizes", "why_tests_cant": "Cache state depends on unbounded histories.", "anchors": ["src/glimpse/image.py:Image.read"]}
{"id": "C44", "title": "Camera parameter selection selects exactly what is named", "statement": "Cameras.parse_params marks exactly the named elements of the named attributes, with their bounds; True selects all elements of the attribute, None or False selects none.", "quantifier": "every parameter dictionary", "why_tests_cant": "All combinations of selections, bounds and attributes.", "anchors": ["src/glimpse/optimize.py:Cameras.parse_params"]}
{"id": "C45", "title": "Fitting parameters land on the right cameras and can be undone", "statement": "set_cameras writes each group value to every camera of the group and each camera value to its camera and changes nothing else; reset_cameras restores the last saved state; predicted(params) leaves the cameras as they were.", "quantifier": "every number of cameras, groups, masks and every history", "why_tests_cant": "Index arithmetic over all layouts; histories.", "anchors": ["src/glimpse/optimize.py:Cameras.set_cameras", "src/glimpse/optimize.py:Cameras.reset_cameras", "src/glimpse/optimize.py:Cameras.predicted", "src/glimpse/optimize.py:Cameras.update_params"]}
{"id": "C46", "title": "The Jacobian sparsity pattern is sound", "statement": "If a parameter can influence the residuals of a control, the sparsity matrix has a one at that (residual, parameter) position.", "quantifier": "every set of cameras, groups, masks and controls", "why_tests_cant": "Soundness quantifies over all layouts; an unsound pattern silently gives wrong fits.", "anchors": ["src/glimpse/optimize.py:Cameras._build_sparsity", "src/glimpse/optimize.py:Cameras.set_cameras"]}
{"id": "C47", "title": "ransac returns a consensus that meets its criteria", "statement": "When ransac returns, params come from a fit to a sample with its inliers (more than min_inliers beyond the sample), minimal in mean error among valid samples, and the returned inliers are exactly the observations with error <= max_error; otherwise it raises; samples are pairwise distinct n-subsets.", "quantifier": "every model and every sequence of random samples", "why_tests_cant": "Random sampling histories.", "anchors": ["src/glimpse/optimize.py:ransac", "src/glimpse/optimize.py:_ransac_samples"]}
{"id": "C48", "title": "Filtering matches keeps all their arrays aligned", "statement": "After filter, the k-th kept point pair, its weight and its prediction belong to the same original match, exactly those meeting the criteria are kept in order, and at most n_best are kept by descending weight.", "quantifier": "every match set, type and filter arguments", "why_tests_cant": "All selections; parallel arrays can silently get out of step.", "anchors": ["src/glimpse/optimize.py:Matches.filter", "src/glimpse/optimize.py:RotationMatches", "src/glimpse/optimize.py:RotationMatchesXY"]}
{"id": "C49", "title": "Dropping images keeps the remaining matches attached to the right images", "statement": "After drop_images, every remaining match refers to the same two images as before, no match involves a dropped image, and every remaining image has a match.", "quantifier": "every match matrix and image set", "why_tests_cant": "Re-indexing over all sparse patterns.", "anchors": ["src/glimpse/optimize.py:KeypointMatcher.drop_images"]}
{"id": "C50", "title": "build_matches matches exactly the documented pairs", "statement": "The pairs matched are exactly the (i, j), i < j, with time separation <= maxdt or j - i in seq (all pairs if neither is given), and when imgs is given, those with i or j in imgs.", "quantifier": "every set of datetimes, maxdt, seq and imgs", "why_tests_cant": "All combinations of selectors.", "anchors": ["src/glimpse/optimize.py:KeypointMatcher.build_matches"]}
{"id": "C51", "title": "Keypoint building can be interrupted and resumed", "statement": "After build_keypoints with a path every image has a keypoint file, a second run does no detection, a run interrupted between files and restarted gives the same files, and overwrite=True recomputes every image.", "quantifier": "every set of existing files and cached keypoints, every crash point, every flag", "why_tests_cant": "Crash points and prior states.", "anchors": ["src/glimpse/optimize.py:KeypointMatcher.build_keypoints"]}
{"id": "C52", "title": "Histogram matching is monotone and bounded", "statement": "compute_cdf returns sorted unique values with a non-decreasing cumulative fraction ending at 1; match_cdf preserves shape and the order of pixel values and returns only values within the range of the target.", "quantifier": "every non-empty array", "why_tests_cant": "All arrays and targets.", "anchors": ["src/glimpse/helpers.py:compute_cdf", "src/glimpse/helpers.py:match_cdf"]}
{"id": "C53", "title": "clip_polyline_box keeps exactly the in-box runs, extended to the box boundary", "statement": "clip_polyline_box returns one piece per maximal run of polyline vertices inside the box, in order; every vertex of a piece is in the box; the piece starts where its incoming edge enters the box and ends where its outgoing edge leaves it.", "quantifier": "every polyline and box of any dimension, every position of vertices relative to the box", "why_tests_cant": "Run structure and edge geometry over all polylines.", "anchors": ["src/glimpse/helpers.py:clip_polyline_box", "src/glimpse/helpers.py:intersect_edge_box", "src/glimpse/helpers.py:boolean_split"]}
{"id": "C54", "title": "ObserverCameras.fit optimizes with the gradient of its objective", "statement": "The gradient that ObserverCameras.fit hands to the optimizer is, for every camera angle, the derivative of the objective it hands over (wherever the objective is differentiable).", "quantifier": "every pair of view directions and every matched pair of points", "why_tests_cant": "Derivatives quantify over a continuum; a wrong gradient still lets small examples converge.", "anchors": ["src/glimpse/optimize.py:ObserverCameras.fit", "src/glimpse/optimize.py:RotationMatchesXYZ.predicted"]}
{"id": "C55", "title": "Spherical coordinates are exact and invertible", "statement": "spherical_to_xyz gives the direction with the documented azimuth and altitude, at the given distance from the camera; xyz_to_spherical and spherical_to_xyz are inverse, with azimuth in [0, 360) and altitude in [-90, 90].", "quantifier": "every world point other than the camera position; every azimuth, altitude and positive distance", "why_tests_cant": "Continuum of angles and quadrants.", "anchors": ["src/glimpse/camera.py:Camera.spherical_to_xyz", "src/glimpse/camera.py:Camera.xyz_to_spherical"]}
{"id": "C56", "title": "Windows of a raster never move data", "statement": "crop_to_data, crop and indexing of a raster return cells with the content and the position they had before; crop_to_data keeps every cell with data and has data on all four borders; crop keeps every cell whose centre is within the bounds and blanks exactly the values outside zlim; indexing selects the cells numpy would; each raises exactly when nothing is selected.", "quantifier": "every raster (both axis orientations), bounds, integer and slice indices", "why_tests_cant": "All windows, orientations and index forms.", "anchors": ["src/glimpse/raster.py:Raster.crop", "src/glimpse/raster.py:Raster.crop_to_data", "src/glimpse/raster.py:Raster.__getitem__"]}
{"id": "C57", "title": "Raster.read does not depend on the cache", "statement": "For any history of read calls, array accesses and cache clearings, Raster.read(box) returns the pixels of that box of the opened window, and array returns all of them.", "quantifier": "every file, window, history of reads with any box and cache flag", "why_tests_cant": "Histories are unbounded.", "anchors": ["src/glimpse/raster.py:Raster.read", "src/glimpse/raster.py:Raster.array"]}
{"id": "C58", "title": "RasterInterpolant resamples to the target cell size", "statement": "Called with d, RasterInterpolant uses rasters with cells of size d (the largest cell size of the two rasters by default).", "quantifier": "every grid and target size", "why_tests_cant": "All sizes.", "anchors": ["src/glimpse/raster.py:RasterInterpolant._parse_as_raster", "src/glimpse/raster.py:Raster.resize"]}
{"id": "C59", "title": "Resampling preserves the weighted mean", "statement": "When every particle's expected number of copies is whole, resampling changes only the representation of the distribution: the tracker's weighted mean of the particles is the same before and after.", "quantifier": "every set of particles and weights, every random draw", "why_tests_cant": "All weights and random numbers.", "anchors": ["src/glimpse/track/tracker.py:Tracker.resample_particles", "src/glimpse/track/tracker.py:Tracker.particle_mean"]}
{"id": "C60", "title": "Template and search tiles are aligned to the pixel", "statement": "A template has exactly the requested size, lies in the image, and its recorded offset is within half a pixel; the search box holds the template around every particle, the error image has more cells than the spline degree, sampling at particles never fails, and a cell of the error image is placed exactly where that displacement of the template moves the tracked point; the image is skipped exactly when the search box reaches out of it.", "quantifier": "every projected mean, set of particles, template size, image size and spline degree", "why_tests_cant": "Rounding cases over a continuum of positions.", "anchors": ["src/glimpse/track/tracker.py:Tracker.initialize_template", "src/glimpse/track/tracker.py:Tracker.compute_observer_log_likelihoods", "src/glimpse/track/observer.py:Observer.tile_box", "src/glimpse/track/observer.py:Observer.sample_tile"]}
{"id": "C61", "title": "SVG paths are read as the standard says", "statement": "Reading a path gives the vertices that the SVG standard gives for its commands: absolute and relative moves, lines, horizontal and vertical lines, end points of curves and arcs, and closings back to the start of the current subpath.", "quantifier": "every sequence of path commands with any number of parameters", "why_tests_cant": "Unbounded command sequences, absolute and relative mixes, several subpaths.", "anchors": ["src/glimpse/svg.py:Points.from_element", "src/glimpse/svg.py:Points", "src/glimpse/svg.py:COORD_REGEX"]}
{"id": "C62", "title": "svg.read returns every shape once, in image coordinates", "statement": "read returns the vertices of every supported element exactly once, under its name in the dictionary of its group (a list if the name repeats), transformed and expressed in the frame in which the last image spans (0, 0) to imgsz (or its own size); imgsz without an image raises.", "quantifier": "every document tree, transforms, image position and size", "why_tests_cant": "Trees of unbounded depth; repeated names; any image placement.", "anchors": ["src/glimpse/svg.py:read"]}
{"id": "C63", "title": "Match files hold the matches of their pair", "statement": "With a path, build_matches stores each pair's matches in its own file; a second run without overwrite computes nothing and gives the same matches; overwrite recomputes all.", "quantifier": "every set of image names, pairs and existing files", "why_tests_cant": "File name collisions depend on all pairs of names.", "anchors": ["src/glimpse/optimize.py:KeypointMatcher.build_matches"]}
{"id": "C64", "title": "Match counts and breaks", "statement": "matches_per_image and images_per_image count every match for exactly its two images; match_breaks lists exactly the images (but the last) with no match to a later image, or with fewer than min_matches.", "quantifier": "every match matrix", "why_tests_cant": "All sparse patterns.", "anchors": ["src/glimpse/optimize.py:KeypointMatcher.matches_per_image", "src/glimpse/optimize.py:KeypointMatcher.images_per_image", "src/glimpse/optimize.py:KeypointMatcher.match_breaks"]}
{"id": "C65", "title": "Fitting parameters match the cameras they are applied to", "statement": "Cameras.update_params gives the optimizer one parameter for every camera or group element being fitted, in the order in which set_cameras applies values, named uniquely after its owner and element, starting from its current value (mean over a group) and with its bounds; applying the initial values changes no camera when grouped cameras agree; default group bounds are the intersection of the cameras' bounds.", "quantifier": "every number of cameras, groups, masks, camera state and bounds", "why_tests_cant": "All masks, groupings and states.", "anchors": ["src/glimpse/optimize.py:Cameras.update_params", "src/glimpse/optimize.py:Cameras._lmfit_labels", "src/glimpse/optimize.py:Cameras._initialize_bounds"]}
{"id": "C66", "title": "Fitting leaves cameras as it found them", "statement": "Cameras.fit returns fitted parameters without changing any camera: after it returns or raises, every camera has the vector it had before the call.", "quantifier": "every optimizer behaviour (any sequence of evaluations), residual function, camera state and list of iterations", "why_tests_cant": "All interaction sequences with the optimizer and all failure points.", "anchors": ["src/glimpse/optimize.py:Cameras.fit", "src/glimpse/optimize.py:Cameras.residuals", "src/glimpse/optimize.py:Cameras.predicted", "src/glimpse/optimize.py:Cameras.reset_cameras"]}
{"id": "C67", "title": "Control weights are relative", "statement": "Weights given to Cameras keep their ratios and are scaled to a mean of one: multiplying all by a constant changes nothing and equal weights count as no weights.", "quantifier": "every list of weights", "why_tests_cant": "All weight vectors.", "anchors": ["src/glimpse/optimize.py:Cameras.weights"]}
{"id": "C68", "title": "Sparsity rows follow the residual index", "statement": "When fitting a subset of the observations, the rows of the sparsity matrix given to the optimizer are those of the selected residuals in the same order.", "quantifier": "every list of residuals and every index (integers, negative integers, booleans)", "why_tests_cant": "All indices.", "anchors": ["src/glimpse/optimize.py:Cameras.fit", "src/glimpse/optimize.py:Cameras.residuals"]}
{"id": "C69", "title": "Controls keep their position relative to the image", "statement": "Points, Lines and Matches given image coordinates at some image size keep the same relative position in the image: after any history of resizing cameras and controls (together or separately, including calls that raise), a resized control has its original coordinates times the ratio of the current to the original image size, and until it is itself resized its coordinates do not change.", "quantifier": "every camera resize behaviour, number of controls sharing cameras and arrays, and history of resizes", "why_tests_cant": "All histories of resizing and sharing.", "anchors": ["src/glimpse/optimize.py:Points.resize", "src/glimpse/optimize.py:Points._scale", "src/glimpse/optimize.py:Lines._scale", "src/glimpse/optimize.py:Matches.resize", "src/glimpse/optimize.py:Matches.to_type"]}
{"id": "C70", "title": "Controls never change the caller's arrays", "statement": "Making controls from an array and resizing cameras and controls never changes the array that was passed in.", "quantifier": "every history of making and resizing controls", "why_tests_cant": "All aliasing patterns and histories.", "anchors": ["src/glimpse/optimize.py:Points.__init__", "src/glimpse/optimize.py:Lines.__init__", "src/glimpse/optimize.py:Matches.__init__", "src/glimpse/optimize.py:Points.resize", "src/glimpse/optimize.py:Lines._scale", "src/glimpse/optimize.py:Matches.resize"]}
{"id": "C71", "title": "Lines are compared with the nearest projected point", "statement": "Lines.predicted returns for every observed image point the nearest point of the world lines as projected (in front of the camera, clipped to the view and sampled at the target density), and raises if the world lines are ray directions and the camera has moved.", "quantifier": "every set of image points and projected world lines", "why_tests_cant": "All point sets.", "anchors": ["src/glimpse/optimize.py:Lines.predicted", "src/glimpse/optimize.py:Lines._xyzs_to_uvs", "src/glimpse/optimize.py:Points._test_position"]}
{"id": "C72", "title": "Points at distances along a line", "statement": "interpolate_line returns the points at the given distances along a line (or n evenly-spaced points from its start to its end, or points at a nominal spacing), raises exactly if a distance is outside the line, or uses the fill values before its start and beyond its end.", "quantifier": "every line with monotonic distances in any number of dimensions and all requested distances", "why_tests_cant": "All lines and distances.", "anchors": ["src/glimpse/helpers.py:interpolate_line"]}
{"id": "C73", "title": "Exif values are those stored", "statement": "Exif properties return what the tags store: exposure, aperture and focal length are the exact quotient of the stored rational (None if absent or zero, ZeroDivisionError for a zero denominator), the image size and film speed the stored integers, the capture time the stored date with the sub-second digits as a decimal fraction of a second; parse_tag returns every other value as stored.", "quantifier": "every tag dictionary, every rational, every valid date and every list of sub-second digits", "why_tests_cant": "dates, digits and rationals are unbounded families; tests read one file", "anchors": ["src/glimpse/exif.py:Exif.parse_tag", "src/glimpse/exif.py:Exif.datetime", "src/glimpse/exif.py:Exif.imgsz", "src/glimpse/exif.py:Exif.iso", "src/glimpse/exif.py:Exif.exposure", "src/glimpse/exif.py:Exif.aperture", "src/glimpse/exif.py:Exif.fmm"]}
{"id": "C74", "title": "Exif.dump writes every tag under its code", "statement": "dump succeeds exactly when every group is valid and every tag name has a code in its group, and what it writes has, group by group and tag by tag in order, the stored value under the tag's code: nothing is lost, duplicated or moved to another tag.", "quantifier": "every tag dictionary and every table of codes", "why_tests_cant": "the keys are replaced in place one by one, for every size of dictionary", "anchors": ["src/glimpse/exif.py:Exif.dump"]}
{"id": "C75", "title": "Track endpoints", "statement": "Tracks.endpoints returns which of the tracks have a valid datetime and, for these in order, the first and the last valid datetime; with no datetimes it raises. success says for each track whether no error was recorded.", "quantifier": "every number of tracks and datetimes and every pattern of missing values", "why_tests_cant": "patterns of missing values are exponential in number", "anchors": ["src/glimpse/track/tracks.py:Tracks.endpoints", "src/glimpse/track/tracks.py:Tracks.success"]}
{"id": "C76", "title": "Keypoint matches", "statement": "match_keypoints returns the coordinates of pairs of keypoints, in the order of the first image: each pair is a nearest match by descriptor distance; with cross_check also nearest in reverse; with max_ratio its distance is less than this multiple of the second best; with max_distance its coordinates are nearer than this; every keypoint whose unique best match passes the tests is returned; with masks only allowed pairs are considered; too few keypoints give no matches.", "quantifier": "every list of keypoints, matrix of descriptor distances and arguments", "why_tests_cant": "distances, ties and combinations of tests are unbounded", "anchors": ["src/glimpse/optimize.py:match_keypoints"]}
{"id": "C77", "title": "Circles of pixels", "statement": "bresenham_circle returns pixels of a connected closed path all within one pixel of the circle of the given centre and radius; fill_circle sets to the value exactly the pixels of the raster inside the circle and changes no others.", "quantifier": "every centre, radius, raster and value", "why_tests_cant": "every radius gives different pixels", "anchors": ["src/glimpse/helpers.py:bresenham_circle", "src/glimpse/raster.py:Raster.fill_circle"]}
{"id": "C78", "title": "Sampling at points", "statement": "Raster.sample(xy) returns for each point the bilinear average of the cells around it (order 1) or the value of the nearest cell (order 0), whatever the direction of the axes and also if the raster has a single row or column: exact at cell centres and for planes. With bounds_error it raises exactly if a point is outside; else points outside get the fill value and no other sample depends on it; without a fill value they are extrapolated.", "quantifier": "every raster, list of points, order 0 or 1, bounds_error and fill_value", "why_tests_cant": "points and rasters are unbounded and interpolation is piecewise", "anchors": ["src/glimpse/raster.py:Raster.sample", "src/glimpse/raster.py:Raster.Zf", "src/glimpse/raster.py:Raster._sample_1d"]}
{"id": "C79", "title": "Sampling on a grid", "statement": "Raster.sample(xy, grid=True) returns an array with a row for each y and a column for each x that holds the value of the surface there, missing only near missing cells; it leaves the raster unchanged whether it returns or raises; bounds and fill values are as for points.", "quantifier": "every raster with missing cells, coordinate vectors, order, bounds_error and fill_value", "why_tests_cant": "error paths and sizes are many; missing cells are changed temporarily", "anchors": ["src/glimpse/raster.py:Raster.sample", "src/glimpse/raster.py:Raster._sample_grid"]}
{"id": "C80", "title": "Gradient", "statement": "Raster.gradient returns the derivatives by x and by y in map units: exact in every cell for planes and inside for quadratic surfaces, whatever the direction of the axes and the cell size.", "quantifier": "every grid and surface", "why_tests_cant": "signs depend on the directions of the axes and the borders use other formulas", "anchors": ["src/glimpse/raster.py:Raster.gradient"]}
{"id": "C81", "title": "Points to raster", "statement": "Raster.rasterize(xy, values) returns an array of the shape of the raster where each pixel holds the mean of the values of the points inside it and pixels without points are missing; points outside are ignored.", "quantifier": "every raster, list of points and values", "why_tests_cant": "cells, points and axis directions are unbounded and points on shared edges must fall in exactly one cell", "anchors": ["src/glimpse/raster.py:Raster.rasterize"]}
{"id": "C82", "title": "Horizon", "statement": "Raster.horizon(origin, headings) returns, for each heading, the point along the line of cells from the origin to the border of the raster that is seen at the highest angle, unless nothing is visible behind it, and splits the points only where headings have none, joining around the circle.", "quantifier": "every raster with missing cells, origin, headings and correction", "why_tests_cant": "lines of cells are of any length in any direction; missing cells and empty headings combine", "anchors": ["src/glimpse/raster.py:Raster.horizon"]}
{"id": "C83", "title": "Viewshed", "statement": "Raster.viewshed(origin) marks as visible the cells that are not hidden by nearer terrain: a cell seen higher than everything nearer is visible (so, from above flat ground, every cell), a cell behind a closed ring that appears at least as high is hidden, and missing cells are not visible.", "quantifier": "every raster with missing cells, viewer inside or outside", "why_tests_cant": "terrain is arbitrary; rings of cells grow without bound and the highest angles are carried from ring to ring", "anchors": ["src/glimpse/raster.py:Raster.viewshed"]}
{"id": "C84", "title": "Undistortion by regula falsi", "statement": "Camera undistortion with method='regulafalsi' returns, for every distorted camera coordinate, a coordinate whose distortion is the given one, within the tolerance, or the best approximation after the given number of iterations.", "quantifier": "every camera, list of coordinates, number of iterations and tolerance", "why_tests_cant": "iterates depend on real coefficients and coordinates; points of one array share the loop and stop at different iterations", "anchors": ["src/glimpse/camera.py:Camera._undistort_regulafalsi", "src/glimpse/camera.py:Camera._undistort"]}
{"id": "C85", "title": "Undistortion by lookup table", "statement": "Camera undistortion with method='lookup' returns, for every coordinate of the image, the coordinate that is distorted to it, exactly at the coordinates of the table.", "quantifier": "every camera, table density and coordinate in the image", "why_tests_cant": "table size and camera coefficients are unbounded", "anchors": ["src/glimpse/camera.py:Camera._undistort_lookup", "src/glimpse/camera.py:Camera._undistort"]}
{"id": "C86", "title": "Whether distortion is reversible", "statement": "Camera.reversible() is true if and only if no two points of the image are distorted to the same coordinate.", "quantifier": "every camera", "why_tests_cant": "coefficients are real and the points of the image infinitely many", "anchors": ["src/glimpse/camera.py:Camera.reversible"]}
{"id": "C87", "title": "Image grids and image edges", "statement": "Camera.grid(step=1) gives exactly the pixel centres, each once; Camera.edges(step) gives points on the four sides of the image in order around it, every corner once, evenly spaced by about the step.", "quantifier": "every image size and step", "why_tests_cant": "sizes and steps are unbounded; steps need not divide the sides", "anchors": ["src/glimpse/camera.py:Camera.grid", "src/glimpse/camera.py:Camera.edges"]}
{"id": "C88", "title": "Viewed volume", "statement": "Camera.viewbox(depth) contains every point the camera sees up to that distance and is the smallest box with the camera and the ends of the rays through the image edges; Camera.viewpoly(depth) is a triangle from the camera to points seen at the left and right image edges at that depth.", "quantifier": "every camera, pixel and distance", "why_tests_cant": "all pixels and all orientations; the box is computed from edges only", "anchors": ["src/glimpse/camera.py:Camera.viewbox", "src/glimpse/camera.py:Camera.viewpoly"]}
{"id": "C89", "title": "Making a camera", "statement": "Camera(...) refuses, with ValueError, exactly lengths in mm without a sensor size, a length given both in pixels and in mm, a missing focal length and image sizes that are not integers; otherwise each attribute has the values given, filled up as documented (zeros for position, direction, principal point and distortion; the same value for both directions for image size, focal length and sensor size), and lengths given in mm are read back in mm unchanged.", "quantifier": "every combination of arguments and lengths of lists", "why_tests_cant": "the combinations of optional arguments, list lengths and number types are too many to enumerate", "anchors": ["src/glimpse/camera.py:Camera.__init__", "src/glimpse/camera.py:Camera.fmm", "src/glimpse/camera.py:Camera.cmm", "src/glimpse/camera.py:Camera.imgsz", "src/glimpse/camera.py:Camera.f", "src/glimpse/camera.py:Camera.c"]}
{"id": "C90", "title": "Cameras in JSON", "statement": "Camera.from_json reads what Camera.to_json wrote: attributes written are the same in the new camera, attributes not written have their defaults, and keyword arguments override the file.", "quantifier": "every camera and list of attributes", "why_tests_cant": "cameras and sets of attributes are unbounded; missing values and dictionaries need care", "anchors": ["src/glimpse/camera.py:Camera.from_json", "src/glimpse/camera.py:Camera.to_json", "src/glimpse/camera.py:Camera.to_dict"]}
{"id": "C91", "title": "JSON with arrays on one line", "statement": "helpers.write_json(obj, flat_arrays=True) returns the JSON of the same object as without flat_arrays, with each array on one line.", "quantifier": "every JSON text and indent", "why_tests_cant": "a regular expression is applied to texts of any length and nesting", "anchors": ["src/glimpse/helpers.py:write_json"]}
{"id": "C92", "title": "Names of files", "statement": "helpers.strip_path returns the last component of the path without its extensions, all or the given number of them.", "quantifier": "every path and number of extensions", "why_tests_cant": "paths and numbers of dots are unbounded", "anchors": ["src/glimpse/helpers.py:strip_path"]}
{"id": "C93", "title": "Simulated image from a DEM", "statement": "Camera.project_dem returns an image of imgsz pixels in which every pixel holds the mean of the values of exactly the selected DEM cells that project into it (NaN if none), whatever the tile size, the overlap and the number of processes; wrongly shaped inputs raise ValueError.", "quantifier": "all DEMs, masks, values, tile sizes, overlaps, arrival orders of tiles and image sizes", "why_tests_cant": "the result depends on how cells fall on tiles and pixels and on the order in which worker processes finish; a test sees one tiling and one order", "anchors": ["src/glimpse/camera.py:Camera.project_dem", "src/glimpse/raster.py:Grid.tile_indices", "src/glimpse/helpers.py:rasterize_points"]}
{"id": "C94", "title": "Tracking tiles", "statement": "The tile that Tracker extracts for tracking has mean 0 and standard deviation 1 before high-pass filtering and does not change with the brightness or (positive) contrast of the image; matching to the histogram of the template keeps the order of pixel values; Observer.shift_tile refuses shifts of more than half a pixel and otherwise interpolates the tile, leaving its argument alone.", "quantifier": "all arrays of real numbers, all positive gains and offsets, all low-pass filters and histogram functions, all shifts", "why_tests_cant": "The invariance is over all images and all affine changes of brightness.", "anchors": ["src/glimpse/helpers.py:normalize", "src/glimpse/helpers.py:match_cdf", "src/glimpse/track/tracker.py:Tracker.extract_tile", "src/glimpse/track/observer.py:Observer.shift_tile", "src/glimpse/track/observer.py:Observer.extract_tile"]}
{"id": "C95", "title": "Masked filters", "statement": "gaussian_filter and maximum_filter with a mask compute the weighted mean (the maximum) over the included cells only, whatever the values in excluded cells; with fill, excluded cells are filled from included ones, otherwise they are unchanged; Raster.fill_crevasses keeps values between the minimum and maximum of the raster.", "quantifier": "all arrays, masks, kernels with non-negative weights, windows and data types", "why_tests_cant": "For all masks and all values in the excluded cells.", "anchors": ["src/glimpse/helpers.py:gaussian_filter", "src/glimpse/helpers.py:maximum_filter", "src/glimpse/raster.py:Raster.fill_crevasses"]}
{"id": "C96", "title": "Writing SVG", "statement": "svg.write indents a copy of the document: tags, attributes, texts and order of elements are kept, each element is on its own line, indented by its depth; the builders svg, g, image and path merge attributes and children as given and the root always has the SVG namespaces.", "quantifier": "all documents (of any depth and breadth), all indents, all attribute dictionaries", "why_tests_cant": "By induction on documents of any depth.", "anchors": ["src/glimpse/svg.py:write", "src/glimpse/svg.py:_indent_etree", "src/glimpse/svg.py:svg", "src/glimpse/svg.py:g", "src/glimpse/svg.py:image", "src/glimpse/svg.py:path"]}
{"id": "C97", "title": "SVG namespaces", "statement": "Reading with namespaces stripped turns every qualified tag and attribute name into its local name and changes nothing else.", "quantifier": "all documents, names and attribute values", "why_tests_cant": "By induction on documents of any depth, for all names.", "anchors": ["src/glimpse/svg.py:_strip_etree_namespaces", "src/glimpse/svg.py:read"]}
{"id": "C98", "title": "Checks of a camera model", "statement": "optimize.Cameras is accepted exactly when every camera and group has valid parameters, groups refer to cameras, some control refers to a camera, groups with f or c have images of one size, no two groups set the same element of the same camera, and every camera with parameters is in a control; so every fitting parameter is applied and affects some observation. Controls of other cameras are dropped.", "quantifier": "all lists of cameras, controls, parameter dictionaries and groups", "why_tests_cant": "The condition is an equivalence over all combinations of cameras, controls and groups.", "anchors": ["src/glimpse/optimize.py:Cameras.__init__", "src/glimpse/optimize.py:Cameras._as_lists", "src/glimpse/optimize.py:Cameras.prune_controls", "src/glimpse/optimize.py:Cameras._test", "src/glimpse/optimize.py:Cameras.update_params"]}
{"id": "C99", "title": "Scales and default bounds of parameters", "statement": "Cameras.camera_scales gives for each camera parameter the positive change that moves an image point by one pixel, for position by the mean distance to world points; Cameras.scales has one scale per fitting parameter, in their order; with the default bounds a fit starts from the cameras as they are.", "quantifier": "all cameras, world points, points in view and parameter layouts", "why_tests_cant": "Real-valued functions of 20 camera parameters and any number of points.", "anchors": ["src/glimpse/optimize.py:Cameras.camera_scales", "src/glimpse/optimize.py:Cameras.camera_bounds", "src/glimpse/optimize.py:Cameras._build_scales"]}
{"id": "C100", "title": "Camera converters: points and optimization", "statement": "Converter(xcam, cam, uv=n) compares the cameras at about n points, the centres of equal cells that tile the image, and refuses only cameras of different image sizes; optimize_cam and optimize_xcam set exactly the selected parameters (True: all, an index, or indices) to what the optimizer returns and change nothing else, however many times the optimizer evaluates the residuals.", "quantifier": "all image sizes, numbers of points, parameter selections and optimizers (arbitrary adaptive sequences of evaluations)", "why_tests_cant": "The number of points and every sequence of evaluations of an optimizer cannot be enumerated; a leak of one evaluation into the next would show only for particular sequences.", "anchors": ["src/glimpse/convert/converter.py:Converter.__init__", "src/glimpse/convert/converter.py:Converter._grid", "src/glimpse/convert/converter.py:Converter.optimize_cam", "src/glimpse/convert/converter.py:Converter.optimize_xcam"]}
{"id": "C101", "title": "Readers of calibration files", "statement": "Agisoft.from_xml, OpenCV.from_xml, Matlab.from_report and PhotoModeler.from_report return the camera with the parameters that are written in the file (values or, with sigmas, standard deviations), and refuse files that are not of their kind.", "quantifier": "all files: all document trees, texts around and between the entries, and numerals", "why_tests_cant": "Files are arbitrary texts; regular expressions with greedy repetitions can match in the wrong place for some texts only.", "anchors": ["src/glimpse/convert/cameras/agisoft.py:Agisoft.from_xml", "src/glimpse/convert/cameras/opencv.py:OpenCV.from_xml", "src/glimpse/convert/cameras/matlab.py:Matlab.from_report", "src/glimpse/convert/cameras/photomodeler.py:PhotoModeler.from_report"]}
{"id": "C102", "title": "Polynomial model: exact points are recovered, with outliers by ransac", "statement": "Polynomial.predict evaluates the polynomial with coefficients from highest to lowest degree, errors are distances from the ordinates, and fitting points that lie on a polynomial of the degree (more distinct abscissae than the degree) gives exactly that polynomial. With ransac, if the points in a set I lie on a polynomial, all others are further than max_error from it, a sample inside I was drawn and no other polynomial passes through more than n + min_inliers points, then exactly that polynomial and the set I are returned, wherever the other points are.", "quantifier": "every list of points, degree, sample size, sequence of shuffles and least-squares solver", "why_tests_cant": "Ranges over all outlier positions and all sampling histories.", "anchors": ["src/glimpse/optimize.py:Polynomial.predict", "src/glimpse/optimize.py:Polynomial.errors", "src/glimpse/optimize.py:Polynomial.fit", "src/glimpse/optimize.py:ransac"]}
{"id": "C103", "title": "Rasters written to files and opened again", "statement": "A raster written with Raster.write and opened with Raster.open has the same limits, size, coordinate reference system and cell values; opening with a crop gives exactly the cells of the file that cover the request, at their places, with no-data values as NaN; a target cell size gives the fewest cells not larger than it; NaN cells are written as the nan value; a write that raises leaves files as they were; Grid.read gives the grid that Raster.open has; copies keep the coordinate reference system.", "quantifier": "every raster, path, driver table, no-data value, crop request, cell size and file system state", "why_tests_cant": "Grids of any orientation, all crop requests, and failure points inside write.", "anchors": ["src/glimpse/raster.py:Raster.write", "src/glimpse/raster.py:Raster.open", "src/glimpse/raster.py:Grid.read", "src/glimpse/raster.py:Raster.copy", "src/glimpse/helpers.py:write_raster", "src/glimpse/helpers.py:gdal_driver_from_path", "src/glimpse/helpers.py:crs_to_wkt"]}
{"id": "C104", "title": "Residuals follow the index, and the optimizer gets arguments of the right size", "statement": "The observations, predictions and residuals of a model of cameras for an index are the rows at that index of those of all its controls one after another, with one control as with several; residuals are predicted minus observed, times the weight of the observation; errors are their lengths, and the error of an observation does not depend on which others are selected. The optimizer is given one scale for each parameter and a sparsity matrix whose rows are those of the selected residuals, in the final run as in the iterations before it.", "quantifier": "for every list of controls, weights, parameters and index (all, integers, booleans)", "why_tests_cant": "Mistakes in the order or number of rows only appear with several controls of different sizes, with indices, weights and iterations together; every combination cannot be tested.", "anchors": ["src/glimpse/optimize.py:Cameras.observed", "src/glimpse/optimize.py:Cameras.predicted", "src/glimpse/optimize.py:Cameras.residuals", "src/glimpse/optimize.py:Cameras.errors", "src/glimpse/optimize.py:Cameras.fit"]}
{"id": "C105", "title": "Making an image", "statement": "An image made with a camera, or with image size and focal length (in pixels, or in mm with the sensor size), and with a time does not read the metadata of its file. Otherwise metadata (given, or else read) supplies image size, focal length and sensor size of the camera and the time, and what the caller gives overrides it. The sensor size is found by make and model, whatever blanks surround them.", "quantifier": "for every dictionary of camera arguments or camera, time, metadata (values may be missing or raise), and file", "why_tests_cant": "The result depends on which of eleven arguments are given together and on which values the metadata holds; tests cover a few combinations.", "anchors": ["src/glimpse/image.py:Image.__init__", "src/glimpse/exif.py:Exif.make", "src/glimpse/exif.py:Exif.model", "src/glimpse/exif.py:Exif.sensorsz"]}
{"id": "C106", "title": "Image projected into another camera", "statement": "Projecting an image into a camera at the same position gives each pixel of that camera the value of the image in the same direction: the bilinear interpolation of the pixels around, or the value of the pixel that is met; nothing where the image does not reach. Into its own camera an image is unchanged. A camera at another position is refused.", "quantifier": "for every image (any number of bands), pair of cameras, method, and pixel", "why_tests_cant": "The values depend on two cameras and every pixel of an image; a test compares a few projected images with others made by the same code.", "anchors": ["src/glimpse/image.py:Image.project"]}
{"id": "C107", "title": "Motion models on their surfaces", "statement": "A motion model made with a surface (a raster or a number) and its standard deviation (a raster, a number or, by default, none) starts the number of particles asked for, each at the mean position plus its own random offset, at the height of the surface there plus a random multiple of the standard deviation there, with the velocity described; tangent motion keeps each particle's height above the surface up to a random slope; likelihoods use each particle's own height; positions outside of a raster raise ValueError.", "quantifier": "every class of motion, surface, number of particles and random numbers", "why_tests_cant": "which particles fall outside of a raster or between its cells depends on all random numbers; tests use one raster and one seed", "anchors": ["src/glimpse/track/motion.py:CartesianMotion.__init__", "src/glimpse/track/motion.py:CartesianMotion.initialize_particles", "src/glimpse/track/motion.py:CartesianMotion.compute_log_likelihoods", "src/glimpse/track/motion.py:TangentCartesianMotion.evolve_particles", "src/glimpse/track/motion.py:CylindricalMotion.__init__", "src/glimpse/track/motion.py:TangentCylindricalMotion.__init__", "src/glimpse/track/motion.py:Motion.initialize_particles", "src/glimpse/raster.py:Raster.__init__", "src/glimpse/raster.py:Grid._parse_limits"]}
{"id": "C108", "title": "Statistics of particles and tracks", "statement": "The particle mean is the weighted mean and lies among the particles; the covariance matrix is symmetric, never negative, and its diagonal holds the squares of the standard deviations; only proportions of weights matter; tracks have the same positions, velocities and standard deviations whether covariances are returned or not, and can be returned with or without all particles.", "quantifier": "all particles, weights and histories of any number of tracks", "why_tests_cant": "identities between different statistics must hold for every set of particles; tests compare one example", "anchors": ["src/glimpse/track/tracker.py:Tracker.particle_mean", "src/glimpse/track/tracker.py:Tracker.particle_covariance", "src/glimpse/track/tracker.py:Tracker.compute_particle_sigma", "src/glimpse/track/tracker.py:Tracker.track", "src/glimpse/track/tracks.py:Tracks.__init__", "src/glimpse/track/tracks.py:Tracks.xyz_sigma", "src/glimpse/track/tracks.py:Tracks.vxyz_sigma"]}
{"id": "C109", "title": "SVG shape elements are read and written faithfully", "statement": "Reading a shape element (rect, line, polyline, polygon, path, circle-like points) uses only the attributes that define its shape: unknown tags raise, unrelated attributes change nothing, missing positions default to zero and a missing rectangle size raises. Writing points as an element and reading it back gives the same points.", "quantifier": "every element, every attribute set and every point list", "why_tests_cant": "Tests read a few sample drawings; the claim is about every attribute set and list of points, including empty ones.", "anchors": ["src/glimpse/svg.py:Points.from_element", "src/glimpse/svg.py:Points.to_element"]}
{"id": "C110", "title": "Polygon masks mark exactly the cells whose centers are inside a polygon and outside every hole", "statement": "polygons_to_mask(polygons, size, holes) has the shape of the image and is true at a cell exactly if the cell's center is inside of some polygon and of no hole; Raster.rasterize_polygons does the same in the coordinates of the raster, whatever the directions of its axes.", "quantifier": "every list of polygons and holes (rings of any number of points, also self-intersecting), every size and every raster; centers that lie on no edge", "why_tests_cant": "A test checks one or two polygons on one grid; inside is a parity over all edges and must hold for every ring, cell and axis direction.", "anchors": ["src/glimpse/helpers.py:polygons_to_mask", "src/glimpse/raster.py:Raster.rasterize_polygons"]}
{"id": "C111", "title": "Grids and rasters made from one another can be changed independently", "statement": "An object obtained from another (a copy, the grid of a raster, a part of a raster by index, a raster made of an array, a raster resampled to a grid) can be shifted, written to and read without changing what is seen of the other: limits, coordinates and values.", "quantifier": "every history of making and changing any number of grids and rasters", "why_tests_cant": "Whether two objects share memory depends on the whole history of how they were made; tests look at one object at a time.", "anchors": ["src/glimpse/raster.py:Grid.copy", "src/glimpse/raster.py:Raster.copy", "src/glimpse/raster.py:Raster.grid", "src/glimpse/raster.py:Raster.__getitem__", "src/glimpse/raster.py:Raster.resample", "src/glimpse/raster.py:Raster.shift", "src/glimpse/raster.py:Grid._shift_xy", "src/glimpse/raster.py:Grid._parse_limits"]}
{"id": "C112", "title": "Raster.resample puts the raster on the target grid", "statement": "After Raster.resample(grid) the raster has the limits and the number of rows and columns of the grid, and each cell has the value of the interpolating surface of the old raster at the centre of that cell of the grid, missing where the surface is missing and filled where the centre is outside; a grid with a cell centre outside raises by default and changes nothing; resampling to the raster's own grid changes nothing; a resampling that raises leaves the raster as it was.", "quantifier": "every raster (any number of rows and columns, either orientation, any pattern of missing cells), target grid, order, bounds_error and fill value", "why_tests_cant": "Grids of all sizes and orientations, and the temporary replacement of missing cells in the array.", "anchors": ["src/glimpse/raster.py:Raster.resample", "src/glimpse/raster.py:Raster.sample", "src/glimpse/raster.py:Raster._sample_grid"]}
{"id": "C113", "title": "An observer's tiles are the pixels of its images, cached or not", "statement": "After any sequence of extract_tile, shift_tile, cache_images, clear_images and camera resizes, Observer.extract_tile(box, img) returns the pixels of that box of the image at its camera's size; a tile once extracted keeps its pixels; cache_images and clear_images act on exactly the images indexed (negative from the end) and raise before doing anything for an index out of range; tiles of a cached image need no file.", "quantifier": "every number of images, files, camera sizes, cache flag, and history of operations", "why_tests_cant": "Arrays, tiles and cache share memory; all histories matter.", "anchors": ["src/glimpse/track/observer.py:Observer.extract_tile", "src/glimpse/track/observer.py:Observer.shift_tile", "src/glimpse/track/observer.py:Observer.cache_images", "src/glimpse/track/observer.py:Observer.clear_images", "src/glimpse/image.py:Image.read"]}
{"id": "C114", "title": "Raster.hillshade lights the surface from the azimuth given", "statement": "Raster.hillshade(azimuth, altitude) returns, for every cell, the illumination of the surface by a light at that compass azimuth and altitude: the cosine of the angle between the light and the normal of the surface there (which has the gradient of Raster.gradient), stretched over the raster to 0 to 1 and clipped, so a cell facing the light more is never darker than another. The orientation of the raster's rows does not matter. A flat raster is as bright as the sine of the altitude; a raster with one row or column raises an error.", "quantifier": "all rasters without missing values of any size and orientation, all azimuths and altitudes", "why_tests_cant": "Which way is north depends on the sign of a cell size that two libraries each negate, and a wrong answer looks like a plausible shaded relief; tests compare no cell with the light's direction.", "anchors": ["src/glimpse/raster.py:Raster.hillshade"]}
{"id": "C115", "title": "Orienting the cameras of an observer: set, fit and reset", "statement": "ObserverCameras.set_cameras(viewdirs) gives the camera of each image its direction and changes nothing else (fewer directions than images raise an error); after any history of set_cameras, fits (returning or raising), resets and changes by others, reset_cameras gives every camera the view direction it had when the object was made; a fit changes nothing but view directions of the observer's cameras and leaves them as they were before; the function it minimizes depends only on the directions tried (the documented objective: squared departure of the anchors from their directions and of matched rays from each other), so its result is what the optimizer makes of that objective.", "quantifier": "every number of images, anchors and matches, every optimizer strategy (evaluations and results, or an exception), every history of operations on cameras shared with others", "why_tests_cant": "The optimizer's evaluations change the cameras while it runs; every history and strategy matters.", "anchors": ["src/glimpse/optimize.py:ObserverCameras.__init__", "src/glimpse/optimize.py:ObserverCameras.set_cameras", "src/glimpse/optimize.py:ObserverCameras.reset_cameras", "src/glimpse/optimize.py:ObserverCameras.fit"]}
{"id": "C116", "title": "The animation of a track shows every time with its own image, track and velocity", "statement": "Tracks.animate shows, in increasing order, the selected times at which the track has a position (and, if asked for, an image and particles), but the last; each frame shows the image of its time, the track until then and the mean velocity as the displacement until the next time shown; no time to show raises an error.", "quantifier": "every track (any number of times, any pattern of missing positions and images), every selection of frames, with or without images and particles", "why_tests_cant": "Gaps in the track shift positions against indices; every pattern of gaps matters.", "anchors": ["src/glimpse/track/tracks.py:Tracks.animate"]}
{"id": "C117", "title": "The animations of an observer show what is around the points", "statement": "Observer.animate shows, for each image, the part of the image in a window of the requested size centered on the projected point (placed where it was read; white where the window is apart from the image) in axes centered on that point; Observer.track shows for the j-th frame the points until the j-th as that image sees them and a tile of the requested size around the j-th, and raises exactly if that tile reaches out of the image.", "quantifier": "every image size, window size, point, image cache setting and sequence of frames", "why_tests_cant": "Windows relative to image borders form a continuum.", "anchors": ["src/glimpse/track/observer.py:Observer.animate", "src/glimpse/track/observer.py:Observer.track"]}
{"id": "C118", "title": "Image.write writes the pixels of the image, and images read what was written", "statement": "Image.write(path) writes the original pixels of the image's file to the path, Image.write(path, array) writes the array; no other file and no other image changes (without a driver for the path it raises and writes nothing). After any history of writes, reads (cached or not), camera resizes and cleared caches, reading an image returns the pixels its file holds now at the size of its camera.", "quantifier": "every number of images and files, all contents, and every history of operations on them", "why_tests_cant": "Images, caches and files form a shared state; every history matters.", "anchors": ["src/glimpse/image.py:Image.write", "src/glimpse/image.py:Image.read"]}
{"id": "C119", "title": "pairwise_distance is the table of distances", "statement": "pairwise_distance(x, y) returns a row for every point of x and in it a number for every point of y, [i, j] being the distance of x[i] and y[j] (Euclidean unless another metric is named), numbers counting as points on a line; it raises ValueError exactly if they do not have the same number of coordinates. By default it is a distance: nonnegative, zero exactly between equal points, symmetric under swapping x and y (transposing), no longer than by a third point. pairwise_distance_datetimes returns the seconds between the instants.", "quantifier": "every number of points and coordinates, every metric, all values, all datetimes and time zones", "why_tests_cant": "Metric laws and table positions hold for all real coordinates and any numbers of points and dimensions.", "anchors": ["src/glimpse/helpers.py:pairwise_distance", "src/glimpse/helpers.py:pairwise_distance_datetimes"]}
{"id": "C120", "title": "Boxes as grids of points and polygons, in any number of dimensions", "statement": "box_to_grid returns for any number of dimensions, as vectors, arrays or points, every point of the box that is a whole number of steps from the snap point, each once; the array of a coordinate has at [j, i, ...] the coordinate with indices i, j, ... along the axes; grid_to_points returns the points of the arrays in their order. box_to_polygon returns the closed polygon whose bounding box is the box and which contains what is strictly between the limits; invalid boxes and modes raise. The number of parallel processes is what was asked for, or that of the processors.", "quantifier": "every number of dimensions, every box, steps and snap point; every point and mask size; every request", "why_tests_cant": "Order and uniqueness hold for every number of dimensions and cells.", "anchors": ["src/glimpse/helpers.py:box_to_grid", "src/glimpse/helpers.py:grid_to_points", "src/glimpse/helpers.py:box_to_polygon", "src/glimpse/helpers.py:_parse_parallel", "src/glimpse/helpers.py:bounding_box"]}
{"id": "C121", "title": "detect_keypoints passes the image and normalizes the descriptors", "statement": "detect_keypoints returns the keypoints the detector finds in the image and mask given; with root=True each descriptor is the square root of its part of the sum of the descriptor, so it has nearly unit length and the inner product of two is their Hellinger kernel; no keypoints stay none; without root the descriptors are the detector's.", "quantifier": "every detector, image, mask and descriptors (any number and length, nonnegative values)", "why_tests_cant": "Holds for all descriptor values and lengths; the conversion to 8 bits concerns all pixel values.", "anchors": ["src/glimpse/optimize.py:detect_keypoints"]}
{"id": "C122", "title": "Exif.insert writes the tags, and images read what was inserted", "statement": "Exif.insert(path) replaces the tags of the file by those of the object (or raises and changes nothing if a group or tag is unknown), leaves pixels, other files and the object unchanged; after any history of reading, editing and inserting, Exif(path) has the tags of the object that was last inserted there, as they were then.", "quantifier": "every number of files and objects, all tags and values, every history of operations", "why_tests_cant": "Histories and contents are unbounded.", "anchors": ["src/glimpse/exif.py:Exif.insert", "src/glimpse/exif.py:Exif.dump", "src/glimpse/exif.py:Exif.__init__"]}
{"id": "C123", "title": "Grid coordinates in double precision", "statement": "In double precision (every operation rounded to nearest), Grid.snap_xy, xy_to_rowcol, rowcol_to_xy and crop_extent give the exact results of C22-C24: the centre of a cell belongs to that cell, a point belongs to the cell that contains it, and a grid cropped to its own limits is unchanged.", "quantifier": "every grid, cell and point whose numbers are doubles", "why_tests_cant": "Rounding goes either way for a few grids and cells only; no test set can show that none of the others is off by one.", "anchors": ["src/glimpse/raster.py:Grid.snap_xy", "src/glimpse/raster.py:Grid.xy_to_rowcol", "src/glimpse/raster.py:Grid.rowcol_to_xy", "src/glimpse/raster.py:Grid.crop_extent", "src/glimpse/raster.py:Grid.d"]}
{"id": "C124", "title": "Particle resampling in double precision", "statement": "In double precision (every operation rounded to nearest, sums added in any order), Tracker.resample_particles draws as many particles as there are, all existing and in order, never one of zero weight, and with systematic resampling each as many times as its share of the weight up to one.", "quantifier": "every number of particles, weights and random numbers, every order of summation", "why_tests_cant": "Rounding errors of the running sums add up with the number of particles; only some weights and random numbers near 1 show them.", "anchors": ["src/glimpse/track/tracker.py:Tracker.resample_particles"]}
{"id": "C125", "title": "Plots of maps and images show each value at its own place", "statement": "Raster.plot shows at every point strictly inside a cell of the grid the value of that cell, whichever way the axes of the grid run, and nothing outside the grid; Image.plot and Observer.plot_tile show each pixel in its own square of image coordinates; Grid.set_plot_limits and Camera/Image.set_plot_limits make the axes show exactly the grid or the image, in its own direction; Observer.plot_box draws the rectangle with the corners of the box.", "quantifier": "all grids, arrays, image sizes, boxes and points", "why_tests_cant": "A plot is checked by eye on a few rasters; an off-by-half-cell or a flipped axis is only visible for some grids and points.", "anchors": ["src/glimpse/raster.py:Raster.plot", "src/glimpse/raster.py:Grid.set_plot_limits", "src/glimpse/image.py:Image.plot", "src/glimpse/image.py:Image.set_plot_limits", "src/glimpse/camera.py:Camera.set_plot_limits", "src/glimpse/track/observer.py:Observer.plot_tile", "src/glimpse/track/observer.py:Observer.plot_box"]}
{"id": "C126", "title": "Plots of tracks show the positions, velocities and standard deviations of the tracks selected", "statement": "Tracks.plot_xy, plot_vxy and plot_v1d draw, for exactly the tracks selected and in their order, the positions (with start markers and standard deviations if asked for), velocity arrows at the positions, or the velocity in one dimension against time with the band of one standard deviation; a track that does not exist raises IndexError.", "quantifier": "all tracks (any number of tracks and times, with missing values), all ways of selecting tracks and all styles", "why_tests_cant": "Selections (slices, integers, masks, negative indices), missing values and combinations of styles are far more than tests can list.", "anchors": ["src/glimpse/track/tracks.py:Tracks.plot_xy", "src/glimpse/track/tracks.py:Tracks.plot_vxy", "src/glimpse/track/tracks.py:Tracks.plot_v1d"]}
{"id": "C127", "title": "Plots of reprojection errors show each point's own error, selected and unselected", "statement": "Points.plot, Lines.plot, Matches.plot and Cameras.plot split the points into selected and unselected ones (each point drawn in exactly one of the two groups) and draw for each an arrow from observed to predicted image coordinates, scaled by the scale given; hidden or empty groups are not drawn; Polynomial.plot draws the points and the fitted polynomial; Cameras.plot uses the parameters given and leaves the cameras as they were; Cameras.plot_weights shows each observation with its own weight; Converter.plot draws arrows from xcam to cam image coordinates for every scale.", "quantifier": "all points, predictions, indices (all, integers, masks), styles, scales, cameras and controls", "why_tests_cant": "Pairing of points and errors must hold for every index, including negative and repeated ones, and for failures in the middle of a plot.", "anchors": ["src/glimpse/optimize.py:Points.plot", "src/glimpse/optimize.py:Lines.plot", "src/glimpse/optimize.py:Matches.plot", "src/glimpse/optimize.py:Polynomial.plot", "src/glimpse/optimize.py:Cameras.plot", "src/glimpse/optimize.py:Cameras.plot_weights", "src/glimpse/convert/converter.py:Converter.plot"]}
{"id": "C128", "title": "JSON files read back", "statement": "helpers.read_json of what helpers.write_json wrote is the same value (strings of any characters, numbers of any size, NaN and infinities, nested arrays and objects in order), with any indent or none, with and without flat_arrays; the text is ASCII; two values with the same text are the same.", "quantifier": "every JSON value, indent and flat_arrays", "why_tests_cant": "values have any depth, and a regular expression edits the text", "anchors": ["src/glimpse/helpers.py:write_json", "src/glimpse/helpers.py:read_json"]}
{"id": "C129", "title": "Pickle files read back", "statement": "helpers.read_pickle(path, gz, binary) returns the object that helpers.write_pickle(obj, path, gz, binary) wrote, whatever is written to other paths in between; other files do not change; with another gz it raises; an interrupted write is not read as an object.", "quantifier": "every object, file system, path, gz, binary, later writes and crash point", "why_tests_cant": "histories of writes and crash points", "anchors": ["src/glimpse/helpers.py:write_pickle", "src/glimpse/helpers.py:read_pickle"]}
{"id": "C130", "title": "Cameras own their memory; attributes are live views; reset restores", "statement": "Whatever is done with a camera and any others (attributes read, kept, written to in place or set, copies, resets, to_array, idealize), Camera.reset restores the twenty numbers it was made of, a copy resets to the state of the original when it was copied, a step about one camera changes nothing of another, an attribute that was read keeps showing (and in-place writes keep reaching) the camera until it is reset, to_array is the caller's own, and idealize zeroes exactly c, k and p.", "quantifier": "every history of operations on any number of cameras and values read from them", "why_tests_cant": "aliasing depends on the whole history of reads, copies and in-place writes", "anchors": ["src/glimpse/camera.py:Camera.copy", "src/glimpse/camera.py:Camera.reset", "src/glimpse/camera.py:Camera.to_array", "src/glimpse/camera.py:Camera.idealize", "src/glimpse/camera.py:Camera.xyz", "src/glimpse/camera.py:Camera.sensorsz"]}
{"id": "C131", "title": "Resizing in floating point", "statement": "With the rounding of double precision, the image size after a resize does not depend on earlier resizes and is exactly the one asked for; focal length and principal point offset stay in proportion to it up to one part in 2^51 per resize, exactly if sizes are halved and doubled, so that resize(1) restores the camera.", "quantifier": "every camera of up to 2^40 pixels a side, every history of resizes to positive sizes, every rounding to nearest", "why_tests_cant": "rounding errors accumulate over histories of any length, and which sizes are hit depends on the bits of the scale", "anchors": ["src/glimpse/camera.py:Camera.resize", "src/glimpse/helpers.py:get_scale_from_size"]}
{"id": "C132", "title": "Tiles in floating point", "statement": "Grid.tile_indices computes in double precision. For whole tile sizes (as documented) and grids of fewer than 2^52 cells a side the slices are those of exact arithmetic, with any overlap and any rounding to nearest. For any other positive size the tiles still partition the grid (every cell in exactly one tile), and their number is the integer nearest to size / tile size up to the rounding of that quotient.", "quantifier": "every grid below 2^52 cells a side, every positive tile size, every overlap, every rounding to nearest with 53 bits", "why_tests_cant": "Rounded divisions near integers and near halves: failures would be at isolated sizes.", "anchors": ["src/glimpse/raster.py:Grid.tile_indices"]}
{"id": "C133", "title": "Particle weights neither vanish nor overflow", "statement": "In double precision with overflow, underflow, infinities and NaN, Tracker.update_weights gives every particle a finite weight of at least 1e-300 when its total log likelihood (in the code's sign) is -709 or more, of at most 1 when no log likelihood is negative, to within one rounding of exp(-total) + 1e-300, never larger for a less likely particle, and the same 1e-300 for all particles where all likelihoods vanish; without any observation the weights stay. For up to 2^24 particles the normalized weights are then positive numbers of at most 1 and resampling draws as many particles as there are, each an old one with its weight (for systematic and stratified resampling unless the last random number is within 10 n^2 2^-53 of 1, as in C124). One missing log likelihood makes every normalized weight missing, and one below -710 an infinite one.", "quantifier": "all numbers of observers and particles, all log likelihoods (also infinite), all orders of summation, all random numbers, any rounding of exp", "why_tests_cant": "The range of doubles spans 2000 powers of two; the cases where a likelihood or a quotient underflows are rare in tests and depend on the number of particles and on the order of summation", "anchors": ["src/glimpse/track/tracker.py:Tracker.update_weights", "src/glimpse/track/tracker.py:Tracker.resample_particles"]}
{"id": "C134", "title": "Template and search tiles in double precision", "statement": "In double precision arithmetic, for images of up to a million pixels a side: the template lies in the image and starts at the same pixel as in exact arithmetic, has the requested size (or one pixel more, when the mean is within rounding before the center of the longer tile), and records its offset from the mean, at most half a pixel; it is placed wherever it would be in exact arithmetic and raises IndexError only. Searching with it never raises unless the offset is within rounding of -1/2: an image is skipped only if the search box reaches out of it, which it does not if the particles are far enough from the limits; otherwise the box contains the template centred on each particle (up to rounding), the cells are as many as the error image has, more than the degree of the spline, strictly increasing, and within rounding of the positions to which the template is moved.", "quantifier": "all image sizes up to 2^20, means, particles (any number), tile sizes, spline degrees up to 5 and roundings to a nearest double", "why_tests_cant": "coordinates where rounding changes a pixel are one in a trillion; a test with random coordinates never meets one", "anchors": ["src/glimpse/track/observer.py:Observer.tile_box", "src/glimpse/track/observer.py:Observer.sample_tile", "src/glimpse/track/tracker.py:Tracker.initialize_template", "src/glimpse/track/tracker.py:Tracker.compute_observer_log_likelihoods", "src/glimpse/raster.py:Grid.snap_box"]}
{"id": "C135", "title": "Statistics of particles in double precision", "statement": "In double precision arithmetic, in whatever order numpy adds and whether or not it fuses multiplications with additions, for n particles (up to 2^40) and as many weights, none negative and with a positive sum: each coordinate of Tracker.particle_mean is the weighted mean to within 4 n 2^-53 times the weighted mean of the absolute values; Tracker.compute_particle_sigma never gives NaN or a negative number and is the weighted standard deviation to within (4 n + 8) 2^-53 of itself plus 8 n 2^-53 times the weighted mean of the absolute values, the same with or without a precomputed mean; Tracker.particle_covariance has no negative number on its diagonal, its elements are exact to within (4 n + 8) 2^-53 times the mean absolute product of deviations (plus the product of the errors of the means), and elements that mirror each other differ by at most twice that; the mean lies between the smallest and the largest coordinate; equal particles have no spread; and the covariance is symmetric. Zero weights, another number of weights, and (for the covariance) negative weights raise.", "quantifier": "every number of particles up to 2^40, every coordinate and weight, every order of additions, every rounding to nearest", "why_tests_cant": "a test runs one summation order of one numpy build on a few arrays; whether a variance can round below zero (and give NaN) depends on all of them", "anchors": ["src/glimpse/track/tracker.py:Tracker.particle_mean", "src/glimpse/track/tracker.py:Tracker.particle_covariance", "src/glimpse/track/tracker.py:Tracker.compute_particle_sigma"]}
{"id": "C136", "title": "Particle likelihoods from pixels", "statement": "A particle whose projection is displaced by whole pixels from the point at which the template was taken gets from Tracker.compute_observer_log_likelihoods exactly the mean squared difference between the pixels of the template and the pixels of the search image displaced by as much, divided by twice the observer's variance. It is zero exactly if every pixel of the template is found again there, and positive otherwise, so that an exact match is the most likely. Without an image, or if the search box reaches out of it, no likelihoods are computed; the call never raises. Between pixels no particle gets a negative value.", "quantifier": "every template and search image, every set of particles, every spline through the error image", "why_tests_cant": "the value at a particle depends on all pixels of two images and on where the search box falls, through two changes of coordinates (tile to box, box to error image)", "anchors": ["src/glimpse/track/tracker.py:Tracker.compute_observer_log_likelihoods", "src/glimpse/track/observer.py:Observer.sample_tile"]}
{"id": "C137", "title": "Grids of points in a box, in double precision", "statement": "For finite double-precision bounds lo <= hi, a positive step and a snap value, each axis of `helpers.box_to_grid(box, step, snap, mode='vectors')` holds exactly the values snap + k * step (k an integer) that lie in [lo, hi], in increasing order: rounding neither drops a value, nor adds one outside of the box, and each coordinate is within a few units in the last place of its exact value.", "quantifier": "all bounds, steps and snap values that are doubles (finite, no overflow)", "why_tests_cant": "Whether the last coordinate is kept depends on floor division of rounded differences: it changes with single bits of the input, which test grids (usually small integers) do not exercise.", "anchors": ["src/glimpse/helpers.py:box_to_grid"]}
{"id": "C138", "title": "Projection and back-projection in double precision", "statement": "For an undistorted camera, `Camera.xyz_to_uv` and `Camera.uv_to_xyz` compute in double precision what exact arithmetic gives, to within a bound that depends only on the focal length, the size of the field of view and (for absolute coordinates) the distance of the camera from the origin relative to the depth; points behind the camera get NaN; and an image point projected to any positive depth and back is found again in the same place.", "quantifier": "all undistorted cameras with angles up to 360 degrees, all image points, world points and depths that are doubles", "why_tests_cant": "The error is a sum of dozens of roundings in the trigonometry, matrix products and divisions: tests compare a few points with a loose tolerance, and cannot bound the worst case.", "anchors": ["src/glimpse/camera.py:Camera.R", "src/glimpse/camera.py:Camera.xyz_to_uv", "src/glimpse/camera.py:Camera.uv_to_xyz", "src/glimpse/camera.py:Camera._xyz_to_xy", "src/glimpse/camera.py:Camera._xy_to_xyz", "src/glimpse/camera.py:Camera._xy_to_uv", "src/glimpse/camera.py:Camera._uv_to_xy"]}
{"id": "C139", "title": "Lens distortion in double precision", "statement": "The image coordinates that Camera.xyz_to_uv computes in double precision for a camera with radial and tangential distortion are close to the exact image coordinates: within 2^-35 of the size of the terms of the distortion, in focal lengths, plus half of the image size and the principal point offset, for any point in front of the camera where the denominator of the radial distortion is not nearly zero.", "quantifier": "every correct rounding and every accurate library, camera with view angles up to 360 degrees, six radial and two tangential coefficients, and point or direction in front of the camera", "why_tests_cant": "rounding errors pass through polynomials, a quotient whose denominator may be small, and sums that cancel; tests compare a few points with a tolerance", "anchors": ["src/glimpse/camera.py:Camera.xyz_to_uv", "src/glimpse/camera.py:Camera._distort", "src/glimpse/camera.py:Camera._radial_distortion", "src/glimpse/camera.py:Camera._tangential_distortion"]}
{"id": "C140", "title": "Rasters opened at another cell size", "statement": "A raster opened with a target cell size holds in each cell the value of the file at the center of the cell (missing values apart), and Raster.read and Raster.array return this array, or the box of it, whatever has been read before and whether or not it is cached.", "quantifier": "every file, target cell size, crop, box and history of reads", "why_tests_cant": "resampling at window edges and truncated box coordinates only agree for some ratios of cell sizes; tests read full-resolution files", "anchors": ["src/glimpse/raster.py:Raster.open", "src/glimpse/raster.py:Raster.read", "src/glimpse/raster.py:Raster.array"]}
{"id": "C141", "title": "Motion in double precision", "statement": "Evolving particles in double precision with any steps forward and backward, any accelerations and any random numbers gives positions and velocities within (k + 14) / 2^52 of the exact ones, relative to the sum of the absolute values of the terms added, where k is the number of steps; with a constant acceleration they are those of uniformly accelerated motion over the total time, however it is split. Exactness fails: a step forward and back may not return to the start, and a particle slower than 2^-54 of its coordinate per step never moves, in any number of steps.", "quantifier": "every rounding to a nearest double, particle, acceleration, random number, time unit and sequence of time steps", "why_tests_cant": "Tests compare with a tolerance on one step; the bound must hold for any number of steps, in either direction, at any coordinates.", "anchors": ["src/glimpse/track/motion.py:Motion.evolve_particles", "src/glimpse/track/motion.py:CartesianMotion.evolve_particles"]}
{"id": "C142", "title": "Gradients and shades of rasters with missing cells", "statement": "Raster.gradient and Raster.hillshade of a raster with missing cells: a slope along one axis is missing exactly if one of the two neighbours along that axis is missing (at an edge, the cell or its only neighbour); a shade is missing exactly if one of its two slopes is. The slopes and shades that are not missing do not depend on what the missing cells would contain. Missing cells have no slope and no shade, and the shades elsewhere are those of the complete raster (the last two fail).", "quantifier": "every raster of at least two rows and columns with any pattern of missing cells, every azimuth and altitude", "why_tests_cant": "Tests use complete rasters; how missing values spread depends on every position of the missing cells relative to the edges, and the loss of contrast depends on a comparison with NaN in a library.", "anchors": ["src/glimpse/raster.py:Raster.gradient", "src/glimpse/raster.py:Raster.hillshade"]}
{"id": "C143", "title": "Rasters interpolated in time in double precision", "statement": "Each cell interpolated between two rasters in double precision is the first value at the first position exactly, the common value if both are equal, moves only in the direction from the first value to the second as the position grows (also when extrapolating), and is between the two values at every datetime from the first to before the second (285 years apart at most). It is within 7 / 2^52 of the exact value relative to the first value and the change from it, and the standard deviation within 19 / 2^52 of the exact one relative to itself. The result at the second position is the second value (this fails: it may be past it or lose it, unless the difference is a double).", "quantifier": "every rounding to a nearest double, pair of positions (numbers or datetimes), pair of values and standard deviations, and position between or beyond", "why_tests_cant": "Whether rounding leaves the interval or reverses the order depends on the bits of every value; tests compare a few with a tolerance.", "anchors": ["src/glimpse/raster.py:RasterInterpolant._interpolate"]}
{"id": "C144", "title": "Samples of rasters in double precision", "statement": "A linear sample of a raster in double precision at a point within the outermost cell centers is within 135 / 2^52 of the exact one relative to the largest value (outside, also in proportion to the distance), and at the center of a cell it is the value of the cell, exactly. A sample of a raster of one row or column is within 7 / 2^52 relative to the first value and the change from it. A flat raster has the same sample everywhere, and the sample at the center of a cell of a raster with one row is its value (both fail).", "quantifier": "every rounding to a nearest double, ascending coordinates of any number and spacing, values and points", "why_tests_cant": "Tests compare samples with a tolerance at a few points; the bound must hold for any spacing, and whether values are exact depends on the bits of the coordinates.", "anchors": ["src/glimpse/raster.py:Raster.sample"]}
{"id": "C145", "title": "Histogram matching in double precision", "statement": "With every floating point operation rounded to double precision, match_cdf of two arrays with at most 2^49 pairs of cells returns a value for each cell, never reverses the order of two cells, makes equal cells equal, and returns no value outside the values of the second array. A cell at exactly the quantile of a value of the second array becomes exactly that value, so an array matched to itself, or to the same cells repeated and reordered, is unchanged. All values are within (5 m + 7) / 2^53 of the range of the second array (of m cells) plus 1 / 2^53 of its largest magnitude of the result without rounding. An empty second array raises ValueError.", "quantifier": "for every rounding to a nearest double, every two arrays of at most 2^49 pairs of cells, of doubles", "why_tests_cant": "rounding can put an interpolated value past the next one only for particular quantiles; tests match a handful of small arrays", "anchors": ["src/glimpse/helpers.py:compute_cdf", "src/glimpse/helpers.py:match_cdf"]}
{"id": "C146", "title": "Datetimes matched in double precision", "statement": "With every floating point operation rounded to double precision, for datetimes (on a clock at UTC) less than 2^32 seconds from 1970: pairwise_distance_datetimes gives zero for equal datetimes and only for them, does not decrease away from a datetime in either direction, is within a microsecond and 2^-53 of itself of the true distance, and is exact for datetimes of whole seconds. Tracker.match_datetimes matches a datetime that is the time of an image to the first image of that time whatever the maximum, matches no other with a maximum of zero, and matches an image that is nearest to within two microseconds and within the maximum to within a microsecond (and 2^-53 of the distances); for whole seconds, it is exactly the first nearest image if that is within the maximum. A datetime exactly the maximum from the nearest image is matched.", "quantifier": "for every rounding to a nearest double, all datetimes within the range, all lists of image times, all maxima", "why_tests_cant": "timestamps of our time are rounded to a quarter of a microsecond; tests use whole seconds", "anchors": ["src/glimpse/helpers.py:pairwise_distance_datetimes", "src/glimpse/track/tracker.py:Tracker.match_datetimes"]}
{"id": "C147", "title": "Datetimes to track at, in double precision", "statement": "With every floating point operation rounded to double precision, Tracker.parse_datetimes returns exactly those of the datetimes given (once each, in their order) that Tracker.match_datetimes, with the same maximum and precision, matches to an image of at least one observer. A datetime that is the time of an image is always kept. With the default maximum of zero (and times less than 2^32 seconds from 1970), and whenever all times and the maximum are whole seconds, the result or error is the one of exact arithmetic, which keeps any datetime within the maximum of an image.", "quantifier": "for every rounding to a nearest double, all observers, all lists of datetimes, all maxima", "why_tests_cant": "two methods round separately and have to agree for all times; tests use a few times in whole seconds", "anchors": ["src/glimpse/track/tracker.py:Tracker.parse_datetimes", "src/glimpse/track/tracker.py:Tracker.match_datetimes", "src/glimpse/helpers.py:pairwise_distance_datetimes"]}
{"id": "C148", "title": "Elevation corrections in double precision", "statement": "With every floating point operation rounded to double precision, elevation_corrections returns one correction for each squared distance, within 5 / 2^53 of its magnitude of (refraction - 1) d / (2 radius). For a positive radius, corrections are never upward if refraction is at most 1, are downward at every distance other than zero if it is less than 1, are exactly zero at distance zero and for a refraction of 1, never decrease in size with distance, and never increase in size with the radius or with refraction up to 1.", "quantifier": "for every rounding to a nearest double, every array of squared distances, radius and refraction", "why_tests_cant": "monotonicity under rounding concerns all pairs of neighbouring doubles; tests evaluate a few distances", "anchors": ["src/glimpse/helpers.py:elevation_corrections"]}
