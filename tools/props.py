# Generates properties.jsonl (kept so the list can be edited in one place).
import json
P = []
def p(id, title, statement, quantifier, why, *anchors):
    P.append(dict(id=id, title=title, statement=statement, quantifier=quantifier,
                  why_tests_cant=why, anchors=list(anchors)))
H = "src/glimpse/helpers.py"; C = "src/glimpse/camera.py"; R = "src/glimpse/raster.py"
O = "src/glimpse/optimize.py"; S = "src/glimpse/svg.py"; I = "src/glimpse/image.py"
T = "src/glimpse/track/"; V = "src/glimpse/convert/"
def a(f, *syms): return [f"{f}:{s}" for s in syms]

p("C01", "format_list returns exactly the requested length",
  "format_list(x, length, default) returns a list of exactly `length` items whenever it returns: a longer input is truncated to its first `length` items, a shorter one is padded with `default` when one is given, and otherwise the whole input is repeated cyclically; it raises exactly when no default is given and the length is not a multiple of the input's length.",
  "every list, every target length, every default", "Tests sample a few lengths; divisibility, truncation and padding interact for every pair of lengths.",
  *a(H, "format_list"))
p("C02", "format_list does not modify its argument",
  "Calling format_list on a list leaves the caller's list unchanged, so the same default list can be reused.",
  "every list argument and every history of calls sharing it", "Aliasing only shows when the caller keeps the list; the tests look only at return values.",
  *a(H, "format_list"))
p("C03", "boolean_split loses nothing and splits only where the mask changes",
  "For an array x and a mask of the same length, boolean_split with include='all' returns non-empty pieces whose concatenation is x, every piece has a constant mask value and neighbouring pieces have different mask values; include='true'/'false' return exactly the pieces with that value in order; with circular=True the last piece is merged in front of the first piece iff first and last mask values agree and there is more than one piece.",
  "every array, every mask, every include mode, circular or not", "The number of runs and their positions are unbounded; tests check one or two masks.",
  *a(H, "boolean_split"))
p("C04", "sorted_nearest returns an index of a nearest element",
  "For a sorted array x with at least two elements and any query v, sorted_nearest(x, v) is a valid index i and |x[i]-v| <= |x[j]-v| for every j.",
  "every sorted array and every query, inside or outside the range", "Nearest-ness quantifies over every element and every query, with ties and queries outside the range.",
  *a(H, "_sorted_neighbors", "sorted_nearest"))
p("C05", "intersect_boxes is set intersection",
  "When intersect_boxes(boxes) returns a box, a point is inside it (in_box) iff it is inside every input box; it raises exactly when the input boxes do not overlap with positive extent in some dimension.",
  "every non-empty list of boxes of any dimension and every point", "Set equality quantifies over all points of the plane or space.",
  *a(H, "intersect_boxes", "in_box", "unravel_box"))
p("C06", "bounding_box is the smallest enclosing box",
  "bounding_box(points) contains every point, and any box containing every point contains it.",
  "every non-empty finite point set", "Minimality quantifies over all boxes.", *a(H, "bounding_box", "in_box"))
p("C07", "box_to_grid covers the box with equally spaced coordinates",
  "box_to_grid(box, step, snap) returns along each axis exactly the coordinates that lie in the closed interval of the box and are congruent to the snap coordinate modulo the step, in increasing order.",
  "every box, positive step and snap point", "Boundary inclusion depends on exact divisibility for all boxes and steps.",
  *a(H, "box_to_grid"))
p("C08", "Ray-box intersection is sound and complete",
  "intersect_rays_box(t=True) returns as entrance the smallest and as exit the largest parameter for which the ray's line is in the closed box, with NaN for a negative or non-existing one; so the exit is NaN exactly for rays whose forward half-line misses the box.",
  "every box, origin and direction with no zero component", "Slab intersection has many sign cases; completeness quantifies over all points of the ray.",
  *a(H, "intersect_rays_box"))
p("C09", "bresenham_line is an exact digital line",
  "bresenham_line(start, end) starts at start and ends at end, has max(|dx|,|dy|)+1 points, each step moves by one cell along the major axis and by at most one along the minor axis, no cell repeats, it stays in the bounding box of the endpoints and within half a cell of the ideal segment.",
  "every pair of integer cells", "All octants, slopes and lengths are quantified over; tests check a few lines.",
  *a(H, "bresenham_line"))
p("C10", "rasterize_points writes each occupied cell once with its mean and nothing else",
  "rasterize_points(rc, values, shape) sets every cell that received points to the mean of exactly the values of its points, leaves every other cell at its initial value, and raises when some point is outside the array; the order of the points does not matter.",
  "every list of points and values, every shape, every permutation of the points", "Permutation invariance and the absence of other writes quantify over all inputs.",
  *a(H, "rasterize_points"))
p("C11", "select_datetimes returns the selected subset and nothing else",
  "select_datetimes returns a mask the length of its input; every selected datetime lies in [start, end] and is within maxdt of some snap time, each snap time selects at most one datetime and selects a nearest one; without snap every datetime in range is selected.",
  "every strictly increasing sequence of datetimes and every combination of start, end, snap and maxdt", "Interaction of bounds, snap grid and tolerance over unbounded sequences.",
  *a(H, "select_datetimes", "datetime_range", "pairwise_distance_datetimes"))
p("C12", "datetime_range is the arithmetic progression that fits",
  "datetime_range(start, stop, step) returns exactly start + k*step for those k >= 0 with value <= stop, in increasing order.",
  "every start, stop and positive step", "Off-by-one at the end point depends on exact divisibility.", *a(H, "datetime_range"))
p("C13", "The camera rotation matrix is a proper rotation",
  "For every view direction, Camera.R satisfies R Rᵀ = I and det R = 1, so distances and handedness are preserved by the world-to-camera transformation.",
  "every (yaw, pitch, roll) in degrees", "A continuum of angles.", *a(C, "Camera.R"))
p("C14", "Camera.Rprime is the derivative of the inverse rotation",
  "Each slice of Camera.Rprime is the partial derivative, per degree, of the matrix that the optimizer multiplies with the ray directions, for yaw, pitch and roll.",
  "every (yaw, pitch, roll)", "A derivative is a limit over a continuum; finite differences only approximate it at sample points.",
  *a(C, "Camera.R", "Camera.Rprime"), *a(O, "ObserverCameras.fit"))
p("C15", "Projection and back-projection are inverse",
  "Without lens distortion, uv_to_xyz returns for every image point a ray that xyz_to_uv(directions=True) maps back to the same image point; and for a world point in front of the camera the ray through its image point passes through the world point.",
  "every camera (any position, view direction, focal length > 0, principal point), every image point, every world point in front", "Continuum of cameras and points.",
  *a(C, "Camera.xyz_to_uv", "Camera.uv_to_xyz", "Camera._xyz_to_xy", "Camera._xy_to_xyz"))
p("C16", "Points behind the camera never get image coordinates",
  "xyz_to_uv returns NaN for a point exactly when Camera.infront is False for it (no elevation correction), and every point produced by uv_to_xyz is in front.",
  "every camera and every world point", "The sign boundary must hold for every point.",
  *a(C, "Camera.infront", "Camera._xyz_to_xy", "Camera.uv_to_xyz"))
p("C17", "Millimetre and pixel internals stay consistent",
  "With a sensor size, reading fmm/cmm, writing them back leaves f/c unchanged; writing fmm then reading returns the written value; resize leaves fmm and cmm unchanged when the aspect ratio is preserved exactly.",
  "every camera with non-zero sensor and image size", "Unit conversions over all values and histories.",
  *a(C, "Camera.fmm", "Camera.cmm", "Camera.resize"))
p("C18", "Resizing is history independent",
  "After any sequence of resize calls the camera equals the camera after only the last one: size is computed from the original image size, f and c keep their ratio to the image size, and resize(1) restores the original imgsz, f and c; R, position and distortion are never changed.",
  "every camera and every finite history of resize calls with positive resulting sizes", "Histories of unbounded length; rounding of the size at each step.",
  *a(C, "Camera.resize", "Camera.reset"), *a(H, "get_scale_from_size"))
p("C19", "One-parameter undistortion is exact",
  "For a camera with only k[0] non-zero, undistort followed by distort returns the original point wherever the closed form returns a real root, and for k[0] > 0 every point has exactly one undistorted position.",
  "every k1 and every normalized image point", "Root selection of a cubic over a continuum.",
  *a(C, "Camera._undistort_k1", "Camera._distort"))
p("C20", "Iterative undistortion only returns solutions when it has converged",
  "If an iteration of the Oulu scheme leaves a point unchanged then distorting that point gives the observed point; conversely a true undistorted point is a fixed point; with no distortion it returns its input.",
  "every distortion, point where its radial factor is not zero, and iteration count", "Fixed-point characterisation over a continuum.", *a(C, "Camera._undistort_oulu"))
p("C21", "Camera.rasterize accepts every in-frame point",
  "Camera.rasterize never fails on finite points: in-frame points are averaged in their pixel and others ignored.",
  "every point set", "The image border is measure-zero: random tests never hit it.", *a(C, "Camera.rasterize", "Camera.inframe"), *a(H, "rasterize_points"))
p("C22", "Grid indices and coordinates are inverse",
  "For a grid with any axis directions, rowcol_to_xy of a valid cell lies inside the grid and xy_to_rowcol returns that same cell; rowcol_to_idx/idx_to_rowcol and xyz_to_uv/uv_to_xyz are mutually inverse.",
  "every grid size, limits (ascending or descending) and cell", "All sizes, orientations and cells.",
  *a(R, "Grid.rowcol_to_xy", "Grid.xy_to_rowcol", "Grid.rowcol_to_idx", "Grid.idx_to_rowcol", "Grid.xyz_to_uv", "Grid.uv_to_xyz"))
p("C23", "Snapping is to the nearest cell centre (or edge) inside the grid",
  "snap_xy(xy, centers=True) of an in-bounds point is a cell centre of the grid, at most half a cell away along each axis, and xy_to_rowcol is the cell of that centre; every in-bounds point including the outer border gets a valid row and column.",
  "every grid and every in-bounds point", "Ties at cell edges and the outer border are exceptional points in a continuum.",
  *a(R, "Grid.snap_xy", "Grid.xy_to_rowcol", "Grid.inbounds_xy"))
p("C24", "crop_extent returns the smallest cell window covering the requested box",
  "crop_extent gives row/column ranges and limits such that the window is aligned with the grid, covers the intersection of the request with the grid, and no smaller aligned window does; it raises when they do not overlap.",
  "every grid orientation and every requested box", "Alignment and minimality over all boxes.", *a(R, "Grid.crop_extent", "Grid.snap_box"))
p("C25", "Tiles partition the grid",
  "tile_indices without overlap returns slices that cover every cell exactly once for any grid and tile size; with overlap every tile is extended by at most `overlap` cells per side and never reaches outside the grid.",
  "every grid size, tile size and overlap", "Rounding of the number of tiles over all sizes.", *a(R, "Grid.tile_indices"))
p("C26", "Grid coordinate caches never go stale",
  "After any sequence of reads and writes (x, X, y, Y, xlim, ylim, shift, resize, size), x, y, X, Y equal the values computed from the current limits and size.",
  "every finite history of public operations on a grid", "Staleness needs a particular order of reads and writes; histories are unbounded.",
  *a(R, "Grid.x", "Grid.y", "Grid.X", "Grid.Y", "Grid.xlim", "Grid.ylim", "Grid.resize", "Grid._shift_xy"))
p("C27", "Raster.shift moves the raster by exactly (dx, dy, dz)",
  "After Raster.shift(dx, dy, dz) the limits, coordinate vectors, array and interpolated samples are those of the raster translated once by (dx, dy, dz), whatever was cached before.",
  "every raster, every cache state and every shift", "The outcome depends on hidden aliasing between caches.",
  *a(R, "Raster.shift", "Raster.Zf", "Grid._shift_xy"))
p("C28", "data_extent is the tight window of data",
  "data_extent covers every non-missing cell and each of its four borders contains a non-missing cell.",
  "every array", "Tightness over all masks.", *a(R, "Raster.data_extent", "Raster.crop_to_data"))
p("C29", "Raster interpolation in time interpolates",
  "RasterInterpolant returns the stored raster at stored positions (method linear), and between two neighbours a value between theirs, affine in position; nearest returns a raster at minimal distance; extrapolation follows the documented mode.",
  "every sorted set of means and every query", "Continuum of query positions and cell values.", *a(R, "RasterInterpolant.__call__", "RasterInterpolant.nearest", "RasterInterpolant._interpolate"))
p("C30", "Converters to other camera formats are exact when the models coincide",
  "Camera -> Agisoft/OpenCV/Matlab/PhotoModeler -> projection gives the same image coordinates for every normalized point whenever the target model can represent the camera (Agisoft, Matlab: no k4-k6; OpenCV: always; PhotoModeler: square pixels, no distortion), and the conversion back recovers the camera.",
  "every camera in the stated class and every normalized camera point", "Functional equality over a continuum of points and parameters.",
  *a(V + "cameras/agisoft.py", "Agisoft"), *a(V + "cameras/opencv.py", "OpenCV"), *a(V + "cameras/matlab.py", "Matlab"), *a(V + "cameras/photomodeler.py", "PhotoModeler"))
p("C31", "Particle resampling always draws existing particles",
  "For every resampling method, every random draw and every weight vector with positive sum, exactly n indices in [0, n) are drawn, systematic and stratified draws are sorted, and afterwards particles and weights are those of the drawn indices.",
  "every n, weights and random numbers", "Random draws cannot be enumerated; boundary draws have probability zero in tests.", *a(T + "tracker.py", "Tracker.resample_particles"))
p("C32", "Systematic resampling respects the weights",
  "With systematic resampling particle i is drawn either floor(n*w_i) or ceil(n*w_i) times, for every random offset; with stratified resampling within one of it on both sides (at most 2 off); a particle with zero weight is never drawn.",
  "every n, normalized weights and random offset", "A statement about every random draw, not about the average.", *a(T + "tracker.py", "Tracker.resample_particles"))
p("C33", "Residual resampling keeps the integer part of the expected copies",
  "With residual resampling particle i is drawn at least floor(n*w_i) times, and the remaining draws follow the fractional parts n*w_i - floor(n*w_i).",
  "every n, normalized weights and random numbers", "The distribution of the remaining draws cannot be observed by deterministic tests.", *a(T + "tracker.py", "Tracker.resample_particles"))
p("C34", "parse_datetimes returns matched, strictly ordered times",
  "Tracker.parse_datetimes either raises or returns strictly monotone datetimes, a subset of the requested ones, each within maxdt of an image of an observer, with at least two elements.",
  "every set of observers, requested datetimes and tolerance", "Unbounded sequences and observers.", *a(T + "tracker.py", "Tracker.parse_datetimes"))
p("C35", "match_datetimes assigns each time the nearest image or none",
  "For each time and observer the matched image index is one with minimal time distance, and None exactly when that distance exceeds maxdt.",
  "every observer, datetimes and maxdt", "Minimality over all images.", *a(T + "tracker.py", "Tracker.match_datetimes"), *a(T + "observer.py", "Observer.index"))
p("C36", "Tracks are defined exactly on their observed window",
  "For each track, means and covariances are non-NaN exactly between the first and last time at which one of its observers has an image, the first mean is that of the initial particles at the first such time, and each step advances by the time difference and then weights and resamples.",
  "every observation mask, number of times and observers", "Histories of filter steps of unbounded length.", *a(T + "tracker.py", "Tracker.track"))
p("C37", "Track results do not depend on scheduling, and one failing track does not affect others",
  "Track k's result is a function of its own inputs and random numbers; for any order in which workers finish, results are in input order, and with two or more tracks an error in one track is recorded for it and leaves all others unchanged.",
  "every number of tracks, schedule and set of failing tracks", "Schedules cannot be enumerated by tests.", *a(T + "tracker.py", "Tracker.track"), *a("src/glimpse/config.py", "backend"))
p("C38", "Cartesian motion integrates exactly",
  "evolve_particles advances x by v*t + a*t²/2 and v by a*t; with zero acceleration, evolving by t1 then t2 equals evolving by t1+t2 and evolving by t then -t is the identity; cylindrical evolution with zero acceleration preserves speed.",
  "every particle state, time step and acceleration draw", "Real-valued states and steps.", *a(T + "motion.py", "CartesianMotion.evolve_particles", "CylindricalMotion.evolve_particles"))
p("C39", "Tangent motion stays on the surface",
  "With zero slope noise a tangent-motion particle keeps its height above the DEM through any sequence of evolutions.",
  "every DEM, particle and sequence of time steps", "Unbounded histories.", *a(T + "motion.py", "TangentCartesianMotion.evolve_particles", "TangentCylindricalMotion.evolve_particles"))
p("C40", "Observer.split covers all images",
  "Splitting an observer at given breaks returns observers whose images, in order, cover every image of the original within the breaks, sharing exactly the requested number of overlapping images.",
  "every observer and list of breaks", "All positions of breaks relative to images.", *a(T + "observer.py", "Observer.split", "Observer.subset"))
p("C41", "SVG coordinates survive a write/read round trip",
  "For every list of points, writing as polyline, polygon, path, line, rect or circle and reading back gives the same points (with a closing point for closed shapes).",
  "every list of coordinates", "Strings of unbounded length, exponents and signs.", *a(S, "Points", "COORD_REGEX"))
p("C42", "SVG transforms compose",
  "Applying a transform attribute to points equals applying the matrix product of its parts; translate/scale/matrix agree with their matrix forms; nested groups compose in the order given by the SVG standard.",
  "every transform list and point", "Lists of unbounded length.", *a(S, "Points.transform", "Points.matrix", "Points.scale", "Points.translate", "read"))
p("C43", "Image.read returns the same pixels whether cached or not",
  "For any history of read calls and camera resizes, Image.read(box) equals the requested window of the image at the camera's current size, independent of what has been cached.",
  "every history of reads with any box and cache flag interleaved with resizes", "Cache state depends on unbounded histories.", *a(I, "Image.read"))
p("C44", "Camera parameter selection selects exactly what is named",
  "Cameras.parse_params marks exactly the named elements of the named attributes, with their bounds; True selects all elements of the attribute, None or False selects none.",
  "every parameter dictionary", "All combinations of selections, bounds and attributes.", *a(O, "Cameras.parse_params"))
p("C45", "Fitting parameters land on the right cameras and can be undone",
  "set_cameras writes each group value to every camera of the group and each camera value to its camera and changes nothing else; reset_cameras restores the last saved state; predicted(params) leaves the cameras as they were.",
  "every number of cameras, groups, masks and every history", "Index arithmetic over all layouts; histories.", *a(O, "Cameras.set_cameras", "Cameras.reset_cameras", "Cameras.predicted", "Cameras.update_params"))
p("C46", "The Jacobian sparsity pattern is sound",
  "If a parameter can influence the residuals of a control, the sparsity matrix has a one at that (residual, parameter) position.",
  "every set of cameras, groups, masks and controls", "Soundness quantifies over all layouts; an unsound pattern silently gives wrong fits.", *a(O, "Cameras._build_sparsity", "Cameras.set_cameras"))
p("C47", "ransac returns a consensus that meets its criteria",
  "When ransac returns, params come from a fit to a sample with its inliers (more than min_inliers beyond the sample), minimal in mean error among valid samples, and the returned inliers are exactly the observations with error <= max_error; otherwise it raises; samples are pairwise distinct n-subsets.",
  "every model and every sequence of random samples", "Random sampling histories.", *a(O, "ransac", "_ransac_samples"))
p("C48", "Filtering matches keeps all their arrays aligned",
  "After filter, the k-th kept point pair, its weight and its prediction belong to the same original match, exactly those meeting the criteria are kept in order, and at most n_best are kept by descending weight.",
  "every match set, type and filter arguments", "All selections; parallel arrays can silently get out of step.", *a(O, "Matches.filter", "RotationMatches", "RotationMatchesXY"))
p("C49", "Dropping images keeps the remaining matches attached to the right images",
  "After drop_images, every remaining match refers to the same two images as before, no match involves a dropped image, and every remaining image has a match.",
  "every match matrix and image set", "Re-indexing over all sparse patterns.", *a(O, "KeypointMatcher.drop_images"))
p("C50", "build_matches matches exactly the documented pairs",
  "The pairs matched are exactly the (i, j), i < j, with time separation <= maxdt or j - i in seq (all pairs if neither is given), and when imgs is given, those with i or j in imgs.",
  "every set of datetimes, maxdt, seq and imgs", "All combinations of selectors.", *a(O, "KeypointMatcher.build_matches"))
p("C51", "Keypoint building can be interrupted and resumed",
  "After build_keypoints with a path every image has a keypoint file, a second run does no detection, a run interrupted between files and restarted gives the same files, and overwrite=True recomputes every image.",
  "every set of existing files and cached keypoints, every crash point, every flag", "Crash points and prior states.", *a(O, "KeypointMatcher.build_keypoints"))
p("C52", "Histogram matching is monotone and bounded",
  "compute_cdf returns sorted unique values with a non-decreasing cumulative fraction ending at 1; match_cdf preserves shape and the order of pixel values and returns only values within the range of the target.",
  "every non-empty array", "All arrays and targets.", *a(H, "compute_cdf", "match_cdf"))
p("C53", "clip_polyline_box keeps exactly the in-box runs, extended to the box boundary",
  "clip_polyline_box returns one piece per maximal run of polyline vertices inside the box, in order; every vertex of a piece is in the box; the piece starts where its incoming edge enters the box and ends where its outgoing edge leaves it.",
  "every polyline and box of any dimension, every position of vertices relative to the box", "Run structure and edge geometry over all polylines.",
  *a(H, "clip_polyline_box", "intersect_edge_box", "boolean_split"))
p("C54", "ObserverCameras.fit optimizes with the gradient of its objective",
  "The gradient that ObserverCameras.fit hands to the optimizer is, for every camera angle, the derivative of the objective it hands over (wherever the objective is differentiable).",
  "every pair of view directions and every matched pair of points", "Derivatives quantify over a continuum; a wrong gradient still lets small examples converge.",
  *a(O, "ObserverCameras.fit", "RotationMatchesXYZ.predicted"))
p("C55", "Spherical coordinates are exact and invertible",
  "spherical_to_xyz gives the direction with the documented azimuth and altitude, at the given distance from the camera; xyz_to_spherical and spherical_to_xyz are inverse, with azimuth in [0, 360) and altitude in [-90, 90].",
  "every world point other than the camera position; every azimuth, altitude and positive distance", "Continuum of angles and quadrants.",
  *a("src/glimpse/camera.py", "Camera.spherical_to_xyz", "Camera.xyz_to_spherical"))
RA = "src/glimpse/raster.py"
p("C56", "Windows of a raster never move data",
  "crop_to_data, crop and indexing of a raster return cells with the content and the position they had before; crop_to_data keeps every cell with data and has data on all four borders; crop keeps every cell whose centre is within the bounds and blanks exactly the values outside zlim; indexing selects the cells numpy would; each raises exactly when nothing is selected.",
  "every raster (both axis orientations), bounds, integer and slice indices", "All windows, orientations and index forms.",
  *a(RA, "Raster.crop", "Raster.crop_to_data", "Raster.__getitem__"))
p("C57", "Raster.read does not depend on the cache",
  "For any history of read calls, array accesses and cache clearings, Raster.read(box) returns the pixels of that box of the opened window, and array returns all of them.",
  "every file, window, history of reads with any box and cache flag", "Histories are unbounded.", *a(RA, "Raster.read", "Raster.array"))
p("C58", "RasterInterpolant resamples to the target cell size",
  "Called with d, RasterInterpolant uses rasters with cells of size d (the largest cell size of the two rasters by default).",
  "every grid and target size", "All sizes.", *a(RA, "RasterInterpolant._parse_as_raster", "Raster.resize"))
p("C59", "Resampling preserves the weighted mean",
  "When every particle's expected number of copies is whole, resampling changes only the representation of the distribution: the tracker's weighted mean of the particles is the same before and after.",
  "every set of particles and weights, every random draw", "All weights and random numbers.", *a(T + "tracker.py", "Tracker.resample_particles", "Tracker.particle_mean"))
p("C60", "Template and search tiles are aligned to the pixel",
  "A template has exactly the requested size, lies in the image, and its recorded offset is within half a pixel; the search box holds the template around every particle, the error image has more cells than the spline degree, sampling at particles never fails, and a cell of the error image is placed exactly where that displacement of the template moves the tracked point; the image is skipped exactly when the search box reaches out of it.",
  "every projected mean, set of particles, template size, image size and spline degree", "Rounding cases over a continuum of positions.",
  *a(T + "tracker.py", "Tracker.initialize_template", "Tracker.compute_observer_log_likelihoods"), *a(T + "observer.py", "Observer.tile_box", "Observer.sample_tile"))
p("C61","SVG paths are read as the standard says","Reading a path gives the vertices that the SVG standard gives for its commands: absolute and relative moves, lines, horizontal and vertical lines, end points of curves and arcs, and closings back to the start of the current subpath.","every sequence of path commands with any number of parameters","Unbounded command sequences, absolute and relative mixes, several subpaths.",*a(S,"Points.from_element","Points","COORD_REGEX"))
p("C62","svg.read returns every shape once, in image coordinates","read returns the vertices of every supported element exactly once, under its name in the dictionary of its group (a list if the name repeats), transformed and expressed in the frame in which the last image spans (0, 0) to imgsz (or its own size); imgsz without an image raises.","every document tree, transforms, image position and size","Trees of unbounded depth; repeated names; any image placement.",*a(S,"read"))
p("C63","Match files hold the matches of their pair","With a path, build_matches stores each pair's matches in its own file; a second run without overwrite computes nothing and gives the same matches; overwrite recomputes all.","every set of image names, pairs and existing files","File name collisions depend on all pairs of names.",*a(O,"KeypointMatcher.build_matches"))
p("C64","Match counts and breaks","matches_per_image and images_per_image count every match for exactly its two images; match_breaks lists exactly the images (but the last) with no match to a later image, or with fewer than min_matches.","every match matrix","All sparse patterns.",*a(O,"KeypointMatcher.matches_per_image","KeypointMatcher.images_per_image","KeypointMatcher.match_breaks"))
p("C65","Fitting parameters match the cameras they are applied to","Cameras.update_params gives the optimizer one parameter for every camera or group element being fitted, in the order in which set_cameras applies values, named uniquely after its owner and element, starting from its current value (mean over a group) and with its bounds; applying the initial values changes no camera when grouped cameras agree; default group bounds are the intersection of the cameras' bounds.","every number of cameras, groups, masks, camera state and bounds","All masks, groupings and states.",*a(O,"Cameras.update_params","Cameras._lmfit_labels","Cameras._initialize_bounds"))
p("C66","Fitting leaves cameras as it found them","Cameras.fit returns fitted parameters without changing any camera: after it returns or raises, every camera has the vector it had before the call.","every optimizer behaviour (any sequence of evaluations), residual function, camera state and list of iterations","All interaction sequences with the optimizer and all failure points.",*a(O,"Cameras.fit","Cameras.residuals","Cameras.predicted","Cameras.reset_cameras"))
p("C67","Control weights are relative","Weights given to Cameras keep their ratios and are scaled to a mean of one: multiplying all by a constant changes nothing and equal weights count as no weights.","every list of weights","All weight vectors.",*a(O,"Cameras.weights"))
p("C68","Sparsity rows follow the residual index","When fitting a subset of the observations, the rows of the sparsity matrix given to the optimizer are those of the selected residuals in the same order.","every list of residuals and every index (integers, negative integers, booleans)","All indices.",*a(O,"Cameras.fit","Cameras.residuals"))
p("C69","Controls keep their position relative to the image","Points, Lines and Matches given image coordinates at some image size keep the same relative position in the image: after any history of resizing cameras and controls (together or separately, including calls that raise), a resized control has its original coordinates times the ratio of the current to the original image size, and until it is itself resized its coordinates do not change.","every camera resize behaviour, number of controls sharing cameras and arrays, and history of resizes","All histories of resizing and sharing.",*a(O,"Points.resize","Points._scale","Lines._scale","Matches.resize","Matches.to_type"))
p("C70","Controls never change the caller's arrays","Making controls from an array and resizing cameras and controls never changes the array that was passed in.","every history of making and resizing controls","All aliasing patterns and histories.",*a(O,"Points.__init__","Lines.__init__","Matches.__init__","Points.resize","Lines._scale","Matches.resize"))
p("C71","Lines are compared with the nearest projected point","Lines.predicted returns for every observed image point the nearest point of the world lines as projected (in front of the camera, clipped to the view and sampled at the target density), and raises if the world lines are ray directions and the camera has moved.","every set of image points and projected world lines","All point sets.",*a(O,"Lines.predicted","Lines._xyzs_to_uvs","Points._test_position"))
p("C72","Points at distances along a line","interpolate_line returns the points at the given distances along a line (or n evenly-spaced points from its start to its end, or points at a nominal spacing), raises exactly if a distance is outside the line, or uses the fill values before its start and beyond its end.","every line with monotonic distances in any number of dimensions and all requested distances","All lines and distances.",*a(H,"interpolate_line"))
p("C73","Exif values are those stored","Exif properties return what the tags store: exposure, aperture and focal length are the exact quotient of the stored rational (None if absent or zero, ZeroDivisionError for a zero denominator), the image size and film speed the stored integers, the capture time the stored date with the sub-second digits as a decimal fraction of a second; parse_tag returns every other value as stored.","every tag dictionary, every rational, every valid date and every list of sub-second digits","dates, digits and rationals are unbounded families; tests read one file",*a("src/glimpse/exif.py","Exif.parse_tag","Exif.datetime","Exif.imgsz","Exif.iso","Exif.exposure","Exif.aperture","Exif.fmm"))
p("C74","Exif.dump writes every tag under its code","dump succeeds exactly when every group is valid and every tag name has a code in its group, and what it writes has, group by group and tag by tag in order, the stored value under the tag's code: nothing is lost, duplicated or moved to another tag.","every tag dictionary and every table of codes","the keys are replaced in place one by one, for every size of dictionary",*a("src/glimpse/exif.py","Exif.dump"))
p("C75","Track endpoints","Tracks.endpoints returns which of the tracks have a valid datetime and, for these in order, the first and the last valid datetime; with no datetimes it raises. success says for each track whether no error was recorded.","every number of tracks and datetimes and every pattern of missing values","patterns of missing values are exponential in number",*a("src/glimpse/track/tracks.py","Tracks.endpoints","Tracks.success"))
p("C76","Keypoint matches","match_keypoints returns the coordinates of pairs of keypoints, in the order of the first image: each pair is a nearest match by descriptor distance; with cross_check also nearest in reverse; with max_ratio its distance is less than this multiple of the second best; with max_distance its coordinates are nearer than this; every keypoint whose unique best match passes the tests is returned; with masks only allowed pairs are considered; too few keypoints give no matches.","every list of keypoints, matrix of descriptor distances and arguments","distances, ties and combinations of tests are unbounded",*a(O,"match_keypoints"))
p("C77","Circles of pixels","bresenham_circle returns pixels of a connected closed path all within one pixel of the circle of the given centre and radius; fill_circle sets to the value exactly the pixels of the raster inside the circle and changes no others.","every centre, radius, raster and value","every radius gives different pixels",*a(H,"bresenham_circle")+a(RA,"Raster.fill_circle"))
p("C78","Sampling at points","Raster.sample(xy) returns for each point the bilinear average of the cells around it (order 1) or the value of the nearest cell (order 0), whatever the direction of the axes and also if the raster has a single row or column: exact at cell centres and for planes. With bounds_error it raises exactly if a point is outside; else points outside get the fill value and no other sample depends on it; without a fill value they are extrapolated.","every raster, list of points, order 0 or 1, bounds_error and fill_value","points and rasters are unbounded and interpolation is piecewise",*a(RA,"Raster.sample","Raster.Zf","Raster._sample_1d"))
p("C79","Sampling on a grid","Raster.sample(xy, grid=True) returns an array with a row for each y and a column for each x that holds the value of the surface there, missing only near missing cells; it leaves the raster unchanged whether it returns or raises; bounds and fill values are as for points.","every raster with missing cells, coordinate vectors, order, bounds_error and fill_value","error paths and sizes are many; missing cells are changed temporarily",*a(RA,"Raster.sample","Raster._sample_grid"))
p("C80","Gradient","Raster.gradient returns the derivatives by x and by y in map units: exact in every cell for planes and inside for quadratic surfaces, whatever the direction of the axes and the cell size.","every grid and surface","signs depend on the directions of the axes and the borders use other formulas",*a(RA,"Raster.gradient"))
p("C81","Points to raster","Raster.rasterize(xy, values) returns an array of the shape of the raster where each pixel holds the mean of the values of the points inside it and pixels without points are missing; points outside are ignored.","every raster, list of points and values","cells, points and axis directions are unbounded and points on shared edges must fall in exactly one cell",*a(RA,"Raster.rasterize"))
p("C82","Horizon","Raster.horizon(origin, headings) returns, for each heading, the point along the line of cells from the origin to the border of the raster that is seen at the highest angle, unless nothing is visible behind it, and splits the points only where headings have none, joining around the circle.","every raster with missing cells, origin, headings and correction","lines of cells are of any length in any direction; missing cells and empty headings combine",*a(RA,"Raster.horizon"))
p("C83","Viewshed","Raster.viewshed(origin) marks as visible the cells that are not hidden by nearer terrain: a cell seen higher than everything nearer is visible (so, from above flat ground, every cell), a cell behind a closed ring that appears at least as high is hidden, and missing cells are not visible.","every raster with missing cells, viewer inside or outside","terrain is arbitrary; rings of cells grow without bound and the highest angles are carried from ring to ring",*a(RA,"Raster.viewshed"))
p("C84","Undistortion by regula falsi","Camera undistortion with method='regulafalsi' returns, for every distorted camera coordinate, a coordinate whose distortion is the given one, within the tolerance, or the best approximation after the given number of iterations.","every camera, list of coordinates, number of iterations and tolerance","iterates depend on real coefficients and coordinates; points of one array share the loop and stop at different iterations",*a(C,"Camera._undistort_regulafalsi","Camera._undistort"))
p("C85","Undistortion by lookup table","Camera undistortion with method='lookup' returns, for every coordinate of the image, the coordinate that is distorted to it, exactly at the coordinates of the table.","every camera, table density and coordinate in the image","table size and camera coefficients are unbounded",*a(C,"Camera._undistort_lookup","Camera._undistort"))
p("C86","Whether distortion is reversible","Camera.reversible() is true if and only if no two points of the image are distorted to the same coordinate.","every camera","coefficients are real and the points of the image infinitely many",*a(C,"Camera.reversible"))
p("C87","Image grids and image edges","Camera.grid(step=1) gives exactly the pixel centres, each once; Camera.edges(step) gives points on the four sides of the image in order around it, every corner once, evenly spaced by about the step.","every image size and step","sizes and steps are unbounded; steps need not divide the sides",*a(C,"Camera.grid","Camera.edges"))
p("C88","Viewed volume","Camera.viewbox(depth) contains every point the camera sees up to that distance and is the smallest box with the camera and the ends of the rays through the image edges; Camera.viewpoly(depth) is a triangle from the camera to points seen at the left and right image edges at that depth.","every camera, pixel and distance","all pixels and all orientations; the box is computed from edges only",*a(C,"Camera.viewbox","Camera.viewpoly"))
p("C89","Making a camera","Camera(...) refuses, with ValueError, exactly lengths in mm without a sensor size, a length given both in pixels and in mm, a missing focal length and image sizes that are not integers; otherwise each attribute has the values given, filled up as documented (zeros for position, direction, principal point and distortion; the same value for both directions for image size, focal length and sensor size), and lengths given in mm are read back in mm unchanged.","every combination of arguments and lengths of lists","the combinations of optional arguments, list lengths and number types are too many to enumerate",*a(C,"Camera.__init__","Camera.fmm","Camera.cmm","Camera.imgsz","Camera.f","Camera.c"))
p("C90","Cameras in JSON","Camera.from_json reads what Camera.to_json wrote: attributes written are the same in the new camera, attributes not written have their defaults, and keyword arguments override the file.","every camera and list of attributes","cameras and sets of attributes are unbounded; missing values and dictionaries need care",*a(C,"Camera.from_json","Camera.to_json","Camera.to_dict"))
p("C91","JSON with arrays on one line","helpers.write_json(obj, flat_arrays=True) returns the JSON of the same object as without flat_arrays, with each array on one line.","every JSON text and indent","a regular expression is applied to texts of any length and nesting",*a(H,"write_json"))
p("C92","Names of files","helpers.strip_path returns the last component of the path without its extensions, all or the given number of them.","every path and number of extensions","paths and numbers of dots are unbounded",*a(H,"strip_path"))
p("C93","Simulated image from a DEM","Camera.project_dem returns an image of imgsz pixels in which every pixel holds the mean of the values of exactly the selected DEM cells that project into it (NaN if none), whatever the tile size, the overlap and the number of processes; wrongly shaped inputs raise ValueError.","all DEMs, masks, values, tile sizes, overlaps, arrival orders of tiles and image sizes","the result depends on how cells fall on tiles and pixels and on the order in which worker processes finish; a test sees one tiling and one order",*a(C,"Camera.project_dem")+a(R,"Grid.tile_indices")+a(H,"rasterize_points"))
p("C94","Tracking tiles","The tile that Tracker extracts for tracking has mean 0 and standard deviation 1 before high-pass filtering and does not change with the brightness or (positive) contrast of the image; matching to the histogram of the template keeps the order of pixel values; Observer.shift_tile refuses shifts of more than half a pixel and otherwise interpolates the tile, leaving its argument alone.","all arrays of real numbers, all positive gains and offsets, all low-pass filters and histogram functions, all shifts","The invariance is over all images and all affine changes of brightness.",*a(H,"normalize","match_cdf")+a(T+"tracker.py","Tracker.extract_tile")+a(T+"observer.py","Observer.shift_tile","Observer.extract_tile"))
p("C95","Masked filters","gaussian_filter and maximum_filter with a mask compute the weighted mean (the maximum) over the included cells only, whatever the values in excluded cells; with fill, excluded cells are filled from included ones, otherwise they are unchanged; Raster.fill_crevasses keeps values between the minimum and maximum of the raster.","all arrays, masks, kernels with non-negative weights, windows and data types","For all masks and all values in the excluded cells.",*a(H,"gaussian_filter","maximum_filter")+a(R,"Raster.fill_crevasses"))
p("C96","Writing SVG","svg.write indents a copy of the document: tags, attributes, texts and order of elements are kept, each element is on its own line, indented by its depth; the builders svg, g, image and path merge attributes and children as given and the root always has the SVG namespaces.","all documents (of any depth and breadth), all indents, all attribute dictionaries","By induction on documents of any depth.",*a(S,"write","_indent_etree","svg","g","image","path"))
p("C97","SVG namespaces","Reading with namespaces stripped turns every qualified tag and attribute name into its local name and changes nothing else.","all documents, names and attribute values","By induction on documents of any depth, for all names.",*a(S,"_strip_etree_namespaces","read"))
p("C98","Checks of a camera model","optimize.Cameras is accepted exactly when every camera and group has valid parameters, groups refer to cameras, some control refers to a camera, groups with f or c have images of one size, no two groups set the same element of the same camera, and every camera with parameters is in a control; so every fitting parameter is applied and affects some observation. Controls of other cameras are dropped.","all lists of cameras, controls, parameter dictionaries and groups","The condition is an equivalence over all combinations of cameras, controls and groups.",*a(O,"Cameras.__init__","Cameras._as_lists","Cameras.prune_controls","Cameras._test","Cameras.update_params"))
p("C99","Scales and default bounds of parameters","Cameras.camera_scales gives for each camera parameter the positive change that moves an image point by one pixel, for position by the mean distance to world points; Cameras.scales has one scale per fitting parameter, in their order; with the default bounds a fit starts from the cameras as they are.","all cameras, world points, points in view and parameter layouts","Real-valued functions of 20 camera parameters and any number of points.",*a(O,"Cameras.camera_scales","Cameras.camera_bounds","Cameras._build_scales"))
p("C100","Camera converters: points and optimization","Converter(xcam, cam, uv=n) compares the cameras at about n points, the centres of equal cells that tile the image, and refuses only cameras of different image sizes; optimize_cam and optimize_xcam set exactly the selected parameters (True: all, an index, or indices) to what the optimizer returns and change nothing else, however many times the optimizer evaluates the residuals.","all image sizes, numbers of points, parameter selections and optimizers (arbitrary adaptive sequences of evaluations)","The number of points and every sequence of evaluations of an optimizer cannot be enumerated; a leak of one evaluation into the next would show only for particular sequences.",*a(V+"converter.py","Converter.__init__","Converter._grid","Converter.optimize_cam","Converter.optimize_xcam"))
p("C101","Readers of calibration files","Agisoft.from_xml, OpenCV.from_xml, Matlab.from_report and PhotoModeler.from_report return the camera with the parameters that are written in the file (values or, with sigmas, standard deviations), and refuse files that are not of their kind.","all files: all document trees, texts around and between the entries, and numerals","Files are arbitrary texts; regular expressions with greedy repetitions can match in the wrong place for some texts only.",*a(V+"cameras/agisoft.py","Agisoft.from_xml")+a(V+"cameras/opencv.py","OpenCV.from_xml")+a(V+"cameras/matlab.py","Matlab.from_report")+a(V+"cameras/photomodeler.py","PhotoModeler.from_report"))
p("C102","Polynomial model: exact points are recovered, with outliers by ransac","Polynomial.predict evaluates the polynomial with coefficients from highest to lowest degree, errors are distances from the ordinates, and fitting points that lie on a polynomial of the degree (more distinct abscissae than the degree) gives exactly that polynomial. With ransac, if the points in a set I lie on a polynomial, all others are further than max_error from it, a sample inside I was drawn and no other polynomial passes through more than n + min_inliers points, then exactly that polynomial and the set I are returned, wherever the other points are.","every list of points, degree, sample size, sequence of shuffles and least-squares solver","Ranges over all outlier positions and all sampling histories.",*a(O,"Polynomial.predict","Polynomial.errors","Polynomial.fit","ransac"))
p("C103","Rasters written to files and opened again","A raster written with Raster.write and opened with Raster.open has the same limits, size, coordinate reference system and cell values; opening with a crop gives exactly the cells of the file that cover the request, at their places, with no-data values as NaN; a target cell size gives the fewest cells not larger than it; NaN cells are written as the nan value; a write that raises leaves files as they were; Grid.read gives the grid that Raster.open has; copies keep the coordinate reference system.","every raster, path, driver table, no-data value, crop request, cell size and file system state","Grids of any orientation, all crop requests, and failure points inside write.",*a(RA,"Raster.write","Raster.open","Grid.read","Raster.copy")+a(H,"write_raster","gdal_driver_from_path","crs_to_wkt"))
p("C104","Residuals follow the index, and the optimizer gets arguments of the right size","The observations, predictions and residuals of a model of cameras for an index are the rows at that index of those of all its controls one after another, with one control as with several; residuals are predicted minus observed, times the weight of the observation; errors are their lengths, and the error of an observation does not depend on which others are selected. The optimizer is given one scale for each parameter and a sparsity matrix whose rows are those of the selected residuals, in the final run as in the iterations before it.","for every list of controls, weights, parameters and index (all, integers, booleans)","Mistakes in the order or number of rows only appear with several controls of different sizes, with indices, weights and iterations together; every combination cannot be tested.",*a(O,"Cameras.observed","Cameras.predicted","Cameras.residuals","Cameras.errors","Cameras.fit"))
p("C105","Making an image","An image made with a camera, or with image size and focal length (in pixels, or in mm with the sensor size), and with a time does not read the metadata of its file. Otherwise metadata (given, or else read) supplies image size, focal length and sensor size of the camera and the time, and what the caller gives overrides it. The sensor size is found by make and model, whatever blanks surround them.","for every dictionary of camera arguments or camera, time, metadata (values may be missing or raise), and file","The result depends on which of eleven arguments are given together and on which values the metadata holds; tests cover a few combinations.",*a(I,"Image.__init__")+a("src/glimpse/exif.py","Exif.make","Exif.model","Exif.sensorsz"))
p("C106","Image projected into another camera","Projecting an image into a camera at the same position gives each pixel of that camera the value of the image in the same direction: the bilinear interpolation of the pixels around, or the value of the pixel that is met; nothing where the image does not reach. Into its own camera an image is unchanged. A camera at another position is refused.","for every image (any number of bands), pair of cameras, method, and pixel","The values depend on two cameras and every pixel of an image; a test compares a few projected images with others made by the same code.",*a(I,"Image.project"))
p("C107","Motion models on their surfaces","A motion model made with a surface (a raster or a number) and its standard deviation (a raster, a number or, by default, none) starts the number of particles asked for, each at the mean position plus its own random offset, at the height of the surface there plus a random multiple of the standard deviation there, with the velocity described; tangent motion keeps each particle's height above the surface up to a random slope; likelihoods use each particle's own height; positions outside of a raster raise ValueError.","every class of motion, surface, number of particles and random numbers","which particles fall outside of a raster or between its cells depends on all random numbers; tests use one raster and one seed",*a(T+"motion.py","CartesianMotion.__init__","CartesianMotion.initialize_particles","CartesianMotion.compute_log_likelihoods","TangentCartesianMotion.evolve_particles","CylindricalMotion.__init__","TangentCylindricalMotion.__init__","Motion.initialize_particles")+a(R,"Raster.__init__","Grid._parse_limits"))
p("C108","Statistics of particles and tracks","The particle mean is the weighted mean and lies among the particles; the covariance matrix is symmetric, never negative, and its diagonal holds the squares of the standard deviations; only proportions of weights matter; tracks have the same positions, velocities and standard deviations whether covariances are returned or not, and can be returned with or without all particles.","all particles, weights and histories of any number of tracks","identities between different statistics must hold for every set of particles; tests compare one example",*a(T+"tracker.py","Tracker.particle_mean","Tracker.particle_covariance","Tracker.compute_particle_sigma","Tracker.track")+a(T+"tracks.py","Tracks.__init__","Tracks.xyz_sigma","Tracks.vxyz_sigma"))
p("C109","SVG shape elements are read and written faithfully","Reading a shape element (rect, line, polyline, polygon, path, circle-like points) uses only the attributes that define its shape: unknown tags raise, unrelated attributes change nothing, missing positions default to zero and a missing rectangle size raises. Writing points as an element and reading it back gives the same points.","every element, every attribute set and every point list","Tests read a few sample drawings; the claim is about every attribute set and list of points, including empty ones.",*a(S,"Points.from_element","Points.to_element"))
p("C110","Polygon masks mark exactly the cells whose centers are inside a polygon and outside every hole","polygons_to_mask(polygons, size, holes) has the shape of the image and is true at a cell exactly if the cell's center is inside of some polygon and of no hole; Raster.rasterize_polygons does the same in the coordinates of the raster, whatever the directions of its axes.","every list of polygons and holes (rings of any number of points, also self-intersecting), every size and every raster; centers that lie on no edge","A test checks one or two polygons on one grid; inside is a parity over all edges and must hold for every ring, cell and axis direction.",*a(H,"polygons_to_mask")+a(R,"Raster.rasterize_polygons"))
p("C111","Grids and rasters made from one another can be changed independently","An object obtained from another (a copy, the grid of a raster, a part of a raster by index, a raster made of an array, a raster resampled to a grid) can be shifted, written to and read without changing what is seen of the other: limits, coordinates and values.","every history of making and changing any number of grids and rasters","Whether two objects share memory depends on the whole history of how they were made; tests look at one object at a time.",*a(R,"Grid.copy","Raster.copy","Raster.grid","Raster.__getitem__","Raster.resample","Raster.shift","Grid._shift_xy","Grid._parse_limits"))
p("C112","Raster.resample puts the raster on the target grid","After Raster.resample(grid) the raster has the limits and the number of rows and columns of the grid, and each cell has the value of the interpolating surface of the old raster at the centre of that cell of the grid, missing where the surface is missing and filled where the centre is outside; a grid with a cell centre outside raises by default and changes nothing; resampling to the raster's own grid changes nothing; a resampling that raises leaves the raster as it was.","every raster (any number of rows and columns, either orientation, any pattern of missing cells), target grid, order, bounds_error and fill value","Grids of all sizes and orientations, and the temporary replacement of missing cells in the array.",*a(RA,"Raster.resample","Raster.sample","Raster._sample_grid"))
p("C113","An observer's tiles are the pixels of its images, cached or not","After any sequence of extract_tile, shift_tile, cache_images, clear_images and camera resizes, Observer.extract_tile(box, img) returns the pixels of that box of the image at its camera's size; a tile once extracted keeps its pixels; cache_images and clear_images act on exactly the images indexed (negative from the end) and raise before doing anything for an index out of range; tiles of a cached image need no file.","every number of images, files, camera sizes, cache flag, and history of operations","Arrays, tiles and cache share memory; all histories matter.",*a(T+"observer.py","Observer.extract_tile","Observer.shift_tile","Observer.cache_images","Observer.clear_images")+a(I,"Image.read"))
p("C114","Raster.hillshade lights the surface from the azimuth given","Raster.hillshade(azimuth, altitude) returns, for every cell, the illumination of the surface by a light at that compass azimuth and altitude: the cosine of the angle between the light and the normal of the surface there (which has the gradient of Raster.gradient), stretched over the raster to 0 to 1 and clipped, so a cell facing the light more is never darker than another. The orientation of the raster's rows does not matter. A flat raster is as bright as the sine of the altitude; a raster with one row or column raises an error.","all rasters without missing values of any size and orientation, all azimuths and altitudes","Which way is north depends on the sign of a cell size that two libraries each negate, and a wrong answer looks like a plausible shaded relief; tests compare no cell with the light's direction.",*a(RA,"Raster.hillshade"))
p("C115","Orienting the cameras of an observer: set, fit and reset","ObserverCameras.set_cameras(viewdirs) gives the camera of each image its direction and changes nothing else (fewer directions than images raise an error); after any history of set_cameras, fits (returning or raising), resets and changes by others, reset_cameras gives every camera the view direction it had when the object was made; a fit changes nothing but view directions of the observer's cameras and leaves them as they were before; the function it minimizes depends only on the directions tried (the documented objective: squared departure of the anchors from their directions and of matched rays from each other), so its result is what the optimizer makes of that objective.","every number of images, anchors and matches, every optimizer strategy (evaluations and results, or an exception), every history of operations on cameras shared with others","The optimizer's evaluations change the cameras while it runs; every history and strategy matters.",*a(O,"ObserverCameras.__init__","ObserverCameras.set_cameras","ObserverCameras.reset_cameras","ObserverCameras.fit"))
p("C116","The animation of a track shows every time with its own image, track and velocity","Tracks.animate shows, in increasing order, the selected times at which the track has a position (and, if asked for, an image and particles), but the last; each frame shows the image of its time, the track until then and the mean velocity as the displacement until the next time shown; no time to show raises an error.","every track (any number of times, any pattern of missing positions and images), every selection of frames, with or without images and particles","Gaps in the track shift positions against indices; every pattern of gaps matters.",*a(T+"tracks.py","Tracks.animate"))
p("C117","The animations of an observer show what is around the points","Observer.animate shows, for each image, the part of the image in a window of the requested size centered on the projected point (placed where it was read; white where the window is apart from the image) in axes centered on that point; Observer.track shows for the j-th frame the points until the j-th as that image sees them and a tile of the requested size around the j-th, and raises exactly if that tile reaches out of the image.","every image size, window size, point, image cache setting and sequence of frames","Windows relative to image borders form a continuum.",*a(T+"observer.py","Observer.animate","Observer.track"))
p("C118","Image.write writes the pixels of the image, and images read what was written","Image.write(path) writes the original pixels of the image's file to the path, Image.write(path, array) writes the array; no other file and no other image changes (without a driver for the path it raises and writes nothing). After any history of writes, reads (cached or not), camera resizes and cleared caches, reading an image returns the pixels its file holds now at the size of its camera.","every number of images and files, all contents, and every history of operations on them","Images, caches and files form a shared state; every history matters.",*a(I,"Image.write","Image.read"))
p("C119","pairwise_distance is the table of distances","pairwise_distance(x, y) returns a row for every point of x and in it a number for every point of y, [i, j] being the distance of x[i] and y[j] (Euclidean unless another metric is named), numbers counting as points on a line; it raises ValueError exactly if they do not have the same number of coordinates. By default it is a distance: nonnegative, zero exactly between equal points, symmetric under swapping x and y (transposing), no longer than by a third point. pairwise_distance_datetimes returns the seconds between the instants.","every number of points and coordinates, every metric, all values, all datetimes and time zones","Metric laws and table positions hold for all real coordinates and any numbers of points and dimensions.",*a(H,"pairwise_distance","pairwise_distance_datetimes"))
p("C120","Boxes as grids of points and polygons, in any number of dimensions","box_to_grid returns for any number of dimensions, as vectors, arrays or points, every point of the box that is a whole number of steps from the snap point, each once; the array of a coordinate has at [j, i, ...] the coordinate with indices i, j, ... along the axes; grid_to_points returns the points of the arrays in their order. box_to_polygon returns the closed polygon whose bounding box is the box and which contains what is strictly between the limits; invalid boxes and modes raise. The number of parallel processes is what was asked for, or that of the processors.","every number of dimensions, every box, steps and snap point; every point and mask size; every request","Order and uniqueness hold for every number of dimensions and cells.",*a(H,"box_to_grid","grid_to_points","box_to_polygon","_parse_parallel","bounding_box"))
p("C121","detect_keypoints passes the image and normalizes the descriptors","detect_keypoints returns the keypoints the detector finds in the image and mask given; with root=True each descriptor is the square root of its part of the sum of the descriptor, so it has nearly unit length and the inner product of two is their Hellinger kernel; no keypoints stay none; without root the descriptors are the detector's.","every detector, image, mask and descriptors (any number and length, nonnegative values)","Holds for all descriptor values and lengths; the conversion to 8 bits concerns all pixel values.",*a(O,"detect_keypoints"))
p("C122","Exif.insert writes the tags, and images read what was inserted","Exif.insert(path) replaces the tags of the file by those of the object (or raises and changes nothing if a group or tag is unknown), leaves pixels, other files and the object unchanged; after any history of reading, editing and inserting, Exif(path) has the tags of the object that was last inserted there, as they were then.","every number of files and objects, all tags and values, every history of operations","Histories and contents are unbounded.",*a("src/glimpse/exif.py","Exif.insert","Exif.dump","Exif.__init__"))
p("C123","Grid coordinates in double precision","In double precision (every operation rounded to nearest), Grid.snap_xy, xy_to_rowcol, rowcol_to_xy and crop_extent give the exact results of C22-C24: the centre of a cell belongs to that cell, a point belongs to the cell that contains it, and a grid cropped to its own limits is unchanged.","every grid, cell and point whose numbers are doubles","Rounding goes either way for a few grids and cells only; no test set can show that none of the others is off by one.",*a(R,"Grid.snap_xy","Grid.xy_to_rowcol","Grid.rowcol_to_xy","Grid.crop_extent","Grid.d"))
p("C124","Particle resampling in double precision","In double precision (every operation rounded to nearest, sums added in any order), Tracker.resample_particles draws as many particles as there are, all existing and in order, never one of zero weight, and with systematic resampling each as many times as its share of the weight up to one.","every number of particles, weights and random numbers, every order of summation","Rounding errors of the running sums add up with the number of particles; only some weights and random numbers near 1 show them.",*a(T+"tracker.py","Tracker.resample_particles"))
p("C125","Plots of maps and images show each value at its own place","Raster.plot shows at every point strictly inside a cell of the grid the value of that cell, whichever way the axes of the grid run, and nothing outside the grid; Image.plot and Observer.plot_tile show each pixel in its own square of image coordinates; Grid.set_plot_limits and Camera/Image.set_plot_limits make the axes show exactly the grid or the image, in its own direction; Observer.plot_box draws the rectangle with the corners of the box.","all grids, arrays, image sizes, boxes and points","A plot is checked by eye on a few rasters; an off-by-half-cell or a flipped axis is only visible for some grids and points.",*a(R,"Raster.plot","Grid.set_plot_limits"),*a(I,"Image.plot","Image.set_plot_limits"),*a(C,"Camera.set_plot_limits"),*a(T+"observer.py","Observer.plot_tile","Observer.plot_box"))
p("C126","Plots of tracks show the positions, velocities and standard deviations of the tracks selected","Tracks.plot_xy, plot_vxy and plot_v1d draw, for exactly the tracks selected and in their order, the positions (with start markers and standard deviations if asked for), velocity arrows at the positions, or the velocity in one dimension against time with the band of one standard deviation; a track that does not exist raises IndexError.","all tracks (any number of tracks and times, with missing values), all ways of selecting tracks and all styles","Selections (slices, integers, masks, negative indices), missing values and combinations of styles are far more than tests can list.",*a(T+"tracks.py","Tracks.plot_xy","Tracks.plot_vxy","Tracks.plot_v1d"))
p("C127","Plots of reprojection errors show each point's own error, selected and unselected","Points.plot, Lines.plot, Matches.plot and Cameras.plot split the points into selected and unselected ones (each point drawn in exactly one of the two groups) and draw for each an arrow from observed to predicted image coordinates, scaled by the scale given; hidden or empty groups are not drawn; Polynomial.plot draws the points and the fitted polynomial; Cameras.plot uses the parameters given and leaves the cameras as they were; Cameras.plot_weights shows each observation with its own weight; Converter.plot draws arrows from xcam to cam image coordinates for every scale.","all points, predictions, indices (all, integers, masks), styles, scales, cameras and controls","Pairing of points and errors must hold for every index, including negative and repeated ones, and for failures in the middle of a plot.",*a(O,"Points.plot","Lines.plot","Matches.plot","Polynomial.plot","Cameras.plot","Cameras.plot_weights"),*a(V+"converter.py","Converter.plot"))
p("C128","JSON files read back","helpers.read_json of what helpers.write_json wrote is the same value (strings of any characters, numbers of any size, NaN and infinities, nested arrays and objects in order), with any indent or none, with and without flat_arrays; the text is ASCII; two values with the same text are the same.","every JSON value, indent and flat_arrays","values have any depth, and a regular expression edits the text",*a(H,"write_json","read_json"))
p("C129","Pickle files read back","helpers.read_pickle(path, gz, binary) returns the object that helpers.write_pickle(obj, path, gz, binary) wrote, whatever is written to other paths in between; other files do not change; with another gz it raises; an interrupted write is not read as an object.","every object, file system, path, gz, binary, later writes and crash point","histories of writes and crash points",*a(H,"write_pickle","read_pickle"))
p("C130","Cameras own their memory; attributes are live views; reset restores","Whatever is done with a camera and any others (attributes read, kept, written to in place or set, copies, resets, to_array, idealize), Camera.reset restores the twenty numbers it was made of, a copy resets to the state of the original when it was copied, a step about one camera changes nothing of another, an attribute that was read keeps showing (and in-place writes keep reaching) the camera until it is reset, to_array is the caller's own, and idealize zeroes exactly c, k and p.","every history of operations on any number of cameras and values read from them","aliasing depends on the whole history of reads, copies and in-place writes",*a(C,"Camera.copy","Camera.reset","Camera.to_array","Camera.idealize","Camera.xyz","Camera.sensorsz"))

p("C131","Resizing in floating point","With the rounding of double precision, the image size after a resize does not depend on earlier resizes and is exactly the one asked for; focal length and principal point offset stay in proportion to it up to one part in 2^51 per resize, exactly if sizes are halved and doubled, so that resize(1) restores the camera.","every camera of up to 2^40 pixels a side, every history of resizes to positive sizes, every rounding to nearest","rounding errors accumulate over histories of any length, and which sizes are hit depends on the bits of the scale",*a(C,"Camera.resize"),*a(H,"get_scale_from_size"))
p("C132","Tiles in floating point","Grid.tile_indices computes in double precision. For whole tile sizes (as documented) and grids of fewer than 2^52 cells a side the slices are those of exact arithmetic, with any overlap and any rounding to nearest. For any other positive size the tiles still partition the grid (every cell in exactly one tile), and their number is the integer nearest to size / tile size up to the rounding of that quotient.","every grid below 2^52 cells a side, every positive tile size, every overlap, every rounding to nearest with 53 bits","Rounded divisions near integers and near halves: failures would be at isolated sizes.",*a(RA,"Grid.tile_indices"))
p("C133","Particle weights neither vanish nor overflow","In double precision with overflow, underflow, infinities and NaN, Tracker.update_weights gives every particle a finite weight of at least 1e-300 when its total log likelihood (in the code's sign) is -709 or more, of at most 1 when no log likelihood is negative, to within one rounding of exp(-total) + 1e-300, never larger for a less likely particle, and the same 1e-300 for all particles where all likelihoods vanish; without any observation the weights stay. For up to 2^24 particles the normalized weights are then positive numbers of at most 1 and resampling draws as many particles as there are, each an old one with its weight (for systematic and stratified resampling unless the last random number is within 10 n^2 2^-53 of 1, as in C124). One missing log likelihood makes every normalized weight missing, and one below -710 an infinite one.","all numbers of observers and particles, all log likelihoods (also infinite), all orders of summation, all random numbers, any rounding of exp","The range of doubles spans 2000 powers of two; the cases where a likelihood or a quotient underflows are rare in tests and depend on the number of particles and on the order of summation",*a(T+"tracker.py","Tracker.update_weights","Tracker.resample_particles"))
p("C134","Template and search tiles in double precision","In double precision arithmetic, for images of up to a million pixels a side: the template lies in the image and starts at the same pixel as in exact arithmetic, has the requested size (or one pixel more, when the mean is within rounding before the center of the longer tile), and records its offset from the mean, at most half a pixel; it is placed wherever it would be in exact arithmetic and raises IndexError only. Searching with it never raises unless the offset is within rounding of -1/2: an image is skipped only if the search box reaches out of it, which it does not if the particles are far enough from the limits; otherwise the box contains the template centred on each particle (up to rounding), the cells are as many as the error image has, more than the degree of the spline, strictly increasing, and within rounding of the positions to which the template is moved.","all image sizes up to 2^20, means, particles (any number), tile sizes, spline degrees up to 5 and roundings to a nearest double","coordinates where rounding changes a pixel are one in a trillion; a test with random coordinates never meets one",*a(T+"observer.py","Observer.tile_box","Observer.sample_tile"),*a(T+"tracker.py","Tracker.initialize_template","Tracker.compute_observer_log_likelihoods"),*a(R,"Grid.snap_box"))
p("C135","Statistics of particles in double precision","In double precision arithmetic, in whatever order numpy adds and whether or not it fuses multiplications with additions, for n particles (up to 2^40) and as many weights, none negative and with a positive sum: each coordinate of Tracker.particle_mean is the weighted mean to within 4 n 2^-53 times the weighted mean of the absolute values; Tracker.compute_particle_sigma never gives NaN or a negative number and is the weighted standard deviation to within (4 n + 8) 2^-53 of itself plus 8 n 2^-53 times the weighted mean of the absolute values, the same with or without a precomputed mean; Tracker.particle_covariance has no negative number on its diagonal, its elements are exact to within (4 n + 8) 2^-53 times the mean absolute product of deviations (plus the product of the errors of the means), and elements that mirror each other differ by at most twice that; the mean lies between the smallest and the largest coordinate; equal particles have no spread; and the covariance is symmetric. Zero weights, another number of weights, and (for the covariance) negative weights raise.","every number of particles up to 2^40, every coordinate and weight, every order of additions, every rounding to nearest","a test runs one summation order of one numpy build on a few arrays; whether a variance can round below zero (and give NaN) depends on all of them",*a(T+"tracker.py","Tracker.particle_mean","Tracker.particle_covariance","Tracker.compute_particle_sigma"))
p("C136","Particle likelihoods from pixels","A particle whose projection is displaced by whole pixels from the point at which the template was taken gets from Tracker.compute_observer_log_likelihoods exactly the mean squared difference between the pixels of the template and the pixels of the search image displaced by as much, divided by twice the observer's variance. It is zero exactly if every pixel of the template is found again there, and positive otherwise, so that an exact match is the most likely. Without an image, or if the search box reaches out of it, no likelihoods are computed; the call never raises. Between pixels no particle gets a negative value.","every template and search image, every set of particles, every spline through the error image","the value at a particle depends on all pixels of two images and on where the search box falls, through two changes of coordinates (tile to box, box to error image)",*a(T+"tracker.py","Tracker.compute_observer_log_likelihoods"),*a(T+"observer.py","Observer.sample_tile"))
p("C137","Grids of points in a box, in double precision","For finite double-precision bounds lo <= hi, a positive step and a snap value, each axis of `helpers.box_to_grid(box, step, snap, mode='vectors')` holds exactly the values snap + k * step (k an integer) that lie in [lo, hi], in increasing order: rounding neither drops a value, nor adds one outside of the box, and each coordinate is within a few units in the last place of its exact value.","all bounds, steps and snap values that are doubles (finite, no overflow)","Whether the last coordinate is kept depends on floor division of rounded differences: it changes with single bits of the input, which test grids (usually small integers) do not exercise.",*a(H,"box_to_grid"))
p("C138","Projection and back-projection in double precision","For an undistorted camera, `Camera.xyz_to_uv` and `Camera.uv_to_xyz` compute in double precision what exact arithmetic gives, to within a bound that depends only on the focal length, the size of the field of view and (for absolute coordinates) the distance of the camera from the origin relative to the depth; points behind the camera get NaN; and an image point projected to any positive depth and back is found again in the same place.","all undistorted cameras with angles up to 360 degrees, all image points, world points and depths that are doubles","The error is a sum of dozens of roundings in the trigonometry, matrix products and divisions: tests compare a few points with a loose tolerance, and cannot bound the worst case.",*a(C,"Camera.R","Camera.xyz_to_uv","Camera.uv_to_xyz","Camera._xyz_to_xy","Camera._xy_to_xyz","Camera._xy_to_uv","Camera._uv_to_xy"))
p("C139","Lens distortion in double precision","The image coordinates that Camera.xyz_to_uv computes in double precision for a camera with radial and tangential distortion are close to the exact image coordinates: within 2^-35 of the size of the terms of the distortion, in focal lengths, plus half of the image size and the principal point offset, for any point in front of the camera where the denominator of the radial distortion is not nearly zero.","every correct rounding and every accurate library, camera with view angles up to 360 degrees, six radial and two tangential coefficients, and point or direction in front of the camera","rounding errors pass through polynomials, a quotient whose denominator may be small, and sums that cancel; tests compare a few points with a tolerance",*a(C,"Camera.xyz_to_uv","Camera._distort","Camera._radial_distortion","Camera._tangential_distortion"))
p("C140","Rasters opened at another cell size","A raster opened with a target cell size holds in each cell the value of the file at the center of the cell (missing values apart), and Raster.read and Raster.array return this array, or the box of it, whatever has been read before and whether or not it is cached.","every file, target cell size, crop, box and history of reads","resampling at window edges and truncated box coordinates only agree for some ratios of cell sizes; tests read full-resolution files",*a(RA,"Raster.open","Raster.read","Raster.array"))
p("C141","Motion in double precision","Evolving particles in double precision with any steps forward and backward, any accelerations and any random numbers gives positions and velocities within (k + 14) / 2^52 of the exact ones, relative to the sum of the absolute values of the terms added, where k is the number of steps; with a constant acceleration they are those of uniformly accelerated motion over the total time, however it is split. Exactness fails: a step forward and back may not return to the start, and a particle slower than 2^-54 of its coordinate per step never moves, in any number of steps.","every rounding to a nearest double, particle, acceleration, random number, time unit and sequence of time steps","Tests compare with a tolerance on one step; the bound must hold for any number of steps, in either direction, at any coordinates.",*a(T+"motion.py","Motion.evolve_particles","CartesianMotion.evolve_particles"))
p("C142","Gradients and shades of rasters with missing cells","Raster.gradient and Raster.hillshade of a raster with missing cells: a slope along one axis is missing exactly if one of the two neighbours along that axis is missing (at an edge, the cell or its only neighbour); a shade is missing exactly if one of its two slopes is. The slopes and shades that are not missing do not depend on what the missing cells would contain. Missing cells have no slope and no shade, and the shades elsewhere are those of the complete raster (the last two fail).","every raster of at least two rows and columns with any pattern of missing cells, every azimuth and altitude","Tests use complete rasters; how missing values spread depends on every position of the missing cells relative to the edges, and the loss of contrast depends on a comparison with NaN in a library.",*a(RA,"Raster.gradient","Raster.hillshade"))
p("C143","Rasters interpolated in time in double precision","Each cell interpolated between two rasters in double precision is the first value at the first position exactly, the common value if both are equal, moves only in the direction from the first value to the second as the position grows (also when extrapolating), and is between the two values at every datetime from the first to before the second (285 years apart at most). It is within 7 / 2^52 of the exact value relative to the first value and the change from it, and the standard deviation within 19 / 2^52 of the exact one relative to itself. The result at the second position is the second value (this fails: it may be past it or lose it, unless the difference is a double).","every rounding to a nearest double, pair of positions (numbers or datetimes), pair of values and standard deviations, and position between or beyond","Whether rounding leaves the interval or reverses the order depends on the bits of every value; tests compare a few with a tolerance.",*a(R,"RasterInterpolant._interpolate"))
p("C144","Samples of rasters in double precision","A linear sample of a raster in double precision at a point within the outermost cell centers is within 135 / 2^52 of the exact one relative to the largest value (outside, also in proportion to the distance), and at the center of a cell it is the value of the cell, exactly. A sample of a raster of one row or column is within 7 / 2^52 relative to the first value and the change from it. A flat raster has the same sample everywhere, and the sample at the center of a cell of a raster with one row is its value (both fail).","every rounding to a nearest double, ascending coordinates of any number and spacing, values and points","Tests compare samples with a tolerance at a few points; the bound must hold for any spacing, and whether values are exact depends on the bits of the coordinates.",*a(RA,"Raster.sample"))
p("C145","Histogram matching in double precision","With every floating point operation rounded to double precision, match_cdf of two arrays with at most 2^49 pairs of cells returns a value for each cell, never reverses the order of two cells, makes equal cells equal, and returns no value outside the values of the second array. A cell at exactly the quantile of a value of the second array becomes exactly that value, so an array matched to itself, or to the same cells repeated and reordered, is unchanged. All values are within (5 m + 7) / 2^53 of the range of the second array (of m cells) plus 1 / 2^53 of its largest magnitude of the result without rounding. An empty second array raises ValueError.","for every rounding to a nearest double, every two arrays of at most 2^49 pairs of cells, of doubles","rounding can put an interpolated value past the next one only for particular quantiles; tests match a handful of small arrays",*a(H,"compute_cdf","match_cdf"))
p("C146","Datetimes matched in double precision","With every floating point operation rounded to double precision, for datetimes (on a clock at UTC) less than 2^32 seconds from 1970: pairwise_distance_datetimes gives zero for equal datetimes and only for them, does not decrease away from a datetime in either direction, is within a microsecond and 2^-53 of itself of the true distance, and is exact for datetimes of whole seconds. Tracker.match_datetimes matches a datetime that is the time of an image to the first image of that time whatever the maximum, matches no other with a maximum of zero, and matches an image that is nearest to within two microseconds and within the maximum to within a microsecond (and 2^-53 of the distances); for whole seconds, it is exactly the first nearest image if that is within the maximum. A datetime exactly the maximum from the nearest image is matched.","for every rounding to a nearest double, all datetimes within the range, all lists of image times, all maxima","timestamps of our time are rounded to a quarter of a microsecond; tests use whole seconds",*a(H,"pairwise_distance_datetimes"),*a(T+"tracker.py","Tracker.match_datetimes"))
p("C147","Datetimes to track at, in double precision","With every floating point operation rounded to double precision, Tracker.parse_datetimes returns exactly those of the datetimes given (once each, in their order) that Tracker.match_datetimes, with the same maximum and precision, matches to an image of at least one observer. A datetime that is the time of an image is always kept. With the default maximum of zero (and times less than 2^32 seconds from 1970), and whenever all times and the maximum are whole seconds, the result or error is the one of exact arithmetic, which keeps any datetime within the maximum of an image.","for every rounding to a nearest double, all observers, all lists of datetimes, all maxima","two methods round separately and have to agree for all times; tests use a few times in whole seconds",*a(T+"tracker.py","Tracker.parse_datetimes","Tracker.match_datetimes"),*a(H,"pairwise_distance_datetimes"))
p("C148","Elevation corrections in double precision","With every floating point operation rounded to double precision, elevation_corrections returns one correction for each squared distance, within 5 / 2^53 of its magnitude of (refraction - 1) d / (2 radius). For a positive radius, corrections are never upward if refraction is at most 1, are downward at every distance other than zero if it is less than 1, are exactly zero at distance zero and for a refraction of 1, never decrease in size with distance, and never increase in size with the radius or with refraction up to 1.","for every rounding to a nearest double, every array of squared distances, radius and refraction","monotonicity under rounding concerns all pairs of neighbouring doubles; tests evaluate a few distances",*a(H,"elevation_corrections"))
with open("/verif/properties.jsonl", "w") as f:
    for x in P:
        f.write(json.dumps(x, ensure_ascii=False) + "\n")
print(len(P))
