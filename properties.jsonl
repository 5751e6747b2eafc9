{"id": "C01", "title": "Track identifiers are contiguous", "statement": "After any successful online run of time_tracking the identifiers in the returned table are exactly 0..k-1 for some k: no identifier is skipped and none is out of range.", "quantifier": "every sequence of per-time detections, every radius/position, every processed time range", "why_tests_cant": "identifiers are renumbered at every time step; contiguity is an invariant of arbitrarily long histories", "anchors": ["trackeddy/trackeddy.py:TrackEddy.time_tracking", "trackeddy/utils.py:track_online", "trackeddy/utils.py:_merge_reindex_eddies", "trackeddy/utils.py:_update_counter"]}
{"id": "C02", "title": "Track history is append-only and identifiers are stable", "statement": "Once time_tracking has given an eddy of an earlier time an identifier, processing later times never changes that identifier nor any stored value of that row: the table after t steps, restricted to the times before, is the earlier table.", "quantifier": "every prefix/extension pair of detection histories", "why_tests_cant": "each step concatenates, re-labels and re-sorts the whole table; stability must survive every number of renumberings", "anchors": ["trackeddy/utils.py:track_online", "trackeddy/utils.py:_merge_reindex_eddies"]}
{"id": "C03", "title": "Tracking neither loses nor invents detections", "statement": "The table returned by a successful online time_tracking contains each row of each snapshot's detection exactly once, tagged with the time it was detected, and no other row (even when several detections share an identifier).", "quantifier": "every history of snapshots, any number of eddies and contour points", "why_tests_cant": "loss or duplication would only show for particular coincidences of positions and labels", "anchors": ["trackeddy/trackeddy.py:TrackEddy.time_tracking", "trackeddy/utils.py:track_online"]}
{"id": "C04", "title": "A detection continues a track exactly when the nearest known track end lies inside its radius", "statement": "At each time step a detection receives an existing identifier iff the last known maximum of a nearest track is closer (great-circle, km) than the detection's own radius, and then it receives that track's identifier; every other detection receives a fresh identifier larger than all existing ones.", "quantifier": "every table of existing tracks, every set of new detections, every nearest-neighbour tie break", "why_tests_cant": "depends on geometry and label bookkeeping for all configurations", "anchors": ["trackeddy/utils.py:_detect_nearest", "trackeddy/utils.py:_rename_eddies_in_time", "trackeddy/utils.py:track_online"]}
{"id": "C05", "title": "An identifier labels at most one eddy per time", "statement": "In the returned table an (identifier, time) pair names at most one detected eddy, so (identifier,time,index) is a unique key.", "quantifier": "every history of detections", "why_tests_cant": "only violated when two detections of one snapshot have the same nearest track end", "anchors": ["trackeddy/utils.py:_rename_eddies_in_time", "trackeddy/utils.py:track_online"]}
{"id": "C06", "title": "A time without detections does not abort tracking", "statement": "time_tracking tolerates snapshots in which no eddy is found and start times t0>0: it raises no exception and continues the tracks afterwards.", "quantifier": "every pattern of empty and non-empty snapshots, every t0, every ntimes", "why_tests_cant": "needs all patterns of gaps against the look-back window", "anchors": ["trackeddy/utils.py:unlink_eddies_in_previous_times", "trackeddy/trackeddy.py:TrackEddy.time_tracking"]}
{"id": "C07", "title": "ntimes bounds how long a lost eddy can be re-linked", "statement": "A track whose eddy has not been detected during the last ntimes steps is not continued; conversely the result of tracking depends on ntimes.", "quantifier": "all ntimes, all histories", "why_tests_cant": "requires comparing runs of unbounded length under different ntimes", "anchors": ["trackeddy/utils.py:unlink_eddies_in_previous_times", "trackeddy/utils.py:track_online"]}
{"id": "C08", "title": "time_tracking processes exactly the requested times", "statement": "time_tracking(t0, tf) processes exactly the times t0..tf-1 in increasing order; with tf omitted it processes t0..T-1 where T is the number of snapshots.", "quantifier": "all t0, tf, dataset lengths", "why_tests_cant": "range boundaries over all integers, including tf=0 and tf=None", "anchors": ["trackeddy/trackeddy.py:TrackEddy.time_tracking"]}
{"id": "C09", "title": "time_tracking completes when tf is omitted", "statement": "Omitting tf (the documented default) does not make a run fail: the progress report raises no exception.", "quantifier": "all histories with at least two non-empty snapshots", "why_tests_cant": "the failure is in the progress print reached only from the second non-empty snapshot on", "anchors": ["trackeddy/trackeddy.py:TrackEddy.time_tracking", "trackeddy/printfunc.py:Printer.timepercentprint"]}
{"id": "C10", "title": "Offline mode writes every non-empty snapshot once", "statement": "With online_track=False every snapshot with at least one eddy is written to its own file exactly once and under its own time, and the returned table is not modified by later snapshots.", "quantifier": "all patterns of empty/non-empty snapshots, all out_formats", "why_tests_cant": "which snapshot is skipped depends on the history", "anchors": ["trackeddy/trackeddy.py:TrackEddy.time_tracking", "trackeddy/utils.py:store_snapshot"]}
{"id": "C11", "title": "Snapshot files of different times never overwrite each other", "statement": "For a fixed format the file name used for a snapshot determines its time: two different times never map to the same file name.", "quantifier": "all pairs of non-negative times, including those wider than the zero padding", "why_tests_cant": "injectivity over all integers", "anchors": ["trackeddy/utils.py:store_snapshot"]}
{"id": "C12", "title": "Snapshot identifiers are contiguous and sorted", "statement": "For any list of levels the table of a snapshot has identifiers exactly 0..k-1 and rows in ascending (identifier, contour point index) order.", "quantifier": "all level lists and all per-level detections", "why_tests_cant": "renumbering is repeated per level with stale index levels left by pandas", "anchors": ["trackeddy/trackeddy.py:TrackEddy._detect_snapshot", "trackeddy/utils.py:_merge_reindex_eddies", "trackeddy/utils.py:_update_better_eddy"]}
{"id": "C13", "title": "The multi-level merge keeps, replaces or drops according to one rule", "statement": "Merging a new level into a snapshot: a new eddy with a nearest existing eddy inside its radius replaces that eddy (taking its identifier) iff both its ellipse error and its Gaussian error are strictly smaller (which a NaN never is), and is dropped otherwise; a new eddy with no such neighbour is appended; every other existing eddy is kept unchanged.", "quantifier": "all existing tables, all new levels in which no two new eddies replace the same old one, both pandas index-concatenation behaviours", "why_tests_cant": "refinement of a table-rewriting program to a list-level rule for all sizes", "anchors": ["trackeddy/utils.py:_update_better_eddy", "trackeddy/utils.py:_detect_nearest", "trackeddy/utils.py:_merge_reindex_eddies"]}
{"id": "C14", "title": "The merge keeps the better-fitting of two duplicate eddies", "statement": "When the same eddy is found at two levels, the version kept is the one whose contour is more similar to its fitted ellipse and Gaussian.", "quantifier": "all pairs of duplicate detections", "why_tests_cant": "requires relating the comparison used by the merge to the meaning of the similarity score for all scores", "anchors": ["trackeddy/utils.py:_update_better_eddy", "trackeddy/geometry.py:compute_similarity"]}
{"id": "C15", "title": "Each identifier of a snapshot names one eddy", "statement": "In a snapshot table (identifier, contour point index) is a unique key: two different contours never share an identifier.", "quantifier": "all level lists, all detections", "why_tests_cant": "fails only if two eddies of one level replace the same eddy of an earlier level", "anchors": ["trackeddy/utils.py:_update_better_eddy"]}
{"id": "C16", "title": "Level zero is ignored", "statement": "The zero level never contributes: the snapshot result for a list of levels equals the result for the same list with all zeros removed, and the non-zero levels are processed in the given order.", "quantifier": "all level lists", "why_tests_cant": "quantifies over all lists", "anchors": ["trackeddy/trackeddy.py:TrackEddy._detect_snapshot"]}
{"id": "C17", "title": "An eddy is reported iff it meets every identification criterion", "statement": "A (non-degenerate) contour is stored iff its radius is at most max_area times the local deformation radius, contour and ellipse areas agree within the tolerance, eccentricity and ellipse similarity do not exceed their thresholds, its extremum is non-zero and (unless the Gaussian fit is skipped) a Gaussian contour exists with similarity at least gaussian_fit.", "quantifier": "all contours and all criteria values", "why_tests_cant": "decision logic over all combinations of measured values and thresholds", "anchors": ["trackeddy/trackeddy.py:TrackEddy._detect_one_level"]}
{"id": "C18", "title": "The reported discard reason is the first failed criterion, and every contour is accounted for", "statement": "Every contour is skipped as degenerate, stored, or discarded with exactly one reason, the reason being the first failed test in the documented order; the three counts add up to the number of contours.", "quantifier": "all lists of contours", "why_tests_cant": "must hold for every list", "anchors": ["trackeddy/trackeddy.py:TrackEddy._detect_one_level", "trackeddy/eddy.py:Eddy.discarded", "trackeddy/eddy.py:Eddy.store"]}
{"id": "C19", "title": "Detection at a level depends only on that level", "statement": "The table of stored eddies returned for a level contains exactly the eddies of that level, numbered 0,1,2,... in contour order, whatever was detected before by this or any other TrackEddy object.", "quantifier": "all histories of completed level detections (global registers are shared by all objects)", "why_tests_cant": "the counter and table live in a module-global decorator; needs an invariant over all call histories", "anchors": ["trackeddy/decorators.py:eddy_identifier", "trackeddy/decorators.py:check_return_eddies", "trackeddy/eddy.py:Eddy.exit"]}
{"id": "C20", "title": "An exception during detection does not contaminate later detections", "statement": "If detection of a level is interrupted by an exception, subsequent detections still return only their own eddies.", "quantifier": "all interruption points and subsequent calls", "why_tests_cant": "needs all crash points of the level loop", "anchors": ["trackeddy/decorators.py:eddy_identifier", "trackeddy/decorators.py:check_return_eddies"]}
{"id": "C21", "title": "The discarded table lists only the contours discarded at that level", "statement": "The discarded table returned for a level contains exactly the contours discarded at that level.", "quantifier": "all histories of level detections", "why_tests_cant": "the table is only reset when some level stores an eddy", "anchors": ["trackeddy/decorators.py:eddy_identifier", "trackeddy/decorators.py:check_return_eddies"]}
{"id": "C22", "title": "Relaxing the criteria never loses eddies", "statement": "Increasing max_area, eccentricity or ellipse_fit, or decreasing gaussian_fit, can only enlarge the set of contours stored at a level, and keeps their relative order.", "quantifier": "all contour lists and all pairs of criteria", "why_tests_cant": "monotonicity over all inputs", "anchors": ["trackeddy/trackeddy.py:TrackEddy._detect_one_level"]}
{"id": "C23", "title": "A contour that coincides with its fitted ellipse passes the ellipse similarity test", "statement": "A contour identical to its fitted ellipse is not rejected by the ellipse similarity criterion; more generally a more similar contour is never rejected when a less similar one is accepted.", "quantifier": "all contours and thresholds", "why_tests_cant": "statement about all score/threshold pairs", "anchors": ["trackeddy/trackeddy.py:TrackEddy._detect_one_level", "trackeddy/geometry.py:compute_similarity"]}
{"id": "C24", "title": "frdist is the discrete Frechet distance", "statement": "For non-empty curves of which at least one has at most 300 points, frdist(P,Q) is the minimum over all monotone couplings of P and Q of the maximum link length, provided the recursion fits into the recursion limit of the interpreter; for longer curves it is that of every s-th point of both, for one stride s.", "quantifier": "all pairs of curves, all lengths", "why_tests_cant": "optimality over exponentially many couplings, and correctness of the in-place memo table for every call order", "anchors": ["trackeddy/geometry.py:frdist", "trackeddy/geometry.py:_c"]}
{"id": "C25", "title": "frdist behaves like a distance", "statement": "frdist is non-negative, symmetric for all inputs, zero on identical curves, at least the distance between the curves' first points, and (when no subsampling happens) at least the distance between the last points and satisfies the triangle inequality.", "quantifier": "all curves", "why_tests_cant": "metric laws over all triples of curves", "anchors": ["trackeddy/geometry.py:frdist"]}
{"id": "C26", "title": "Curve subsampling terminates and keeps a well defined subset", "statement": "The subsampling loop of frdist terminates, leaves at least one curve with at most 300 points, never empties a curve, keeps the first point of each curve and leaves curves alone when one of them already has at most 300 points.", "quantifier": "all curve lengths", "why_tests_cant": "loop termination and bounds for every length", "anchors": ["trackeddy/geometry.py:frdist"]}
{"id": "C27", "title": "frdist never exhausts the recursion limit", "statement": "Thanks to subsampling frdist can be called with curves of any length without RecursionError.", "quantifier": "all pairs of curve lengths", "why_tests_cant": "the recursion depth depends on both lengths; only one of them is bounded", "anchors": ["trackeddy/geometry.py:frdist", "trackeddy/geometry.py:_c"]}
{"id": "C28", "title": "compute_similarity is a symmetric score in [0,1]", "statement": "For curves of positive length compute_similarity lies in [0,1], is symmetric, equals 1 for identical curves, and is unchanged when both curves are translated by the same vector or scaled by the same positive factor.", "quantifier": "all pairs of curves", "why_tests_cant": "range, symmetry and invariance for all inputs", "anchors": ["trackeddy/geometry.py:compute_similarity", "trackeddy/geometry.py:arc_length"]}
{"id": "C29", "title": "Eccentricity of a fitted ellipse is a number in [0,1)", "statement": "eccentricity(a,b) for axes with 0<b<=a lies in [0,1), is 0 iff a=b, does not depend on the signs of a and b and decreases as b grows; the axes returned by fit_ellipse are always ordered a>=b>=0, so the score is always defined when a>0.", "quantifier": "all axis lengths; all contours for the ordering", "why_tests_cant": "over all reals", "anchors": ["trackeddy/geometry.py:eccentricity", "trackeddy/geometry.py:fit_ellipse"]}
{"id": "C30", "title": "The curve returned by fit_ellipse lies on the fitted conic", "statement": "When the fitted conic is a real ellipse and the tilt is resolved, every point of the returned curve satisfies the fitted quadratic equation, the curve is closed and has as many points as the contour.", "quantifier": "all conic coefficients meeting the ellipse condition, all numbers of points", "why_tests_cant": "algebraic identity over all reals, including the un-rotation step", "anchors": ["trackeddy/geometry.py:fit_ellipse"]}
{"id": "C31", "title": "fit_ellipse recovers an exact ellipse", "statement": "If all contour points lie on one ellipse and the normal equations are non-singular then the fitted conic is that ellipse, so the returned curve lies on it.", "quantifier": "all point sets on an ellipse", "why_tests_cant": "uniqueness of the least-squares solution for all data", "anchors": ["trackeddy/geometry.py:fit_ellipse"]}
{"id": "C32", "title": "The reported ellipse angle is the direction of the major axis", "statement": "ellipse_params_theta is the angle of the fitted ellipse's major axis with the x axis.", "quantifier": "all conic coefficients", "why_tests_cant": "branch logic on b and a-c over all reals", "anchors": ["trackeddy/geometry.py:fit_ellipse"]}
{"id": "C33", "title": "Polygon area does not depend on how the contour is listed", "statement": "area_latlon_polygon is non-negative and unchanged by the choice of first vertex of a closed contour, by repeated vertices, by adding 360 degrees to longitudes, and by traversal direction when no two consecutive azimuths are opposite.", "quantifier": "all lon/lat polygons", "why_tests_cant": "invariance over all polygons and all rotations of the vertex list", "anchors": ["trackeddy/geometry.py:area_latlon_polygon"]}
{"id": "C34", "title": "The area formula never takes the square root of a negative number", "statement": "For latitudes in [-90,90] the haversine argument lies in [0,1] and the computed colatitude is the great-circle distance to (0,0).", "quantifier": "all longitudes and all latitudes in range", "why_tests_cant": "over all reals", "anchors": ["trackeddy/geometry.py:area_latlon_polygon"]}
{"id": "C35", "title": "The fitted Gaussian is a bump of the given amplitude", "statement": "gaussian() attains exactly the amplitude at its centre, has the sign of the amplitude, never exceeds it in magnitude, is symmetric about the centre, is unchanged by the signs of sigma_x, sigma_y and by theta -> theta+pi, and swapping the sigmas equals turning by 90 degrees.", "quantifier": "all centres, positive or negative sigmas, angles, points", "why_tests_cant": "over all reals", "anchors": ["trackeddy/geometry.py:gaussian"]}
{"id": "C36", "title": "Generator and fitter use the same tilt convention", "statement": "A field generated by the synthetic generator with tilt theta is described by the fitted Gaussian with the same tilt theta.", "quantifier": "all tilts", "why_tests_cant": "identity of two formulas over all reals", "anchors": ["trackeddy/geometry.py:gaussian", "trackeddy/generator/field_generator.py:Generate_field.twoD_Gaussian"]}
{"id": "C37", "title": "The least squares problem handed to scipy is always feasible", "statement": "The bounds built for the Gaussian fit contain the initial guess and have strictly smaller lower than upper bound in every coordinate, for ascending or descending grids and for positive, negative or zero ellipse parameters.", "quantifier": "all windows with at least two rows and columns, all initial guesses", "why_tests_cant": "over all reals and both grid orientations", "anchors": ["trackeddy/geometry.py:Fit_Surface.construct_bounds"]}
{"id": "C38", "title": "The fit residual is zero exactly for a perfect fit", "statement": "gaussian_residual is non-negative and zero iff the Gaussian equals the data at every valid point.", "quantifier": "all data windows", "why_tests_cant": "over all fields", "anchors": ["trackeddy/geometry.py:gaussian_residual"]}
{"id": "C39", "title": "The window cut around a contour contains it and stays inside the grid", "statement": "The window used for the fit contains every contour grid point, is inside the data array, is padded by at least the requested margin wherever the grid allows, and the window-relative indices of the contour are valid; the corner adjusting loops terminate.", "quantifier": "all grid sizes and all contours inside the grid, all non-negative thresholds", "why_tests_cant": "loop termination and bounds for all sizes", "anchors": ["trackeddy/trackeddy.py:TrackEddy._get_data_in_contour"]}
{"id": "C40", "title": "Contour points are mapped to the right grid points", "statement": "The grid index computed for a contour vertex is the index of the grid point selected by the nearest-neighbour search, for any grid.", "quantifier": "all rectilinear or curvilinear grids, all contours", "why_tests_cant": "index arithmetic over all grid shapes", "anchors": ["trackeddy/trackeddy.py:TrackEddy._data_in_contour"]}
{"id": "C41", "title": "The inside mask is the contour plus everything it encloses", "statement": "A grid point is in the inside mask iff it is a contour point or cannot be connected to the outside of the window by a chain of 4-neighbours avoiding contour points.", "quantifier": "all windows and all contour pixel sets", "why_tests_cant": "reachability over all grids", "anchors": ["trackeddy/utils.py:_mask_data_in_contour"]}
{"id": "C42", "title": "The reported extremum is the true signed extremum inside the contour", "statement": "eddy_sign is the sign of the mean inside the contour, maxima is the largest (positive sign) or smallest (negative sign) value inside, the reported location attains it, and it has the same sign as eddy_sign.", "quantifier": "all data windows with at least one valid point inside", "why_tests_cant": "over all fields and masks, including NaN", "anchors": ["trackeddy/utils.py:_mask_data_in_contour"]}
{"id": "C43", "title": "A contour is discarded as an island exactly when its interior mean is zero", "statement": "The eddy_is_island rejection happens iff the mean of the valid data inside the contour is exactly zero.", "quantifier": "all data windows", "why_tests_cant": "links a test on the maximum to the mean, over all fields", "anchors": ["trackeddy/utils.py:_mask_data_in_contour", "trackeddy/trackeddy.py:TrackEddy._detect_one_level"]}
{"id": "C44", "title": "Coordinates are identified by name independently of order", "statement": "If exactly one dimension name is recognised as longitude, one as latitude and at most one as time, these are the ones used, whatever the order (for the grid, data variables named like a longitude and a latitude take precedence); a dataset without recognisable longitude or latitude is rejected.", "quantifier": "all lists of dimension and variable names", "why_tests_cant": "over all strings and orders", "anchors": ["trackeddy/trackeddy.py:TrackEddy.identify_coords", "trackeddy/trackeddy.py:TrackEddy._get_dims", "trackeddy/trackeddy.py:TrackEddy._get_vars", "trackeddy/trackeddy.py:TrackEddy.check_coords"]}
{"id": "C45", "title": "Only longitude/latitude variables are taken for coordinates", "statement": "A data variable that is not a coordinate (for example a heat flux) is never used as the longitude or latitude of the grid.", "quantifier": "all dataset variable names", "why_tests_cant": "over all strings", "anchors": ["trackeddy/trackeddy.py:TrackEddy._get_vars", "trackeddy/trackeddy.py:TrackEddy.check_coords"]}
{"id": "C46", "title": "The coordinate grids match the data grid", "statement": "For 1D coordinates X[j,i] is longitude i and Y[j,i] is latitude j with shape (nlat,nlon); for 2D coordinates the arrays are used as they are; mixed or other dimensionalities are rejected.", "quantifier": "all coordinate arrays", "why_tests_cant": "over all shapes", "anchors": ["trackeddy/trackeddy.py:TrackEddy.check_coords"]}
{"id": "C47", "title": "nan_treatment fills missing data before tracking", "statement": "With nan_treatment=True the tracked field has its missing values replaced, and an unknown filter name is rejected.", "quantifier": "all filter settings and all fields", "why_tests_cant": "decision logic over all settings", "anchors": ["trackeddy/decorators.py:filter_data", "trackeddy/trackeddy.py:TrackEddy._filter_data_", "trackeddy/trackeddy.py:TrackEddy.treat_nan"]}
{"id": "C48", "title": "The meridional and zonal filters remove exactly the line mean", "statement": "After the meridional (zonal) filter the mean along x (y) of every line is zero, applying the filter again changes nothing, and adding a constant per line to the input does not change the output.", "quantifier": "all rectangular fields without missing data", "why_tests_cant": "over all fields", "anchors": ["trackeddy/trackeddy.py:TrackEddy._space_filter"]}
{"id": "C49", "title": "The convolution filter removes constant fields", "statement": "The uniform convolution filter maps a constant field to zero, is linear, and even kernel sizes are treated as the next odd size.", "quantifier": "all fields, all kernel sizes", "why_tests_cant": "over all fields and positions, including the border", "anchors": ["trackeddy/trackeddy.py:TrackEddy._space_filter"]}
{"id": "C50", "title": "The stored table of an eddy has one row per contour point with constant scalar columns", "statement": "store() yields exactly one row per contour point, numbered 0..n-1, carrying that point's coordinates, and every scalar property has the same value in all rows; every default property is present under its documented column names and no property overwrites another.", "quantifier": "all eddies with contours of at least two points", "why_tests_cant": "over all contour lengths and attribute values", "anchors": ["trackeddy/eddy.py:Eddy.to_dict", "trackeddy/eddy.py:Eddy.to_table", "trackeddy/eddy.py:Eddy.store"]}
{"id": "C51", "title": "Generated eddies do not overlap", "statement": "With opt='no_interaction' any two generated eddies are at least away_val times the larger radius apart when position selection terminates.", "quantifier": "all random choices, all numbers of eddies", "why_tests_cant": "over all random sequences", "anchors": ["trackeddy/generator/field_generator.py:Generate_field.checkposition"]}
{"id": "C52", "title": "Position selection always terminates", "statement": "checkposition gives up after 10000 attempts.", "quantifier": "all random sequences", "why_tests_cant": "termination over all schedules of random draws", "anchors": ["trackeddy/generator/field_generator.py:Generate_field.checkposition"]}
{"id": "C53", "title": "A random walk step is one king move", "statement": "make_random_walk moves each index by exactly -steps, 0 or +steps, and never stays in place for steps != 0.", "quantifier": "all positions, step sizes and random draws", "why_tests_cant": "over all draws", "anchors": ["trackeddy/generator/field_generator.py:Generate_field.make_random_walk"]}
{"id": "C54", "title": "Generated fields are laid out on the requested grid", "statement": "assemble_field and reconstruct_field return the sum of the eddies' Gaussians evaluated at the grid point of each array entry.", "quantifier": "all grid sizes, margins, numbers of eddies", "why_tests_cant": "index layout over all sizes", "anchors": ["trackeddy/generator/field_generator.py:Generate_field.assemble_field", "trackeddy/generator/field_generator.py:Generate_field.reconstruct_field", "trackeddy/generator/field_generator.py:Generate_field.pass_args"]}
{"id": "C55", "title": "makeGaussian has unit peak and the requested full width at half maximum", "statement": "makeGaussian values lie in (0,1], equal 1 exactly at the centre and exactly one half at distance fwhm/2 from it; moveGaussian frame t is makeGaussian at the t-th centre.", "quantifier": "all sizes, centres, widths", "why_tests_cant": "over all reals", "anchors": ["trackeddy/generator/gaussian_field_functions.py:makeGaussian", "trackeddy/generator/gaussian_field_functions.py:moveGaussian"]}
{"id": "C56", "title": "The deformation radius approximation is sane", "statement": "approx_RD_lat is positive, symmetric about the equator, strictly decreasing away from it and at most 260 km, attained only at the equator.", "quantifier": "all latitudes", "why_tests_cant": "over all reals", "anchors": ["trackeddy/physics.py:approx_RD_lat"]}
{"id": "C57", "title": "The progress bar has constant width", "statement": "For 0<=i<maxv with the step 1 that time_tracking passes, the printed bar has exactly 11 cells and the printed step fraction never exceeds 100 percent.", "quantifier": "all i, maxv", "why_tests_cant": "integer arithmetic over all sizes", "anchors": ["trackeddy/printfunc.py:Printer.timepercentprint"]}
{"id": "C58", "title": "The Python version guard rejects every version before 3.10", "statement": "Printer() raises ImportError on every Python 3 minor version below 10 and on none from 3.10 on.", "quantifier": "all minor and patch versions", "why_tests_cant": "string comparison over all version numbers", "anchors": ["trackeddy/printfunc.py:Printer.__init__"]}
{"id": "C59", "title": "Every contour vertex lies on a cut grid edge at the contour level", "statement": "Each vertex produced by extract_contours lies on a mesh edge whose end values straddle the level, at the point where linear interpolation equals the level; the interpolation never divides by zero and its weight lies in [0,1].", "quantifier": "all grids without missing values, all levels", "why_tests_cant": "invariant of an edge-following loop over all meshes", "anchors": ["trackeddy/src/cntr.c:zone_crosser", "trackeddy/src/cntr.c:data_init", "trackeddy/geometry.py:extract_contours"]}
{"id": "C60", "title": "Consecutive contour vertices lie in one grid cell", "statement": "Two consecutive vertices of a contour lie on different edges of one common grid cell.", "quantifier": "all grids, all levels", "why_tests_cant": "invariant of the zone crossing step for all cell configurations", "anchors": ["trackeddy/src/cntr.c:zone_crosser"]}
{"id": "C61", "title": "Masked points never contribute to contours", "statement": "With a mask, the contours consist of exactly the crossed sides of those grid cells that have no masked corner, each once: no vertex has a coordinate computed from a masked value.", "quantifier": "all mesh sizes and masks", "why_tests_cant": "array algorithm over all sizes", "anchors": ["trackeddy/src/cntr.c:mask_zones"]}
{"id": "C62", "title": "Every selectable output format stores the snapshot", "statement": "store_snapshot writes a file for each supported format (csv, json, hd5) and rejects any other format with an error.", "quantifier": "all formats, times and paths", "why_tests_cant": "the writers are selected by a match without default; effect for all formats", "anchors": ["trackeddy/utils.py:store_snapshot"]}
{"id": "C63", "title": "Merging levels never raises an exception", "statement": "Detecting a snapshot over any list of levels completes whenever each single level can be detected.", "quantifier": "all level lists and all per-level detections", "why_tests_cant": "depends on the state built up over several levels", "anchors": ["trackeddy/trackeddy.py:TrackEddy._detect_snapshot", "trackeddy/utils.py:_update_better_eddy"]}
{"id": "C64", "title": "Skipping the Gaussian fit does not change which duplicate is kept by its ellipse score", "statement": "When the Gaussian fit is skipped, a duplicate found at a later level with a lower ellipse score still replaces the eddy found before.", "quantifier": "all snapshots, levels and ellipse scores", "why_tests_cant": "the replacement rule compares two scores for every pair of eddies", "anchors": ["trackeddy/trackeddy.py:TrackEddy._detect_one_level", "trackeddy/utils.py:_update_better_eddy", "trackeddy/eddy.py:Eddy"]}
{"id": "C65", "title": "Requested properties of an eddy are all present in its table", "statement": "to_dict/to_table called with a list of existing properties returns every one of them under its own column names.", "quantifier": "all lists of properties and all attribute values", "why_tests_cant": "depends on shapes and on the order of all combinations of properties", "anchors": ["trackeddy/eddy.py:Eddy.to_dict", "trackeddy/eddy.py:Eddy.to_table"]}
{"id": "C66", "title": "The reported ellipse parameters reproduce the fitted ellipse", "statement": "For a contour whose fitted conic is a real non-circular ellipse around its centroid with resolved tilt, the semi axes and the angle in ellipse_params describe exactly that ellipse, and a Gaussian with these widths and tilt centred on it has the ellipse as its level line at exp(-1/2) of the amplitude.", "quantifier": "all conic coefficients meeting the ellipse condition, all amplitudes and points", "why_tests_cant": "axes, angle and rotation come from three separate formulas whose branches must agree for every conic", "anchors": ["trackeddy/geometry.py:fit_ellipse", "trackeddy/geometry.py:gaussian", "trackeddy/geometry.py:Fit_Surface"]}
{"id": "C67", "title": "Polygon area does not depend on the longitude origin", "statement": "Moving a whole contour in longitude does not change the area computed by area_latlon_polygon.", "quantifier": "all contours and all longitude shifts", "why_tests_cant": "the formula is an integral about the fixed point (0,0); the effect depends on where the contour lies", "anchors": ["trackeddy/geometry.py:area_latlon_polygon"]}
{"id": "C68", "title": "A contour circling (0,0) once has the area of the spherical cap", "statement": "For a closed contour of points at great-circle distance r from (0,0) running once around it, area_latlon_polygon returns 2 pi R^2 (1 - cos r) in km^2.", "quantifier": "all radii, all numbers and spacings of vertices", "why_tests_cant": "exactness has to hold for every vertex list", "anchors": ["trackeddy/geometry.py:area_latlon_polygon"]}
{"id": "C69", "title": "Contour vertices are snapped to the nearest grid point", "statement": "Every contour vertex is assigned the grid point of the whole grid that is nearest to it.", "quantifier": "all grids with monotone axes, all contours", "why_tests_cant": "The search is restricted to a box around the contour mean; test eddies fit in the box.", "anchors": ["trackeddy/trackeddy.py:TrackEddy._data_in_contour"]}
{"id": "C70", "title": "The order of the horizontal dimensions does not matter", "statement": "Every data value is tracked at the longitude and latitude it is labelled with, whether the variable is stored as (lat, lon) or (lon, lat).", "quantifier": "all axes, both storage orders", "why_tests_cant": "Test fields are stored (lat, lon); a square (lon, lat) field is accepted and silently transposed.", "anchors": ["trackeddy/trackeddy.py:TrackEddy.check_coords", "trackeddy/trackeddy.py:TrackEddy._detect_one_level"]}
{"id": "C71", "title": "The first generated frame keeps the checked separation", "statement": "With opt='no_interaction' the eddies of every generated frame, the first included, have the distances that position selection checked.", "quantifier": "for all axes, margins and positions", "why_tests_cant": "The axes are replaced by finer ones with margin after the first check; the effect is a smooth shrinking of distances that a picture does not show.", "anchors": ["trackeddy/generator/field_generator.py:Generate_field.assemble_field", "trackeddy/generator/field_generator.py:Generate_field.pass_args", "trackeddy/generator/field_generator.py:Generate_field.checkposition"]}
{"id": "C72", "title": "Contours are complete and unique", "statement": "The contours returned for a level pass through every grid edge the level crosses exactly once and through no other; each is closed or runs from the edge of the grid to the edge of the grid; any other family of lines with these properties that resolves saddles by the cell mean consists of the same lines.", "quantifier": "all grids with at least two rows and columns, all data (missing values included), all levels", "why_tests_cant": "A missed or doubled contour depends on the whole traversal of the grid with its flags; tests only see a few fields.", "anchors": ["trackeddy/src/cntr.c:curve_tracer", "trackeddy/src/cntr.c:cntr_trace", "trackeddy/geometry.py:extract_contours"]}
{"id": "C73", "title": "Contour tracing always ends, stays inside its arrays and is deterministic", "statement": "For all arrays of equal shape Cntr(x, y, z, mask).trace(level) returns a result: it reads and writes only inside the allocated arrays, every loop ends, and the result does not depend on what freshly allocated memory contains.", "quantifier": "all array sizes (empty ones included), data, masks and levels, all contents of uninitialised memory", "why_tests_cant": "Termination and memory safety of hand-written C loops cannot be sampled; uninitialised reads show only on unlucky memory contents.", "anchors": ["trackeddy/src/cntr.c:curve_tracer", "trackeddy/src/cntr.c:data_init", "trackeddy/src/cntr.c:cntr_trace", "trackeddy/src/cntr.c:mask_zones"]}
{"id": "C74", "title": "Every contour comes with matching path codes", "statement": "extract_contours returns as many code arrays as contours; contour k has at least two vertices and as many codes, the first MOVETO, all others LINETO.", "quantifier": "all grids, data and levels", "why_tests_cant": "The list is split by position, vertices and codes are filled in two passes that must count alike.", "anchors": ["trackeddy/src/cntr.c:build_cntr_list_v2", "trackeddy/geometry.py:extract_contours"]}
{"id": "C75", "title": "Arrays of different shape, and only those, are rejected", "statement": "extract_contours raises ValueError iff the shapes of X, Y and data differ, and no other error is possible for two dimensional arrays of floats.", "quantifier": "all shapes and contents", "why_tests_cant": "absence of every other failure has to be shown for all inputs", "anchors": ["trackeddy/src/cntr.c:Cntr_init", "trackeddy/geometry.py:extract_contours"]}
{"id": "C76", "title": "Contours have no missing vertices", "statement": "All vertices of the contours are numbers, also when the data has missing values.", "quantifier": "all grids and data with and without missing values", "why_tests_cant": "Whether a contour touches missing data depends on the field; test fields have none or far from the eddies.", "anchors": ["trackeddy/src/cntr.c:zone_crosser", "trackeddy/geometry.py:extract_contours"]}
{"id": "C77", "title": "Contours touching missing data are skipped", "statement": "The level loop skips every contour that has a missing vertex, as the comment in the code says.", "quantifier": "all contours", "why_tests_cant": "The test used compares with the first vertex only; whether that one is the missing vertex depends on the traversal.", "anchors": ["trackeddy/trackeddy.py:TrackEddy._detect_one_level"]}
{"id": "C78", "title": "No contours exactly when the field does not cross the level", "statement": "extract_contours returns no contour iff all values are above the level or none is.", "quantifier": "all grids with at least two rows and columns, all data and levels", "why_tests_cant": "the converse needs connectivity of the grid and completeness of the tracer", "anchors": ["trackeddy/geometry.py:extract_contours", "trackeddy/src/cntr.c:cntr_trace"]}
{"id": "C79", "title": "Contours follow a change of coordinates", "statement": "After an affine change of the coordinates (shifted longitudes, other units, exchanged axes) extract_contours returns the same contours in the new coordinates in the same order; for any other coordinates the same grid edges are passed.", "quantifier": "all grids, data, levels and affine maps", "why_tests_cant": "The tracer could use the coordinates when following a contour; that it never does is a statement about all runs.", "anchors": ["trackeddy/geometry.py:extract_contours", "trackeddy/src/cntr.c:zone_crosser"]}
{"id": "C80", "title": "Contours do not depend on the unit of the field", "statement": "Scaling data and level by a positive factor and adding a constant to both leaves the returned contours and codes exactly as they are.", "quantifier": "all grids, data (missing values included), levels, factors and constants", "why_tests_cant": "an equality of two runs for all inputs", "anchors": ["trackeddy/geometry.py:extract_contours", "trackeddy/src/cntr.c:cntr_trace"]}
{"id": "C81", "title": "Contours do not depend on the sign convention of the field", "statement": "The contours of -data at -level are the same lines as those of data at level, so that cyclones and anticyclones are treated alike.", "quantifier": "all grids, data and levels", "why_tests_cant": "Strict and non-strict comparisons differ only at ties, which random test fields do not have.", "anchors": ["trackeddy/geometry.py:extract_contours", "trackeddy/src/cntr.c:data_init", "trackeddy/src/cntr.c:zone_crosser"]}
{"id": "C82", "title": "Contours do not depend on the storage order of the grid", "statement": "Reversed latitudes, reversed longitudes or transposed arrays give the same contour lines, up to their order, starting points and directions.", "quantifier": "all grids, data (missing values included) and levels", "why_tests_cant": "The scan order of the tracer changes completely; equality of the line families has to hold for all fields.", "anchors": ["trackeddy/geometry.py:extract_contours", "trackeddy/src/cntr.c:curve_tracer"]}
{"id": "C83", "title": "Eddies are compared by great-circle distance", "statement": "Two eddies (of two levels or of two times) are taken as the same only if the great-circle distance of their extrema, on a sphere of radius 6371 km, is less than the radius of the newer one; whole turns of longitude do not change the distance, so eddies on both sides of the seam of the grid are near each other.", "quantifier": "all latitudes and longitudes in degrees", "why_tests_cant": "Exchanged latitude and longitude or degrees for radians give plausible distances near the equator; the identity has to hold for all pairs of points.", "anchors": ["trackeddy/utils.py:_detect_nearest"]}
{"id": "C84", "title": "Every eddy of the result is a contour line of the data", "statement": "The table returned by time_tracking consists of whole eddies; the points of each eddy are, in order, the vertices of one complete contour line of the data of its time at one of the given levels, and the column level holds that level, never zero.", "quantifier": "all grids, data with missing values, levels, criteria, numbers of times, and all answers of the libraries for nearest points and least squares", "why_tests_cant": "The statement composes contour extraction, the level loop, the merge over levels and the linking over times; a test sees a few runs in which the pieces happen to fit.", "anchors": ["trackeddy/trackeddy.py:TrackEddy.time_tracking", "trackeddy/trackeddy.py:TrackEddy._detect_one_level", "trackeddy/geometry.py:extract_contours"]}
{"id": "C85", "title": "The reported extremum is the extremum of the data enclosed by the contour", "statement": "For every eddy of the result maxima, maxima_x, maxima_y are the value and the coordinates of a grid point enclosed by the grid points nearest to the contour; no enclosed value is more extreme in the direction of the reported sign, and the reported sign is that of the mean of the enclosed data; for contours within about 3 degrees of their centre these are the nearest of all grid points.", "quantifier": "all rectilinear grids, data, levels, criteria and times", "why_tests_cant": "Offsets of windows, index conversions and holes have to fit together for all contours, also at the border of the grid.", "anchors": ["trackeddy/trackeddy.py:TrackEddy._data_in_contour", "trackeddy/utils.py:_mask_data_in_contour", "trackeddy/trackeddy.py:TrackEddy._get_data_in_contour"]}
{"id": "C86", "title": "The columns of the result are consistent and meet the criteria", "statement": "For every eddy of the result the columns area, radius, centre, ellipse, eccentricity and scores are those of its own contour, the radius is that of a circle of the area, and all criteria given to TrackEddy hold of the columns (NaN passes).", "quantifier": "all runs that return a table", "why_tests_cant": "Columns could be those of another contour of the loop or of another level; the criteria must hold after merging and linking too.", "anchors": ["trackeddy/trackeddy.py:TrackEddy._detect_one_level", "trackeddy/eddy.py:Eddy.to_table", "trackeddy/trackeddy.py:TrackEddy.time_tracking"]}
{"id": "C87", "title": "A detection can be repeated", "statement": "Two runs of time_tracking with the same data and settings give the same result or the same exception, whatever uninitialised memory contains and whatever was detected or discarded before, and a run that succeeds leaves the registers so that the next one is not affected.", "quantifier": "all data and settings, all contents of fresh memory, all earlier discarded contours", "why_tests_cant": "Hidden state shows only in some orders of calls.", "anchors": ["trackeddy/trackeddy.py:TrackEddy.time_tracking", "trackeddy/decorators.py:eddy_identifier", "trackeddy/src/cntr.c:data_init"]}
{"id": "C88", "title": "With one level nothing is lost", "statement": "If one level other than zero is given, the table contains, for each time, exactly the contour lines of the data at this level that meet the criteria, each once.", "quantifier": "all runs with one level that return a table", "why_tests_cant": "Completeness is a statement about all contour lines of all fields.", "anchors": ["trackeddy/trackeddy.py:TrackEddy.time_tracking", "trackeddy/trackeddy.py:TrackEddy._detect_snapshot"]}
{"id": "C89", "title": "Detecting eddies in complete data on a regular grid does not raise an exception", "statement": "With data without missing values on a rectilinear grid, the detection of the eddies of a level returns a table for every level; contours that are not eddies are discarded, they do not abort the run.", "quantifier": "all rectilinear grids with steps of at most 6 degrees, complete data, levels and criteria, without the Gaussian fit", "why_tests_cant": "Whether some contour of some field makes a linear system singular is a statement about all contours of all fields.", "anchors": ["trackeddy/trackeddy.py:TrackEddy._detect_one_level", "trackeddy/geometry.py:fit_ellipse", "trackeddy/trackeddy.py:TrackEddy._data_in_contour"]}
{"id": "C90", "title": "The result does not depend on the unit of the data", "statement": "If the data and the levels are multiplied by the same positive number (metres to centimetres), time_tracking returns the same table, identifiers included, with the columns level and maxima multiplied by the number, or raises the same exception.", "quantifier": "all grids, data with missing values, levels, criteria, times and positive factors; with the Gaussian fit for solvers that do not depend on the unit", "why_tests_cant": "A threshold or tolerance that is not relative shows only for some factors and some data.", "anchors": ["trackeddy/trackeddy.py:TrackEddy.time_tracking", "trackeddy/trackeddy.py:TrackEddy._detect_one_level", "trackeddy/utils.py:_mask_data_in_contour"]}
{"id": "C91", "title": "The result does not depend on the zero of the data", "statement": "If the same constant is added to the data and the levels, time_tracking returns the same eddies; only level and maxima change.", "quantifier": "all grids, data, levels, criteria, times and constants", "why_tests_cant": "The zero of the data enters in the exclusion of the level zero, in the sign of the mean and in the test for islands; it matters for some data only.", "anchors": ["trackeddy/trackeddy.py:TrackEddy._detect_snapshot", "trackeddy/utils.py:_mask_data_in_contour", "trackeddy/trackeddy.py:TrackEddy._detect_one_level"]}
{"id": "C92", "title": "From the dataset to the eddies", "statement": "For a dataset that stores a series of maps on longitudes and latitudes, TrackEddy(dataset, variable) succeeds, and each eddy in the table that time_tracking returns at time t is a contour line, at one of the levels given, of the anomaly (by the chosen spatial filter) of the map with index t, at the longitudes and latitudes of the dataset; its extremum is that of the anomaly among the grid points it encloses.", "quantifier": "all datasets with recognisable time, latitude and longitude dimensions and possibly dimensions of size one, all documented spatial filters, criteria, levels, times in range", "why_tests_cant": "A wrong index, axis or label in one of the steps shows only on fields without symmetry and would have to be compared with an independent computation for each.", "anchors": ["trackeddy/trackeddy.py:TrackEddy.__init__", "trackeddy/trackeddy.py:TrackEddy.time_tracking", "trackeddy/trackeddy.py:TrackEddy._detect_snapshot", "trackeddy/trackeddy.py:TrackEddy._space_filter"]}
{"id": "C93", "title": "The way the data are stored does not matter", "statement": "Two datasets that hold the same series of maps give the same result or the same exception for the same arguments and settings, whatever the names of dimensions and variables, the position of the time among the dimensions, dimensions of size one, and other variables without the names of coordinates.", "quantifier": "all pairs of datasets with recognisable dimensions, latitude before longitude, that store the same series; all settings and arguments", "why_tests_cant": "Quantifies over all layouts and names.", "anchors": ["trackeddy/trackeddy.py:TrackEddy.identify_coords", "trackeddy/trackeddy.py:TrackEddy._detect_snapshot", "trackeddy/trackeddy.py:TrackEddy.time_tracking"]}
{"id": "C94", "title": "Levels may be given in an array or a list, or left out", "statement": "time_tracking accepts the levels as an array or as a list with the same result, and chooses levels itself if none are given.", "quantifier": "all datasets, settings, levels", "why_tests_cant": "Concerns all datasets and settings.", "anchors": ["trackeddy/trackeddy.py:TrackEddy.time_tracking", "trackeddy/trackeddy.py:TrackEddy._detect_snapshot"]}
{"id": "C95", "title": "A range of times selects the snapshots with these indices", "statement": "With t0 and tf given, a call that returns a table has analysed the snapshots with the indices t0 to tf-1, each once and in chronological order; a range that exceeds the data is rejected.", "quantifier": "all datasets that store a series, all t0 and tf", "why_tests_cant": "Off-by-one errors and wrapped indices show only for ranges at the ends of the data.", "anchors": ["trackeddy/trackeddy.py:TrackEddy.time_tracking", "trackeddy/trackeddy.py:TrackEddy._detect_snapshot"]}
{"id": "C96", "title": "A dataset with a single map can be analysed", "statement": "A dataset without a time dimension, which the constructor accepts, is analysed like one with a single time.", "quantifier": "all datasets with recognisable latitude and longitude dimensions and no time, all settings and arguments", "why_tests_cant": "Concerns all such datasets and settings.", "anchors": ["trackeddy/trackeddy.py:TrackEddy.time_tracking", "trackeddy/trackeddy.py:TrackEddy._detect_snapshot"]}
{"id": "C97", "title": "The mean of the raw data does not matter", "statement": "With a spatial filter, which takes a mean away, adding a constant to the data does not change the result of time_tracking.", "quantifier": "all series of maps with missing values, filters, criteria, levels, times", "why_tests_cant": "The effect is confined to points near the border and depends on the ratio of the constant to the levels.", "anchors": ["trackeddy/trackeddy.py:TrackEddy._space_filter", "trackeddy/trackeddy.py:TrackEddy.time_tracking"]}
{"id": "C98", "title": "Every documented spatial filter can be used on every accepted dataset", "statement": "On a dataset that the constructor accepts, the filters named in the error message of the package (convolution, meridional, zonal) do not raise an exception.", "quantifier": "all accepted datasets, filters, arguments", "why_tests_cant": "Concerns all accepted combinations of dimensions and variables.", "anchors": ["trackeddy/trackeddy.py:TrackEddy._space_filter", "trackeddy/trackeddy.py:TrackEddy.identify_coords"]}
{"id": "C99", "title": "The table of discarded contours explains every rejection", "statement": "The second table returned for a level, detected with empty registers, has one row for each discarded contour line of the data, in order and numbered from zero; the row gives the level, the mean of the vertices, area and radius (NaN if a vertex is missing), the reason, and the quantity because of which the contour fails: radius_eddy above the maximal size at contour_y, ellipse_eccen above the maximal eccentricity, contour_ellipse_error above the threshold, maxima zero, contour_gaussian_error below the threshold.", "quantifier": "all gridded data with missing values, levels, criteria, library answers", "why_tests_cant": "Each reason is reached by a different history of the attributes; a stale or unset attribute shows only for some contours.", "anchors": ["trackeddy/trackeddy.py:TrackEddy._detect_one_level", "trackeddy/eddy.py:Eddy.discarded", "trackeddy/decorators.py:check_return_eddies"]}
{"id": "C100", "title": "The plot of a level shows the result of every detection", "statement": "plot_eddy_detection_in_level draws, for whatever the detection of a level returned, every eddy and one mark for every discarded contour at its centre, in the colour that the legend gives for its reason.", "quantifier": "all gridded data, levels, criteria", "why_tests_cant": "Concerns all results, also those without eddies or without discarded contours; images are not compared by tests.", "anchors": ["trackeddy/trackeddy.py:TrackEddy.plot_eddy_detection_in_level"]}
{"id": "C101", "title": "The plot of several levels shows each eddy in the colour that the legend gives for its level", "statement": "plot_eddy_detection_multilevel draws every eddy of a table in the colour that the legend shows for its level, and eddies of different levels in different colours.", "quantifier": "all tables, numbers of levels and colours", "why_tests_cant": "Concerns all numbers of levels; images are not compared by tests.", "anchors": ["trackeddy/trackeddy.py:TrackEddy.plot_eddy_detection_multilevel"]}
{"id": "C102", "title": "Eddies of positive levels are elevations above the level, eddies of negative levels depressions below it", "statement": "Every eddy that time_tracking returns for a positive level has sign 1 and an extremum above the level; every eddy returned for a negative level has sign -1 and an extremum that is not above the level.", "quantifier": "all gridded data with missing values, levels, criteria, times, answers of the optimiser", "why_tests_cant": "Depends on data around the contour, filters and the optimiser; a comment in the code leaves the case open.", "anchors": ["trackeddy/trackeddy.py:TrackEddy._detect_one_level", "trackeddy/geometry.py:Fit_Surface._fitting", "trackeddy/utils.py:_mask_data_in_contour"]}
{"id": "C103", "title": "The Gaussian is fitted to the data enclosed by the contour and compared at the level of the eddy", "statement": "With the Gaussian fit, each returned eddy was fitted to the data at exactly the grid points that the pixels of its contour enclose, the other data of the window being missing, with the reported extremum as amplitude and its position and the ellipse as initial guess; the reported parameters are those of the optimiser, and contour_gaussian_error is the similarity of the contour with the contour lines, at the level of the eddy, of the Gaussian with these parameters.", "quantifier": "all rectilinear gridded data with missing values, levels, criteria, times, answers of the optimiser", "why_tests_cant": "Data outside the contour that leak into the fit change the parameters a little and unpredictably.", "anchors": ["trackeddy/trackeddy.py:TrackEddy._data_in_contour", "trackeddy/trackeddy.py:TrackEddy._detect_one_level", "trackeddy/geometry.py:Fit_Surface"]}
{"id": "C104", "title": "The order in which a dataset stores latitude and longitude does not matter", "statement": "A dataset that stores its maps with the longitude before the latitude gives the same result of time_tracking as the dataset with the usual order.", "quantifier": "all datasets with recognisable dimensions and one-dimensional coordinates, sizes, filters, criteria, levels, times", "why_tests_cant": "The exception depends on the sizes of the grid; on square grids nothing fails and the maps are analysed with rows and columns exchanged.", "anchors": ["trackeddy/trackeddy.py:TrackEddy.__init__", "trackeddy/trackeddy.py:TrackEddy._detect_snapshot", "trackeddy/trackeddy.py:TrackEddy._space_filter"]}
{"id": "C105", "title": "Elevations and depressions are treated alike", "statement": "Analysing the data with reversed sign at the levels with reversed sign gives the same eddies, with level, sign and extremum reversed.", "quantifier": "all gridded data with missing values, levels, criteria", "why_tests_cant": "The difference shows only for contours whose similarity with the ellipse is near the threshold; tests use one sign.", "anchors": ["trackeddy/trackeddy.py:TrackEddy._detect_one_level", "trackeddy/geometry.py:fit_ellipse", "trackeddy/geometry.py:compute_similarity", "trackeddy/src/cntr.c:cntr_trace"]}
{"id": "C106", "title": "The result does not depend on where longitudes are counted from", "statement": "A map whose longitudes are all written 360 degrees higher or lower gives the same eddies, with the longitudes of contour, centre and extremum shifted by 360 degrees.", "quantifier": "all rectilinear gridded data with missing values, levels, criteria, numbers of turns", "why_tests_cant": "The search box for grid points grows with the absolute longitude, so results differ only for contours that are large compared with it; tests use one longitude convention.", "anchors": ["trackeddy/trackeddy.py:TrackEddy._data_in_contour", "trackeddy/trackeddy.py:TrackEddy._detect_one_level", "trackeddy/geometry.py:area_latlon_polygon", "trackeddy/geometry.py:fit_ellipse"]}
{"id": "C107", "title": "Tracks are continuous", "statement": "In the table returned by time_tracking every eddy of a track, except the earliest, has its maximum within its own radius of the maximum of the same track at the last time it was seen before; an eddy that begins a new track has no end of a known track within its radius.", "quantifier": "all fields, levels, numbers of time steps, gaps in the tracks", "why_tests_cant": "A jump in a track needs a particular arrangement of eddies at several levels and times; tests follow one or two eddies.", "anchors": ["trackeddy/trackeddy.py:TrackEddy.time_tracking", "trackeddy/utils.py"]}
{"id": "C108", "title": "The contour of every eddy is closed", "statement": "Every eddy in the table returned by time_tracking has a closed contour: the last row of its contour_path columns repeats the first. In particular an elevation or depression that is cut off by the edge of the map is not returned as an eddy.", "quantifier": "all fields with or without missing values, all levels and criteria", "why_tests_cant": "Contours at the edge of the map are nearly always rejected for other reasons, so examples do not show whether a test for closed contours exists.", "anchors": ["trackeddy/trackeddy.py:TrackEddy._detect_one_level", "trackeddy/geometry.py:extract_contours", "trackeddy/src/cntr.c"]}
{"id": "C109", "title": "Contour lines do not cross", "statement": "On a grid with ascending or descending coordinates, contours of different levels have no point in common, also where values are missing or equal to the levels. Contours of one level that is not a value of the data do not touch themselves or each other, and no piece of them is a single point. The contours of two different eddies that time_tracking returns for one time therefore never intersect, unless both have a level that is a value of the data.", "quantifier": "all rectilinear gridded data with missing values, all pairs of levels, all contours, pieces and points on them", "why_tests_cant": "The way saddle cells are resolved decides whether lines of neighbouring levels intersect; this depends on the four corner values and the two levels and concerns every point of the lines.", "anchors": ["trackeddy/geometry.py:extract_contours", "trackeddy/src/cntr.c:zone_crosser", "trackeddy/src/cntr.c:edge_walker", "trackeddy/src/cntr.c:data_init"]}
{"id": "C110", "title": "The contours inside a part of the map do not depend on the rest", "statement": "Cutting a rectangular part out of a map does not change the contours inside it: the contours that extract_contours returns for the part and those it returns for the whole map, as far as all their vertices lie inside the part and not on its boundary, are exactly the same, with the same vertices, start, direction and order. Two maps with the same values in a rectangle have the same contours inside it.", "quantifier": "all rectilinear gridded data with missing values, all rectangular parts, levels, contents of uninitialised memory", "why_tests_cant": "The tracer marks starting points row by row over the whole map and erases them while it follows other contours; interference between distant contours depends on their order and shows on few maps.", "anchors": ["trackeddy/geometry.py:extract_contours", "trackeddy/src/cntr.c:data_init", "trackeddy/src/cntr.c:curve_tracer", "trackeddy/src/cntr.c:cntr_trace"]}
{"id": "C111", "title": "Contours are returned with a fixed start, direction and order", "statement": "The list that extract_contours returns is determined by the data: contours are listed by the position of their first vertex, row by row; a closed contour starts at the first of the places where it could start and has the higher values on its left, all along, so that contours around high values are run through counterclockwise and contours around low values clockwise when both coordinates ascend; a contour that ends at the border starts at one of its ends, given by a fixed rule. Nothing else (allocation, uninitialised memory, other contours) has an influence.", "quantifier": "all gridded data with missing values, levels, contours and pieces of contours; direction in coordinates for full data on ascending grids and levels that are not values of the data", "why_tests_cant": "The start is the outcome of marks that are set in a first pass over all contours and erased in a second one; for most maps any choice gives the same start, and direction matters only for the similarity with the fitted ellipse.", "anchors": ["trackeddy/geometry.py:extract_contours", "trackeddy/src/cntr.c:data_init", "trackeddy/src/cntr.c:curve_tracer", "trackeddy/src/cntr.c:edge_walker", "trackeddy/src/cntr.c:cntr_trace"]}
{"id": "C112", "title": "Eddies depend only on the data around them", "statement": "Two maps on the same grid that have the same values in a rectangle and a margin around it (half the larger side, at least three rows and columns) have the same contours of a level inside the rectangle, and for each of these contours the same outcome: skipped, discarded for the same reason, or the same eddy with the same contour, area, radius, ellipse, extremum, Gaussian and scores. Runs with one level over such maps return at each time the same eddies inside the rectangle, in the same order.", "quantifier": "all pairs of maps on the same rectilinear grid, missing values included, all rectangles, levels and criteria, with or without the Gaussian fit; data after filtering", "why_tests_cant": "A test would have to vary all data outside of all rectangles; the grid points of a contour are searched in the whole map, the window is cut by clamping loops and the holes are filled in the window.", "anchors": ["trackeddy/trackeddy.py:TrackEddy._detect_one_level", "trackeddy/trackeddy.py:TrackEddy._data_in_contour", "trackeddy/trackeddy.py:TrackEddy._get_data_in_contour", "trackeddy/utils.py:_mask_data_in_contour", "trackeddy/geometry.py:extract_contours"]}
{"id": "C113", "title": "A part of a map can be analysed alone", "statement": "Cutting a rectangular part out of a map and analysing it alone gives the same eddies away from the cut: for every rectangle inside the part that keeps a distance of half its larger side, and at least three rows and columns, from the edges of the part that are not edges of the map, the contours of a level inside the rectangle are the same for the part and for the whole map, and each is skipped, discarded for the same reason, or accepted as the same eddy. Runs with one level over the parts return inside the rectangle the same eddies as runs over the maps, in the same order.", "quantifier": "all rectilinear maps with missing values, all parts and rectangles, levels and criteria, with or without the Gaussian fit; data after filtering; no vertex equally near to several grid points", "why_tests_cant": "All indices change with the part: the nearest points, the window, the clamping at the edges, the holes. Users cut out regions of global data all the time.", "anchors": ["trackeddy/trackeddy.py:TrackEddy._detect_one_level", "trackeddy/trackeddy.py:TrackEddy._data_in_contour", "trackeddy/trackeddy.py:TrackEddy._get_data_in_contour", "trackeddy/utils.py:_mask_data_in_contour", "trackeddy/geometry.py:extract_contours"]}
{"id": "C114", "title": "What the default settings accept", "statement": "With the settings of a new TrackEddy object every eddy that time_tracking returns is a contour line of the data of its time minus their mean over squares of 11 by 11 grid points; its radius is at most 2 pi deformation radii of its latitude; its ellipse has an eccentricity of at most 0.85 and an area within 8.5 percent of that of the contour; the score of the ellipse is at most 0.85 and, unless the Gaussian fit is left out, the score of the Gaussian at least 0.8. Conversely a contour that gives an eddy with some other choice of the thresholds, and meets these bounds, gives it with the settings of a new object.", "quantifier": "all datasets that store a series of maps, levels, times", "why_tests_cant": "Defaults pass through the constructor, the filter and all tests of the loop; no test states what they amount to for the result.", "anchors": ["trackeddy/trackeddy.py:TrackEddy.__init__", "trackeddy/trackeddy.py:TrackEddy._detect_one_level", "trackeddy/trackeddy.py:TrackEddy._space_filter"]}
{"id": "C115", "title": "Data that are not maps are refused", "statement": "If at one of the requested times the variable does not have exactly two dimensions of size larger than one, time_tracking raises an exception instead of returning a table, with any filter, for all levels of which one is not zero; with the default filter for all levels.", "quantifier": "all datasets the constructor accepts, filters, levels, times", "why_tests_cant": "The constructor accepts such variables; what happens later depends on the filter.", "anchors": ["trackeddy/trackeddy.py:TrackEddy.time_tracking", "trackeddy/trackeddy.py:TrackEddy._detect_snapshot", "trackeddy/trackeddy.py:TrackEddy._space_filter"]}
{"id": "C116", "title": "A region can be cut out of a dataset", "statement": "With a uniform filter of k by k grid points, or unfiltered data, the eddies that time_tracking returns for one level inside a rectangle depend only on the raw data around it: two datasets with the same times, latitudes and longitudes whose data agree in the rectangle and up to half its larger side (at least three rows and columns) plus half the filter around it give at each time the same eddies inside the rectangle, in the same order. A dataset cut out of another one gives inside a rectangle that keeps this distance from the cut the same contours, outcomes and eddies as the dataset it is cut out of.", "quantifier": "all datasets that store series of maps with missing values on ordered latitudes and longitudes, all regions and rectangles, filter sizes, criteria, times, one level; for cuts no vertex equally near to several grid points", "why_tests_cant": "Filter, contours, nearest points, window and tracking all change their indices with the region, and the filter its normalisation at the edges; a test sees one region of one dataset.", "anchors": ["trackeddy/trackeddy.py:TrackEddy.time_tracking", "trackeddy/trackeddy.py:TrackEddy._space_filter", "trackeddy/trackeddy.py:TrackEddy._detect_one_level", "trackeddy/trackeddy.py:TrackEddy._data_in_contour"]}
{"id": "C117", "title": "Ascending or descending coordinates make no difference", "statement": "A dataset whose latitudes, longitudes or both are stored in the opposite order, with the data rearranged accordingly, gives the same eddies: the same contours, levels, areas, radii, signs, extremum values and positions.", "quantifier": "all datasets that store series of maps with missing values on ordered latitudes and longitudes, filters, criteria, levels, times", "why_tests_cant": "Satellite products come in both orders; the tracer starts elsewhere and runs the other way round, which changes the order and start of the vertices, on which the centre and the similarity with the ellipse depend. Whether that changes a decision depends on a score near its threshold.", "anchors": ["trackeddy/trackeddy.py:TrackEddy.time_tracking", "trackeddy/trackeddy.py:TrackEddy._detect_one_level", "trackeddy/geometry.py:extract_contours", "trackeddy/geometry.py:fit_ellipse", "trackeddy/geometry.py:eccentricity"]}
{"id": "C118", "title": "A period can be analysed alone", "statement": "time_tracking over the time indices t0..tf-1 of a dataset gives the same eddies, tracks and identifiers as a run over the whole of a dataset that was cut to these times beforehand (isel), with the times counted from t0.", "quantifier": "all datasets that store series of maps, valid filters, criteria, levels, periods, values of ntimes, and nearest neighbour functions", "why_tests_cant": "How far the tracking looks back is counted in absolute time indices; whether that matters depends on t0, ntimes and the times with eddies, and the cases in the tests all start at zero.", "anchors": ["trackeddy/trackeddy.py:TrackEddy.time_tracking"]}
{"id": "C119", "title": "Later data have no influence on earlier results", "statement": "If two datasets on the same grid agree before some time, then the tables of their runs agree before this time, row for row and with the same identifiers, whatever the later maps are and however many there are; an exception raised before this time is raised by both.", "quantifier": "all pairs of datasets that store series of maps on the same grid and agree before a time, valid filters, criteria, levels, ntimes, ends of the runs", "why_tests_cant": "The statement compares all continuations of all datasets; a test extends one dataset in one way. Identifiers, gaps and the filter could all be computed from the whole series.", "anchors": ["trackeddy/trackeddy.py:TrackEddy.time_tracking", "trackeddy/trackeddy.py:TrackEddy._space_filter"]}
{"id": "C120", "title": "Which eddies several levels give", "statement": "Without the Gaussian fit, if each level alone can be examined then all levels together can, and the eddies follow a rule: the levels are taken in the given order, and at each one those eddies are added whose extremum is not within their radius of the extremum of an eddy added at an earlier level; nothing that has been added is changed or removed.", "quantifier": "all maps, criteria with the Gaussian fit switched off, lists of levels, states left by earlier analyses, times", "why_tests_cant": "The rule has to hold for every list of levels and every arrangement of eddies; the merge goes through renumbering, dropping and concatenating of tables, where errors show only for particular numbers of eddies per level.", "anchors": ["trackeddy/trackeddy.py:TrackEddy._detect_snapshot", "trackeddy/utils.py:_detect_nearest", "trackeddy/utils.py:_update_better_eddy", "trackeddy/utils.py:_merge_reindex_eddies"]}
{"id": "C121", "title": "Adding levels does not lose eddies", "statement": "If levels are added at the end of the list of levels, every contour point of the table of the shorter list, with all its columns except the identifier, is in the table of the longer list.", "quantifier": "all maps, criteria, lists of levels, added levels, times", "why_tests_cant": "Tests use one list of levels; the claim compares two runs whose merges go differently.", "anchors": ["trackeddy/trackeddy.py:TrackEddy._detect_snapshot", "trackeddy/utils.py:_update_better_eddy"]}
{"id": "C122", "title": "Order and repetition of levels do not matter", "statement": "The table depends on the set of levels only: listing the levels in another order, or one of them twice, gives the same eddies.", "quantifier": "all maps, criteria, lists of levels with the same elements, times", "why_tests_cant": "A test compares two orders on one map; whether the order matters depends on where eddies of different levels lie relative to one another.", "anchors": ["trackeddy/trackeddy.py:TrackEddy._detect_snapshot", "trackeddy/utils.py:_detect_nearest", "trackeddy/utils.py:_update_better_eddy"]}
{"id": "C123", "title": "Tracks do not depend on eddies elsewhere", "statement": "Adding eddies to the data or taking some away does not change which of the other eddies are joined to a track.", "quantifier": "all pairs of runs whose tables share a set of eddies", "why_tests_cant": "Each test has one set of eddies; the claim compares runs on different ones, with all the choices the linking makes in each.", "anchors": ["trackeddy/trackeddy.py:TrackEddy.time_tracking", "trackeddy/utils.py:track_online"]}
{"id": "C124", "title": "A region can be tracked alone", "statement": "For a region cut out of a larger dataset, or two datasets that agree around a rectangle, runs with one level have the same eddies well inside it, joined to the same tracks, provided that in both runs eddies at one time do not overlap, radii are positive, eddies inside and outside the rectangle never come within each other's radius, and no two candidates inside are equally near.", "quantifier": "all datasets, regions, rectangles, uniform filters, criteria, levels, ranges of times", "why_tests_cant": "The eddies outside the region differ between the runs in any number, and so do the tables the linking searches; a test compares a few.", "anchors": ["trackeddy/trackeddy.py:TrackEddy.time_tracking", "trackeddy/utils.py:track_online", "trackeddy/trackeddy.py:TrackEddy._filter_data_"]}
{"id": "C125", "title": "Both hemispheres are treated alike", "statement": "For a map given with the latitudes of opposite sign, the detection gives the mirror images of the eddies of the map: same areas, radii, axes, eccentricities, amplitudes and signs, opposite latitudes.", "quantifier": "all rectilinear maps, levels, criteria", "why_tests_cant": "Tests use one map in one hemisphere; the mirror image runs through the contour tracer, the ellipse fit and the similarity with another orientation, and which of them depend on it shows only for particular shapes.", "anchors": ["trackeddy/trackeddy.py:TrackEddy._detect_one_level", "trackeddy/geometry.py:fit_ellipse", "trackeddy/geometry.py:compute_similarity"]}
{"id": "C126", "title": "Tracks follow from distances and radii", "statement": "Two runs on different data whose detections correspond, contour by contour, with the same radii, great-circle distances between extrema, numbers of contour points and scores, give the same identifiers at the same times, each row being that of the corresponding contour point of the corresponding eddy, or both raise the same exception. Position on the globe, amplitude and shape have no other influence on the linking.", "quantifier": "all pairs of datasets, levels, criteria, ranges of times, look-back windows, correspondences of eddies that keep distances, radii, numbers of points and scores", "why_tests_cant": "The linking goes through searches, renumbering and concatenation of tables of any size; that nothing else is read shows only by comparing all runs with the same distances.", "anchors": ["trackeddy/trackeddy.py:TrackEddy.time_tracking", "trackeddy/utils.py:track_online", "trackeddy/utils.py:_detect_nearest", "trackeddy/utils.py:_update_better_eddy"]}
{"id": "C127", "title": "The Gaussian fit only selects among the eddies found without it", "statement": "Switching the Gaussian fit on removes eddies from a level and changes no other: the eddies found with it are found without it, with the same values apart from those of the fit; the removed ones are listed as discarded for the fit, the other discarded contours stay the same, and the run succeeds whenever it does without the fit and least_squares answers.", "quantifier": "all maps, levels, criteria, answers of least_squares, ball trees", "why_tests_cant": "The fit runs on whatever contours a map has; which of them make it fail or leak into the other columns depends on shapes no test enumerates.", "anchors": ["trackeddy/trackeddy.py:TrackEddy._detect_one_level", "trackeddy/eddy.py:Eddy", "trackeddy/geometry.py:Fit_Surface", "trackeddy/geometry.py:fit_ellipse"]}
{"id": "C128", "title": "Which eddies several levels give, with the Gaussian fit", "statement": "With any settings, if each level alone can be examined and the eddies found at one level are at least the sum of their radii apart, then all levels together can, and the eddies follow a rule: the levels are taken in the given order; an eddy whose extremum is within its radius of that of the nearest eddy kept so far replaces it if both its scores are lower and is dropped otherwise; any other is added. A further level never gives fewer eddies. Whole runs link what this rule leaves.", "quantifier": "all maps, criteria, lists of levels, states left by earlier analyses, times, answers of least_squares and the ball tree", "why_tests_cant": "The rule has to hold for every list of levels and every arrangement of eddies and scores; the merge goes through renumbering, dropping and concatenating of tables, where errors show only for particular numbers of eddies per level.", "anchors": ["trackeddy/trackeddy.py:TrackEddy._detect_snapshot", "trackeddy/utils.py:_detect_nearest", "trackeddy/utils.py:_update_better_eddy", "trackeddy/utils.py:_merge_reindex_eddies"]}
{"id": "C129", "title": "The area of a contour is the sum of the areas of its parts", "statement": "If a polygon is cut in two along the line between two of its vertices, the areas that area_latlon_polygon gives for the two parts, each listed in the sense of the polygon, add up to the area it gives for the polygon (or differ by it, if the line lies outside).", "quantifier": "all closed polygons in longitude and latitude and all pairs of their vertices", "why_tests_cant": "The area is a sum over edges with wrapped differences of azimuths; for which cuts the contributions of the new edge cancel depends on where it lies relative to the point (0,0), of which tests sample a few.", "anchors": ["trackeddy/geometry.py:area_latlon_polygon"]}
{"id": "C130", "title": "The similarity of closed curves does not depend on how they are listed", "statement": "compute_similarity of two closed curves is the same from whichever vertex, and in whichever direction, either of them is listed.", "quantifier": "all pairs of closed curves and all their listings", "why_tests_cant": "Contours start where the tracing of the grid meets them and the fitted ellipse starts at angle zero; the tests compare lists that start at the same place.", "anchors": ["trackeddy/geometry.py:compute_similarity", "trackeddy/geometry.py:frdist", "trackeddy/geometry.py:arc_length"]}
{"id": "C131", "title": "The tests on the shape do not depend on size and position", "statement": "If a contour is enlarged by a factor and moved, fit_ellipse returns the enlarged and moved curve, the semi axes multiplied by the factor and the same angle, or raises the same exception; the eccentricity and the similarity of contour and ellipse stay the same.", "quantifier": "all contours, positive factors and displacements, recursion limits", "why_tests_cant": "The least squares system mixes powers of the coordinates, so that its entries change by different factors; a test checks one factor on one contour.", "anchors": ["trackeddy/geometry.py:fit_ellipse", "trackeddy/geometry.py:eccentricity", "trackeddy/geometry.py:compute_similarity"]}
{"id": "C132", "title": "Contouring frees what it allocates and uses nothing it has freed", "statement": "A call of extract_contours touches no freed memory and no null pointer; afterwards exactly the returned list and its arrays (two for each contour) are allocated in addition, or nothing if the arguments are refused with ValueError. Over any number of calls whose results are given up, memory does not grow and the reference counts of the arguments are unchanged.", "quantifier": "all arguments (used as they are, copied or refused; with or without mask), all numbers of contours and segments, all sequences of calls", "why_tests_cant": "Reading freed memory usually goes unnoticed and a leak of one reference per call shows only after long runs; tests would have to be run under a memory checker for every combination of arguments and contours.", "anchors": ["trackeddy/src/cntr.c:Cntr_new", "trackeddy/src/cntr.c:Cntr_init", "trackeddy/src/cntr.c:Cntr_clear", "trackeddy/src/cntr.c:cntr_del", "trackeddy/src/cntr.c:cntr_trace", "trackeddy/src/cntr.c:build_cntr_list_v2", "trackeddy/src/cntr.c:reorder", "trackeddy/geometry.py:extract_contours"]}
{"id": "C133", "title": "Running out of memory while contouring ends in MemoryError", "statement": "If an allocation fails during extract_contours, the call raises MemoryError, no freed memory or null pointer is used, and nothing stays allocated.", "quantifier": "all sets of failing allocations, all arguments, all numbers of contours and segments", "why_tests_cant": "Allocations practically never fail in tests, and each of the many allocations has its own recovery path.", "anchors": ["trackeddy/src/cntr.c:Cntr_new", "trackeddy/src/cntr.c:cntr_init", "trackeddy/src/cntr.c:Cntr_init", "trackeddy/src/cntr.c:cntr_trace", "trackeddy/src/cntr.c:build_cntr_list_v2", "trackeddy/src/cntr.c:reorder"]}
{"id": "C134", "title": "Rounding errors change contours only slightly", "statement": "The contours that extract_contours computes in double precision are those of exact arithmetic: as many contours, each with as many vertices, and each vertex moved by at most 6 rounding units times the length of the side it lies on plus one rounding unit times the size of its coordinates.", "quantifier": "all coordinates, data and levels, all roundings with relative error up to 1/100 (doubles: 2^-53); no overflow or underflow", "why_tests_cant": "Rounding errors depend on the last digits of the data; which side of a saddle the tracer takes hangs on the sign of a rounded mean, and tests meet such cells only by chance.", "anchors": ["trackeddy/src/cntr.c:zone_crosser", "trackeddy/src/cntr.c:curve_tracer", "trackeddy/geometry.py:extract_contours"]}
{"id": "C135", "title": "Rounding errors change the similarity score by at most one unit in its last digit", "statement": "The score that compute_similarity returns in double precision differs from the score of exact arithmetic by at most 0.0001 and lies between 0 and 1; it is NaN for the same curves, and the same exceptions are raised. The Frechet distance has a relative error of at most 4 rounding units.", "quantifier": "all pairs of curves with up to 10^11 points, all roundings with relative error 2^-53, all implementations of the length of a vector that are accurate to one unit in the last place; no overflow or underflow", "why_tests_cant": "The score adds up rounding errors of the lengths of all segments and of the distances of all pairs of points; tests compare a few scores with values computed by the same code.", "anchors": ["trackeddy/geometry.py:compute_similarity", "trackeddy/geometry.py:frdist", "trackeddy/geometry.py:arc_length"]}
{"id": "C136", "title": "Contouring with rounding errors is safe and complete on every map", "statement": "Whatever the rounding errors, extract_contours terminates without reading or writing outside its arrays, and the contours it returns pass through every crossed side of every cell exactly once; they run as the exact contours of some map that lies on the same side of the level at every grid point. In double precision every vertex is next to the point in which the level crosses its side.", "quantifier": "all coordinates, data (missing values included) and levels, all rounding functions (for the position of the vertices: all with relative error up to 1/100; no overflow or underflow)", "why_tests_cant": "The tracer decides saddle cells by a rounded mean and stores the decision for later visits from other sides; a contradiction between visits would send it round in circles or out of the mesh, and it depends on the last digits of the data.", "anchors": ["trackeddy/src/cntr.c:zone_crosser", "trackeddy/src/cntr.c:curve_tracer", "trackeddy/src/cntr.c:cntr_trace", "trackeddy/geometry.py:extract_contours"]}
{"id": "C137", "title": "With several levels, relaxed criteria lose no eddies", "statement": "If the maximal area and eccentricity and the limit of the ellipse fit are raised (and the limit of the Gaussian fit lowered), the table returned for the same data and the same levels contains every eddy it contained before, with the same columns.", "quantifier": "all data, lists of levels, pairs of criteria of which one relaxes the other, all time ranges", "why_tests_cant": "A contour that newly qualifies at one level hides the eddies of later levels in its neighbourhood; tests use one set of criteria per map.", "anchors": ["trackeddy/trackeddy.py:TrackEddy._detect_snapshot", "trackeddy/trackeddy.py:TrackEddy._detect_one_level", "trackeddy/trackeddy.py:TrackEddy.time_tracking"]}
