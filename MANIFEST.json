{
 "claims": [
  {
   "property": "C01",
   "status": "proved",
   "theorems": [
    "Trackeddy.C01_from_data",
    "Trackeddy.C01_identifiers_contiguous",
    "Trackeddy.C01_table_sorted"
   ],
   "note": ""
  },
  {
   "property": "C02",
   "status": "proved",
   "theorems": [
    "Trackeddy.C02_from_data",
    "Trackeddy.C02_history_append_only"
   ],
   "note": ""
  },
  {
   "property": "C03",
   "status": "proved",
   "theorems": [
    "Trackeddy.C03_time_by_time",
    "Trackeddy.C03_from_data",
    "Trackeddy.C03_no_detection_lost_or_invented"
   ],
   "note": ""
  },
  {
   "property": "C04",
   "status": "proved",
   "theorems": [
    "Trackeddy.C04_from_data",
    "Trackeddy.C04_from_data_columns",
    "Trackeddy.C04_level_by_level",
    "Trackeddy.C04_several_levels",
    "Trackeddy.C04_linking_rule"
   ],
   "note": "stated for snapshots in which each identifier names one eddy (C15); for all data and any number of levels without the Gaussian fit: C04_several_levels"
  },
  {
   "property": "C05",
   "status": "partial",
   "theorems": [
    "Trackeddy.C05_partial_great_circle",
    "Trackeddy.C05_partial_from_data",
    "Trackeddy.C05_partial_level_by_level",
    "Trackeddy.C05_refuted_from_data",
    "Trackeddy.C05_partial_several_levels",
    "Trackeddy.C05_refuted",
    "Trackeddy.C05_partial"
   ],
   "note": "false as stated (C05_refuted); proved when the eddies of each snapshot are farther apart than the sum of their radii; for all data and any number of levels without the Gaussian fit: C05_partial_several_levels; false from the data on as well: C05_refuted_from_data, two nested contour lines around the same extremum, for any correct search for nearest neighbours and any libraries"
  },
  {
   "property": "C06",
   "status": "partial",
   "theorems": [
    "Trackeddy.C06_partial_from_data",
    "Trackeddy.C06_refuted_from_data",
    "Trackeddy.C06_partial_level_by_level",
    "Trackeddy.C06_partial_several_levels",
    "Trackeddy.C06_refuted",
    "Trackeddy.C06_partial",
    "Trackeddy.C06_gap_free_runs_succeed",
    "Trackeddy.C06_late_start_fails"
   ],
   "note": "false as stated (C06_refuted); exact success condition proved, KeyError otherwise; for all data and any number of levels without the Gaussian fit: C06_partial_several_levels; refuted from maps on, by a gap and by a late start: C06_refuted_from_data"
  },
  {
   "property": "C07",
   "status": "partial",
   "theorems": [
    "Trackeddy.C07_from_data",
    "Trackeddy.C07_refuted_from_data",
    "Trackeddy.C07_ntimes_has_no_effect",
    "Trackeddy.C07_refuted"
   ],
   "note": "false as stated: ntimes never changes a returned table (C07_ntimes_has_no_effect, C07_from_data) and a long lost eddy is re-linked, on tables (C07_refuted) and from two maps on for a loss of any length and any ntimes (C07_refuted_from_data)"
  },
  {
   "property": "C08",
   "status": "partial",
   "theorems": [
    "Trackeddy.C08_partial_from_data",
    "Trackeddy.C08_refuted_from_data",
    "Trackeddy.C08_partial",
    "Trackeddy.C08_refuted"
   ],
   "note": "proved for tf given and non-zero; false with tf omitted: t0 is ignored (C08_refuted); from maps on C08_refuted_from_data: with tf omitted the eddy of the time 0 is returned whatever t0 is"
  },
  {
   "property": "C09",
   "status": "partial",
   "theorems": [
    "Trackeddy.C09_refuted_from_data",
    "Trackeddy.C09_refuted_level_by_level",
    "Trackeddy.C09_refuted_several_levels",
    "Trackeddy.C09_refuted",
    "Trackeddy.C09_typeError",
    "Trackeddy.C09_partial"
   ],
   "note": "false as stated: with tf omitted a run succeeds iff at most one snapshot has eddies (C09_refuted); for all data and any number of levels without the Gaussian fit: C09_refuted_several_levels"
  },
  {
   "property": "C10",
   "status": "partial",
   "theorems": [
    "Trackeddy.C10_partial_from_data",
    "Trackeddy.C10_runs",
    "Trackeddy.C10_refuted_from_data",
    "Trackeddy.C10_partial_level_by_level",
    "Trackeddy.C10_partial_several_levels",
    "Trackeddy.C10_partial",
    "Trackeddy.C10_refuted"
   ],
   "note": "false as stated (C10_refuted): the first non-empty snapshot is not written; all others are, once each; for all data and any number of levels without the Gaussian fit: C10_partial_several_levels; refuted from maps on: C10_refuted_from_data; success of the runs: C10_runs"
  },
  {
   "property": "C11",
   "status": "proved",
   "theorems": [
    "Trackeddy.C11_paths_injective",
    "Trackeddy.C11_path"
   ],
   "note": ""
  },
  {
   "property": "C12",
   "status": "proved",
   "theorems": [
    "Trackeddy.C12_from_data",
    "Trackeddy.C12_snapshot_contiguous_sorted",
    "Trackeddy.C12_feeds_tracking"
   ],
   "note": ""
  },
  {
   "property": "C13",
   "status": "proved",
   "theorems": [
    "Trackeddy.C13_merge_rule"
   ],
   "note": ""
  },
  {
   "property": "C14",
   "status": "partial",
   "theorems": [
    "Trackeddy.C14_refuted_from_data",
    "Trackeddy.C14_refuted"
   ],
   "note": "false: the negation is proved for all pairs of comparable duplicates (C14_refuted), and from a map on for one map (C14_refuted_from_data)"
  },
  {
   "property": "C15",
   "status": "partial",
   "theorems": [
    "Trackeddy.C15_partial_great_circle",
    "Trackeddy.C15_refuted",
    "Trackeddy.C15_partial",
    "Trackeddy.C15_unique_key"
   ],
   "note": "false as stated (C15_refuted); proved when the eddies of each level are farther apart than the sum of their radii"
  },
  {
   "property": "C16",
   "status": "proved",
   "theorems": [
    "Trackeddy.C16_from_data",
    "Trackeddy.C16_from_data_runs",
    "Trackeddy.C16_from_data_order",
    "Trackeddy.C16_zero_levels_removed",
    "Trackeddy.C16_zero_level_unused",
    "Trackeddy.C16_levels_in_order"
   ],
   "note": ""
  },
  {
   "property": "C17",
   "status": "proved",
   "theorems": [
    "Trackeddy.C17_stored_iff_all_criteria",
    "Trackeddy.C17_level"
   ],
   "note": ""
  },
  {
   "property": "C18",
   "status": "proved",
   "theorems": [
    "Trackeddy.C18_reason_is_first_failed",
    "Trackeddy.C18_passes_fails_exclusive",
    "Trackeddy.C18_counts_add_up"
   ],
   "note": "counts and reasons of a level detected in a fresh session; see C21 for the effect of earlier levels on the discarded table"
  },
  {
   "property": "C19",
   "status": "proved",
   "theorems": [
    "Trackeddy.C19_from_data",
    "Trackeddy.C19_level_independent_of_history",
    "Trackeddy.C19_level_table",
    "Trackeddy.C19_snapshot",
    "Trackeddy.C19_snapshot_contiguous"
   ],
   "note": ""
  },
  {
   "property": "C20",
   "status": "partial",
   "theorems": [
    "Trackeddy.C20_from_data",
    "Trackeddy.C20_refuted",
    "Trackeddy.C20_exact_contamination",
    "Trackeddy.C20_partial",
    "Trackeddy.C20_refuted_from_data",
    "Trackeddy.C20_refuted_runs"
   ],
   "note": "false as stated (C20_refuted); exact contamination proved; holds when nothing was stored before the exception; from maps on C20_refuted_from_data: after n calls that raise, a level with one contour line returns n + 1 eddies; the same for whole runs in one session (C20_refuted_runs)"
  },
  {
   "property": "C21",
   "status": "partial",
   "theorems": [
    "Trackeddy.C21_refuted_from_data",
    "Trackeddy.C21_partial_from_data",
    "Trackeddy.C21_refuted",
    "Trackeddy.C21_partial"
   ],
   "note": "false as stated (C21_refuted, and from a map on C21_refuted_from_data: the (n + 1)-th call for a level with one contour line lists n + 1 discarded contours); proved when every earlier level stored an eddy or discarded nothing"
  },
  {
   "property": "C22",
   "status": "proved",
   "theorems": [
    "Trackeddy.C22_relaxing_keeps_eddies",
    "Trackeddy.C22_from_data"
   ],
   "note": "C22_relaxing_keeps_eddies for levels whose detection completes under both criteria; C22_from_data for whole runs with one level. Non-negativity of the deformation radius is C56"
  },
  {
   "property": "C23",
   "status": "partial",
   "theorems": [
    "Trackeddy.C23_refuted",
    "Trackeddy.C23_less_similar_preferred",
    "Trackeddy.C23_partial",
    "Trackeddy.C23_refuted_ellipse"
   ],
   "note": "false: the test is reversed (C23_refuted, C23_less_similar_preferred); C23_refuted_ellipse: a contour made of points of an ellipse, which the fit reproduces exactly, is discarded for its similarity"
  },
  {
   "property": "C24",
   "status": "proved",
   "theorems": [
    "Trackeddy.Frechet.C24_frdist_is_discrete_frechet",
    "Trackeddy.Frechet.C24_frdist_general",
    "Trackeddy.Frechet.C24_frdist_indexError_iff",
    "Trackeddy.Frechet.C24_any_length"
   ],
   "note": ""
  },
  {
   "property": "C25",
   "status": "proved",
   "theorems": [
    "Trackeddy.Frechet.C25_frdist_symm",
    "Trackeddy.Frechet.C25_frdist_nonneg",
    "Trackeddy.Frechet.C25_frdist_self",
    "Trackeddy.Frechet.C25_frdist_ge_first",
    "Trackeddy.Frechet.C25_frdist_ge_last",
    "Trackeddy.Frechet.C25_frdist_triangle",
    "Trackeddy.Frechet.C25_subsampling_ignores_last_point"
   ],
   "note": "C25_subsampling_ignores_last_point shows why the last-point bound needs the no-subsampling guard"
  },
  {
   "property": "C26",
   "status": "proved",
   "theorems": [
    "Trackeddy.Frechet.C26_subsample_spec",
    "Trackeddy.Frechet.C26_subsample_keeps"
   ],
   "note": ""
  },
  {
   "property": "C27",
   "status": "partial",
   "theorems": [
    "Trackeddy.Frechet.C27_recursionError_iff",
    "Trackeddy.Frechet.C27_no_recursionError_partial",
    "Trackeddy.Frechet.C27_refuted"
   ],
   "note": "false as stated (C27_refuted): only the shorter curve is bounded by 300 points; holds when both are"
  },
  {
   "property": "C28",
   "status": "proved",
   "theorems": [
    "Trackeddy.C28_both_reversed",
    "Trackeddy.C28_arcLength_sum",
    "Trackeddy.C28_similarity_range",
    "Trackeddy.C28_similarity_symm",
    "Trackeddy.C28_similarity_self",
    "Trackeddy.C28_similarity_invariant"
   ],
   "note": "For curves of positive length; rounding to four decimals modelled as exact round-half-even."
  },
  {
   "property": "C29",
   "status": "proved",
   "theorems": [
    "Trackeddy.C29_range",
    "Trackeddy.C29_sign",
    "Trackeddy.C29_decreasing",
    "Trackeddy.C29_axes"
   ],
   "note": "over the reals"
  },
  {
   "property": "C30",
   "status": "proved",
   "theorems": [
    "Trackeddy.C30_point_on_conic",
    "Trackeddy.C30_curve"
   ],
   "note": "over the reals; the tilt is resolved when b=0 or above the tolerance of the code"
  },
  {
   "property": "C31",
   "status": "proved",
   "theorems": [
    "Trackeddy.C31_exact",
    "Trackeddy.C31_curve",
    "Trackeddy.C31_five_points"
   ],
   "note": "regularity of the normal equations is shown equivalent to genericity of the points, and follows from five distinct points"
  },
  {
   "property": "C32",
   "status": "partial",
   "theorems": [
    "Trackeddy.C32_partial",
    "Trackeddy.C32_exact_partial",
    "Trackeddy.C32_refuted",
    "Trackeddy.C32_refuted_outside"
   ],
   "note": "false as stated (C32_refuted: NaN for a circle; C32_refuted_outside: minor axis if the centroid is outside); proved for non-circular conics with positive form"
  },
  {
   "property": "C33",
   "status": "proved",
   "theorems": [
    "Trackeddy.C33_nonneg",
    "Trackeddy.C33_first_vertex",
    "Trackeddy.C33_repeated_vertex",
    "Trackeddy.C33_longitude_turns",
    "Trackeddy.C33_direction"
   ],
   "note": "over the reals, signed zeros not modelled"
  },
  {
   "property": "C34",
   "status": "proved",
   "theorems": [
    "Trackeddy.C34_radicand",
    "Trackeddy.C34_great_circle",
    "Trackeddy.C34_arccos"
   ],
   "note": "for all real latitudes, not only those in range"
  },
  {
   "property": "C35",
   "status": "proved",
   "theorems": [
    "Trackeddy.C35_centre",
    "Trackeddy.C35_bounded",
    "Trackeddy.C35_symmetries",
    "Trackeddy.C35_direction"
   ],
   "note": "over the reals"
  },
  {
   "property": "C36",
   "status": "partial",
   "theorems": [
    "Trackeddy.C36_partial",
    "Trackeddy.C36_refuted",
    "Trackeddy.C36_agree_iff"
   ],
   "note": "false as stated (C36_refuted): the generator turns the other way; C36_agree_iff characterises the agreement"
  },
  {
   "property": "C37",
   "status": "proved",
   "theorems": [
    "Trackeddy.C37_feasible",
    "Trackeddy.C37_spacing_x",
    "Trackeddy.C37_spacing_y",
    "Trackeddy.C37_meshgrid"
   ],
   "note": "for parameters that are numbers (a NaN angle, see C32, makes the bounds NaN)"
  },
  {
   "property": "C38",
   "status": "partial",
   "theorems": [
    "Trackeddy.C38_partial",
    "Trackeddy.C38_refuted"
   ],
   "note": "false as stated (C38_refuted): a misfit of constant size has residual zero; C38_partial characterises zero residual"
  },
  {
   "property": "C39",
   "status": "proved",
   "theorems": [
    "Trackeddy.C39_window",
    "Trackeddy.C39_tight"
   ],
   "note": "for integer and automatic margins"
  },
  {
   "property": "C40",
   "status": "partial",
   "theorems": [
    "Trackeddy.C40_block_partial",
    "Trackeddy.C40_partial",
    "Trackeddy.C40_refuted",
    "Trackeddy.C40_refuted_curvilinear"
   ],
   "note": "false as stated (C40_refuted: longitudes that wrap; C40_refuted_curvilinear); proved for rectilinear grids with monotone axes"
  },
  {
   "property": "C41",
   "status": "proved",
   "theorems": [
    "Trackeddy.C41_inside_iff",
    "Trackeddy.C41_closure"
   ],
   "note": "scipy binary_fill_holes modelled by its documented algorithm"
  },
  {
   "property": "C42",
   "status": "proved",
   "theorems": [
    "Trackeddy.C42_defined",
    "Trackeddy.C42_extremum",
    "Trackeddy.C42_enclosed"
   ],
   "note": "exact arithmetic; for a zero mean sign and extremum are zero"
  },
  {
   "property": "C43",
   "status": "proved",
   "theorems": [
    "Trackeddy.C43_zero_iff",
    "Trackeddy.C43_island_iff"
   ],
   "note": "for contours that passed the earlier tests; exact arithmetic"
  },
  {
   "property": "C44",
   "status": "proved",
   "theorems": [
    "Trackeddy.C44_unique",
    "Trackeddy.C44_absent",
    "Trackeddy.C44_rejected_iff",
    "Trackeddy.C44_grid_names",
    "Trackeddy.C44_grid_variables",
    "Trackeddy.C44_permutation"
   ],
   "note": ""
  },
  {
   "property": "C45",
   "status": "partial",
   "theorems": [
    "Trackeddy.C45_refuted",
    "Trackeddy.C45_partial"
   ],
   "note": "false as stated (C45_refuted): heat flux variables are taken for coordinates; C45_partial says which names can be used"
  },
  {
   "property": "C46",
   "status": "proved",
   "theorems": [
    "Trackeddy.C46_rectilinear",
    "Trackeddy.C46_other"
   ],
   "note": ""
  },
  {
   "property": "C47",
   "status": "partial",
   "theorems": [
    "Trackeddy.C47_refuted_calls",
    "Trackeddy.C47_refuted",
    "Trackeddy.C47_refuted_time",
    "Trackeddy.C47_refuted_unknown",
    "Trackeddy.C47_partial"
   ],
   "note": "false as stated: nan_treatment has no effect with the space filter (C47_refuted), the time filter yields None (C47_refuted_time), unknown names are accepted (C47_refuted_unknown); proved without a filter"
  },
  {
   "property": "C48",
   "status": "proved",
   "theorems": [
    "Trackeddy.C48_mean_zero",
    "Trackeddy.C48_idempotent",
    "Trackeddy.C48_shift",
    "Trackeddy.C48_differences"
   ],
   "note": "also with missing data"
  },
  {
   "property": "C49",
   "status": "partial",
   "theorems": [
    "Trackeddy.C49_even",
    "Trackeddy.C49_linear",
    "Trackeddy.C49_constant_partial",
    "Trackeddy.C49_constant_iff",
    "Trackeddy.C49_refuted"
   ],
   "note": "false near the border (C49_refuted); exact value of a filtered constant field and where it vanishes proved; linearity and even sizes proved"
  },
  {
   "property": "C50",
   "status": "proved",
   "theorems": [
    "Trackeddy.C50_store_table",
    "Trackeddy.C50_names_distinct",
    "Trackeddy.C50_scalars_constant",
    "Trackeddy.C50_single_point_raises",
    "Trackeddy.C50_discarded_row"
   ],
   "note": "for contours of at least two points; a single point raises ValueError (C50_single_point_raises)"
  },
  {
   "property": "C51",
   "status": "partial",
   "theorems": [
    "Trackeddy.C51_partial",
    "Trackeddy.C51_partial_b_larger",
    "Trackeddy.C51_refuted"
   ],
   "note": "false as stated (C51_refuted): for a >= b two eddies may be put at the very same point; everything else proved for every terminating selection"
  },
  {
   "property": "C52",
   "status": "partial",
   "theorems": [
    "Trackeddy.C52_partial",
    "Trackeddy.C52_refuted",
    "Trackeddy.C52_refuted_witness"
   ],
   "note": "false (C52_refuted): after 9999 unacceptable draws the loop never ends; C52_partial says exactly when it ends and with what"
  },
  {
   "property": "C53",
   "status": "proved",
   "theorems": [
    "Trackeddy.C53_king_move",
    "Trackeddy.C53_all_moves"
   ],
   "note": "for draws 1..8 as randint yields"
  },
  {
   "property": "C54",
   "status": "partial",
   "theorems": [
    "Trackeddy.C54_partial",
    "Trackeddy.C54_refuted",
    "Trackeddy.C54_refuted_reconstruct"
   ],
   "note": "false on grids that are not square (C54_refuted) and for reconstruct_field (C54_refuted_reconstruct); proved on square grids"
  },
  {
   "property": "C55",
   "status": "proved",
   "theorems": [
    "Trackeddy.C55_shape",
    "Trackeddy.C55_default",
    "Trackeddy.C55_frames"
   ],
   "note": "over the reals"
  },
  {
   "property": "C56",
   "status": "proved",
   "theorems": [
    "Trackeddy.C56_bounds",
    "Trackeddy.C56_decreasing"
   ],
   "note": "over the reals"
  },
  {
   "property": "C57",
   "status": "proved",
   "theorems": [
    "Trackeddy.C57_width",
    "Trackeddy.C57_percent"
   ],
   "note": "exact arithmetic"
  },
  {
   "property": "C58",
   "status": "partial",
   "theorems": [
    "Trackeddy.C58_refuted",
    "Trackeddy.C58_partial"
   ],
   "note": "false as stated (C58_refuted): strings are compared, exactly 3.0 and 3.1 are rejected; versions from 3.10 on proved accepted"
  },
  {
   "property": "C59",
   "status": "proved",
   "theorems": [
    "Trackeddy.Cntr.C59_vertices_at_level"
   ],
   "note": "exact arithmetic"
  },
  {
   "property": "C60",
   "status": "proved",
   "theorems": [
    "Trackeddy.Cntr.C60_consecutive_in_one_cell",
    "Trackeddy.Cntr.C60_saddles"
   ],
   "note": "also with missing values; C60_saddles: how ambiguous cells are resolved"
  },
  {
   "property": "C61",
   "status": "proved",
   "theorems": [
    "Trackeddy.Cntr.C61_masked"
   ],
   "note": ""
  },
  {
   "property": "C62",
   "status": "partial",
   "theorems": [
    "Trackeddy.C62_partial",
    "Trackeddy.C62_refuted"
   ],
   "note": "false for hd5 (TypeError) and unknown formats (silently nothing) (C62_refuted); csv and json proved"
  },
  {
   "property": "C63",
   "status": "partial",
   "theorems": [
    "Trackeddy.C63_refuted",
    "Trackeddy.C63_partial"
   ],
   "note": "false as stated (C63_refuted); proved for levels with disjoint eddies"
  },
  {
   "property": "C64",
   "status": "partial",
   "theorems": [
    "Trackeddy.C64_refuted",
    "Trackeddy.C64_refuted_from_data"
   ],
   "note": "false: the negation is proved for all merges (C64_refuted); from a map on C64_refuted_from_data: the later eddy with the lower ellipse score does not replace the earlier one"
  },
  {
   "property": "C65",
   "status": "partial",
   "theorems": [
    "Trackeddy.C65_refuted",
    "Trackeddy.C65_partial"
   ],
   "note": "false as stated (C65_refuted): contour and ellipse share their columns; proved for properties with distinct column names"
  },
  {
   "property": "C66",
   "status": "proved",
   "theorems": [
    "Trackeddy.C66_parameters",
    "Trackeddy.C66_gaussian",
    "Trackeddy.C66_reported",
    "Trackeddy.C66_recovered"
   ],
   "note": "over the reals"
  },
  {
   "property": "C67",
   "status": "partial",
   "theorems": [
    "Trackeddy.C67_half_turn_partial",
    "Trackeddy.C67_refuted"
   ],
   "note": "false as stated (C67_refuted): a contour around (180,0) gets the area of the rest of the Earth; C67_half_turn_partial says what a half turn does"
  },
  {
   "property": "C68",
   "status": "proved",
   "theorems": [
    "Trackeddy.C68_cap"
   ],
   "note": "over the reals"
  },
  {
   "property": "C69",
   "status": "partial",
   "theorems": [
    "Trackeddy.C69_partial",
    "Trackeddy.C69_refuted",
    "Trackeddy.C69_refuted_coarse"
   ],
   "note": "false as stated (C69_refuted: contours larger than the search box; C69_refuted_coarse: coarse grids); proved for vertices well inside the box"
  },
  {
   "property": "C70",
   "status": "partial",
   "theorems": [
    "Trackeddy.C70_partial",
    "Trackeddy.C70_refuted"
   ],
   "note": "false for data stored longitude first (C70_refuted); proved for latitude first"
  },
  {
   "property": "C71",
   "status": "partial",
   "theorems": [
    "Trackeddy.C71_partial",
    "Trackeddy.C71_first_frame",
    "Trackeddy.C71_refuted"
   ],
   "note": "false in the first frame (C71_refuted, C71_first_frame gives the factor); proved for later frames"
  },
  {
   "property": "C72",
   "status": "proved",
   "theorems": [
    "Trackeddy.Cntr.C72_complete",
    "Trackeddy.Cntr.C72_unique"
   ],
   "note": "also on grids with missing values"
  },
  {
   "property": "C73",
   "status": "proved",
   "theorems": [
    "Trackeddy.Cntr.C73_total_and_deterministic"
   ],
   "note": "memory contents are a parameter of the model, accesses outside the arrays and exhausted round bounds are errors of the model; the bound 4*rows*cols+2 on the rounds of each loop is proved to suffice"
  },
  {
   "property": "C74",
   "status": "proved",
   "theorems": [
    "Trackeddy.Cntr.C74_codes_match"
   ],
   "note": ""
  },
  {
   "property": "C75",
   "status": "proved",
   "theorems": [
    "Trackeddy.Cntr.C75_value_error_iff"
   ],
   "note": "two dimensional float arrays; allocation does not fail"
  },
  {
   "property": "C76",
   "status": "partial",
   "theorems": [
    "Trackeddy.Cntr.C76_refuted",
    "Trackeddy.Cntr.C76_partial",
    "Trackeddy.Cntr.C76_partial_full"
   ],
   "note": "false next to missing data (C76_refuted); C76_partial says exactly which vertices are missing; proved for complete data"
  },
  {
   "property": "C77",
   "status": "partial",
   "theorems": [
    "Trackeddy.Cntr.C77_refuted",
    "Trackeddy.Cntr.C77_partial",
    "Trackeddy.C77_partial_level",
    "Trackeddy.C77_refuted_level"
   ],
   "note": "false (C77_refuted, C77_refuted_level); C77_partial: a contour with a missing vertex is skipped iff its first vertex is missing; C77_partial_level: what becomes of such contours in the tables of a level"
  },
  {
   "property": "C78",
   "status": "proved",
   "theorems": [
    "Trackeddy.Cntr.C78_empty_iff"
   ],
   "note": ""
  },
  {
   "property": "C79",
   "status": "proved",
   "theorems": [
    "Trackeddy.Cntr.C79_affine_coordinates",
    "Trackeddy.Cntr.C79_same_edges"
   ],
   "note": "exact arithmetic"
  },
  {
   "property": "C80",
   "status": "proved",
   "theorems": [
    "Trackeddy.Cntr.C80_affine_data"
   ],
   "note": "exact arithmetic"
  },
  {
   "property": "C81",
   "status": "partial",
   "theorems": [
    "Trackeddy.Cntr.C81_refuted",
    "Trackeddy.Cntr.C81_partial",
    "Trackeddy.C81_partial_closed"
   ],
   "note": "false at ties (C81_refuted); proved if no value equals the level, nor the mean of a cell of which only two opposite corners are above it, and no data is missing; C81_partial_closed: on a rectilinear grid the closed contours are then the same in the same order, each with the same start and reversed"
  },
  {
   "property": "C82",
   "status": "proved",
   "theorems": [
    "Trackeddy.Cntr.C82_rows_reversed",
    "Trackeddy.Cntr.C82_transposed",
    "Trackeddy.Cntr.C82_columns_reversed"
   ],
   "note": "exact arithmetic; the same polygons, up to the order of the list, the start of closed polygons and the direction"
  },
  {
   "property": "C83",
   "status": "proved",
   "theorems": [
    "Trackeddy.C83_great_circle",
    "Trackeddy.C83_metric",
    "Trackeddy.C83_turns",
    "Trackeddy.C83_tracking",
    "Trackeddy.C83_merging"
   ],
   "note": "exact arithmetic; the haversine formula is the documented metric of scikit-learn, its nearest neighbour search is a parameter constrained by IsNN"
  },
  {
   "property": "C84",
   "status": "proved",
   "theorems": [
    "Trackeddy.C84_eddies_are_contour_lines"
   ],
   "note": "the libraries for nearest points and least squares are parameters; online mode; the filters are C47-C49"
  },
  {
   "property": "C85",
   "status": "proved",
   "theorems": [
    "Trackeddy.C85_extremum_enclosed"
   ],
   "note": "rectilinear grids; includes that the sign is that of the sum of the enclosed data; scikit-learn as BallTreeAnswer; the limitation of the search box is part of the statement (see C69)"
  },
  {
   "property": "C86",
   "status": "proved",
   "theorems": [
    "Trackeddy.C86_columns_and_criteria"
   ],
   "note": "over the reals"
  },
  {
   "property": "C87",
   "status": "proved",
   "theorems": [
    "Trackeddy.C87_repeatable"
   ],
   "note": "the store register must be empty at the start, which C20 shows is lost by exceptions"
  },
  {
   "property": "C88",
   "status": "proved",
   "theorems": [
    "Trackeddy.C88_one_level_complete"
   ],
   "note": "several levels: C12-C16"
  },
  {
   "property": "C89",
   "status": "partial",
   "theorems": [
    "Trackeddy.C89_partial",
    "Trackeddy.C89_aborts",
    "Trackeddy.C89_refuted"
   ],
   "note": "refuted: a field with a front along a meridian makes the ellipse fit singular and the run aborts with LinAlgError; C89_partial characterises success exactly (every contour skipped, too large, or in general position) and C89_aborts gives two families of fields that abort"
  },
  {
   "property": "C90",
   "status": "proved",
   "theorems": [
    "Trackeddy.C90_dataset",
    "Trackeddy.C90_unit",
    "Trackeddy.C90_columns",
    "Trackeddy.C90_negative"
   ],
   "note": "over the reals; the dependence of scipy least_squares on the unit (absolute tolerances) is the hypothesis ScaleFree, needed only with the Gaussian fit"
  },
  {
   "property": "C91",
   "status": "partial",
   "theorems": [
    "Trackeddy.C91_refuted",
    "Trackeddy.C91_partial",
    "Trackeddy.C91_one_sign"
   ],
   "note": "refuted: the level zero is left out, and the sign is that of the mean; C91_partial: the contours and all columns but level, sign and extremum are the same; C91_one_sign: whole runs on data of one sign and levels other than zero"
  },
  {
   "property": "C92",
   "status": "proved",
   "theorems": [
    "Trackeddy.C92_from_dataset",
    "Trackeddy.C92_extremum"
   ],
   "note": "over the reals; astropy convolve, xarray selection and means, numpy meshgrid as described in the model; spatial filters uniform, meridional, zonal (a mode with another name leaves the data unfiltered)"
  },
  {
   "property": "C93",
   "status": "proved",
   "theorems": [
    "Trackeddy.C93_storage"
   ],
   "note": "latitude stored before longitude; longitude first is C70"
  },
  {
   "property": "C94",
   "status": "partial",
   "theorems": [
    "Trackeddy.C94_refuted",
    "Trackeddy.C94_refuted_list",
    "Trackeddy.C94_partial",
    "Trackeddy.C94_zero"
   ],
   "note": "refuted: a list raises IndexError or TypeError and the default raises TypeError whenever there is a snapshot; C94_partial: in an array zeros make no difference; C94_zero"
  },
  {
   "property": "C95",
   "status": "partial",
   "theorems": [
    "Trackeddy.C95_beyond",
    "Trackeddy.C95_start",
    "Trackeddy.C95_negative",
    "Trackeddy.C95_partial",
    "Trackeddy.C95_refuted"
   ],
   "note": "refuted: with t0=-1 the last map is analysed before the first and reported at time -1; C95_partial for 0 <= t0; C95_beyond and C95_start: ranges beyond the data always raise; C95_negative: what is done for negative t0"
  },
  {
   "property": "C96",
   "status": "partial",
   "theorems": [
    "Trackeddy.C96_refuted",
    "Trackeddy.C96_partial",
    "Trackeddy.C96_repeated"
   ],
   "note": "refuted: KeyError with the default tf; C96_partial: with tf=1 the same as a dataset with one time; C96_repeated: a larger tf repeats the map"
  },
  {
   "property": "C97",
   "status": "partial",
   "theorems": [
    "Trackeddy.C97_partial",
    "Trackeddy.C97_interior",
    "Trackeddy.C97_refuted"
   ],
   "note": "refuted: zero padding at the border (default filter): an eddy is lost when a constant is added; C97_partial: whole calls with the filters meridional and zonal; C97_interior: the anomaly of the moving average away from the border"
  },
  {
   "property": "C98",
   "status": "partial",
   "theorems": [
    "Trackeddy.C98_refuted",
    "Trackeddy.C98_partial"
   ],
   "note": "refuted: meridional and zonal raise on grids whose dimensions are not named longitude and latitude; C98_partial: no exception from the filters on datasets with such dimensions, and always one for gaussian and unknown names"
  },
  {
   "property": "C99",
   "status": "proved",
   "theorems": [
    "Trackeddy.C99_explained",
    "Trackeddy.C99_agrees"
   ],
   "note": "detection from empty registers (fresh import, or after a level with eddies; leftovers of earlier levels are C21)"
  },
  {
   "property": "C100",
   "status": "partial",
   "theorems": [
    "Trackeddy.C100_colours",
    "Trackeddy.C100_refuted",
    "Trackeddy.C100_partial"
   ],
   "note": "refuted: AttributeError without eddies, TypeError without discarded contours (proved for the detection of the example field); C100_partial: exact condition of success and what is drawn then; C100_colours"
  },
  {
   "property": "C101",
   "status": "partial",
   "theorems": [
    "Trackeddy.C101_refuted",
    "Trackeddy.C101_partial"
   ],
   "note": "refuted: with two to four levels the legend shows for the second level a colour in which nothing is drawn; C101_partial: colours of the eddies and the first entry of the legend, for tables whose eddies have one first row each"
  },
  {
   "property": "C102",
   "status": "partial",
   "theorems": [
    "Trackeddy.C102_partial",
    "Trackeddy.C102_refuted"
   ],
   "note": "refuted without the Gaussian fit: a whole run at the level -1/4 returns an elevation with extremum 1/4; C102_partial: holds for whole runs with the Gaussian fit, whatever the optimiser answers"
  },
  {
   "property": "C103",
   "status": "proved",
   "theorems": [
    "Trackeddy.C103_gaussian_of_enclosed_data"
   ],
   "note": "whole runs on rectilinear grids with correct answers for nearest grid points; the optimiser is a parameter"
  },
  {
   "property": "C104",
   "status": "partial",
   "theorems": [
    "Trackeddy.C104_refuted",
    "Trackeddy.C104_partial"
   ],
   "note": "refuted: ValueError on every grid that is not square, for every call over existing snapshots with a level other than zero; C104_partial: on square grids the result is the one for the maps with rows and columns exchanged, meridional and zonal filters exchanged too (so not the one for the data as stored)"
  },
  {
   "property": "C105",
   "status": "partial",
   "theorems": [
    "Trackeddy.C105_refuted",
    "Trackeddy.C105_partial",
    "Trackeddy.C105_partial_run",
    "Trackeddy.C105_partial_dataset",
    "Trackeddy.C105_partial_from_data"
   ],
   "note": "refuted: contours are traversed with the high data on one side, the points of the fitted ellipse always in one direction, so the Frechet distance differs: a whole run returns an eddy, the run on the negated map none; C105_partial: without the Gaussian fit and with a similarity threshold of at least one every contour is treated in the same way and the eddies of the level are opposite, for contours that are traced with the same start; C105_partial_from_data: this holds if no value (nor, in cells with two pieces, the mean) equals the level and all contours of the level are closed; C105_partial_run: then whole runs give the same identifiers; C105_partial_dataset: the same for calls on datasets, with any valid filter"
  },
  {
   "property": "C106",
   "status": "partial",
   "theorems": [
    "Trackeddy.C106_partial_run",
    "Trackeddy.C106_partial",
    "Trackeddy.C106_refuted",
    "Trackeddy.C106_partial_dataset"
   ],
   "note": "refuted: the grid points of a contour are searched within 3 degrees plus 5 percent of the longitude of its mean; a run on a wide grid around longitude 0 raises ValueError, the same map one turn further gives an eddy; C106_partial: without the Gaussian fit, when every vertex has one nearest grid point within three degrees of the mean, the contours are shifted, treated alike and give the same eddies; C106_partial_run: so do whole runs; C106_partial_dataset: the same for calls on datasets, with any valid filter"
  },
  {
   "property": "C107",
   "status": "partial",
   "theorems": [
    "Trackeddy.C107_partial",
    "Trackeddy.C107_partial_steps",
    "Trackeddy.C107_refuted",
    "Trackeddy.C107_partial_from_data",
    "Trackeddy.C107_partial_level_by_level",
    "Trackeddy.C107_partial_several_levels"
   ],
   "note": "refuted: with two levels two eddies of a snapshot may share an identifier (C15) and then enter the same track together, although only one of them is near its end; C107_partial: when the eddies of each snapshot have identifiers of their own the whole table follows the linking rule, so tracks are continuous and new tracks begin apart from the known ones; C107_partial_from_data: all data, one level; for all data and any number of levels without the Gaussian fit: C107_partial_several_levels"
  },
  {
   "property": "C108",
   "status": "partial",
   "theorems": [
    "Trackeddy.C108_partial",
    "Trackeddy.C108_closed_inside",
    "Trackeddy.C108_refuted"
   ],
   "note": "refuted: with the default criteria, the Gaussian fit left out, a map with an elevation cut off by its southern edge yields an eddy whose contour is open; C108_partial: every contour is closed or has both ends on the edge of the grid; C108_closed_inside: all are closed if no level separates the outermost grid points"
  },
  {
   "property": "C109",
   "status": "proved",
   "theorems": [
    "Trackeddy.C109_levels",
    "Trackeddy.C109_one_level",
    "Trackeddy.C109_touch_at_values",
    "Trackeddy.C109_eddies"
   ],
   "note": "C109_levels and C109_one_level for the lists that extract_contours returns, C109_eddies for whole runs on arrays; C109_touch_at_values shows that the condition on the level in C109_one_level is necessary"
  },
  {
   "property": "C110",
   "status": "proved",
   "theorems": [
    "Trackeddy.C110_part",
    "Trackeddy.C110_local",
    "Trackeddy.C110_cut_at_boundary",
    "Trackeddy.C110_part_exact",
    "Trackeddy.C110_local_exact"
   ],
   "note": "C110_part_exact for a part and the whole map, C110_local_exact for two maps that agree in a rectangle (equal lists; C110_part and C110_local are the weaker forms up to order, start and direction); C110_cut_at_boundary shows that the condition on the vertices is necessary"
  },
  {
   "property": "C111",
   "status": "proved",
   "theorems": [
    "Trackeddy.C111_start_direction_order",
    "Trackeddy.C111_determined",
    "Trackeddy.C111_high_values_left"
   ],
   "note": "C111_start_direction_order: the result is a list of lines with the stated starts, directions and order (Traced); C111_determined: every such list is the result; C111_high_values_left: the higher values are to the left of every piece of a closed contour, in coordinates"
  },
  {
   "property": "C112",
   "status": "proved",
   "theorems": [
    "Trackeddy.C112_outcomes_local",
    "Trackeddy.C112_eddies_local"
   ],
   "note": "C112_outcomes_local for the contours of a level (list and outcome of each), C112_eddies_local for whole runs with one level. The nearest grid points are assumed to be found correctly (Libs.Nearest); which of several equally near ones is returned, and the result of least_squares, are arbitrary functions of what they are given"
  },
  {
   "property": "C113",
   "status": "proved",
   "theorems": [
    "Trackeddy.C113_outcomes_part",
    "Trackeddy.C113_eddies_part"
   ],
   "note": "C113_outcomes_part for the contours of a level (list and outcome of each), C113_eddies_part for whole runs with one level. Vertices equally near to several grid points are excluded (NoTies): which of them the tree returns may depend on the array it is built from"
  },
  {
   "property": "C114",
   "status": "proved",
   "theorems": [
    "Trackeddy.C114_defaults",
    "Trackeddy.C114_exact"
   ],
   "note": "C114_defaults, from the dataset on, with and without the Gaussian fit. The score of the ellipse is a similarity although the code keeps small ones (see C23). C114_exact: the converse for one contour; it speaks of the examination of a contour and not of the table"
  },
  {
   "property": "C115",
   "status": "proved",
   "theorems": [
    "Trackeddy.C115_not_a_map",
    "Trackeddy.C115_default_filter"
   ],
   "note": "C115_not_a_map for any settings, C115_default_filter for the settings of a new object"
  },
  {
   "property": "C116",
   "status": "proved",
   "theorems": [
    "Trackeddy.C116_outcomes_region",
    "Trackeddy.C116_local",
    "Trackeddy.C116_region"
   ],
   "note": "C116_local for two datasets that agree around a rectangle, C116_outcomes_region and C116_region for a dataset cut out of another one. Uniform filters and unfiltered data; the Gaussian filter and the mean over an axis reach further. For cuts the tree and least_squares are assumed to depend on the entries of the arrays only (Libs.Proper) and equally near grid points are excluded (NoTies)"
  },
  {
   "property": "C117",
   "status": "partial",
   "theorems": [
    "Trackeddy.C117_partial_contours",
    "Trackeddy.C117_partial_eddies",
    "Trackeddy.C117_partial_values",
    "Trackeddy.C117_refuted"
   ],
   "note": "false as stated (C117_refuted: whole runs, one with an eddy, the other without, since the similarity with the ellipse depends on start and direction of the contour). Proved: the contours are the same polygons (C117_partial_contours), every eddy of the reversed dataset is a contour line with its extremum in the original one (C117_partial_eddies), and a polygon that gives an eddy in both orders gives the same level, area, radius, sign and extremum (C117_partial_values, no vertex equally near to two grid points). Missing: centre, ellipse, eccentricity and scores, which do differ as the mean counts the first vertex twice"
  },
  {
   "property": "C118",
   "status": "partial",
   "theorems": [
    "Trackeddy.C118_partial",
    "Trackeddy.C118_refuted"
   ],
   "note": "false as stated (C118_refuted: with default arguments the late run raises a KeyError where the run on the cut dataset finds eddies). Proved (C118_partial): if the late run succeeds, so does the run on the cut dataset, with the same rows and identifiers and the times shifted; for ntimes at most zero both succeed or none"
  },
  {
   "property": "C119",
   "status": "proved",
   "theorems": [
    "Trackeddy.C119_no_influence",
    "Trackeddy.C119_error"
   ],
   "note": "C119_no_influence for runs that succeed, C119_error for runs that raise an exception before the given time; from the dataset on, all valid filters"
  },
  {
   "property": "C120",
   "status": "proved",
   "theorems": [
    "Trackeddy.C120_snapshot",
    "Trackeddy.C120_several_levels"
   ],
   "note": "C120_snapshot for one time, C120_several_levels for whole runs"
  },
  {
   "property": "C121",
   "status": "partial",
   "theorems": [
    "Trackeddy.C121_partial",
    "Trackeddy.C121_refuted",
    "Trackeddy.C121_refuted_from_data"
   ],
   "note": "false as stated (C121_refuted on tables of levels; C121_refuted_from_data from a map on: with the Gaussian fit a later level takes away the eddy of an earlier one). Proved without the Gaussian fit, for whole runs (C121_partial)"
  },
  {
   "property": "C122",
   "status": "partial",
   "theorems": [
    "Trackeddy.C122_partial",
    "Trackeddy.C122_partial_order",
    "Trackeddy.C122_refuted"
   ],
   "note": "false as stated (C122_refuted: a map where the order of two levels decides which of two contours is found, without the Gaussian fit). Proved without the Gaussian fit, for whole runs: repeating a level after its first occurrence changes nothing if its radii are positive (C122_partial), and the order does not matter if the eddies of different levels are apart (C122_partial_order)"
  },
  {
   "property": "C123",
   "status": "partial",
   "theorems": [
    "Trackeddy.C123_partial_relaxed",
    "Trackeddy.C123_partial",
    "Trackeddy.C123_partial_from_data",
    "Trackeddy.C123_refuted"
   ],
   "note": "false as stated (C123_refuted: an eddy between two others, at a time between theirs, joins them to one track). Proved: true if eddies at one time do not overlap, radii are positive, the other eddies are out of reach and no two candidates are equally near, for tables as the linking gives them (C123_partial) and for whole runs on data (C123_partial_from_data); with relaxed criteria (C123_partial_relaxed) the shared eddies are those found with the strict ones"
  },
  {
   "property": "C124",
   "status": "proved",
   "theorems": [
    "Trackeddy.C124_region",
    "Trackeddy.C124_local"
   ],
   "note": "C124_region for a cut, C124_local for two datasets that agree around the rectangle. Same assumptions on the tree and on least_squares as C116"
  },
  {
   "property": "C125",
   "status": "partial",
   "theorems": [
    "Trackeddy.C125_partial_run",
    "Trackeddy.C125_partial",
    "Trackeddy.C125_refuted",
    "Trackeddy.C125_partial_dataset"
   ],
   "note": "false as stated (C125_refuted: a map with an eddy whose mirror image is discarded because of the similarity with its ellipse). Proved without the Gaussian fit: contours, all quantities and decisions are mirror images except for the criterion on the similarity; complete for a threshold of at least one (C125_partial), then also for whole runs (C125_partial_run); C125_partial_dataset: the same for calls on datasets, with any valid filter"
  },
  {
   "property": "C126",
   "status": "proved",
   "theorems": [
    "Trackeddy.C126_distances_and_radii",
    "Trackeddy.C126_dataset"
   ],
   "note": "C126_distances_and_radii for whole runs with any number of levels. The ball tree is assumed to decide by the distances, also between equally near candidates (ByDistance); C126_dataset for calls on datasets, with any valid filter"
  },
  {
   "property": "C127",
   "status": "partial",
   "theorems": [
    "Trackeddy.C127_partial",
    "Trackeddy.C127_refuted_angle",
    "Trackeddy.C127_refuted_round",
    "Trackeddy.C127_refuted"
   ],
   "note": "false as stated: for contours on a circle the angle of the ellipse is NaN (0/0), the initial guess of the fit is infeasible and the run with the fit raises ValueError, whatever least_squares would answer (C127_refuted: a map; C127_refuted_round, C127_refuted_angle: for all runs). In floating point this needs the fitted coefficients to be equal with b = 0 exactly, or a rounded case of it. C127_partial: if the level can be examined with the fit, all other parts of the claim hold"
  },
  {
   "property": "C128",
   "status": "proved",
   "theorems": [
    "Trackeddy.C128_snapshot",
    "Trackeddy.C128_run",
    "Trackeddy.C128_count"
   ],
   "note": "from the gridded data: snapshot (C128_snapshot), whole runs (C128_run), numbers of eddies (C128_count); the linking theorems C04, C05, C06, C09, C10 and C107 applied to it are in Props/MergedRuns.lean. Without the hypothesis that the eddies of a level do not overlap two of them can replace the same eddy (C15, C63)"
  },
  {
   "property": "C129",
   "status": "partial",
   "theorems": [
    "Trackeddy.C129_partial",
    "Trackeddy.C129_partial_bounds",
    "Trackeddy.C129_refuted"
   ],
   "note": "false as stated (C129_refuted: both halves of a diamond around (0,0), cut along the equator, have the area of the whole, for all sizes). C129_partial, C129_partial_bounds: true if the ends of the cut are not seen from (0,0) in exactly opposite directions"
  },
  {
   "property": "C130",
   "status": "partial",
   "theorems": [
    "Trackeddy.C130_partial_length",
    "Trackeddy.C130_partial",
    "Trackeddy.C130_start",
    "Trackeddy.C130_refuted"
   ],
   "note": "false as stated (C130_refuted: a square; C130_start: an upper bound below one for every closed contour compared with itself listed from another vertex). C130_partial: true if both curves are listed backwards; C130_partial_length: the length does not depend on the start"
  },
  {
   "property": "C131",
   "status": "proved",
   "theorems": [
    "Trackeddy.C131_ellipse",
    "Trackeddy.C131_finite",
    "Trackeddy.C131_shape"
   ],
   "note": "C131_ellipse, C131_finite, C131_shape, in exact arithmetic"
  },
  {
   "property": "C132",
   "status": "proved",
   "theorems": [
    "Trackeddy.Mem.C132_one_call",
    "Trackeddy.Mem.C132_session"
   ],
   "note": "C132_one_call, C132_session; arrays converted by numpy are one reference each, the tracing itself is in Model/Cntr.lean"
  },
  {
   "property": "C133",
   "status": "partial",
   "theorems": [
    "Trackeddy.Mem.C133_partial",
    "Trackeddy.Mem.C133_refuted",
    "Trackeddy.Mem.C133_refuted_exception",
    "Trackeddy.Mem.C133_refuted_copy"
   ],
   "note": "false as stated (C133_refuted: a failure at any of the critical places uses a null pointer or freed memory; C133_refuted_exception: for the vertex buffers the exception is SystemError; C133_refuted_copy: for copies of the arguments ValueError). C133_partial: for all other sets of failures memory is used correctly, nothing stays allocated and some exception is raised or the result is complete"
  },
  {
   "property": "C134",
   "status": "partial",
   "theorems": [
    "Trackeddy.C134_partial",
    "Trackeddy.C134_refuted_contours",
    "Trackeddy.C134_vertex",
    "Trackeddy.C134_saddle",
    "Trackeddy.C134_refuted"
   ],
   "note": "false as stated (C134_refuted, C134_refuted_contours: a saddle cell whose mean is within rounding of the level is decided differently and the crossings are paired differently). C134_partial: on every map without such a saddle cell the whole output of extract_contours, computed with every arithmetic operation rounded, has the same contours in the same sequence with the same path codes, and each vertex is within the bound; C134_vertex, C134_saddle: a single side, a single cell. Overflow and underflow are excluded"
  },
  {
   "property": "C135",
   "status": "proved",
   "theorems": [
    "Trackeddy.C135_distance",
    "Trackeddy.C135_score"
   ],
   "note": "C135_distance, C135_score; overflow and underflow are excluded"
  },
  {
   "property": "C136",
   "status": "proved",
   "theorems": [
    "Trackeddy.C136_complete",
    "Trackeddy.C136_near"
   ],
   "note": "C136_complete for any rounding function, C136_near for roundings with a relative error; overflow and underflow are excluded in C136_near"
  },
  {
   "property": "C137",
   "status": "partial",
   "theorems": [
    "Trackeddy.C137_partial",
    "Trackeddy.C137_refuted"
   ],
   "note": "false as stated (C137_refuted: on a map with two adjacent points a limit of 22/25 for the eccentricity gives an eddy at the level 5/8 that is gone when the limit is raised to 1, because the contour at the level 3/4 then qualifies). C137_partial, without the Gaussian fit: every eddy is still there or lies within its radius of an eddy of an earlier level that is there with the relaxed criteria"
  }
 ]
}