# Formal model of trackeddy in Lean 4 — design

Layout (all under `lean/Verif/`):

* `Model/*.lean` — executable (or, for trigonometric code, real-valued) models of the functions in `/repo`,
  every definition citing file and lines.
* `Spec/*.lean` — small independent specifications (couplings, reachability, track lists ...).
* `Proofs/*.lean` — helper lemmas.
* `Props/*.lean` — the property theorems, named `Cnn_...`, with non-vacuity `example`s next to them.

## Numbers

Decision logic is modelled over an arbitrary linearly ordered field `K` (executable at `ℚ`), trigonometric
code over `ℝ`.  Floating-point rounding (except in Model/Rounding.lean), overflow and NaN propagation are *not* modelled unless a definition
says so (missing data are modelled as `Option`).

## Plan per property

| id | modelled | proof |
|----|----------|-------|
| C01-C05 | `track_online`, `unlink_eddies_in_previous_times`, `_detect_nearest`, `_update_counter`, `_rename_eddies_in_time`, `_merge_reindex_eddies` over a table model with explicit pandas index *levels* | refinement to a list-of-tracks specification, induction over the history; C05 refuted by a witness, also from the data on (`C05_refuted_from_data`: two nested contour lines around one extremum), partial under injectivity |
| C06 | same, exceptions as values | exact characterisation of the KeyError; refutation on tables and from maps on (Props/Gaps.lean, also C10) |
| C07 | same | proof that a successful run does not depend on ntimes; refutation on tables and from two maps on (Props/Relink.lean: induction over the times with the linking rule C04, a bound on the area of the contour) |
| C08-C10 | `time_tracking` loop with exceptions and file writes | induction over the time range; refutations of the default-argument claims |
| C11 | format string `{0:05}` | injectivity of zero padded decimals |
| C12-C16 | `_detect_snapshot` fold, `_update_better_eddy` | refinement to list-level rule, invariants; C14, C15 refuted |
| C17-C23 | `_detect_one_level` decision chain; `eddy_identifier` / `check_return_eddies` as a state machine with global registers | case analysis, induction over contours and call histories; C20, C21, C23 refuted with partial versions |
| C24-C27 | memo table recursion `_c` as a state-passing function, subsampling loop, recursion depth | memo invariant, DP = min over couplings; depth lower bound; C27 refuted |
| C28 | `arc_length`, `compute_similarity` with `round(.,4)` | real analysis |
| C29-C32 | `eccentricity`, `fit_ellipse` after the linear solve, the normal equations | trigonometric identities |
| C33-C34 | `area_latlon_polygon` over ℝ (`Complex.arg` for arctan2) | list induction, haversine identity |
| C35-C38 | `gaussian`, `twoD_Gaussian`, `construct_bounds`, `gaussian_residual` | real algebra |
| C39 | corner loops | loop = clamp |
| C40 | mask shape / unravel index arithmetic | rectangular mask lemma; refuted for curvilinear grids |
| C41 | `binary_fill_holes` as iterated dilation | fixpoint = reachability |
| C42-C43 | sign / max / argmax with missing values | list induction |
| C44-C46 | name matching, meshgrid | list induction over names |
| C47-C49 | filter wrapper, line mean filters, uniform convolution | case analysis, sums |
| C50 | `to_dict`/`to_table` | list induction |
| C51-C55 | generator | loop invariant over random stream |
| C56-C58 | physics, printer | real analysis, string order |
| C59-C61 | single level part of `cntr.c` | edge invariant, cell case analysis, array induction |
| C62 | `store_snapshot` | case analysis over the formats |
| C63-C64 | `_detect_snapshot`, `_update_better_eddy` | exact success condition of a merge; refutations |
| C65 | `to_dict` / `to_table` with arbitrary property lists | list induction; refutation |
| C66 | `fit_ellipse` parameters | trigonometric identities |
| C67-C68 | `area_latlon_polygon` | spherical trigonometry in polar coordinates |
| C69 | first part of `_data_in_contour` | search box arithmetic; refutations |
| C70 | `check_coords` with the dimension order | case analysis; refutation |
| C71 | `checkposition` + first frame | refutation, later frames by arithmetic |
| C72-C74 | `cntr_trace`, `reorder`, `build_cntr_list_v2` | potential of the marks for termination; every directed segment of the declarative contour graph is traversed exactly once; memory contents are a parameter |
| C75-C77 | `Cntr_init`, `extract_contours`, the NaN test of `_detect_one_level` | case analysis, partial characterisations |
| C78-C82 | `extract_contours` | uniqueness of the contour graph, isomorphisms of grids |
| C83 | `_detect_nearest` | haversine formula = angle between unit vectors |
| C84-C88 | `time_tracking` on gridded data, composed of the models of all functions it calls | the composed model refines the table level model; what holds of every stored eddy holds of the eddies of the result |
| C89 | detection of one level on complete data | success iff every contour is skipped, too large or determines a conic; a straight contour aborts the run |
| C90, C91 | whole runs in another unit or with another zero of the data | merging and tracking commute with every change of the columns they do not read (Proofs/Natural.lean); contours are invariant (C80) |
| C92-C98 | `TrackEddy.__init__`, `time_tracking` from the dataset on | specification of a stored series of maps (Spec/Api.lean), refinement of the call to a run on the anomalies |
| C104 | data stored with the longitude first | the same refinement; shape of the snapshot against that of the coordinates |
| C105 | detection on the negated map | mean, conic, area and window do not depend on the direction of a contour, the similarity does |
| C106 | detection with other longitudes | area, fitted ellipse, similarity and the nearest grid points are translated; the search box is not |
| C107 | the returned table as a whole | every row related to the rows of earlier times: steps within the radius, new tracks apart |
| C108 | contours of the returned eddies, up to the edge of the grid | contour lines (C84) whose ends lie on outermost sides of the grid (Spec/Edge.lean) |
| C109 | contours that `extract_contours` returns, contours of the returned eddies | points of the straight pieces between vertices, on grids with lines parallel to the axes (Spec/Crossing.lean) |
| C110 | contours that `extract_contours` returns for a map and for a rectangular part of it | equal lists of the lines strictly inside the rectangle (Spec/Crop.lean) |
| C111 | start, direction and order of the lines that `extract_contours` returns | `Traced` (Spec/Traced.lean): position of the first edge, side of the higher values; it determines the list |
| C112 | what `_detect_one_level` finds inside a rectangle, for two maps that agree in and around it | contours by C110; the grid points of a contour inside a rectangle belong to the rectangle, so the window is within the margin; everything else is a function of the window |
| C113 | what `_detect_one_level` finds inside a rectangle, for a map and a part of it | as C112; grid points, window and everything in the window move with the indices of the part; equally near grid points are excluded |
| C114 | constructor, default filter and criteria, `time_tracking` | C92 and C86 with the values of `TrackEddy.__init__`; exact condition for one contour (C114_exact) |
| C115 | `time_tracking` on data that are not two-dimensional | all branches of the filter on such data end in an exception |
| C116 | `time_tracking` on datasets that agree around a rectangle, and on a region of a dataset | C112/C113 on the filtered maps: the mean over a square depends only on the data in it, and with the indices shifted it is the same away from the cut; out of range entries of the arrays do not matter (Proofs/Same.lean) |
| C117 | `time_tracking` on a dataset with reversed latitudes or longitudes | C82 in terms of polygons (Spec/Relisted.lean), means over squares and axes under reversal, nearest points and enclosed points under reversal; counterexample by a run with descending longitudes |
| C118 | `time_tracking` with `t0`, `tf` on a dataset and on the dataset cut to these times | simulation of the two runs under a shift of the times (Proofs/Times.lean), characterisation of success (C06); counterexample by a run with default arguments |
| C119 | `time_tracking` on two datasets that agree before a time | C02 and C92 with the locality of the filters in time |
| C120 | `_detect_snapshot` for several levels without the Gaussian fit, `time_tracking` | induction over the levels: with equal Gaussian scores the merge (C13) only adds, so the table is a greedy selection (Spec/Levels.lean, Proofs/Levels.lean) |
| C121 | `_detect_snapshot` for a list of levels and a longer one | the selection of a longer list extends that of its prefix; counterexample with the Gaussian fit, on tables and from a map on |
| C122 | `_detect_snapshot` for the same levels in another order or repeated | repeated levels add nothing to the selection; counterexample from a map (Props/LevelsExample.lean) |
| C123 | `time_tracking`, `track_online` for two tables that share eddies | the linking rule (C107) as a relation: an eddy continues the track of the nearest earlier one in reach; induction over time on the shared eddies (Proofs/Tracks.lean); counterexample with three eddies |
| C124 | `time_tracking` on a dataset and a region of it | C116 gives the shared eddies, C123 the tracks (Props/RegionTracks.lean) |
| C125 | `_detect_one_level` on a map and on its mirror image at the equator | every step commutes with the reflection except the direction in which the fitted ellipse is traversed (Proofs/Mirror.lean); counterexample from a map |
| C126 | `time_tracking` and `_detect_snapshot` on two datasets with corresponding eddies | both runs are images of one run on pairs of rows (Proofs/Isometry.lean, Proofs/Natural.lean); gives C106 and C125, C105 for whole runs |
| C127 | `_detect_one_level` with and without `skip_gaussian_fit` | the decision with the fit is the decision without it followed by the fit (`examine_fit`); counterexample from a map whose contour lies on a circle (Props/RoundExample.lean) |
| C128 | `_detect_snapshot` for several levels with any settings, `time_tracking` | induction over the levels with the merge rule (C13), read off the rows back to the eddies; C04-C06, C09, C10, C107 applied to it (Props/Merged.lean, Props/MergedRuns.lean) |
| C129 | `area_latlon_polygon` | the contributions of the cut cancel unless its ends have opposite azimuths (Props/Chord.lean); counterexample by the areas of caps (C68) |
| C130 | `compute_similarity`, `frdist` | the Fréchet distance is at least that of the first points (C25); reversal of couplings (Props/Listing.lean) |
| C131 | `fit_ellipse`, `eccentricity`, `compute_similarity` | the normal equations are multiplied by a diagonal matrix from both sides (Props/Sizes.lean) |
| C132, C133 | `Cntr_new`, `Cntr_init`, `Cntr_clear`, `cntr_trace`, `build_cntr_list_v2`, `reorder` as operations on memory | references held as a multiset of blocks, each function keeps the rest of it (Proofs/Memory.lean); induction over contours and calls; refutation place by place |
| C134, C135 | the arithmetic of `zone_crosser`, `arc_length`, `_c`, `compute_similarity` with every operation rounded (Model/Rounding.lean) | products of rounding factors (Proofs/Rounding.lean): multiplication, division, root and sums of nonnegative numbers add up the number of factors; the Fréchet recursion is monotone and homogeneous; the tracer with rounded arithmetic is simulated by the exact one step by step (Proofs/Cntr/Rounded.lean), on all maps whose saddle cells are decided alike; doubles as an instance |
| C136 | the same tracer with rounded arithmetic, any rounding function | the decisions stored for the saddle cells only grow; for any such decisions there are other data on the same side of the level at every grid point whose exact means decide alike (Proofs/Cntr/Realise.lean: corner sums prescribed one cell after the other, plus or minus a large number); by induction over the steps the tracer with rounding and the exact tracer on these data take the same way (Proofs/Cntr/AnySim.lean); crossing points on a unit mesh tell the sides apart |
| C137 | detection with several levels under two sets of criteria, whole runs | the eddies of a level with the stricter criteria are among those with the relaxed ones (C22); one that the selection with the relaxed criteria drops is near one selected at an earlier level, induction over the levels; refuted on the map of C122, where the eccentricity of the fitted ellipse is computed exactly |
| C03 from the data | whole runs, time by time | `Props/Conserved.lean`: the rows of a time are those of its snapshot, for each time asked for; nothing else is in the table |
| C22 from the data | whole runs with two sets of criteria | `Props/Relax.lean` |
| C99 | table of discarded contours of `_detect_one_level` | attributes at each rejection (Model/Report.lean) refine the outcomes of Model/Pipeline.lean |
| C100, C101 | `plot_eddy_detection_in_level`, `plot_eddy_detection_multilevel` | drawn marks and lines as lists; refutation, exact condition of success |
| C102, C103 | Gaussian fit of the eddies of a run: data, guess, score, side of the level | from the outcome of each contour to the table; the bound of the Gaussian by its amplitude; refutation by a shifted field |
| C04-C06, C08-C10, C16, C19-C21 from the data | sessions of calls on gridded data; whole runs with one level; columns by which eddies are linked | the theorems on snapshots and levels applied to the contours of the data (Props/FromData.lean) |
| C04-C06, C09, C10, C107 for several levels | whole runs on gridded data with any number of levels, without the Gaussian fit | the eddies of a time are the selection of C120; the theorems on the linking applied to it (Props/SeveralLevels.lean) |

## Trusted base

* The Lean 4.33.0 kernel and the definitions of Mathlib that occur in statements.
* Axioms: every theorem depends on a subset of `propext`, `Classical.choice`, `Quot.sound` (checked with
  `#print axioms` for all theorems of MANIFEST.json). No own axioms, no `sorry`, no `native_decide`, no `bv_decide`.
  Concrete witnesses are evaluated by the kernel (`decide +kernel`) or by `simp`/`norm_num`.
* The correspondence between the definitions in `Model/` and the cited lines of `/repo`, by reading. The code was
  neither built nor run.
* The behaviour of the libraries, as far as a model names it:
  * pandas: `MultiIndex` with codes and levels, `concat`, `set_levels` (error for a wrong length), `rename`, `drop`
    (KeyError for an absent label), `xs`, `groupby().last()`, `sort_index` (Model/Table.lean, Model/Tracking.lean).
    Whether `concat` removes unused levels is a parameter (`prunes`); theorems hold for both values where the
    parameter is universally quantified.
  * scikit-learn `BallTree.query`: an oracle returning a position of minimal distance (`IsNN`, `BallTreeAnswer`);
    ties are left open (`Libs.Nearest`). Theorems that compare runs over different maps assume that its answer and that
    of `least_squares` depend only on the entries of the arrays they are given (`Libs.Proper`), and where the arrays
    differ they exclude ties (`NoTies`, `OneNearest`).
  * `scipy.ndimage.binary_fill_holes`: iterated dilation of the outside with the cross, as documented.
  * `scipy.optimize.least_squares`: only its precondition (strictly increasing bounds that contain the start) is
    stated (C37); the fit itself is an opaque value.
  * `np.linalg.solve`: exact solution, `LinAlgError` iff singular.
  * `astropy.convolution.convolve`: mean over the box with missing values left out, boundary filled with zeros.
  * numpy `isclose`, `argmax`/`argmin` (first extremum), `meshgrid`, `unravel_index`, `linspace`.

## What is modelled

| file | functions | model |
|------|-----------|-------|
| trackeddy/trackeddy.py | `check_coords`, `identify_coords`, `_get_dims`, `_get_vars` | Model/Coords.lean |
| | `_filter_data_`, `_time_filter`, `_space_filter`, `treat_nan` | Model/Filter.lean |
| | `time_tracking`, `_detect_snapshot` | Model/Tracking.lean, with registers Model/Level.lean |
| | `_detect_one_level` | Model/Level.lean |
| | `_data_in_contour`, `_get_data_in_contour` | Model/Window.lean |
| | `time_tracking`, `_detect_snapshot`, `_detect_one_level`, `_data_in_contour` composed, from the filtered fields to the table | Model/Pipeline.lean |
| | `__init__`, `time_tracking`, `_detect_snapshot` from the dataset on: coordinates, levels argument, selection of the snapshot, filter | Model/Api.lean |
| | `_detect_one_level`: table of discarded contours; `plot_eddy_detection_in_level`, `plot_eddy_detection_multilevel`: what is drawn | Model/Report.lean |
| trackeddy/decorators.py | `eddy_identifier`, `check_return_eddies`, `filter_data` | Model/Level.lean, Model/Filter.lean |
| trackeddy/eddy.py | `to_dict`, `to_table`, `store`, `discarded`, `exit` | Model/EddyTable.lean, Model/Level.lean |
| trackeddy/geometry.py | `extract_contours` | Model/Contours.lean |
| | `construct_bounds`, `gaussian`, `gaussian_residual` | Model/Gauss.lean |
| | `fit_ellipse`, `eccentricity` | Model/Ellipse.lean |
| | `arc_length`, `compute_similarity` | Model/Similarity.lean |
| | `_c`, `frdist` | Model/Frechet.lean |
| | `area_latlon_polygon` | Model/Area.lean |
| trackeddy/physics.py, printfunc.py, __init__.py | `approx_RD_lat`, `Printer`, version guard | Model/Misc.lean |
| trackeddy/utils.py | all functions | Model/Tracking.lean, Table.lean, Mask.lean, Files.lean, Distance.lean (the haversine metric) |
| trackeddy/src/cntr.c | `Cntr_init`, `Cntr_trace`, `cntr_trace`, `curve_tracer`, `zone_crosser`, `data_init`, `mask_zones`, `reorder`, `build_cntr_list_v2` for one level without chunks | Model/Cntr.lean, Contours.lean |
| | allocation, release and reference counts in `Cntr_new`, `Cntr_init`, `Cntr_clear`, `Cntr_dealloc`, `cntr_new`, `cntr_init`, `cntr_del`, `cntr_trace`, `build_cntr_list_v2`, `reorder` | Model/Memory.lean |
| trackeddy/generator | `checkposition`, `make_random_walk`, `assemble_field`, `reconstruct_field`, `makeGaussian`, `moveGaussian`, `twoD_Gaussian` | Model/Generator.lean, Gauss.lean |

## What is not modelled

* Floating-point rounding except in C134, C135, C136 (where overflow and underflow are excluded), overflow, signed zeros and infinities. Missing data (NaN) is modelled (as `Option`) in
  the contour tracer, the masks, the filters, the residual, the reported angle and the scores (also where the merge of
  levels compares them: a comparison with NaN is false), not elsewhere.
* cntr.c for two levels (filled contours) and with chunks; `trackeddy` only calls `trace(level)`. Array accesses of the
  tracer, its point buffers included, are bounds-checked in Model/Cntr.lean (C73); Model/Memory.lean has allocation,
  release and reference counts only.
* The images made by the plotting functions (marks, lines, colours and labels are modelled), the contents of the
  written files, the xarray objects apart from what Model/Api.lean describes (dimensions with sizes, selection by index, squeeze,
  means and differences by dimension name), reading of files.
* Convergence and quality of `least_squares`.
* Running time and memory, except the recursion depth of `frdist` (C27) and the number of rounds of the loops in
  cntr.c (C73).

## Disagreements between the code and what its users expect

Each is proved as a theorem `Cnn_refuted...` (a witness, or the negation for all inputs).

* Tracking: two eddies of one time may get the same identifier (C05), as happens for nested contour lines around one extremum; a time or start without earlier detections
  raises KeyError (C06); `ntimes` has no effect (C07); with `tf` omitted `t0` is ignored and the progress bar
  raises TypeError (C08, C09; from maps on in Props/Gaps.lean and Props/FromData.lean); offline mode does not write the first snapshot (C10).
* Merge of levels: the *worse* fitting duplicate wins since the scores are similarities and smaller ones are
  preferred (C14); duplicates can share an identifier (C15), the merge may raise (C63), without the Gaussian fit
  nothing is ever replaced (C64).
* Level detection: registers survive exceptions (C20, from maps on in Props/RaisedExample.lean) and levels without eddies (C21, from a map on in Props/DiscardedExample.lean); a contour that is *too
  similar* to its ellipse is discarded (C23; a contour that the fit reproduces exactly in Props/PerfectEllipse.lean).
* `frdist` may exhaust the recursion limit (C27); subsampling ignores the last point (C25).
* The angle of a circle is NaN (C32), which also makes the bounds of the surface fit NaN; the axis is the minor one
  if the centroid of the points lies outside the conic.
* The synthetic generator tilts eddies the other way than the fitter (C36).
* The residual is zero for any misfit of constant size (C38).
* Grid indices of contour points are wrong on grids whose search box is not a rectangle of indices (C40), for large
  contours and coarse grids (C69); longitude-first data is silently transposed (C70).
* A contour line whose vertices do not determine a conic (straight, or at most four different vertices, as around a
  single grid point that stands out) aborts the whole run with LinAlgError instead of being discarded (C89). For the
  straight line along a meridian two columns of the matrix are exactly proportional in floating point too; the case of
  four vertices is singular in exact arithmetic, in floating point it depends on rounding.
* The zero of the data matters: the level zero is left out, the sign of an eddy is that of the mean of the data inside
  and not of the difference to the level, a contour whose extremum is zero is taken for an island (C91).
* Calls: levels in a list raise IndexError or TypeError, and the default (no levels) TypeError (C94); a negative `t0`
  analyses the last maps before the first and reports them at negative times (C95); a dataset without time raises
  KeyError with the default `tf` (C96); because of the zero padding of the default filter a constant added to the data
  changes the anomaly near the border, and eddies are lost or found (C97); the filters `meridional` and `zonal` raise on
  grids whose dimensions are not named longitude and latitude, `gaussian` always raises (C98), and a misspelt mode of
  the convolution silently leaves the data unfiltered.
* A dataset stored with the longitude before the latitude is accepted by the constructor; every call then raises
  ValueError, except on square grids, where rows and columns are silently exchanged (C104).
* Elevations and depressions are not treated alike: the similarity of a contour with the fitted ellipse depends on the
  direction of the contour, which depends on the side of the high data (C105).
* The box in which grid points are searched is wider for larger longitudes (5 percent of the longitude), so the result
  depends on where longitudes are counted from (C106).
* Continuity: two eddies of a snapshot that share an identifier enter the same track together, even if only one is near its
  end, so tracks may jump (C107).
* Open contours: nothing in `_detect_one_level` asks whether a contour is closed; one that ends at the edge of the map may meet
  all criteria and is returned as an eddy (C108).
* Plots: the plot of a level raises AttributeError without eddies and TypeError without discarded contours (C100); the
  legend of the plot of several levels shows other colours than those of the eddies (C101).
* Without the Gaussian fit, elevations are returned for negative levels (C102): the sum of the data inside decides the
  sign, not the level. In `gaussian` a width that is zero would give NaN in Python, here a quotient that is zero; C102 and
  C103 speak of such answers of the optimiser only in this sense.
* Heat flux variables (`sensible_heat_flux_x` ...) are taken for coordinates (C45).
* `nan_treatment` has no effect with the space filter, the time filter returns `None`, unknown filters are accepted
  (C47); the convolution filter leaves border values (C49).
* `contour` and `ellipse` share their columns in the table (C65).
* The area of a contour around (180, 0) is that of the rest of the Earth (C67).
* Generator: eddies at the same point (C51), `checkposition` never ends after 9999 rejected draws (C52), the first
  frame shrinks the separations (C71), fields on non-square grids are scrambled and `reconstruct_field` always
  raises (C54).
* The version guard compares strings and accepts 3.2 to 3.9 (C58); `hd5` raises TypeError and unknown formats
  silently write nothing (C62).
* Missing data is treated as below the level and the contour vertices beside it are missing (C76); the comment in
  trackeddy.py:285-286 says contours with NaN are skipped, which holds only if the first vertex is NaN (C77); a
  masked array loses its mask as `extract_contours` passes none.
* At ties (a value or a cell mean equal to the level) the contours of the negated field at the negated level differ
  (C81).
* The result depends on whether coordinates are stored ascending or descending: the tracer starts at another vertex and
  runs the other way round, the mean of the vertices counts the first one twice and the similarity with the fitted
  ellipse depends on both (C117).
* A run with `t0 > 0` raises a KeyError where the run on the dataset cut to the same times succeeds: the look-back window
  is counted in absolute time indices (C118, C06).
* The order of the levels matters: of two contours around the same extremum the one at the level listed first is kept, without the
  Gaussian fit (C120, C122); with it, a later level can replace an eddy or remove one (C121).
* With several levels, relaxing the criteria can lose an eddy: a contour of an earlier level that now qualifies hides it (C137).
* Tracks depend on other eddies: one that appears between two others, in reach of both, joins them (C123).
* The similarity of a contour with its fitted ellipse depends on the hemisphere: the points of the ellipse are listed
  counter-clockwise whatever the direction of the contour, so an eddy can be found north of the equator and its mirror image
  not south of it (C125).
* A contour on a circle stops a run with the Gaussian fit: the angle of its ellipse is NaN, `least_squares` refuses it as
  initial guess with `ValueError` (C127). Without the fit the eddy is returned with `ellipse_params_theta` NaN.
* An edge of a polygon that passes through (0,0) contributes as much area as a half circle around (0,0): half a diamond has the
  area of the whole one (C129).
* The similarity of a closed contour with itself is below one if one of the listings starts at another vertex (C130).
* Harmless: `data_init` reads `data[imax]` uninitialised at `ij = 0`; `build_cntr_list_v2` returns NULL without an
  exception for `reorder = -1` (shown unreachable, C73); the documentation of `Eddy` says closed contour, but
  `_detect_one_level` does not check closedness.
* Rounding in saddle cells (C134): the mean of the corners is rounded four times; if it is close to the level the contour
  lines through the cell are joined the other way than in exact arithmetic.
* Contouring without enough memory (C133): after a failure in `cntr_init` the freed site is released again with the object;
  after a failure of `cntr_new` the null site is read; `PyList_New` and the three allocations in `reorder` are not checked;
  if the vertices of a later contour cannot be allocated, the codes of the contour before are released a second time; failing vertex buffers give
  SystemError, failing copies of the arguments ValueError.

## Tests of the theorems

`seeded/LOG.jsonl` lists wrong programs (edits of the models, made in a scratch copy) with the theorems that no longer
build. The list of failing theorems is obtained by replacing every failing proof by `sorry` and asking for the axioms
of all theorems of MANIFEST.json. So a theorem in `theorems_failed` depends on a proof that broke. This alone does not show that
its statement became false: a helper lemma may break for its form only, and everything that uses it is then listed too (the edit of `diffs`
breaks no claim and is listed with two theorems). The claims that the edit was meant to break are in `claims`; entries with an empty
`theorems_failed` are edits that went unnoticed until the theorems in `theorems_tightened` were added. `claims` was filled in or corrected
after the run in some entries.
