{
 "claims": [
  {
   "property": "C01",
   "status": "proved",
   "theorems": [
    "C01_rectilinear_inverts_rays"
   ],
   "note": "Full claim, normed and un-normed rays, both values of hide_backpoints."
  },
  {
   "property": "C02",
   "status": "partial",
   "theorems": [
    "C02_cylindrical_inverts_rays_partial",
    "C02_violated"
   ],
   "note": "Violated: points on rays exactly a quarter turn away from the centre are projected to nan, because rows with |z| < 1e-10 are reset. The rest is proved for all points at least 1e-10 off the camera plane."
  },
  {
   "property": "C03",
   "status": "partial",
   "theorems": [
    "C03_equirectangular_inverts_rays_partial",
    "C03_violated"
   ],
   "note": "Violated: points on rays exactly a quarter turn away from the centre are all projected to one pixel half a turn away. The rest is proved for all points at least 1e-10 off the camera plane."
  },
  {
   "property": "C04",
   "status": "proved",
   "theorems": [
    "C04_rectilinear_hides_backpoints"
   ],
   "note": "Full claim as an equivalence."
  },
  {
   "property": "C05",
   "status": "proved",
   "theorems": [
    "C05_ray_through_projected_point"
   ],
   "note": "Full claim for the three projections."
  },
  {
   "property": "C06",
   "status": "proved",
   "theorems": [
    "C06_image_space_image_lens",
    "C06_image_space_image"
   ],
   "note": "Full claim; C06_image_space_image_lens extends it to any lens that is exact at the pixel."
  },
  {
   "property": "C07",
   "status": "proved",
   "theorems": [
    "C07_space_image_space_lens",
    "C07_space_image_space"
   ],
   "note": "Full claim; C07_space_image_space_lens extends it to any lens that is exact at the pixel."
  },
  {
   "property": "C08",
   "status": "proved",
   "theorems": [
    "C08_constraint_or_nan",
    "C08_priority"
   ],
   "note": "Full claim, plus the priority of the constraints and the UnboundLocalError without constraint."
  },
  {
   "property": "C09",
   "status": "proved",
   "theorems": [
    "C09_distance"
   ],
   "note": "Full claim."
  },
  {
   "property": "C10",
   "status": "proved",
   "theorems": [
    "C10_ray_origin_and_length"
   ],
   "note": "Full claim."
  },
  {
   "property": "C11",
   "status": "proved",
   "theorems": [
    "C11_rigid_motion",
    "C11_direction"
   ],
   "note": "Full claim for both orientation classes, plus directions."
  },
  {
   "property": "C12",
   "status": "proved",
   "theorems": [
    "C12_heading_wrap"
   ],
   "note": "Full claim, including invariance under any number of full turns."
  },
  {
   "property": "C13",
   "status": "proved",
   "theorems": [
    "C13_yaw_pitch_roll",
    "C13_docstring_violated"
   ],
   "note": "Claim proved; the relation heading = -yaw of the docstring is refuted."
  },
  {
   "property": "C14",
   "status": "partial",
   "theorems": [
    "C14_rotateSpace",
    "C14_rotateSpace_radial",
    "C14_program_partial",
    "C14_ypr_violated"
   ],
   "note": "Proved for every camera with a SpatialOrientation, without distortion and with any radial lens (C14_rotateSpace, C14_rotateSpace_radial), and in every reachable state of the program, where no parameter but the heading and the position changes (C14_program_partial). The quantifier of the property says all cameras: a camera with a SpatialOrientationYawPitchRoll has no heading_deg, so that rotateSpace raises an AttributeError (C14_ypr_violated)."
  },
  {
   "property": "C15",
   "status": "partial",
   "theorems": [
    "C15_scaleSpace_partial",
    "C15_violated"
   ],
   "note": "Proved for s > 0 and every point, for groups in which no two cameras share an orientation, with the images equal up to the sign of a zero, for cameras without lens and with both radial lenses. Violated when two cameras share one orientation: the position is scaled once per camera (C15_violated)."
  },
  {
   "property": "C16",
   "status": "proved",
   "theorems": [
    "C16_constructed_projection",
    "C16_focal_length_from_fov",
    "C16_fov_from_focal_length"
   ],
   "note": "Both directions, all three projections."
  },
  {
   "property": "C17",
   "status": "proved",
   "theorems": [
    "C17_image_size_from_fov"
   ],
   "note": "Full claim."
  },
  {
   "property": "C18",
   "status": "partial",
   "theorems": [
    "C18_object_height_lens_partial",
    "C18_object_height_partial",
    "C18_ground_partial",
    "C18_violated"
   ],
   "note": "Violated: nan for every object with the same x or y as the camera (0/0). Proved for all other objects, with any lens that is exact at the two pixels."
  },
  {
   "property": "C19",
   "status": "proved",
   "theorems": [
    "C19_object_length_lens",
    "C19_object_length",
    "C19_ground"
   ],
   "note": "Full claim, with any lens that is exact at the two pixels."
  },
  {
   "property": "C20",
   "status": "proved",
   "theorems": [
    "C20_undistort_distort",
    "C20_distort_undistort",
    "C20_brown_exact_at_knots",
    "C20_camera_round_trip"
   ],
   "note": "All coefficients, all points off the centre. The inverse radius function is the interpolating spline (any exact interpolant); the round trips are exact wherever it is, in particular at all knots; composed with the camera conversions in C20_camera_round_trip. Between the knots C181 bounds the error."
  },
  {
   "property": "C21",
   "status": "partial",
   "theorems": [
    "C21_violated",
    "C21_no_distortion_partial"
   ],
   "note": "Violated: the centre maps to nan (0/0) for Brown and ABC. Partial: NoDistortion."
  },
  {
   "property": "C22",
   "status": "proved",
   "theorems": [
    "C22_zero_coefficients"
   ],
   "note": "All points except the centre (C21)."
  },
  {
   "property": "C23",
   "status": "proved",
   "theorems": [
    "C23_radial",
    "C23_order_preserving"
   ],
   "note": "All non-negative coefficients and pairs of points."
  },
  {
   "property": "C24",
   "status": "proved",
   "theorems": [
    "C24_quadrilateral_area",
    "C24_sum_of_triangles",
    "C24_invariance"
   ],
   "note": "All quadruples of points; sum of triangle areas for same-orientation diagonals; invariance under plane motions, reversal, renumbering."
  },
  {
   "property": "C25",
   "status": "proved",
   "theorems": [
    "C25_triangle_area",
    "C25_zero_iff_collinear"
   ],
   "note": "All triangles in space (one at a time)."
  },
  {
   "property": "C26",
   "status": "proved",
   "theorems": [
    "C26_nearest_hit"
   ],
   "note": "All meshes of any length; hypotheses: no degenerate triangle, ray not inside a triangle plane."
  },
  {
   "property": "C27",
   "status": "partial",
   "theorems": [
    "C27_miss_not_finite_partial",
    "C27_violated"
   ],
   "note": "Violated: ray.py:90 overwrites nan by inf in place, so a miss gives origin + inf*direction. Exact result proved for all misses: coordinate nan iff the direction coordinate is 0, otherwise infinite. Partial: no coordinate is finite."
  },
  {
   "property": "C28",
   "status": "partial",
   "theorems": [
    "C28_violated",
    "C28_missed_triangles_partial"
   ],
   "note": "Violated for all meshes: one zero-area triangle makes every ray hit at its own origin. Partial: missed non-degenerate triangles do not matter."
  },
  {
   "property": "C29",
   "status": "proved",
   "theorems": [
    "C29_distance_line_point"
   ],
   "note": "All lines with non-zero direction."
  },
  {
   "property": "C30",
   "status": "proved",
   "theorems": [
    "C30_closest_point"
   ],
   "note": "All lines with non-zero direction."
  },
  {
   "property": "C31",
   "status": "proved",
   "theorems": [
    "C31_intersection_of_two_lines"
   ],
   "note": "All pairs of lines; parallel lines give nan."
  },
  {
   "property": "C32",
   "status": "proved",
   "theorems": [
    "C32_batch_equals_single"
   ],
   "note": "Exact equality (bitwise in the number model), all batch sizes, including nan inputs and singular rows."
  },
  {
   "property": "C33",
   "status": "partial",
   "theorems": [
    "C33_line_distance_partial",
    "C33_batch_partial",
    "C33_violated"
   ],
   "note": "Violated in the window 0 < |v1 x v2| <= 1e-8 (np.isclose): meeting lines get distance 1. Partial: exact outside the window (and for exactly parallel lines, and two points)."
  },
  {
   "property": "C34",
   "status": "proved",
   "theorems": [
    "C34_triangulation",
    "C34_triangulation_batch"
   ],
   "note": "Any of the three projections, any lens that is exact at the images; single pair and batch. Points on the line through the cameras are excluded: there the viewing rays are parallel."
  },
  {
   "property": "C35",
   "status": "proved",
   "theorems": [
    "C35_epipolar_error"
   ],
   "note": "Two rectilinear cameras without distortion. General position: off the baseline; the two points of each ray from which the epipolar line is computed are not in the plane of the other camera."
  },
  {
   "property": "C36",
   "status": "partial",
   "theorems": [
    "C36_wall_partial",
    "C36_violated"
   ],
   "note": "Violated: both triangles of a segment contain the bottom edge; exactly the points with m <= l or m <= 1-l are covered (all segments). Partial: number, area sum, contained in the wall, for polylines of any length."
  },
  {
   "property": "C37",
   "status": "proved",
   "theorems": [
    "C37_great_circle",
    "C37_metric",
    "C37_heights"
   ],
   "note": "All latitudes and longitudes, also outside the usual ranges."
  },
  {
   "property": "C38",
   "status": "proved",
   "theorems": [
    "C38_triangle",
    "C38_triangle_heights"
   ],
   "note": "With and without heights."
  },
  {
   "property": "C39",
   "status": "proved",
   "theorems": [
    "C39_great_circle",
    "C39_distance"
   ],
   "note": "All starts off the poles, any bearing."
  },
  {
   "property": "C40",
   "status": "proved",
   "theorems": [
    "C40_bearing"
   ],
   "note": "All starts off the poles, any bearing."
  },
  {
   "property": "C41",
   "status": "proved",
   "theorems": [
    "C41_gps_space_gps"
   ],
   "note": "All targets including antipode and poles."
  },
  {
   "property": "C42",
   "status": "proved",
   "theorems": [
    "C42_space_gps_space"
   ],
   "note": "All points closer than half the circumference."
  },
  {
   "property": "C43",
   "status": "partial",
   "theorems": [
    "C43_camera_round_trip_partial",
    "C43_violated"
   ],
   "note": "Violated for every elevation other than 0 (factor R/(R+h)); partial: elevation 0."
  },
  {
   "property": "C44",
   "status": "partial",
   "theorems": [
    "C44_batch_partial",
    "C44_violated",
    "C44_no_heights_violated"
   ],
   "note": "Violated for N=2 with heights (heights become 0) and for N other than 2 without heights (IndexError); partial: N other than 2 with heights."
  },
  {
   "property": "C45",
   "status": "proved",
   "theorems": [
    "C45_dms",
    "C45_dm",
    "C45_deg",
    "C45_documented",
    "C45_formats",
    "C45_width",
    "C45_rounding",
    "C45_errors"
   ],
   "note": "C45_dms, C45_dm, C45_deg: for every width (padded with blanks or zeros) and number of decimals and all real coordinates, reading the two texts joined by a space gives both coordinates up to half a unit of the last printed digit, including the carries of seconds and minutes; C45_documented: the four formats of the docstring; C45_formats: which format texts the model understands, by a grammar of its own; C45_width: the printed number has at least the requested width. Numbers are exact reals: the binary rounding of double arithmetic is not modelled."
  },
  {
   "property": "C46",
   "status": "partial",
   "theorems": [
    "C46_violated",
    "C46_sign_partial"
   ],
   "note": "C46_violated: for every format without %s whose degrees are printed with %d, the texts of -x and x are the same for all 0 < x < 58/60, so the sign is lost. C46_sign_partial: with %f degrees or at least one degree the minus is printed exactly for negative coordinates. Zero padding and %% are not modelled."
  },
  {
   "property": "C47",
   "status": "proved",
   "theorems": [
    "C47_process_degree",
    "C47_only_values"
   ],
   "note": "C47_process_degree: the value is +-(|deg| + min/60 + sec/3600), negative exactly for a degree text with a minus or the letters S, W, for all texts that stand for numbers. C47_only_values: for the groups of the three notations nothing else is returned (other texts raise). Texts are ASCII digits, points and signs; exponents, inf and nan cannot occur in the groups; non-ASCII decimal digits, which \\d also accepts, are not modelled. Numbers are exact reals."
  },
  {
   "property": "C48",
   "status": "proved",
   "theorems": [
    "C48_pair",
    "C48_single",
    "C48_none",
    "C48_lists"
   ],
   "note": "C48_pair, C48_single, C48_none: for every text the notation used is the first one in the order of the list that matches (IsPair and IsSingle describe the notations independently of the matcher, which models the backtracking); latitude and longitude are read in the same notation; a single coordinate ignores the height. C48_lists: lists element-wise at every depth, text and number as point with height, height appended. Numpy shape rules for ragged nested lists are not modelled."
  },
  {
   "property": "C49",
   "status": "partial",
   "theorems": [
    "C49_last_assigned_partial",
    "C49_violated_default",
    "C49_violated_sample"
   ],
   "note": "For every history (Run s L, by induction over operations) reading a parameter gives the last value the log records, or the current default. Missing: headings whose history contains the two exceptions Log.exc/Log.excFit (default or sampled heading outside [-360,360]) and the aliases focallength_x/y_px of focallength_px as recorded in the log. Violated for the default: an out-of-range default heading is stored as the value (C49_violated_default); sampling a heading out of range drops its uncertainty (C49_violated_sample). The exact behaviour in the excluded cases is C162."
  },
  {
   "property": "C50",
   "status": "partial",
   "theorems": [
    "C50_shared_partial",
    "C50_shared_lens_partial",
    "C50_violated_lens_moved"
   ],
   "note": "Every parameter of the projection, orientation and lens of a camera reads the same through the camera and through the part. Missing: projections built from a field of view (instance attributes shadow the parameters, see C53) and a lens object that was attached to another camera later (C50_violated_lens_moved)."
  },
  {
   "property": "C51",
   "status": "proved",
   "theorems": [
    "C51_matrices_up_to_date"
   ],
   "note": "After any history the stored matrix R, its inverse, C and t are those of the current parameters."
  },
  {
   "property": "C52",
   "status": "partial",
   "theorems": [
    "C52_defaults_partial",
    "C52_exact_partial",
    "C52_view_partial",
    "C52_view_violated",
    "C52_up_to_date_partial",
    "C52_violated_shared_projection",
    "C52_violated_shared_lens"
   ],
   "note": "Proved for histories in which no projection and no lens is shared between cameras (ReachX); for projections built from a field of view the image size is the one given at construction (C52_exact_partial), which matters for an ABCDistortion lens only (C52_view_partial, C52_view_violated). Violated when a projection or a lens is shared: only the last attached lens/camera is notified."
  },
  {
   "property": "C53",
   "status": "partial",
   "theorems": [
    "C53_image_size_partial",
    "C53_violated",
    "C53_violated_forever"
   ],
   "note": "Proved for projections that were not built from a field of view; for those built from one the instance attribute shadows the parameter for all later histories (C53_violated, C53_violated_forever)."
  },
  {
   "property": "C54",
   "status": "partial",
   "theorems": [
    "C54_set_fit_partial",
    "C54_violated_heading",
    "C54_violated_focal"
   ],
   "note": "Missing: headings outside [-360,360] (become user set and wrapped) and focal lengths in the same call as focallength_px (overwritten by its callback); both are shown as violations. The exact behaviour in the excluded cases is C162."
  },
  {
   "property": "C55",
   "status": "partial",
   "theorems": [
    "C55_fit_parameters_partial",
    "C55_violated"
   ],
   "note": "Missing: headings with Log.exc/Log.excFit. Violated: a fitted heading outside [-360,360] is reported as fixed by the user. The exact behaviour in the excluded cases is C162_fit."
  },
  {
   "property": "C56",
   "status": "partial",
   "theorems": [
    "C56_uncertain_partial",
    "C56_violated_focal",
    "C56_violated_heading"
   ],
   "note": "Missing: headings and the two focal lengths x/y. Violated: sample() of a camera overwrites focallength_x_px by focallength_px; one draw of a heading outside [-360,360] ends its resampling. The exact behaviour in the excluded cases is C162."
  },
  {
   "property": "C57",
   "status": "partial",
   "theorems": [
    "C57_lens_violated",
    "C57_both_focal_lengths",
    "C57_both_focal_lengths_fit",
    "C57_lens_partial"
   ],
   "note": "Both focal lengths are proved for all histories, directly and by a fit. A Brown lens has seen the value if lenses and projections are not shared (C57_lens_partial). Violated: a lens whose projection was given to a second camera with another lens does not see it (C57_lens_violated)."
  },
  {
   "property": "C58",
   "status": "proved",
   "theorems": [
    "C58_trace_length"
   ],
   "note": "Exact: for iterations, burn >= 0 the trace has max(0, floor(iterations) - skipped - 1) rows."
  },
  {
   "property": "C59",
   "status": "partial",
   "theorems": [
    "C59_camera_partial",
    "C59_rows_partial",
    "C59_violated_infinite"
   ],
   "note": "Rows carry their own log probability (sampler level and camera level); no row is impossible unless a term gives +inf. Violated for +inf: an infinite log probability is accepted from and then any -inf is accepted."
  },
  {
   "property": "C60",
   "status": "partial",
   "theorems": [
    "C60_bounds_partial",
    "C60_violated"
   ],
   "note": "Bounds hold while the step factor has not grown (less than 200 skipped iterations). Violated for every constant log probability and >= 200 skipped iterations: the factor of the adaptation multiplies a draw truncated for factor 1."
  },
  {
   "property": "C61",
   "status": "partial",
   "theorems": [
    "C61_most_probable_partial",
    "C61_exact_partial",
    "C61_violated"
   ],
   "note": "Proved: what every attribute reads after metropolis, for all states, traces and parameters (C61_exact_partial). Violated: a heading or pitch outside [-360, 360] in the best row is read modulo 360, and focallength_x_px sampled together with focallength_px reads as the latter (C61_violated)."
  },
  {
   "property": "C62",
   "status": "partial",
   "theorems": [
    "C62_start_search_partial",
    "C62_violated"
   ],
   "note": "Raises iff the start and the first 999 draws are impossible; violated for the 1000th draw, which is evaluated and discarded."
  },
  {
   "property": "C63",
   "status": "proved",
   "theorems": [
    "C63_log_probability"
   ],
   "note": "Single cameras and groups; histories of add/clear/only_plot."
  },
  {
   "property": "C64",
   "status": "partial",
   "theorems": [
    "C64_load_camera_partial",
    "C64_view_partial",
    "C64_view_violated",
    "C64_save_load_partial"
   ],
   "note": "Proved for cameras with SpatialOrientation over all reachable states of the saving and of the loading session: class of projection and lens, every attribute but focallength_px, the modelled camera and imageFromSpace and getRay agree (C64_load_camera_partial; C64_view_partial for projections built from a field of view). Violated: with an ABCDistortion lens and a projection built from a field of view the loaded lens scales with the current image size, the saved one with that given at construction (C64_view_violated). YawPitchRoll orientations are C65."
  },
  {
   "property": "C65",
   "status": "partial",
   "theorems": [
    "C65_violated",
    "C65_violated_rays"
   ],
   "note": "Violated: the file does not record the orientation class, so a YawPitchRoll camera is loaded as tilt/heading/roll with tilt 85 and heading 0; C65_violated_rays shows that its rays differ unless the pitch happens to agree."
  },
  {
   "property": "C66",
   "status": "partial",
   "theorems": [
    "C66_violated",
    "C66_violated_parts",
    "C66_partial",
    "C66_violated_gps"
   ],
   "note": "Violated: the file is opened for writing before the values are serialised; a single parameter holding a 0-d array (e.g. after setGPSpos with a sequence) makes save raise TypeError and leaves an empty file that cannot be loaded. C66_partial: without such assignments save never fails, and other files are never touched."
  },
  {
   "property": "C67",
   "status": "partial",
   "theorems": [
    "C67_stores_partial",
    "C67_violated"
   ],
   "note": "C67_stores_partial: all argument forms store what they mean, with one exception; C67_violated: setGPSpos((lat, lon), elevation=e) ignores e. Text arguments go through an abstract parser (see C45-C48)."
  },
  {
   "property": "C68",
   "status": "partial",
   "theorems": [
    "C68_lookups_partial",
    "C68_violated",
    "C68_violated_cut"
   ],
   "note": "Holds as long as the first download succeeds. Violated: open(..., 'w') creates the file before the download, so after a download that raised the file exists, is empty and is never downloaded again: no later lookup finds anything (C68_violated); a cut off download leaves a truncated database (C68_violated_cut)."
  },
  {
   "property": "C69",
   "status": "partial",
   "theorems": [
    "C69_violated",
    "C69_violated_always",
    "C69_from_exif_partial"
   ],
   "note": "Violated: sensor_size is unbound in line 159 if sensor_from_database is False, for all exif data (C69_violated, C69_violated_always). With the database and a camera that is not listed the size is right for resolutions per inch."
  },
  {
   "property": "C70",
   "status": "partial",
   "theorems": [
    "C70_computed_map",
    "C70_top_view_map_partial",
    "C70_violated",
    "C70_violated_list",
    "C70_violated_moved"
   ],
   "note": "A computed map is right in every state (C70_computed_map); every call in a history with constant camera, Z, hide_backpoints and unchanged extent lists uses the right map. Otherwise violated: the cache test (camera.py:1373) compares extent and scaling only, so after any change of the camera, of Z or of hide_backpoints the old map is used (C70_violated), which is wrong for every moved camera that sees the corner of the extent (C70_violated_moved); last_extent is a reference to the caller's list, so a list changed in place hits too (C70_violated_list). Float32 casts and the interpolation of cv2.remap are not modelled."
  },
  {
   "property": "C71",
   "status": "partial",
   "theorems": [
    "C71_computed_map",
    "C71_undistort_map_partial",
    "C71_violated",
    "C71_violated_lens"
   ],
   "note": "As C70 for the undistortion map: right when computed and as long as the lens mapping stays the same; otherwise the stale map of the old lens is used (C71_violated, C71_violated_lens)."
  },
  {
   "property": "C72",
   "status": "partial",
   "theorems": [
    "C72_cache_hit_partial",
    "C72_violated"
   ],
   "note": "Holds for a given scaling. With scaling=None the comparison last_scaling == None never holds, so the map is computed in every call (C72_violated)."
  },
  {
   "property": "C73",
   "status": "partial",
   "theorems": [
    "C73_one_camera_per_entry_partial",
    "C73_violated"
   ],
   "note": "Proved when every argument is single, a list of length 1 or a list of the common length, and the list given last has that length. Violated otherwise: the number of cameras is the length of the list given last (C73_violated), so two projections with a one-element list of lenses yield one camera."
  },
  {
   "property": "C74",
   "status": "partial",
   "theorems": [
    "C74_group_names_partial",
    "C74_violated"
   ],
   "note": "Proved for all list lengths, all names and all later histories: reading, writing and the statistics of C<i>_<name> are those of the i-th listed object; single objects keep the plain name. Partial: a lens that was used with another projection before makes the name of a projection parameter address that other projection (C74_violated); the image size of a projection built from a field of view is hidden by an attribute."
  },
  {
   "property": "C75",
   "status": "proved",
   "theorems": [
    "C75_ensure_array_format",
    "C75_last_dimension"
   ],
   "note": "Proved for all shapes of any rank, all formats with \"...\" at most at the beginning, written as text, and any number of additional arrays. Texts of numbers are decimal digits (no sign, spaces or underscores)."
  },
  {
   "property": "C76",
   "status": "partial",
   "theorems": [
    "C76_constructor_checks_partial",
    "C76_violated_zero",
    "C76_violated_mixed"
   ],
   "note": "Proved for all combinations of present and absent arguments with non-zero values: accepted exactly if consistent, else ValueError. Violated for zeros, which are ignored (C76_violated_zero), and for a focal length along one side with a field of view along the other, where the focal length is ignored (C76_violated_mixed)."
  },
  {
   "property": "C77",
   "status": "partial",
   "theorems": [
    "C77_defaults_partial",
    "C77_violated",
    "C77_parameters"
   ],
   "note": "Proved, together with the attributes of the new projection and the orientation of an image given as array. Partial: a sensor side of 0 beside a missing one leaves the other at its default (C77_violated); an empty image."
  },
  {
   "property": "C78",
   "status": "proved",
   "theorems": [
    "C78_border",
    "C78_unit_steps",
    "C78_each_once"
   ],
   "note": "For integer sizes and resolution 1: closed walk of 2(w+h) unit steps visiting each pixel position of the edge once; for all positive resolutions every point is on the edge."
  },
  {
   "property": "C79",
   "status": "partial",
   "theorems": [
    "C79_cone_ground_partial",
    "C79_cone_distance_partial",
    "C79_default_distance_partial",
    "C79_violated",
    "C79_no_index_error",
    "C79_violated_float"
   ],
   "note": "The border and the triples are as stated, and no index error occurs, but the loop inserts one triple too many: the cone ends with a further (nan, camera position, nan) (C79_violated). Float image sizes raise TypeError in range (C79_violated_float)."
  },
  {
   "property": "C80",
   "status": "partial",
   "theorems": [
    "C80_distance_to_horizon_partial",
    "C80_violated",
    "C80_below_ground"
   ],
   "note": "The code returns sqrt(2 R^2 (1 - R/(R+e))), the chord from the foot point of the camera to the tangent point. It is smaller than the distance from the camera for every e > 0 (C80_violated). Negative elevations give nan (C80_below_ground)."
  },
  {
   "property": "C81",
   "status": "proved",
   "theorems": [
    "C81_horizon_row",
    "C81_horizon_real",
    "C81_all_x"
   ],
   "note": "Proved; lenses that return infinities are excluded (np.nanargmin over inf values)."
  },
  {
   "property": "C82",
   "status": "proved",
   "theorems": [
    "C82_cube_added",
    "C82_cube_edges",
    "C82_rect",
    "C82_grid"
   ],
   "note": "Plotting functions of Scene are not modelled."
  },
  {
   "property": "C83",
   "status": "partial",
   "theorems": [
    "C83_closest_point_violated",
    "C83_imageFromCamera_violated",
    "C83_unchanged_partial",
    "C83_image_points"
   ],
   "note": "Violated: imageFromCamera zeroes the caller rows near the camera plane; getClosestPointFromLine norms the caller ray. Partial: rows off the camera plane are unchanged."
  },
  {
   "property": "C84",
   "status": "partial",
   "theorems": [
    "C84_euler_partial",
    "C84_violated"
   ],
   "note": "Violated for the roll angle: rotationToEuler returns minus the roll (exact characterisation for all angles with 0 < tilt < 180). Tilt and heading are right (partial theorem)."
  },
  {
   "property": "C85",
   "status": "partial",
   "theorems": [
    "C85_lut_image_partial",
    "C85_lut_slice_partial",
    "C85_true_area",
    "C85_parallel_partial"
   ],
   "note": "Proved for all pixels none of whose corner rays is exactly parallel to the ground. A pixel with such a corner gets undef_value or infinity, never a finite area (C85_parallel_partial); which of the two depends on the sign of a zero."
  },
  {
   "property": "C86",
   "status": "proved",
   "theorems": [
    "C86_meaning_of_the_angles"
   ],
   "note": "Full claim."
  },
  {
   "property": "C87",
   "status": "partial",
   "theorems": [
    "C87_exact_at_knots_partial",
    "C87_violated"
   ],
   "note": "Violated when the sampled radii fall and rise again below an earlier value: the correction becomes the identity. Partial: exact at the knots if the kept knots increase."
  },
  {
   "property": "C88",
   "status": "partial",
   "theorems": [
    "C88_fit_result_partial",
    "C88_exact_partial",
    "C88_turn_violated",
    "C88_focal_violated"
   ],
   "note": "The optimiser is an arbitrary function from starts to tried positions and results. Proved: what every attribute reads after fit, for all states, results and parameters (C88_exact_partial). Violated: a heading or pitch outside [-360, 360] in the result is read modulo 360 (C88_turn_violated), focallength_x_px fitted together with focallength_px reads as the latter (C88_focal_violated)."
  },
  {
   "property": "C89",
   "status": "partial",
   "theorems": [
    "C89_violated",
    "C89_fit_parameters_partial"
   ],
   "note": "Violated for custom distributions: AttributeError (no parents). Bounds and mean/std work."
  },
  {
   "property": "C90",
   "status": "partial",
   "theorems": [
    "C90_violated",
    "C90_works_partial",
    "C90_steps_violated"
   ],
   "note": "Violated for two or more fit parameters and at least one additional parameter: the step array has the wrong length (C90_violated). C90_steps_violated: with one fit parameter the steps of the additional parameters are not used. C90_works_partial: with one fit parameter, or without additional parameters, the sampling succeeds for usable parameters and a possible tried start and returns at least one row."
  },
  {
   "property": "C91",
   "status": "partial",
   "theorems": [
    "C91_violated"
   ],
   "note": "Violated: load constructs the projection with default arguments, so focallength_px holds 100, and sample()/set_to_mean() run its callback, which overwrites both focal lengths by 100."
  },
  {
   "property": "C92",
   "status": "partial",
   "theorems": [
    "C92_orientation",
    "C92_projection_partial",
    "C92_violated_lens"
   ],
   "note": "Proved for orientations (both classes); for projections all parameters but focallength_px, with a target not built from a field of view; violated for lenses, whose dictionary contains the focal lengths, centre and image size of the projection they are used with."
  },
  {
   "property": "C93",
   "status": "partial",
   "theorems": [
    "C93_baseline_partial",
    "C93_violated"
   ],
   "note": "Violated for every pair of cameras with different elevations: the elevation is ignored. Proved for equal elevations."
  },
  {
   "property": "C94",
   "status": "partial",
   "theorems": [
    "C94_correspondence_term_partial",
    "C94_violated"
   ],
   "note": "Violated whenever a point of a ray at depth 1 is behind the other camera: the term is nan and the group's log probability -inf. Proved when these points are in front."
  },
  {
   "property": "C95",
   "status": "partial",
   "theorems": [
    "C95_ray_distance_partial",
    "C95_batch_partial",
    "C95_violated"
   ],
   "note": "Violated for points at which the angle between the rays is at most 1e-8 (isclose in distanceOfTwoLines): returns s*distance > 0. Proved for larger angles and for points on the baseline."
  },
  {
   "property": "C96",
   "status": "partial",
   "theorems": [
    "C96_cameras_independent_partial",
    "C96_violated"
   ],
   "note": "Proved if no distorting lens belongs to two projections and no projection to two distorting lenses, and the projections were not built from a field of view. Violated for one Brown lens and several projections: every camera distorts with the focal lengths and centre of the last projection (C96_violated)."
  },
  {
   "property": "C97",
   "status": "partial",
   "theorems": [
    "C97_focallength_px_partial",
    "C97_violated"
   ],
   "note": "Proved for numbers. Violated for the documented tuple: both focal lengths become the tuple (C97_violated)."
  },
  {
   "property": "C98",
   "status": "partial",
   "theorems": [
    "C98_no_pixels",
    "C98_violated",
    "C98_violated_moved",
    "C98_default_size_partial",
    "C98_default_scaling_partial",
    "C98_reversed_partial"
   ],
   "note": "The number of pixels is as stated, also for an extent given by the caller (at least as many; C98_default_scaling_partial). The extent is violated: it is always [0, width, 0, height] in metres, because getImageBorder returns pixel positions (C98_violated), so for every camera a moved camera sees ground outside of its default extent (C98_violated_moved)."
  },
  {
   "property": "C99",
   "status": "partial",
   "theorems": [
    "C99_violated"
   ],
   "note": "Violated: the dip is smaller than the one of the tangent line for all 0 < e <= R/2 (C99_violated). No positive part beyond C80, C81."
  },
  {
   "property": "C100",
   "status": "proved",
   "theorems": [
    "C100_top_view_content"
   ],
   "note": "For a computed map; for a cached one see C70. The interpolation of cv2.remap is a parameter."
  },
  {
   "property": "C101",
   "status": "proved",
   "theorems": [
    "C101_undistorted_content"
   ],
   "note": "For a computed map; for a cached one see C71. The interpolation of cv2.remap is a parameter."
  },
  {
   "property": "C102",
   "status": "partial",
   "theorems": [
    "C102_lookup_partial",
    "C102_violated",
    "C102_violated_maker",
    "C102_broken_row"
   ],
   "note": "Proved for makers without a space in the name; makers with a space are never found (C102_violated); a model text without space finds the first row of the maker of that name (C102_violated_maker). float() is a parameter."
  },
  {
   "property": "C103",
   "status": "partial",
   "theorems": [
    "C103_violated",
    "C103_inch_partial"
   ],
   "note": "Right for pixels per inch; the unit is not read, so for pixels per cm the size is 2.54 times too large (C103_violated)."
  },
  {
   "property": "C104",
   "status": "partial",
   "theorems": [
    "C104_violated"
   ],
   "note": "C104_violated: for all degrees and minutes and any text behind them, the notation of the docstring (with the apostrophe U+2019) is read as the single positive number degrees + minutes/60: seconds, letter and longitude are lost. The notation is not supported at all, so there is no partial theorem."
  },
  {
   "property": "C105",
   "status": "partial",
   "theorems": [
    "C105_height_density",
    "C105_height_best",
    "C105_true_camera_partial",
    "C105_violated"
   ],
   "note": "The term is the sum of the log densities and is best exactly for the cameras that measure the given heights. The true camera reaches the best value unless an object has the same x or y as the camera: then the term is nan and the log probability of the true camera is -inf (C105_violated)."
  },
  {
   "property": "C106",
   "status": "partial",
   "theorems": [
    "C106_variation_partial",
    "C106_violated"
   ],
   "note": "Violated: every array raises an AttributeError when the term is evaluated, because anything that is not a float or int is used as an object with an attribute value (C106_violated). Numbers and parameters work and agree."
  },
  {
   "property": "C107",
   "status": "proved",
   "theorems": [
    "C107_length_density",
    "C107_length_best",
    "C107_true_camera"
   ],
   "note": "Full claim, with any lens that is exact at the two pixels."
  },
  {
   "property": "C108",
   "status": "partial",
   "theorems": [
    "C108_landmark_best_partial",
    "C108_reach",
    "C108_true_camera_partial",
    "C108_violated"
   ],
   "note": "Proved for landmarks with the same uncertainty in all directions. Violated for uncertainties that are larger in z than in x, like the documented [3, 3, 5]: some camera that does not see the landmark on the ray of its pixel gets a higher value than a camera that does (C108_violated), because the spread of the 1000 sampled points along the ray is counted as deviation. Cameras must have non-zero focal lengths and the lens must correct the pixels to finite pixels or nan."
  },
  {
   "property": "C109",
   "status": "partial",
   "theorems": [
    "C109_gps_landmarks_partial",
    "C109_violated"
   ],
   "note": "Proved for all numbers of landmarks but two. For two landmarks the heights are ignored (C109_violated, a consequence of C44)."
  },
  {
   "property": "C110",
   "status": "proved",
   "theorems": [
    "C110_horizon_best",
    "C110_horizon_density",
    "C110_below_ground"
   ],
   "note": "Full claim. Cameras more than the radius of the earth below the ground are left out of the second part."
  },
  {
   "property": "C111",
   "status": "partial",
   "theorems": [
    "C111_best_partial",
    "C111_true_camera_partial"
   ],
   "note": "Proved for all lists of heights, lengths, landmarks with the same uncertainty in all directions and horizon points; objects must not have the same x or y as the camera (C105_violated) and other uncertainties of landmarks are violated (C108_violated)."
  },
  {
   "property": "C112",
   "status": "partial",
   "theorems": [
    "C112_round_trip_partial",
    "C112_violated",
    "C112_violated_two"
   ],
   "note": "imageFromGPS converts with the elevation but spaceFromGPS of gpsFromSpace scales the offsets by R/(R+h) (the two conversions use different radii), so the round trip fails for every point with an elevation other than zero that is not straight below or above the origin; with exactly two points the heights are ignored altogether. The partial theorem covers elevation zero and points on the axis."
  },
  {
   "property": "C113",
   "status": "partial",
   "theorems": [
    "C113_angles_violated",
    "C113_position_violated",
    "C113_parallel_violated",
    "C113_first_camera"
   ],
   "note": "The roll and the tilt are right, the heading gets the wrong sign (right only if its sine is zero); the position is p1 - D*R2*(p2-p1) instead of p2, which mirrors the offset of parallel cameras in x; for parallel cameras the second camera is turned by half a turn."
  },
  {
   "property": "C114",
   "status": "partial",
   "theorems": [
    "C114_horizontal_partial",
    "C114_vertical_partial",
    "C114_violated"
   ],
   "note": "Both directions proved for the three projections: panoramas exactly (horizontal, up to the full circle; equirectangular also vertical), rectilinear views with the centre in the middle of the image. For a rectilinear camera whose centre is elsewhere inside the image the reported angle is always larger than the angle between the edges (C114_violated), because getFieldOfView ignores the centre."
  },
  {
   "property": "C115",
   "status": "partial",
   "theorems": [
    "C115_coordinate_partial",
    "C115_distances_partial",
    "C115_distance",
    "C115_distance_list_rejected",
    "C115_columns_violated",
    "C115_three_violated"
   ],
   "note": "Proved for single image points and Nx2 arrays with a coordinate (number, list or array) or an array of N distances, and for arrays with any number of leading axes with one distance. Lists of distances always raise (C115_distance_list_rejected). NxM arrays of image points with a coordinate: M other than 1 and 3 raises ValueError (C115_columns_violated); M = 3 is accepted and multiplies the components of each ray with the factors of three different image points, so that the point misses the plane (C115_three_violated, for all cameras whose rays in a row differ in slope)."
  },
  {
   "property": "C116",
   "status": "partial",
   "theorems": [
    "C116_rows_partial",
    "C116_heights_violated",
    "C116_rectangular_violated",
    "C116_transposed_violated"
   ],
   "note": "Proved for single points and Nx3 arrays (gpsFromSpace; spaceFromGPS is C44). For NxMx3 arrays gpsFromSpace raises if N and M differ (C116_rectangular_violated), exchanges the heights of the points [i,j] and [j,i] if they are equal (C116_heights_violated), and spaceFromGPS exchanges the axes of the result (C116_transposed_violated)."
  },
  {
   "property": "C117",
   "status": "partial",
   "theorems": [
    "C117_rows_partial",
    "C117_violated",
    "C117_additional_violated"
   ],
   "note": "Violated: the object given to the sampler reads getLogProbability without setting the camera's parameters, so for every sampler the samples do not depend on how the terms vary with the fitted parameters (C117_violated: any two sets of terms that agree at the present camera give the same samples); with additional parameters all rows are computed with the values tried last (C117_additional_violated). Proved: without additional parameters each row carries its own log probability and the best row is set (C117_rows_partial)."
  },
  {
   "property": "C118",
   "status": "partial",
   "theorems": [
    "C118_metropolis_partial",
    "C118_fridge",
    "C118_violated"
   ],
   "note": "Proved without additional parameters for metropolis and any sequence of sample(), and for fridge in general. Violated with an additional parameter: it keeps the value of the last proposal, accepted or not (C118_violated)."
  },
  {
   "property": "C119",
   "status": "partial",
   "theorems": [
    "C119_acceptance",
    "C119_balance_partial",
    "C119_bounded_partial",
    "C119_violated",
    "C119_step"
   ],
   "note": "C119_acceptance: acceptance happens for the random numbers below min(1, ratio); C119_step: the step of the model does exactly this. Detailed balance holds without bounds (C119_balance_partial); with bounds the chain is balanced for the probability times the masses of the truncated proposals instead (C119_bounded_partial), so the sampled distribution is not the probability (C119_violated): the ratio of the densities of the truncated proposals is missing in the code."
  },
  {
   "property": "C120",
   "status": "partial",
   "theorems": [
    "C120_numbers",
    "C120_summary_partial",
    "C120_violated"
   ],
   "note": "C120_numbers is complete for the printed numbers. C120_violated: a column that is constant (one row, or no accepted proposal) makes printTraceSummary raise a ValueError (log10 of 0). Missing in C120_summary_partial: those traces. The conversion of the rounded numbers to text is not modelled."
  },
  {
   "property": "C121",
   "status": "partial",
   "theorems": [
    "C121_planes",
    "C121_in_plane_partial",
    "C121_violated",
    "C121_rays"
   ],
   "note": "C121_planes and C121_rays are complete (non-degenerate triangles). C121_violated: a ray in the plane of a triangle that starts outside of it never hits this triangle, even if it runs through it; C121_in_plane_partial covers all other meshes (it implies C26 and C27 also for coplanar triangles). Missing: those rays."
  },
  {
   "property": "C122",
   "status": "partial",
   "theorems": [
    "C122_on_border",
    "C122_segment_partial",
    "C122_violated",
    "C122_all_partial"
   ],
   "note": "C122_on_border holds for all lines that are drawn. C122_violated: a line through a corner gets at most one point (nothing visible), a line through two corners or outside of the image none, and then line.get_color() raises an AttributeError that ends the whole plot. Missing in C122_segment_partial and C122_all_partial: those lines. The lines themselves come from OpenCV (any coefficients)."
  },
  {
   "property": "C123",
   "status": "proved",
   "theorems": [
    "C123_tuning",
    "C123_direction"
   ],
   "note": "C123_tuning: at every tuning the new step size is the one that belongs to the share of accepted proposals among the iterations since the last tuning, and no other iteration changes it; C123_direction: the scale shrinks exactly for shares below 1/5, grows exactly for shares above 1/2, and stays positive."
  },
  {
   "property": "C124",
   "status": "proved",
   "theorems": [
    "C124_names",
    "C124_camera"
   ],
   "note": "C124_names: exactly these names can be read; C124_camera: the camera of all conversions is the one with these numbers."
  },
  {
   "property": "C125",
   "status": "proved",
   "theorems": [
    "C125_error",
    "C125_drawing",
    "C125_epipole"
   ],
   "note": "Proved for arbitrary pixels of two rectilinear cameras without distortion in general position (the viewing ray does not pass through the other camera, and the two points the code takes from it do not lie in the plane of the other camera); a ray through the other camera gives nan (C125_epipole)."
  },
  {
   "property": "C126",
   "status": "partial",
   "theorems": [
    "C126_without_prior",
    "C126_rows_partial",
    "C126_violated",
    "C126_accepted_partial",
    "C126_labels_partial",
    "C126_labels_violated"
   ],
   "note": "Proved: without a prior trace the sampler is exactly the one of C58-C63; every row consists of a position and a row of the prior trace; accepted rows have the probability of their values. Violated: a rejected proposal is stored with the newly drawn row of the prior trace but with the probability of the row drawn at the last acceptance; a table without the label that is drawn raises a KeyError."
  },
  {
   "property": "C127",
   "status": "partial",
   "theorems": [
    "C127_own_partial",
    "C127_violated",
    "C127_fit_violated"
   ],
   "note": "Proved for sampling the object itself. Violated: metropolis of a group has no columns for the additional parameters of its cameras and leaves them at their values; fit leaves all additional parameters at their values."
  },
  {
   "property": "C128",
   "status": "partial",
   "theorems": [
    "C128_text",
    "C128_sections",
    "C128_lens_partial",
    "C128_violated"
   ],
   "note": "C128_text and C128_sections give the whole description for all reachable states. Partial because the lens section repeats image size, focal lengths and centre of the projection the lens was bound to last: C128_lens_partial (bound to the projection of the camera) and C128_violated (after a second camera was created with the same lens, the description of the first shows the numbers of the second)."
  },
  {
   "property": "C129",
   "status": "partial",
   "theorems": [
    "C129_heights",
    "C129_predicted_back_partial",
    "C129_lengths_partial",
    "C129_lengths_violated",
    "C129_landmarks",
    "C129_horizon",
    "C129_infos_partial",
    "C129_three_violated",
    "C129_shown_partial",
    "C129_clear_violated",
    "C129_terms",
    "C129_gps_partial",
    "C129_gps_violated"
   ],
   "note": "Proved for heights, landmarks, the horizon and one common length. Violated for an array of lengths (addObjectLengthInformation documents one per object): the array is put along the coordinates, so plotting fails for two or more than three objects and uses the wrong factors for three; for two landmarks with gps heights (as in C44, C109); and after clearLogProbability, which leaves the drawings. The arrays are two-dimensional; colours and labels are not modelled."
  },
  {
   "property": "C130",
   "status": "partial",
   "theorems": [
    "C130_views_partial",
    "C130_rendered_partial",
    "C130_image_view_partial",
    "C130_behind_violated",
    "C130_no_camera_violated",
    "C130_float_violated",
    "C130_panorama_violated"
   ],
   "note": "Proved (equality of the set of drawn pixels with the set of pixels of all points on the lines) for rectilinear cameras without distortion and corners in front of the camera. Violated when a corner is behind the camera (the visible part of the line is missing), for panoramic cameras (straight lines instead of curves, for all lines across the view), for float image sizes (TypeError) and without a camera (AttributeError in line 38 before the check in line 61)."
  },
  {
   "property": "C131",
   "status": "partial",
   "theorems": [
    "C131_wheel_partial",
    "C131_sideways_violated",
    "C131_drag_partial",
    "C131_hover",
    "C131_offset"
   ],
   "note": "Zoom and drag are proved for every state of the view with a scale other than zero, which C132 shows for all histories. Violated: a wheel event whose vertical turn is zero (a wheel turned sideways) reduces the picture, because the code takes every turn that is not positive for a turn down. That no item of the scene accepts the wheel event, and that scene and window coordinates agree, is part of the model."
  },
  {
   "property": "C132",
   "status": "partial",
   "theorems": [
    "C132_paint",
    "C132_fitted_partial",
    "C132_stays_partial",
    "C132_askew_violated"
   ],
   "note": "Proved by an invariant over all histories of the nine kinds of events of the window, with the largest possible scale defined by what is shown. Partial: for rotations by multiples of 90 degrees; violated for other angles (proved for all squares and all such angles). The view starts with an image of one pixel that was never set; an image of 1 by 1 pixels is excluded."
  },
  {
   "property": "C133",
   "status": "partial",
   "theorems": [
    "C133_center_partial",
    "C133_center_violated",
    "C133_map_partial",
    "C133_inverse_partial",
    "C133_point_violated",
    "C133_cover_partial",
    "C133_cover_wide_partial",
    "C133_cover_violated",
    "C133_extend_partial",
    "C133_translate"
   ],
   "note": "Exact: centerOn works if and only if the image is turned by 0 or 180 degrees or the point is the centre of the image (the code has a TODO for 90 and 270 degrees); mapToOrigin ignores the rotation, so it is right if and only if the image is not turned or the point is its centre. mapFromOrigin of a point always raises an exception (it adds None to a number), so it is no inverse of mapToOrigin unless called with two numbers. fitSmallDimensionInView: covered if and only if the old centre is half a window away from the edges; proved for an image that is not turned and a window that is high compared to the image (the other case is the same with the axes exchanged and is not proved). The rounding of the positions to integers is left out."
  },
  {
   "property": "C134",
   "status": "partial",
   "theorems": [
    "C134_projection_partial",
    "C134_axis_violated"
   ],
   "note": "C134_projection_partial: for every camera with rectilinear projection and Brown lens after any history of calls that shares no lens or projection between cameras, any results of OpenCV with nonzero focal lengths, and any point in front of the camera (at least 1e-10) and off its optical axis, the pixel is OpenCV's. Missing: points on the optical axis. C134_axis_violated: those are projected to nan where OpenCV gives the centre. OpenCV's fit itself is not modelled; the model of OpenCV is the small specification Spec/OpenCV.lean."
  },
  {
   "property": "C135",
   "status": "partial",
   "theorems": [
    "C135_single_partial",
    "C135_parallel_violated",
    "C135_stall_violated",
    "C135_order",
    "C135_all_partial",
    "C135_ends",
    "C135_idle"
   ],
   "note": "C135_order (any state, any interleaving, even with dying threads and lost calls): the started images are a prefix of the list, each once. C135_ends, C135_idle: no infinite run, and what cannot go on is idle. C135_all_partial: after any history, when no worker thread dies, all images were started and show their result once the window is idle. C135_single_partial: one at a time if no image of the list was processed before. C135_parallel_violated: a second click connects the signal a second time, so two images are processed at the same time; C135_stall_violated: an exception in a worker thread leaves out all later images. Qt's queued connections are modelled (a signal is as many waiting calls as there are connections), not Qt itself."
  },
  {
   "property": "C136",
   "status": "partial",
   "theorems": [
    "C136_use",
    "C136_fit",
    "C136_table_partial",
    "C136_table_violated",
    "C136_load"
   ],
   "note": "C136_use and C136_fit hold in all reachable states. C136_table_partial: the table is right whenever the window is idle, in all histories without Clear Images and without lost calls. C136_table_violated: clearing the list while an image is processed and adding others makes the old image write its row over a new one's, for all names and results."
  },
  {
   "property": "C137",
   "status": "partial",
   "theorems": [
    "C137_fresh_partial",
    "C137_shown_partial",
    "C137_stale_violated",
    "C137_raw_violated"
   ],
   "note": "C137_fresh_partial and C137_shown_partial: in all histories in which calibrations come only while no image is being loaded. Missing: calibrations during loading. C137_stale_violated: then the picture and the undistortion map of the old calibration stay, and every image selected later is corrected with the old map; C137_raw_violated: a picture whose loading began before the first calibration stays uncorrected. All calibrations have the same image size in the model."
  },
  {
   "property": "C138",
   "status": "partial",
   "theorems": [
    "C138_cache_partial",
    "C138_name_violated",
    "C138_default_violated",
    "C138_sizes_partial",
    "C138_square_violated",
    "C138_stored_partial"
   ],
   "note": "C138_cache_partial: for every sequence of calls on an empty output directory in which images with the same name (without folder and ending) have the same content and size argument. C138_sizes_partial: which sizes of images are used. C138_name_violated: two images of the same name: the second gets the corners of the first, whatever it shows. C138_square_violated: a square image of the given size is transposed. C138_default_violated: with the default output_directory=None the function always raises TypeError. OpenCV is a parameter (what is found in a file)."
  },
  {
   "property": "C139",
   "status": "partial",
   "theorems": [
    "C139_numbers_partial",
    "C139_chosen_partial",
    "C139_others_violated",
    "C139_bracket_violated",
    "C139_range_violated",
    "C139_letter_violated",
    "C139_other_violated",
    "C139_closing_violated",
    "C139_unclosed_partial"
   ],
   "note": "C139_numbers_partial, C139_chosen_partial: names without opening brackets: all names that differ only in numbers are loaded, the chosen file among them. C139_others_violated: also names with any other text in place of the number; C139_bracket_violated: a chosen file whose number is in brackets is not loaded; C139_range_violated, C139_letter_violated: names with letters in brackets load other files instead (exactly which). The directory part is assumed to have no special characters."
  },
  {
   "property": "C140",
   "status": "partial",
   "theorems": [
    "C140_sliders",
    "C140_switch_partial",
    "C140_reset",
    "C140_again_violated",
    "C140_start"
   ],
   "note": "Violated for a click on the radio button that is already active: it overwrites the visible angles by those of the hidden sliders (exact result proved for all histories; for every heading other than 0 the picture changes). Everything else holds for all histories: the drawn camera, the change to the other convention and back, Reset."
  },
  {
   "property": "C141",
   "status": "partial",
   "theorems": [
    "C141_value",
    "C141_told_partial",
    "C141_lost_violated",
    "C141_number",
    "C141_cut"
   ],
   "note": "Violated when the program sets a value in between: the value sent last is not forgotten, so that a user who enters it again is not heard (proved for all histories). Without calls of setValue by the program every change is sent. Ideal arithmetic: in floating point int(value * factor) can put the slider one step below the spin box."
  },
  {
   "property": "C142",
   "status": "partial",
   "theorems": [
    "C142_inputs_partial",
    "C142_shown_partial",
    "C142_lost_violated",
    "C142_enabled"
   ],
   "note": "Violated through C141: unlock, enter a second focal length, lock, unlock, enter it again, and the scene is drawn with the first focal length while the input shows the second (proved for all histories before and all values). Holds for all histories without such an entry."
  },
  {
   "property": "C143",
   "status": "partial",
   "theorems": [
    "C143_first_partial",
    "C143_roundtrip_partial",
    "C143_again_violated"
   ],
   "note": "The code violates it: the buttons are inputs that do not send the same value twice in a row, so Save to the file that was saved to last writes nothing (after a second fit the file still has the first calibration, and the user gets no message), Load of the file that was loaded last and Add of the file that was added last do nothing, even after Clear (C143_again_violated). With a name other than the last one the buttons do what they say (C143_first_partial), and what was saved comes back (C143_roundtrip_partial). json is taken to give back what it wrote; a file that is not a calibration is not modelled."
  },
  {
   "property": "C144",
   "status": "partial",
   "theorems": [
    "C144_shown_partial",
    "C144_no_exception_partial",
    "C144_lost_click_violated",
    "C144_raises_violated",
    "C144_selected_partial",
    "C144_uncorrected_violated"
   ],
   "note": "The code violates it in three ways: a click on the box after the key D can get lost, so that the lower view belongs to the old value of the box (C144_lost_click_violated); displayImage raises when the selected image is not loaded yet (C144_raises_violated); the first image of a batch that is added after a calibration is shown without correction, although the box is ticked, until it is selected (C144_uncorrected_violated). Proved: with only the box or only the key, whenever nothing runs the views show the selected image, for all interleavings (C144_shown_partial); if the user waits for the threads, the lower view of a selected image is corrected with the current calibration (C144_selected_partial) and nothing raises (C144_no_exception_partial)."
  },
  {
   "property": "C145",
   "status": "partial",
   "theorems": [
    "C145_violated",
    "C145_drawn_partial"
   ],
   "note": "C145_violated: TypeError (None in the arithmetic of the first proposal) whenever the position with the defaults is possible. C145_drawn_partial: if it is impossible, the run is that from the first possible of the first 999 draws. Missing in it: the possible case. The log probability is a parameter (any function of the positions)."
  },
  {
   "property": "C146",
   "status": "partial",
   "theorems": [
    "C146_axes",
    "C146_no_rows",
    "C146_plot_partial",
    "C146_more_violated",
    "C146_mixed_violated",
    "C146_name_violated"
   ],
   "note": "C146_plot_partial: every sequence of plotted traces of one kind (with or without the sampled values) whose parameters together have at most as many names as the first call has rows. Violated otherwise: C146_more_violated (a new parameter in a later trace: ValueError, the grid has the size of the first trace), C146_mixed_violated (first with, then without just_distributions, or the other way round, raises), C146_name_violated (a parameter called \"N\" or \"next_index\" raises). gaussian_kde is a parameter (for which data it works); labels of axes are left out."
  },
  {
   "property": "C147",
   "status": "proved",
   "theorems": [
    "C147_lines",
    "C147_segment",
    "C147_vanishing"
   ],
   "note": "Full claim: C147_lines, C147_segment, C147_vanishing."
  },
  {
   "property": "C148",
   "status": "proved",
   "theorems": [
    "C148_rows",
    "C148_columns",
    "C148_horizon"
   ],
   "note": "Full claim for SpatialOrientation: C148_rows, C148_columns, C148_horizon."
  },
  {
   "property": "C149",
   "status": "proved",
   "theorems": [
    "C149_image",
    "C149_ray",
    "C149_space"
   ],
   "note": "Full claim for both orientation classes and any lens: C149_image, C149_ray, C149_space."
  },
  {
   "property": "C150",
   "status": "proved",
   "theorems": [
    "C150_rays"
   ],
   "note": "For every sequence of rounding errors with relative errors up to u (doubles: 2^-53), without overflow and underflow."
  },
  {
   "property": "C151",
   "status": "proved",
   "theorems": [
    "C151_matrix",
    "C151_points",
    "C151_behind",
    "C151_exact",
    "C151_double"
   ],
   "note": "C151_matrix bounds the computed rotation matrix (also for yaw-pitch-roll), C151_points the image, C151_behind the hiding, C151_double gives numbers; C151_exact: with u = 0 the relations are the exact model. Without overflow and underflow."
  },
  {
   "property": "C152",
   "status": "proved",
   "theorems": [
    "C152_distance",
    "C152_behind",
    "C152_plane"
   ],
   "note": "The accuracy e of the result of np.linalg.inv is a parameter, as its algorithm is not modelled. C152_behind: where the plane is behind the ray, the computed result is NaN, as the exact one."
  },
  {
   "property": "C153",
   "status": "partial",
   "theorems": [
    "C153_kept_partial",
    "C153_violated"
   ],
   "note": "parameter_set.py:144-145 stores the fitted value but keeps the mean (and std) the user gave before, so that set_to_mean() (65-67) and sample() (61-63) discard the fit of an uncertain parameter (C153_violated). Missing in C153_kept_partial: headings, whose value is reduced when it is beyond 360 degrees, and the focal lengths, which are linked. The exact behaviour in the excluded cases is C162."
  },
  {
   "property": "C154",
   "status": "proved",
   "theorems": [
    "C154_distance",
    "C154_plane",
    "C154_double"
   ],
   "note": "Relative to the model Rounded: every operation has a relative error of at most u, the matrix and its inverse are accurate up to e (C151 gives e for the matrix; np.linalg.inv is not modelled). Overflow and underflow are not modelled."
  },
  {
   "property": "C155",
   "status": "partial",
   "theorems": [
    "C155_load_partial",
    "C155_violated",
    "C155_ypr_violated",
    "C155_save_fails"
   ],
   "note": "Proved if the names of the file are no ordinary attributes of the camera. Violated otherwise: load runs __init__ again but leaves the ordinary attributes, which are found before the parameters; reads and the next save give the stale number while images are computed with the loaded one. Loading a camera with yaw, pitch and roll leaves yaw_deg and pitch_deg as ordinary attributes without effect."
  },
  {
   "property": "C156",
   "status": "proved",
   "theorems": [
    "C156_rays"
   ],
   "note": "The two panorama projections with an arbitrary relative error up to u of every operation, of sin, cos, tan and arctan2; the sign of a zero argument of arctan2 is left open. The errors are at most 12u|x-cx|+u|cx| and 16u|y-cy|+u|cy|."
  },
  {
   "property": "C157",
   "status": "proved",
   "theorems": [
    "C157_points",
    "C157_double",
    "C157_exact"
   ],
   "note": "C157_points: the bound for a matrix that is accurate up to e; C157_double: with 2^-50 usual images are accurate to two millionths of a pixel; C157_exact: with u = 0 the relations describe the ideal model, except for the side of points straight behind the camera, where the sign of zero decides."
  },
  {
   "property": "C158",
   "status": "proved",
   "theorems": [
    "C158_roll",
    "C158_zoom",
    "C158_resize",
    "C158_centre",
    "C158_heading"
   ],
   "note": "C158_roll, C158_zoom, C158_resize, C158_centre for all three lens classes (zoom: not the ABC model, whose scale is the image size), as equivalences: a point has a picture before if and only if it has one after. C158_heading for level panoramas without lens distortion, where neither view has the point within 1e-10 of the camera plane."
  },
  {
   "property": "C159",
   "status": "proved",
   "theorems": [
    "C159_parallax",
    "C159_disparity",
    "C159_nearer",
    "C159_ahead"
   ],
   "note": "For both orientation classes and all movements. Ideal arithmetic."
  },
  {
   "property": "C160",
   "status": "proved",
   "theorems": [
    "C160_image",
    "C160_space"
   ],
   "note": "C160_image for the three projections and the three lens classes; C160_space for the three projections without lens distortion (the inverse of a lens is a spline that is not modelled)."
  },
  {
   "property": "C161",
   "status": "partial",
   "theorems": [
    "C161_read",
    "C161_undistorted",
    "C161_image_partial",
    "C161_violated"
   ],
   "note": "Proved without restriction for parameters, fit lists and orientation matrices (C161_read) and for undistorted cameras (C161_undistorted); for distorting lenses if no projection and no lens is shared between cameras (C161_image_partial). Violated when two cameras with different lenses share a projection: fitting the distortion of the first camera together with focallength_px leaves a distortion whose scale depends on the order (C161_violated)."
  },
  {
   "property": "C162",
   "status": "proved",
   "theorems": [
    "C162_table",
    "C162_read",
    "C162_fit",
    "C162_total"
   ],
   "note": "Refinement by induction over all operations; exact, with the exceptions that C49, C54, C55, C56 and C153 leave out (headings beyond a turn, linked focal lengths). The attributes of a projection built from a field of view, which hide two parameters, are excluded in C162_read (see C53)."
  },
  {
   "property": "C163",
   "status": "partial",
   "theorems": [
    "C163_exact",
    "C163_front_partial",
    "C163_recover_partial",
    "C163_violated"
   ],
   "note": "C163_exact describes the result for every mesh, with the parameters that count as hits (Spec/Mesh.lean). Violated (C163_violated): one triangle without area anywhere makes every pixel show the position of the camera, and a triangle seen edge-on is not seen at all; hence the two claims about the nearest point assume triangles with an area, none seen edge-on (partial). Only the 1e-10 band at the camera plane is excluded from the way back to the image."
  },
  {
   "property": "C164",
   "status": "partial",
   "theorems": [
    "C164_load",
    "C164_view",
    "C164_errors",
    "C164_order_partial",
    "C164_order_violated",
    "C164_load_camera"
   ],
   "note": "C164_load (values by name, any state before, any keys), C164_view (what the loaded camera shows), C164_errors (the only failures) and C164_load_camera are full. The order of the entries does not matter unless focallength_px is among the keys (C164_order_partial); with it the order decides about the focal lengths (C164_order_violated). Keys that would shadow parts of the camera (orientation, R_earth, ...) are outside of this model of load."
  },
  {
   "property": "C165",
   "status": "proved",
   "theorems": [
    "C165_unique",
    "C165_everywhere",
    "C165_parameters",
    "C165_signs",
    "C165_straight_down"
   ],
   "note": "Without rounding, as in the ideal numbers; cameras with a lens distortion are not compared."
  },
  {
   "property": "C166",
   "status": "proved",
   "theorems": [
    "C166_rotate",
    "C166_turn_back",
    "C166_scale",
    "C166_scale_back"
   ],
   "note": "Cameras with a SpatialOrientation for rotateSpace (others raise, C14_ypr_violated). Projections built from a field of view and shared lenses are excluded as in C52."
  },
  {
   "property": "C167",
   "status": "proved",
   "theorems": [
    "C167_normal",
    "C167_bounded",
    "C167_within",
    "C167_arrays",
    "C167_uniform",
    "C167_norm",
    "C167_wrong_bounds"
   ],
   "note": "Relative to the distributions numpy and scipy promise for their functions (Model/Noise.lean); dependence between draws and rounding are not modelled."
  },
  {
   "property": "C168",
   "status": "proved",
   "theorems": [
    "C168_plane",
    "C168_back",
    "C168_behind",
    "C168_double"
   ],
   "note": "C168_plane: the bound for an inverse matrix that is accurate up to e, with panSize (Spec/Rounded.lean) as the size of the pixel; C168_behind: NaN for planes behind the ray; C168_back: the way back to the pixel; C168_double: the numbers for doubles. Rays parallel to the plane and lens distortion are not covered."
  },
  {
   "property": "C169",
   "status": "proved",
   "theorems": [
    "C169_picture",
    "C169_ray",
    "C169_ground",
    "C169_order"
   ],
   "note": "Proved for both projections and both kinds of orientation; C169_picture gives column and row, C169_ray the ray of a pixel, C169_ground the ground seen there, C169_order the comparisons. The column is only fixed up to full circles where the point is exactly behind the camera, as atan2 distinguishes the sign of zero there (see C02)."
  },
  {
   "property": "C170",
   "status": "proved",
   "theorems": [
    "C170_cross",
    "C170_plane",
    "C170_turned",
    "C170_map",
    "C170_scale"
   ],
   "note": "Proved. C170_plane and C170_turned give the matrix of the map with nonzero determinant, C170_cross the cross ratios (without divisions, so equal points are allowed), C170_map and C170_scale the camera looking down."
  },
  {
   "property": "C171",
   "status": "proved",
   "theorems": [
    "C171_from_gps",
    "C171_to_gps",
    "C171_camera",
    "C171_local"
   ],
   "note": "Proved: C171_from_gps, C171_to_gps, C171_camera and the millionth within 10 km in C171_local."
  },
  {
   "property": "C172",
   "status": "proved",
   "theorems": [
    "C172_lines",
    "C172_sharp",
    "C172_stereo"
   ],
   "note": "For real coordinates without rounding. The bound for lines (C172_lines) is attained for all lines that meet (C172_sharp); the bound for pixels (C172_stereo) is for rectilinear cameras without distortion and uses the angle of the rays of the given pixels."
  },
  {
   "property": "C173",
   "status": "partial",
   "theorems": [
    "C173_set",
    "C173_set_index",
    "C173_set_violated",
    "C173_names_violated",
    "C173_pick_partial",
    "C173_pick_violated",
    "C173_told",
    "C173_file",
    "C173_new_violated",
    "C173_empty"
   ],
   "note": "Violated: with reference_by_index a number out of range leaves no entry shown and the value -1 (C173_set_violated); with fewer names than values, a value without a name gives the last value (C173_names_violated); an entry whose value occurs earlier in the list cannot be chosen, the first one is shown instead (C173_pick_violated); a file input without a file name cannot be created although that is the default (C173_new_violated). Partial: choices for distinct values or by index (C173_pick_partial). Assumed of Qt: what is said in Model/QChoice.lean."
  },
  {
   "property": "C174",
   "status": "partial",
   "theorems": [
    "C174_length",
    "C174_height_moved",
    "C174_height_partial",
    "C174_height_violated",
    "C174_fit_violated"
   ],
   "note": "Violated for heights: the height of the head is the mean of two points of its ray, those with the x and the y of the feet. Unless the two pixels lie exactly in one vertical plane the result depends on the heading; for every such pair of pixels there are headings for which it exceeds any bound and headings for which it is nan (C174_height_violated), and the log probability of the height information falls below any bound (C174_fit_violated). Proved: lengths (C174_length), heights when the camera is moved and lifted but not turned (C174_height_moved), and for pixels in one vertical plane also when it is turned (C174_height_partial)."
  },
  {
   "property": "C175",
   "status": "partial",
   "theorems": [
    "C175_error",
    "C175_term_partial",
    "C175_moved",
    "C175_turned",
    "C175_scale_violated",
    "C175_baseline_partial",
    "C175_baseline_violated"
   ],
   "note": "pointCorrespondenceError keeps its values under every motion and scaling of the whole group (also negative factors). The term of the log probability does so under motions; under scaling only while the points at depth 1 and 2 of the viewing rays stay in front of the other camera: if one camera is behind the other, the term is nan and the log probability minus infinity beyond some size (camera.py:258-259 hides points behind the camera). The baseline term fixes the size unless the cameras are above each other (getBaseline ignores the elevation, C93)."
  },
  {
   "property": "C176",
   "status": "partial",
   "theorems": [
    "C176_ground",
    "C176_heights",
    "C176_position",
    "C176_one",
    "C176_unique_partial"
   ],
   "note": "Positions, elevation and heading follow from the landmarks being on the rays of their pixels (C176_ground, C176_heights, C176_position, no assumption on the uncertainties). For the log probability partial: the uncertainties of a landmark must be the same in all directions, because the code uses them differently from the documentation otherwise (C108)."
  },
  {
   "property": "C177",
   "status": "proved",
   "theorems": [
    "C177_length",
    "C177_height",
    "C177_open"
   ],
   "note": "All cameras with the same tilt and roll, also those below the plane of the objects (there the measured length is nan)."
  },
  {
   "property": "C178",
   "status": "partial",
   "theorems": [
    "C178_place",
    "C178_finite",
    "C178_slope",
    "C178_between_violated"
   ],
   "note": "Violated for points between two rows: no camera reaches the largest value (C178_between_violated). C178_finite and C178_slope: the term is a step function of the parameters; fit calls scipy.optimize.minimize with bounds (parameter_set.py:282), whose default method follows slopes. The method itself is not modelled. C178_place needs a camera not below the ground and a lens with an undistorted position for every row."
  },
  {
   "property": "C179",
   "status": "partial",
   "theorems": [
    "C179_world",
    "C179_rays",
    "C179_fov",
    "C179_origin",
    "C179_cone",
    "C179_border",
    "C179_behind_partial",
    "C179_behind_violated",
    "C179_constructor",
    "C179_points"
   ],
   "note": "Modelled are the ranges of the strategies and the assertions, with exact arithmetic instead of np.testing with tolerances. test_pointBehindCamera: the assertion holds for a drawn point if and only if it is not (above the plane one minimal depth below the camera and at most at the height of the camera); points there have no pixel though they are not above the camera (C179_behind_violated). That hypothesis finds such a point is improbable, so the test passes. test_cameraCone and test_cameraOrigin assert something for rectilinear cameras only, and so do the theorems. Not modelled: the text of the error messages, and what hypothesis prints."
  },
  {
   "property": "C180",
   "status": "partial",
   "theorems": [
    "C180_gps",
    "C180_gps_height",
    "C180_triangle_partial",
    "C180_triangle_violated",
    "C180_meshes",
    "C180_two_rays",
    "C180_lines",
    "C180_extrude",
    "C180_kept",
    "C180_triangles",
    "C180_texts",
    "C180_texts_formats"
   ],
   "note": "Exact arithmetic. Violated by test_rayIntersectTriangle with one triangle when the drawn origin lies in the plane of a triangle that has an area: no coordinate of the result is finite (C180_triangle_violated, with a drawable input); otherwise the assertion holds (C180_triangle_partial: if and only if). Two assertions of the tests say little: with several triangles `not nan` holds for every mesh, hit or not (C180_meshes), and `np.all(np.isnan(intersection)) is False` is never true for a numpy bool, so the comparison with the centre never runs; C180_lines proves the comparison. C180_texts covers all real latitudes and longitudes, not only those drawn; errors at most half a unit of the last digit. C180_gps: with a height of 1 the test compares a distance on a sphere of another radius; the differences are given exactly. test_stereoCamera returns at once and asserts nothing."
  },
  {
   "property": "C181",
   "status": "partial",
   "theorems": [
    "C181_test_none",
    "C181_test_brown",
    "C181_test_abc_partial",
    "C181_test_abc_violated",
    "C181_exists",
    "C181_good",
    "C181_unique",
    "C181_error",
    "C181_brown"
   ],
   "note": "Spline specified as FITPACK's not-a-knot cubic interpolation, which exists and is unique and has all properties the other lens theorems assume. Error bounds for every radius function with two derivatives, for Brown lenses with non-negative coefficients and for the tested lenses. The lens test holds for all Brown lenses and no distortion. Violated for ABC lenses: on a 998 x 374 image with coefficient 0.01 the last tested pixel, 2.67 half heights from the centre, comes back 3 pixels off, because the spline is sampled up to 1.9 only; partial: up to 1.9."
  },
  {
   "property": "C182",
   "status": "proved",
   "theorems": [
    "C182_distance",
    "C182_far",
    "C182_heights_far",
    "C182_heights",
    "C182_space",
    "C182_opposite"
   ],
   "note": "The relations of Model/RoundedGps allow every computation in which each step has a relative error of at most u. Underflow is not modelled, nor are the poles themselves (there the computed cosine of the latitude may be negative in the model, and the root of a negative number nan)."
  },
  {
   "property": "C183",
   "status": "proved",
   "theorems": [
    "C183_test",
    "C183_move",
    "C183_from_space"
   ],
   "note": "The relations of Model/RoundedGps allow every computation in which each step has a relative error of at most u; sines and cosines of the same angle that moveDistance computes twice are the same number. Underflow is not modelled. The bearing of gpsFromSpace for the position (0, 0) may be any of the angles arctan2 gives for zeros of either sign."
  },
  {
   "property": "C184",
   "status": "proved",
   "theorems": [
    "C184_intersection",
    "C184_stereo",
    "C184_exact"
   ],
   "note": "Rounding errors are modelled as relations (Model/RoundedRay.lean): LAPACK is modelled as Gaussian elimination with partial pivoting for a 2x2 system; overflow and underflow are not modelled. The first theorem holds for any two lines whose angle is not too small, the second adds the errors of the directions of the rays."
  },
  {
   "property": "C185",
   "status": "partial",
   "theorems": [
    "C185_world",
    "C185_rays",
    "C185_cone",
    "C185_origin",
    "C185_behind_partial"
   ],
   "note": "test_transWorldToCam, test_rays, test_cameraCone (first half) and test_cameraOrigin: proved for everything they can draw. test_pointBehindCamera (C185_behind_partial): all points except those at the height of the camera or less than 2 minDepth below it, where C179_behind_violated shows that the test fails already without rounding errors."
  },
  {
   "property": "C186",
   "status": "proved",
   "theorems": [
    "C186_length",
    "C186_height"
   ],
   "note": "Rounding model: every operation has a relative error of at most u; overflow, underflow and lens distortion are not modelled. The inverse matrix is assumed to be right up to e (see C151)."
  },
  {
   "property": "C187",
   "status": "proved",
   "theorems": [
    "C187_image",
    "C187_gps"
   ],
   "note": "Rounding model: every operation has a relative error of at most u; overflow, underflow and lens distortion are not modelled. One position at a time (for two rows imageFromGPS takes the heights as 0, see C112)."
  },
  {
   "property": "C188",
   "status": "proved",
   "theorems": [
    "C188_brown",
    "C188_abc"
   ],
   "note": "Rounding model: every operation, powers included, has a relative error of at most u; overflow and underflow are not modelled. Undistorting goes through a scipy spline and is not part of this property."
  },
  {
   "property": "C189",
   "status": "proved",
   "theorems": [
    "C189_brown",
    "C189_abc"
   ],
   "note": "C189_brown, C189_abc: the two lenses, for all three projections.  Pixels closer to the centre than the rounding error are left out: the exact pixel of the centre is nan (C188)."
  },
  {
   "property": "C190",
   "status": "proved",
   "theorems": [
    "C190_distance",
    "C190_row",
    "C190_same_row"
   ],
   "note": "C190_distance: the distance; C190_row: the row of a column is as good as any other up to twice the rounding error of a height; C190_same_row: if the exact row is better by more than this, it is found."
  },
  {
   "property": "C191",
   "status": "proved",
   "theorems": [
    "C191_skew",
    "C191_parallel",
    "C191_point",
    "C191_baseline",
    "C191_cameras"
   ],
   "note": "Every operation has a relative error of at most u; overflow and underflow are not modelled.  For cameras: rectilinear projection without lens distortion, and rays that are not almost parallel (sine of the angle at least 2e-8 + 20 (e + 36 u))."
  },
  {
   "property": "C192",
   "status": "proved",
   "theorems": [
    "C192_quadrilateral",
    "C192_triangle",
    "C192_flat"
   ],
   "note": "Every operation has a relative error of at most u; overflow and underflow are not modelled.  C192_flat shows that nan is possible for flat triangles under this model of errors: it gives errors within u that lead to it, and does not say that IEEE arithmetic makes exactly these errors."
  },
  {
   "property": "C193",
   "status": "proved",
   "theorems": [
    "C193_distance",
    "C193_closest"
   ],
   "note": "the exact distance and closest point are those of C29 and C30; that the direction of the caller is normed in place is the violation shown for C83"
  },
  {
   "property": "C194",
   "status": "proved",
   "theorems": [
    "C194_plane",
    "C194_behind",
    "C194_never_behind"
   ],
   "note": "one ray and one triangle with use_planes"
  },
  {
   "property": "C195",
   "status": "proved",
   "theorems": [
    "C195_inside",
    "C195_outside",
    "C195_behind"
   ],
   "note": "one ray and one triangle; C196 treats meshes"
  },
  {
   "property": "C196",
   "status": "proved",
   "theorems": [
    "C196_nearest",
    "C196_miss"
   ],
   "note": "one ray and any number of triangles; the margins are specified in Spec/Clear"
  },
  {
   "property": "C197",
   "status": "proved",
   "theorems": [
    "C197_nearest",
    "C197_miss",
    "C197_nearest_any",
    "C197_miss_any"
   ],
   "note": ""
  },
  {
   "property": "C198",
   "status": "proved",
   "theorems": [
    "C198_back",
    "C198_back_any"
   ],
   "note": ""
  },
  {
   "property": "C199",
   "status": "proved",
   "theorems": [
    "C199_nine",
    "C199_plane"
   ],
   "note": ""
  }
 ]
}