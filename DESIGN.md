# Formal model of rgerum/cameratransform — design

The Lean project is in `lean/`. `lake build` in that directory checks everything.

## 1. What is modelled, and over which numbers

The code computes with IEEE doubles. The model computes with *ideal IEEE numbers*
(`Verif/Num.lean`): exact real numbers plus `nan`, `+inf`, `-inf` and a negative zero, with the
IEEE-754 rules for these special values (`0/0 = nan`, `x/0 = ±inf`, `inf*0 = nan`,
`arctan2(-0,-0) = -pi`, comparisons with nan are false, ...). **Rounding, overflow and underflow are
not modelled**, except in the model `Rounded`: there the functions of rectilinear cameras, and `getRay`, `imageFromSpace` and `spaceFromImage` on a plane of panoramas, are relations in which every operation may have
any relative error up to a bound `u`, and C150-C152, C154, C156 and C157 compare their results with the ideal ones. Everything the code decides by a comparison, a division by zero, a nan mask or an
in-place write is modelled.

`x ≃ r` (`Num.Is`) says "the ideal IEEE number x is finite and numerically equal to the real r"
(so `-0 ≃ 0`). Theorems about numbers are stated with `≃` or about the real value; theorems about
missing results are stated with `= nan`.

The stateful part of the library (parameters, callbacks, caches, files, fits) is modelled as state
machines over an explicit heap, with Python exceptions as values.

### Layers

* `Verif/Num.lean`, `Verif/Vec.lean`: numbers, 2/3-vectors, 3x3 matrices.
* `Verif/Model/*.lean`: transcription of the code, one definition per Python function, each with a
  comment citing file and lines and saying where it simplifies.
* `Verif/Spec/*.lean`: small independent specifications (rigid motion, line, triangle, great circle, ...).
* `Verif/Proofs/*.lean`: helper lemmas.
* `Verif/Props/*.lean`: the property theorems, named after the properties (`C01_...`), each with an
  `example` that shows that the hypotheses can be met.

### Which code is in which model

| model | code |
|-------|------|
| `Projection` | projection.py: `getRay`, `imageFromCamera`, field of view functions of the three classes |
| `Construct` | projection.py:89-197: the constructor with its checks and defaults |
| `Spatial` | spatial.py: matrices, conversions, heading wrap of both orientation classes; `rotateSpace` |
| `Lens` | lens_distortion.py: the three lenses, `invert_function` |
| `Camera` | camera.py: `imageFromSpace`, `getRay`, `spaceFromImage`, `getObjectHeight`, `getObjectLength` |
| `GpsImage` | camera.py: `gpsFromImage`, `imageFromGPS` |
| `Ray` | ray.py |
| `Gps`, `GpsText`, `Text` | gps.py: numeric functions; text functions; the Python string and pattern functions they use |
| `View` | camera.py: `getImageBorder`, `getCameraCone`, `distanceToHorizon`, `getImageHorizon`, `generateLUT` |
| `TopView` | camera.py: `getTopViewOfImage`, `undistortImage` and their cached maps |
| `Scene` | scene.py without the plotting functions |
| `Shape` | utils.py |
| `Batch` | numpy broadcasting; camera.py `spaceFromImage` and gps.py `moveDistance`, `gpsFromSpace`, `spaceFromGPS` for arrays of any shape |
| `Fridge` | parameter_set.py `fridge`, `sample` with a trace; statistic.py `Model` (the sampler `bayesianfridge` is not modelled: any program) |
| `Summary` | statistic.py `print_mean_std`, `printTraceSummary` (the numbers, not the printed text) |
| `Plot` | camera.py `plotEpilines`: `drawLine` and the loop over the lines (the lines of OpenCV are any numbers; the drawing itself is not modelled) |
| `System` | parameter_set.py and the constructors of the classes that use it: parameters, callbacks, caches, histories |
| `Statistic` | statistic.py and `fit`/`metropolis`/`getLogProbability` of parameter_set.py |
| `Prior` | statistic.py `metropolis` with `prior_trace` |
| `Print` | camera.py, projection.py, spatial.py, lens_distortion.py `__str__` |
| `FitPlot` | parameter_set.py `plotFitInformation`, `clearLogProbability`; camera.py: the positions drawn by the functions that the `add...Information` methods append |
| `SceneView` | scene.py `plotSceneViews`, `renderImage`: the lines handed to matplotlib |
| `Terms` | camera.py: the information terms (`addObjectHeightInformation`, ...) |
| `Persist` | camera.py and the parts: `save`, `load`, `setGPSpos` |
| `Exif` | camera.py: sensor database, exif functions |
| `Group` | camera.py: constructor of `CameraGroup`, `scaleSpace` |
| `GraphicsView` | gui_tools/calibrate/QExtendedGraphicsView.py: scale, translation, rotation and flags of the image view (no drawing, no rounding to pixels) |
| `CalWin` | gui_tools/calibrate/gui_calibrate.py:63-142, 295-310, 397-438, 454-462: list of images, Process button, table, marks (attribute writes and signals are single steps; Qt's queued connections are waiting calls; no pictures; what is found in an image is a parameter) |
| `CalLoad` | gui_tools/calibrate/gui_calibrate.py:144-168, 343-378, 464-490 and the cache of camera.py:1289-1312: loading and correcting pictures in threads (a picture is what it was corrected with; parameters are read in one step; one image size) |
| `Chess` | gui_tools/calibrate/calibrate.py:43-101 (what OpenCV finds in a file is a parameter; stored corners are read back unchanged) and gui_calibrate.py:421-431 (re.sub, glob and fnmatch for names in one directory) |
| `Demo` | gui_tools/demonstrator/demo_matplotlib.py:8-143 (drawing is recorded as the camera it is done with; matplotlib's sliders store what they are set to and call back) |
| `QInput` | gui_tools/demonstrator/QtShortCuts.py:70-282: value and signal of the inputs, range and rounding of number inputs (Qt's widgets signal changes of their value; colour and file dialogs only through `Act.enter`) |
| `QChoice` | gui_tools/demonstrator/QtShortCuts.py:250-282, 329-387: which entry a drop-down shows and what it tells, creating a file input (what Qt does with an index is assumed) |
| `Drawn` | tests/strategies.py `projection`, `orientation`, `camera`, `camera_image_points`, `camera_down_with_world_points`, and the inputs of `test_initProjection`: which values they can draw (hypothesis itself is not modelled) |
| `DrawnRay` | tests/test_ray.py `getPointInTriangle`, the inputs of `test_rayIntersectTriangle`; tests/strategies.py `line`: which values they can draw and which they reject (real numbers; the random choice itself is not modelled) |
| `DrawnGps` | the inputs of `test_gpsSpaceBackForth` and its two loops that reduce an angle; `gpsFromSpace` for points with two columns |
| `DrawnLens` | the pixels of `test_lens` and what it asserts about one of them |
| `RoundedGps` | `getDistance`, `getBearing`, `spaceFromGPS`, `moveDistance` and `gpsFromSpace` with rounding errors; the loops of the property test of gps coordinates with rounding errors |
| `RoundedRay` | `intersectionOfTwoLines` and `CameraGroup.spaceFromImages` with rounding errors; `np.linalg.solve` of a 2x2 system as Gaussian elimination with partial pivoting |
| `RoundedTest` | `getRay`, `spaceFromImage` and `imageFromSpace` with rounding errors for all projections, as the property tests of the transformations call them; rays parallel to the plane and points with a nan coordinate included |
| `RoundedObject` | `getObjectLength` and `getObjectHeight` with rounding errors for all projections; lens distortion is not included, and the height is left open if the ray of the head does not meet both planes |
| `RoundedGpsImage` | `imageFromGPS` of one position with a height and `gpsFromImage` of one pixel with rounding errors for all projections; lens distortion is not included, and the position of a point with a nan coordinate is left open |
| `RoundedLens` | `distortedFromImage` of the two lenses with rounding errors; powers count as one operation, the scale of the ABC lens is taken as exact, and `imageFromDistorted` (a scipy spline) is not included |
| `RoundedLensImage` | `imageFromSpace` of a camera with a Brown or ABC lens, with rounding errors in the projection and in the distortion |
| `RoundedHorizon` | `distanceToHorizon` and one column of `getImageHorizon` (rectilinear camera without lens) with rounding errors |
| `RoundedLines` | `distanceOfTwoLines` for one pair of lines, `discanteBetweenRays` of two rectilinear cameras without lens and `getBaseline` with rounding errors |
| `RoundedArea` | `areaOfTriangle` and `areaOfQuadrilateral` for one triangle or quadrilateral with rounding errors |
| `RoundedFoot` | `distanceLinePoint` and `getClosestPointFromLine` for one line and one point with rounding errors |
| `RoundedPlane` | `ray_intersect_triangle` with `use_planes` for one ray and one triangle with rounding errors |
| `RoundedTri` | `ray_intersect_triangle` for one ray and one triangle with rounding errors; a denominator that becomes 0 allows any result |
| `RoundedMesh` | `ray_intersect_triangle` for one ray and a list of triangles with rounding errors; several rays are treated independently of each other (`Ray`) |
| `RoundedMeshImage` | `spaceFromImage` of one pixel with a mesh, for a camera without lens distortion, with rounding errors |
| `DemoScenes` | `Scene9Cubes` and `SceneObjectsOnPlane` of gui_tools/demonstrator/demo_includes.py; random numbers are arguments |
| `DemoQt` | gui_tools/demonstrator/demo_qt.py:33-134 without the choice of the scene (drawing is recorded as the camera it is done with; a drag is one action) |
| (`OpenCV.Calib.dict` in Props/Calibration) | gui_tools/calibrate/gui_calibrate.py:331-340, 351: the dictionary of a calibration and its way into the parameters (not the fit of OpenCV) |
| `CalFile` | gui_tools/calibrate/gui_calibrate.py:209-218, 280-298, 343-355, 380-395, 421-434 with QtShortCuts.py:329-387: the buttons that save and load a calibration and add images (a file contains a calibration or none; json gives back what it wrote) |
| `CalView` | gui_tools/calibrate/gui_calibrate.py:165-168, 242-243, 421-452, 464-522: the two views, the box Display Corrected and the key D, on top of `CalLoad` (a batch has at least one image; the extent of the views is in `GraphicsView`) |
| `NoValue` | the start search and the sampling of parameter_set.py:299-316 and statistic.py:95-159 for fit parameters without value |
| `TracePlot` | statistic.py:162-243 `plotTrace` with the dictionary of axes in the figure (labels left out; for which data `gaussian_kde` works is a parameter) |
| `Noise` | statistic.py:32-65, 275-293 `normal`, `normal_bounded`, `FitParameter.random` and `logp`, as distributions |
| `Rotate` | camera.py:1505-1520 `rotateSpace` as reads and assignments of the attributes of a camera of the program |
| `Rounded` | projection.py:379-408, spatial.py:107-129, 163-164, 199-201, 256-278, camera.py:1005, 1049-1056, 1137-1157 of rectilinear cameras and projection.py:451-487, 529-563, camera.py:1005, 1053, 1142-1157 of panoramas, both without lens distortion, with rounding errors |
| `OwnAttr` | parameter_set.py:170-179, camera.py:1521-1586: ordinary attributes of cameras (names that are no parameters) beside the parameters of `System`, in `getattr`, `setattr`, `save`, `load` |
| `Stereo`, `Pose` | camera.py: two-camera functions, `setCameraParametersByPointCorrespondence` after the calls of cv2 |

### Conventions

* A statement that the code violates is kept in `properties.jsonl` as a user would rely on it. For it
  there is a theorem `Cxx_..._violated` (a concrete witness, or better the exact deviation for all
  inputs), and a theorem with suffix `_partial` for the part that holds.
* External libraries enter as parameters or hypotheses of theorems, never as axioms.

## 2. Trusted base

* Lean's kernel; the Mathlib definitions of the real numbers, `sin`, `cos`, `tan`, `arcsin`, `arctan`,
  `sqrt`, `Complex.arg`, and for C167 `gaussianReal`, `cond` and the Lebesgue measure.
* Axioms: every theorem depends at most on `propext`, `Classical.choice`, `Quot.sound`
  (see section 5).
* The transcription from Python to the model (by reading; the code was not run).
* Semantics attributed to numpy/Python: element-wise operations, broadcasting over leading axes as
  `map`, `np.linalg.inv`/`solve` as exact inverse/solution with `LinAlgError` on singular input,
  `np.linalg.norm`, boolean-mask assignment, `np.asarray` not copying float arrays, indexing with `...`
  returning 0-d arrays, insertion ordered dicts, bound methods comparing equal when they belong to the
  same object, `%` on floats having the sign of the divisor.

## 3. Not modelled

* Floating point rounding outside of the model `Rounded`, overflow, underflow, float32 casts, the algorithm of `np.linalg.inv` (the ideal inverse; in C152, C154 and C168 a matrix that is accurate up to `e`); performance; printing and plotting (`plotTrace`, colours and labels; of `plotEpilines` and `printTraceSummary` the drawing and the printed text),
  the samplers of the external packages bayesianfridge and pymc; of the package `gui_tools` everything but the functions named in the table of models.
* OpenCV: the results of `findEssentialMat`/`recoverPose` are arguments, the interpolation of `remap` is a parameter.
* The spline of scipy (`InterpolatedUnivariateSpline`): it enters as an arbitrary function, with the
  interpolation property as a hypothesis where needed, and in C181 with its whole specification (`Spec/Spline`: the cubic
  spline through all points without a knot at the second and the last but one, in exact arithmetic; it exists and is unique).
* Random number generators: every theorem quantifies over all streams of draws; for `truncnorm` the
  hypothesis is that a draw lies between its bounds. Only in the model `Noise` a draw is a distribution. The optimiser of scipy is an arbitrary function from starts to
  tried positions and results.
* Arrays of several axes outside of the functions named under `Batch`: elsewhere inputs are a single point or N points.
* Text functions: decimal digits of other scripts, exponents, `inf` and `nan` in texts, the flags `-`, `+`, space and `#`, and `%%` in formats.
* Exif: rationals as the objects of newer Pillow versions; the file system is the one database file.
* Histories: loading into an existing camera overwrites the parameters of this camera in place; a group that still
  holds the parts the camera had before is not modelled.
* Constructor arguments of other types than the documented ones.

## 4. Properties and how they are proved

Geometry is proved by transferring the ideal-IEEE computation to the reals (lemmas `Num.Is.*`) and then
by algebra and trigonometry. State machines are proved by invariants and induction over histories.

| id | modelled as | proof |
|----|-------------|-------|
| C01-C05 | `getRay`/`imageFromCamera` of the three projections over ideal IEEE numbers, including the `abs(z)<1e-10` row reset and nan masks | direct; sideways directions refute the full claim for the panoramas (`_violated`), the rest is `_partial` |
| C06-C10 | `Camera.imageFromSpace`, `getRay`, `spaceFromImage` composed from projection and orientation | rotation matrix orthogonality + C01-C05 |
| C11-C13 | `_initCameraMatrix` for both orientation classes | trigonometric identities; `inv3` by cofactors equals the transpose |
| C14, C15 | `rotateSpace`, `scaleSpace` on camera parameters and on the reachable states, incl. heading wrap | algebra; `rotateSpace` raises for yaw-pitch-roll cameras |
| C16, C17 | FOV functions | arctan/tan inverse |
| C18, C19 | `getObjectHeight`, `getObjectLength` | from C07; exceptional positions refute C18 in full |
| C20-C23 | Brown/ABC lenses, inverse radius function as parameter | algebra; the centre is nan (C21 violated) |
| C24-C36 | `ray.py` | minimisation by completing squares; mesh by induction over the triangle list; C27, C28, C33, C36 violated with witnesses |
| C37-C44 | `gps.py` numeric functions | unit vectors on the sphere; C43, C44 violated |
| C45-C48 | `gps.py` text functions | text model with exact decimal rounding |
| C49-C57 | heap of Parameter objects, parameter sets, callbacks | invariants over histories; C52, C53, C56, C57 violated in general |
| C58-C63 | Metropolis and start search as folds over random streams | induction over iterations; C60-C62 violated |
| C64-C69 | save/load/exif/database as state machines with a file | simulation; C64-C69 violated |
| C70-C72 | map caches | invariants; violated in general, partial for histories without changes |
| C73, C74 | `CameraGroup.__init__` | list induction; C73 violated |
| C75-C77 | shape checks and constructor as decision functions | case analysis |
| C86 | meaning of the angles | explicit viewing direction, right and up vectors for all angles (Props/Spatial) |
| C87 | lens correction before the turning point | exact at the knots while all knots increase; violated otherwise (identity fallback) |
| C78-C82, C85 | border, cone, horizon, scene, LUT | list induction; C80 violated |
| C83 | aliasing semantics of in-place writes | violated |
| C84 | `rotationToEuler` | arctan2 identities; roll has the wrong sign (violated) |
| C88-C90 | fit and sampling of cameras, with an arbitrary optimiser | histories of `System`; C88-C90 violated |
| C91, C92 | saving and loading of parts | simulation as for C64; violated for focallength_px and lenses |
| C93-C95 | baseline, correspondence terms, ray distances | algebra; all three violated in general with the exact condition |
| C96 | groups | frame theorem over histories; violated for shared lenses |
| C97 | `focallength_px` of the constructor | case analysis; violated for tuples |
| C98-C101 | extent, scaling and content of top views and undistorted images | algebra over the maps; C98, C99 violated |
| C102, C103 | sensor database and exif data | list induction over the rows of the file; violated for makers with a space, for cm |
| C104 | notations of gps texts | matching on the pattern model; violated |
| C105-C111 | information terms as functions of the camera | sums of log densities, largest exactly where every summand is; landmarks by symmetry of the samples; C105, C106, C108, C109 violated in part |
| C112 | gps coordinates of pixels | from C07 and C43; violated for every elevation other than 0 |
| C113 | pose from correspondences | `Recovered` fixes the matrix and translation cv2 returns; arctan2 identities; heading and position violated |
| C114 | getFieldOfView as an angle | angles between `getRay` directions (rotation keeps angles); strict concavity of the arctangent gives the deviation off-centre |
| C115 | arrays in spaceFromImage | shapes and broadcasting of numpy in `Model/Batch.lean`; every index compared with the one-point model; violated for two leading axes |
| C116 | arrays in gps.py | `np.array([...]).T` reverses all axes; heights and axes exchanged |
| C117 | fridge | a sampler is any interactive program (`Sampler`); induction over it; violated: it reads the probability of an unchanged camera |
| C118 | log probability after sampling | invariant of the chain, then `set_fit_parameters`; violated by the additional parameters, which keep the last proposal |
| C119 | acceptance and detailed balance | the densities of the proposals (scipy's truncated normal, uniform `rand()`) are in `Spec/Balance`; violated with bounds: the chain is balanced for another density |
| C120 | summary of a trace | rounding at the place of the leading digit by `Int.floor` of `logb`; violated for constant columns (ValueError) |
| C121 | planes, coplanar rays, several rays | entry of each triangle is the first parameter of a hit, then the first minimum; violated for rays that enter a coplanar triangle from outside |
| C122 | drawn epipolar lines | signs of the line at the four corners; violated for lines through corners and outside of the image |
| C123 | step size of the sampler | counting over the windows between tunings |
| C124 | attributes of a camera | invariant of the dictionaries |
| C125 | epipolar lines of arbitrary pixels | the image of a ray is a line; projection on it |
| C126 | `metropolis` with a prior trace | simulation by the plain sampler; invariant of the rows; violated for rejected proposals and other labels |
| C127 | additional parameters | frame part of the fit invariant; violated for groups and `fit` |
| C128 | printed description | lines of the text against the public attributes, rounding of printed numbers; violated for shared lenses |
| C129 | plot of the fit information | circles at the observed pixels for exact information, by the inverses of C07; violated for arrays of lengths, two gps landmarks, after clearing |
| C130 | rendered scenes | image of a segment under a rectilinear camera is the segment of the images (reparametrisation by depth); violated behind the camera, for panoramas, float sizes, no camera |
| C131-C133 | the chain of transforms of the image view and its event handlers | C131 algebra of homotheties and induction over moves; C132 invariant over histories of events, maximality by the corners; C133 exact conditions, violated for turned images, points and covering |
| C134 | after set_fit_parameters with a calibration the whole chain space → distorted pixel equals the projection of OpenCV (Spec/OpenCV) | reads after `setFit` (all names), invariant of the views of the lens (C52), algebra of the radius; violated on the axis |
| C135, C136 | the window of the calibration tool as a transition system of main thread, worker threads and waiting calls | invariants over all interleavings, termination by a lexicographic measure; violated by repeated clicks, dying threads and clearing while processing |
| C137 | loader threads, cached pictures and undistortion map as a transition system | invariant over interleavings with calibrations at quiet times; violated by explicit interleavings for all calibrations |
| C138, C139 | cache of corners keyed by the stem of the file name; pattern of a batch against `fnmatch` | induction over sequences of calls; induction over names; exact violations |
| C140 | camera described by a set of sliders; same view of all points and pixels | invariant over all histories; C13 for the conventions; exact violation |
| C141, C142 | values sent to listeners; nearest value of a grid; camera described by the inputs | induction over histories with the value sent last as invariant; exact violations |
| C143 | contents of the files, the current calibration, the list of images | induction over histories with the name sent last as invariant; exact violation |
| C144 | picture in the views; selected image; nothing runs | invariant over all interleavings (displayed, or a thread or a waiting call is still to come); exact violations |
| C145 | the outcome of the sampling in terms of the log probability at the start and at the draws | induction over the search with an arbitrary invariant of the state; exact violation |
| C146 | what is drawn in the axes of a parameter (smallest, largest, most probable, mean value) | induction over all sequences of calls with the dictionary in the figure as invariant; exact violations |
| C147 | collinear points, points between two points, limits along the rays | algebra with camera coordinates; limits |
| C148 | order of the distances ahead and to the right, height of the camera | sign of the difference of two fractions |
| C149 | translation of camera and world | exact equality of the camera coordinates |
| C150-C152 | rounding errors | every computed number is the exact one times a factor near 1; bounds of products, scalar products and quotients |
| C153 | a fit and the mean | the operations of the program on one parameter; C54 and C56 |
| C154 | from the image to space and back with rounding errors | the computed point is near the ray; the error of C151 relative to the depth |
| C155 | a loaded camera reads what was saved, whatever was assigned before | true without ordinary attributes of these names; otherwise the stale number is read and saved |
| C156 | rays of panoramas and back with rounding errors | relative errors of sine and cosine turn the angle little; the tangent and the arc tangent in relative terms |
| C157 | imageFromSpace of panoramas with rounding errors | the error of the point in relation to its horizontal distance bounds the error of the angle |
| C158 | imageFromSpace of two cameras that differ in roll, heading, focal length, centre or size | the rotation matrix of the added angle times the old one; the lens is radial about the principal point |
| C159 | imageFromSpace of a camera before and after a movement without turning | the camera coordinates change by the movement |
| C160 | imageFromSpace and spaceFromImage of families of cameras | continuity of all formulas, including arg off its cut; the comparisons keep their outcome nearby |
| C161 | whole parameter system, two runs with different orders of callbacks | the two runs stay related by equality of everything but the attributes computed by lens callbacks |
| C162 | whole parameter system against a table of cells with two rules | refinement: every operation preserves that each existing parameter holds its cell |
| C163 | `spaceFromImage(mesh=…)` for one pixel and any mesh | exact case analysis per triangle (with area, edge-on, without area), first minimum over the list; then rays against pictures; edge-on and area-less triangles violate it |
| C164 | `load`/`load_camera` of any file in any state | induction over the entries: last value by key, then the state machine against the pure camera; the order matters only through `focallength_px` (violated) |
| C165 | pictures of far points determine the camera | along almost every ray the pixel tends to that of the direction; identities that hold off finitely many planes hold everywhere; from them focal lengths, rotation, position, Euler angles |
| C166 | two calls of `rotateSpace`, of `scaleSpace` | readings after each call, then states with equal readings show the same |
| C167 | `normal`, `normal_bounded`, `FitParameter.random`/`logp` | measures on the real line: affine images of conditioned Gaussians, densities |
| C168 | `spaceFromImage` of panoramas with rounding errors, and back | sine, cosine and tangent of an angle that is known roughly; the tangent is bounded as the ray does not meet the plane too flat |
| C169 | Level panoramas: column = bearing, row = slope or elevation | the camera coordinates of a level camera in closed form; an angle is fixed by its sine and cosine |
| C170 | Two rectilinear pictures of a plane or from one place; cross ratios; the camera looking down | the map is written as a product of matrices (pixel to ray, ray to space, the shift within the plane, space to camera, camera to pixel) |
| C171 | Distances between two points of the local plane and on the sphere | spherical and plane triangles with the same two sides and angle: cos of a square root is convex, sin x / x decreases |
| C172 | How far errors of the pixels move a triangulated point | the midpoint is the middle of the common perpendicular; the projections of a vector onto two directions |
| C173 | Drop-down and file input of the demonstration | invariant over histories: which entries can be shown, and that the last value told is the value |
| C174 | What measured heights and lengths depend on | the rays turn with the heading; closed form of the measured height, and a heading for which it is as large as wanted |
| C175 | What correspondences say about a group | a changed world keeps the rays in the coordinates of the other camera up to a factor; the image of a line is the same line; beyond some size the fixed depths 1 and 2 are behind the camera |
| C176 | Two landmarks fix position, elevation and heading | the vector between the landmarks turns with the heading; heights give the factors along the rays |
| C177 | A known length or height fixes the elevation | all factors along the rays grow with the height above the plane, lengths with them, whatever the heading |
| C178 | What the horizon says about a camera | the heights of points on the rays do not turn; a function with finitely many values is constant near every point where it is continuous |
| C179 | Assertions of the property tests of the project | the ranges of the strategies as predicates; bounds on rays of drawn pixels, so that no drawn point is nearer than the minimal depth |
| C180 | Assertions of the property tests of rays and gps coordinates | the drawn values as predicates; C26, C121, C31, C25 and C36 for rays; C45 to C48 and the same for single texts; exact distances of C38 to C41 |
| C181 | How exactly undistorting undoes distorting | the linear equations of the second derivatives of the spline are diagonally dominant, so a candidate with small residual is close; they are compared with the slopes of the chords; for the violation with rounded decimal numbers |
| C182 | Rounding errors of gps distances and positions | half the chord is a Lipschitz function of the angles; the arcsine of a number close to a sine; directions of vectors that are close to each other |
| C183 | Rounding errors of going along great circles and of the property test of gps coordinates | the arcsine is Lipschitz away from the poles; directions of close vectors up to whole turns; the triangle inequality of angles |
| C184 | Rounding errors of triangulation | elimination commutes with scaling of rows and columns, so that directions of any length are reduced to unit vectors; forward error analysis for both pivots; perturbed lines by the normal equations |
| C185 | The property tests of the transformations with rounding errors | forward error analysis of rays, points and images for all projections with one bound for everything the strategies can draw; normed rays as multiples of rays |
| C186 | Rounding errors of lengths and heights of objects | error of a point on a plane in terms of the ray, composed: the planes of the head go through the computed feet |
| C187 | Rounding errors of `imageFromGPS` and `gpsFromImage` | C182, C183 and the errors of rays and planes composed; two walks from one place end no further apart than on a plane (the difference is linear in the cosine of the angle between them) |
| C188 | Rounding errors of lens distortion | every term of the polynomials times a product of at most 55 rounding errors; the error of the radius cancels in the direction |
| C189 | Rounding errors of pixels with lens distortion | C187 (pixel before the distortion), C188 (distortion of the computed pixel) and Lipschitz bounds of the radius and of the polynomials |
| C190 | Rounding errors of the horizon | the cancellation in 1 - R / (R + h) costs the factor R / h; C152 bounds the heights of the rows, and the smallest of numbers that are off by at most E is at most 2 E above the smallest |
| C191 | Rounding errors of distances between rays | the computed cross product is off by at most 3 u times the product of the lengths; divided by its length this costs the inverse sine of the angle; the exact distance is the one of C33 |
| C192 | Rounding errors of areas | every factor s - a of Heron has an absolute error of order u times the perimeter, so a relative one that grows as the triangle becomes flat; for corners on a line an error of s makes one factor negative |
| C193 | Rounding errors of points next to lines | the cross product and the norms as for C191; the normed direction has a relative error of 5.1 u per coordinate, the scalar product an error relative to the lengths of both vectors |
| C194 | Rounding errors of rays and planes | the errors of the two scalar products with the normal are relative to the product of the lengths; k, the inverse of the sines of the angle of incidence and of the angle of the triangle, bounds how much the division amplifies them |
| C195 | Rounding errors of rays and triangles | on top of C194: the coordinates with respect to the edges have errors relative to the inverse sine of the angle of the triangle (to the third power) and the lengths of the edges, so points further from the edges than this are classified as without rounding errors |
| C196 | Rounding errors of rays and meshes | the minimum of numbers with errors up to e differs from the minimum of the exact numbers by at most e, so the hits need not be separated from each other |
| C197 | Rounding errors of the points of a mesh that belong to pixels | the rounded ray is a turned ray; a turned ray meets the same triangles if the exact ray stays away from the edges by a margin that grows with the turn; then C196 |
| C198 | From a pixel to a mesh and back with rounding errors | whatever triangle is chosen, the point is computed along the ray, so `back` and `point_near` of C154 apply; the factor is bounded from below by the distance of the reported point |
| C199 | The scenes of the demonstrator | the grid is that of C82; the points of a cube have a distance of half its width from its center along every axis; adding in a loop appends (induction) |

## 5. Axioms used

`#print axioms` was run for every theorem listed in `MANIFEST.json`. Each of them depends on exactly `propext`,
`Classical.choice` and `Quot.sound` (the real numbers of Mathlib already need all three). No theorem depends on
`sorryAx`, `Lean.ofReduceBool` or an axiom of this project; the project declares none. To repeat:
write `import Verif` and one `#print axioms <name>` per theorem into a file and run it with `lake env lean`.
