{"id": "C01", "title": "Rectilinear projection inverts its own rays", "statement": "For a RectilinearProjection, every point of camera space that lies in front of the camera on the ray getRay(p) (normed or not) is mapped by imageFromCamera back to the pixel p.", "quantifier": "all non-zero focal lengths, all centres, all pixels p, both values of normed, all positive multiples of the ray that are at least 1e-10 deep", "why_tests_cant": "The domain is a continuum of cameras and points; a test samples finitely many of them.", "anchors": ["cameratransform/projection.py:RectilinearProjection.getRay", "cameratransform/projection.py:RectilinearProjection.imageFromCamera"]}
{"id": "C02", "title": "Cylindrical projection inverts its own rays over the full circle", "statement": "For a CylindricalProjection, every point on the ray getRay(p) is mapped by imageFromCamera back to p, as long as the pixel is less than half a turn away from the centre. (The documentation promises the full 360 degree range.)", "quantifier": "all non-zero focal lengths, centres, pixels with |x-cx| < pi*|fx|, all positive multiples of the ray", "why_tests_cant": "The domain is a continuum of cameras and points; a test samples finitely many of them. The exceptional directions (exactly sideways, z within 1e-10 of 0) have measure zero, so random tests miss them.", "anchors": ["cameratransform/projection.py:CylindricalProjection.getRay", "cameratransform/projection.py:CylindricalProjection.imageFromCamera"]}
{"id": "C03", "title": "Equirectangular projection inverts its own rays over the full sphere", "statement": "For an EquirectangularProjection, every point on the ray getRay(p) is mapped by imageFromCamera back to p, as long as p is less than half a turn horizontally and a quarter turn vertically away from the centre.", "quantifier": "all non-zero focal lengths, centres, pixels in range, all positive multiples of the ray", "why_tests_cant": "The domain is a continuum of cameras and points; a test samples finitely many of them. The exceptional sideways directions have measure zero.", "anchors": ["cameratransform/projection.py:EquirectangularProjection.getRay", "cameratransform/projection.py:EquirectangularProjection.imageFromCamera"]}
{"id": "C04", "title": "Points behind a rectilinear camera are hidden, and only those", "statement": "RectilinearProjection.imageFromCamera returns (nan, nan) exactly for the finite points that are behind the camera (z > 0) or within 1e-10 of the camera plane; with hide_backpoints=False exactly for the latter. All other finite points get a finite pixel.", "quantifier": "all finite camera-space points, all finite intrinsics, both values of hide_backpoints", "why_tests_cant": "The domain is a continuum of cameras and points; a test samples finitely many of them.", "anchors": ["cameratransform/projection.py:RectilinearProjection.imageFromCamera"]}
{"id": "C05", "title": "The ray of a projected point goes through the point", "statement": "For each of the three projections, getRay(imageFromCamera(P)) is a positive multiple of P for every P that is in front of the camera (rectilinear) or off the vertical axis and at least 1e-10 away from the camera plane (panoramic).", "quantifier": "all finite points P in the stated region, all non-zero focal lengths", "why_tests_cant": "The domain is a continuum of cameras and points; a test samples finitely many of them.", "anchors": ["cameratransform/projection.py:CameraProjection.getRay", "cameratransform/projection.py:CameraProjection.imageFromCamera"]}
{"id": "C06", "title": "Image to space to image is the identity", "statement": "For a camera without lens distortion, imageFromSpace(spaceFromImage(p, X|Y|Z=v or D=d)) = p for every pixel p (of a panorama: less than half a turn away from the centre) whose ray reaches the requested plane or distance in front of the camera at a point that is at least 1e-10 away from the camera plane, for all three projections.", "quantifier": "all orientations (any angles, any position), all intrinsics, all pixels, each of the three planes X=v, Y=v, Z=v and all distances", "why_tests_cant": "The domain is a continuum of cameras and points; a test samples finitely many of them.", "anchors": ["cameratransform/camera.py:Camera.spaceFromImage", "cameratransform/camera.py:Camera.imageFromSpace", "cameratransform/spatial.py:SpatialOrientation"]}
{"id": "C07", "title": "Space to image to space is the identity", "statement": "For a camera without lens distortion, spaceFromImage(imageFromSpace(P), Z=P.z) = P (and likewise with X=P.x or Y=P.y) for every point P whose constrained coordinate differs from the camera's and that is visible: at least 1e-10 away from the camera plane and, for a rectilinear camera, in front of it.", "quantifier": "all orientations, intrinsics, visible points, each of the three constraints", "why_tests_cant": "The domain is a continuum of cameras and points; a test samples finitely many of them.", "anchors": ["cameratransform/camera.py:Camera.spaceFromImage", "cameratransform/camera.py:Camera.imageFromSpace"]}
{"id": "C08", "title": "spaceFromImage returns a point on the pixel's ray that satisfies the constraint, or nan", "statement": "spaceFromImage(p, X|Y|Z=v) returns a point with the requested coordinate equal to v, lying on the ray of p in front of the camera; if the plane lies behind the camera, the whole row is nan; if the ray is parallel to the plane, no finite point is returned.", "quantifier": "all pixels, cameras without distortion, all constraint values, each constraint index", "why_tests_cant": "The domain is a continuum of cameras and points; a test samples finitely many of them. The parallel case is a measure-zero set.", "anchors": ["cameratransform/camera.py:Camera.spaceFromImage"]}
{"id": "C09", "title": "spaceFromImage with D returns the point at exactly that distance", "statement": "spaceFromImage(p, D=d) with d >= 0 returns the point of the pixel's ray whose Euclidean distance to the camera position is exactly d; with d < 0 it returns nan.", "quantifier": "all pixels, all cameras (three projections), all d", "why_tests_cant": "The domain is a continuum of cameras and points; a test samples finitely many of them.", "anchors": ["cameratransform/camera.py:Camera.spaceFromImage"]}
{"id": "C10", "title": "getRay starts at the camera and has unit length when normed", "statement": "The origin returned by getRay is the camera position (pos_x_m, pos_y_m, elevation_m); with normed=True the direction has length 1 and is a positive multiple of the un-normed direction.", "quantifier": "all cameras, all pixels", "why_tests_cant": "The domain is a continuum of cameras and points; a test samples finitely many of them.", "anchors": ["cameratransform/camera.py:Camera.getRay", "cameratransform/projection.py:getRay"]}
{"id": "C11", "title": "Space/camera conversion is an orientation preserving rigid motion", "statement": "cameraFromSpace and spaceFromCamera are mutually inverse, preserve all distances and the handedness of every triple of vectors, and map the camera position to the origin.", "quantifier": "all six orientation parameters (arbitrary reals), all points", "why_tests_cant": "The domain is a continuum of cameras and points; a test samples finitely many of them.", "anchors": ["cameratransform/spatial.py:SpatialOrientation._initCameraMatrix", "cameratransform/spatial.py:SpatialOrientation.cameraFromSpace", "cameratransform/spatial.py:SpatialOrientation.spaceFromCamera"]}
{"id": "C12", "title": "Heading wrap-around does not change the camera", "statement": "Setting a heading outside [-360, 360] stores a heading inside [0, 360), and the resulting transformation is the same as for the heading that was given.", "quantifier": "all real headings, all other parameters", "why_tests_cant": "The domain is a continuum of cameras and points; a test samples finitely many of them.", "anchors": ["cameratransform/spatial.py:SpatialOrientation._initCameraMatrix"]}
{"id": "C13", "title": "Yaw-pitch-roll orientation equals the tilt-heading-roll orientation", "statement": "A SpatialOrientationYawPitchRoll transforms points exactly like a SpatialOrientation with tilt = 90 + pitch, roll = -roll and heading = yaw (the docstring says heading = -yaw, which the code does not do).", "quantifier": "all angles and positions, all points", "why_tests_cant": "The domain is a continuum of cameras and points; a test samples finitely many of them.", "anchors": ["cameratransform/spatial.py:SpatialOrientationYawPitchRoll._initCameraMatrix"]}
{"id": "C14", "title": "rotateSpace rotates the world with the camera", "statement": "After rotateSpace(d), imageFromSpace of the point rotated by d clockwise around the origin equals imageFromSpace of the original point before. (Excluded: points exactly behind a panoramic camera, whose image is one of two pixels a full turn apart.)", "quantifier": "all cameras, all d, all points, including headings that wrap", "why_tests_cant": "The domain is a continuum of cameras and points; a test samples finitely many of them.", "anchors": ["cameratransform/camera.py:Camera.rotateSpace"]}
{"id": "C15", "title": "scaleSpace scales the world with the cameras", "statement": "After CameraGroup.scaleSpace(s) with s > 0, the image of s*P in each camera equals the image of P before, for every P whose depth stays at least 1e-10.", "quantifier": "all cameras, all s > 0, all points", "why_tests_cant": "The domain is a continuum of cameras and points; a test samples finitely many of them.", "anchors": ["cameratransform/camera.py:CameraGroup.scaleSpace"]}
{"id": "C16", "title": "Field of view and focal length determine each other", "statement": "For each projection, focallengthFromFOV(getFieldOfView()) returns the focal length, in x and in y, and a projection built from a field of view reports that field of view.", "quantifier": "all positive focal lengths and image sizes; all angles in the admissible open interval", "why_tests_cant": "The domain is a continuum of cameras and points; a test samples finitely many of them.", "anchors": ["cameratransform/projection.py:getFieldOfView", "cameratransform/projection.py:focallengthFromFOV"]}
{"id": "C17", "title": "Field of view and image size determine each other", "statement": "For each projection, imageFromFOV(getFieldOfView()) returns the image width (height).", "quantifier": "all positive focal lengths and image sizes", "why_tests_cant": "The domain is a continuum of cameras and points; a test samples finitely many of them.", "anchors": ["cameratransform/projection.py:imageFromFOV"]}
{"id": "C18", "title": "getObjectHeight measures vertical objects correctly", "statement": "If feet is the image of (x, y, Z) and head the image of (x, y, Z+h), then getObjectHeight(feet, head, Z) = h.", "quantifier": "all cameras, all positions and heights visible in the image", "why_tests_cant": "The domain is a continuum of cameras and points; a test samples finitely many of them. The exceptional set x = pos_x_m or y = pos_y_m has measure zero.", "anchors": ["cameratransform/camera.py:Camera.getObjectHeight"]}
{"id": "C19", "title": "getObjectLength measures flat objects correctly", "statement": "If front and back are the images of two points at height Z, getObjectLength returns their Euclidean distance.", "quantifier": "all cameras, all visible pairs of points with z = Z different from the camera elevation", "why_tests_cant": "The domain is a continuum of cameras and points; a test samples finitely many of them.", "anchors": ["cameratransform/camera.py:Camera.getObjectLength"]}
{"id": "C20", "title": "Undistorting a distorted point gives the point back", "statement": "For BrownLensDistortion and ABCDistortion, imageFromDistorted(distortedFromImage(p)) = p wherever the numerical inverse of the radius polynomial is exact.", "quantifier": "all coefficients, scales, offsets, all points away from the centre", "why_tests_cant": "The domain is a continuum of cameras and points; a test samples finitely many of them.", "anchors": ["cameratransform/lens_distortion.py:BrownLensDistortion", "cameratransform/lens_distortion.py:ABCDistortion", "cameratransform/lens_distortion.py:invert_function"]}
{"id": "C21", "title": "The optical centre is a fixed point of the lens distortion", "statement": "distortedFromImage and imageFromDistorted map the image centre to itself.", "quantifier": "all coefficients and projections", "why_tests_cant": "The centre is a single point of the plane; random pixel tests never hit it.", "anchors": ["cameratransform/lens_distortion.py:BrownLensDistortion.distortedFromImage", "cameratransform/lens_distortion.py:ABCDistortion.distortedFromImage"]}
{"id": "C22", "title": "Zero distortion coefficients mean no distortion", "statement": "A Brown lens with k1=k2=k3=0 and an ABC lens with a=b=c=0 leave every point (other than the centre, see C21) unchanged, as NoDistortion does for every point.", "quantifier": "all points, scales and offsets", "why_tests_cant": "The domain is a continuum of cameras and points; a test samples finitely many of them.", "anchors": ["cameratransform/lens_distortion.py:BrownLensDistortion._convert_radius", "cameratransform/lens_distortion.py:ABCDistortion._convert_radius", "cameratransform/lens_distortion.py:NoDistortion"]}
{"id": "C23", "title": "Brown distortion is radial and order preserving", "statement": "With non-negative coefficients a Brown lens moves every point along the line through the centre, outwards, and keeps the order of the normalised radii.", "quantifier": "all non-negative k1,k2,k3, all pairs of points", "why_tests_cant": "The domain is a continuum of cameras and points; a test samples finitely many of them.", "anchors": ["cameratransform/lens_distortion.py:BrownLensDistortion.distortedFromImage"]}
{"id": "C24", "title": "areaOfQuadrilateral is the area", "statement": "areaOfQuadrilateral returns the absolute shoelace area of the quadrilateral; it is invariant under translation, rotation, reversal and cyclic renumbering of the corners.", "quantifier": "all quadruples of points", "why_tests_cant": "The domain is a continuum of cameras and points; a test samples finitely many of them.", "anchors": ["cameratransform/ray.py:areaOfQuadrilateral"]}
{"id": "C25", "title": "areaOfTriangle is the area", "statement": "areaOfTriangle (Heron) equals half the length of the cross product of two edges, is never nan for finite points, and is 0 exactly for collinear corners.", "quantifier": "all triples of points in 3D", "why_tests_cant": "The domain is a continuum of cameras and points; a test samples finitely many of them.", "anchors": ["cameratransform/ray.py:areaOfTriangle"]}
{"id": "C26", "title": "Mesh intersection returns the nearest hit", "statement": "ray_intersect_triangle returns origin + r*direction for the smallest r >= 0 for which that point lies in one of the triangles.", "quantifier": "all meshes of any size made of non-degenerate triangles that are not coplanar with the ray, all rays that hit", "why_tests_cant": "The mesh size is unbounded and the geometry continuous.", "anchors": ["cameratransform/ray.py:ray_intersect_triangle"]}
{"id": "C27", "title": "Mesh intersection reports a miss as nan", "statement": "When a ray hits no triangle, the returned point has nan values (docstring).", "quantifier": "all rays and meshes with no intersection", "why_tests_cant": "The domain is a continuum of cameras and points; a test samples finitely many of them.", "anchors": ["cameratransform/ray.py:ray_intersect_triangle"]}
{"id": "C28", "title": "Degenerate triangles do not affect mesh intersection", "statement": "Adding triangles of zero area to a mesh does not change which point is returned.", "quantifier": "all meshes, all degenerate triangles", "why_tests_cant": "Random triangles are never degenerate.", "anchors": ["cameratransform/ray.py:ray_intersect_triangle"]}
{"id": "C29", "title": "distanceLinePoint is the minimal distance", "statement": "distanceLinePoint(p1, v1, p2) is attained by some point of the line and is a lower bound for the distance of p2 to all points of the line.", "quantifier": "all lines with non-zero direction, all points, all line parameters", "why_tests_cant": "The domain is a continuum of cameras and points; a test samples finitely many of them.", "anchors": ["cameratransform/ray.py:distanceLinePoint"]}
{"id": "C30", "title": "getClosestPointFromLine is the orthogonal projection", "statement": "The result lies on the line, and no point of the line is closer to the given point.", "quantifier": "all lines with non-zero direction, all points, all competitors", "why_tests_cant": "The domain is a continuum of cameras and points; a test samples finitely many of them.", "anchors": ["cameratransform/ray.py:getClosestPointFromLine"]}
{"id": "C31", "title": "intersectionOfTwoLines is the midpoint of the shortest connection", "statement": "For non-parallel lines the result is the midpoint of two points, one on each line, whose distance is minimal among all pairs; if the lines meet, it is the meeting point. For parallel lines the result is nan.", "quantifier": "all pairs of lines, all competitors", "why_tests_cant": "The domain is a continuum of cameras and points; a test samples finitely many of them.", "anchors": ["cameratransform/ray.py:intersectionOfTwoLines"]}
{"id": "C32", "title": "Batch triangulation equals element-wise triangulation", "statement": "intersectionOfTwoLines on N directions returns row i = the single-line result for row i, even if some rows are parallel (singular system).", "quantifier": "all batch sizes, all rows", "why_tests_cant": "Unbounded N and the exception path of one row affecting others.", "anchors": ["cameratransform/ray.py:intersectionOfTwoLines"]}
{"id": "C33", "title": "distanceOfTwoLines is the minimal distance", "statement": "The result is a lower bound for the distance between any two points of the two lines, and is attained.", "quantifier": "all pairs of lines, all competitors", "why_tests_cant": "The domain is a continuum of cameras and points; a test samples finitely many of them. The near-parallel window decided by np.isclose is tiny.", "anchors": ["cameratransform/ray.py:distanceOfTwoLines"]}
{"id": "C34", "title": "Stereo triangulation inverts projection", "statement": "CameraGroup.spaceFromImages(*imagesFromSpace(P)) = P for every point visible in both cameras whose two viewing rays are not parallel.", "quantifier": "all pairs of cameras (any projections without distortion), all points", "why_tests_cant": "The domain is a continuum of cameras and points; a test samples finitely many of them.", "anchors": ["cameratransform/camera.py:CameraGroup.spaceFromImages", "cameratransform/camera.py:CameraGroup.imagesFromSpace"]}
{"id": "C35", "title": "Exact correspondences have zero epipolar error", "statement": "If both image points are the projections of one space point, pointCorrespondenceError returns 0 for both directions.", "quantifier": "all pairs of rectilinear cameras, all points in general position", "why_tests_cant": "The domain is a continuum of cameras and points; a test samples finitely many of them.", "anchors": ["cameratransform/camera.py:CameraGroup.pointCorrespondenceError"]}
{"id": "C36", "title": "extrudeLine builds a wall", "statement": "extrudeLine(points, z0, z1) returns two triangles per segment which together cover the whole rectangle between the segment at z0 and at z1, and whose areas add up to length*|z1-z0|.", "quantifier": "all polylines of any length, all z0, z1, all points of the wall", "why_tests_cant": "The number of points is unbounded; the existing test only checks the area.", "anchors": ["cameratransform/ray.py:extrudeLine"]}
{"id": "C37", "title": "getDistance is the great-circle distance", "statement": "Without heights getDistance is 6371 km times the central angle between the two points: never nan, symmetric, between 0 and 6371 km * pi, and 0 exactly for the same point on the sphere. With heights it is the hypotenuse of that and the height difference.", "quantifier": "all pairs of latitudes/longitudes (also outside the usual ranges) and heights", "why_tests_cant": "The domain is a continuum of cameras and points; a test samples finitely many of them.", "anchors": ["cameratransform/gps.py:getDistance"]}
{"id": "C38", "title": "getDistance satisfies the triangle inequality", "statement": "getDistance(a, c) <= getDistance(a, b) + getDistance(b, c).", "quantifier": "all triples of points without heights, and all triples with heights", "why_tests_cant": "The domain is a continuum of cameras and points; a test samples finitely many of them.", "anchors": ["cameratransform/gps.py:getDistance"]}
{"id": "C39", "title": "moveDistance moves by the given distance", "statement": "getDistance(p, moveDistance(p, d, b)) = d for points without height.", "quantifier": "all start points off the poles, all bearings, all 0 <= d <= half the circumference", "why_tests_cant": "The domain is a continuum of cameras and points; a test samples finitely many of them.", "anchors": ["cameratransform/gps.py:moveDistance", "cameratransform/gps.py:getDistance"]}
{"id": "C40", "title": "moveDistance moves in the given direction", "statement": "getBearing(p, moveDistance(p, d, b)) = b for points without height; for bearings outside (-180, 180) the two differ by a multiple of 360, and the result is always between -180 and 180.", "quantifier": "all start points off the poles, all bearings, all 0 < d < half the circumference", "why_tests_cant": "The domain is a continuum of cameras and points; a test samples finitely many of them.", "anchors": ["cameratransform/gps.py:moveDistance", "cameratransform/gps.py:getBearing"]}
{"id": "C41", "title": "gps to space to gps is the identity", "statement": "gpsFromSpace(spaceFromGPS(q, p), p) is the same point on the sphere as q (without heights): the same latitude and the same longitude modulo 360.", "quantifier": "all reference points off the poles and all target points", "why_tests_cant": "The domain is a continuum of cameras and points; a test samples finitely many of them.", "anchors": ["cameratransform/gps.py:spaceFromGPS", "cameratransform/gps.py:gpsFromSpace"]}
{"id": "C42", "title": "space to gps to space is the identity", "statement": "spaceFromGPS(gpsFromSpace(s, p), p) = s (x and y) for reference points without height.", "quantifier": "all reference points off the poles, all s closer than half the circumference", "why_tests_cant": "The domain is a continuum of cameras and points; a test samples finitely many of them.", "anchors": ["cameratransform/gps.py:spaceFromGPS", "cameratransform/gps.py:gpsFromSpace"]}
{"id": "C43", "title": "Camera.gpsFromSpace and Camera.spaceFromGPS are inverse", "statement": "Camera.spaceFromGPS(Camera.gpsFromSpace(P)) = P.", "quantifier": "all cameras (any elevation), all points", "why_tests_cant": "The domain is a continuum of cameras and points; a test samples finitely many of them. The deviation is a factor 1+h/6371000 and hides in test tolerances.", "anchors": ["cameratransform/camera.py:Camera.gpsFromSpace", "cameratransform/camera.py:Camera.spaceFromGPS"]}
{"id": "C44", "title": "Batch spaceFromGPS equals element-wise spaceFromGPS", "statement": "Row i of spaceFromGPS(batch) is spaceFromGPS of row i, for every batch size, for points with heights and for points without.", "quantifier": "all batch sizes N >= 1, all points", "why_tests_cant": "Unbounded N; the code misbehaves for exactly one batch size.", "anchors": ["cameratransform/gps.py:spaceFromGPS"]}
{"id": "C45", "title": "gpsFromString reads back what formatGPS wrote", "statement": "For the documented formats, gpsFromString(' '.join(formatGPS(lat, lon))) is within half a unit of the last printed digit of (lat, lon).", "quantifier": "all latitudes and longitudes of magnitude below 1000 degrees, every rounding boundary", "why_tests_cant": "The domain is a continuum of cameras and points; a test samples finitely many of them. Carry at 59.9995 seconds / minutes hits a tiny set of inputs.", "anchors": ["cameratransform/gps.py:formatGPS", "cameratransform/gps.py:gpsFromString", "cameratransform/gps.py:processDegree"]}
{"id": "C46", "title": "formatGPS without a letter keeps the sign", "statement": "A format without %s prints the sign of negative coordinates, so that reading the string back gives a value of the same sign.", "quantifier": "all coordinates, all formats without %s", "why_tests_cant": "The domain is a continuum of cameras and points; a test samples finitely many of them.", "anchors": ["cameratransform/gps.py:formatGPS"]}
{"id": "C47", "title": "processDegree combines degrees, minutes, seconds and sign", "statement": "The value is +-(|deg| + min/60 + sec/3600), negative exactly when the degree text starts with '-' or the letter is S or W; missing minutes/seconds/sign count as 0/0/+.", "quantifier": "all degree, minute and second texts that float() accepts, all optional parts", "why_tests_cant": "The domain is a continuum of cameras and points; a test samples finitely many of them.", "anchors": ["cameratransform/gps.py:processDegree"]}
{"id": "C48", "title": "gpsFromString tries the formats in order and never mixes them", "statement": "A string that matches the degree-minute-second pattern is interpreted by it, else by degree-minute, else by decimal degree, else as a single coordinate in the same order, else None is returned; lists are processed element-wise and a height is appended.", "quantifier": "all strings (as outcomes of the pattern matcher) and all nested lists", "why_tests_cant": "The domain is a continuum of cameras and points; a test samples finitely many of them.", "anchors": ["cameratransform/gps.py:gpsFromString"]}
{"id": "C49", "title": "Reading a parameter returns the last value written, or the default", "statement": "After any history, reading a camera parameter returns the last non-None value assigned to it by the user or a fit, and the current default if the last assigned value is None or nothing was assigned.", "quantifier": "every history of assignments, default assignments, fits; every parameter name", "why_tests_cant": "The claim ranges over every finite history of API calls; a test replays one.", "anchors": ["cameratransform/parameter_set.py:ParameterSet.__getattr__", "cameratransform/parameter_set.py:ParameterSet.__setattr__", "cameratransform/parameter_set.py:DefaultAccess"]}
{"id": "C50", "title": "Camera, projection, orientation and lens share their parameters", "statement": "Assigning a parameter through the camera is visible through its projection, orientation or lens, and vice versa, at every time.", "quantifier": "every history of assignments through any of the objects", "why_tests_cant": "The claim ranges over every finite history of API calls; a test replays one.", "anchors": ["cameratransform/camera.py:Camera.__init__", "cameratransform/parameter_set.py:ClassWithParameterSet"]}
{"id": "C51", "title": "The rotation matrix and translation are always up to date", "statement": "After any history of API calls, cameraFromSpace uses the matrix and translation of the current parameter values.", "quantifier": "every history of assignments, default changes, fits, sampling, set_to_mean on any number of cameras and orientations, shared or not", "why_tests_cant": "The claim ranges over every finite history of API calls; a test replays one.", "anchors": ["cameratransform/spatial.py:SpatialOrientation._initCameraMatrix", "cameratransform/parameter_set.py:ParameterSet"]}
{"id": "C52", "title": "The lens scale and offset are always up to date", "statement": "After any history of API calls, a Brown/ABC lens uses the current focal length, centre and image size of its camera's projection.", "quantifier": "every history on any number of cameras, projections and lenses, shared or not", "why_tests_cant": "The claim ranges over every finite history of API calls; a test replays one. Sharing one projection between two lenses is needed to see a failure.", "anchors": ["cameratransform/lens_distortion.py:BrownLensDistortion.setProjection", "cameratransform/lens_distortion.py:BrownLensDistortion._init_inverse", "cameratransform/camera.py:CameraGroup.__init__"]}
{"id": "C53", "title": "A projection built from a field of view obeys later assignments", "statement": "projection.image_width_px and image_height_px return the last assigned value, however the projection was constructed.", "quantifier": "every constructor variant, every history of assignments", "why_tests_cant": "The claim ranges over every finite history of API calls; a test replays one.", "anchors": ["cameratransform/projection.py:CameraProjection.__init__", "cameratransform/parameter_set.py:ClassWithParameterSet.__getattr__"]}
{"id": "C54", "title": "set_fit_parameters applies all updates before any callback and ignores unknown names", "statement": "After set_fit_parameters(names, values) every known name has its value and is marked as fitted, every other parameter is unchanged, unknown names have no effect, and each needed callback ran on the final values.", "quantifier": "all name/value lists of any length, with repetitions and unknown names; every order in which the callback set is iterated", "why_tests_cant": "The claim ranges over every finite history of API calls; a test replays one. The callback order is a set order.", "anchors": ["cameratransform/parameter_set.py:ParameterSet.set_fit_parameters"]}
{"id": "C55", "title": "get_fit_parameters returns exactly the parameters the user has not fixed", "statement": "The result contains exactly the names whose type matches the mask and whose value is None or was not set by the user, in declaration order.", "quantifier": "every parameter set and history, every mask", "why_tests_cant": "The claim ranges over every finite history of API calls; a test replays one.", "anchors": ["cameratransform/parameter_set.py:ParameterSet.get_fit_parameters"]}
{"id": "C56", "title": "Uncertain parameters stay uncertain under sampling", "statement": "A parameter assigned as a tuple (mean, std) is redrawn by every later sample() and returned to its mean by set_to_mean(), until it is assigned again.", "quantifier": "every history of sample/set_to_mean calls, all draws, every parameter", "why_tests_cant": "The claim ranges over every finite history of API calls; a test replays one. Only draws beyond 360 degrees break it.", "anchors": ["cameratransform/parameter_set.py:ClassWithParameterSet.sample", "cameratransform/parameter_set.py:Parameter.sample", "cameratransform/spatial.py:SpatialOrientation._initCameraMatrix"]}
{"id": "C57", "title": "focallength_px sets both focal lengths", "statement": "After assigning focallength_px (directly or by a fit), focallength_x_px and focallength_y_px both read as that value, and an attached lens has seen it.", "quantifier": "every prior history, all values", "why_tests_cant": "The claim ranges over every finite history of API calls; a test replays one.", "anchors": ["cameratransform/projection.py:CameraProjection.__init__ callback"]}
{"id": "C58", "title": "The Metropolis trace has the documented length", "statement": "metropolis(iterations=n, burn=b) returns exactly max(0, n - b - 1) rows.", "quantifier": "all n, b, log-probability functions and random streams", "why_tests_cant": "Unbounded run length and random choices.", "anchors": ["cameratransform/statistic.py:metropolis"]}
{"id": "C59", "title": "Every row of a Metropolis trace carries its own probability and is possible", "statement": "Each row of the trace consists of a position and getLogProb(position); if the start has non-zero probability, so has every row.", "quantifier": "all run lengths, all log-probability functions, all random streams", "why_tests_cant": "Unbounded run length and random choices.", "anchors": ["cameratransform/statistic.py:metropolis"]}
{"id": "C60", "title": "Metropolis samples respect the bounds", "statement": "All positions in the trace lie inside the lower/upper bounds given by the fit parameters.", "quantifier": "all run lengths, bounds, random streams", "why_tests_cant": "The step-size adaptation must fire (200 iterations of burn-in) before a failure is possible.", "anchors": ["cameratransform/statistic.py:metropolis", "cameratransform/parameter_set.py:ClassWithParameterSet.metropolis"]}
{"id": "C61", "title": "After metropolis the camera has the most probable sampled parameters", "statement": "metropolis() leaves the fitted parameters at a row of the trace with maximal probability and changes no other parameter.", "quantifier": "all traces", "why_tests_cant": "Quantifies over every trace.", "anchors": ["cameratransform/parameter_set.py:ClassWithParameterSet.metropolis", "cameratransform/parameter_set.py:ClassWithParameterSet.set_to_mean"]}
{"id": "C62", "title": "The start search succeeds whenever one of its draws is possible", "statement": "fit and metropolis raise 'Could not find a starting position' only if every one of the tried positions has zero probability.", "quantifier": "all log-probability functions and random draws", "why_tests_cant": "Only the last of 1000 draws exposes the off-by-one.", "anchors": ["cameratransform/parameter_set.py:ClassWithParameterSet.fit", "cameratransform/parameter_set.py:ClassWithParameterSet.metropolis"]}
{"id": "C63", "title": "The log probability is the sum of the added terms", "statement": "getLogProbability is the sum of all terms added and not cleared (for a CameraGroup including those of its cameras); an undefined sum counts as probability zero; terms added with only_plot do not contribute.", "quantifier": "every history of add*/clear calls, all term values", "why_tests_cant": "The claim ranges over every finite history of API calls; a test replays one.", "anchors": ["cameratransform/parameter_set.py:ClassWithParameterSet.getLogProbability", "cameratransform/camera.py:CameraGroup.getLogProbability", "cameratransform/camera.py:Camera.addLandmarkInformation"]}
{"id": "C64", "title": "Saving and loading a camera preserves it", "statement": "load_camera(save(cam)) has the same projection class, lens class and the same value of every parameter (other than the write-only focallength_px), hence the same transformations.", "quantifier": "every camera with a SpatialOrientation, every reachable parameter state", "why_tests_cant": "The claim ranges over every finite history of API calls; a test replays one.", "anchors": ["cameratransform/camera.py:Camera.save", "cameratransform/camera.py:Camera.load", "cameratransform/camera.py:load_camera"]}
{"id": "C65", "title": "Saving and loading preserves the orientation of every camera", "statement": "load_camera(save(cam)) transforms points like cam, whichever orientation class the camera uses.", "quantifier": "every camera incl. SpatialOrientationYawPitchRoll", "why_tests_cant": "The domain is a continuum of cameras and points; a test samples finitely many of them.", "anchors": ["cameratransform/camera.py:Camera.save", "cameratransform/camera.py:Camera.load"]}
{"id": "C66", "title": "A failing save does not destroy the previous file", "statement": "If save raises, the file still holds its previous content.", "quantifier": "every camera state and every previous file content", "why_tests_cant": "The failure needs a particular value type in the state when save runs.", "anchors": ["cameratransform/camera.py:Camera.save", "cameratransform/camera.py:Camera.setGPSpos", "cameratransform/projection.py:CameraProjection.save"]}
{"id": "C67", "title": "setGPSpos stores what it is given", "statement": "setGPSpos(lat, lon, elevation), setGPSpos((lat, lon), elevation=e), setGPSpos((lat, lon, e)) and setGPSpos(string) store latitude, longitude and, if given, the elevation.", "quantifier": "all argument combinations and values", "why_tests_cant": "The domain is a continuum of cameras and points; a test samples finitely many of them.", "anchors": ["cameratransform/camera.py:Camera.setGPSpos", "cameratransform/gps.py:splitGPS"]}
{"id": "C68", "title": "The sensor database recovers from a failed download", "statement": "After a download that raised, a later lookup with a working network finds the sensor.", "quantifier": "every sequence of lookups, every point at which the download fails", "why_tests_cant": "The failure is a crash point between creating and filling the file.", "anchors": ["cameratransform/camera.py:_getSensorFromDatabase"]}
{"id": "C69", "title": "Exif parameters can be read without the database", "statement": "getCameraParametersFromExif(sensor_from_database=False) computes the sensor size from the focal plane resolution.", "quantifier": "all exif contents", "why_tests_cant": "The domain is a continuum of cameras and points; a test samples finitely many of them.", "anchors": ["cameratransform/camera.py:getCameraParametersFromExif"]}
{"id": "C70", "title": "The top view map is the one for the current camera and arguments", "statement": "getTopViewOfImage uses the map computed from the current camera parameters, extent, scaling, Z and hide_backpoints, whatever was called before.", "quantifier": "every history of parameter changes, loads and top view calls", "why_tests_cant": "The claim ranges over every finite history of API calls; a test replays one.", "anchors": ["cameratransform/camera.py:Camera._getMap"]}
{"id": "C71", "title": "The undistortion map is the one for the current lens and arguments", "statement": "undistortImage uses the map computed from the current lens and projection parameters, extent and scaling, whatever was called before.", "quantifier": "every history of parameter changes and undistort calls", "why_tests_cant": "The claim ranges over every finite history of API calls; a test replays one.", "anchors": ["cameratransform/camera.py:Camera._getUndistortMap"]}
{"id": "C72", "title": "A repeated top view call with the same arguments uses the cache", "statement": "The docstring promises that the second call with the same parameters reuses the projected grid.", "quantifier": "all arguments, including scaling=None", "why_tests_cant": "The claim ranges over every finite history of API calls; a test replays one.", "anchors": ["cameratransform/camera.py:Camera._getMap"]}
{"id": "C73", "title": "A camera group has one camera per list entry", "statement": "len(group) is the largest number of projections/orientations/lenses given, and camera i uses entry i of each list (the single entry where one is given).", "quantifier": "all list lengths for the three arguments", "why_tests_cant": "Unbounded list lengths and combinations of lengths.", "anchors": ["cameratransform/camera.py:CameraGroup.__init__"]}
{"id": "C74", "title": "Group parameter names address the right camera", "statement": "C<i>_<name> of a group is the parameter <name> of the i-th listed object; a single object's parameters keep their plain name; distinct objects never collide.", "quantifier": "all list lengths, all names", "why_tests_cant": "Unbounded indices (C1_ vs C10_ etc.).", "anchors": ["cameratransform/camera.py:CameraGroup.__init__ gatherParameters"]}
{"id": "C75", "title": "ensure_array_format accepts exactly the documented shapes", "statement": "With '...xk' an array is accepted exactly if it has at least one dimension and its last dimension is k; with fixed formats exactly if the number of dimensions agrees, numbers agree and equal letters have equal sizes; additional arrays must all have the same shape.", "quantifier": "all shapes of any rank, all formats", "why_tests_cant": "Unbounded rank and sizes.", "anchors": ["cameratransform/utils.py:ensure_array_format", "cameratransform/utils.py:string_to_shape"]}
{"id": "C76", "title": "The projection constructor accepts consistent arguments only", "statement": "Every contradictory or incomplete combination of image/focal length/sensor/field of view arguments raises ValueError; otherwise both focal lengths are determined.", "quantifier": "all combinations of present and absent arguments and all values, zero included", "why_tests_cant": "2^14 argument combinations times values; falsy zeros.", "anchors": ["cameratransform/projection.py:CameraProjection.__init__"]}
{"id": "C77", "title": "Default centre, sensor and focal length conversion are right", "statement": "Without a centre the image middle is used; a missing sensor side follows the image aspect ratio; focallength_mm converts as f/sensor*image in each axis.", "quantifier": "all argument values", "why_tests_cant": "The domain is a continuum of cameras and points; a test samples finitely many of them.", "anchors": ["cameratransform/projection.py:CameraProjection.__init__"]}
{"id": "C78", "title": "getImageBorder walks once around the image", "statement": "The returned points all lie on the image border, start at (0,0), and for resolution 1 there are exactly 2(w+h) of them, each step moving by one pixel along the border.", "quantifier": "all image sizes", "why_tests_cant": "Unbounded sizes.", "anchors": ["cameratransform/camera.py:Camera.getImageBorder"]}
{"id": "C79", "title": "getCameraCone is well formed", "statement": "The cone consists of the projected border followed by one (nan, camera position, corner) triple per corner; it never fails on an index.", "quantifier": "all cameras and image sizes", "why_tests_cant": "Unbounded border length with index arithmetic.", "anchors": ["cameratransform/camera.py:Camera.getCameraCone"]}
{"id": "C80", "title": "distanceToHorizon is the distance to the tangent point", "statement": "distanceToHorizon is the distance from the camera to the point where the line of sight touches the earth (docstring).", "quantifier": "all elevations >= 0", "why_tests_cant": "The domain is a continuum of cameras and points; a test samples finitely many of them.", "anchors": ["cameratransform/camera.py:Camera.distanceToHorizon"]}
{"id": "C81", "title": "getImageHorizon returns the image row closest to the horizon", "statement": "For every requested x the returned y is an integer row of the image for which the point at horizon distance has minimal |z|, nan only if all are nan.", "quantifier": "all cameras, image heights, x", "why_tests_cant": "Unbounded image height.", "anchors": ["cameratransform/camera.py:Camera.getImageHorizon"]}
{"id": "C82", "title": "Scene cubes, rectangles and grids have the documented geometry", "statement": "addCube(pos, w) draws exactly the 12 edges of the axis-parallel cube with centre pos and side w; addGrid draws one full line per x and y value; each add appends one object.", "quantifier": "all positions, widths, value lists", "why_tests_cant": "The domain is a continuum of cameras and points; a test samples finitely many of them.", "anchors": ["cameratransform/scene.py:Scene"]}
{"id": "C83", "title": "Projection and line functions do not modify their arguments", "statement": "imageFromCamera and getClosestPointFromLine leave the caller's arrays unchanged.", "quantifier": "all argument arrays", "why_tests_cant": "Only arrays with a tiny z coordinate / non-unit rays show it.", "anchors": ["cameratransform/projection.py:imageFromCamera", "cameratransform/ray.py:getClosestPointFromLine"]}
{"id": "C84", "title": "The Euler angles of a rotation are recovered", "statement": "rotationToEuler inside setCameraParametersByPointCorrespondence returns roll, tilt, heading (mod 360) of the rotation matrix that SpatialOrientation builds from them.", "quantifier": "all angles with 0 < tilt < 180", "why_tests_cant": "The domain is a continuum of cameras and points; a test samples finitely many of them.", "anchors": ["cameratransform/camera.py:CameraGroup.setCameraParametersByPointCorrespondence"]}
{"id": "C85", "title": "generateLUT assigns every pixel the ground area it covers", "statement": "Each entry of generateLUT is the area of the quadrilateral spanned on the plane Z=0 by the four corners of the pixel, and undef_value where a corner is not on the ground.", "quantifier": "all cameras, image sizes, pixels", "why_tests_cant": "Unbounded image size.", "anchors": ["cameratransform/camera.py:Camera.generateLUT"]}
{"id": "C86", "title": "The orientation angles mean what the documentation says", "statement": "A camera looks along (sin tilt sin heading, sin tilt cos heading, -cos tilt): straight down for tilt 0, to the horizon for tilt 90, towards +y for heading 0 and towards +x for heading 90. Without roll the right hand side of the image is horizontal, a quarter turn clockwise from the viewing direction; roll turns right and up around the viewing direction.", "quantifier": "all tilt, heading and roll angles, all directions of camera space", "why_tests_cant": "A test fixes a few angles; a sign error in one of three matrices can cancel for symmetric angles. The claim is about all angle combinations.", "anchors": ["cameratransform/spatial.py: SpatialOrientation._initCameraMatrix, SpatialOrientation.spaceFromCamera"]}
{"id": "C87", "title": "Lens correction works near the centre even if the radius polynomial turns back further out", "statement": "Correcting a distorted pixel is exact at every sampled radius up to which the distortion is still increasing, also if the radius function turns back further out.", "quantifier": "all coefficients, all sampled radii before the first decrease", "why_tests_cant": "Coefficients are continuous; the failure needs a coefficient set for which the sampled radii stop increasing, and then the correction is silently replaced by the identity.", "anchors": ["cameratransform/lens_distortion.py:invert_function", "cameratransform/lens_distortion.py:BrownLensDistortion._init_inverse", "cameratransform/lens_distortion.py:ABCDistortion._init_inverse"]}
{"id": "C88", "title": "After fit the parameters have the returned values", "statement": "fit(parameter) leaves every fitted parameter at the value in the returned result, whatever positions the optimiser tried on the way, and changes no other parameter; the start it hands to the optimiser has a finite log probability.", "quantifier": "all reachable cameras and groups, parameter lists, log-probability terms, optimisers (tried positions and results)", "why_tests_cant": "Quantifies over every optimiser run and every history of the camera.", "anchors": ["cameratransform/parameter_set.py:250-284", "cameratransform/parameter_set.py:136-149"]}
{"id": "C89", "title": "Every fit parameter that can be constructed can be fitted and sampled", "statement": "A FitParameter made with bounds, with mean and standard deviation, or with a distribution of one's own is accepted by fit and metropolis.", "quantifier": "all constructor arguments, cameras, terms", "why_tests_cant": "Universal over argument combinations and camera states.", "anchors": ["cameratransform/statistic.py:264-296", "cameratransform/parameter_set.py:254-257", "cameratransform/parameter_set.py:291-298"]}
{"id": "C90", "title": "Additional parameters can be sampled together with several fit parameters", "statement": "metropolis works when terms with additional parameters (e.g. an uncertain Z of object heights) were added, for any number of fit parameters.", "quantifier": "all numbers of fit parameters and additional parameters, all cameras and terms", "why_tests_cant": "Universal over list lengths and camera states; the tests sample without additional parameters.", "anchors": ["cameratransform/parameter_set.py:286-324", "cameratransform/statistic.py:76-110"]}
{"id": "C91", "title": "A loaded camera keeps its focal lengths", "statement": "After loading a camera from a file, sample() and set_to_mean() keep the focal lengths that were loaded, as long as these have no uncertainty.", "quantifier": "all saved cameras, all file names, all sessions the file is loaded in", "why_tests_cant": "Universal over the saved camera state and over the state of the loading session.", "anchors": ["cameratransform/camera.py:Camera.load", "cameratransform/projection.py:176-190", "cameratransform/parameter_set.py:181-213"]}
{"id": "C92", "title": "Saving and loading a single part copies exactly that part", "statement": "Saving a projection, an orientation or a lens and loading the file into another object of the same class copies the parameters of that object and changes no parameter of any other object.", "quantifier": "all reachable states of the saving and the loading session, all objects, all file contents before", "why_tests_cant": "Universal over two session histories, and the claim is about every parameter that must not change.", "anchors": ["cameratransform/projection.py:210-220", "cameratransform/spatial.py:205-215", "cameratransform/lens_distortion.py:64-74"]}
{"id": "C93", "title": "The baseline is the distance of the cameras", "statement": "CameraGroup.getBaseline returns the distance between the positions of the first two cameras.", "quantifier": "all pairs of cameras", "why_tests_cant": "The domain is a continuum of camera positions; a test samples finitely many of them.", "anchors": ["cameratransform/camera.py:CameraGroup.getBaseline"]}
{"id": "C94", "title": "Exact correspondences have the best correspondence term", "statement": "The term added by addPointCorrespondenceInformation is finite for exact correspondences and not smaller than the term of any other equally long list of pixel pairs.", "quantifier": "all pairs of rectilinear cameras, all lists of points seen by both, all uncertainties", "why_tests_cant": "Universal over a continuum of cameras and points and over list lengths.", "anchors": ["cameratransform/camera.py:CameraGroup.addPointCorrespondenceInformation", "cameratransform/camera.py:CameraGroup.getLogProbability"]}
{"id": "C95", "title": "Corresponding rays have distance zero", "statement": "discanteBetweenRays of the two images of a space point is 0.", "quantifier": "all pairs of cameras (any projections without distortion), all points seen by both", "why_tests_cant": "The domain is a continuum of cameras and points, and the failure is at very distant points.", "anchors": ["cameratransform/camera.py:CameraGroup.discanteBetweenRays", "cameratransform/ray.py:distanceOfTwoLines"]}
{"id": "C96", "title": "The cameras of a group are independent of each other", "statement": "A camera of a CameraGroup images every point as a separately built camera with the same projection, orientation and lens parameters does.", "quantifier": "all list lengths, all parameters, all points, all later assignments", "why_tests_cant": "Unbounded group sizes, continuum of parameters and points, and arbitrary histories after construction.", "anchors": ["cameratransform/camera.py:CameraGroup.__init__", "cameratransform/lens_distortion.py:setProjection"]}
{"id": "C97", "title": "The focallength_px argument of the constructor", "statement": "RectilinearProjection(focallength_px=f, ...) has focal length f along both sides; focallength_px=(fx, fy), as documented in the class docstring, has focal length fx along x and fy along y.", "quantifier": "all focal lengths and all other arguments", "why_tests_cant": "Continuum of values and all combinations of the other arguments.", "anchors": ["cameratransform/projection.py:CameraProjection.__init__"]}
{"id": "C98", "title": "The default extent of the top view is the ground seen in the image", "statement": "Without an extent getTopViewOfImage covers the ground area seen in the image (getImageBorder is documented to return space coordinates), with about as many pixels as the image.", "quantifier": "all cameras", "why_tests_cant": "The domain is a continuum of cameras and points; a test samples finitely many of them.", "anchors": ["cameratransform/camera.py:Camera._getMap", "cameratransform/camera.py:Camera.getImageBorder"]}
{"id": "C99", "title": "getImageHorizon lies at the true horizon", "statement": "The angle below the horizontal at which getImageHorizon looks for the horizon is the dip of the line of sight that touches the earth.", "quantifier": "all elevations", "why_tests_cant": "A continuum of elevations; the deviation is far below a pixel for common cameras.", "anchors": ["cameratransform/camera.py:Camera.getImageHorizon", "cameratransform/camera.py:Camera.distanceToHorizon"]}
{"id": "C100", "title": "Every pixel of a top view shows its ground point", "statement": "The pixel in row i and column j of getTopViewOfImage shows what the camera sees at x = x_min + j*scaling, y = y_min + (rows-1-i)*scaling on the plane at height Z; rows and columns are as many as fit in the extent.", "quantifier": "all cameras, extents, scalings, heights, pixels", "why_tests_cant": "Unbounded sizes and a continuum of cameras.", "anchors": ["cameratransform/camera.py:Camera.getTopViewOfImage", "cameratransform/camera.py:Camera._getMap"]}
{"id": "C101", "title": "Every pixel of an undistorted image shows its distorted position", "statement": "The pixel in row i and column j of undistortImage shows the given image at distortedFromImage(x_min + j*scaling, y_min + i*scaling).", "quantifier": "all lenses, extents, scalings, pixels", "why_tests_cant": "Unbounded sizes and a continuum of lenses.", "anchors": ["cameratransform/camera.py:Camera.undistortImage", "cameratransform/camera.py:Camera._getUndistortMap"]}
{"id": "C102", "title": "The sensor database lookup finds the listed camera", "statement": "_getSensorFromDatabase('Maker Model') returns the sensor size of the row of the database with this maker and model, None if there is no such row.", "quantifier": "all databases, makers and models", "why_tests_cant": "Unbounded databases and all names.", "anchors": ["cameratransform/camera.py:_getSensorFromDatabase"]}
{"id": "C103", "title": "The sensor size from exif data respects the unit of the resolution", "statement": "The sensor size computed from the focal plane resolution is the number of pixels divided by the resolution in the unit given by FocalPlaneResolutionUnit (inch or cm).", "quantifier": "all image sizes and resolutions", "why_tests_cant": "A continuum of resolutions.", "anchors": ["cameratransform/camera.py:getCameraParametersFromExif"]}
{"id": "C104", "title": "gpsFromString reads the notations its docstring lists", "statement": "gpsFromString reads `70\u00b0 37\u2019 4.980\" S 8\u00b0 9\u2019 26.280\" W`, the first notation of its docstring, as the two coordinates it denotes.", "quantifier": "all degrees, minutes and everything behind them", "why_tests_cant": "All texts in this notation; the docstring uses an apostrophe that is none of the accepted minute marks.", "anchors": ["cameratransform/gps.py:gpsFromString"]}
{"id": "C105", "title": "Height information prefers cameras that measure the known heights", "statement": "addObjectHeightInformation adds a term that no camera can make larger than some value, and that reaches this value exactly for the cameras with which getObjectHeight gives the known heights; the camera with which upright objects of these heights were recorded reaches it.", "quantifier": "all objects, heights, variations, cameras, lenses", "why_tests_cant": "The claim compares one camera with all other cameras.", "anchors": ["cameratransform/camera.py:Camera.addObjectHeightInformation", "cameratransform/camera.py:Camera.getObjectHeight"]}
{"id": "C106", "title": "The variation of heights and lengths may be an array", "statement": "The documented arguments of addObjectHeightInformation and addObjectLengthInformation (variation: number or array of N numbers, or a stochastic variable) give terms that can be evaluated.", "quantifier": "all cameras, objects, numbers, parameters and arrays", "why_tests_cant": "The error occurs only when the term is evaluated, and for every array.", "anchors": ["cameratransform/camera.py:Camera.addObjectHeightInformation", "cameratransform/camera.py:Camera.addObjectLengthInformation"]}
{"id": "C107", "title": "Length information prefers cameras that measure the known lengths", "statement": "addObjectLengthInformation adds a term that no camera can make larger than some value, and that reaches this value exactly for the cameras with which getObjectLength gives the known lengths; the camera with which flat objects of these lengths were recorded reaches it.", "quantifier": "all objects, lengths, heights Z, variations, cameras, lenses", "why_tests_cant": "The claim compares one camera with all other cameras.", "anchors": ["cameratransform/camera.py:Camera.addObjectLengthInformation", "cameratransform/camera.py:Camera.getObjectLength"]}
{"id": "C108", "title": "Landmark information prefers cameras that see the landmarks in their pixels", "statement": "addLandmarkInformation adds a term that is largest for the cameras for which every landmark lies on the ray of its pixel.", "quantifier": "all landmarks, uncertainties, cameras, lenses", "why_tests_cant": "The claim compares one camera with all other cameras; the term is a sum over 1000 sampled points per landmark.", "anchors": ["cameratransform/camera.py:Camera.addLandmarkInformation"]}
{"id": "C109", "title": "GPS landmarks count like the same landmarks in space", "statement": "addLandmarkInformationGPS adds the same term as addLandmarkInformation with the positions that spaceFromGPS gives for the landmarks.", "quantifier": "all numbers of landmarks, positions with heights, uncertainties, cameras", "why_tests_cant": "Only batches of exactly two landmarks go wrong, without an error.", "anchors": ["cameratransform/camera.py:Camera.addLandmarkInformationGPS", "cameratransform/camera.py:Camera.spaceFromGPS"]}
{"id": "C110", "title": "Horizon information prefers cameras that see the horizon in the given rows", "statement": "addHorizonInformation adds a term that no camera can make larger than some value, and that reaches this value exactly for the cameras for which getImageHorizon gives the observed rows; cameras below the ground are impossible.", "quantifier": "all observed points, uncertainties, cameras", "why_tests_cant": "The claim compares one camera with all other cameras.", "anchors": ["cameratransform/camera.py:Camera.addHorizonInformation", "cameratransform/camera.py:Camera.getImageHorizon"]}
{"id": "C111", "title": "The true camera has the highest log probability", "statement": "If objects of known height or length, landmarks and horizon points were recorded without error by a camera, no other camera has a higher getLogProbability for this information, and the cameras with the same value measure the same.", "quantifier": "all lists of information, all cameras", "why_tests_cant": "The claim compares one camera with all other cameras, for any combination of terms.", "anchors": ["cameratransform/camera.py:Camera.getLogProbability", "cameratransform/camera.py:Camera.addObjectHeightInformation", "cameratransform/camera.py:Camera.addObjectLengthInformation", "cameratransform/camera.py:Camera.addLandmarkInformation", "cameratransform/camera.py:Camera.addHorizonInformation"]}
{"id": "C112", "title": "imageFromGPS undoes gpsFromImage", "statement": "The GPS position that gpsFromImage gives for a pixel (with any plane X, Y or Z) is projected by imageFromGPS to the same pixel.", "quantifier": "all cameras, GPS origins, pixels, planes", "why_tests_cant": "The deviation is proportional to the elevation and invisible in tests with an elevation of zero.", "anchors": ["cameratransform/camera.py:Camera.gpsFromImage", "cameratransform/camera.py:Camera.imageFromGPS"]}
{"id": "C113", "title": "The second camera from point correspondences", "statement": "setCameraParametersByPointCorrespondence, given the exact pose from cv2, sets the orientation and position of the second camera relative to the first one (which is set to zero angles) so that the points project to the correspondences.", "quantifier": "all poses of the second camera, all baselines", "why_tests_cant": "There is no test of the function; a wrong sign of the heading only shows for turned cameras.", "anchors": ["cameratransform/camera.py:CameraGroup.setCameraParametersByPointCorrespondence"]}
{"id": "C114", "title": "The field of view is the angle the image covers", "statement": "getFieldOfView gives the angles between the rays (getRay) of the left and right edge, and of the upper and lower edge, of the image of a camera without distortion.", "quantifier": "all cameras without distortion, all projections, all image sizes, focal lengths and centres inside the image", "why_tests_cant": "The existing tests only compare the field of view with the one the projection was constructed from, with the centre in the middle of the image.", "anchors": ["cameratransform/projection.py:CameraProjection.getFieldOfView", "cameratransform/camera.py:Camera.getRay"]}
{"id": "C115", "title": "spaceFromImage converts arrays of image points one by one", "statement": "For every array of image points and every constraint that spaceFromImage accepts, each point of the result is the point that spaceFromImage gives for this image point and its constraint alone.", "quantifier": "all cameras and lenses, arrays of any shape (...x2), coordinates and distances given as numbers, lists or arrays", "why_tests_cant": "The tests only use single points and Nx2 arrays; arrays with more axes pass the format check, and a wrong broadcast gives plausible numbers.", "anchors": ["cameratransform/camera.py:Camera.spaceFromImage"]}
{"id": "C116", "title": "The conversions to and from GPS treat stacks of points one by one", "statement": "gpsFromSpace and spaceFromGPS give, for every array of points with any number of leading axes, at every index the position of the point at this index.", "quantifier": "all arrays, reference points and heights", "why_tests_cant": "Exchanged axes only show for arrays with two or more leading axes, exchanged heights only for square ones.", "anchors": ["cameratransform/gps.py:gpsFromSpace", "cameratransform/gps.py:spaceFromGPS", "cameratransform/gps.py:moveDistance"]}
{"id": "C117", "title": "fridge draws samples from the probability of the fitted parameters", "statement": "The samples drawn by fridge depend on the log probability at the positions that the sampler tries; every row of the trace carries the log probability at its values; afterwards the camera has the values of a most probable row.", "quantifier": "all cameras and groups, fit parameters, additional parameters, terms and sampling algorithms (any program that sets the variables and reads the log probability)", "why_tests_cant": "The samples look random in any case; that they ignore the data can only be seen by comparing distributions, and the sampler is an optional dependency that the tests do not install.", "anchors": ["cameratransform/parameter_set.py:ClassWithParameterSet.fridge", "cameratransform/statistic.py:Model"]}
{"id": "C118", "title": "After sampling, the log probability of the camera is the one in the trace", "statement": "After metropolis or fridge, getLogProbability gives the probability of the best row of the trace; after sample() it gives the number that sample() has returned.", "quantifier": "all cameras, terms, fit parameters, random numbers and sequences of calls of sample()", "why_tests_cant": "The values left behind depend on the last proposal of a random walk; a stale additional parameter shows only if the last proposal was rejected.", "anchors": ["cameratransform/parameter_set.py:ClassWithParameterSet.metropolis", "cameratransform/parameter_set.py:ClassWithParameterSet.sample", "cameratransform/parameter_set.py:ClassWithParameterSet.fridge"]}
{"id": "C119", "title": "The accept/reject rule of metropolis leaves the probability invariant", "statement": "A proposal is accepted with the probability min(1, p(new)/p(old)); the move from one set of values to another is as frequent as the opposite move if the values are distributed with the probability that is sampled (detailed balance).", "quantifier": "all fit parameters with or without bounds, all densities, all pairs of values, all steps", "why_tests_cant": "A wrong stationary distribution shows only as a statistical deviation of long chains, and only close to a bound.", "anchors": ["cameratransform/statistic.py:metropolis"]}
{"id": "C120", "title": "The summary of a trace gives mean and standard deviation with the digits that matter", "statement": "For each parameter the summary gives the mean, rounded at the leading digit of the standard deviation, and the standard deviation with one more digit.", "quantifier": "all traces and choices of logarithmic columns, all real means and standard deviations", "why_tests_cant": "The number of digits depends on the magnitude of the standard deviation, which takes all values; a trace with a constant column is rare in tests.", "anchors": ["cameratransform/statistic.py:print_mean_std", "cameratransform/statistic.py:printTraceSummary"]}
{"id": "C121", "title": "Rays and planes: use_planes, rays in the plane of a triangle, several rays", "statement": "With use_planes=True ray_intersect_triangle returns the nearest point at which the ray meets the plane of one of the triangles; a ray that lies in the plane of a triangle is reported to hit it where it first meets it; of several rays every one gets its own nearest point.", "quantifier": "all rays, all meshes of any size made of non-degenerate triangles, any number of rays with one or several origins", "why_tests_cant": "Rays that lie exactly in a plane do not occur in random samples; the number of rays and triangles is unbounded.", "anchors": ["cameratransform/ray.py:ray_intersect_triangle"]}
{"id": "C122", "title": "Epipolar lines are drawn from border to border", "statement": "drawLine in plotEpilines draws the part of the line a x + b y + c = 0 that lies in the image; plotEpilines works for all lines.", "quantifier": "all lines, all image sizes, any number of lines", "why_tests_cant": "Lines through a corner have measure zero, and the drawing has no test because it opens a window.", "anchors": ["cameratransform/camera.py:CameraGroup.plotEpilines"]}
{"id": "C123", "title": "The step size of the sampler follows the acceptance rate", "statement": "During the burn-in phase, every hundredth iteration of metropolis from the 200th on multiplies the scale of the proposals by the factor that belongs to the share of accepted proposals among exactly the iterations since the last tuning: shares below 0.2 shrink it, shares above 0.5 enlarge it, others keep it. No other iteration changes it.", "quantifier": "all probability functions, all random numbers, all numbers of iterations, all burn-in lengths", "why_tests_cant": "Whether an iteration is counted twice or in the wrong window changes only the speed of the sampling, never a value that a test could compare.", "anchors": ["cameratransform/statistic.py:metropolis"]}
{"id": "C124", "title": "A camera is described by its public attributes", "statement": "The numbers readable from a camera are those of its projection, its orientation, its lens and the two GPS coordinates, under their documented names; the camera used by all conversions is the one with the numbers that are read.", "quantifier": "all histories of a program, all projections, orientations and lenses, all attribute names", "why_tests_cant": "Tests read single attributes of a fresh camera; they do not show that no history leaves the conversions using other numbers than the readable ones.", "anchors": ["cameratransform/camera.py:Camera.__init__", "cameratransform/parameter_set.py:ClassWithParameterSet.__getattr__"]}
{"id": "C125", "title": "Epipolar errors and drawings belong to arbitrary pixels", "statement": "For any pixels of two undistorted rectilinear cameras, matching or not, pointCorrespondenceError gives the distance of each pixel from the epipolar line of the other one, and plotMyEpiploarLines draws points of this line, the point of it closest to the pixel and their distance.", "quantifier": "all pairs of rectilinear cameras without distortion, all pixels in general position, any number of correspondences", "why_tests_cant": "Tests use matching pixels, where every error is zero whatever the line is; that a number is the distance from all points of a line for all pairs of cameras is not testable by samples.", "anchors": ["cameratransform/camera.py:CameraGroup.pointCorrespondenceError", "cameratransform/camera.py:CameraGroup.plotMyEpiploarLines"]}
{"id": "C126", "title": "The rows of a trace sampled with a prior trace have the probability of their values", "statement": "metropolis(getLogProb, start, prior_trace=trace) returns rows that consist of a sampled position, the values of a row of the prior trace, and the log probability of exactly these values; any table with at least one row can be used, also one from which rows were dropped.", "quantifier": "all log-probability functions, arguments, prior traces and random numbers", "why_tests_cant": "The probability is that of another row whenever a proposal was rejected, which depends on the random numbers.", "anchors": ["cameratransform/statistic.py:metropolis"]}
{"id": "C127", "title": "Additional parameters are fitted together with the object or group they belong to", "statement": "The additional parameters of the terms of a camera (e.g. a variation of the reference height) are sampled with the fit parameters when the camera, or a group with this camera, is sampled or fitted: the trace has a column for each of them and the probability of a row is the one with the values of the row.", "quantifier": "all reachable objects, lists of terms and of fit parameters, random numbers", "why_tests_cant": "Quantifies over all histories of the sampler; nothing fails if a parameter silently stays constant.", "anchors": ["cameratransform/parameter_set.py:ClassWithParameterSet.metropolis", "cameratransform/parameter_set.py:ClassWithParameterSet.fit", "cameratransform/camera.py:CameraGroup.getLogProbability"]}
{"id": "C128", "title": "The printed description of a camera shows its current attributes", "statement": "For every camera in every reachable state, str(camera) succeeds and consists of the sections lens, projection, position and orientation with the class names of the lens and the projection; the lines for the focal length, sensor size, image size, position, angles and lens coefficients show the current values of the camera's attributes, rounded to the shown decimals (the image size is cut off to integers), and there are no further lines except the numbers a distorting lens takes from its projection.", "quantifier": "All sequences of constructor calls, assignments, loads and fits; all three projections, both orientation classes and all three lenses; all parameter values.", "why_tests_cant": "A test compares the text of a few cameras; that every number belongs to the right label and is up to date after arbitrary assignments concerns all states and all real values.", "anchors": ["cameratransform/camera.py:461-467", "cameratransform/projection.py:199-208", "cameratransform/spatial.py:99-105", "cameratransform/spatial.py:248-254", "cameratransform/lens_distortion.py:54-59"]}
{"id": "C129", "title": "plotFitInformation shows the given information and where the camera expects it", "statement": "plotFitInformation draws, for every piece of information that is currently used (or was given only for plotting), the observed pixels and circles at the pixels that the camera expects: the image of the head of an object of the given height on its feet, of the back of a flat object of the given length in its direction, of a landmark (in space or gps coordinates), the row of the horizon. If the information is exactly what the camera sees, every circle is at its observed pixel. The axes are limited to the image. Cleared information is not drawn.", "quantifier": "All cameras (all projections and lenses) and all lists of heights, lengths, landmarks and horizon points of any size; all sequences of add... and clearLogProbability calls.", "why_tests_cant": "A test looks at one plot or only checks that plotting does not fail; the positions of the circles for all cameras, all numbers of objects and all orders of calls cannot be enumerated.", "anchors": ["cameratransform/parameter_set.py:375-382", "cameratransform/parameter_set.py:228-234", "cameratransform/camera.py:560-580", "cameratransform/camera.py:630-654", "cameratransform/camera.py:701-715", "cameratransform/camera.py:762-779", "cameratransform/camera.py:811-834"]}
{"id": "C130", "title": "A rendered scene shows the lines of its objects where the camera sees them", "statement": "Scene.renderImage and the image view of Scene.plotSceneViews draw exactly the pixels of all points on the lines of the objects, nothing between the separate lines of an object, in a figure and axes of the size of the image; the other views show the orthogonal projections of the lines and of the cone of the camera. Without a camera, plotSceneViews shows the objects only.", "quantifier": "All scenes with any objects, all cameras (projections, orientations, image sizes), all points on all lines.", "why_tests_cant": "A test can compare some rendered pixels; that straight lines between the projected corners are the images of all points of the edges is a statement about all points and all cameras.", "anchors": ["cameratransform/scene.py:36-82", "cameratransform/scene.py:84-98", "cameratransform/camera.py:1005-1005", "cameratransform/projection.py:392-408"]}
{"id": "C131", "title": "Zooming and dragging in the image view keep the image under the cursor", "statement": "In the image view of the calibration tool, turning the wheel up or down enlarges or reduces the picture about the pixel under the cursor, so that the image point there stays in place; a wheel event without vertical turn changes nothing; dragging with the right button moves every point by the way of the cursor, and cursor moves without the button change nothing.", "quantifier": "All states of the view (any scale, translation, rotation), all cursor positions and all sequences of moves.", "why_tests_cant": "Tests drive a few mouse events on one window; the statement covers every state reachable by earlier zooms, drags and rotations and every sequence of moves.", "anchors": ["cameratransform/gui_tools/calibrate/QExtendedGraphicsView.py:266-275", "cameratransform/gui_tools/calibrate/QExtendedGraphicsView.py:301-324", "cameratransform/gui_tools/calibrate/QExtendedGraphicsView.py:326-341"]}
{"id": "C132", "title": "A picture that counts as fitted shows the whole image as large as possible", "statement": "As long as the user has not zoomed or dragged since the last fit, the image view shows the whole image, centred in the window and as large as possible, after any sequence of new images, new window sizes, rotations and repaints.", "quantifier": "All histories of events, all positive sizes of windows and images, all rotations.", "why_tests_cant": "The flag is kept by seven event handlers; a test follows a few sequences, the invariant holds for every sequence.", "anchors": ["cameratransform/gui_tools/calibrate/QExtendedGraphicsView.py:130-138", "cameratransform/gui_tools/calibrate/QExtendedGraphicsView.py:163-206"]}
{"id": "C133", "title": "Positions computed by the image view are those of the picture", "statement": "centerOn(x, y) shows the image point (x, y) in the centre of the window; mapToOrigin gives the image point shown at a pixel and mapFromOrigin is its inverse; fitSmallDimensionInView covers the whole view with the image.", "quantifier": "All states of the view with an image, all points and pixels, all rotations.", "why_tests_cant": "The results depend on scale, translation, rotation and both sizes; the agreement with the picture for all of them is algebra over all states.", "anchors": ["cameratransform/gui_tools/calibrate/QExtendedGraphicsView.py:140-161", "cameratransform/gui_tools/calibrate/QExtendedGraphicsView.py:208-259", "cameratransform/gui_tools/calibrate/QExtendedGraphicsView.py:280-299"]}
{"id": "C134", "title": "A calibration makes the camera project like the model that OpenCV fitted", "statement": "After a calibration was fitted (or loaded from a saved calibration), the camera of the calibration tool projects every point in front of it to the pixel that OpenCV's projection (x/z, y/z, radial factor 1 + k1 r^2 + k2 r^4 + k3 r^6, then f x + c) gives with the fitted camera matrix and distortion coefficients.", "quantifier": "All states reachable without shared lenses or projections, all results of OpenCV with nonzero focal lengths, all points in front of the camera, all orders of the callbacks.", "why_tests_cant": "The agreement of two different formulas (scaled and divided radius against a factor of the squared radius) after parameters travelled through a name dictionary, for all coefficients and points; tests compare a few pixels within a tolerance.", "anchors": ["cameratransform/gui_tools/calibrate/gui_calibrate.py:328-359", "cameratransform/gui_tools/calibrate/gui_calibrate.py:380-395", "cameratransform/lens_distortion.py:141-173", "cameratransform/projection.py:392-408", "cameratransform/parameter_set.py:233-247"]}
{"id": "C135", "title": "The Process button processes every image once, in order, one at a time, and ends", "statement": "After a click on Process the images of the list are processed in the order of the list, each exactly once and one at a time; the processing ends, and then every image shows its result (not found, or found with its corners and marked for use).", "quantifier": "All reachable states of the window, all interleavings of the main thread, the worker threads and the queued calls, all lists of images and results.", "why_tests_cant": "The order of threads and queued signals differs from run to run and connections accumulate over clicks; only an invariant over all interleavings covers them.", "anchors": ["cameratransform/gui_tools/calibrate/gui_calibrate.py:63-142", "cameratransform/gui_tools/calibrate/gui_calibrate.py:397-413"]}
{"id": "C136", "title": "The table shows the images and the fit uses the marked images", "statement": "An image that is marked for use has corners; the fit gets the corners of exactly the marked images in the order of the list; when nothing runs, the rows of the table are the names, states and marks of the images of the list.", "quantifier": "All histories of the window (adding, clearing, processing, double clicks) and all interleavings with the worker threads.", "why_tests_cant": "The table is updated by queued signals from worker threads that carry row numbers; a stale one appears only in rare interleavings.", "anchors": ["cameratransform/gui_tools/calibrate/gui_calibrate.py:87-113", "cameratransform/gui_tools/calibrate/gui_calibrate.py:125-142", "cameratransform/gui_tools/calibrate/gui_calibrate.py:295-310", "cameratransform/gui_tools/calibrate/gui_calibrate.py:415-438", "cameratransform/gui_tools/calibrate/gui_calibrate.py:454-462"]}
{"id": "C137", "title": "Corrected pictures belong to the current calibration", "statement": "The corrected picture that the calibration tool keeps of an image of the list was computed with the current calibration (and is the uncorrected picture as long as there is none); after an image was selected and loaded, its corrected picture is there.", "quantifier": "All histories of adding, clearing, selecting and calibrating and all interleavings with the threads that load images.", "why_tests_cant": "Loader threads share the pictures and the undistortion map of the camera with the main thread; a stale picture needs a particular interleaving.", "anchors": ["cameratransform/gui_tools/calibrate/gui_calibrate.py:144-168", "cameratransform/gui_tools/calibrate/gui_calibrate.py:343-378", "cameratransform/gui_tools/calibrate/gui_calibrate.py:464-490", "cameratransform/camera.py:1289-1312"]}
{"id": "C138", "title": "Stored corners are those of the image", "statement": "processImage gives for every image the corners found in this image (or None), also when they were stored before in the output directory.", "quantifier": "All sequences of calls, file names, image contents and sizes.", "why_tests_cant": "The corners are stored under the name without folder and ending; whether a stored result belongs to the image depends on the whole history of calls.", "anchors": ["cameratransform/gui_tools/calibrate/calibrate.py:43-101"]}
{"id": "C139", "title": "A batch is the chosen file and those that differ only in their numbers", "statement": "Choosing an image file adds exactly the files of its directory whose names differ from it only in their numbers (it itself included).", "quantifier": "All file names and directories.", "why_tests_cant": "The names are matched by a pattern built from the chosen name; that it matches the right names is a statement about all strings.", "anchors": ["cameratransform/gui_tools/calibrate/gui_calibrate.py:421-431"]}
{"id": "C140", "title": "The slider demonstration shows the camera of its sliders", "statement": "In the demonstration with sliders, the scene is always drawn with the camera that the visible sliders describe; changing between the two conventions of the angles changes neither the picture nor, after changing back, the sliders; clicking the radio button of the convention that is already chosen changes nothing; Reset brings back the camera of the beginning.", "quantifier": "all histories of moving sliders, clicking radio buttons and Reset, all values, both conventions", "why_tests_cant": "The window has twelve continuous sliders and two cameras that share some of them; the order of intermediate updates of the wrong camera matters, and a click test samples single histories.", "anchors": ["cameratransform/gui_tools/demonstrator/demo_matplotlib.py:22-41", "cameratransform/gui_tools/demonstrator/demo_matplotlib.py:82-117", "cameratransform/gui_tools/demonstrator/demo_matplotlib.py:136-141"]}
{"id": "C141", "title": "An input widget tells its listeners what the user entered", "statement": "An input of the demonstrator sends valueChanged whenever the user has changed it, with the value it then has, never twice in a row with the same value and never because the program set it; a number input stores a value of its range with its number of decimals, the nearest one to what was set, and its slider stands at that value.", "quantifier": "all histories of actions of the user and of calls of setValue, all values, all ranges with whole bounds and all numbers of decimals", "why_tests_cant": "Whether a signal is lost depends on the history of values sent before; a test needs to hit the one order of actions.", "anchors": ["cameratransform/gui_tools/demonstrator/QtShortCuts.py:116-132", "cameratransform/gui_tools/demonstrator/QtShortCuts.py:143-209"]}
{"id": "C142", "title": "The Qt demonstration shows the camera of its inputs", "statement": "In the Qt demonstration the scene is always drawn with the camera of the inputs: with a locked aspect ratio both focal lengths are equal, with a centred image the optical centre is the middle of the image, and the inputs that follow from others are disabled and show the values in use.", "quantifier": "all histories of typing, dragging, clicking the check boxes and choosing a projection", "why_tests_cant": "The inputs set each other while their signals are suppressed; a missed signal shows only after a particular order of locking, unlocking and entering.", "anchors": ["cameratransform/gui_tools/demonstrator/demo_qt.py:67-107", "cameratransform/gui_tools/demonstrator/demo_qt.py:109-134"]}
{"id": "C143", "title": "Saving, loading and adding do what the button says", "statement": "In the calibration tool, Save Calibration writes the current calibration to the chosen file, Load Calibration makes the calibration of the chosen file the current one, and Add Images adds the images of the chosen batch, each time a file is chosen; a calibration that was saved and is loaded again is the same.", "quantifier": "all histories of fitting, saving, loading, adding and clearing, with files changed by other programs, all file names and calibrations", "why_tests_cant": "Whether a click has an effect depends on the name that was chosen the last time with the same button; a test of a single save or load does not show it.", "anchors": ["cameratransform/gui_tools/calibrate/gui_calibrate.py:209-218", "cameratransform/gui_tools/calibrate/gui_calibrate.py:280-298", "cameratransform/gui_tools/calibrate/gui_calibrate.py:380-395", "cameratransform/gui_tools/demonstrator/QtShortCuts.py:358-387"]}
{"id": "C144", "title": "The views of the calibration tool show the selected image", "statement": "When nothing is being loaded, the upper view shows the selected image and the lower view shows it too, corrected with the current calibration if the box Display Corrected is ticked and there is one, as it is otherwise; the display never raises.", "quantifier": "all histories of selecting, calibrating, adding, clearing, clicking the box and pressing D, and all interleavings with the threads that load images and with their queued signals", "why_tests_cant": "The picture is shown by queued signals of loader threads that may belong to another image than the selected one; a wrong picture needs a particular interleaving or a particular order of clicks and keys.", "anchors": ["cameratransform/gui_tools/calibrate/gui_calibrate.py:165-168", "cameratransform/gui_tools/calibrate/gui_calibrate.py:242-243", "cameratransform/gui_tools/calibrate/gui_calibrate.py:421-452", "cameratransform/gui_tools/calibrate/gui_calibrate.py:464-522"]}
{"id": "C145", "title": "A fit parameter without a start value can be sampled", "statement": "FitParameter's value argument is optional. Fit parameters without a value, sampled with metropolis, start at a position drawn from their distributions (or at the defaults of the parameters), and the sampling returns a trace.", "quantifier": "For all log probability functions, all numbers of parameters, which of them have values, all draws, all ranges, steps, iterations >= 1 and states.", "why_tests_cant": "The outcome depends on whether the position with the defaults is possible under all priors and terms, which differs between applications; tests use parameters with values.", "anchors": ["cameratransform/statistic.py:271-284", "cameratransform/parameter_set.py:286-316", "cameratransform/statistic.py:95-159"]}
{"id": "C146", "title": "Plotting a trace shows every parameter in its own axes", "statement": "plotTrace draws for every parameter of the trace, in axes of its own, the density of the sampled values with lines at the most probable value and at the mean, and the sampled values; traces plotted later into the same figure are added to the axes of their parameters.", "quantifier": "For all sequences of traces of any length with any parameter names, all values and probabilities, all choices of N, skip, show_mean_median and just_distributions.", "why_tests_cant": "The axes are found through a dictionary that lives in the figure and depends on all earlier calls; tests plot one trace into a fresh figure.", "anchors": ["cameratransform/statistic.py:162-243", "cameratransform/parameter_set.py:369-373"]}
{"id": "C147", "title": "A rectilinear camera shows straight lines as straight lines", "statement": "For a camera with a rectilinear projection and no lens distortion the images of points on a straight line in space are on a straight line; everything between two visible points is visible and is shown between their images; and lines of the same direction run towards the same pixel, the one whose ray has that direction.", "quantifier": "For all intrinsic parameters, all positions and orientations (both classes), all points, all lines, with and without hidden points behind the camera.", "why_tests_cant": "The three points and the six orientation parameters form a continuum; the vanishing point is a statement about a limit.", "anchors": ["cameratransform/camera.py:966-1005", "cameratransform/projection.py:392-408", "cameratransform/spatial.py:140-164"]}
{"id": "C148", "title": "In the picture of an upright camera, further away on the ground is further up", "statement": "For a rectilinear camera without roll and lens distortion: of two points of a horizontal plane below the camera the one further ahead is shown further up, points equally far ahead are shown in the same row, ordered from left to right; and the row center_y - f_y/tan(tilt) separates the points lower than the camera from the higher ones.", "quantifier": "For all headings (including headings that wrap), tilts (for the row of the horizon: between 0 and 180 degrees), positions, positive focal lengths and all pairs of visible points.", "why_tests_cant": "An ordering of all pairs of points of a plane for all cameras cannot be enumerated.", "anchors": ["cameratransform/camera.py:966-1005", "cameratransform/projection.py:392-408", "cameratransform/spatial.py:99-130"]}
{"id": "C149", "title": "Moving the camera together with the world changes nothing", "statement": "If pos_x_m, pos_y_m and elevation_m are increased by a vector, the image of every point moved by the same vector is the image of the point before, the rays have the same directions, and spaceFromImage (with the plane moved along, or with a distance) returns the moved point.", "quantifier": "For all projections, lenses and orientations, all vectors, all points and pixels, all planes and distances.", "why_tests_cant": "The invariance is about all pairs of cameras; tests use cameras near the origin.", "anchors": ["cameratransform/camera.py:966-1005", "cameratransform/camera.py:1007-1056", "cameratransform/camera.py:1058-1157", "cameratransform/spatial.py:99-164"]}
{"id": "C150", "title": "Rounding errors do not move a pixel that is projected along its ray", "statement": "With floating point arithmetic, the ray of a pixel of a rectilinear projection, followed to any distance in front of the camera and projected again, leads back to the pixel: the deviation is at most 10 times the relative error of one operation times the distance of the pixel to the principal point, plus the error of one addition.", "quantifier": "all rectilinear projections with nonzero focal lengths, pixels, distances, normed or not, and all roundings with a relative error of at most 1/100", "why_tests_cant": "Round trip tests compare a few pixels with a tolerance; the bound holds for every sequence of rounding errors.", "anchors": ["cameratransform/projection.py:RectilinearProjection.getRay", "cameratransform/projection.py:RectilinearProjection.imageFromCamera"]}
{"id": "C151", "title": "imageFromSpace is accurate up to rounding errors", "statement": "With floating point arithmetic, the rotation matrix and the image of a point in front of a rectilinear camera deviate from the exact ones by a multiple of the relative error of one operation; the multiple depends on the distance of the point in relation to its depth, the focal length and the distance to the principal point. Points behind the camera stay hidden. For usual images the error is below a millionth of a pixel.", "quantifier": "all rectilinear cameras of both kinds of orientation with angles of at most one turn, points whose depth is not tiny, all roundings", "why_tests_cant": "The bound holds for every sequence of rounding errors; tests see the roundings of one machine.", "anchors": ["cameratransform/camera.py:Camera.imageFromSpace", "cameratransform/spatial.py:SpatialOrientation._initCameraMatrix", "cameratransform/spatial.py:SpatialOrientationYawPitchRoll._initCameraMatrix", "cameratransform/spatial.py:SpatialOrientation.cameraFromSpace"]}
{"id": "C152", "title": "spaceFromImage is accurate up to rounding errors", "statement": "With floating point arithmetic, the point seen at a pixel on the plane where one coordinate is given deviates from the exact point by a multiple of the relative error of one operation and of the inverse rotation matrix; the multiple depends on how flat the ray meets the plane and on the distance of the point.", "quantifier": "all rectilinear cameras, pixels, coordinates and planes in front of the camera that the ray does not meet too flat, all roundings", "why_tests_cant": "The bound holds for every sequence of rounding errors; tests see the roundings of one machine.", "anchors": ["cameratransform/camera.py:Camera.spaceFromImage", "cameratransform/camera.py:Camera.getRay"]}
{"id": "C153", "title": "What a fit found survives sampling and the mean", "statement": "After a fit has stored a value in a parameter, sample() and set_to_mean() of a camera without a trace do not return to values from before the fit.", "quantifier": "all histories of operations of the program, views of the parameters, and fitted values", "why_tests_cant": "Tests sample cameras that were never fitted; the stale mean only matters for a history of three operations.", "anchors": ["cameratransform/parameter_set.py:ParameterSet.set_fit_parameters", "cameratransform/parameter_set.py:Parameter.set_to_mean", "cameratransform/parameter_set.py:Parameter.sample"]}
{"id": "C154", "title": "From the image to space and back with rounding errors", "statement": "With floating point arithmetic, the point in space seen at a pixel, on the plane where one coordinate is given or at a given distance, is projected back to that pixel; the deviation is bounded by a multiple of the relative error of one operation and of the matrices, times the size of the ray, the focal length and the distance of the pixel to the principal point. For cameras with usual numbers it is below a thousandth of a pixel.", "quantifier": "all rectilinear cameras of both kinds of orientation, pixels, planes and distances in front of the camera, all roundings", "why_tests_cant": "Round trip tests compare a few pixels with a tolerance; the bound holds for every sequence of rounding errors.", "anchors": ["cameratransform/camera.py:Camera.spaceFromImage", "cameratransform/camera.py:Camera.imageFromSpace"]}
{"id": "C155", "title": "A loaded camera reads what was saved, whatever was assigned before", "statement": "After load, every parameter name of a camera reads the saved number, later assignments to it are read back, and a later save writes what the camera uses; names that were used for other numbers before do not matter.", "quantifier": "all histories of operations of the program, ordinary attributes of cameras, files written by save, names", "why_tests_cant": "A test loads into a new camera; the stale attribute only appears when a name was assigned while it was not a parameter.", "anchors": ["cameratransform/parameter_set.py:ClassWithParameterSet.__getattr__", "cameratransform/parameter_set.py:ClassWithParameterSet.__setattr__", "cameratransform/camera.py:Camera.load"]}
{"id": "C156", "title": "Rays of panoramas lead back to their pixels with rounding errors", "statement": "With floating point arithmetic, the ray of a pixel of a cylindrical or equirectangular image, followed to any distance and projected again, returns to the pixel; the deviation is at most 16 times the relative error of one operation, times the distance of the pixel to the principal point, plus the rounding of the result. This includes rays that point backwards.", "quantifier": "all cylindrical and equirectangular cameras, pixels within the full circle and between the poles, distances, all roundings", "why_tests_cant": "Round trip tests compare a few pixels with a tolerance; the bound holds for every sequence of rounding errors and every pixel up to the cut of the panorama.", "anchors": ["cameratransform/projection.py:CylindricalProjection.getRay", "cameratransform/projection.py:CylindricalProjection.imageFromCamera", "cameratransform/projection.py:EquirectangularProjection.getRay", "cameratransform/projection.py:EquirectangularProjection.imageFromCamera"]}
{"id": "C157", "title": "imageFromSpace of panoramas is accurate up to rounding errors", "statement": "With floating point arithmetic, the image of a point in a panorama deviates from the exact one by a multiple of the relative error of one operation and of the rotation matrix; the multiple depends on the size of the point in relation to its horizontal distance, the focal length and the distance to the principal point. Points behind the camera must be away from the cut of the panorama by more than the error. For usual images the error is below two millionths of a pixel.", "quantifier": "all cylindrical and equirectangular cameras of both kinds of orientation, points whose depth is not tiny, all roundings", "why_tests_cant": "The bound holds for every sequence of rounding errors; tests see the roundings of one machine.", "anchors": ["cameratransform/camera.py:Camera.imageFromSpace", "cameratransform/projection.py:CylindricalProjection.imageFromCamera", "cameratransform/projection.py:EquirectangularProjection.imageFromCamera"]}
{"id": "C158", "title": "Turning, zooming and shifting the camera turns, scales and shifts the picture", "statement": "(1) Increasing the roll of a rectilinear camera with equal focal lengths by a degrees turns the picture of every point by a degrees about the principal point; with tilt/heading/roll and with yaw/pitch/roll, without lens distortion, with the Brown model and with the ABC model. (2) Multiplying the focal lengths scales the picture about the principal point, for all projections and lens models whose polynomial is in units of the focal length. (3) Resizing the picture (focal lengths, principal point, width and height by the same factor) scales the picture. (4) Moving the principal point shifts the picture. (5) Increasing the heading of a level panorama by a degrees shifts the picture by the pixels that belong to a degrees, up to whole turns. Points without picture stay without picture.", "quantifier": "all cameras, lens parameters, points, angles and factors within the stated classes", "why_tests_cant": "each statement is a relation between two cameras over all points; tests can only sample single cameras and points", "anchors": ["cameratransform/spatial.py:SpatialOrientation._initCameraMatrix", "cameratransform/projection.py:RectilinearProjection.imageFromCamera", "cameratransform/projection.py:CylindricalProjection.imageFromCamera", "cameratransform/lens_distortion.py:BrownLensDistortion", "cameratransform/camera.py:Camera.imageFromSpace"]}
{"id": "C159", "title": "Parallax", "statement": "A rectilinear camera without lens distortion that moves by (bx, by, bz) in its own coordinates without turning: with C the camera coordinates of a point before the movement and p, q its pixels before and after, (C.z - bz)(q.x - cx) = C.z (p.x - cx) + fx bx and (C.z - bz)(q.y - cy) = C.z (p.y - cy) - fy by. For a movement sideways the disparity p.x - q.x is fx bx / depth, so the depth is fx bx / disparity, and nearer points have the larger disparity. A movement straight ahead expands the picture from the principal point.", "quantifier": "all cameras, orientations of both classes, movements and points", "why_tests_cant": "quantifies over pairs of cameras and all points", "anchors": ["cameratransform/camera.py:Camera.imageFromSpace", "cameratransform/spatial.py:SpatialOrientation.cameraFromSpace", "cameratransform/spatial.py:SpatialOrientation.spaceFromCamera"]}
{"id": "C160", "title": "Continuity of imageFromSpace and spaceFromImage", "statement": "(1) If the intrinsic parameters, the six parameters of the orientation, the lens parameters and a point depend continuously on anything, the pixel of the point depends continuously on it wherever the point lies away from the camera plane and in front of a rectilinear camera, or away from the cut of a panorama (and, with lens distortion, the undistorted pixel is not the centre); in particular it stays finite nearby. (2) The same for the point that a camera without lens distortion sees at a pixel on a coordinate plane, wherever the ray of the pixel meets the plane ahead of the camera.", "quantifier": "all topological spaces of parameters, all continuous families of cameras, points, pixels and planes", "why_tests_cant": "continuity is a statement about limits, which samples cannot decide", "anchors": ["cameratransform/camera.py:Camera.imageFromSpace", "cameratransform/camera.py:Camera.spaceFromImage", "cameratransform/spatial.py:SpatialOrientation._initCameraMatrix", "cameratransform/projection.py:EquirectangularProjection.imageFromCamera"]}
{"id": "C161", "title": "Results do not depend on the order of callbacks", "statement": "`set_fit_parameters`, `sample` and `set_to_mean` collect the callbacks of the changed parameters in a Python set and call them in the order in which the set happens to be iterated. Two runs of the same program with different orders agree in every parameter value, state, default and uncertainty, in the names a fit varies and in all orientation matrices, and every camera projects and casts rays identically.", "quantifier": "all programs (sequences of constructions and parameter operations) and all pairs of orders of the callbacks at each call", "why_tests_cant": "the iteration order of a set of bound methods depends on addresses in memory; a test sees one of them and passes or fails depending on the run", "anchors": ["cameratransform/parameter_set.py:136-149", "cameratransform/parameter_set.py:188-195", "cameratransform/parameter_set.py:206-213", "cameratransform/projection.py:181-187", "cameratransform/lens_distortion.py:141-146"]}
{"id": "C162", "title": "The parameter system is a table with two rules", "statement": "Constructing objects, assigning values, values with uncertainties and defaults, fitting, sampling and resetting to the means act on the parameters of all orientations, projections, lenses, cameras and groups like writes to a table of cells (value, default, mean, spread, who set it last) followed by two rules: a heading or pitch that reads more than a turn is reduced and then counts as set by the user without uncertainty, and where `focallength_px` was written the two focal lengths get its value. Reading an attribute and the list of parameters to fit only depend on the table.", "quantifier": "all sequences of constructions and parameter operations, all parameters, values, names and orders of callbacks", "why_tests_cant": "callbacks call back into assignments, parameters are shared by several objects and histories are unbounded; a test compares a few short ones", "anchors": ["cameratransform/parameter_set.py:40-74", "cameratransform/parameter_set.py:85-122", "cameratransform/parameter_set.py:124-149", "cameratransform/parameter_set.py:170-213", "cameratransform/projection.py:164-190", "cameratransform/spatial.py:84-110", "cameratransform/camera.py:454"]}
{"id": "C163", "title": "spaceFromImage with a mesh returns the nearest point of the mesh that the pixel shows", "statement": "For a pixel that shows a mesh, spaceFromImage(pixel, mesh=...) returns a point of the mesh which is projected to the pixel again, and no visible point of the mesh with the same picture is nearer to the camera; conversely a visible, unhidden point of the mesh is recovered from its picture. An empty mesh raises ValueError; a pixel that shows nothing of the mesh gives a point without finite coordinates. The other arguments X, Y, Z, D do not matter.", "quantifier": "all cameras with non-zero focal lengths, every projection, orientation and lens, all pixels with a finite undistorted position, meshes of any size", "why_tests_cant": "The mesh size is unbounded, the geometry continuous, and the exceptional triangles (edge-on, without area) are never drawn at random.", "anchors": ["cameratransform/camera.py:Camera.spaceFromImage", "cameratransform/ray.py:ray_intersect_triangle"]}
{"id": "C164", "title": "Loading gives the camera the file describes", "statement": "After load or load_camera every parameter of the camera has the last value the file gives for it (focallength_px counts for both focal lengths, a heading beyond a full turn is reduced), or the value of a new camera (100 x 50 px, focal length 100 px, standard orientation, no distortion) if the file does not mention it; the camera projects and casts rays like the camera with these values, whatever it was before and whatever else exists; entries of unknown names change no parameter; the order of the entries does not matter. Loading fails only if there is no JSON file of that name or a code of the projection or of the lens is none of 0, 1, 2.", "quantifier": "all files (any keys in any order, missing or repeated, any values), all states of the program, cameras and names", "why_tests_cant": "Files have any number of keys, and what was there before is unbounded; tests load files that save has just written.", "anchors": ["cameratransform/camera.py:1555-1588", "cameratransform/camera.py:1590-1606", "cameratransform/parameter_set.py:ParameterSet.__setattr__", "cameratransform/projection.py:189-190"]}
{"id": "C165", "title": "Different cameras take different pictures", "statement": "If two cameras without lens distortion and with positive focal lengths show everything that is far enough away at the same pixels, they have the same projection class, the same focal lengths and optical centre and the same position and orientation matrix, and they show every point, near ones included, at the same pixels. Unless they look straight down or up, the parameters of their orientations agree too: elevation, position and tilt (or pitch) are equal and heading (or yaw) and roll are equal up to full turns, also between the two classes of orientation. Both conditions are needed: negative focal lengths are undone by half a turn around the axis, and a camera looking straight down may be turned and rolled by the same angle.", "quantifier": "all pairs of cameras of the three projections and both orientation classes, all far points, hidden or not", "why_tests_cant": "That no other camera fits is a statement about all cameras and all distant points at once; tests compare a few pixels of one camera.", "anchors": ["cameratransform/camera.py:imageFromSpace", "cameratransform/projection.py:RectilinearProjection.imageFromCamera", "cameratransform/projection.py:CylindricalProjection.imageFromCamera", "cameratransform/projection.py:EquirectangularProjection.imageFromCamera", "cameratransform/spatial.py:_initCameraMatrix"]}
{"id": "C166", "title": "Turning and scaling the world compose and can be undone", "statement": "rotateSpace(a) followed by rotateSpace(b) leaves a camera that shows the same pictures and casts the same rays as after rotateSpace(a+b); every attribute but the heading reads the same, the headings are equal up to full turns. rotateSpace(-a) undoes rotateSpace(a) in the same sense. scaleSpace(j) followed by scaleSpace(k) is scaleSpace(j*k), and scaleSpace(1/k) undoes scaleSpace(k): every attribute reads exactly as before and every camera shows what it showed, also if cameras of the group share their orientation.", "quantifier": "all reachable states of the program (projections and lenses not shared between cameras), all angles, all factors (not zero for undoing), all groups, all points and attributes", "why_tests_cant": "The results depend on all earlier assignments and on the wrapping of the heading in between; tests turn once.", "anchors": ["cameratransform/camera.py:1505-1520", "cameratransform/camera.py:CameraGroup.scaleSpace", "cameratransform/spatial.py:_initCameraMatrix"]}
{"id": "C167", "title": "Random numbers have the distributions their names say", "statement": "x + normal(sigma) is normally distributed around x with standard deviation sigma, x + normal_bounded(sigma, min, max) is that distribution restricted to the bounds: it never leaves them, whether x is inside or not, and reaches every part of the interval between them; arrays get one number per entry. A FitParameter with bounds draws uniformly between them and one with mean and std from that normal distribution, and in both cases logp is the log density of random: for bounds it is finite exactly between them. Impossible arguments (sigma not positive, bounds in the wrong order) raise when a number is drawn.", "quantifier": "all real arguments and arrays of any length; all measurable sets of results", "why_tests_cant": "Tests can only look at finitely many draws; the statements are about the whole distribution.", "anchors": ["cameratransform/statistic.py:32-65", "cameratransform/statistic.py:264-296"]}
{"id": "C168", "title": "From the image of a panorama to space, and back, with rounding errors", "statement": "With floating point arithmetic, the point seen at a pixel of a cylindrical or equirectangular image on the plane where one coordinate is given deviates from the exact point by a multiple of the relative error of one operation and of the inverse rotation matrix; the multiple depends on the angle and height of the pixel, on how flat the ray meets the plane and on the distance of the point. Where the plane is behind the ray the computed result is NaN, as the exact one. The point, projected again, is close to the pixel; for usual panoramas within a thousandth of a pixel.", "quantifier": "all cylindrical and equirectangular cameras of both kinds of orientation, pixels (for the way back within the full circle, between the poles, away from the sides and from the cut), coordinates and planes that the ray does not meet too flat, all roundings", "why_tests_cant": "Round trip tests compare a few pixels with a tolerance; the bound holds for every sequence of rounding errors and says where it grows.", "anchors": ["cameratransform/camera.py:Camera.spaceFromImage", "cameratransform/camera.py:Camera.getRay", "cameratransform/camera.py:Camera.imageFromSpace", "cameratransform/projection.py:CylindricalProjection.getRay", "cameratransform/projection.py:EquirectangularProjection.getRay"]}
{"id": "C169", "title": "A level panorama shows the bearing and the elevation of a point", "statement": "In the image of a level cylindrical or equirectangular camera the column of a point is its compass bearing relative to the heading (or yaw), in units of the focal length and up to full circles, always within half a circle of the principal point; the row is the slope (cylindrical) or the angle of elevation (equirectangular), downwards. So things as high as the camera are in the row of the principal point and nothing else is, of two points the one with the smaller slope is lower in the image, and points above each other are in the same column up to a full circle. The ray of a pixel has the bearing and the height of its column and row, and the ground seen there is in this direction at the distance height of the camera divided by the slope.", "quantifier": "all level cylindrical and equirectangular cameras of both kinds of orientation without lens, all points at a usable depth, all pixels with nonzero slope for the ground", "why_tests_cant": "Tests check a few points of one camera; the statement relates every pixel to a bearing for every heading.", "anchors": ["cameratransform/projection.py:CylindricalProjection", "cameratransform/projection.py:EquirectangularProjection", "cameratransform/spatial.py:SpatialOrientation.spaceFromCamera", "cameratransform/camera.py:Camera.imageFromSpace", "cameratransform/camera.py:Camera.spaceFromImage"]}
{"id": "C170", "title": "Pictures of a plane, and pictures taken from the same place, are projective images of each other", "statement": "For rectilinear cameras without lens distortion: for every plane that contains neither of two cameras there is one invertible projective map that takes the pixel at which the first camera shows a point of the plane to the pixel at which the second one shows it; for two cameras at the same place there is one that does so for all points, whatever their distance. The cross ratio of four points of a straight line is the cross ratio of their pixels, in both coordinates. A camera that looks straight down takes a map: on every horizontal plane the picture is turned by heading minus roll (yaw plus roll) and scaled by the focal length over the height above the plane.", "quantifier": "all rectilinear cameras without lens of both kinds of orientation, all planes, all points with finite pixels, with and without hiding the points behind the camera", "why_tests_cant": "Tests compare the pixels of some points; that a single map serves all points of a plane is a statement about infinitely many.", "anchors": ["cameratransform/camera.py:Camera.imageFromSpace", "cameratransform/projection.py:RectilinearProjection.imageFromCamera", "cameratransform/spatial.py:SpatialOrientation.cameraFromSpace"]}
{"id": "C171", "title": "How true distances are in the plane around a gps reference point", "statement": "spaceFromGPS and gpsFromSpace replace the earth around the reference point by a plane. The distance of two places (getDistance) is never larger than the distance of the corresponding points of space and not smaller than that times 1 - (rho / R)^2 / 6 (without heights also sin(rho/R) / (rho/R)), where rho bounds their horizontal distances from the reference and R is the radius of the earth; so within 10 km all distances, heights included, are right up to a millionth. For Camera.gpsFromSpace the lower bound has R plus the elevation of the camera as radius and the ratio of the radii as a further factor.", "quantifier": "all reference points (off the poles for gpsFromSpace), all pairs of places; all pairs of points of space closer to the reference than half the circumference", "why_tests_cant": "Tests only compare a point with its own image under the way there and back; how distances between two points change is not tested and depends on a comparison of spherical and plane triangles.", "anchors": ["cameratransform/gps.py:spaceFromGPS", "cameratransform/gps.py:gpsFromSpace", "cameratransform/gps.py:getDistance", "cameratransform/camera.py:Camera.gpsFromSpace"]}
{"id": "C172", "title": "A triangulated point is off by at most what the errors of the pixels allow", "statement": "ray.intersectionOfTwoLines(p1, v1, p2, v2) of two lines that are not parallel returns a point Y such that for every point X and any points R1, R2 of the two lines (1 - |cos|)*|Y - X|^2 <= |X - R1|^2 + |X - R2|^2, cos being the cosine of the angle between the lines; for lines that meet this bound is attained.  So camera.spaceFromImages of two rectilinear cameras without distortion, given pixels that are off by (dx1, dy1) and (dx2, dy2) from the images of a point X at the depths z1 and z2, returns a point Y with (1 - |cos|)*|Y - X|^2 <= z1^2*((dx1/fx1)^2 + (dy1/fy1)^2) + z2^2*((dx2/fx2)^2 + (dy2/fy2)^2), cos being the cosine of the angle between the two rays.", "quantifier": "all pairs of cameras, points and pixels whose rays are not parallel; all pairs of lines that are not parallel", "why_tests_cant": "A test perturbs a few pixels of a few scenes by random numbers; the bound is about all perturbations and about rays that do not meet.", "anchors": ["cameratransform/ray.py:intersectionOfTwoLines", "cameratransform/camera.py:CameraGroup.spaceFromImages"]}
{"id": "C173", "title": "The drop-down and the file input of the demonstration have the value that was chosen and tell it", "statement": "QInputChoice.setValue(v) of one of the values makes value() return v, of a name the value with this name, of anything else raises and changes nothing, and sends nothing; when the user chooses an entry, this entry is shown, value() is its value, and valueChanged tells it unless it was told last; after choices of the user the last value told is value().  QInputFilename: a file chosen in the dialog is shown and told and the next dialog starts in its folder; leaving the dialog changes nothing; it can be created without a file name.", "quantifier": "all lists of values and names, all states and histories of choices and calls of setValue; all file names", "why_tests_cant": "A test clicks through a few choices of one list; what repeated values, missing names and numbers out of range do only shows for lists the author did not think of.", "anchors": ["cameratransform/gui_tools/demonstrator/QtShortCuts.py:QInputChoice", "cameratransform/gui_tools/demonstrator/QtShortCuts.py:QInputFilename"]}
{"id": "C174", "title": "Measured heights and lengths do not depend on where the camera stands and in which direction it looks", "statement": "If the camera is moved, turned around the vertical (heading) and lifted, getObjectLength and getObjectHeight of the same pixels give the same numbers, multiplied by the factor by which the height of the camera above the objects has changed; so the log probability of height information does not depend on position and heading.", "quantifier": "all cameras with a SpatialOrientation, projections and lenses, all pairs of pixels, positions, headings and elevations", "why_tests_cant": "A test measures the images of upright objects, for which the two ways of computing the height agree; pixels clicked by a user never are exact.", "anchors": ["cameratransform/camera.py:Camera.getObjectHeight", "cameratransform/camera.py:Camera.getObjectLength", "cameratransform/camera.py:Camera.addObjectHeightInformation"]}
{"id": "C175", "title": "Correspondences tell nothing about where the group is, in which direction it looks and how large it is", "statement": "If both cameras of a group are moved by the same vector, turned with rotateSpace by the same angle, or their positions are multiplied by the same number, then pointCorrespondenceError and the term of addPointCorrespondenceInformation keep their values, for any pixels. A baseline given with addBaselineInformation fixes the size: the term has its largest value for exactly one size.", "quantifier": "all pairs of rectilinear cameras without lens distortion, all pixels and numbers of correspondences, all motions and scalings (also negative ones, which exchange the cameras)", "why_tests_cant": "tests try single cameras and pixels; an invariance holds for all motions, sizes and arrangements, and it fails only for arrangements with one camera behind the other beyond a certain size", "anchors": ["cameratransform/camera.py:243", "cameratransform/camera.py:249", "cameratransform/camera.py:271", "cameratransform/camera.py:1505"]}
{"id": "C176", "title": "Two landmarks fix position, elevation and heading", "statement": "If a camera sees two landmarks on the ground, then of all cameras with its tilt and roll only those at its position and elevation with its heading (up to full turns) have both landmarks on the rays of their pixels, and only those have as high a log probability in fit. With a known elevation the landmarks may have different heights; with known angles any two landmarks not in line with the camera fix the position. One landmark is not enough: every heading remains possible.", "quantifier": "all cameras with tilt, roll and heading, all projections and lenses, all pixels and landmarks, all other cameras", "why_tests_cant": "tests fit single cameras and see that the fit comes near the right parameters; that no other parameters explain the same landmarks is a claim about all other cameras", "anchors": ["cameratransform/camera.py:656", "cameratransform/camera.py:695", "cameratransform/spatial.py:194"]}
{"id": "C177", "title": "A known length or height fixes the elevation and nothing else", "statement": "If a camera sees flat objects of known lengths, then of all cameras with its tilt and roll exactly those with its elevation have the largest value of the term of addObjectLengthInformation, whatever their position and heading. For upright objects of known heights the same holds for all cameras with the same three angles.", "quantifier": "all cameras with tilt, roll and heading, all projections and lenses, all lists of objects, all other elevations (also below the plane), positions and headings", "why_tests_cant": "tests fit one camera from one start; which parameters are determined by the information and which stay open is a claim about all other cameras", "anchors": ["cameratransform/camera.py:515", "cameratransform/camera.py:582", "cameratransform/camera.py:1224", "cameratransform/camera.py:1253"]}
{"id": "C178", "title": "The horizon says something about elevation, tilt and roll only, and only in whole rows", "statement": "The rows of getImageHorizon do not depend on position and heading. The largest value of the term of addHorizonInformation is reached by the cameras that see the horizon at the given points; as getImageHorizon returns whole rows, the term takes only finitely many values over all cameras with images of one size, its slope along any change of the camera is 0 wherever it exists, and points observed between two rows fit no camera.", "quantifier": "all cameras with tilt, roll and heading, all projections and lenses, all horizon points and uncertainties, all families of cameras with one real parameter", "why_tests_cant": "tests fit a camera with other information besides; that the term is flat almost everywhere is a claim about all cameras at once", "anchors": ["cameratransform/camera.py:780", "cameratransform/camera.py:798", "cameratransform/camera.py:863", "cameratransform/parameter_set.py:282"]}
{"id": "C179", "title": "The assertions of the project's property tests hold for every input they can draw", "statement": "For every camera that the strategies of tests/strategies.py can make, and every pixel, plane, distance and point they can draw, the assertions of test_transWorldToCam, test_rays, test_transFieldOfView, test_cameraOrigin, test_cameraCone and test_initProjection hold. test_pointBehindCamera holds exactly for the points that are not within the minimal depth below the camera; a point at the height of the camera can be drawn and fails.", "quantifier": "all inputs in the ranges of the strategies, with exact arithmetic", "why_tests_cant": "hypothesis draws some hundred inputs from ranges that contain infinitely many; that the assertion holds for the rest, and where it fails, needs a proof", "anchors": ["tests/test_transforms.py:76", "tests/test_transforms.py:225", "tests/test_transforms.py:286", "tests/test_transforms.py:300", "tests/test_transforms.py:314", "tests/test_helpers.py:81", "tests/test_helpers.py:101", "tests/strategies.py:1"]}
{"id": "C180", "title": "The assertions of the property tests of rays and gps coordinates", "statement": "The assertions that tests/test_ray.py and tests/test_gps.py make for drawn inputs hold in exact arithmetic for every input that the strategies can draw and do not reject: a ray toward a point of a triangle meets that point; rays toward triangles of a mesh never give nan; the closest point of a line, the distance of two lines and their intersection are the drawn ones; the areas of an extruded line add up to its length; coordinates written in three formats are read back from one text, two texts, and with a height; and moving, measuring and the change to space and back agree.", "quantifier": "For all origins, triangles, parameters, lines, polylines, latitudes, longitudes, distances, bearings and heights in the ranges of the strategies.", "why_tests_cant": "Hypothesis draws a few hundred inputs per run, and the exceptional ones (origin in the plane of the triangle) have measure zero, so the tests almost never see them.", "anchors": ["tests/test_ray.py:52", "tests/test_ray.py:74", "tests/test_ray.py:111", "tests/test_ray.py:136", "tests/test_gps.py:53", "tests/test_gps.py:83", "tests/strategies.py:160"]}
{"id": "C181", "title": "How exactly undistorting undoes distorting", "statement": "With the interpolating cubic spline that scipy computes (not a knot, in exact arithmetic), undistorting a distorted pixel gives a pixel on the same line through the centre of the distortion, and its distance from the centre is wrong by at most an explicit multiple of the curvature of the distortion and of the squared step between the sampled radii, for all radii up to 1.9. The lens test of the repository (distort and undistort 100 pixels of the middle row, coefficient at most 0.01) passes for every projection, lens and coefficient that it can draw.", "quantifier": "For all splines as scipy specifies them, projections, coefficients, radius functions with two derivatives, and pixels.", "why_tests_cant": "The test draws a few hundred projections and coefficients; it fails only for the few sensors that are more than 1.9 times as wide as high together with large images and coefficients near the upper end.", "anchors": ["cameratransform/lens_distortion.py:24", "cameratransform/lens_distortion.py:107", "cameratransform/lens_distortion.py:159", "tests/test_transforms.py:269"]}
{"id": "C182", "title": "Rounding errors move distances and positions computed from gps coordinates by less than a few micrometres", "statement": "If every arithmetic operation and every call of a numpy function has a relative error of at most u (u at most 1/100000), then for two places other than the poles (latitudes of at most 90 - 400 u degrees, longitudes of at most 360 degrees) that are at most a quarter of the circumference of the earth apart, getDistance differs from the length of the great circle by at most 148 u times the radius of the earth, with heights by at most 155 u times the radius plus 6 u times the difference of the heights, and both horizontal coordinates of spaceFromGPS (of points without heights or with the same height) differ by at most 631 u times the radius from the vector that points along the great circle: with double precision that is less than a micrometre. For all pairs of places the distance differs by at most (2 pi sqrt(25 u) + 10 u) radii, and nan can come out only for points closer than 2 pi sqrt(25 u) radii to the opposite point of the earth; for opposite points on the equator nan does come out for some of the possible errors, however small they are.", "quantifier": "all error bounds u, all possible errors of all operations, all pairs of places within the ranges, all heights", "why_tests_cant": "The tests compare a few pairs of places with a tolerance; no sample shows how large the error can become, where it becomes large and when nan comes out.", "anchors": ["cameratransform/gps.py:319-325", "cameratransform/gps.py:327-339", "cameratransform/gps.py:380-395", "cameratransform/gps.py:461-468"]}
{"id": "C183", "title": "Rounding errors move the results of moveDistance and gpsFromSpace only slightly, and the property test of gps coordinates passes for everything it can draw", "statement": "If every arithmetic operation and every call of a numpy function has a relative error of at most u (u at most 1/100000), then the place that moveDistance computes from a start other than a pole is, seen from the centre of the earth, at most (178/cos(latitude of the end) + 634/cos(latitude of the start)) u away from the end of the great circle (bearings up to 360 degrees, distances up to 6 radii, ends at which 106 u is less than the square of the cosine of the latitude, so that no nan comes out). The same holds for gpsFromSpace of positions that are at most a radius away. With u of at most 10^-15 (double precision has 1.1 * 10^-16) test_gpsSpaceBackForth succeeds for all latitudes, longitudes, distances and bearings it can draw, without height and with every height between 0 and 100 m: no nan occurs, the distance is right up to 2 cm, the bearing up to 1 degree, and the place after going to space and back up to 8 cm (the test allows 1.5 of each).", "quantifier": "all error bounds u, all possible errors of all operations, all starts, distances and bearings within the ranges, all runs of the property test", "why_tests_cant": "hypothesis draws a hundred examples per run; the bound on the error close to the poles and the absence of nan cannot be seen from samples.", "anchors": ["cameratransform/gps.py:444-458", "cameratransform/gps.py:471-477", "tests/test_gps.py:83-119"]}
{"id": "C184", "title": "Triangulation with rounding errors", "statement": "If every floating point operation has a relative error of at most u, intersectionOfTwoLines(p1, v1, p2, v2) of two lines that are not almost parallel returns a point (never nan) whose j-th coordinate differs from the middle of the two closest points of the lines by at most 55 r^3 u |p1-p2| / S^3 + 1.51 u (|p1_j| + |p2_j|), where S is the sine of the angle between the lines, r >= 1 bounds |v2|/|v1| and 1000 r^2 u <= S^2. If the rays of two pixels of two rectilinear cameras without distortion meet in X, CameraGroup.spaceFromImages returns, with rotation matrices that are accurate to e, a point that differs from X by at most 67 r^3 u |p1-p2| / S^3 + (5 e + 28 u) (|X-p1| + |X-p2|) / S + 1.51 u (|p1_j| + |p2_j|) per coordinate. Without rounding errors the result is the one of the exact model, and nan exactly for parallel lines.", "quantifier": "for all lines, all cameras and pixels, all rounding errors of each operation up to u <= 1/100000 in any combination, both orders of the rows that partial pivoting can choose, and division as well as multiplication with the reciprocal of a pivot", "why_tests_cant": "tests compare single triangulated points with tolerances; they cannot try all combinations of rounding errors or all pairs of lines, and not see how the error grows as the lines become parallel", "anchors": ["cameratransform/ray.py:107-157", "cameratransform/camera.py:218-222"]}
{"id": "C185", "title": "The property tests of the transformations pass with rounding errors", "statement": "If every arithmetic operation and every call of a numpy function has a relative error of at most 10^-15 (double precision has 1.1 * 10^-16), the computed focal lengths are right up to a hundredth and the computed inverse of the rotation matrix is right up to 10^-10 per entry, then for every camera, pixel, height and distance that tests/strategies.py can draw: test_transWorldToCam gets back nan or a pixel that differs by less than 0.1 in both coordinates (it allows 0.15); test_rays gets rays whose computed length differs from 1 by less than 10^-6 (it allows 0.015) and whose points at a distance of 1 or more always have a pixel, which differs by less than 0.1; the rounded pixels of the points of the camera cone in test_cameraCone are exactly the corners they were made from; the position of a rectilinear camera has no pixel in test_cameraOrigin; and in test_pointBehindCamera a point has no pixel if and only if it is above the camera, except for points at the height of the camera or less than 2 * 10^-10 below it.", "quantifier": "all error bounds u up to 10^-15, all possible errors of all operations, all cameras, pixels, heights, distances and points the tests can draw, all three projections", "why_tests_cant": "hypothesis draws a hundred examples per run; that the assertions hold for all draws and all combinations of rounding errors cannot be seen from samples", "anchors": ["tests/test_transforms.py:286-326", "tests/test_helpers.py:81-106", "tests/strategies.py:55-158"]}
{"id": "C186", "title": "Rounding errors of lengths and heights of objects", "statement": "If every arithmetic operation has a relative error of at most u and the computed inverse of the rotation matrix is right up to e per entry, getObjectLength of two pixels that see the points A and B of a horizontal plane is a number that differs from the distance of A and B by at most (9 e + 90 u) (k_A |A - t| + k_B |B - t|) + 3 u |t| + 9 u dist(A, B), where t is the position of the camera, | | the sum of the absolute values of the coordinates and k the size of the ray of the pixel divided by its vertical component.  getObjectHeight of the pixels of the feet A and of a head B straight above them is a number that differs from the height of B above A by at most (4 e + 35 u) k |B - t| + (2 + 2 k) E + 2 u |t_z| + 3 u |B_z| + u |B_z - A_z|, where E bounds the error of the feet and k is the size of the ray of the head divided by its smaller horizontal component, provided the feet are further from the camera than 2 E in x and in y.  So a height is not reliable when the object stands nearly straight along x or along y from the camera, since one of the two planes whose results are averaged is then parallel to the ray.", "quantifier": "all projections, cameras, error bounds u up to 10^-5 and e up to 9 10^-4, pixels whose rays are not nearly parallel to the planes, and all possible rounding errors", "why_tests_cant": "tests compare a few lengths and heights with fixed tolerances; the bound over all rounding errors and the loss of accuracy near the axes need a proof", "anchors": ["cameratransform/camera.py:1224-1251", "cameratransform/camera.py:1253-1278"]}
{"id": "C187", "title": "Rounding errors of imageFromGPS and gpsFromImage", "statement": "If every operation has a relative error of at most u and the computed rotation matrix and its inverse are right up to e per entry: (1) imageFromGPS of one position with a height, up to a quarter of the earth's circumference from the camera and not at a pole, is a pixel that differs from the pixel of the point of space that belongs to the position by at most (7 Z + 25 u) (|f| + |p - c|) + u |c| per coordinate, where Z = 1893 u 6371000 / s + 3.1 (e + 6 u) |ray| and s is the factor of the ray: a position close to the camera is seen with an error in pixels that grows like the inverse of its distance.  (2) gpsFromImage of a pixel whose ray meets the given horizontal plane in the point P gives a latitude and longitude whose place is, in units of the radius, at most (356 / cos(latitude) + 634 / cos(latitude of the camera)) u + E from the place that belongs to P, where E is the error of the point of the plane divided by the earth's radius at the elevation of the camera; the height is off by at most the error of the point.  Walking on a sphere never increases the distance of two end points compared with the plane.", "quantifier": "all projections, cameras, positions, pixels, all error bounds u up to 10^-5 and e up to 9 10^-4, and all possible rounding errors", "why_tests_cant": "tests compare a few positions with fixed tolerances; the bounds over all positions and all rounding errors need an error analysis", "anchors": ["cameratransform/camera.py:1173-1222", "cameratransform/gps.py:461-477"]}
{"id": "C188", "title": "Rounding errors of lens distortion", "statement": "If every operation has a relative error of at most u, distortedFromImage of a Brown or ABC lens gives nan for exactly one pixel, the centre, and for every other pixel a pixel that differs from the exactly distorted one by at most 56 u A |x - c_x| + u |c_x| in x and 56 u A |y - c_y| + u |c_y| in y, where A is the polynomial that multiplies the distance from the centre with all coefficients replaced by their absolute values (for the Brown lens 1 + |k1| r^2 + |k2| r^4 + |k3| r^6; for the ABC lens 1 + |a| + |b| + |c| + |c| r + |b| r^2 + |a| r^3).  The error is relative to the distance from the centre, so rounding cannot move a pixel close to the centre far away.", "quantifier": "all coefficients (also negative ones), focal lengths, centres and image sizes that are not 0, all pixels, all error bounds u up to 10^-5 and all possible rounding errors", "why_tests_cant": "tests compare distorted pixels with their inverse at fixed tolerances; a bound for all coefficients and all rounding errors needs a proof", "anchors": ["cameratransform/lens_distortion.py:148-149", "cameratransform/lens_distortion.py:163-173", "cameratransform/lens_distortion.py:233-243", "cameratransform/lens_distortion.py:257-267"]}
{"id": "C189", "title": "Rounding errors of pixels with lens distortion", "statement": "If every operation has a relative error of at most u and the rotation matrix an error of at most e, imageFromSpace of a camera with a Brown or ABC lens gives for every point in front of the camera a pixel that differs from the exact one by at most A (d + 56 u (|x - c_x| + d)) + B n |x - c_x| + u |c_x| in x and likewise in y.  Here (x, y) is the pixel before the distortion, d bounds the rounding error of that pixel, n the resulting error of the normalised radius, and A and B are the multiplier of the distortion and its derivative with absolute coefficients at the radius plus n.  This holds if the pixel is further from the centre than n; in particular such a pixel never becomes nan through rounding.", "quantifier": "all projections, orientations, intrinsics, coefficients, points in front of the camera whose undistorted pixel is not the centre, all error bounds u up to 10^-5 and e up to 10^-3, all possible rounding errors", "why_tests_cant": "a finite set of points cannot show that a rounding error of the projection is not amplified by the distortion polynomial beyond its derivative", "anchors": ["cameratransform/camera.py:1005", "cameratransform/lens_distortion.py:163-173", "cameratransform/lens_distortion.py:257-267"]}
{"id": "C190", "title": "Rounding errors of the horizon", "statement": "If every operation has a relative error of at most u, distanceToHorizon of a camera at an elevation h of at least 10 u R (R the radius of the earth) is not nan and has a relative error of at most (2.1 R / h + 6) u.  getImageHorizon of a rectilinear camera without lens then gives a row of the image for every column (not nan), and the point seen in this row at the distance of the horizon is at most 2 E further from height zero than the one of any other row, where E bounds the rounding error of one height; if the exact row is better than all others by more than 2 E, the computed row is the exact one.", "quantifier": "all rectilinear cameras above the ground, all orientations, image sizes and columns, all error bounds u up to 1/600000 and e up to 10^-3 of the rotation matrix, all possible rounding errors", "why_tests_cant": "the subtraction 1 - R / (R + h) cancels digits, and how many depends on the elevation; tests check a few elevations and cannot show that no rounding error moves the horizon to a worse row", "anchors": ["cameratransform/camera.py:836-846", "cameratransform/camera.py:848-890"]}
{"id": "C191", "title": "Rounding errors of the distance between rays and of the baseline", "statement": "If every operation has a relative error of at most u, distanceOfTwoLines of two lines whose directions enclose an angle with sine s (well above the tolerance of isclose) differs from their distance by at most 25 u d / s, where d is the distance of the two given points; for parallel lines, and if one or both of the lines are points, the difference is at most 14 u d.  discanteBetweenRays of two rectilinear cameras without lens, whose rotation matrices have errors of at most e, differs from the distance of the exact rays by at most (19 e + 710 u) d / s, where d is the distance of the cameras.  getBaseline has a relative error of at most 8 u.", "quantifier": "all lines, all pairs of rectilinear cameras and of pixels whose rays are not almost parallel, all error bounds u up to 1/600000 and e up to 10^-3, all possible rounding errors", "why_tests_cant": "the error grows without bound as the rays become parallel; tests check a few pairs of rays and cannot show that it never grows faster than the inverse of the sine", "anchors": ["cameratransform/ray.py:199-233", "cameratransform/camera.py:215-216", "cameratransform/camera.py:224-228"]}
{"id": "C192", "title": "Rounding errors of areas", "statement": "If every operation has a relative error of at most u, areaOfQuadrilateral differs from the exact result by at most 2.6 u (|A_y - C_y| |D_x - B_x| + |B_y - D_y| |A_x - C_x|).  areaOfTriangle of a triangle with perimeter P whose edges are each shorter than the other two together by at least w is not nan and has a relative error of at most 48 u P / w, as long as 1500 u P <= w.  For three different points on a line (the middle one not too near to the others) the area is 0, but rounding errors of this size can make the result nan.", "quantifier": "all quadrilaterals, all 3D triangles, all error bounds u up to 10^-5, all possible rounding errors", "why_tests_cant": "Heron's formula loses accuracy as the triangle becomes flat and can take the root of a negative number; tests check a few triangles and cannot bound the error in terms of the flatness", "anchors": ["cameratransform/ray.py:235-254", "cameratransform/ray.py:257-290"]}
{"id": "C193", "title": "Rounding errors of points next to lines", "statement": "If every operation has a relative error of at most u, distanceLinePoint differs from the distance of the point from the line by at most 14 u times the distance of the point from the given point of the line.  Each coordinate of the result of getClosestPointFromLine differs from that of the closest point of the line by at most 17 u times this distance plus u times the coordinate of the given point of the line, and the caller's direction array is afterwards normed with a relative error of at most 5.1 u per coordinate.", "quantifier": "all lines with a direction that is not 0, all points, all error bounds u up to 10^-5, all possible rounding errors", "why_tests_cant": "tests compare single lines and points with a tolerance; they cannot bound the error in terms of the distance between the points for all inputs", "anchors": ["cameratransform/ray.py:103-104", "cameratransform/ray.py:305-332"]}
{"id": "C194", "title": "Rounding errors of rays and planes", "statement": "Let k be the inverse of |n d| / (|b - a| |c - a| |d|), with n the normal of the triangle abc and d the direction of the ray (that is, of the sine of the angle between ray and plane times the sine of the angle of the triangle at a).  If every operation has a relative error of at most u and 1000 u k <= 1, each coordinate of the point that ray_intersect_triangle with use_planes returns differs from that of the exact intersection Q by at most 13 u k (|o - a| + |o - Q|) plus u times the coordinate of the origin o, provided that Q is not closer to the origin than 10 u k (|o - a| + |o - Q|).  If the line of the ray meets the plane behind the origin, by more than this distance, there is no hit.  Whatever the rounding errors, a returned point is never behind the origin.", "quantifier": "all rays and all triangles that are not degenerate, all error bounds u up to 10^-5, all possible rounding errors", "why_tests_cant": "the error is amplified without bound as the ray becomes parallel to the plane or the triangle thin; tests use a few rays and meshes", "anchors": ["cameratransform/ray.py:27-100"]}
{"id": "C195", "title": "Rounding errors of rays and triangles", "statement": "Let k be as in C194 and sigma the inverse sine of the angle of the triangle abc at a, let the line of the ray meet the plane of the triangle in the point Q = a + s (b - a) + r (c - a) in front of the origin o, and let e be such that e times the length of each of the edges b - a and c - a is at least 178 sigma^3 u (k (|o - a| + |o - Q|) + |o|).  If every operation has a relative error of at most u (with 1000 u k <= 1, 2500 u sigma^2 <= 1 and Q not closer to the origin than in C194), ray_intersect_triangle returns a point near Q, with the error bound of C194, if s >= e, r >= e and (s + r + 2 e)(1 + u) <= 1, and reports no hit if s < -e, r < -e or (s + r - 2 e)(1 - u) > 1.  If Q is behind the origin, by more than the distance of C194, there is no hit.", "quantifier": "all rays and all triangles that are not degenerate, all error bounds u up to 10^-5, all possible rounding errors", "why_tests_cant": "whether a point counts as inside is decided by comparisons of rounded numbers; tests use rays that hit the interior of a few triangles and cannot say how near to an edge the decision is still right", "anchors": ["cameratransform/ray.py:27-100"]}
{"id": "C196", "title": "Rounding errors of rays and meshes", "statement": "If every operation has a relative error of at most u, and the ray hits or misses every triangle of the mesh by more than the rounding errors (the margins of C195), ray_intersect_triangle reports no hit if all triangles are missed, and otherwise returns the nearest hit Q up to an error of 1.001 e + 2.1 u |o - Q| plus u times the coordinate of the origin o, per coordinate, where e is the largest of the bounds 10 u k (|o - a| + |o - Q'|) of the triangles that are hit.  The hits themselves may be arbitrarily near to each other.", "quantifier": "all rays, all meshes of triangles that are not degenerate, all error bounds u up to 10^-5, all possible rounding errors", "why_tests_cant": "rounding errors may exchange the order of hits that are near to each other; tests use small meshes whose triangles are far apart and compare with a tolerance", "anchors": ["cameratransform/ray.py:27-100"]}
{"id": "C197", "title": "Rounding errors of the points of a mesh that belong to pixels", "statement": "Let a rectilinear camera without lens distortion have a rotation matrix with errors of at most e per entry, and let every operation have a relative error of at most u.  If the exact ray of a pixel hits or misses every triangle of a mesh by more than the errors (margins as in C196, enlarged for an error of the direction of relative size h = 3 e + 18 u), spaceFromImage with this mesh reports no hit if the exact ray misses all triangles, and otherwise returns the nearest exact hit Q up to an error of 1.003 E + (3.1 e + 21 u) |o - Q| plus u times the coordinate of the camera position o, per coordinate, where E is the largest of the bounds 11 u k (|o - a| + |o - Q'|) + 1.1 k h |o - Q'| of the triangles that are hit.  For the other two projections the same holds with any bound h up to 0.001 of the relative error of the direction, as far as it follows from 3 (e + 16 u) times the size of the ray (with the influence of rounded angles), and the error is 1.003 E + (h + 2.1 u) |o - Q| plus u times the coordinate of o.", "quantifier": "all three projections, all intrinsic parameters, all orientations, all pixels, all meshes of triangles that are not degenerate, all error bounds u up to 10^-5 (5 10^-6 for panoramic projections) and e up to 10^-4, all possible rounding errors, for equirectangular cameras pixels away from the poles", "why_tests_cant": "the error of the direction grows with the distance and can move the ray over an edge of a triangle; tests compare few rays and small meshes with a tolerance", "anchors": ["cameratransform/camera.py:1132-1136", "cameratransform/ray.py:27-100"]}
{"id": "C198", "title": "From a pixel to a mesh and back with rounding errors", "statement": "Let a rectilinear camera without lens distortion have rotation matrices with errors of at most e per entry, and let every operation have a relative error of at most u.  If spaceFromImage with a mesh reports a point P for a pixel, imageFromSpace of P is that pixel up to ((12 e + 97 u) |r| + 6 u |o| / s) (|f| + |p - c|) + u |c|, per coordinate, where r is the ray of the pixel, o the position of the camera, s the distance of P in units of |r|, f the focal length and c the center; there is no condition on the mesh, so this also holds where rounding errors choose another triangle or the ray meets the mesh at a flat angle.  For the other projections the same holds, with a larger bound, for pixels whose rays have a component of at least 0.1 in the direction of the optical axis.", "quantifier": "all three projections, all intrinsic parameters, all orientations, all pixels, all meshes (also with degenerate triangles), all reported points that are not at the camera, all error bounds u up to 10^-5 and e up to 10^-3, all possible rounding errors", "why_tests_cant": "near edges and at flat angles the reported point is arbitrarily wrong and tests that compare points fail or avoid these cases; that the pixel is nevertheless right follows only from the structure of the computation", "anchors": ["cameratransform/camera.py:1132-1136", "cameratransform/ray.py:27-100", "cameratransform/camera.py:1005"]}
{"id": "C199", "title": "The scenes of the demonstrator", "statement": "Scene9Cubes(camera) never fails: it has the given camera, a grid of exactly the lines at the integers from -10 to 9 in both directions, each from -10 to 9 at height 0, and nine cubes that stand on the ground (no point below it, some point on it), are at most 1 high, keep a distance of at least 1 from each other along x or y and are within 2.5 of the origin along x and y; they are added row by row and their centers are at the positions -2, 0 and 2 along x and y.  SceneObjectsOnPlane(camera) has the given camera and, whatever random numbers are drawn, one cube per draw in the order of the draws, which stands on the ground, is at most 1 high and has its walls at a distance of 1/2 from the drawn position; with numbers of randint(1, 1000) it is between 0.5 and 999.5 along y.", "quantifier": "all cameras, all lists of random numbers of any length", "why_tests_cant": "the positions are random, so a test sees only some of them, and whether the cubes overlap or sink into the ground is only visible to the eye", "anchors": ["cameratransform/gui_tools/demonstrator/demo_includes.py:30-47", "cameratransform/scene.py:100-162"]}
