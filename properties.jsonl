{"id": "C01", "title": "AngleDeg stays normalised over any history", "statement": "After constructing an AngleDeg and applying any finite sequence of set_degree, set_angle, reverse, +=, -=, *= operations, degree() lies in [-180, 180], and its value is congruent modulo 360 to the value obtained by doing the same operations on plain numbers (for *=, on the stored degree).", "quantifier": "every initial number and every finite sequence of mutating operations with arbitrary numeric arguments", "why_tests_cant": "the operation history is unbounded and the degree is a continuum; tests sample a few values", "anchors": ["src/pyrusgeom/angle_deg.py: AngleDeg.__init__, normal, set_degree, set_angle, reverse, __iadd__, __isub__, __imul__"]}
{"id": "C02", "title": "Normalisation is exact on already-normalised input and idempotent", "statement": "AngleDeg(d).degree() == d for every d in [-180, 180]; for every number d, AngleDeg(AngleDeg(d)), AngleDeg(d).copy() and AngleDeg(d) report the same degree, and degree() equals degree_().", "quantifier": "every real number d", "why_tests_cant": "the claim is about a continuum of inputs with branch boundaries at +-180 and +-360", "anchors": ["src/pyrusgeom/angle_deg.py: AngleDeg.normal, degree, degree_, copy"]}
{"id": "C03", "title": "Angle arithmetic is arithmetic modulo 360", "statement": "For AngleDeg a, b and integer n: (a+b), (a-b), (-a), (a*n) have degrees congruent modulo 360 to the sum, difference, negation and multiple of the degrees; changing an operand by a multiple of 360 before wrapping it in AngleDeg does not change the result modulo 360.", "quantifier": "all pairs of numbers and all integer multipliers", "why_tests_cant": "universal algebraic law over reals", "anchors": ["src/pyrusgeom/angle_deg.py: AngleDeg.__add__, __sub__, __neg__, __mul__"]}
{"id": "C04", "title": "is_left_of / is_right_of orient two angles consistently", "statement": "a.is_left_of(b) holds exactly when turning clockwise (increasing degree) from a by some amount strictly between 0 and 180 reaches b modulo 360; a.is_right_of(b) == b.is_left_of(a); never both; neither holds exactly when the angles are equal or opposite modulo 360.", "quantifier": "all pairs of AngleDeg values", "why_tests_cant": "pairs of reals with wrap-around; boundary cases have measure zero so sampling misses them", "anchors": ["src/pyrusgeom/angle_deg.py: AngleDeg.is_left_of, is_right_of, is_left_equal_of, is_right_equal_of"]}
{"id": "C05", "title": "is_within is membership in the clockwise arc", "statement": "a.is_within(left, right) is True exactly when a is reached modulo 360 by turning clockwise from left by an amount not exceeding the clockwise turn from left to right.", "quantifier": "all triples of angles, whichever representative (180 or -180) is stored", "why_tests_cant": "three-dimensional continuum with wrap-around boundaries", "anchors": ["src/pyrusgeom/angle_deg.py: AngleDeg.is_within, is_left_equal_of"]}
{"id": "C06", "title": "bisect returns the middle of the arc [left, right]", "statement": "AngleDeg.bisect(left, right) is an angle inside the arc [left, right] (as decided by is_within) whose clockwise distances to both ends are equal.", "quantifier": "all pairs of angles", "why_tests_cant": "continuum of pairs; one unit test fixes one pair", "anchors": ["src/pyrusgeom/angle_deg.py: AngleDeg.bisect"]}
{"id": "C07", "title": "Trigonometric helpers depend only on the angle modulo 360 and invert each other", "statement": "cos/sin of AngleDeg(d) equal cos_deg/sin_deg(d) for every d, cos^2+sin^2=1; acos_deg always returns a value in [0,180] with cos_deg(acos_deg(c)) = c clamped to [-1,1]; asin_deg in [-90,90] with sin_deg(asin_deg(s)) = s clamped; atan_deg in (-90,90) with tan_deg(atan_deg(t)) = t; none of them raises; atan2_deg in (-180,180].", "quantifier": "all real inputs including values outside [-1,1]", "why_tests_cant": "identity over all reals", "anchors": ["src/pyrusgeom/angle_deg.py: AngleDeg.cos, sin, cos_deg, sin_deg, acos_deg, asin_deg, atan_deg, atan2_deg, rad2deg, deg2rad"]}
{"id": "C08", "title": "AngleDeg equality treats congruent angles as equal", "statement": "a == b is reflexive and symmetric, and is True whenever the degrees of a and b are congruent modulo 360.", "quantifier": "all pairs of AngleDeg (and of AngleDeg and number)", "why_tests_cant": "needs every representative pair, in particular 180 and -180", "anchors": ["src/pyrusgeom/angle_deg.py: AngleDeg.__eq__"]}
{"id": "C09", "title": "reverse turns by half a circle", "statement": "reverse() and reverse_angle() produce the angle congruent modulo 360 to degree()+180, stay in [-180,180], leave (for reverse_angle) the receiver unchanged, and applied twice give back the same angle modulo 360, exactly the same degree unless it was 180.", "quantifier": "every AngleDeg", "why_tests_cant": "universal over the reals; boundary at 0 and 180", "anchors": ["src/pyrusgeom/angle_deg.py: AngleDeg.reverse, reverse_angle"]}
{"id": "C10", "title": "normalize_angle agrees with AngleDeg", "statement": "AngleDeg.normalize_angle(d) lies in [-180,180], is congruent to d modulo 360, and equals AngleDeg(d).degree() for every d not congruent to 180 modulo 360; it equals d for d in [-180,180].", "quantifier": "every real d", "why_tests_cant": "two different remainder operations (fmod and %) must agree on all reals", "anchors": ["src/pyrusgeom/angle_deg.py: AngleDeg.normalize_angle, normal"]}
{"id": "C11", "title": "get_normalized maps angles to [0,1] and preserves order", "statement": "0 <= get_normalized() <= 1 for every AngleDeg; get_normalized is strictly increasing in degree().", "quantifier": "every AngleDeg", "why_tests_cant": "universal over reals", "anchors": ["src/pyrusgeom/angle_deg.py: AngleDeg.get_normalized"]}
{"id": "C12", "title": "Polar to Cartesian and back", "statement": "For radius r >= 0 and any angle, from_polar(r, a) (also polar2vector, set_polar, Vector2D(r=,a=)) has length r; if r is at least 2*EPSILON its th() is congruent to a. Conversely from_polar(v.r(), v.th()) has exactly v's coordinates for every v not within EPSILON of the origin in both coordinates.", "quantifier": "all radii, angles and vectors", "why_tests_cant": "round trip over a two-dimensional continuum", "anchors": ["src/pyrusgeom/vector_2d.py: Vector2D.from_polar, polar2vector, set_polar, r, th", "src/pyrusgeom/angle_deg.py: AngleDeg.atan2_deg"]}
{"id": "C13", "title": "Rotation is an isometry and a group action", "statement": "rotate(d) keeps r() and all pairwise distances, rotating by d1 then d2 equals rotating by d1+d2, rotating by a multiple of 360 is the identity, and rotated_vector(d) returns what rotate(d) would produce without changing the receiver; it equals Matrix2D.make_rotation(AngleDeg(d)).transform.", "quantifier": "all vectors and all angles", "why_tests_cant": "universal identities over reals", "anchors": ["src/pyrusgeom/vector_2d.py: Vector2D.rotate, rotated_vector", "src/pyrusgeom/matrix_2d.py: Matrix2D.make_rotation, transform"]}
{"id": "C14", "title": "set_length sets the length and keeps the direction", "statement": "For length L >= 0: if r() > EPSILON, then after set_length(L) (also normalize with L=1, set_length_vector, normalize_vector) r() == L and the vector is a non-negative multiple of the old one; otherwise the vector is unchanged.", "quantifier": "all vectors and all L", "why_tests_cant": "continuum; branch at EPSILON", "anchors": ["src/pyrusgeom/vector_2d.py: Vector2D.set_length, normalize, set_length_vector, normalize_vector, scale"]}
{"id": "C15", "title": "dist is a metric", "statement": "dist is non-negative, symmetric, zero exactly for equal coordinates, satisfies the triangle inequality, dist^2 == dist2, and is translation invariant.", "quantifier": "all triples of vectors", "why_tests_cant": "triangle inequality quantifies over all triples", "anchors": ["src/pyrusgeom/vector_2d.py: Vector2D.dist, dist2, r, r2"]}
{"id": "C16", "title": "Inner and outer product mean what the documentation says", "statement": "For all u, v: u.inner_product(v) = |u||v|cos(t) and u.outer_product(v) = |u||v|sin(t), where t is the angle from u.th() to v.th() (for vectors not tiny); inner is symmetric, outer antisymmetric, both bilinear; inner^2+outer^2 = r2*r2.", "quantifier": "all vector pairs", "why_tests_cant": "universal identity", "anchors": ["src/pyrusgeom/vector_2d.py: Vector2D.inner_product, outer_product"]}
{"id": "C17", "title": "Vector equality is an equivalence compatible with hash", "statement": "== is reflexive, symmetric, transitive, ignores nothing but the validity flag, agrees with equals(), implies equal hash, and equals_weakly is reflexive, symmetric and implied by ==.", "quantifier": "all triples of vectors", "why_tests_cant": "universal law", "anchors": ["src/pyrusgeom/vector_2d.py: Vector2D.__eq__, __hash__, equals, equals_weakly"]}
{"id": "C18", "title": "Copying a vector preserves its validity", "statement": "Vector2D(v), v.copy(), v.set_vector, and v's arithmetic with others produce vectors whose is_valid() is the same as v's: an invalid result is not silently turned into a valid point.", "quantifier": "every vector, valid or invalid", "why_tests_cant": "state flag over every history of operations", "anchors": ["src/pyrusgeom/vector_2d.py: Vector2D.__init__, copy, set_vector, invalid, __add__, __sub__"]}
{"id": "C19", "title": "In-place vector operations agree with the pure operators over any history", "statement": "For any finite sequence of add, sub, +=, -=, *=, scale, reverse, add_x, ..., the final coordinates equal the ones computed with the pure operators +, -, *, and the validity flag is never changed by them.", "quantifier": "every vector and every finite list of operations", "why_tests_cant": "unbounded histories", "anchors": ["src/pyrusgeom/vector_2d.py: Vector2D.add, sub, scale, reverse, __iadd__, __isub__, __imul__, add_x, add_y, sub_x, sub_y"]}
{"id": "C20", "title": "A line built from two points is their line", "statement": "Line2D(p, q) with p != q has a X + b Y + c = 0 exactly for the points p + t (q-p), t real; Line2D(p, angle) exactly for p + t (cos, sin). With p == q the equation degenerates to 0 = 0.", "quantifier": "all point pairs, all angles, all query points", "why_tests_cant": "set equality over the plane", "anchors": ["src/pyrusgeom/line_2d.py: Line2D.__init__"]}
{"id": "C21", "title": "Line intersection is sound, unique and complete up to the parallel tolerance", "statement": "l1.intersection(l2) is valid exactly when not l1.is_parallel(l2); a valid result satisfies both line equations and is the only point that does; the result does not depend on the order of the lines.", "quantifier": "all pairs of lines", "why_tests_cant": "universal over coefficient space", "anchors": ["src/pyrusgeom/line_2d.py: Line2D.intersection, line_intersection, is_parallel"]}
{"id": "C22", "title": "Line distance is the least distance to the line's points", "statement": "For a line with (a,b) != (0,0), dist(p) is the minimum over all points q of the line of |p-q| and dist2 = dist^2; for a = b = 0 both raise ZeroDivisionError; they never raise otherwise.", "quantifier": "all lines and points", "why_tests_cant": "minimum over infinitely many points", "anchors": ["src/pyrusgeom/line_2d.py: Line2D.dist, dist2"]}
{"id": "C23", "title": "Projection is the nearest point of the line", "statement": "For a line with a^2+b^2 >= EPSILON, projection(p) is valid, lies on the line, lies at distance dist(p) from p, and is strictly closer to p than any other point of the line; perpendicular(p) passes through p at a right angle to the line.", "quantifier": "all lines and points", "why_tests_cant": "minimum over infinitely many points", "anchors": ["src/pyrusgeom/line_2d.py: Line2D.projection, perpendicular"]}
{"id": "C24", "title": "Perpendicular bisector is the set of equidistant points", "statement": "For points p, q, a point z satisfies the equation of perpendicular_bisector(p, q) exactly when |z-p| = |z-q|.", "quantifier": "all pairs of distinct points and all z", "why_tests_cant": "set equality over the plane", "anchors": ["src/pyrusgeom/line_2d.py: Line2D.perpendicular_bisector", "src/pyrusgeom/segment_2d.py: Segment2D.perpendicular_bisector"]}
{"id": "C25", "title": "Line equality means same line", "statement": "l1 == l2 exactly when the two lines contain the same points.", "quantifier": "all pairs of non-degenerate lines", "why_tests_cant": "set equality of infinite point sets", "anchors": ["src/pyrusgeom/line_2d.py: Line2D.__eq__"]}
{"id": "C26", "title": "get_x and get_y invert the line equation", "statement": "If |a| >= EPSILON then (get_x(y), y) is on the line for every y and is the only such x; if |a| < EPSILON get_x returns the ERROR_VALUE sentinel 1e20; likewise get_y; neither ever raises.", "quantifier": "all lines and ordinates", "why_tests_cant": "universal", "anchors": ["src/pyrusgeom/line_2d.py: Line2D.get_x, get_y"]}
{"id": "C27", "title": "in_right_dir recognises the points of the ray", "statement": "For a ray and a point of its carrier line, in_right_dir(point) (threshold at most 90) is True exactly when the point is origin + t*direction with t >= 0.", "quantifier": "all rays, all points on the carrier line", "why_tests_cant": "continuum; behaviour near the origin is a measure-zero corner", "anchors": ["src/pyrusgeom/ray_2d.py: Ray2D.in_right_dir"]}
{"id": "C28", "title": "Ray intersection is sound and complete", "statement": "Ray.intersection(Line or Ray) is valid exactly when the non-parallel carrier lines meet at a point ahead of (or at) the origin of the ray (both rays), and then returns that point.", "quantifier": "all rays and lines", "why_tests_cant": "continuum", "anchors": ["src/pyrusgeom/ray_2d.py: Ray2D.intersection, line"]}
{"id": "C29", "title": "on_segment is membership in the segment", "statement": "on_segment(p) is True exactly when p = origin + t (terminal-origin) for some t in [0,1].", "quantifier": "all segments, including degenerate ones, and all points", "why_tests_cant": "set equality; degenerate segments", "anchors": ["src/pyrusgeom/segment_2d.py: Segment2D.on_segment, check_intersects_on_line"]}
{"id": "C30", "title": "exist_intersection(segment) decides whether two segments share a point", "statement": "s1.exist_intersection(s2) is True exactly when some point belongs to both segments, including touching, overlapping-collinear and degenerate cases; hence it is symmetric.", "quantifier": "all pairs of segments", "why_tests_cant": "eight-dimensional continuum, degenerate cases have measure zero", "anchors": ["src/pyrusgeom/segment_2d.py: Segment2D.exist_intersection, check_intersects_on_line", "src/pyrusgeom/triangle_2d.py: Triangle2D.double_signed_area_st"]}
{"id": "C31", "title": "exist_intersection(line) decides whether a segment meets a line", "statement": "s.exist_intersection(l) is True exactly when some point of the segment satisfies the line equation.", "quantifier": "all segments and lines", "why_tests_cant": "existential over the segment", "anchors": ["src/pyrusgeom/segment_2d.py: Segment2D.exist_intersection"]}
{"id": "C32", "title": "exist_intersection_except_endpoint decides proper crossing", "statement": "It is True exactly when the segments are not collinear and share a point that is strictly interior to both; it is symmetric and implies exist_intersection.", "quantifier": "all pairs of segments", "why_tests_cant": "continuum with degenerate cases", "anchors": ["src/pyrusgeom/segment_2d.py: Segment2D.exist_intersection_except_endpoint, intersects_except_endpoint"]}
{"id": "C33", "title": "nearest_point is the nearest point", "statement": "nearest_point(p) belongs to the segment and no point of the segment is closer to p.", "quantifier": "all segments (also degenerate) and points", "why_tests_cant": "minimum over infinitely many points", "anchors": ["src/pyrusgeom/segment_2d.py: Segment2D.nearest_point"]}
{"id": "C34", "title": "Segment-point distance is the minimum distance", "statement": "dist(p) is the minimum of |p-q| over the points q of the segment, is never negative, never raises, equals |p - nearest_point(p)|, and is 0 exactly for points of the segment.", "quantifier": "all segments and points", "why_tests_cant": "minimum over infinitely many points", "anchors": ["src/pyrusgeom/segment_2d.py: Segment2D.dist"]}
{"id": "C35", "title": "Segment-segment distance is the minimum distance", "statement": "s1.dist(s2) is the minimum of |p-q| over p in s1, q in s2; symmetric; 0 exactly when they intersect.", "quantifier": "all pairs of segments", "why_tests_cant": "minimum over a product of infinite sets", "anchors": ["src/pyrusgeom/segment_2d.py: Segment2D.dist"]}
{"id": "C36", "title": "farthest_dist is the maximum distance", "statement": "farthest_dist(p) is the maximum of |p-q| over the points q of the segment.", "quantifier": "all segments and points", "why_tests_cant": "maximum over infinitely many points", "anchors": ["src/pyrusgeom/segment_2d.py: Segment2D.farthest_dist"]}
{"id": "C37", "title": "Segment projection is the foot of the perpendicular", "statement": "For a segment at least EPSILON long, projection(p) is valid exactly when the foot of the perpendicular from p lies within EPSILON of the segment, and then it is that foot; on_segment_weakly(p) holds exactly when that foot is within EPSILON of p in both coordinates.", "quantifier": "all segments and points", "why_tests_cant": "continuum", "anchors": ["src/pyrusgeom/segment_2d.py: Segment2D.projection, on_segment_weakly"]}
{"id": "C38", "title": "Segment intersection returns the crossing point", "statement": "s.intersection(other) (line, or segment with or without end points) returns, when valid, the unique common point of the two carrier lines, lying in both segments (up to the CALC_ERROR box for end points allowed, strictly inside for end points disallowed); and it is valid whenever such a point exists and the carrier lines are not near-parallel.", "quantifier": "all pairs of segments / segment and line", "why_tests_cant": "continuum", "anchors": ["src/pyrusgeom/segment_2d.py: Segment2D.intersection, contains"]}
{"id": "C39", "title": "Segment geometry does not depend on orientation", "statement": "swap/reverse exchange the end points, twice gives back the segment; reversed_segment leaves the receiver unchanged; length, contains, on_segment, exist_intersection, dist, farthest_dist are the same for a segment and its reverse.", "quantifier": "all segments and arguments", "why_tests_cant": "universal invariance", "anchors": ["src/pyrusgeom/segment_2d.py: Segment2D.swap, reverse, reversed_segment, length, contains"]}
{"id": "C40", "title": "Triangle containment is membership in the triangle", "statement": "Triangle2D.contains(p) (and tri_contains) is True exactly when p is a convex combination of the three vertices.", "quantifier": "all triangles including degenerate ones, all points", "why_tests_cant": "set equality; degenerate cases", "anchors": ["src/pyrusgeom/triangle_2d.py: Triangle2D.contains, tri_contains"]}
{"id": "C41", "title": "Signed area laws", "statement": "double_signed_area is invariant under cyclic rotation of the vertices and translation, changes sign when two vertices are exchanged, is 0 exactly for collinear vertices; area() is its half absolute value and signed_area its half; ccw holds exactly when it is positive.", "quantifier": "all vertex triples", "why_tests_cant": "universal identities", "anchors": ["src/pyrusgeom/triangle_2d.py: Triangle2D.double_signed_area_st, signed_area_st, area, tri_ccw"]}
{"id": "C42", "title": "Circumcenter is equidistant from the vertices", "statement": "If tri_circumcenter returns a valid point, it is at the same distance from the three vertices; it returns an invalid vector when the vertices are collinear.", "quantifier": "all vertex triples", "why_tests_cant": "universal; nearly-equal vertices", "anchors": ["src/pyrusgeom/triangle_2d.py: Triangle2D.tri_circumcenter", "src/pyrusgeom/line_2d.py: Line2D.perpendicular_bisector"]}
{"id": "C43", "title": "Orthocenter lies on the three altitudes", "statement": "If tri_orthocenter returns a valid point, the lines from it to each vertex are perpendicular to the opposite side; it is valid whenever the doubled area of the triangle is at least EPSILON.", "quantifier": "all vertex triples", "why_tests_cant": "universal", "anchors": ["src/pyrusgeom/triangle_2d.py: Triangle2D.tri_orthocenter"]}
{"id": "C44", "title": "Incenter is equidistant from the three sides", "statement": "If tri_incenter returns a valid point it has the same distance to the three side lines and lies inside the triangle.", "quantifier": "all triangles with sides not tiny", "why_tests_cant": "universal with trigonometry", "anchors": ["src/pyrusgeom/triangle_2d.py: Triangle2D.tri_incenter", "src/pyrusgeom/angle_deg.py: AngleDeg.bisect"]}
{"id": "C45", "title": "Centroid is the mean of the vertices", "statement": "centroid() returns the mean of the three vertices and never raises.", "quantifier": "all triangles", "why_tests_cant": "universal", "anchors": ["src/pyrusgeom/triangle_2d.py: Triangle2D.tri_centroid", "src/pyrusgeom/vector_2d.py: Vector2D.add"]}
{"id": "C46", "title": "Triangle validity", "statement": "is_valid() is True exactly when the three vertices are pairwise distinct and valid.", "quantifier": "all triangles", "why_tests_cant": "universal", "anchors": ["src/pyrusgeom/triangle_2d.py: Triangle2D.is_valid"]}
{"id": "C47", "title": "Triangle-line intersection returns the boundary points of the line", "statement": "Triangle2D.intersection(line) never raises and returns the number of crossing points (0, 1 or 2) together with the points, each on the line and on a side; for a Segment2D argument the points on the segment.", "quantifier": "all triangles and lines, rays, segments", "why_tests_cant": "continuum; control flow depends on which sides are hit", "anchors": ["src/pyrusgeom/triangle_2d.py: Triangle2D.intersection"]}
{"id": "C48", "title": "Circle radius is never negative and contains is the open disc", "statement": "After construction and any sequence of assign calls radius() >= 0 (negative input becomes 0); contains(p) is True exactly when the distance to the center is smaller than the radius; the area is pi r^2.", "quantifier": "all centers, radii, histories, points", "why_tests_cant": "universal", "anchors": ["src/pyrusgeom/circle_2d.py: Circle2D.__init__, assign, contains, area"]}
{"id": "C49", "title": "quadratic_f solves the quadratic", "statement": "For a != 0 and discriminant D: if D >= EPSILON the two returned numbers are exactly the two roots, larger-sign first; if D <= -EPSILON the list is empty and there is no real root; in the tolerance band it returns the vertex twice; a = 0 raises.", "quantifier": "all coefficient triples", "why_tests_cant": "universal", "anchors": ["src/pyrusgeom/circle_2d.py: quadratic_f"]}
{"id": "C50", "title": "Circle-line intersection is sound and complete", "statement": "Every point returned by circle.intersection(line) lies on the line and on the circle (exactly, outside the tolerance bands), at most two points are returned, and every common point is returned.", "quantifier": "all circles and lines", "why_tests_cant": "set equality over the plane", "anchors": ["src/pyrusgeom/circle_2d.py: Circle2D.intersection, quadratic_f", "src/pyrusgeom/line_2d.py: Line2D.get_x"]}
{"id": "C51", "title": "Circle-circle intersection is sound and complete", "statement": "Every point returned by circle.intersection(other_circle) lies on both circles (outside the tolerance bands) and every common point is returned; circles that are disjoint or nested give an empty list.", "quantifier": "all circle pairs with distinct centers", "why_tests_cant": "set equality", "anchors": ["src/pyrusgeom/circle_2d.py: Circle2D.intersection"]}
{"id": "C52", "title": "Circle-segment and circle-ray intersection keep exactly the points on the segment or ray", "statement": "circle.intersection(segment) returns those points of circle.intersection(segment.line()) that segment.contains accepts, in the same order; circle.intersection(ray) those that ray.in_right_dir(.,1.0) accepts.", "quantifier": "all circles, segments and rays", "why_tests_cant": "deletion while filtering a list of unknown length", "anchors": ["src/pyrusgeom/circle_2d.py: Circle2D.intersection"]}
{"id": "C53", "title": "Circumscribed circle passes through its points", "statement": "circum_circle(p0,p1,p2) has p0, p1, p2 on its boundary when a valid circumcenter exists; circum_circle_contains(q, ...) is True exactly when q is strictly inside (by more than the tolerance) the circle through three non-collinear points, independently of the order of the three points.", "quantifier": "all point quadruples", "why_tests_cant": "universal", "anchors": ["src/pyrusgeom/circle_2d.py: Circle2D.circum_circle, circum_circle_contains"]}
{"id": "C54", "title": "Sizes are never negative over any history", "statement": "After any sequence of Size2D assign/set_length/set_width and of Rect2D move_*, set_*, assign, set_size calls, length() >= 0 and width() >= 0, hence left() <= right() and top() <= bottom().", "quantifier": "all initial values and all finite operation sequences", "why_tests_cant": "unbounded histories", "anchors": ["src/pyrusgeom/size_2d.py: Size2D", "src/pyrusgeom/rect_2d.py: Rect2D"]}
{"id": "C55", "title": "Moving a rectangle keeps its size and places the named anchor", "statement": "move_center, move_top_left, move_bottom_right, move_left/right/top/bottom (and the min/max aliases) leave size() unchanged, put the named anchor at the given coordinate, and the single-axis ones leave the other axis alone.", "quantifier": "all rectangles and targets", "why_tests_cant": "universal", "anchors": ["src/pyrusgeom/rect_2d.py: Rect2D.move_center, move_top_left, move_bottom_right, move_left, move_right, move_top, move_bottom"]}
{"id": "C56", "title": "Setting one side of a rectangle keeps the opposite side", "statement": "set_left(x) leaves right() unchanged and makes left() == x (and similarly for right, top, bottom).", "quantifier": "all rectangles and all x, also beyond the opposite side", "why_tests_cant": "universal", "anchors": ["src/pyrusgeom/rect_2d.py: Rect2D.set_left, set_right, set_top, set_bottom"]}
{"id": "C57", "title": "Setting a corner of a rectangle keeps the opposite corner", "statement": "set_top_left(x,y) makes the top-left corner (x,y) and keeps the bottom-right corner when (x,y) is up-left of it; set_bottom_right likewise; assign(left, top, length, width) yields a rectangle with exactly these values.", "quantifier": "all rectangles and coordinates", "why_tests_cant": "universal", "anchors": ["src/pyrusgeom/rect_2d.py: Rect2D.set_top_left, set_bottom_right, assign"]}
{"id": "C58", "title": "A rectangle built from two corners spans them", "statement": "Rect2D(p, q) for two points is the smallest rectangle containing p and q, whatever their order.", "quantifier": "all point pairs", "why_tests_cant": "universal", "anchors": ["src/pyrusgeom/rect_2d.py: Rect2D.__init__"]}
{"id": "C59", "title": "Rectangle containment", "statement": "contains(p) is True exactly when left<=x<=right and top<=y<=bottom; the four corners and the center are contained; the contained set is convex; area() = length*width; contains_almost(p, thr) accepts exactly the points within thr of these bounds.", "quantifier": "all rectangles and points", "why_tests_cant": "universal", "anchors": ["src/pyrusgeom/rect_2d.py: Rect2D.contains, contains_almost, center, top_right, area"]}
{"id": "C60", "title": "intersected is set intersection", "statement": "r1.intersected(r2) contains exactly the points contained in both rectangles; empty when they do not overlap.", "quantifier": "all rectangle pairs and points", "why_tests_cant": "set equality", "anchors": ["src/pyrusgeom/rect_2d.py: Rect2D.intersected"]}
{"id": "C61", "title": "united contains both rectangles", "statement": "r1.united(r2) is the smallest rectangle containing both.", "quantifier": "all rectangle pairs", "why_tests_cant": "universal", "anchors": ["src/pyrusgeom/rect_2d.py: Rect2D.united"]}
{"id": "C62", "title": "Rectangle-line intersection", "statement": "r.intersection(line) returns at most two points, each on the line and on the boundary of the rectangle, and every line through the interior yields its two boundary points.", "quantifier": "all rectangles and lines", "why_tests_cant": "continuum; lines through a corner have measure zero", "anchors": ["src/pyrusgeom/rect_2d.py: Rect2D.intersection"]}
{"id": "C63", "title": "from_center places the center", "statement": "from_center(x,y,l,w) (and from_center(point,l,w)) yields a rectangle with that center and size for non-negative l,w.", "quantifier": "all inputs", "why_tests_cant": "universal", "anchors": ["src/pyrusgeom/rect_2d.py: Rect2D.from_center"]}
{"id": "C64", "title": "Sector containment is the annular sector", "statement": "Sector2D(c,min_r,max_r,start,end).contains(p) is True exactly when min_r <= |p-c| <= max_r and the direction of p-c is within [start,end], for 0 <= min_r <= max_r; radius_min/radius_max report the given radii; area is the corresponding fraction of the annulus.", "quantifier": "all sectors and points", "why_tests_cant": "universal", "anchors": ["src/pyrusgeom/sector_2d.py: Sector2D.__init__, contains, radius_min, radius_max, area"]}
{"id": "C65", "title": "Sector equality is reflexive", "statement": "s == s for every sector.", "quantifier": "all sectors", "why_tests_cant": "universal", "anchors": ["src/pyrusgeom/sector_2d.py: Sector2D.__eq__, radius_max"]}
{"id": "C66", "title": "Matrix product composes transforms", "statement": "(A*B).transform(v) equals A.transform(B.transform(v)); the product is associative; the identity is neutral; det(A*B)=det A det B; transform(v), transform(x,y) and transform_vec agree.", "quantifier": "all matrices and vectors", "why_tests_cant": "universal identity", "anchors": ["src/pyrusgeom/matrix_2d.py: Matrix2D.__mul__, __imul__, transform, transform_vec, det"]}
{"id": "C67", "title": "Matrix product does not modify its operands", "statement": "Evaluating A * B leaves A and B unchanged.", "quantifier": "all matrices, all heaps in which A and B live, also A is B", "why_tests_cant": "needs a model of object identity", "anchors": ["src/pyrusgeom/matrix_2d.py: Matrix2D.__mul__, __imul__"]}
{"id": "C68", "title": "Matrix inversion undoes the transform", "statement": "If det() != 0 then M.inverted().transform(M.transform(v)) == v and M.transform(M.inverted().transform(v)) == v, inverted().inverted() has the same elements; if det() == 0 inverted() is the identity; it never raises.", "quantifier": "all matrices and vectors", "why_tests_cant": "universal", "anchors": ["src/pyrusgeom/matrix_2d.py: Matrix2D.inverted, det, invertible"]}
{"id": "C69", "title": "In-place matrix operations equal left multiplication", "statement": "translate, scale and rotate change the matrix to make_translation*M, make_scaling*M, make_rotation*M, over any sequence of such calls; rotations preserve distances and have determinant 1.", "quantifier": "all matrices, all finite sequences of calls", "why_tests_cant": "unbounded histories", "anchors": ["src/pyrusgeom/matrix_2d.py: Matrix2D.translate, scale, rotate, make_translation, make_scaling, make_rotation"]}
{"id": "C70", "title": "Matrix equality is element-wise", "statement": "A == B exactly when all six elements agree; in particular A == A.", "quantifier": "all matrices", "why_tests_cant": "universal", "anchors": ["src/pyrusgeom/matrix_2d.py: Matrix2D.__eq__"]}
{"id": "C71", "title": "Polygon bounding box is the smallest enclosing rectangle", "statement": "For a non-empty polygon get_bounding_box() contains every vertex and is contained in every rectangle that does; for an empty vertex list it returns an empty rectangle without raising.", "quantifier": "polygons with any number of vertices", "why_tests_cant": "unbounded vertex lists", "anchors": ["src/pyrusgeom/polygon_2d.py: Polygon2D.get_bounding_box"]}
{"id": "C72", "title": "Polygon area laws", "statement": "double_signed_area is invariant under cyclic rotation of the vertex list and translation, changes sign under reversal, equals the triangle formula for three vertices and is additive when a polygon is cut along a diagonal; area() is half its absolute value; at most one of is_clockwise, is_counter_clockwise holds.", "quantifier": "vertex lists of any length", "why_tests_cant": "unbounded lists", "anchors": ["src/pyrusgeom/polygon_2d.py: Polygon2D.double_signed_area, area, is_clockwise, is_counter_clockwise"]}
{"id": "C73", "title": "Polygon containment follows the even-odd rule off the outline", "statement": "For a point not on the outline, contains(p) is True exactly when a horizontal half line from p crosses the outline an odd number of times; it does not depend on which vertex the list starts with or on orientation; for a convex polygon this is membership in the interior; points outside the bounding box are never contained.", "quantifier": "polygons with any number of vertices, all points", "why_tests_cant": "unbounded lists times a continuum", "anchors": ["src/pyrusgeom/polygon_2d.py: Polygon2D.contains"]}
{"id": "C74", "title": "Polygon containment honours allow_on_segment on the outline", "statement": "For a point on the outline, contains(p, True) is True and contains(p, False) is False.", "quantifier": "all polygons and outline points", "why_tests_cant": "outline has measure zero", "anchors": ["src/pyrusgeom/polygon_2d.py: Polygon2D.contains"]}
{"id": "C75", "title": "Polygon distance is the minimum distance", "statement": "dist(p, False) is the minimum distance from p to the points of the edges (for two or more vertices); dist(p) is 0 for contained points and the same minimum otherwise.", "quantifier": "polygons with any number of vertices", "why_tests_cant": "unbounded lists, minimum over infinitely many points", "anchors": ["src/pyrusgeom/polygon_2d.py: Polygon2D.dist"]}
{"id": "C76", "title": "Clipping by a half plane is sound", "statement": "get_line_clipped_polygon with a predicate and its boundary line returns only points in the half plane, each being an input vertex or the crossing point of an edge with the line; if all points satisfy the predicate the result is the input rotated by one.", "quantifier": "vertex lists of any length", "why_tests_cant": "unbounded lists", "anchors": ["src/pyrusgeom/polygon_2d.py: Polygon2D.get_line_clipped_polygon"]}
{"id": "C77", "title": "Rectangle clipping stays inside rectangle and polygon", "statement": "Every vertex of get_rectangle_clipped_polygon(rect) is inside rect, and inside the convex hull of the polygon.", "quantifier": "all polygons and rectangles", "why_tests_cant": "unbounded lists", "anchors": ["src/pyrusgeom/polygon_2d.py: Polygon2D.get_rectangle_clipped_polygon"]}
{"id": "C78", "title": "Gift wrapping computes the convex hull", "statement": "compute(WRAPPING_METHOD) on input without repeated points, without three points on a line bounding the hull, and with every doubled area zero or at least EPSILON, yields vertices that are input points, start with the lexicographically least one, contain no duplicates, and every input point is on the left of (or on) every directed edge between consecutive vertices (cyclically).", "quantifier": "input lists of any length at least 3", "why_tests_cant": "unbounded input", "anchors": ["src/pyrusgeom/convex_hull.py: ConvexHull.compute_wrapping_method, get_min_point_index"]}
{"id": "C79", "title": "Hull edges form the closed boundary", "statement": "After compute, edges() are exactly the segments between cyclically consecutive vertices().", "quantifier": "input lists of any length", "why_tests_cant": "unbounded input", "anchors": ["src/pyrusgeom/convex_hull.py: ConvexHull.compute_wrapping_method, compute_graham_scan"]}
{"id": "C80", "title": "Computing a hull does not alter the input points", "statement": "compute() leaves input_points() (and the caller's list) unchanged and calling it twice gives the same result.", "quantifier": "every input list, every method, every sequence of compute calls", "why_tests_cant": "aliasing between containers", "anchors": ["src/pyrusgeom/convex_hull.py: ConvexHull.compute_graham_scan, clear_results, __init__"]}
{"id": "C81", "title": "get_min_point_index finds the lexicographically least point", "statement": "It returns -1 for no points, otherwise the smallest index of a point that is least in (x, then y).", "quantifier": "lists of any length", "why_tests_cant": "unbounded lists", "anchors": ["src/pyrusgeom/convex_hull.py: ConvexHull.get_min_point_index"]}
{"id": "C82", "title": "list2set removes duplicates and keeps order", "statement": "The result contains the same elements, each once, in order of first occurrence; idempotent.", "quantifier": "lists of any length", "why_tests_cant": "unbounded lists", "anchors": ["src/pyrusgeom/convex_hull.py: list2set"]}
{"id": "C83", "title": "Inertia prediction equals step-by-step simulation", "statement": "inertia_n_step_point(pos, vel, n, decay) (decay != 1) equals the position after n steps of pos += vel; vel *= decay; travel/distance likewise; n and m steps compose; decay == 1 raises ZeroDivisionError.", "quantifier": "every n, position, velocity, decay", "why_tests_cant": "unbounded n", "anchors": ["src/pyrusgeom/soccer_math.py: inertia_n_step_travel, inertia_n_step_point, inertia_n_step_distance"]}
{"id": "C84", "title": "Final inertia travel is the limit of n-step travel", "statement": "For |decay| < 1, inertia_final_travel/point/distance is the limit of the n-step value as n grows, and for 0<=decay<1 and non-negative speed bounds it from above.", "quantifier": "all velocities, decays", "why_tests_cant": "limit statement", "anchors": ["src/pyrusgeom/soccer_math.py: inertia_final_travel, inertia_final_point, inertia_final_distance"]}
{"id": "C85", "title": "r_int is nearest-integer rounding and quantize snaps to the grid", "statement": "|r_int(x) - x| <= 1/2 for all x, r_int(-x) = -r_int(x), r_int(n) = n, monotone; quantize(v,q) is an integer multiple of q within q/2 of v and idempotent (q > 0); q = 0 raises.", "quantifier": "all reals", "why_tests_cant": "universal", "anchors": ["src/pyrusgeom/soccer_math.py: r_int, quantize"]}
{"id": "C86", "title": "r_int follows rint (ties to even)", "statement": "r_int(x) equals C rint(x) in the default rounding mode for all x.", "quantifier": "all reals", "why_tests_cant": "ties have measure zero", "anchors": ["src/pyrusgeom/soccer_math.py: r_int"]}
{"id": "C87", "title": "Unquantize brackets the original value", "statement": "If quantize(v,q) = d (q>0) then unquantize_min(d,q) <= v <= unquantize_max(d,q), and the bracket has width q.", "quantifier": "all v, q>0", "why_tests_cant": "universal", "anchors": ["src/pyrusgeom/soccer_math.py: unquantize_min, unquantize_max, quantize"]}
{"id": "C88", "title": "bound and min_max clamp", "statement": "For low <= high, bound(low,x,high) = min_max(low,x,high) lies in [low,high], equals x for x in the range, is monotone and idempotent.", "quantifier": "all triples", "why_tests_cant": "universal", "anchors": ["src/pyrusgeom/soccer_math.py: bound, min_max"]}
{"id": "C89", "title": "f_range enumerates the arithmetic progression", "statement": "f_range(start,stop,step) with step>0 yields exactly start + i*step for the i with value < stop, in order, and terminates; step<0 symmetric; f_range(stop) starts at 0 with step 1; step == 0 never terminates.", "quantifier": "all starts, stops, steps", "why_tests_cant": "unbounded generator length / non-termination", "anchors": ["src/pyrusgeom/soccer_math.py: f_range"]}
{"id": "C90", "title": "Geometric series helpers are inverse to each other", "statement": "calc_first_term_geom_series(s, ratio, n) is the first term whose n-term sum is s; calc_length_geom_series(first, s, ratio) is, when non-negative, the (real) length whose sum is s; it returns -1 when none exists; it does not raise for positive ratio.", "quantifier": "all sums, ratios, lengths", "why_tests_cant": "universal over reals and n", "anchors": ["src/pyrusgeom/soccer_math.py: calc_first_term_geom_series, calc_length_geom_series"]}
{"id": "C91", "title": "Kick and dash rates are monotone and continuous", "statement": "kick_rate decreases with distance and angle, symmetric in the sign of the angle, equals the power rate at contact straight ahead; dir_rate is even, 1 at 0, side_dash_rate at 90, back_dash_rate at 180, continuous at 90 and between the extremes.", "quantifier": "all parameters", "why_tests_cant": "universal", "anchors": ["src/pyrusgeom/soccer_math.py: kick_rate, dir_rate, effective_turn"]}
{"id": "C92", "title": "final_speed is the fixed point of the dash recurrence and decides can_over_speed_max", "statement": "For decay < 1, final_speed f satisfies f = f*decay + |power|*rate*effort, and can_over_speed_max is True exactly when final_speed > speed_max.", "quantifier": "all parameters", "why_tests_cant": "universal", "anchors": ["src/pyrusgeom/soccer_math.py: final_speed, can_over_speed_max"]}
{"id": "C93", "title": "wind_effect scales with the wind", "statement": "wind_effect returns the vector of length |speed*force/(weight*wind_weight)| in the wind direction.", "quantifier": "all parameters", "why_tests_cant": "universal", "anchors": ["src/pyrusgeom/soccer_math.py: wind_effect"]}
{"id": "C94", "title": "Constructors accept exactly the documented shapes", "statement": "Vector2D, AngleDeg, Line2D, Segment2D, Ray2D, Rect2D raise on every argument shape other than the documented ones and never on a documented one.", "quantifier": "every argument list of Python values", "why_tests_cant": "unbounded argument lists over all dynamic types", "anchors": ["src/pyrusgeom/vector_2d.py: Vector2D.__init__", "src/pyrusgeom/line_2d.py: Line2D.__init__", "src/pyrusgeom/segment_2d.py: Segment2D.__init__", "src/pyrusgeom/rect_2d.py: Rect2D.__init__", "src/pyrusgeom/angle_deg.py: AngleDeg.__init__"]}
{"id": "C95", "title": "Accessors named without underscore return independent copies", "statement": "Mutating the object returned by a query method (origin(), center(), nearest_point(), projection(), size(), vertices()) never changes the queried object.", "quantifier": "all heaps, all subsequent mutation sequences", "why_tests_cant": "aliasing is invisible to value-level tests", "anchors": ["src/pyrusgeom/segment_2d.py: Segment2D.nearest_point, projection, origin", "src/pyrusgeom/rect_2d.py: Rect2D.size, __init__", "src/pyrusgeom/polygon_2d.py: Polygon2D.vertices, __init__"]}
{"id": "C96", "title": "Normalisation survives floating-point rounding", "statement": "With every +,-,* rounded by any monotone rounding that keeps small integers and is odd (IEEE double without overflow), AngleDeg operations still give degree() in [-180,180] over any history, fmod being exact.", "quantifier": "every such rounding function, every history", "why_tests_cant": "quantifies over all floating-point inputs", "anchors": ["src/pyrusgeom/angle_deg.py: AngleDeg.normal, __iadd__, __isub__, __imul__"]}
{"id": "C97", "title": "Vertices lie in the bounding box in floating point", "statement": "With IEEE double rounding, get_bounding_box().contains(v) for every vertex v of the polygon.", "quantifier": "all double-valued polygons", "why_tests_cant": "depends on rounding of left + (right-left)", "anchors": ["src/pyrusgeom/polygon_2d.py: Polygon2D.get_bounding_box", "src/pyrusgeom/rect_2d.py: Rect2D.contains, right"]}
{"id": "C98", "title": "f_range ends and yields the expected numbers in floating point", "statement": "In IEEE double arithmetic f_range(start, stop, step) with a positive step below the span ends, and yields as many numbers as exact arithmetic does.", "quantifier": "all double arguments", "why_tests_cant": "non-termination and rounding drift of an unbounded loop", "anchors": ["src/pyrusgeom/soccer_math.py: f_range"]}
{"id": "C99", "title": "r_int and quantize round correctly in floating point", "statement": "In IEEE double arithmetic r_int(x) is the nearest integer for every double x (an integral double is returned unchanged), and quantize(v, q) is the double nearest to an integer multiple of q and is idempotent.", "quantifier": "all doubles", "why_tests_cant": "only large or borderline doubles go wrong", "anchors": ["src/pyrusgeom/soccer_math.py: r_int, quantize"]}
{"id": "C100", "title": "The unquantize bracket contains the value in floating point", "statement": "In IEEE double arithmetic unquantize_min(d, q) <= v <= unquantize_max(d, q) for d = quantize(v, q).", "quantifier": "all double values and steps", "why_tests_cant": "only borderline doubles go wrong", "anchors": ["src/pyrusgeom/soccer_math.py: quantize, unquantize_min, unquantize_max"]}
{"id": "C101", "title": "Size2D: diagonal, validity and equality; copies of Rect2D", "statement": "diagonal() is the distance of opposite corners of any rectangle with that size; is_valid() holds exactly for two nonzero extents (for a rectangle: exactly if it has interior points); == holds exactly if both extents differ by less than EPSILON, hence is reflexive and symmetric; Rect2D(r) covers the same region as r.", "quantifier": "all sizes, all rectangle histories", "why_tests_cant": "universal over histories", "anchors": ["src/pyrusgeom/size_2d.py: Size2D.diagonal, is_valid, __eq__", "src/pyrusgeom/rect_2d.py: Rect2D.is_valid, __init__"]}
{"id": "C102", "title": "A rectangle contains its corners and its center in floating point", "statement": "In IEEE double arithmetic, after any history of mutations, the sizes are not negative, left() <= right(), top() <= bottom(), and contains() accepts the computed corners and the computed center.", "quantifier": "all histories with double arguments", "why_tests_cant": "depends on rounding of every step", "anchors": ["src/pyrusgeom/rect_2d.py: Rect2D.contains, center, right, bottom"]}
{"id": "C103", "title": "Moving and setting sides is exact in floating point", "statement": "In IEEE double arithmetic move_right(x) makes right() == x (likewise the other moves), and set_left(x) keeps right() (likewise the other sides).", "quantifier": "all double rectangles and arguments", "why_tests_cant": "rounding of x - length + length", "anchors": ["src/pyrusgeom/rect_2d.py: Rect2D.move_right, move_bottom, move_bottom_right, set_left, set_right, set_top, set_bottom"]}
{"id": "C104", "title": "Distance is a metric in floating point", "statement": "In IEEE double arithmetic dist is non-negative, symmetric, zero exactly between equal points, and satisfies the triangle inequality.", "quantifier": "all double points", "why_tests_cant": "underflow and last-place rounding", "anchors": ["src/pyrusgeom/vector_2d.py: Vector2D.dist, dist2, inner_product, outer_product"]}
{"id": "C105", "title": "Circle containment is decided correctly in floating point", "statement": "In IEEE double arithmetic circle.contains(p) is True exactly if the exact distance of p from the center is below the radius.", "quantifier": "all double circles and points", "why_tests_cant": "rounding near the boundary", "anchors": ["src/pyrusgeom/circle_2d.py: Circle2D.contains", "src/pyrusgeom/vector_2d.py: Vector2D.dist2"]}
{"id": "C106", "title": "Orientation is decided correctly in floating point", "statement": "In IEEE double arithmetic the sign of double_signed_area and tri_ccw(a,b,c) are those of the exact orientation.", "quantifier": "all double triples", "why_tests_cant": "cancellation and underflow", "anchors": ["src/pyrusgeom/triangle_2d.py: Triangle2D.double_signed_area_st, tri_ccw"]}
{"id": "C107", "title": "Whole-degree arithmetic is exact in floating point", "statement": "In IEEE double arithmetic an AngleDeg built and changed with whole degrees (up to 2**45) keeps an exact whole degree in [-180,180], the one of exact arithmetic, and its comparisons are exact.", "quantifier": "all integer arguments up to 2**45, all histories", "why_tests_cant": "unbounded histories, all roundings", "anchors": ["src/pyrusgeom/angle_deg.py: AngleDeg.normal, __iadd__, __isub__, __imul__, reverse, is_left_of, is_within"]}
{"id": "C108", "title": "Angle comparison is right in floating point", "statement": "In IEEE double arithmetic is_left_of, is_right_of (and the equal variants) agree with the exact comparison of the stored degrees.", "quantifier": "all double angles", "why_tests_cant": "only borderline doubles go wrong", "anchors": ["src/pyrusgeom/angle_deg.py: AngleDeg.is_left_of, is_right_of, is_left_equal_of, is_right_equal_of"]}
{"id": "C109", "title": "Triangle2D and Polygon2D of three vertices agree", "statement": "For every non-degenerate triangle and point off the outline Polygon2D([a,b,c]).contains and Triangle2D(a,b,c).contains agree; on the outline the triangle accepts and the polygon with allow_on_segment=False rejects; areas, signed areas and orientation agree for all triples.", "quantifier": "all triples and points", "why_tests_cant": "universal over a continuum", "anchors": ["src/pyrusgeom/triangle_2d.py: Triangle2D.contains, signed_area, double_signed_area, ccw", "src/pyrusgeom/polygon_2d.py: Polygon2D.contains, area, double_signed_area, is_clockwise"]}
{"id": "C110", "title": "Rect2D and Polygon2D of its corners agree", "statement": "The polygon of the corners of a rectangle has the area, bounding box and center of the rectangle, is oriented non-negatively, and for positive extents contains the same points off the outline.", "quantifier": "all rectangles and points", "why_tests_cant": "universal over a continuum", "anchors": ["src/pyrusgeom/rect_2d.py: Rect2D.contains, area, center", "src/pyrusgeom/polygon_2d.py: Polygon2D.contains, area, get_bounding_box"]}
{"id": "C111", "title": "Matrix2D transforms and areas, distances and containment", "statement": "Every matrix multiplies signed areas by its determinant and determinants multiply along any sequence of operations; invertible matrices preserve triangle containment and segment intersection tests; any sequence of rotations and translations preserves distances, lengths, polygon outline distance, circle containment and orientation.", "quantifier": "all matrices, operation sequences, shapes", "why_tests_cant": "universal over histories", "anchors": ["src/pyrusgeom/matrix_2d.py: Matrix2D.transform, rotate, translate, scale, det", "src/pyrusgeom/triangle_2d.py: Triangle2D.contains", "src/pyrusgeom/segment_2d.py: Segment2D.exist_intersection, dist, farthest_dist"]}
{"id": "C112", "title": "Triangle centers do not depend on vertex order and fit together", "statement": "The circumcenter, orthocenter and incenter of a triangle are the same point for every order of the vertices (with the same validity for the first two); orthocenter + 2*circumcenter = a + b + c; the circumscribed circle is centred there with the distance to every vertex as radius.", "quantifier": "all triples", "why_tests_cant": "universal over a continuum", "anchors": ["src/pyrusgeom/triangle_2d.py: Triangle2D.circumcenter, orthocenter, incenter", "src/pyrusgeom/circle_2d.py: Circle2D.circumcircle"]}
{"id": "C113", "title": "The Graham scan computes the convex hull", "statement": "compute(GRAHAM_SCAN) on at least three points in general position returns exactly the vertices of the convex hull, in clockwise order, with the edges joining consecutive vertices.", "quantifier": "input lists of any length", "why_tests_cant": "unbounded input; loop invariant over the scan", "anchors": ["src/pyrusgeom/convex_hull.py: ConvexHull.compute_graham_scan, sort_points_angle_from, get_min_point_index, is_clockwise, angle_sort_predicate"]}
{"id": "C114", "title": "The direct method finds the edges and vertices of the convex hull", "statement": "compute(DIRECT_METHOD) on at least three points in general position returns every edge of the convex hull exactly once, directed clockwise with all points on its right, and every vertex of the hull exactly once.", "quantifier": "input lists of any length", "why_tests_cant": "unbounded input; O(n^3) pair tests", "anchors": ["src/pyrusgeom/convex_hull.py: ConvexHull.compute_direct_method, list2set, angle_sort_predicate"]}
{"id": "C115", "title": "AngleSortPredicate is an ordering", "statement": "The comparisons of AngleSortPredicate keys with a common base are those of a strict weak order: == is reflexive, < is asymmetric and transitive, a < b exactly if b > a, and a < b exactly if base, a, b turn clockwise (nearer or farther first on a line through the base).", "quantifier": "all points and bases", "why_tests_cant": "order axioms over a continuum", "anchors": ["src/pyrusgeom/convex_hull.py: AngleSortPredicate.__lt__, __gt__, __eq__, __le__, __ge__, __ne__, angle_sort_predicate"]}
{"id": "C116", "title": "The direct method returns the vertices in polygon order", "statement": "compute(DIRECT_METHOD) on at least three points in general position returns the vertices in clockwise order of the convex hull, as the Graham scan does.", "quantifier": "input lists of any length", "why_tests_cant": "unbounded input; depends on the sort base", "anchors": ["src/pyrusgeom/convex_hull.py: ConvexHull.compute_direct_method, angle_sort_predicate, list2set"]}
{"id": "C117", "title": "The hull methods accept repeated and collinear points", "statement": "compute on any three or more points, repeated and collinear ones included, returns a polygon with the same convex hull as the input (gift wrapping) and only edges with all points on one side (direct method).", "quantifier": "all input lists", "why_tests_cant": "degenerate configurations are measure zero", "anchors": ["src/pyrusgeom/convex_hull.py: ConvexHull.compute_wrapping_method, compute_direct_method"]}
{"id": "C118", "title": "Triangle area, orientation and containment are exact on a grid in floating point", "statement": "In IEEE double arithmetic, for points whose coordinates are integer multiples (up to 2**25) of a common power of two 2**k (k >= -536), double_signed_area, signed_area, area and ccw of a triangle are exact, and contains decides membership in every non-degenerate triangle.", "quantifier": "all doubles that are integer multiples (up to 2**25) of one power of two, e.g. all integer coordinates up to 2**25", "why_tests_cant": "all roundings of all grid points", "anchors": ["src/pyrusgeom/triangle_2d.py: Triangle2D.double_signed_area_st, signed_area, area, tri_ccw, tri_contains, contains"]}
{"id": "C119", "title": "Segment intersection is exact on a grid in floating point", "statement": "In IEEE double arithmetic, for end points on a common grid (k >= -268), exist_intersection decides whether two segments share a point, exist_intersection_except_endpoint whether their interiors cross, and on_segment whether a point is on a segment with two different end points.", "quantifier": "all doubles that are integer multiples (up to 2**25) of one power of two, e.g. all integer coordinates up to 2**25", "why_tests_cant": "all roundings of all grid points", "anchors": ["src/pyrusgeom/segment_2d.py: Segment2D.exist_intersection, exist_intersection_except_endpoint, on_segment, check_intersects_on_line"]}
{"id": "C120", "title": "Distances, circle and rectangle containment are exact on a grid in floating point", "statement": "In IEEE double arithmetic, for points on a common grid, dist2 is exact and dist is the correctly rounded distance and never reverses an order; Circle2D.contains and Rect2D.contains decide membership in the open disc and the closed rectangle.", "quantifier": "all doubles that are integer multiples (up to 2**25) of one power of two, e.g. all integer coordinates up to 2**25", "why_tests_cant": "all roundings of all grid points", "anchors": ["src/pyrusgeom/vector_2d.py: Vector2D.dist, dist2", "src/pyrusgeom/circle_2d.py: Circle2D.contains", "src/pyrusgeom/rect_2d.py: Rect2D.contains"]}
{"id": "C121", "title": "Polygon area and orientation are exact on a grid in floating point", "statement": "In IEEE double arithmetic, for a polygon of n vertices with coordinates that are multiples up to M of a power of two and n*2*M**2 <= 2**53, double_signed_area, area, is_clockwise and is_counter_clockwise are exact.", "quantifier": "polygons of any length", "why_tests_cant": "unbounded sums of roundings", "anchors": ["src/pyrusgeom/polygon_2d.py: Polygon2D.double_signed_area, area, is_clockwise, is_counter_clockwise"]}
{"id": "C122", "title": "Polygon containment is exact on a grid in floating point", "statement": "In IEEE double arithmetic, for vertices and point on a common grid (k >= -268), Polygon2D.contains gives the answer of exact arithmetic, so the even-odd rule and, for convex polygons, membership in the interior, although the end of the virtual half line is rounded.", "quantifier": "polygons of any length", "why_tests_cant": "unbounded polygons, rounding of the far point", "anchors": ["src/pyrusgeom/polygon_2d.py: Polygon2D.contains", "src/pyrusgeom/segment_2d.py: Segment2D.exist_intersection, on_segment"]}
{"id": "C123", "title": "Gift wrapping computes the exact convex hull on a grid in floating point", "statement": "In IEEE double arithmetic, for at least three distinct points on a grid of step at least 2**-9 with no three on a line bounding the hull, compute(WRAPPING_METHOD) returns input points, starting with the lowest leftmost one, that form a strictly convex counterclockwise polygon with the same convex hull as the input; to_polygon().contains(p, False) decides membership in its interior.", "quantifier": "input lists of any length", "why_tests_cant": "unbounded input, all roundings", "anchors": ["src/pyrusgeom/convex_hull.py: ConvexHull.compute_wrapping_method, get_min_point_index, to_polygon", "src/pyrusgeom/triangle_2d.py: Triangle2D.double_signed_area_st"]}
{"id": "C124", "title": "The direct method finds the exact hull on a grid in floating point", "statement": "In IEEE double arithmetic, for at least three points on a grid of step at least 2**-9, no three on a line, compute(DIRECT_METHOD) returns every hull vertex once and every hull edge once, directed clockwise with no point on its left, whatever order the sort leaves.", "quantifier": "input lists of any length, any permuting sort", "why_tests_cant": "unbounded input, all roundings", "anchors": ["src/pyrusgeom/convex_hull.py: ConvexHull.compute_direct_method, list2set, angle_sort_predicate"]}
{"id": "C125", "title": "The Graham scan is exact on a grid in floating point when its sort base is the pivot", "statement": "In IEEE double arithmetic, for at least three points on a grid of step at least 2**-9, no three on a line, with the origin among them and none above it, compute(GRAHAM_SCAN) returns without an exception the hull vertices in clockwise order starting at the origin and the edges of the hull; the direct method returns the same list.", "quantifier": "input lists of any length, any sorting function", "why_tests_cant": "unbounded input, all roundings", "anchors": ["src/pyrusgeom/convex_hull.py: ConvexHull.compute_graham_scan, compute_direct_method, sort_points_angle_from, is_clockwise"]}
{"id": "C126", "title": "The text of an object determines its numbers", "statement": "For every class repr is unambiguous: two objects of the class have the same repr exactly if the texts of all their coordinates, coefficients, angles and radii agree in order; for polygons and convex hulls of any length. A line leaves out c exactly if it is zero.", "quantifier": "all objects, any text function of numbers without delimiter characters", "why_tests_cant": "unbounded lists of vertices; ambiguity needs two unlucky objects", "anchors": ["src/pyrusgeom/vector_2d.py: Vector2D.__repr__", "src/pyrusgeom/angle_deg.py: AngleDeg.__repr__", "src/pyrusgeom/circle_2d.py: Circle2D.__repr__", "src/pyrusgeom/line_2d.py: Line2D.__repr__", "src/pyrusgeom/matrix_2d.py: Matrix2D.__repr__", "src/pyrusgeom/polygon_2d.py: Polygon2D.__repr__", "src/pyrusgeom/ray_2d.py: Ray2D.__repr__", "src/pyrusgeom/rect_2d.py: Rect2D.__repr__", "src/pyrusgeom/sector_2d.py: Sector2D.__repr__", "src/pyrusgeom/segment_2d.py: Segment2D.__repr__", "src/pyrusgeom/size_2d.py: Size2D.__repr__", "src/pyrusgeom/triangle_2d.py: Triangle2D.__repr__", "src/pyrusgeom/convex_hull.py: ConvexHull.__repr__"]}
{"id": "C127", "title": "to_str appends the description of the shape", "statement": "to_str(ostr) of Circle2D, Segment2D, Triangle2D and Rect2D returns ostr followed by the kind of the shape and its rounded numbers separated by one blank, in parentheses.", "quantifier": "all shapes and strings", "why_tests_cant": "universal", "anchors": ["src/pyrusgeom/circle_2d.py: Circle2D.to_str", "src/pyrusgeom/segment_2d.py: Segment2D.to_str", "src/pyrusgeom/triangle_2d.py: Triangle2D.to_str", "src/pyrusgeom/rect_2d.py: Rect2D.to_str"]}
{"id": "C128", "title": "Coordinates of bounded size never overflow", "statement": "With IEEE overflow, infinities and NaN modelled, the tests compute the same results as without overflow for coordinates up to 2**510 (triangle area and containment, distances, circles, gift wrapping), 2**254 (segment intersection), 2**122 (polygon containment), 2**484 (polygon area) and 2**1022 (rectangles); hence on a grid triangle and convex polygon containment and gift wrapping are exact in double precision including overflow.", "quantifier": "all doubles up to the bound, polygons and point lists of any length", "why_tests_cant": "2**63 magnitudes per coordinate, unbounded loops", "anchors": ["src/pyrusgeom/triangle_2d.py: Triangle2D.double_signed_area_st, tri_contains", "src/pyrusgeom/segment_2d.py: Segment2D.exist_intersection, on_segment", "src/pyrusgeom/vector_2d.py: Vector2D.dist2", "src/pyrusgeom/circle_2d.py: Circle2D.contains", "src/pyrusgeom/rect_2d.py: Rect2D.contains", "src/pyrusgeom/polygon_2d.py: Polygon2D.contains, double_signed_area", "src/pyrusgeom/convex_hull.py: ConvexHull.compute_wrapping_method"]}
{"id": "C129", "title": "A point with a NaN coordinate is in no region", "statement": "contains of Rect2D, Circle2D, Triangle2D, Sector2D, Polygon2D and Segment2D, and on_segment, answer False for a point with a NaN coordinate; a rectangle, circle, triangle or sector with NaN in its numbers, or a rectangle from minus infinity of infinite length, contains no point.", "quantifier": "all points and regions with NaN or infinite numbers", "why_tests_cant": "special values in every position", "anchors": ["src/pyrusgeom/rect_2d.py: Rect2D.contains", "src/pyrusgeom/circle_2d.py: Circle2D.contains", "src/pyrusgeom/triangle_2d.py: Triangle2D.contains", "src/pyrusgeom/sector_2d.py: Sector2D.contains", "src/pyrusgeom/polygon_2d.py: Polygon2D.contains", "src/pyrusgeom/segment_2d.py: Segment2D.contains, on_segment"]}
{"id": "C130", "title": "Every vector equals itself", "statement": "v == v and v.equals_weakly(v) are True for every vector of doubles, special values included.", "quantifier": "all vectors of doubles", "why_tests_cant": "special values", "anchors": ["src/pyrusgeom/vector_2d.py: Vector2D.__eq__, equals_weakly"]}
{"id": "C131", "title": "Clamping gives a number within the limits for every argument", "statement": "bound(low, x, high) and min_max(low, x, high) with low <= high return a number from low to high for every double x, infinities and NaN included; NaN becomes low.", "quantifier": "all doubles", "why_tests_cant": "special values", "anchors": ["src/pyrusgeom/soccer_math.py: bound, min_max"]}
{"id": "C132", "title": "AngleDeg of special values", "statement": "AngleDeg of any finite double is a number from -180 to 180 with overflow modelled; AngleDeg(NaN) is NaN, as is every sum, difference, multiple, negation and reverse of it, it is neither equal to nor left nor right of any angle, and within no range.", "quantifier": "all doubles", "why_tests_cant": "special values", "anchors": ["src/pyrusgeom/angle_deg.py: AngleDeg.normal, __add__, __sub__, __mul__, __neg__, reverse, __eq__, is_left_of, is_right_of, is_left_equal_of, is_right_equal_of, is_within"]}
{"id": "C133", "title": "Triangle containment accepts every inner point of finite coordinates", "statement": "tri_contains(a, b, c, p) is True whenever p is a convex combination of a, b, c and all coordinates are finite doubles on a common grid.", "quantifier": "all finite grid points", "why_tests_cant": "overflow to infinity", "anchors": ["src/pyrusgeom/triangle_2d.py: Triangle2D.tri_contains"]}
{"id": "C134", "title": "Triangle containment and segment intersection are right for all doubles away from a tie", "statement": "In IEEE double arithmetic, for any double coordinates: if the point is off each edge line of the triangle by more than the rounding error of its two products (relative 2**-50), tri_contains and Triangle2D.contains are True exactly for points of the triangle; if no end point of one segment is that close to the line of the other, exist_intersection is True exactly if the segments meet.", "quantifier": "all doubles with a clear turn (multiples of 2**-268 for segments)", "why_tests_cant": "2**64 values per coordinate; the margin is tiny", "anchors": ["src/pyrusgeom/triangle_2d.py: Triangle2D.tri_contains, contains", "src/pyrusgeom/segment_2d.py: Segment2D.exist_intersection, on_segment"]}
{"id": "C135", "title": "Rounding error of the polygon area", "statement": "In IEEE double arithmetic, for n <= 2**25 vertices with coordinates up to M, double_signed_area is off by at most B = (n*n + 7n) * 2**-53 * M*M + n * 2**-1073, area by half of that, and is_counterclockwise and is_clockwise are right if the doubled area exceeds B.", "quantifier": "polygons of up to 2**25 vertices, all doubles", "why_tests_cant": "error accumulates over the loop", "anchors": ["src/pyrusgeom/polygon_2d.py: Polygon2D.area, double_signed_area, is_counterclockwise, is_clockwise"]}
{"id": "C136", "title": "Polygon containment is right for all doubles away from the boundary", "statement": "In IEEE double arithmetic, for any polygon and point with double coordinates that are multiples of 2**-240, if the point is clear of every edge and not within rounding error of the leftmost or lowest vertex position from outside, Polygon2D.contains follows the even-odd rule and, for convex polygons, membership in the interior.", "quantifier": "polygons of any length, all such doubles", "why_tests_cant": "unbounded polygons, rounding of the far point", "anchors": ["src/pyrusgeom/polygon_2d.py: Polygon2D.contains", "src/pyrusgeom/segment_2d.py: Segment2D.exist_intersection, on_segment"]}
{"id": "C137", "title": "Gift wrapping computes the exact convex hull of arbitrary doubles in general position", "statement": "In IEEE double arithmetic, for at least three points with any double coordinates, none repeated and no three nearly on a line (doubled area above 2*EPSILON plus its rounding error), compute(WRAPPING_METHOD) returns input points, starting with the lowest leftmost one, that form a strictly convex counterclockwise polygon with exactly the convex hull of the input.", "quantifier": "input lists of any length, all doubles", "why_tests_cant": "unbounded input, all roundings", "anchors": ["src/pyrusgeom/convex_hull.py: ConvexHull.compute_wrapping_method, get_min_point_index", "src/pyrusgeom/triangle_2d.py: Triangle2D.double_signed_area_st"]}
{"id": "C138", "title": "The direct method finds the exact hull of arbitrary doubles in general position", "statement": "In IEEE double arithmetic, under the same conditions, compute(DIRECT_METHOD) returns every hull vertex once and every hull edge once, directed clockwise with no point on its left, whatever order the sort leaves.", "quantifier": "input lists of any length, all doubles, any permuting sort", "why_tests_cant": "unbounded input, all roundings", "anchors": ["src/pyrusgeom/convex_hull.py: ConvexHull.compute_direct_method, list2set"]}
{"id": "C139", "title": "The Graham scan is exact for arbitrary doubles in general position when its sort base is the pivot", "statement": "In IEEE double arithmetic, under the same conditions, for coordinates up to 2**500, with the origin among the points and none above it, compute(GRAHAM_SCAN) returns without an exception the hull vertices in clockwise order starting at the origin and the edges of the hull; the direct method returns the same list.", "quantifier": "input lists of any length, all such doubles, any sorting function", "why_tests_cant": "unbounded input, all roundings", "anchors": ["src/pyrusgeom/convex_hull.py: ConvexHull.compute_graham_scan, compute_direct_method, sort_points_angle_from, is_clockwise"]}
{"id": "C140", "title": "Quantised distances", "statement": "quantize_dist(d, q) with q > 0 and d > -1e-10 returns a nonnegative multiple of 0.1 between (d + 1e-10) * e**(-q/2) - 0.05 and (d + 1e-10) * e**(q/2) + 0.05, never decreases with d, raises ValueError exactly for d <= -1e-10 and ZeroDivisionError for q = 0.", "quantifier": "all reals", "why_tests_cant": "rounding of a logarithm", "anchors": ["src/pyrusgeom/soccer_math.py: quantize_dist, quantize"]}
{"id": "C141", "title": "unquantize_error bounds the uncertainty of a seen distance", "statement": "If s is what quantize_dist(d, q) and quantize_dist(d2, q) return, q > 0, then unquantize_error(s, q) returns a number at least abs(d - d2).", "quantifier": "all reals", "why_tests_cant": "whole intervals of distances share one value", "anchors": ["src/pyrusgeom/soccer_math.py: unquantize_error, unquantize_min, unquantize_max, quantize_dist"]}
{"id": "C142", "title": "Equality of rays and segments", "statement": "Two rays are equal exactly if they start at the same point and their directions differ by less than 1e-6 degrees modulo 360; two segments exactly if origin and terminal coincide, weakly if every coordinate differs by less than 1e-6. All are reflexive and symmetric, equality of segments is transitive, equality of rays is not.", "quantifier": "all rays and segments", "why_tests_cant": "infinite domain", "anchors": ["src/pyrusgeom/ray_2d.py: Ray2D.__eq__", "src/pyrusgeom/segment_2d.py: Segment2D.__eq__, equals_weakly"]}
{"id": "C143", "title": "Small operations on vectors and angles mean what their names say", "statement": "abs, reverse, reverse_vector, set_dir, the coordinate setters, validate and invalidate, the static products and radian() have their usual mathematical meaning; set_dir keeps the length.", "quantifier": "all vectors and angles", "why_tests_cant": "infinite domain", "anchors": ["src/pyrusgeom/vector_2d.py: Vector2D.abs, abs_x, abs_y, reverse, reverse_vector, set_dir, set_x_y, set_x, set_y, validate, invalidate, set_vector, inner_product_static, outer_product_static", "src/pyrusgeom/angle_deg.py: AngleDeg.radian"]}
{"id": "C144", "title": "The angle bisector line is the mirror axis of the two directions", "statement": "Line2D.angle_bisector(p, left, right) is the line through p in direction (left + right) / 2; if the directions differ, it consists of the points equally far from the points one unit away from p in the two directions.", "quantifier": "all points and angles", "why_tests_cant": "infinite domain", "anchors": ["src/pyrusgeom/line_2d.py: Line2D.angle_bisector"]}
{"id": "C145", "title": "Constructors of circles and triangles accept exactly the usable arguments", "statement": "Circle2D(c, r) returns exactly for a Vector2D and a number and clamps a negative radius to 0; Triangle2D(*args) returns exactly for three Vector2D or a Segment2D and a Vector2D; three numbers, as in its docstring, raise.", "quantifier": "all argument lists of Python values", "why_tests_cant": "all combinations of types", "anchors": ["src/pyrusgeom/circle_2d.py: Circle2D.__init__", "src/pyrusgeom/triangle_2d.py: Triangle2D.__init__, assign"]}
{"id": "C146", "title": "Which operations change objects in place and which give independent ones", "statement": "assign, += and rotate of vectors, += of angles, assign of sizes, swap of segments, *= of matrices return the receiver and change only it (transform_vec: its argument). Constructors, rotated, multiply_vec and inverted give objects that share nothing with what existed.", "quantifier": "all heaps, arbitrary aliasing", "why_tests_cant": "aliasing", "anchors": ["src/pyrusgeom/vector_2d.py: Vector2D.assign, __iadd__, rotate, rotated_vector", "src/pyrusgeom/angle_deg.py: AngleDeg.__iadd__", "src/pyrusgeom/size_2d.py: Size2D.assign", "src/pyrusgeom/segment_2d.py: Segment2D.swap, origin_", "src/pyrusgeom/matrix_2d.py: Matrix2D.__imul__, transform_vec, inverted"]}
{"id": "C147", "title": "Polygons and hulls own or share their lists as documented", "statement": "Polygon2D(list) and to_polygon() have a list of their own; add_vertex changes one polygon's list only; ConvexHull.add_point appends to the very list the hull was made from and changes nothing else.", "quantifier": "all heaps, arbitrary aliasing", "why_tests_cant": "aliasing", "anchors": ["src/pyrusgeom/polygon_2d.py: Polygon2D.__init__, add_vertex", "src/pyrusgeom/convex_hull.py: ConvexHull.add_point, to_polygon"]}
{"id": "C148", "title": "A polygon that is cleared and refilled consists of the new vertices", "statement": "After clear() and add_vertex for each point of vs, the vertices are vs.", "quantifier": "all lists of points", "why_tests_cant": "any number of calls", "anchors": ["src/pyrusgeom/polygon_2d.py: Polygon2D.clear, add_vertex, assign, __init__"]}
{"id": "C149", "title": "Points can be added to a hull at any time", "statement": "After any sequence of add_point, add_points, clear and compute calls on a hull, compute gives the hull of all points collected since the last clear, as on a fresh object.", "quantifier": "call sequences of any length, all points", "why_tests_cant": "unbounded histories", "anchors": ["src/pyrusgeom/convex_hull.py: ConvexHull.add_point, add_points, clear, clear_results, compute"]}
{"id": "C150", "title": "add_points ends and appends the given points", "statement": "add_points(l) returns, appends the elements of l in order to the hull's list and changes no other object.", "quantifier": "all heaps, lists of any length", "why_tests_cant": "aliasing, nontermination", "anchors": ["src/pyrusgeom/convex_hull.py: ConvexHull.add_points, add_point"]}
{"id": "C151", "title": "Polygon containment does not depend on the half line that is used", "statement": "For a point off the outline of any polygon, contains(p) is True exactly if any half line from p that passes through no vertex meets an odd number of edges, in whatever direction; equivalently, if p is in an odd number of the triangles spanned by the edges and any one further point.", "quantifier": "all polygons, points off the outline, all directions", "why_tests_cant": "arbitrary, also self-intersecting polygons", "anchors": ["src/pyrusgeom/polygon_2d.py: Polygon2D.contains"]}
{"id": "C152", "title": "Polygon containment is invariant under transforms", "statement": "For every invertible Matrix2D M and every point off the outline, the polygon of the transformed vertices contains M.transform(p) exactly if the polygon contains p.", "quantifier": "all polygons, points off the outline, matrices with nonzero determinant", "why_tests_cant": "the algorithm uses a fixed direction", "anchors": ["src/pyrusgeom/polygon_2d.py: Polygon2D.contains", "src/pyrusgeom/matrix_2d.py: Matrix2D.transform"]}
{"id": "C153", "title": "Polygon containment adds up along diagonals", "statement": "If a polygon is split by a diagonal, a point off the outlines of the two parts is contained in the whole exactly if it is contained in one part and not in the other.", "quantifier": "all polygons, all diagonals", "why_tests_cant": "arbitrary polygons", "anchors": ["src/pyrusgeom/polygon_2d.py: Polygon2D.contains"]}
{"id": "C154", "title": "Inclusive side tests of angles", "statement": "a.is_left_equal_of(b) is True exactly if b is reached from a by a clockwise turn of at least 0 and less than 180 degrees, and a.is_right_equal_of(b) exactly if b.is_left_equal_of(a); each is the strict test or equality.", "quantifier": "all normalised angles", "why_tests_cant": "a boundary of measure zero in two parameters", "anchors": ["src/pyrusgeom/angle_deg.py: AngleDeg.is_left_equal_of, is_right_equal_of"]}
{"id": "C155", "title": "Absolute angle, default angle, vector division, segment validity and direction", "statement": "abs() is the size of the least turn from direction 0; AngleDeg() is 0; v / s divides both coordinates and raises exactly for s = 0; Segment2D.is_valid holds exactly if the end points differ by the tolerance in a coordinate, and then walking length() in direction() leads from the origin to the terminal.", "quantifier": "all angles, vectors, numbers and segments", "why_tests_cant": "continuous inputs", "anchors": ["src/pyrusgeom/angle_deg.py: AngleDeg.abs, __init__", "src/pyrusgeom/vector_2d.py: Vector2D.__truediv__", "src/pyrusgeom/segment_2d.py: Segment2D.is_valid, direction, length"]}
{"id": "C156", "title": "Constructors and accessors return new objects with the right values", "statement": "Segment2D, Ray2D, Circle2D and Rect2D built from objects, and the accessors of segments, rays, circles, sectors, triangles and rectangles, succeed on well-typed objects, leave every existing object as it is, and return new objects with the values of the arguments or parts (a negative radius becomes 0, sides their absolute values; Rect2D(point, size) takes the size object itself).", "quantifier": "all heaps", "why_tests_cant": "all heaps and addresses, also equal ones", "anchors": ["src/pyrusgeom/segment_2d.py", "src/pyrusgeom/ray_2d.py", "src/pyrusgeom/circle_2d.py", "src/pyrusgeom/sector_2d.py", "src/pyrusgeom/triangle_2d.py", "src/pyrusgeom/rect_2d.py"]}
{"id": "C157", "title": "Rectangle objects that share nothing behave as values", "statement": "For every program of Rect2D mutator calls on any number of rectangle objects no two of which share a corner or size object: all calls succeed, each call changes only its receiver, to the value which the operation on values (claims C54 to C61) gives, and afterwards still nothing is shared. Also with a rectangle as its own argument. Two rectangles made with the same Size2D object do influence each other, in a way that is characterised.", "quantifier": "all heaps, all programs", "why_tests_cant": "all programs and sharing patterns", "anchors": ["src/pyrusgeom/rect_2d.py: Rect2D"]}
{"id": "C158", "title": "Programs over objects have value semantics", "statement": "For every program of constructors, copying accessors, operators and in-place methods of Vector2D, AngleDeg, Size2D, Matrix2D, Segment2D, Ray2D, Circle2D, Sector2D, Triangle2D and Rect2D, starting from no objects: if it runs on values, where each call yields one new value or changes the value of its receiver only, then it runs on objects without an exception and every object has exactly that value afterwards. No call changes an object it was not called on.", "quantifier": "all programs", "why_tests_cant": "all programs, all orders of calls and all ways of passing an object several times", "anchors": ["src/pyrusgeom/vector_2d.py", "src/pyrusgeom/angle_deg.py", "src/pyrusgeom/size_2d.py", "src/pyrusgeom/matrix_2d.py", "src/pyrusgeom/segment_2d.py", "src/pyrusgeom/ray_2d.py", "src/pyrusgeom/circle_2d.py", "src/pyrusgeom/sector_2d.py", "src/pyrusgeom/triangle_2d.py", "src/pyrusgeom/rect_2d.py"]}
{"id": "C159", "title": "Comparing objects of any classes with ==", "statement": "For any two of the library's objects, numbers or other Python objects, a == b and b == a both return, with the same result.", "quantifier": "all pairs of operands", "why_tests_cant": "all pairs of classes and all values of the attributes that decide whether a wrongly typed operand happens to serve", "anchors": ["src/pyrusgeom/vector_2d.py", "src/pyrusgeom/angle_deg.py", "src/pyrusgeom/line_2d.py", "src/pyrusgeom/size_2d.py", "src/pyrusgeom/segment_2d.py", "src/pyrusgeom/ray_2d.py", "src/pyrusgeom/sector_2d.py", "src/pyrusgeom/matrix_2d.py", "src/pyrusgeom/circle_2d.py", "src/pyrusgeom/rect_2d.py", "src/pyrusgeom/triangle_2d.py"]}
{"id": "C160", "title": "Operators on operands of any type", "statement": "+, -, * and unary minus, and math.fabs, applied to arbitrary Python values return exactly on the documented combinations of operands (numbers, angles with numbers or angles, vectors whose coordinates are numbers), and then return the sum, difference, multiple, negative or absolute value; on every other combination they raise.", "quantifier": "all values, including vectors whose coordinates are not numbers", "why_tests_cant": "all combinations of operand types, nested to any depth", "anchors": ["src/pyrusgeom/vector_2d.py:551-561", "src/pyrusgeom/angle_deg.py:280-360"]}
{"id": "C161", "title": "A mutating method that raises leaves its object as it was", "statement": "If a method that changes its object in place raises because of an argument of the wrong type, the object still has the attributes it had before the call; with arguments of the documented types the method does not raise and does what the immutable model says.", "quantifier": "all objects, all argument values of any type", "why_tests_cant": "all argument types at every position, and every prefix of the assignments a method performs before it fails", "anchors": ["src/pyrusgeom/vector_2d.py", "src/pyrusgeom/angle_deg.py", "src/pyrusgeom/size_2d.py", "src/pyrusgeom/segment_2d.py:74-121", "src/pyrusgeom/circle_2d.py", "src/pyrusgeom/sector_2d.py", "src/pyrusgeom/triangle_2d.py", "src/pyrusgeom/rect_2d.py", "src/pyrusgeom/matrix_2d.py"]}
{"id": "C162", "title": "In exact arithmetic, raising is limited to the documented divisions", "statement": "With every math call and every division of the library replaced by a version that raises as CPython does (ValueError outside the domain, ZeroDivisionError, OverflowError), no function on real numbers raises, apart from a division by the number zero, the distance from a line without direction, the bounding box of a polygon without vertices, and the divisions of the geometric series; every function returns what the unchecked model says.", "quantifier": "all real arguments of all functions and methods", "why_tests_cant": "every argument, and every call of math.sqrt, acos, asin, log and every division inside every function", "anchors": ["src/pyrusgeom/angle_deg.py", "src/pyrusgeom/vector_2d.py", "src/pyrusgeom/line_2d.py", "src/pyrusgeom/ray_2d.py", "src/pyrusgeom/segment_2d.py", "src/pyrusgeom/triangle_2d.py", "src/pyrusgeom/circle_2d.py", "src/pyrusgeom/matrix_2d.py", "src/pyrusgeom/sector_2d.py", "src/pyrusgeom/rect_2d.py", "src/pyrusgeom/size_2d.py", "src/pyrusgeom/polygon_2d.py", "src/pyrusgeom/soccer_math.py"]}
{"id": "C163", "title": "No function raises for finite doubles", "statement": "For double arguments, including infinities and NaN, the geometric classes raise exactly on the stated inputs: angles from infinite numbers, distances whose squares overflow, lines whose squared coefficients underflow, circle intersections whose squares overflow. In particular nothing is raised for finite coordinates.", "quantifier": "all doubles, infinities and NaN", "why_tests_cant": "all 2^64 doubles in every argument, and the rounding of every intermediate result", "anchors": ["src/pyrusgeom/angle_deg.py", "src/pyrusgeom/vector_2d.py", "src/pyrusgeom/line_2d.py", "src/pyrusgeom/ray_2d.py", "src/pyrusgeom/segment_2d.py", "src/pyrusgeom/triangle_2d.py", "src/pyrusgeom/circle_2d.py", "src/pyrusgeom/matrix_2d.py", "src/pyrusgeom/sector_2d.py", "src/pyrusgeom/rect_2d.py", "src/pyrusgeom/polygon_2d.py", "src/pyrusgeom/soccer_math.py"]}
{"id": "C164", "title": "Computing a convex hull ends without an exception", "statement": "compute() ends for every list of points and every method; it raises no IndexError. (The while loop of the Graham scan and every list access of the three methods are checked.)", "quantifier": "all lists of points, all sort functions that permute, exact and double coordinates, NaN", "why_tests_cant": "all lists of any length; the while loop has no bound in the code and runs through negative list indices", "anchors": ["src/pyrusgeom/convex_hull.py:240-421"]}
{"id": "C165", "title": "Rounding error of the distance from a segment or a line", "statement": "Computed in double precision, Segment2D.dist(point) and Line2D.dist(point) differ from the exact distance by a small multiple of that distance.", "quantifier": "all doubles as coordinates and coefficients", "why_tests_cant": "the error depends on cancellation in the area and on which of the two branches rounding selects; no sample covers all doubles", "anchors": ["src/pyrusgeom/segment_2d.py:470-500", "src/pyrusgeom/line_2d.py:164-175"]}
{"id": "C166", "title": "Hashing, and dictionaries and sets with vectors as keys", "statement": "Objects that compare equal have equal hashes, and a dictionary or set whose keys are vectors behaves as a finite map whose keys are points: looking up a vector finds what was last stored under a vector with the same coordinates.", "quantifier": "all objects, all hash functions of numbers, all sequences of store, delete, lookup and change operations, all probing orders", "why_tests_cant": "the table may compare any entries with equal hash in any order, and a collision cannot be provoked by sampling", "anchors": ["src/pyrusgeom/vector_2d.py:545-549", "src/pyrusgeom/angle_deg.py:361-373", "src/pyrusgeom/line_2d.py:286-298", "src/pyrusgeom/matrix_2d.py:350-365"]}
{"id": "C167", "title": "Augmented assignment and the binary operators on shared objects", "statement": "For every operator and operands, x op= y gives x the value x op y and changes no object other than x; x op y leaves its operands as they are.", "quantifier": "all heaps, all operators, all operands", "why_tests_cant": "which of the two the interpreter calls depends on which special methods exist, and the effect of sharing shows only through other names", "anchors": ["src/pyrusgeom/vector_2d.py:551-581", "src/pyrusgeom/angle_deg.py:224-334", "src/pyrusgeom/matrix_2d.py:311-348"]}
{"id": "C168", "title": "A simple polygon contains exactly the points its outline encloses", "statement": "For a polygon whose edges meet only at common ends, a point off the outline is contained if and only if its component of the complement of the outline is bounded; the contained points form one connected region, the others another, and the outline is the boundary of both.", "quantifier": "all simple polygons with any number of vertices, convex or not, all points off the outline, both boundary flags", "why_tests_cant": "a topological statement about uncountably many points and all polygons; a test compares single points with another program of the same kind", "anchors": ["src/pyrusgeom/polygon_2d.py:223-281"]}
{"id": "C169", "title": "Computed areas are the areas of the accepted sets, and orientation says where the inside is", "statement": "The area of a simple polygon, triangle, rectangle, circle or sector is the Lebesgue measure of the set of points that its contains method accepts; for every polygon the doubled signed area is twice the area weighted with the winding number; a simple polygon is counterclockwise if and only if the contained points are on the left of every edge.", "quantifier": "all simple polygons, all polygons for the signed area, all triangles, rectangles, circles and sectors", "why_tests_cant": "relates a number to an uncountable set, for all shapes", "anchors": ["src/pyrusgeom/polygon_2d.py:332-379", "src/pyrusgeom/triangle_2d.py:158-166", "src/pyrusgeom/triangle_2d.py:202-210", "src/pyrusgeom/rect_2d.py:509-526", "src/pyrusgeom/circle_2d.py:57-74", "src/pyrusgeom/sector_2d.py:134-158"]}
{"id": "C170", "title": "Clipping a polygon is intersection with the half plane or rectangle", "statement": "A point off the outline and off the cutting lines is contained in the clipped polygon if and only if it is contained in the polygon and lies in the half plane (or the rectangle); the signed area of the clipped polygon is twice the integral of the winding number of the polygon over the half plane (or the rectangle), and for a simple polygon its area is the measure of the contained points there.", "quantifier": "all polygons, also with crossing edges, all half planes and rectangles, all points", "why_tests_cant": "equality of uncountable sets and of areas for all polygons, including those the clipping cuts into several pieces", "anchors": ["src/pyrusgeom/polygon_2d.py:381-417", "src/pyrusgeom/polygon_2d.py:419-462"]}
{"id": "C171", "title": "The polygon of a computed hull: area, extreme points and boundary of the convex hull", "statement": "The area of the polygon that to_polygon returns after compute is the measure of the convex hull of the input points, its vertices are exactly the extreme points of the hull, and its outline is exactly the boundary of the hull; gift wrapping returns it counterclockwise, the Graham scan clockwise.", "quantifier": "all point lists of any length from three on", "why_tests_cant": "measure, extreme points and boundary of an uncountable set for inputs of any size", "anchors": ["src/pyrusgeom/convex_hull.py: ConvexHull.compute_wrapping_method, compute_graham_scan, to_polygon", "src/pyrusgeom/polygon_2d.py: Polygon2D.area, double_signed_area, is_counter_clockwise, is_clockwise"]}
{"id": "C172", "title": "Clipping with the four threshold predicates", "statement": "XLessEqual, XMoreEqual, YLessEqual and YMoreEqual decide the four closed half planes; clipping a polygon with one of them and the axis-parallel line through the threshold gives a polygon that contains exactly the contained points of the half plane, and whose area is their measure.", "quantifier": "all vertex lists, thresholds and points off the outline and the threshold; areas for all simple polygons", "why_tests_cant": "a set equation over the plane for lists of any length", "anchors": ["src/pyrusgeom/polygon_2d.py: XLessEqual, XMoreEqual, YLessEqual, YMoreEqual, Polygon2D.get_line_clipped_polygon, get_rectangle_clipped_polygon"]}
{"id": "C173", "title": "Rounding errors of vector products, lengths, set_length, normalize and affine transforms", "statement": "In IEEE double precision without overflow: inner and outer products are off by at most 2**-51 times the sizes of their two terms, transformed points by at most 2**-50 times the sizes of the three terms, lengths from 2**-500 on have a relative error of at most 2**-49, set_length gives each coordinate with a relative error of at most 2**-46 (and leaves vectors of computed length up to EPSILON alone), and normalize gives a length within 2**-44 of 1; underflow adds at most 2**-1073, scaled by the coordinates for set_length.", "quantifier": "all doubles, including subnormal ones", "why_tests_cant": "a bound over 2**128 inputs and more", "anchors": ["src/pyrusgeom/vector_2d.py: Vector2D.inner_product, outer_product, r, set_length, set_length_vector, normalize, normalize_vector", "src/pyrusgeom/matrix_2d.py: Matrix2D.transform, transform_vec"]}
{"id": "C174", "title": "Intersections and projections in double precision", "statement": "If the determinant of two lines is at least 2**-18 and its two products are together at most K times its size (K up to 2**40), Line2D.intersection returns a valid point whose coordinates are off by at most 2**-47 * K times the sizes of the products in the numerator divided by the determinant; Line2D.projection is off by at most 2**-45 times the sizes of the products that occur divided by a**2+b**2, if that is at least 2**-18.", "quantifier": "all lines and points with double coefficients without overflow", "why_tests_cant": "a bound over an enormous input space, in terms of the conditioning of the input", "anchors": ["src/pyrusgeom/line_2d.py: Line2D.intersection, line_intersection, perpendicular, projection"]}
{"id": "C175", "title": "Mirror images", "statement": "Changing the sign of all x coordinates, all y coordinates or both changes the results in the same way, exactly: vectors, lines (intersection, projection, bisectors), segments (all tests, distances, intersection points, projections), triangles, circles (containment; the same intersection points, possibly in the other order), polygons (area, orientation, distance to the outline, containment) and ball travel.", "quantifier": "all inputs, in exact arithmetic, IEEE double rounding, every other odd rounding, and with overflow, infinities and NaN; polygon containment in exact arithmetic", "why_tests_cant": "an equation between two runs for every input in every arithmetic, including inputs that overflow", "anchors": ["src/pyrusgeom/vector_2d.py: Vector2D", "src/pyrusgeom/line_2d.py: Line2D", "src/pyrusgeom/segment_2d.py: Segment2D", "src/pyrusgeom/triangle_2d.py: Triangle2D", "src/pyrusgeom/circle_2d.py: Circle2D", "src/pyrusgeom/polygon_2d.py: Polygon2D.contains, dist, area", "src/pyrusgeom/soccer_math.py: inertia_n_step_point, inertia_final_point"]}
{"id": "C176", "title": "Order of arguments, direction of segments, exchange of coordinates", "statement": "Exactly, in every arithmetic: the intersection of two lines and of two segments and their existence do not depend on the order of the two, nor does the distance of two segments; reversing a segment changes neither its length nor its points nor its intersections; the triangle test does not depend on the order of the corners; exchanging x and y exchanges the coordinates of the results and reverses orientations.", "quantifier": "all inputs, in exact arithmetic, IEEE double rounding, and with overflow, infinities and NaN", "why_tests_cant": "an equation between two runs for every input in every arithmetic", "anchors": ["src/pyrusgeom/line_2d.py: Line2D.intersection, is_parallel", "src/pyrusgeom/segment_2d.py: Segment2D.exist_intersection, intersection, dist, contains, on_segment, nearest_point, projection", "src/pyrusgeom/triangle_2d.py: Triangle2D.tri_contains", "src/pyrusgeom/polygon_2d.py: Polygon2D.double_signed_area"]}
{"id": "C177", "title": "The computed hull depends only on the convex hull", "statement": "The vertices and edges that gift wrapping computes are determined by the convex hull of the input: the order of the points, and points that do not change the convex hull, have no influence; the hull of the hull is the hull; Graham scan, where it computes the hull, returns the same vertices in the opposite direction.", "quantifier": "all inputs of at least three points, any two inputs with the same convex hull", "why_tests_cant": "an equation between runs on any two inputs of any length", "anchors": ["src/pyrusgeom/convex_hull.py: ConvexHull.compute, compute_wrapping_method, compute_graham_scan, get_min_point_index"]}
{"id": "C178", "title": "The sign of a zero", "statement": "Whether a zero is 0.0 or -0.0 changes no result, in any module: values, booleans, exceptions and numbers of solutions are those without the sign of zero, except the direction of a vector from below along the negative x axis (y is -0.0, x at most -EPSILON), which is -180 instead of 180.", "quantifier": "all inputs, including infinities and NaN, IEEE double arithmetic with both zeros", "why_tests_cant": "one exceptional half line, met only with a negative zero; equality of two runs for every function and every input", "anchors": ["src/pyrusgeom/vector_2d.py: Vector2D.th", "src/pyrusgeom/angle_deg.py: AngleDeg.atan2_deg", "src/pyrusgeom/ray_2d.py: Ray2D", "src/pyrusgeom/sector_2d.py: Sector2D.contains", "src/pyrusgeom/line_2d.py: Line2D", "src/pyrusgeom/segment_2d.py: Segment2D", "src/pyrusgeom/circle_2d.py: Circle2D", "src/pyrusgeom/triangle_2d.py: Triangle2D", "src/pyrusgeom/rect_2d.py: Rect2D", "src/pyrusgeom/polygon_2d.py: Polygon2D", "src/pyrusgeom/matrix_2d.py: Matrix2D", "src/pyrusgeom/convex_hull.py: ConvexHull", "src/pyrusgeom/soccer_math.py: inertia_n_step_point"]}
{"id": "C179", "title": "Rounding errors of directions, rotations and polar coordinates", "statement": "In double precision: degrees to radians, sine and cosine of degrees, rotation, polar to Cartesian coordinates and directions have the stated small errors; rotation keeps the length, adds to the direction and is undone by the opposite rotation; polar coordinates survive the round trip through Cartesian ones, up to 2**-39 degrees.", "quantifier": "all doubles without overflow, every mathematical library with errors of at most one unit in the last place", "why_tests_cant": "bounds for every input and every such library", "anchors": ["src/pyrusgeom/vector_2d.py: Vector2D.rotate, rotated_vector, set_polar, set_dir, from_polar, th", "src/pyrusgeom/angle_deg.py: AngleDeg.sin_deg, cos_deg, deg2rad, rad2deg, atan2_deg"]}
{"id": "C180", "title": "Rays and sectors in double precision", "statement": "Sector containment agrees with the annular sector for every point clearly off its boundary (relative distance 2**-49 from the arcs, 2**-42 degrees from the sides, twice EPSILON from the center), and in_right_dir compares the exact angle with its threshold up to 2**-42 degrees.", "quantifier": "all doubles without overflow, every mathematical library with errors of at most one unit in the last place", "why_tests_cant": "decided through five rounded comparisons of angles, for every input and every such library", "anchors": ["src/pyrusgeom/sector_2d.py: Sector2D.contains", "src/pyrusgeom/ray_2d.py: Ray2D.in_right_dir", "src/pyrusgeom/angle_deg.py: AngleDeg.is_within, is_left_equal_of"]}
{"id": "C181", "title": "The distance of two segments in double precision", "statement": "Segment2D.dist between two segments in double precision: if disjoint segments are not taken for intersecting ones, the result differs from the smallest distance between their points by at most 2^-44 times the largest of the four spreads (the square of the sum of the distances of an end from the two ends of the other segment, divided by that segment's length). In particular segments which meet get a distance of at most that size even when exist_intersection misses the intersection. Without the hypothesis this is false: there are segments more than 2 apart, nearly on one line, for which exist_intersection and intersects_except_endpoint answer True and dist answers 0.", "quantifier": "all pairs of segments with double coordinates which are multiples of 2^-268, of length at least 2^-400", "why_tests_cant": "Whether a nearly collinear pair is misjudged depends on the last bits of eight coordinates; random tests on ordinary segments never hit the case, and the bound for the harmless misjudgements quantifies over all of them.", "anchors": ["src/pyrusgeom/segment_2d.py:492-498", "src/pyrusgeom/segment_2d.py:336-393", "src/pyrusgeom/triangle_2d.py:322-339"]}
{"id": "C182", "title": "Inertia travel in double precision", "statement": "inertia_n_step_travel, inertia_n_step_distance, inertia_n_step_point, inertia_final_travel, inertia_final_point and inertia_final_distance in double precision: each computed coordinate differs from the exact closed form by at most a fixed small power of two times the distance the ball travels until it stops (plus the size of the position). The result also stays close to what a simulation that adds and shrinks the velocity step by step in double precision computes.", "quantifier": "all double positions, velocities and decays with 0 <= decay < 1, all numbers of steps, every math library whose pow is accurate to one unit in the last place", "why_tests_cant": "The error depends on the decay, on the number of steps and on cancellation in 1 - pow(decay, n); a test compares a few values with a tolerance but cannot bound the error for all of them.", "anchors": ["src/pyrusgeom/soccer_math.py:102-190"]}
{"id": "C183", "title": "The kick, dash, turn and speed formulas in double precision", "statement": "kick_rate, dir_rate, effective_turn, final_speed and calc_first_term_geom_series in double precision do not raise on the stated inputs and differ from their exact values by at most 2^-49 (2^-50 for the turn) times the sum of the sizes of the terms that are added; dir_rate chooses its branch exactly. can_over_speed_max answers correctly unless the two sides of its test agree up to 2^-50 of the sizes of their terms.", "quantifier": "all double arguments (0 <= decay < 1 for speeds; a margin between 2^-200 and 2^300 in absolute value for the kick; a nonnegative product inertia * speed below 2^500 for the turn; a ratio from 0 to 1 - 2^-7 for the series)", "why_tests_cant": "The bound is about all arguments, including those where the terms cancel and where intermediate values underflow; tests compare with a tolerance on a handful of ordinary values.", "anchors": ["src/pyrusgeom/soccer_math.py:13-99", "src/pyrusgeom/soccer_math.py:238-249"]}
{"id": "C184", "title": "Intersections of a circle in double precision", "statement": "Circle2D.intersection with a line or a circle, in double precision: every returned point lies on the line and on both circles up to a stated residual (EPSILON / 4 plus 2^-39 of the squared size of the numbers involved), a line clearly further from the center than the radius gives no point, and near every exact intersection of the circle and the line a point is returned - the last only when the size of the numbers times (1 + |b / a|) is at most 2048. Without that guard the claim is false: a line through the center of the circle that is nearly horizontal can be reported as missing the circle. Two circles whose distance is between the difference and the sum of the radii with a margin of 2^-48 of the size of the numbers: near every common point a point is returned (numbers of moderate size). Without the margin false: two circles crossing each other in two points are reported as disjoint.", "quantifier": "all double circles and lines with |a| >= EPSILON, |a| and |b / a| at most 2^500 (or |a| < EPSILON <= |b| <= 2^500, where the code solves the horizontal line b y + c = 0), all real points on the exact line and circle", "why_tests_cant": "The discriminant is the difference of two large rounded numbers, so its sign and its root depend on cancellation; tests use small well conditioned circles and compare with a tolerance.", "anchors": ["src/pyrusgeom/circle_2d.py:111-154", "src/pyrusgeom/circle_2d.py:177-191", "src/pyrusgeom/circle_2d.py:311-336"]}
{"id": "C185", "title": "Matrices in double precision", "statement": "Matrix2D in double precision: the determinant differs from the exact one by at most 2^-50 of its terms and invertible() is right away from EPSILON; a singular matrix is always recognised; the computed product, and the two transforms one after the other, agree with the exact composition up to 2^-49 of the terms; the computed inverse applied to the computed image of a point gives the point back up to 2^-47 times the terms divided by the determinant; the matrix of a rotation and Vector2D.rotate compute the same doubles. A matrix with nonzero determinant is not always inverted: the computed determinant can be zero, and inverted() then returns the identity without any sign of failure.", "quantifier": "all double matrices and points (a computed determinant that is not zero and at most 2^400 in absolute value for the inverse), every math library for the rotation", "why_tests_cant": "The error of the inverse grows with the ratio of the terms to the determinant; tests use a few well conditioned matrices and a tolerance, and a determinant that is rounded to zero does not occur in them.", "anchors": ["src/pyrusgeom/matrix_2d.py:141-173", "src/pyrusgeom/matrix_2d.py:230-269", "src/pyrusgeom/matrix_2d.py:297-347"]}
{"id": "C186", "title": "Line intersections and clipping in double precision", "statement": "Whenever Line2D.intersection reports a point in double precision, the computed point satisfies the equations of both lines up to 2^-50 of the terms divided by the computed determinant, without any assumption on the angle of the lines. Clipping a polygon by a vertical or horizontal line as the code builds it (a line through a point with angle 90 or 0): every vertex of the result is a given vertex of the wanted side or is within 2^-45 B of the line, and its other coordinate is within 2^-43 B^2 / w of the exact crossing of an edge of width w; if every crossing edge has a width of at least 2^-18, every vertex of the wanted side is kept and every crossing has its vertex.", "quantifier": "all double lines with a computed determinant of at most 2^400 in absolute value; all polygons and clip lines with coordinates of at most B in absolute value, 1 <= B <= 2^20, every math library with sine and cosine within one ulp", "why_tests_cant": "cos(90 degrees) is not zero in double precision, so the clip line is slightly tilted; how much this moves the vertices of a clipped polygon, and whether a crossing can be dropped, depends on the slope of the edges and cannot be tried out.", "anchors": ["src/pyrusgeom/line_2d.py:61-72", "src/pyrusgeom/line_2d.py:200-250", "src/pyrusgeom/polygon_2d.py:419-462"]}
{"id": "C187", "title": "A coordinate written 3 or 3.0 makes no difference", "statement": "With Python ints and floats kept apart (ints exact and unbounded, mixed operations converting to the nearest double, true division correctly rounded, comparisons exact), every function of angle_deg, vector_2d, line_2d, segment_2d, ray_2d, triangle_2d, circle_2d, size_2d, rect_2d, matrix_2d, sector_2d, polygon_2d, convex_hull and soccer_math give the same result, the same booleans and the same exceptions whether integral arguments are passed as ints or as floats, in any mixture. A bound is needed: 2^53+1 and 2^53 are different ints and equal floats.", "quantifier": "all arguments whose int parts are at most 1024 in absolute value (128 for the orthocenter), arbitrary float arguments, every math library, both spellings of the literals of the source; polygons with up to 2^32 vertices for the area; for r_int, quantize, unquantize_*, quantize_dist, normalize_angle and f_range every library with an exact int() and an exact % of integers, quantize with an int step for values up to 2^40, quantize_dist for distances up to 2^40 and an accurate log, the first 2^42 numbers of f_range", "why_tests_cant": "A caller may mix ints and floats in any of the arguments of any function; a single integer division or an int-only code path would show only for particular combinations of types.", "anchors": ["src/pyrusgeom/vector_2d.py:14-60", "src/pyrusgeom/soccer_math.py:1-60", "src/pyrusgeom/convex_hull.py:60-330", "src/pyrusgeom/polygon_2d.py:60-470"]}
{"id": "C188", "title": "Int coordinates of any size are computed with exactly", "statement": "On points with int coordinates of whatever size, the segment predicates exist_intersection, exist_intersection_except_endpoint and on_segment, the orientation test and the triangle containment test make no rounding error: exist_intersection is true exactly if the segments have a common point, on_segment exactly if the point lies on the (non-degenerate) segment, the orientation is the sign of the exact signed area, and tri_contains is true exactly if the point lies in the (non-degenerate) triangle.", "quantifier": "all points with int coordinates, no bound", "why_tests_cant": "Beyond 2^53 the doubles cannot represent the coordinates any more; that no step of these functions converts to a double has to hold for every branch and every size.", "anchors": ["src/pyrusgeom/segment_2d.py:336-436", "src/pyrusgeom/segment_2d.py:513-524", "src/pyrusgeom/triangle_2d.py:323-342", "src/pyrusgeom/triangle_2d.py:473-514"]}
{"id": "C189", "title": "Triangle centers in double precision", "statement": "In double precision tri_circumcenter, tri_orthocenter and tri_incenter return a valid point close to the exact center. With all coordinate differences at most L and D twice the area, the circumcenter is within 2^-44 L^5/D^2 + 2^-48 |a| in each coordinate (and its distances to the vertices differ by at most twice that and rounding), the orthocenter within 2^-44 L^4 W/D^2 where W bounds the coordinates, provided D is at least 2^-18 and at least 2^-44 L^2. The incenter is within 2^-39 W/(1+cos C), where C is the angle at the third vertex, with a sine, cosine and arctangent accurate to one ulp, for sides at least 2 EPSILON long and C not within about 0.0005 degrees of flat. A bound on the shape is needed: there is a triangle with twice the area at least EPSILON, vertices exact doubles, whose perpendicular bisectors meet according to Line2D.intersection while tri_circumcenter answers invalid.", "quantifier": "all triangles with double coordinates under the stated bounds on size and shape; every math library accurate to one ulp", "why_tests_cant": "The error is amplified by the shape of the triangle; the worst shapes are thin triangles far from the origin that random tests do not produce, and the functions answer INVALIDATED instead of raising.", "anchors": ["src/pyrusgeom/triangle_2d.py:390-471", "src/pyrusgeom/line_2d.py:200-290", "src/pyrusgeom/angle_deg.py:520-545"]}
{"id": "C190", "title": "Rays meeting lines and rays in double precision", "statement": "In double precision, with a sine, cosine and arctangent accurate to one ulp, Ray2D.intersection decides correctly and accurately away from the degenerate positions. Let the exact lines meet at P, at the signed distance s along the ray, at an angle with sine k of at least 2^-18, all coordinates at most W. If |s| is at least 2^-35 W/k^2 and 4 EPSILON, then for s > 0 a valid point within 2^-39 W/k^2 of P in each coordinate is returned, and for s < 0 the invalid point. For two rays the same holds with both distances; if the sine is at most EPSILON/2 the rays have no intersection. The line may have coefficients of any size from 2^-100 to 2^100.", "quantifier": "all rays and lines with double coordinates and coefficients under the stated bounds; every math library accurate to one ulp", "why_tests_cant": "The answer goes through sine, cosine, a division by a determinant, atan2, normalisation modulo 360 and a comparison with 10 degrees; that no rounding error can flip the direction test for any of these inputs cannot be sampled.", "anchors": ["src/pyrusgeom/ray_2d.py:97-138", "src/pyrusgeom/line_2d.py:55-72", "src/pyrusgeom/line_2d.py:200-211"]}
{"id": "C191", "title": "Polygons with NaN or infinite vertices", "statement": "get_bounding_box, contains and dist of Polygon2D start their running minima and maxima with float('inf'). For every list of vertices, NaN and infinities included: the box starts at the least x and the least y that are numbers, and its sides are the differences of greatest and least (NaN coordinates are skipped). contains is False for a point with a NaN coordinate, and a contained point is right of or at some vertex and below or at some vertex, so a polygon without a number among its x (or y) contains no finite point. dist of a polygon with other than one vertex is never NaN: it is 0 for a contained point of a plane polygon, else the least distance from an edge, NaN distances being skipped, and infinity if there is none. Without NaN these agree with the generic model used by the other claims.", "quantifier": "all polygons and points with arbitrary IEEE doubles as coordinates", "why_tests_cant": "Comparisons with NaN are false in both directions, so the order of the vertices and the initial value decide what a loop returns; no finite set of tests covers the placements of special values in a list of any length.", "anchors": ["src/pyrusgeom/polygon_2d.py:197-221", "src/pyrusgeom/polygon_2d.py:223-281", "src/pyrusgeom/polygon_2d.py:291-329"]}
{"id": "C192", "title": "The unit of length does not matter", "statement": "If all coordinates and sizes are multiplied by a power of two (a change of the unit of length), then in double precision, bit for bit: sums and differences of vectors, r, dist, length of a segment, centre of a rectangle and the bounding box of a polygon are multiplied by the same power; inner and outer products, squared distances and the areas of triangles, rectangles and polygons by its square; and ccw, is_counter_clockwise, is_clockwise, contains of Triangle2D, Rect2D, Circle2D and Polygon2D, exist_intersection, exist_intersection_except_endpoint and on_segment of Segment2D give the same answer. The numbers must be 0 or at least 2^-147 in absolute value in both units, since below that products underflow (an example shows that some bound is needed). equals_weakly compares with a fixed tolerance and does depend on the unit (example).", "quantifier": "all powers of two and all vectors, triangles, segments, rectangles, circles and polygons with any number of vertices, with double coordinates that are 0 or at least 2^-147 in both units", "why_tests_cant": "A hidden constant of the dimension of a length (a tolerance, an offset for a half line) changes answers only for inputs of the right size; tests use one unit.", "anchors": ["src/pyrusgeom/vector_2d.py:214-220", "src/pyrusgeom/vector_2d.py:373-395", "src/pyrusgeom/vector_2d.py:452-475", "src/pyrusgeom/triangle_2d.py:158-225", "src/pyrusgeom/segment_2d.py:336-470", "src/pyrusgeom/segment_2d.py:513-523", "src/pyrusgeom/rect_2d.py:509-527", "src/pyrusgeom/circle_2d.py:65-75", "src/pyrusgeom/polygon_2d.py:197-281", "src/pyrusgeom/polygon_2d.py:332-380"]}
{"id": "C193", "title": "Monotone formulas stay monotone under rounding", "statement": "For every monotone odd rounding (double precision among them), with no error term: r, r2, dist and dist2 do not fall when the coordinate differences grow in absolute value; a circle with a larger radius contains every point nearer to its center in both coordinates than a point of the smaller one, and its area is not smaller; a sector with a smaller inner and a larger outer radius loses no point; a longer or wider rectangle loses no point and its area and diagonal do not fall; kick_rate does not grow with distance and angle; dir_rate does not grow with the angle up to 90 degrees and changes in one direction beyond; effective_turn, final_speed, can_over_speed_max, inertia_n_step_distance, inertia_final_distance and calc_first_term_geom_series are monotone in their arguments; bound and min_max are monotone in all three. quantize, unquantize_min and unquantize_max keep the order of doubles with |v / q| up to 2^50.", "quantifier": "all arguments in the stated ranges of sign, every monotone odd rounding that is exact on the integers up to 360; quantisation: all doubles", "why_tests_cant": "Rounding can break monotonicity at single neighbouring numbers out of 2^64; tests do not hit them. An error bound does not exclude it either.", "anchors": ["src/pyrusgeom/vector_2d.py:207-220", "src/pyrusgeom/vector_2d.py:373-395", "src/pyrusgeom/circle_2d.py:57-75", "src/pyrusgeom/sector_2d.py:146-158", "src/pyrusgeom/rect_2d.py:509-527", "src/pyrusgeom/size_2d.py:73-79", "src/pyrusgeom/soccer_math.py:15-99", "src/pyrusgeom/soccer_math.py:138-151", "src/pyrusgeom/soccer_math.py:180-190", "src/pyrusgeom/soccer_math.py:238-276", "src/pyrusgeom/soccer_math.py:316-366"]}
{"id": "C194", "title": "Areas, arc lengths and diagonals in double precision", "statement": "Circle2D.area differs from pi r^2 by at most 2^-49 r^2. The area of a rectangle has a relative error of at most 2^-53, the diagonal of a size of at most 2^-49. The angle of a sector is between 0 and 360 and equals the difference of its two directions up to full turns and 2^-43 degrees. Its area differs from pi (R^2 - r^2) A / 360, with A the computed angle, by at most 2^-47 R^2 A / 360, and the lengths of its arcs from 2 pi R A / 360 by at most 2^-46 R A / 360.", "quantifier": "all circles, rectangles, sizes and sectors with double coordinates and sizes not below 2^-500 (sectors 2^-400; angle 0 or at least 2^-100)", "why_tests_cant": "The difference of two areas cancels for thin rings, and products underflow for small sizes; a test compares a few values with a tolerance that is itself computed in floating point.", "anchors": ["src/pyrusgeom/circle_2d.py:57-63", "src/pyrusgeom/rect_2d.py:509-515", "src/pyrusgeom/size_2d.py:73-79", "src/pyrusgeom/sector_2d.py:118-180"]}
{"id": "C195", "title": "Geometric series helpers in double precision", "statement": "With a pow accurate to one unit in the last place, calc_first_term_geom_series returns sums (1 - r) / (1 - r^n) with a relative error of at most 2^-48 / (1 - r^n). With a log accurate to one unit in the last place, calc_length_geom_series returns log t / log r, with t = 1 - sum (1 - r) / first, up to 2^-47 / (t |log r|). The length computed from the computed first term for n terms is n up to 2^-45 / (r^n |log r|).", "quantifier": "all doubles 0 <= r < 1 with 1 - r^n >= 2^-40, sums zero or at least 2^-900 in absolute value; for the length r, sum, first > 2^-33, t >= 2^-30; for the round trip r^n >= 2^-29 and the exact first term at least 2^-32", "why_tests_cant": "The error is amplified where the series is nearly exhausted (t near 0) and where r is near 1 (log r near 0); a round trip at sample values does not show by how much.", "anchors": ["src/pyrusgeom/soccer_math.py:218-236", "src/pyrusgeom/soccer_math.py:238-249"]}
{"id": "C196", "title": "Quantised distances in double precision", "statement": "With log and exp accurate to one unit in the last place and an exact int(), quantize_dist(d, q) returns the double nearest to a multiple of the double 0.1 that lies between (d + 1e-10) exp(-(q/2 + 2^-44)) - 1/20 - 2^-53 and (d + 1e-10) exp(q/2 + 2^-44) + 1/20 + 2^-53. If s is not 0 and is seen for some distance, unquantize_error(s, q) does not raise; any two distances d, d' seen as s differ by at most the result plus 2^-42 (d + d' + 2); and the result is at most (s + 1/20) e^q - (s - 1/20) e^-q + 2^-40 (s + 1).", "quantifier": "all double precision d with 0 <= d <= 2^40 and all steps 2^-20 <= q <= 1, every library as described", "why_tests_cant": "Both functions round to a grid twice, after a logarithm and an exponential with errors of their own; whether an error moves a value to the next grid point shows only at isolated distances, which sampling does not hit.", "anchors": ["src/pyrusgeom/soccer_math.py:330-340", "src/pyrusgeom/soccer_math.py:343-366", "src/pyrusgeom/soccer_math.py:400-414"]}
{"id": "C197", "title": "Copies of lines and rays, assign of triangles", "statement": "The copy of a line has the same coefficients, points and distances. The copy of a ray has the same points and direction, compares equal and, if its direction is in [-180, 180], meets every line in the same result. After Triangle2D.assign with three points, or a segment and a point, the accessors give exactly the assigned points, valid, whatever the triangle was before, and the signed area and orientation are those of the assigned points.", "quantifier": "all real lines, rays, triangles, segments and points", "why_tests_cant": "Universal over all objects, including rays with invalid origins and directions outside the normal range.", "anchors": ["src/pyrusgeom/line_2d.py:156-162", "src/pyrusgeom/ray_2d.py:81-87", "src/pyrusgeom/triangle_2d.py:66-99", "src/pyrusgeom/triangle_2d.py:110-156"]}
{"id": "C198", "title": "Circle and segment in double precision", "statement": "In double precision, every point that Circle2D.intersection returns for a segment is near the circle, near the line through the ends of the segment, and in the box of the ends up to a product of 2e-9, all with explicit bounds. If the line is clearly apart from the circle, nothing is returned. Near every exact intersection that lies in the box by a margin there is a returned point, if the bounds are small against EPSILON; for an exactly horizontal segment the margin is only needed along the segment.", "quantifier": "all circles of doubles, all segments with ends of size at most B, 1 <= B <= 2**400, whose line has a coefficient of size at least EPSILON", "why_tests_cant": "Universal over all doubles; the test of the box is done on rounded products, and the line is itself rounded.", "anchors": ["src/pyrusgeom/circle_2d.py:166-175", "src/pyrusgeom/segment_2d.py:237-247", "src/pyrusgeom/circle_2d.py:111-154", "src/pyrusgeom/line_2d.py:68-72"]}
{"id": "C199", "title": "Circle and ray in double precision", "statement": "In double precision, with any mathematical library that is accurate to one unit in the last place, every point that Circle2D.intersection returns for a ray is near the circle, near the line of the ray, and within 1 + 2**-42 degrees of its direction (unless it is at the origin of the ray), all with explicit bounds. If the line is clearly apart from the circle, nothing is returned. Near every exact intersection on the ray there is a returned point, if the bounds are small against EPSILON and the distance from the origin of the ray is at least 100 times the bound.", "quantifier": "all circles of doubles, all rays with an origin of doubles of size at most B and a direction in [-180, 180], every accurate library", "why_tests_cant": "Universal over all doubles and all libraries; the line is built from rounded sine and cosine and the test of the direction from a rounded arctangent.", "anchors": ["src/pyrusgeom/circle_2d.py:155-164", "src/pyrusgeom/ray_2d.py:97-107", "src/pyrusgeom/circle_2d.py:111-154", "src/pyrusgeom/line_2d.py:61-67"]}
{"id": "C200", "title": "Rectangle and line, ray or segment in double precision", "statement": "In double precision Rect2D.intersection returns at most two points for a line. Each is within a relative error of 2**-50 (and 2**-600) of the coordinate of one side, exactly between the computed ends of that side, and the equation of the line holds there with an error of at most 2**-50 times the sizes of its terms (and 2**-600). If a line that is not nearly vertical meets the left side inside by the error bound, the first returned point is that meeting; if it meets the right side so, a point within EPSILON and the bound is returned; for a line that the code takes for vertical the same holds of the top and bottom side. Two returned points differ by at least half of EPSILON in a coordinate. For a segment the points returned are among these and nearly in the box of its ends, and all of these in the box are returned. For a ray, with any accurate library, those returned away from the origin are within 1 + 2**-42 degrees of its direction, and all of these near a point of the ray away from the origin are returned.", "quantifier": "all rectangles and lines of doubles with coefficients up to 2**200, all rays and segments of doubles", "why_tests_cant": "Universal over all doubles; the exact bounds need the rounding of every operation, and the tests of the sides are strict comparisons of rounded numbers.", "anchors": ["src/pyrusgeom/rect_2d.py:715-762", "src/pyrusgeom/rect_2d.py:670-700", "src/pyrusgeom/line_2d.py:200-210", "src/pyrusgeom/line_2d.py:234-250", "src/pyrusgeom/line_2d.py:68-72"]}
{"id": "C201", "title": "Segment or triangle and line in double precision", "statement": "In double precision, if Segment2D.intersection with a line reports a point, then the point is nearly in the box of the ends of the segment, and its errors in the equation of the line and in that of the segment, times the determinant of the two lines, are at most 2**-44 and 2**-42 times the sizes of the terms. A meeting that in each coordinate is between the ends by a margin, or very near both, is reported, within the margin. Triangle2D.intersection with a line raises exactly if both of the first two sides report a point; otherwise it returns at most two points, each near the line and a side as above, and near every meeting of the line with a side as just described (up to EPSILON) there is a returned point. Two returned points differ by at least half of EPSILON in a coordinate.", "quantifier": "all segments and triangles of doubles of size at most B and all lines with coefficients at most L, L and L * B, where L * B is at most 2**22", "why_tests_cant": "Universal over all doubles; the angle between the lines enters the bound, and the box test and the merging of near points are strict comparisons of rounded numbers.", "anchors": ["src/pyrusgeom/segment_2d.py:300-320", "src/pyrusgeom/triangle_2d.py:273-294", "src/pyrusgeom/line_2d.py:234-250"]}
