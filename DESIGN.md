# DESIGN

Formal model of Cyrus2D/PyrusGeom (`/repo/src/pyrusgeom`) in Lean 4, and proofs of the properties in
`properties.jsonl`. The code is read as text, never run.

## Modelling approach

* **Numbers.** The model is generic in the number type `K`: every function is written once with the
  operations the Python code uses (`+ - * /`, comparisons, `fabs`, `sqrt`, `sin`, `atan2`, `fmod`, ...).
  Theorems are stated at `K = ℝ` (exact arithmetic, mathematical functions).  The same definitions are
  instantiated at `Float` (binary64) in `Verif/Tests.lean`, where the repository's unit-test values are replayed
  against the model, and at rounded arithmetic for the floating-point properties.
* **Constants.** `EPSILON`, `CALC_ERROR`, `ERROR_VALUE` keep their values; tolerance branches are modelled, not
  idealised away.  `PI` (17-digit literal) is idealised to π at `ℝ`.
* **Objects.** A method that mutates `self` becomes a function returning the new value. Where identity
  matters (aliasing, mutation through shared references) there is a separate heap model.
* **Exceptions** are values (`Except PyErr α`). Division raises on a zero divisor wherever Python would.
  The base model leaves out the exceptions of `math` functions (domain, overflow) and of divisions guarded by a test; the
  second model `Verif/Model/Checked.lean` has them all, and C162/C163 relate the two.
* **Dynamic typing.** `isinstance` dispatch is modelled on a `PyVal` type for constructors (C94); elsewhere each
  documented overload is one function.
* **Floating point.** `FP double` rounds every result to the nearest double, ties to even, with gradual underflow
  (`Verif/Model/Float.lean`: `rne`). Exponents are not bounded above; overflow, infinities, NaN and the sign of zero
  are left out. Theorems on `FP double` are C96–C100, C102–C108, C118–C125, C134–C139, C165, C173–C176, C179–C190, C192–C196 and C198–C201.
* **Special values.** `Ieee` (`Verif/Model/Ieee.lean`) adds overflow to infinity, arithmetic of infinities and NaN, and
  comparisons that are false on NaN. Theorems on `Ieee` are C128–C133, C163 and C191. `SZ` (`Verif/Model/Signed.lean`) adds the sign of zero;
  C178 shows that forgetting it changes no result but `atan2` from below the negative x axis. The initial
  `inf` of `get_bounding_box` and `dist` is an `Option`; Model/InfStart.lean has these loops with the infinities of the source (C191).
* **Modelled.** Every function and method of the 17 modules in `/repo/src/pyrusgeom`; each definition cites its
  file and lines. Texts (`__repr__`, `to_str`) are lists of characters with the text of a number as a parameter.
* **Python numbers** (C187, C188): a further instance of the number type keeps `int` and `float` apart (Model/PyNum.lean).
* **Not modelled.** The `OverflowError` of an `int` that does not fit into a `float`, the text of a number, the Python sort algorithm (any function that permutes, and sorts under a strict
  total order), the commented-out test functions, attribute errors from wrongly typed arguments other than in C94 and C159–C161.

When a property is false of the code the theorem `Cxx_refuted*` proves its negation with a concrete witness and
`Cxx_*_partial` proves the strongest true part found, with the exact guard.

## Trusted base

Lean kernel 4.33.0; axioms `propext`, `Classical.choice`, `Quot.sound`; the reading of the Python source recorded in
the comments of `Verif/Model/*`; the specification definitions in `Verif/Spec.lean`.

## Plan per property

| id | property | modelled / how proved |
|---|---|---|
| C01 | AngleDeg stays normalised over any history | Angle model (`normal`, mutators) as a step function over an op list; invariant by induction; fmod = x − 360·trunc(x/360). |
| C02 | Normalisation is exact on already-normalised input and idempotent | Same model; case split on the branches of `normal`. |
| C03 | Angle arithmetic is arithmetic modulo 360 | Congruence modulo 360 as `∃ k:ℤ, a−b=360k`; ring arithmetic after case split. |
| C04 | is_left_of / is_right_of orient two angles consistently | Independent spec: clockwise turn `cw a b ∈ [0,360)` defined by congruence; case analysis with linarith on integers. Expect trouble at 180/−180. |
| C05 | is_within is membership in the clockwise arc | Same spec. Expect the claim to fail when −180 is stored; refute with witness, prove for values in (−180,180]. |
| C06 | bisect returns the middle of the arc [left, right] | Expect refutation: `bisect(0,90) = −135`. Prove what holds: twice the result ≡ left+right, and membership in the arc for arcs of at least 180. |
| C07 | Trigonometric helpers depend only on the angle modulo 360 and invert each other | Real.cos/arccos/arctan facts from Mathlib, `normal` congruence. |
| C08 | AngleDeg equality treats congruent angles as equal | Expect refutation (180 vs −180, 179.9999999 …); reflexivity, symmetry and soundness up to EPSILON proved. |
| C09 | reverse turns by half a circle | Case split on sign. |
| C10 | normalize_angle agrees with AngleDeg | fmod and floor-mod on reals compared by uniqueness of the representative. |
| C11 | get_normalized maps angles to [0,1] and preserves order | linear arithmetic. |
| C12 | Polar to Cartesian and back | Complex.arg polar form; EPSILON branch of atan2_deg kept. |
| C13 | Rotation is an isometry and a group action | trig addition formulas, ring. |
| C14 | set_length sets the length and keeps the direction | sqrt algebra; branch at EPSILON. |
| C15 | dist is a metric | Minkowski for two coordinates proved through nlinarith / abs_le_of_sq. |
| C16 | Inner and outer product mean what the documentation says | Complex.arg polar form. |
| C17 | Vector equality is an equivalence compatible with hash | Bool reflection; hash modelled as any function of (x,y). |
| C18 | Copying a vector preserves its validity | Expect refutation: copy of `invalid()` is valid. Partial: set_vector keeps the flag. |
| C19 | In-place vector operations agree with the pure operators over any history | induction over an op list against a pure fold. |
| C20 | A line built from two points is their line | set equality with explicit parameter t. |
| C21 | Line intersection is sound, unique and complete up to the parallel tolerance | Cramer's rule; EPSILON guard kept. |
| C22 | Line distance is the least distance to the line's points | Cauchy–Schwarz; explicit foot point. |
| C23 | Projection is the nearest point of the line | corollary of C21/C22. |
| C24 | Perpendicular bisector is the set of equidistant points | ring; degenerate (within EPSILON) branch refuted/guarded. |
| C25 | Line equality means same line | Expect refutation both ways; partial under normalised coefficients. |
| C26 | get_x and get_y invert the line equation | field_simp; EPSILON guard. |
| C27 | in_right_dir recognises the points of the ray | polar form of th(); expect refutation near the origin; partial away from it. |
| C28 | Ray intersection is sound and complete | C21 + C27. |
| C29 | on_segment is membership in the segment | Expect refutation for degenerate segments; iff proved for non-degenerate ones. |
| C30 | exist_intersection(segment) decides whether two segments share a point | Full case analysis on four signed areas, including degenerate segments. |
| C31 | exist_intersection(line) decides whether a segment meets a line | intermediate parameter t. |
| C32 | exist_intersection_except_endpoint decides proper crossing | sign analysis; expect exact characterisation. |
| C33 | nearest_point is the nearest point | quadratic minimisation in t. |
| C34 | Segment-point distance is the minimum distance | as C33. |
| C35 | Segment-segment distance is the minimum distance | boundary argument for a convex quadratic on the unit square. |
| C36 | farthest_dist is the maximum distance | convexity of the squared distance. |
| C37 | Segment projection is the foot of the perpendicular | C23 + box test. |
| C38 | Segment intersection returns the crossing point | C21 + box test. |
| C39 | Segment geometry does not depend on orientation | C29–C36 are set-level statements, hence orientation free. |
| C40 | Triangle containment is membership in the triangle | barycentric coordinates from the three areas; degenerate triangles refuted. |
| C41 | Signed area laws | ring. |
| C42 | Circumcenter is equidistant from the vertices | perpendicular bisector C24; guard for nearly equal vertices. |
| C43 | Orthocenter lies on the three altitudes | C21. |
| C44 | Incenter is equidistant from the three sides | bisect result modulo 180 (C06 part) + half-angle formulas. |
| C45 | Centroid is the mean of the vertices | Expect refutation: always raises. |
| C46 | Triangle validity | Expect refutation: always False. |
| C47 | Triangle-line intersection returns the boundary points of the line | Expect refutation: IndexError; partial for the branches that return. |
| C48 | Circle radius is never negative and contains is the open disc | history induction. |
| C49 | quadratic_f solves the quadratic | completing the square. |
| C50 | Circle-line intersection is sound and complete | C49 + C26. |
| C51 | Circle-circle intersection is sound and complete | radical axis + C50. |
| C52 | Circle-segment and circle-ray intersection keep exactly the points on the segment or ray | list filter by cases on length ≤ 2. |
| C53 | Circumscribed circle passes through its points | C42 + direct formula. |
| C54 | Sizes are never negative over any history | history induction. |
| C55 | Moving a rectangle keeps its size and places the named anchor | field arithmetic per operation. |
| C56 | Setting one side of a rectangle keeps the opposite side | case split; refuted beyond the opposite side. |
| C57 | Setting a corner of a rectangle keeps the opposite corner | Expect refutation of `assign(4)`. |
| C58 | A rectangle built from two corners spans them | Expect refutation: size always 0. |
| C59 | Rectangle containment | interval arithmetic; contains_almost raises. |
| C60 | intersected is set intersection | Expect refutation for disjoint rectangles; iff for overlapping ones. |
| C61 | united contains both rectangles | Expect refutation. |
| C62 | Rectangle-line intersection | Expect refutation at corners; soundness proved. |
| C63 | from_center places the center | 3-argument form raises; 4-argument form proved. |
| C64 | Sector containment is the annular sector | Expect refutation (hole ignored). |
| C65 | Sector equality is reflexive | Expect refutation. |
| C66 | Matrix product composes transforms | ring. |
| C67 | Matrix product does not modify its operands | Heap model; expect refutation. |
| C68 | Matrix inversion undoes the transform | field_simp. |
| C69 | In-place matrix operations equal left multiplication | history induction. |
| C70 | Matrix equality is element-wise | Expect refutation. |
| C71 | Polygon bounding box is the smallest enclosing rectangle | fold invariants; empty list raises. |
| C72 | Polygon area laws | cyclic sums over lists, induction. |
| C73 | Polygon containment follows the even-odd rule off the outline | crossing parity over edge lists, permutation invariance of the edge list. |
| C74 | Polygon containment honours allow_on_segment on the outline | Expect refutation. |
| C75 | Polygon distance is the minimum distance | fold minimum + C34. |
| C76 | Clipping by a half plane is sound | induction over the vertex loop. |
| C77 | Rectangle clipping stays inside rectangle and polygon | Expect refutation (top used for bottom). |
| C78 | Gift wrapping computes the convex hull | Gift-wrapping loop invariant: the candidate is the most clockwise point; orientation order is transitive in the half plane. |
| C79 | Hull edges form the closed boundary | Expect refutation: first edge missing. |
| C80 | Computing a hull does not alter the input points | list-heap model; expect refutation. |
| C81 | get_min_point_index finds the lexicographically least point | fold invariant. |
| C82 | list2set removes duplicates and keeps order | fold invariant, List.Nodup. |
| C83 | Inertia prediction equals step-by-step simulation | geometric sum, induction on n. |
| C84 | Final inertia travel is the limit of n-step travel | tendsto_pow_atTop_nhds_zero. |
| C85 | r_int is nearest-integer rounding and quantize snaps to the grid | trunc case analysis. |
| C86 | r_int follows rint (ties to even) | Expect refutation at ties. |
| C87 | Unquantize brackets the original value | C85. |
| C88 | bound and min_max clamp | min/max lemmas. |
| C89 | f_range enumerates the arithmetic progression | fuel-indexed generator; length by Archimedean bound; step 0 never terminates. |
| C90 | Geometric series helpers are inverse to each other | geometric sum, Real.log. |
| C91 | Kick and dash rates are monotone and continuous | linear arithmetic. |
| C92 | final_speed is the fixed point of the dash recurrence and decides can_over_speed_max | field_simp. |
| C93 | wind_effect scales with the wind | Expect refutation: always zero. |
| C94 | Constructors accept exactly the documented shapes | Dynamic value type `PyVal`, constructors as partial functions over argument lists; exact acceptance sets. |
| C95 | Accessors named without underscore return independent copies | Heap of object cells; expect refutations for nearest_point etc. |
| C96 | Normalisation survives floating-point rounding | Abstract rounding function (monotone, exact on small integers), reals with rounded operations. |
| C97 | Vertices lie in the bounding box in floating point | binary64 rounding on ℚ, concrete witness expected to refute. |
| C98 | f_range ends and yields the expected numbers in floating point | Running rounded sums; absorbed steps refute termination, exact criterion and guard. |
| C99 | r_int and quantize round correctly in floating point | Exactness of the differences below 2^53; refutation above. |
| C100 | The unquantize bracket contains the value in floating point | Error analysis of the rounded quotient; concrete witness expected to refute. |
| C101 | Size2D: diagonal, validity and equality; copies of Rect2D | Direct computation over histories; interior of a product of intervals. |
| C102 | A rectangle contains its corners and its center in floating point | Invariant: double fields, non-negative sizes; monotone rounding. |
| C103 | Moving and setting sides is exact in floating point | Witnesses refute; exact on a grid; error bound. |
| C104 | Distance is a metric in floating point | Any odd monotone rounding for symmetry; witnesses refute zero and triangle; relative error bound. |
| C105 | Circle containment is decided correctly in floating point | Forward error analysis of dist2; witness near the boundary. |
| C106 | Orientation is decided correctly in floating point | Forward error analysis of the determinant; sign never reversed for exact differences; witness. |
| C107 | Whole-degree arithmetic is exact in floating point | Simulation between the double and the real model on whole degrees. |
| C108 | Angle comparison is right in floating point | Monotone rounding; witness near a half turn. |
| C109 | Triangle2D and Polygon2D of three vertices agree | Triangle and polygon models compared through the convex polygon lemma (half planes) and the outline; Props/Agree. |
| C110 | Rect2D and Polygon2D of its corners agree | Same for the corner polygon of a rectangle; Props/Agree. |
| C111 | Matrix2D transforms and areas, distances and containment | Affine maps: area2 scales by det, segments map to segments; rigid maps preserve d; induction over operation lists; Props/Affine. |
| C112 | Triangle centers do not depend on vertex order and fit together | Uniqueness of the equidistant point and of the common point of two altitudes; Props/Centers. |
| C113 | The Graham scan computes the convex hull | Loop invariant: the kept points form a strictly convex chain around the first point containing all points scanned so far; Props/Graham. |
| C114 | The direct method finds the edges and vertices of the convex hull | Valid pairs are the supporting edges, which are the edges of the hull polygon of C78; Props/HullDirect. |
| C115 | AngleSortPredicate is an ordering | Case analysis of the comparison; Grassmann-Pluecker relation for transitivity; Props/SortKey. |
| C116 | The direct method returns the vertices in polygon order | C113 + C114 + uniqueness of a sorted permutation; Props/HullDirect. |
| C117 | The hull methods accept repeated and collinear points | Induction over the rounds; concrete runs for the refutations; Props/HullInput. |
| C118 | Triangle area, orientation and containment are exact on a grid in floating point | Every operation on grid numbers with integer factors below 2^53 is exact (`Grid`); then the theorem at ℝ; Props/FloatGrid. |
| C119 | Segment intersection is exact on a grid in floating point | Sign of a product survives rounding on the grid; then C30, C32, C29; Props/FloatGrid. |
| C120 | Distances, circle and rectangle containment are exact on a grid in floating point | Exact squares, one rounding of the root; Props/FloatGrid. |
| C121 | Polygon area and orientation are exact on a grid in floating point | Induction over the shoelace sum with an integer bound on the partial sums; Props/FloatPoly. |
| C122 | Polygon containment is exact on a grid in floating point | Simulation of the loop by the one in exact arithmetic: rounding of the far point never changes a sign; Props/FloatPoly. |
| C123 | Gift wrapping computes the exact convex hull on a grid in floating point | Simulation of gift wrapping by its run in exact arithmetic: every area is zero or above EPSILON on the grid; Props/FloatHull. |
| C124 | The direct method finds the exact hull on a grid in floating point | Simulation by the run in exact arithmetic with a transported sort, then C114; Props/FloatHullSort. |
| C125 | The Graham scan is exact on a grid in floating point when its sort base is the pivot | Simulation by the run in exact arithmetic with a transported sort, then C113 and C116; Props/FloatHullSort. |
| C126 | The text of an object determines its numbers | Texts are prefix codes: split at the first delimiter, induction over lists; Props/Text. |
| C127 | to_str appends the description of the shape | Values of the model; length argument; Props/Text. |
| C128 | Coordinates of bounded size never overflow | Simulation of the model without overflow by the one with overflow, with a bound 2^n carried along; Model/Ieee, Props/Ieee. |
| C129 | A point with a NaN coordinate is in no region | Propagation of NaN through the comparisons; Props/Ieee. |
| C130 | Every vector equals itself | Case analysis of special values; Props/Ieee. |
| C131 | Clamping gives a number within the limits for every argument | Case analysis of special values; Props/Ieee. |
| C132 | AngleDeg of special values | NaN propagation; simulation with the model without overflow; Props/Ieee. |
| C133 | Triangle containment accepts every inner point of finite coordinates | Counterexample of size 2^598; guard by C128; Props/Ieee. |
| C134 | Triangle containment and segment intersection are right for all doubles away from a tie | Forward error analysis of the determinant gives its sign; then C40, C30; Props/FloatRobust. |
| C135 | Rounding error of the polygon area | Induction over the shoelace sum with error bounds; Props/FloatRobust. |
| C136 | Polygon containment is right for all doubles away from the boundary | Simulation of the loop by the one in exact arithmetic, sign by sign; Props/FloatRobustPoly. |
| C137 | Gift wrapping computes the exact convex hull of arbitrary doubles in general position | Simulation of gift wrapping by its run in exact arithmetic: no area is near the tolerance; Props/FloatRobustHull. |
| C138 | The direct method finds the exact hull of arbitrary doubles in general position | Same for the direct method, with a transported sort, then C114; Props/FloatRobustSort. |
| C139 | The Graham scan is exact for arbitrary doubles in general position when its sort base is the pivot | Same for the Graham scan, then C113 and C116; distances compared only between equal points; Props/FloatRobustSort. |
| C140 | Quantised distances | Logarithm and exponential of the reals; Props/QuantDist. |
| C141 | unquantize_error bounds the uncertainty of a seen distance | Bracketing by the two half steps; refuted at 0, where the logarithm of -0.05 is taken; Props/QuantDist. |
| C142 | Equality of rays and segments | Angles modulo 360; Props/Equality. |
| C143 | Small operations on vectors and angles mean what their names say | Against Spec; Props/Equality. |
| C144 | The angle bisector line is the mirror axis of the two directions | C20 and C06; Props/Equality. |
| C145 | Constructors of circles and triangles accept exactly the usable arguments | PyVal model of arguments, case analysis; Props/Constructors2. |
| C146 | Which operations change objects in place and which give independent ones | Heap model; frame and reachability lemmas; Props/HeapOps. |
| C147 | Polygons and hulls own or share their lists as documented | Heap model; Props/HeapOps. |
| C148 | A polygon that is cleared and refilled consists of the new vertices | C72 for the area; refuted, the origin stays in the list; Props/History. |
| C149 | Points can be added to a hull at any time | Induction on the calls; refuted after a Graham scan, whose result shares the list of input points; Props/History. |
| C150 | add_points ends and appends the given points | Loop of add_points on the heap with a bound on rounds; refuted if the list is the hull's own; Props/History. |
| C151 | Polygon containment does not depend on the half line that is used | Crossing parity of triangles; closed sums over the cyclic edges; a point in general position as apex; Props/PolygonParity. |
| C152 | Polygon containment is invariant under transforms | Fans of triangles, whose orientations scale with the determinant; Props/PolygonParity. |
| C153 | Polygon containment adds up along diagonals | Edges of the parts; the diagonal counts twice; Props/PolygonParity. |
| C154 | Inclusive side tests of angles | Interval arithmetic modulo 360; Props/Sides. |
| C155 | Absolute angle, default angle, vector division, segment validity and direction | Least representative of a class modulo 360; polar form C12; Props/Sides. |
| C156 | Constructors and accessors return new objects with the right values | Heap model, appended objects; Props/HeapNew. |
| C157 | Rectangle objects that share nothing behave as values | Separation invariant (no shared parts), preserved by every call, and induction over the program; Model/HeapRect, Props/HeapRect. |
| C158 | Programs over objects have value semantics | Separation invariant for all classes with parts, one step lemma per call, induction over the program; Model/HeapProg, Props/HeapProg. Props/HeapCalls gives the value each call leaves or returns in coordinates and degrees (`Spec.vecCall`, `Spec.vecFn`, `Spec.angFn`), so that the two runs of a program cannot agree on a wrong table. |
| C159 | Comparing objects of any classes with == | Model of Python's == dispatch (left __eq__, then reflected, then identity) over 13 classes; exact condition for raising; Model/PyEq, Props/PyEq. |
| C160 | Operators on operands of any type | Inductive relations IsSum, IsDiff, IsMultiple, IsNegative over PyVal, case analysis on both operands; Props/Operators. |
| C161 | A mutating method that raises leaves its object as it was | State-and-exception monad Body whose state survives a raise; every mutator statement by statement over PyVal; exact set of calls that leak and what they leave (segWreck, sectorWreck, triWreck); C161_rect_arity: the rectangle corner setters take (0, 0) with any other number of arguments; C161_matrix_rotate: rotate raises for anything but an angle; Model/Mutators, Props/Mutators. |
| C162 | In exact arithmetic, raising is limited to the documented divisions | Second model with checked math calls (class PyMathE, functions fooE); side conditions discharged function by function; Model/Checked, Props/Checked. |
| C163 | No function raises for finite doubles | The checked model at Ieee; exact thresholds from rounding at both ends of the range (rne_overflow_iff, rne_eq_zero_iff); angles stay bounded by 360 (Made); Props/CheckedIeee, Props/CheckedDist. |
| C164 | Computing a convex hull ends without an exception | Checked list accesses (hullEdgesE, wrapLoopE, …) and the while loop as an inductive relation (WhileTop, ForTop, RunGraham); the point under inspection meets itself at a negative index, which stops the loop if its neighbour differs; Model/HullChecked, Props/HullChecked. |
| C165 | Rounding error of the distance from a segment or a line | Exact geometry of the two branches of Segment2D.dist (seg_exact_dist, seg_near_line: near the boundary of the branches both give nearly the same value) and error analysis of every operation (seg_dist_core, quot_near, fp_lin_error); Props/FloatSegDist. |
| C166 | Hashing, and dictionaries and sets with vectors as keys | Dictionaries as an association of hash, key and value, with lookup allowed to return any entry of equal hash that compares equal; induction over runs (Run) with the invariant that the keys, as points, are distinct and represent the reference map; Props/Dict. |
| C167 | Augmented assignment and the binary operators on shared objects | Case analysis over class, operator and operand (Heap.inplace, Heap.binary); values against the relation IsResult, which lists sums, differences, multiples and quotients; aliasing as InPlace or NewObject; Props/AugAssign. |
| C168 | A simple polygon contains exactly the points its outline encloses | Winding number (winding) by signed crossings; a fan of triangles from any point computes it (winding_fan), so it is locally constant off the outline; at every point of the outline of a simple polygon exactly two values c and c+1 occur nearby (NearLine), and each side is locally connected (SidesAt); connectedness of the outline carries both facts along it (simple_winding, simple_connected); Props/Winding. |
| C169 | Computed areas are the areas of the accepted sets, and orientation says where the inside is | Triangles as images of the unit triangle under a linear map of determinant area2; the integral of the winding number is a sum over a fan of triangles from the origin (integral_winding); sectors by polar coordinates (volume_sectorSet); Props/Area. |
| C170 | Clipping a polygon is intersection with the half plane or rectangle | The clipped outline is the original one with chains outside the half plane replaced by stretches of the line; winding of the clipped polygon about a point of the half plane is unchanged and 0 elsewhere (Poly.clip_winding), since a triangle with two corners on the line and the point on the other side contributes nothing; containment by contains_iff_winding, areas by area_of_winding; Props/ClipArea. |
| C171 | The polygon of a computed hull: area, extreme points and boundary of the convex hull | A strictly convex polygon is simple (StrictConvex.simple), so C168 and C169 apply; extreme points by the two supporting lines at a vertex; Props/HullArea. |
| C172 | Clipping with the four threshold predicates | Half planes of C170 specialised to axis-parallel lines, where taken-for-parallel means a change of less than EPSILON in the compared coordinate; Props/Threshold. |
| C173 | Rounding errors of vector products, lengths, set_length, normalize and affine transforms | Forward error analysis with rne_error_mixed (relative error plus underflow) and quot_near; Props/FloatVec. |
| C174 | Intersections and projections in double precision | Exact solution by Cramer and as the nearest point (Line.fmeet_unique, Line.ffoot_nearest); fp_quot_of_prods; the perpendicular has condition number 1, its constant term is perturbed (foot_shift); Props/FloatLine. |
| C175 | Mirror images | One proof for all number types with the laws OddNum (the arithmetic treats a number and its negative alike), instances for exact reals, odd roundings and Ieee; MirrorPoints relates the intersection lists; containment from C152; Props/Mirror, Props/MirrorContains. |
| C176 | Order of arguments, direction of segments, exchange of coordinates | As C175, with commutative sums and products (CommNum); Props/Swap. |
| C177 | The computed hull depends only on the convex hull | A strictly convex polygon is determined by its convex hull up to rotation (C177_unique), no model involved; then C78 and C113; Props/HullUnique. |
| C178 | The sign of a zero | Model/Signed adds the sign of zero to Ieee; Lemmas/Signed shows that forgetting it commutes with every function but atan2, and Props/Signed characterises atan2: the two results differ exactly for -0.0 and x at most -EPSILON. |
| C179 | Rounding errors of directions, rotations and polar coordinates | The instance of the mathematical functions is a parameter constrained by Spec.Accurate; errors propagate through Lipschitz bounds, directions through the logarithm of 1 + z; Props/FloatTrig. |
| C180 | Rays and sectors in double precision | Errors of at most 2**-43 degrees in the direction, then the comparisons of angles with margins; Props/FloatSector. |
| C181 | The distance of two segments in double precision | Props/FloatTwoSeg.lean. `C181_dist_partial`: the error bound under the hypothesis that a positive answer of `exist_intersection` is right (`Seg.existIntersection`, `Seg.distSeg` at `FP double`, against `IsMinDistSets`); `C181_meet`: no such hypothesis for segments which meet; `C181_clear`: the hypothesis follows from four clear turns (C134); `C181_refuted`: two segments at distance more than 2 with computed distance 0. The geometric step is `meet_near_end`: if two segments meet and an end of one is within a distance of the line of the other, some end is within that distance of the other segment. |
| C182 | Inertia travel in double precision | Props/FloatInertia.lean. `C182_travel`, `C182_distance`, `C182_point` (n steps), `C182_final`, `C182_final_distance` (until rest) bound the rounding error against the geometric sum `Spec.steps`; `C182_simulation` compares with the step by step simulation `Spec.fpStep` carried out in double precision. The library `pow` is a parameter with one ulp of error (`Spec.AccuratePow`). |
| C183 | The kick, dash, turn and speed formulas in double precision | Props/FloatRates.lean. `Rounded e a x M`: the computed `a` is within `e` units `2 ^ -53` of the magnitude `M` of the exact `x`; closed under the rounded operations. `C183_kick`, `C183_dash`, `C183_turn`, `C183_speed`, `C183_first` give the error bounds, `C183_over` the correctness of the comparison away from equality. |
| C184 | Intersections of a circle in double precision | Props/FloatCircle.lean. `C184_line` (|a| >= EPSILON) and `C184_horizontal` bound the residuals of the returned points, give the empty result for clearly separate lines and, for numbers of moderate size, a returned point near every exact intersection; `C184_circles` carries the residuals over to both of two circles. Props/FloatCircles.lean: `C184_circles_found` (near every common point of circles that clearly cross a point is returned), `C184_circles_vertical` (both statements for centers one above the other), `C184_refuted_circles` (crossing circles reported as disjoint, since the test in lines 177-185 has no tolerance). `Spec.reach` is the sum of the sizes of the numbers involved. `C184_refuted`: center (0, 729/16), radius 1/4, line 2^-19 x + y - 729/16 = 0 through the center: the computed discriminant is negative and the result is empty. |
| C185 | Matrices in double precision | Props/FloatMatrix.lean. `Spec.mag x` = |x| + 2^-200 (the offset absorbs underflow); `exactDet`, `detMag`, `magX`, `magY` are the exact determinant and the sizes of the terms. `C185_det`, `C185_product`, `C185_undo`, `C185_rotation`. `C185_refuted`: [[1 + 2^-30, 1], [1, 1 - 2^-30]] has determinant -2^-60, its computed determinant is zero and `inverted` is the identity, so (0, 1) is taken to a point with x = 1 by the transform followed by the inverse. |
| C186 | Line intersections and clipping in double precision | Props/FloatClip.lean (`C186_residual`, real-number estimate `clip_core`) and Props/FloatClipPoly.lean (`C186_vertical`, `C186_vertical_complete`, `C186_horizontal`, `C186_horizontal_complete`). `Line.cdet` is the computed determinant, `magT`, `magU`, `magV` the sizes of the terms. The library is a parameter with `Accurate m`. `LeftOrRight`, `AboveOrBelow` describe the four region tests of get_rectangle_clipped_polygon. Not covered: the four steps one after the other (the second step cuts with the wrong line, see C77). |
| C187 | A coordinate written 3 or 3.0 makes no difference | Model/PyNum.lean is one more instance of the number type (`PyNum lit`), Lemmas/PyNum*.lean the simulation between it and doubles (`sim k a x`: same value, ints at most 2^k; one lemma per model function, proved by the tactic `sim_def`), Props/PyNum.lean the theorems (`C187_vector`, ..., `C187_hull`, `C187_bound_needed`). `SameVal` is spelled out by `same_num`, `same_bool`, `same_vec`, `same_except`. Props/PyNumQuant.lean: `C187_rint`, `C187_quantize`, `C187_unquantize`, `C187_quantize_dist`, `C187_normalize_angle`, `C187_f_range`, for libraries with an exact `int()` and an exact `%` of integers (`exactMod_double`: there is one). |
| C188 | Int coordinates of any size are computed with exactly | Props/PyNumExact.lean. `IPt` is a point with integer coordinates, `IPt.py` the object, `IPt.re` the point of the plane, `iarea` the signed area over the integers. The geometric statements are those of C29, C30, C40. Functions that call `math.pow` or `math.fabs` (`dist2`, `equals_weakly`, the hull) convert to doubles and are not included. |
| C189 | Triangle centers in double precision | Props/FloatCenters.lean: `C189_circumcenter`, `C189_equidistant`, `C189_orthocenter`, `C189_bound_needed`; Props/FloatIncenter.lean: `C189_incenter`. The exact centers are `Spec.IsCircumcenter`, `Spec.IsOrthocenter` (unique under the hypotheses, part of the conclusion) and `Spec.incenterPt` (C44). `Spec.Extent` bounds the coordinate differences, `Spec.cosAt` is the cosine of a corner. The incenter goes through atan2, bisect, sin and cos, hence the parameter `Accurate` of C179. |
| C190 | Rays meeting lines and rays in double precision | Props/FloatRays.lean: `C190_ray_line`, `C190_rays`, `C190_parallel`. The exact point is given by `P = origin + s • unit dir` and by its membership in `lineSet a b c` or the second ray. `meet_core` is the error estimate of the determinant formula, `near_dir` the estimate of the direction in which the computed point is seen from the origin of the ray. |
| C191 | Polygons with NaN or infinite vertices | Model/InfStart.lean writes the three loops at `Ieee` with the infinities of the source instead of `none`; Props/InfStart.lean: `C191_box`, `C191_contains`, `C191_dist`, `C191_agree`, `C191_dist_agree`. Spec: `LeastNum`, `GreatestNum` (least and greatest of a set, NaN not counted), `IsEdge`. |
| C192 | The unit of length does not matter | Props/Scale.lean: `C192_points`, `C192_shapes`, `C192_polygon`, `C192_coarse` (which numbers satisfy the hypothesis); Props/ScaleLimits.lean: `C192_coarse_needed`, `C192_tolerance`. Rounding commutes with multiplication by a power of two on a lattice of multiples of `2 ^ g` (`rne_shift`), subnormals included; the relation `Scaled` is carried through the functions. Spec: `FP.shift`, `Spec.Coarse`. |
| C193 | Monotone formulas stay monotone under rounding | Props/FloatMono.lean: `C193_dist`, `C193_length`, `C193_circle`, `C193_sector`, `C193_rect`, `C193_kick_rate`, `C193_dir_rate`, `C193_effective_turn`, `C193_final_speed`, `C193_inertia_final`, `C193_inertia_steps`, `C193_first_term`, `C193_clamp` at `FP ρ` for every `Rounding`; `C193_quantize` at `FP double`. The statements are inequalities between results, no spec is needed. |
| C194 | Areas, arc lengths and diagonals in double precision | Props/FloatArea.lean: `C194_circle`, `C194_rect`, `C194_arc`, `C194_sector`, `C194_arcs` at `FP double`. Spec: the real formulas. |
| C195 | Geometric series helpers in double precision | Props/FloatGeom.lean: `C195_first_term`, `C195_length`, `C195_round_trip` at `FP double`, for every library that satisfies `Spec.AccuratePow` and `Spec.AccurateLog` (one unit in the last place; `accuratePow_double` and `accurateLog_double` show that there is one). Spec: the real formulas, and `n` itself for the round trip. |
| C196 | Quantised distances in double precision | Props/FloatQuant.lean: `C196_value`, `C196_error` at `FP double`, for every library that satisfies `Spec.AccurateLog`, `Spec.AccurateExp` (one unit in the last place) and `Spec.ExactTrunc` (`accurateLog_double`, `accurateExp_double`, `exactTrunc_double` show that there is one). Spec: the real bounds of C140 and C141 with explicit rounding terms. |
| C197 | Copies of lines and rays, assign of triangles | Props/Copies.lean: `C197_line`, `C197_ray`, `C197_ray_meets`, `C197_triangle`, `C197_triangle_area`. Spec: `Spec.lineSet`, `Spec.rayFrom`, `Spec.area2`. |
| C198 | Circle and segment in double precision | Props/FloatCircleSeg.lean: `C198_segment`, `C198_horizontal`. The bounds come from C184, from the rounding of the line through two points (`seg_line_cross`) and of the box test (`box_sound`, `box_of_between`, `box_of_near`). Spec: `Spec.Inside`, `Spec.reach`, distances and cross products written out. |
| C199 | Circle and ray in double precision | Props/FloatCircleRay.lean: `C199_ray`, `C199_horizontal`. C184 (moved to any library by `intersectionLine_math`), the line of a ray (`ray_line`) and the test of the direction (`ray_angle`, `ray_kept`, from C180). Spec: `Spec.unit`, `Spec.direction`, `Spec.reach`, distances and cross products written out. |
| C200 | Rectangle and line, ray or segment in double precision | Props/FloatRectLine.lean: `C200_line`, `C200_across`, `C200_down`, `C200_segment`, `C200_ray`; Props/FloatApart.lean: `C200_apart` (two reported points are apart). The coefficient of a vertical or horizontal edge is exactly zero, so both coordinates have a small relative error (`edge_meet`). Spec: `Spec.OnSideX`, `Spec.OnSideY`, `Spec.OnSides`, `Spec.direction`, `Spec.unit`. |
| C201 | Segment or triangle and line in double precision | Props/FloatTriLine.lean: `C201_segment`, `C201_found`, `C201_raises_iff`, `C201_triangle`; Props/FloatApart.lean: `C201_apart`. From the residuals of C186 with the sizes of the line through two points (`seg_mags`, `seg_det`). Spec: `Spec.NearMeet`, `Spec.Inside`, `Spec.Within`, `Spec.sidesOf`, `Spec.solutions`. |
