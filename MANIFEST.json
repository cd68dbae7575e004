{
 "claims": [
  {
   "property": "C01",
   "status": "proved",
   "theorems": [
    "PyrusGeom.C01_history",
    "PyrusGeom.C01_reachable_normal",
    "PyrusGeom.C01_history_int"
   ],
   "note": "All mutator histories, exact real arithmetic. *= uses the stored degree; fully plain evaluation when multipliers are integers."
  },
  {
   "property": "C02",
   "status": "proved",
   "theorems": [
    "PyrusGeom.C02_exact",
    "PyrusGeom.C02_idempotent"
   ],
   "note": "All reals."
  },
  {
   "property": "C03",
   "status": "proved",
   "theorems": [
    "PyrusGeom.C03_arith",
    "PyrusGeom.C03_congr"
   ],
   "note": "All angles, all integer factors."
  },
  {
   "property": "C04",
   "status": "partial",
   "theorems": [
    "PyrusGeom.C04_refuted",
    "PyrusGeom.C04_left_partial",
    "PyrusGeom.C04_guard_exact",
    "PyrusGeom.C04_converse",
    "PyrusGeom.C04_exclusive",
    "PyrusGeom.C04_neither_partial"
   ],
   "note": "Refuted for the pair (180, -180). Proved for every other pair; the guard is exact (C04_guard_exact). Converse and exclusivity hold for all pairs."
  },
  {
   "property": "C05",
   "status": "partial",
   "theorems": [
    "PyrusGeom.C05_refuted",
    "PyrusGeom.C05_within_partial"
   ],
   "note": "Refuted when -180 is stored. Proved for all stored values in (-180, 180]."
  },
  {
   "property": "C06",
   "status": "partial",
   "theorems": [
    "PyrusGeom.C06_refuted",
    "PyrusGeom.C06_complementary_middle_partial",
    "PyrusGeom.C06_double_partial"
   ],
   "note": "Refuted: bisect(0,90) = -135. Proved: the result is the middle of the complementary arc [right, left], and twice it is left+right modulo 360."
  },
  {
   "property": "C07",
   "status": "proved",
   "theorems": [
    "PyrusGeom.C07_trig",
    "PyrusGeom.C07_congr",
    "PyrusGeom.C07_acos",
    "PyrusGeom.C07_asin",
    "PyrusGeom.C07_atan",
    "PyrusGeom.C07_atan2"
   ],
   "note": "All reals; PI idealised to pi."
  },
  {
   "property": "C08",
   "status": "partial",
   "theorems": [
    "PyrusGeom.C08_refuted",
    "PyrusGeom.C08_refuted_num",
    "PyrusGeom.C08_not_transitive",
    "PyrusGeom.C08_eq_partial"
   ],
   "note": "Refuted (180 vs -180; numbers such as 360; not transitive). Proved: reflexive, symmetric, means |difference of stored degrees| < EPSILON, complete on (-180, 180]."
  },
  {
   "property": "C09",
   "status": "proved",
   "theorems": [
    "PyrusGeom.C09_reverse"
   ],
   "note": "All normalised angles, which by C01 is every reachable one."
  },
  {
   "property": "C10",
   "status": "proved",
   "theorems": [
    "PyrusGeom.C10_normalize_angle",
    "PyrusGeom.C10_exclusion_needed"
   ],
   "note": "All reals; the excluded class is shown to differ."
  },
  {
   "property": "C11",
   "status": "proved",
   "theorems": [
    "PyrusGeom.C11_get_normalized"
   ],
   "note": "All angles."
  },
  {
   "property": "C12",
   "status": "proved",
   "theorems": [
    "PyrusGeom.C12_from_polar",
    "PyrusGeom.C12_spellings",
    "PyrusGeom.C12_round_trip",
    "PyrusGeom.C12_guard_needed"
   ],
   "note": "All radii, angles, vectors; necessity of the EPSILON guard shown."
  },
  {
   "property": "C13",
   "status": "proved",
   "theorems": [
    "PyrusGeom.C13_receiver_unchanged",
    "PyrusGeom.C13_isometry",
    "PyrusGeom.C13_action",
    "PyrusGeom.C13_turns",
    "PyrusGeom.C13_variants"
   ],
   "note": "All vectors and angles. \"Receiver unchanged\" is by construction of the functional model here and proved in the heap model."
  },
  {
   "property": "C14",
   "status": "proved",
   "theorems": [
    "PyrusGeom.C14_set_length"
   ],
   "note": "All vectors, L >= 0."
  },
  {
   "property": "C15",
   "status": "proved",
   "theorems": [
    "PyrusGeom.C15_metric"
   ],
   "note": "All triples."
  },
  {
   "property": "C16",
   "status": "proved",
   "theorems": [
    "PyrusGeom.C16_products",
    "PyrusGeom.C16_algebra"
   ],
   "note": "All pairs."
  },
  {
   "property": "C17",
   "status": "proved",
   "theorems": [
    "PyrusGeom.C17_equality",
    "PyrusGeom.C17_ignores_flag",
    "PyrusGeom.C17_weak_not_transitive"
   ],
   "note": "All triples; hash is an arbitrary function of the coordinate pair."
  },
  {
   "property": "C18",
   "status": "partial",
   "theorems": [
    "PyrusGeom.C18_refuted",
    "PyrusGeom.C18_refuted_ctor",
    "PyrusGeom.C18_refuted_arith",
    "PyrusGeom.C18_flag_partial"
   ],
   "note": "Refuted for copy, the copying constructor and +. Proved: what each operation does to the flag."
  },
  {
   "property": "C19",
   "status": "proved",
   "theorems": [
    "PyrusGeom.C19_history"
   ],
   "note": "All histories."
  },
  {
   "property": "C20",
   "status": "proved",
   "theorems": [
    "PyrusGeom.C20_two_points",
    "PyrusGeom.C20_equal_points",
    "PyrusGeom.C20_point_angle"
   ],
   "note": "All points, angles, query points."
  },
  {
   "property": "C21",
   "status": "proved",
   "theorems": [
    "PyrusGeom.C21_intersection"
   ],
   "note": "All pairs of lines, including the EPSILON tolerance."
  },
  {
   "property": "C22",
   "status": "proved",
   "theorems": [
    "PyrusGeom.C22_line_dist",
    "PyrusGeom.C22_line_dist_raises"
   ],
   "note": "All lines and points."
  },
  {
   "property": "C23",
   "status": "proved",
   "theorems": [
    "PyrusGeom.C23_projection",
    "PyrusGeom.C23_guard_exact"
   ],
   "note": "All lines with a^2+b^2 >= EPSILON; guard exact."
  },
  {
   "property": "C24",
   "status": "partial",
   "theorems": [
    "PyrusGeom.C24_segment_partial",
    "PyrusGeom.C24_refuted",
    "PyrusGeom.C24_bisector_partial",
    "PyrusGeom.C24_degenerate"
   ],
   "note": "Refuted for distinct points within EPSILON; proved otherwise, degenerate branch characterised."
  },
  {
   "property": "C25",
   "status": "partial",
   "theorems": [
    "PyrusGeom.C25_refuted_sound",
    "PyrusGeom.C25_refuted_complete",
    "PyrusGeom.C25_eq_partial"
   ],
   "note": "Refuted in both directions. Proved: reflexive, symmetric, exact on consistently scaled lines."
  },
  {
   "property": "C26",
   "status": "proved",
   "theorems": [
    "PyrusGeom.C26_get_x",
    "PyrusGeom.C26_get_y"
   ],
   "note": "All lines and ordinates."
  },
  {
   "property": "C27",
   "status": "partial",
   "theorems": [
    "PyrusGeom.C27_refuted",
    "PyrusGeom.C27_in_right_dir_partial",
    "PyrusGeom.C27_near_origin"
   ],
   "note": "Refuted at the origin of the ray. Proved away from the EPSILON box around the origin; inside it the exact behaviour is characterised."
  },
  {
   "property": "C28",
   "status": "partial",
   "theorems": [
    "PyrusGeom.C28_refuted",
    "PyrusGeom.C28_ray_line_partial",
    "PyrusGeom.C28_ray_ray_partial"
   ],
   "note": "Refuted (meeting point at the origin). Proved when the meeting point is outside the EPSILON boxes."
  },
  {
   "property": "C29",
   "status": "partial",
   "theorems": [
    "PyrusGeom.C29_on_segment_partial",
    "PyrusGeom.C29_degenerate",
    "PyrusGeom.C29_refuted"
   ],
   "note": "Refuted for a segment whose end points coincide: on_segment then accepts the whole vertical line through the point. Proved for every segment with two different end points; the degenerate answer is characterised exactly."
  },
  {
   "property": "C30",
   "status": "proved",
   "theorems": [
    "PyrusGeom.C30_exist_intersection",
    "PyrusGeom.C30_symm"
   ],
   "note": "All pairs of segments, including degenerate and collinear ones."
  },
  {
   "property": "C31",
   "status": "proved",
   "theorems": [
    "PyrusGeom.C31_exist_intersection_line"
   ],
   "note": "All segments and lines (also degenerate ones)."
  },
  {
   "property": "C32",
   "status": "proved",
   "theorems": [
    "PyrusGeom.C32_except_endpoint",
    "PyrusGeom.C32_symm_and_implies"
   ],
   "note": "All pairs of segments."
  },
  {
   "property": "C33",
   "status": "proved",
   "theorems": [
    "PyrusGeom.C33_nearest_point"
   ],
   "note": "All segments and points."
  },
  {
   "property": "C34",
   "status": "proved",
   "theorems": [
    "PyrusGeom.C34_dist_point"
   ],
   "note": "All segments and points."
  },
  {
   "property": "C35",
   "status": "proved",
   "theorems": [
    "PyrusGeom.C35_dist_segment",
    "PyrusGeom.C35_symm_and_zero"
   ],
   "note": "All pairs of segments."
  },
  {
   "property": "C36",
   "status": "proved",
   "theorems": [
    "PyrusGeom.C36_farthest_dist"
   ],
   "note": "All segments and points."
  },
  {
   "property": "C37",
   "status": "proved",
   "theorems": [
    "PyrusGeom.C37_projection",
    "PyrusGeom.C37_tiny"
   ],
   "note": "All segments at least EPSILON long, all points; the behaviour of shorter segments is stated separately."
  },
  {
   "property": "C38",
   "status": "proved",
   "theorems": [
    "PyrusGeom.C38_line_sound",
    "PyrusGeom.C38_line_complete",
    "PyrusGeom.C38_seg_sound",
    "PyrusGeom.C38_seg_complete"
   ],
   "note": "All segments and lines; soundness and completeness separately. Box tolerance of contains stated as distance at most sqrt(CALC_ERROR)."
  },
  {
   "property": "C39",
   "status": "proved",
   "theorems": [
    "PyrusGeom.C39_receiver_unchanged",
    "PyrusGeom.C39_orientation"
   ],
   "note": "All segments and arguments. \"Receiver unchanged\" is by construction here and proved in the heap model."
  },
  {
   "property": "C40",
   "status": "partial",
   "theorems": [
    "PyrusGeom.C40_contains_partial",
    "PyrusGeom.C40_complete",
    "PyrusGeom.C40_degenerate",
    "PyrusGeom.C40_refuted"
   ],
   "note": "Refuted for collinear vertices. Proved for every triangle with non-zero area; members are accepted for all triangles; degenerate acceptance set characterised."
  },
  {
   "property": "C41",
   "status": "proved",
   "theorems": [
    "PyrusGeom.C41_signed_area"
   ],
   "note": "All vertex triples and translations."
  },
  {
   "property": "C42",
   "status": "partial",
   "theorems": [
    "PyrusGeom.C42_circumcenter_partial",
    "PyrusGeom.C42_refuted"
   ],
   "note": "Refuted for vertices within EPSILON of each other. Proved when no two vertices are that close, with the exact validity condition."
  },
  {
   "property": "C43",
   "status": "proved",
   "theorems": [
    "PyrusGeom.C43_orthocenter"
   ],
   "note": "All vertex triples; validity condition exact."
  },
  {
   "property": "C44",
   "status": "proved",
   "theorems": [
    "PyrusGeom.C44_incenter",
    "PyrusGeom.C44_valid"
   ],
   "note": "All triangles whose sides are not inside the EPSILON box; a sufficient condition for validity is proved as well."
  },
  {
   "property": "C45",
   "status": "partial",
   "theorems": [
    "PyrusGeom.C45_refuted_method",
    "PyrusGeom.C45_refuted"
   ],
   "note": "Refuted for all inputs: centroid always raises AttributeError, because Vector2D.add returns None."
  },
  {
   "property": "C46",
   "status": "partial",
   "theorems": [
    "PyrusGeom.C46_refuted_always_false",
    "PyrusGeom.C46_refuted"
   ],
   "note": "Refuted for all inputs: is_valid compares the first vertex with itself and is always False."
  },
  {
   "property": "C47",
   "status": "partial",
   "theorems": [
    "PyrusGeom.C47_raises_iff",
    "PyrusGeom.C47_line_partial",
    "PyrusGeom.C47_refuted_line",
    "PyrusGeom.C47_refuted_segment",
    "PyrusGeom.C47_ray_behaviour",
    "PyrusGeom.C47_refuted_ray"
   ],
   "note": "Refuted: raises IndexError exactly when sides ab and bc both meet the line (C47_raises_iff), always raises for segments, drops points for rays. Proved for lines in all remaining cases."
  },
  {
   "property": "C48",
   "status": "proved",
   "theorems": [
    "PyrusGeom.C48_radius"
   ],
   "note": "All histories of constructor and assign calls."
  },
  {
   "property": "C49",
   "status": "proved",
   "theorems": [
    "PyrusGeom.C49_quadratic"
   ],
   "note": "All coefficient triples (a = 0 raises)."
  },
  {
   "property": "C50",
   "status": "partial",
   "theorems": [
    "PyrusGeom.C50_methods",
    "PyrusGeom.C50_secant_partial",
    "PyrusGeom.C50_miss_partial",
    "PyrusGeom.C50_band_partial",
    "PyrusGeom.C50_at_most_two",
    "PyrusGeom.C50_refuted",
    "PyrusGeom.C50_refuted_small"
   ],
   "note": "Refuted for 0 < |a| < EPSILON (line treated as horizontal) and for both coefficients below EPSILON. Proved otherwise, including the discriminant tolerance band; at most two points for all inputs."
  },
  {
   "property": "C51",
   "status": "partial",
   "theorems": [
    "PyrusGeom.C51_apart",
    "PyrusGeom.C51_secant_partial",
    "PyrusGeom.C51_band_partial",
    "PyrusGeom.C51_cases_partial",
    "PyrusGeom.C51_refuted"
   ],
   "note": "Refuted for centers within EPSILON/2. Proved otherwise."
  },
  {
   "property": "C52",
   "status": "proved",
   "theorems": [
    "PyrusGeom.C52_segment",
    "PyrusGeom.C52_ray"
   ],
   "note": "All circles and segments; rays with a normalised direction. Stated relative to the circle-line answer of C50."
  },
  {
   "property": "C53",
   "status": "partial",
   "theorems": [
    "PyrusGeom.C53_circum_circle_partial",
    "PyrusGeom.C53_circum_circle_invalid",
    "PyrusGeom.C53_contains_partial",
    "PyrusGeom.C53_contains_flat",
    "PyrusGeom.C53_order",
    "PyrusGeom.C53_refuted_contains",
    "PyrusGeom.C53_refuted_circle"
   ],
   "note": "Refuted for points within EPSILON (circle) and nearly flat triples (contains). Proved otherwise; order independence for all triples."
  },
  {
   "property": "C54",
   "status": "proved",
   "theorems": [
    "PyrusGeom.C54_sizes"
   ],
   "note": "All constructors, all histories of mutators, also mutation of a shared Size2D."
  },
  {
   "property": "C55",
   "status": "proved",
   "theorems": [
    "PyrusGeom.C55_moves"
   ],
   "note": "All rectangles and arguments."
  },
  {
   "property": "C56",
   "status": "partial",
   "theorems": [
    "PyrusGeom.C56_set_side_partial",
    "PyrusGeom.C56_beyond",
    "PyrusGeom.C56_refuted"
   ],
   "note": "Refuted beyond the opposite side (the sides swap roles, C56_beyond states exactly how). Proved on the proper side."
  },
  {
   "property": "C57",
   "status": "partial",
   "theorems": [
    "PyrusGeom.C57_assign4_partial",
    "PyrusGeom.C57_set_corner_partial",
    "PyrusGeom.C57_refuted_assign",
    "PyrusGeom.C57_refuted_corner"
   ],
   "note": "Refuted: assign(left, top, length, width) uses left as length, and the corner setters inherit this. What they do is proved exactly."
  },
  {
   "property": "C58",
   "status": "partial",
   "theorems": [
    "PyrusGeom.C58_two_corners",
    "PyrusGeom.C58_refuted_iff"
   ],
   "note": "Refuted for all corner pairs except two origins: the constructor always makes a single point (C58_two_corners)."
  },
  {
   "property": "C59",
   "status": "partial",
   "theorems": [
    "PyrusGeom.C59_contains_partial",
    "PyrusGeom.C59_refuted_almost"
   ],
   "note": "Refuted for contains_almost (always raises TypeError). Everything else proved for all rectangles."
  },
  {
   "property": "C60",
   "status": "partial",
   "theorems": [
    "PyrusGeom.C60_intersected_partial",
    "PyrusGeom.C60_guard_exact",
    "PyrusGeom.C60_refuted",
    "PyrusGeom.C60_empty",
    "PyrusGeom.C60_empty_refuted"
   ],
   "note": "Refuted for disjoint rectangles and for an argument without area. Proved for overlapping or touching rectangles; guard exact."
  },
  {
   "property": "C61",
   "status": "partial",
   "theorems": [
    "PyrusGeom.C61_refuted_always",
    "PyrusGeom.C61_result"
   ],
   "note": "Refuted for every pair with a valid argument: the result never contains both rectangles."
  },
  {
   "property": "C62",
   "status": "partial",
   "theorems": [
    "PyrusGeom.C62_sound_partial",
    "PyrusGeom.C62_complete_partial",
    "PyrusGeom.C62_interior_partial",
    "PyrusGeom.C62_refuted",
    "PyrusGeom.C62_ray_segment"
   ],
   "note": "Refuted for lines through a corner. Proved: soundness for all lines; completeness and the exact two-point answer for lines through no corner whose coefficients are zero or above the tolerance."
  },
  {
   "property": "C63",
   "status": "partial",
   "theorems": [
    "PyrusGeom.C63_from_center_partial",
    "PyrusGeom.C63_refuted"
   ],
   "note": "Refuted for from_center(point, length, width), which always raises. Proved for the four-number form with non-negative sizes."
  },
  {
   "property": "C64",
   "status": "partial",
   "theorems": [
    "PyrusGeom.C64_stored_partial",
    "PyrusGeom.C64_contains_partial",
    "PyrusGeom.C64_center",
    "PyrusGeom.C64_refuted",
    "PyrusGeom.C64_refuted_radius",
    "PyrusGeom.C64_area_kept",
    "PyrusGeom.C64_area_partial",
    "PyrusGeom.C64_refuted_area"
   ],
   "note": "Refuted: the inner radius is always stored as 0 and radius_max returns it. Proved: contains, area and arc length with inner radius 0, for all points outside the EPSILON box of the center and angles stored in (-180,180]; the center box is characterised."
  },
  {
   "property": "C65",
   "status": "partial",
   "theorems": [
    "PyrusGeom.C65_refl_partial",
    "PyrusGeom.C65_eq_iff",
    "PyrusGeom.C65_refuted"
   ],
   "note": "Refuted for every sector with radius >= EPSILON; the exact condition of equality is proved."
  },
  {
   "property": "C66",
   "status": "proved",
   "theorems": [
    "PyrusGeom.C66_product"
   ],
   "note": "All matrices and all vectors."
  },
  {
   "property": "C67",
   "status": "partial",
   "theorems": [
    "PyrusGeom.C67_refuted",
    "PyrusGeom.C67_refuted_example",
    "PyrusGeom.C67_partial",
    "PyrusGeom.C67_vector_partial"
   ],
   "note": "Refuted for every heap: A * B stores the product in A and returns A. Proved: no other object changes; nothing changes at all exactly if the product equals A; matrix times vector changes nothing."
  },
  {
   "property": "C68",
   "status": "proved",
   "theorems": [
    "PyrusGeom.C68_inverse",
    "PyrusGeom.C68_singular",
    "PyrusGeom.C68_invertible"
   ],
   "note": "All matrices, singular and regular."
  },
  {
   "property": "C69",
   "status": "proved",
   "theorems": [
    "PyrusGeom.C69_history",
    "PyrusGeom.C69_rotation"
   ],
   "note": "All finite call sequences."
  },
  {
   "property": "C70",
   "status": "partial",
   "theorems": [
    "PyrusGeom.C70_eq_partial",
    "PyrusGeom.C70_offset_partial",
    "PyrusGeom.C70_refuted_refl",
    "PyrusGeom.C70_refuted_distinct"
   ],
   "note": "Refuted in both directions (dx is compared with dy); the exact meaning of equality is proved."
  },
  {
   "property": "C71",
   "status": "partial",
   "theorems": [
    "PyrusGeom.C71_bounding_box_partial",
    "PyrusGeom.C71_refuted"
   ],
   "note": "Refuted for the empty vertex list (raises). Proved for all non-empty lists: contains all vertices and lies in every box that does."
  },
  {
   "property": "C72",
   "status": "proved",
   "theorems": [
    "PyrusGeom.C72_shoelace",
    "PyrusGeom.C72_rotate",
    "PyrusGeom.C72_translate",
    "PyrusGeom.C72_reverse",
    "PyrusGeom.C72_triangle",
    "PyrusGeom.C72_diagonal",
    "PyrusGeom.C72_area"
   ],
   "note": "Vertex lists of any length."
  },
  {
   "property": "C73",
   "status": "partial",
   "theorems": [
    "PyrusGeom.C73_parity",
    "PyrusGeom.C73_parity_strict",
    "PyrusGeom.C73_even_odd",
    "PyrusGeom.C73_generic",
    "PyrusGeom.C73_rotate",
    "PyrusGeom.C73_reverse",
    "PyrusGeom.C73_outside",
    "PyrusGeom.C73_strict_partial",
    "PyrusGeom.C73_convex",
    "PyrusGeom.C73_convex_cw",
    "PyrusGeom.C73_strict_refuted",
    "PyrusGeom.C73_odd"
   ],
   "note": "All polygons and points. Also an exact answer on the outline, and for strictly convex polygons membership in the topological interior of the convex hull. allow_on_segment=False: refuted for repeated consecutive vertices, proved otherwise."
  },
  {
   "property": "C74",
   "status": "partial",
   "theorems": [
    "PyrusGeom.C74_strict",
    "PyrusGeom.C74_vertex",
    "PyrusGeom.C74_refuted",
    "PyrusGeom.C74_convex_partial"
   ],
   "note": "Refuted for allow_on_segment=True (left and far sides of a square). Proved: False for all outline points with allow_on_segment=False, True for all vertices, and exactly which edges count for strictly convex polygons."
  },
  {
   "property": "C75",
   "status": "proved",
   "theorems": [
    "PyrusGeom.C75_dist",
    "PyrusGeom.C75_plane"
   ],
   "note": "All polygons with two or more vertices; also zero and one vertex."
  },
  {
   "property": "C76",
   "status": "partial",
   "theorems": [
    "PyrusGeom.C76_sound",
    "PyrusGeom.C76_all_inside",
    "PyrusGeom.C76_complete_partial",
    "PyrusGeom.C76_complete_refuted"
   ],
   "note": "All lists, lines and half planes. Completeness in addition, guarded by the parallelism tolerance (refuted without it)."
  },
  {
   "property": "C77",
   "status": "partial",
   "theorems": [
    "PyrusGeom.C77_clip_partial",
    "PyrusGeom.C77_three_sides_partial",
    "PyrusGeom.C77_refuted",
    "PyrusGeom.C77_refuted_empty"
   ],
   "note": "Refuted (the second step clips against the wrong line; also the empty polygon). Proved if no vertex is beyond bottom(); three sides of four for all polygons."
  },
  {
   "property": "C78",
   "status": "proved",
   "theorems": [
    "PyrusGeom.Hull.C78_wrapping",
    "PyrusGeom.Hull.C78_convex_hull",
    "PyrusGeom.Hull.C78_to_polygon"
   ],
   "note": "Point lists of any length from three on, with the hypothesis HullPos (weaker than general position). Also proved: the result is strictly convex and has the same convex hull as the input, and to_polygon().contains(p, False) decides membership in the interior of that hull."
  },
  {
   "property": "C79",
   "status": "partial",
   "theorems": [
    "PyrusGeom.Hull.C79_wrapping_partial",
    "PyrusGeom.Hull.C79_refuted",
    "PyrusGeom.Hull.C79_graham_partial"
   ],
   "note": "Refuted for every input in general position: gift wrapping never stores the first edge. Proved: exactly which edges are stored by gift wrapping (general position) and by the Graham scan (last vertex not repeated)."
  },
  {
   "property": "C80",
   "status": "partial",
   "theorems": [
    "PyrusGeom.Hull.C80_no_graham_partial",
    "PyrusGeom.Hull.C80_refuted_twice",
    "PyrusGeom.Hull.C80_refuted"
   ],
   "note": "Refuted for the Graham scan (it sorts and truncates the caller list, and the next compute empties it, whatever the method). Proved for all sequences of the other two methods. list.sort is a parameter."
  },
  {
   "property": "C81",
   "status": "proved",
   "theorems": [
    "PyrusGeom.Hull.C81_min_point_index"
   ],
   "note": "Lists of any length."
  },
  {
   "property": "C82",
   "status": "proved",
   "theorems": [
    "PyrusGeom.Hull.C82_same_elements",
    "PyrusGeom.Hull.C82_first_occurrences",
    "PyrusGeom.Hull.C82_idempotent",
    "PyrusGeom.Hull.C82_vectors"
   ],
   "note": "Lists of any length over any type with an equivalence relation as ==; also for Vector2D."
  },
  {
   "property": "C83",
   "status": "proved",
   "theorems": [
    "PyrusGeom.SoccerMath.C83_point",
    "PyrusGeom.SoccerMath.C83_distance",
    "PyrusGeom.SoccerMath.C83_compose",
    "PyrusGeom.SoccerMath.C83_backwards",
    "PyrusGeom.SoccerMath.C83_decay_one"
   ],
   "note": "Every n, also composition and negative n (backwards)."
  },
  {
   "property": "C84",
   "status": "proved",
   "theorems": [
    "PyrusGeom.SoccerMath.C84_limit",
    "PyrusGeom.SoccerMath.C84_bound",
    "PyrusGeom.SoccerMath.C84_decay_one"
   ],
   "note": "Limit for |decay| < 1; least upper bound for 0 <= decay < 1."
  },
  {
   "property": "C85",
   "status": "proved",
   "theorems": [
    "PyrusGeom.SoccerMath.C85_odd",
    "PyrusGeom.SoccerMath.C85_nearest",
    "PyrusGeom.SoccerMath.C85_integer",
    "PyrusGeom.SoccerMath.C85_monotone",
    "PyrusGeom.SoccerMath.C85_quantize",
    "PyrusGeom.SoccerMath.C85_zero_step"
   ],
   "note": "All reals; ties go away from zero."
  },
  {
   "property": "C86",
   "status": "partial",
   "theorems": [
    "PyrusGeom.SoccerMath.C86_partial",
    "PyrusGeom.SoccerMath.C86_refuted"
   ],
   "note": "Refuted (r_int(0.5) = 1). Proved: exactly which x agree with rint."
  },
  {
   "property": "C87",
   "status": "proved",
   "theorems": [
    "PyrusGeom.SoccerMath.C87_bracket",
    "PyrusGeom.SoccerMath.C87_tight"
   ],
   "note": "All v and q > 0; also that the bracket is tight."
  },
  {
   "property": "C88",
   "status": "proved",
   "theorems": [
    "PyrusGeom.SoccerMath.C88_same",
    "PyrusGeom.SoccerMath.C88_clamp",
    "PyrusGeom.SoccerMath.C88_monotone",
    "PyrusGeom.SoccerMath.C88_reversed"
   ],
   "note": "All triples; also the nearest number of the range, and bounds in wrong order."
  },
  {
   "property": "C89",
   "status": "proved",
   "theorems": [
    "PyrusGeom.SoccerMath.C89_up",
    "PyrusGeom.SoccerMath.C89_down",
    "PyrusGeom.SoccerMath.C89_terminates",
    "PyrusGeom.SoccerMath.C89_zero_step",
    "PyrusGeom.SoccerMath.C89_defaults"
   ],
   "note": "All starts, stops, steps; also the exact number of values."
  },
  {
   "property": "C90",
   "status": "partial",
   "theorems": [
    "PyrusGeom.SoccerMath.C90_first_term",
    "PyrusGeom.SoccerMath.C90_first_term_unique",
    "PyrusGeom.SoccerMath.C90_length_partial",
    "PyrusGeom.SoccerMath.C90_length_meaning",
    "PyrusGeom.SoccerMath.C90_no_length",
    "PyrusGeom.SoccerMath.C90_refuted",
    "PyrusGeom.SoccerMath.C90_refuted_eps"
   ],
   "note": "Refuted for ratio 1 (raises) and for sums below the tolerance. Proved: first term for every n; length under explicit tolerance guards; -1 when no length exists."
  },
  {
   "property": "C91",
   "status": "proved",
   "theorems": [
    "PyrusGeom.SoccerMath.C91_kick_rate",
    "PyrusGeom.SoccerMath.C91_kick_rate_values",
    "PyrusGeom.SoccerMath.C91_dir_rate_values",
    "PyrusGeom.SoccerMath.C91_dir_rate_continuous",
    "PyrusGeom.SoccerMath.C91_dir_rate_between",
    "PyrusGeom.SoccerMath.C91_effective_turn"
   ],
   "note": "All parameters."
  },
  {
   "property": "C92",
   "status": "proved",
   "theorems": [
    "PyrusGeom.SoccerMath.C92_final_speed",
    "PyrusGeom.SoccerMath.C92_convergence",
    "PyrusGeom.SoccerMath.C92_decay_one"
   ],
   "note": "All parameters; also convergence of the recurrence."
  },
  {
   "property": "C93",
   "status": "partial",
   "theorems": [
    "PyrusGeom.SoccerMath.C93_refuted",
    "PyrusGeom.SoccerMath.C93_no_wind_partial"
   ],
   "note": "Refuted: the result is always zero. Proved: exactly when the claim holds, and when it raises."
  },
  {
   "property": "C94",
   "status": "partial",
   "theorems": [
    "PyrusGeom.C94_angle_value",
    "PyrusGeom.C94_vector_value",
    "PyrusGeom.C94_line_value",
    "PyrusGeom.C94_segment_value",
    "PyrusGeom.C94_ray_value",
    "PyrusGeom.C94_rect_value",
    "PyrusGeom.C94_angle_documented",
    "PyrusGeom.C94_vector_documented",
    "PyrusGeom.C94_line_documented",
    "PyrusGeom.C94_segment_documented",
    "PyrusGeom.C94_ray_documented",
    "PyrusGeom.C94_rect_documented",
    "PyrusGeom.C94_vector_positional_partial",
    "PyrusGeom.C94_angle_positional_partial",
    "PyrusGeom.C94_line_positional_partial",
    "PyrusGeom.C94_segment_positional_partial",
    "PyrusGeom.C94_ray_positional_partial",
    "PyrusGeom.C94_rect_positional_partial",
    "PyrusGeom.C94_rect_refuted",
    "PyrusGeom.C94_vector_refuted",
    "PyrusGeom.C94_angle_refuted",
    "PyrusGeom.C94_line_refuted",
    "PyrusGeom.C94_refuted",
    "PyrusGeom.C94_vector_keywords_partial",
    "PyrusGeom.C94_angle_keywords_partial",
    "PyrusGeom.C94_line_keywords_value"
   ],
   "note": "Refuted: undocumented calls that return, for Rect2D, Vector2D, AngleDeg, Line2D. Proved: documented shapes never raise and build the modelled value; with positional arguments exactly the accepted shapes per class (object arguments well formed); exactly the accepted keyword calls of Vector2D and AngleDeg."
  },
  {
   "property": "C95",
   "status": "partial",
   "theorems": [
    "PyrusGeom.C95_segment_partial",
    "PyrusGeom.C95_ray_partial",
    "PyrusGeom.C95_circle_partial",
    "PyrusGeom.C95_sector_partial",
    "PyrusGeom.C95_triangle_partial",
    "PyrusGeom.C95_rect_partial",
    "PyrusGeom.C95_matrix_partial",
    "PyrusGeom.C95_values",
    "PyrusGeom.C95_segment_copy_partial",
    "PyrusGeom.C95_polygon_partial",
    "PyrusGeom.C95_polygon_refuted",
    "PyrusGeom.C95_polygon_list_partial",
    "PyrusGeom.C95_hull_partial",
    "PyrusGeom.C95_rect_constructor_refuted",
    "PyrusGeom.C95_hull_constructor_refuted",
    "PyrusGeom.C95_rect_copy_partial",
    "PyrusGeom.C95_polygon_constructor_refuted",
    "PyrusGeom.C95_intersected_refuted",
    "PyrusGeom.C95_calls_succeed",
    "PyrusGeom.C95_nearest_partial",
    "PyrusGeom.C95_nearest_value",
    "PyrusGeom.C95_nearest_refuted",
    "PyrusGeom.C95_projection_partial",
    "PyrusGeom.C95_projection_refuted",
    "PyrusGeom.C95_refuted",
    "PyrusGeom.C95_rect_assign_refuted"
   ],
   "note": "Refuted: nearest_point and projection can return the end point object itself, vertices()/edges()/input_points() share their elements, Rect2D(p, size), Rect2D.assign(p, size), Polygon2D(list), ConvexHull(list) keep caller objects, intersected returns self. Proved, for all heaps and all later client actions: the other accessors and copies are independent, and exactly when nearest_point, projection, vertices, edges, input_points are."
  },
  {
   "property": "C96",
   "status": "proved",
   "theorems": [
    "PyrusGeom.C96_normal",
    "PyrusGeom.C96_history",
    "PyrusGeom.C96_returns",
    "PyrusGeom.C96_double_exact",
    "PyrusGeom.C96_double_congruent",
    "PyrusGeom.C96_double_iadd"
   ],
   "note": "Every rounding function that is monotone, odd and exact on integers up to 360; every history, including the operators. For IEEE binary64 (defined with subnormals, without overflow) normalisation is proved to be exact, and fmod of a double to be a double."
  },
  {
   "property": "C97",
   "status": "partial",
   "theorems": [
    "PyrusGeom.C97_iff_partial",
    "PyrusGeom.C97_left_top_partial",
    "PyrusGeom.C97_grid_partial",
    "PyrusGeom.C97_error_partial",
    "PyrusGeom.C97_refuted"
   ],
   "note": "Refuted for IEEE binary64 by the triangle (-1,0), (2^-60,0), (0,1). Proved for every rounding: the exact condition, and that left and top are never violated; for binary64: it holds for coordinates on a common grid, and the violation is at most 2^-51 times the largest coordinate."
  },
  {
   "property": "C98",
   "status": "partial",
   "theorems": [
    "PyrusGeom.C98_up",
    "PyrusGeom.C98_down",
    "PyrusGeom.C98_terminates_iff_partial",
    "PyrusGeom.C98_terminates_partial",
    "PyrusGeom.C98_grid_partial",
    "PyrusGeom.C98_refuted",
    "PyrusGeom.C98_refuted_count"
   ],
   "note": "Refuted: f_range(2**53, 2**53+2, 1) yields 2**53 forever; f_range(0, 1, 0.1) yields eleven numbers. Proved: the yielded numbers for all arguments, exactly when the loop ends, that it ends for steps of at least 2^-52 times the operands, and that it agrees with exact arithmetic on a common grid."
  },
  {
   "property": "C99",
   "status": "partial",
   "theorems": [
    "PyrusGeom.C99_exact_partial",
    "PyrusGeom.C99_refuted_large",
    "PyrusGeom.C99_refuted",
    "PyrusGeom.C99_quantize_partial"
   ],
   "note": "Refuted: r_int(2.0**53) is 2**53+1 and r_int(x) = x+1 for every |x| >= 2**54. Proved: right for |x| < 2**53; quantize with a normal step and quotient at most 2**50 is the double nearest to a multiple of q, within the error bound, and idempotent."
  },
  {
   "property": "C100",
   "status": "partial",
   "theorems": [
    "PyrusGeom.C100_refuted",
    "PyrusGeom.C100_bracket_partial"
   ],
   "note": "Refuted by v = 0.85, q = 0.1. Proved: the bracket contains the value up to 2^-51*(|v|+q) for normal steps and quotients of at most 2**50."
  },
  {
   "property": "C101",
   "status": "proved",
   "theorems": [
    "PyrusGeom.C101_diagonal",
    "PyrusGeom.C101_valid",
    "PyrusGeom.C101_rect_valid",
    "PyrusGeom.C101_eq",
    "PyrusGeom.C101_eq_refl_symm",
    "PyrusGeom.C101_not_transitive",
    "PyrusGeom.C101_copy"
   ],
   "note": "All histories of C54. Equality is additionally shown not to be transitive."
  },
  {
   "property": "C102",
   "status": "proved",
   "theorems": [
    "PyrusGeom.C102_contains"
   ],
   "note": "Histories with double arguments starting from Rect2D(l, t, length, width); IEEE binary64 without overflow."
  },
  {
   "property": "C103",
   "status": "partial",
   "theorems": [
    "PyrusGeom.C103_refuted_move",
    "PyrusGeom.C103_refuted_set",
    "PyrusGeom.C103_exact_partial",
    "PyrusGeom.C103_error_partial",
    "PyrusGeom.C103_grid_partial"
   ],
   "note": "Refuted: length 1, move_right(2**-60) gives right() = 0; set_left(-2**-53) moves the right side of [0,1]. Proved: left/top/top-left moves are exact, no move changes the size or the other axis, error bound 2^-51*(|x|+length), and exactness on a common grid."
  },
  {
   "property": "C104",
   "status": "partial",
   "theorems": [
    "PyrusGeom.C104_symm_partial",
    "PyrusGeom.C104_products_partial",
    "PyrusGeom.C104_refuted_zero",
    "PyrusGeom.C104_refuted_triangle",
    "PyrusGeom.C104_error_partial",
    "PyrusGeom.C104_zero_partial"
   ],
   "note": "Refuted: distinct points at computed distance 0 (underflow), and the triangle inequality fails in the last place. Proved for every odd monotone rounding: non-negative, symmetric, zero on the diagonal, products symmetric; for binary64: relative error at most 2^-49 from distance 2^-500 on. math.pow(x, 2) is taken as the correctly rounded square."
  },
  {
   "property": "C105",
   "status": "partial",
   "theorems": [
    "PyrusGeom.C105_robust_partial",
    "PyrusGeom.C105_refuted"
   ],
   "note": "Refuted at the unit circle by a point within 2^-59 of the boundary. Proved: right for radius >= 2^-500 outside a relative band of 2^-49."
  },
  {
   "property": "C106",
   "status": "partial",
   "theorems": [
    "PyrusGeom.C106_robust_partial",
    "PyrusGeom.C106_weak_partial",
    "PyrusGeom.C106_refuted"
   ],
   "note": "Refuted by three points with area 2^-105. Proved: right when the area exceeds the stated error bound; never reversed when the coordinate differences are exact."
  },
  {
   "property": "C107",
   "status": "proved",
   "theorems": [
    "PyrusGeom.C107_whole",
    "PyrusGeom.C107_compare"
   ],
   "note": "Arguments up to 2^45; both numbers and AngleDeg arguments."
  },
  {
   "property": "C108",
   "status": "partial",
   "theorems": [
    "PyrusGeom.C108_dual_partial",
    "PyrusGeom.C108_compare_partial",
    "PyrusGeom.C108_refuted"
   ],
   "note": "Refuted: -90+2^-46 is neither left nor right of 90. Proved: right unless the difference is within 2^-45 of a half turn without being one; duality and exclusivity always."
  },
  {
   "property": "C109",
   "status": "proved",
   "theorems": [
    "PyrusGeom.C109_contains",
    "PyrusGeom.C109_area"
   ],
   "note": "Containment for triangles with nonzero area."
  },
  {
   "property": "C110",
   "status": "proved",
   "theorems": [
    "PyrusGeom.C110_area_box",
    "PyrusGeom.C110_contains"
   ],
   "note": "Containment for positive extents; area and box for all."
  },
  {
   "property": "C111",
   "status": "proved",
   "theorems": [
    "PyrusGeom.C111_area",
    "PyrusGeom.C111_invertible",
    "PyrusGeom.C111_rigid"
   ],
   "note": "Rotations and translations in any order and number for the rigid part."
  },
  {
   "property": "C112",
   "status": "proved",
   "theorems": [
    "PyrusGeom.C112_circumcenter",
    "PyrusGeom.C112_orthocenter",
    "PyrusGeom.C112_incenter",
    "PyrusGeom.C112_euler",
    "PyrusGeom.C112_circle"
   ],
   "note": "Circumcenter and circle: no two vertices within EPSILON of each other (the guard of C42); incenter: no side Tiny and both results valid."
  },
  {
   "property": "C113",
   "status": "partial",
   "theorems": [
    "PyrusGeom.Hull.C113_sorted_partial",
    "PyrusGeom.Hull.C113_graham_partial",
    "PyrusGeom.Hull.C113_refuted"
   ],
   "note": "Refuted: the points are sorted about (0,0), not about the starting point; the triangle (0,4),(1,1),(4,0) loses a vertex. Proved: whenever the sort leaves the points clockwise about the first one (C113_sorted_partial); in particular if the input contains the origin and no point above it (C113_graham_partial). The order is clockwise, contrary to the comment in the source."
  },
  {
   "property": "C114",
   "status": "proved",
   "theorems": [
    "PyrusGeom.Hull.C114_edges",
    "PyrusGeom.Hull.C114_vertices"
   ],
   "note": "General position: every three points span a doubled area of at least EPSILON. Order of the vertices: see C116."
  },
  {
   "property": "C115",
   "status": "partial",
   "theorems": [
    "PyrusGeom.Hull.C115_total_partial",
    "PyrusGeom.Hull.C115_reflexive_refuted",
    "PyrusGeom.Hull.C115_orientation_partial",
    "PyrusGeom.Hull.C115_collinear_partial",
    "PyrusGeom.Hull.C115_half_plane_partial",
    "PyrusGeom.Hull.C115_antisymmetric_refuted",
    "PyrusGeom.Hull.C115_transitive_refuted"
   ],
   "note": "Refuted: no key equals itself, every key is greater than itself, antisymmetry and transitivity fail around the base. Proved: the exact meaning off and on lines through the base; a strict linear order in any open half plane."
  },
  {
   "property": "C116",
   "status": "partial",
   "theorems": [
    "PyrusGeom.Hull.C116_order_partial",
    "PyrusGeom.Hull.C116_order_refuted"
   ],
   "note": "Refuted: the vertices are sorted about (0,0), and a quadrilateral beside the origin comes out crossed. Proved if the input contains the origin and no point above it."
  },
  {
   "property": "C117",
   "status": "partial",
   "theorems": [
    "PyrusGeom.Hull.C117_any_input_partial",
    "PyrusGeom.Hull.C117_hull_partial",
    "PyrusGeom.Hull.C117_collinear_refuted",
    "PyrusGeom.Hull.C117_repeated_refuted",
    "PyrusGeom.Hull.C117_direct_refuted",
    "PyrusGeom.Hull.C117_direct_keeps"
   ],
   "note": "Refuted for three points on the line of the first edge, for a repeated least point, and (direct method) for a point on the line of an inner pair. Proved: hull of the input under the guard of C78; for all inputs the vertices are input points, start with the least one, and are at most n+1."
  },
  {
   "property": "C118",
   "status": "proved",
   "theorems": [
    "PyrusGeom.C118_area",
    "PyrusGeom.C118_contains"
   ],
   "note": "Coordinates m*2^k with |m| <= 2^25; overflow is not modelled, so k is not bounded above. Triangles may be degenerate for the area; contains on a degenerate triangle is C40 (refuted)."
  },
  {
   "property": "C119",
   "status": "proved",
   "theorems": [
    "PyrusGeom.C119_exist_intersection",
    "PyrusGeom.C119_except_endpoint",
    "PyrusGeom.C119_on_segment"
   ],
   "note": "on_segment of a point segment is C29 (refuted), therefore excluded."
  },
  {
   "property": "C120",
   "status": "proved",
   "theorems": [
    "PyrusGeom.C120_dist",
    "PyrusGeom.C120_circle",
    "PyrusGeom.C120_rect"
   ],
   "note": "Radius a multiple up to 2^26, rectangle data up to 2^52 of the grid step."
  },
  {
   "property": "C121",
   "status": "proved",
   "theorems": [
    "PyrusGeom.C121_area"
   ],
   "note": "The bound n*2*M^2 <= 2^53 keeps every partial sum exact."
  },
  {
   "property": "C122",
   "status": "proved",
   "theorems": [
    "PyrusGeom.C122_parity",
    "PyrusGeom.C122_even_odd",
    "PyrusGeom.C122_convex",
    "PyrusGeom.C122_outline"
   ],
   "note": "All polygons, also self-intersecting; on edges (not vertices) with allow_on_segment=True the parity rule of C73 decides."
  },
  {
   "property": "C123",
   "status": "proved",
   "theorems": [
    "PyrusGeom.C123_wrapping",
    "PyrusGeom.C123_to_polygon"
   ],
   "note": "No overflow as coordinates are bounded by 2^(25+k); step at least 2^-9 so that nonzero areas exceed EPSILON = 1e-6."
  },
  {
   "property": "C124",
   "status": "proved",
   "theorems": [
    "PyrusGeom.C124_direct"
   ],
   "note": "The sort may be any permutation."
  },
  {
   "property": "C125",
   "status": "proved",
   "theorems": [
    "PyrusGeom.C125_graham",
    "PyrusGeom.C125_direct_order"
   ],
   "note": "The guard (origin among the points, none above) is part of the claim; without it the scan fails (C113)."
  },
  {
   "property": "C126",
   "status": "proved",
   "theorems": [
    "PyrusGeom.C126_shapes",
    "PyrusGeom.C126_numbers",
    "PyrusGeom.C126_line",
    "PyrusGeom.C126_lists",
    "PyrusGeom.C126_read_back"
   ],
   "note": "str of a number is a parameter; at the reals it cannot be injective, so the theorem speaks of equal texts; C126_read_back is for injective str. The validity flag of a vector is not in the text."
  },
  {
   "property": "C127",
   "status": "partial",
   "theorems": [
    "PyrusGeom.C127_none_refuted",
    "PyrusGeom.C127_rect_refuted",
    "PyrusGeom.C127_rect_partial"
   ],
   "note": "Refuted: three of the four return None; the text of a rectangle has 13 blanks and a stray f before the third number. Proved: the rectangle text is appended and the four numbers can be read off."
  },
  {
   "property": "C128",
   "status": "proved",
   "theorems": [
    "PyrusGeom.C128_triangle",
    "PyrusGeom.C128_segment",
    "PyrusGeom.C128_circle_rect",
    "PyrusGeom.C128_polygon",
    "PyrusGeom.C128_hull",
    "PyrusGeom.C128_triangle_exact",
    "PyrusGeom.C128_polygon_exact",
    "PyrusGeom.C128_hull_exact"
   ],
   "note": "C128_triangle_exact, C128_polygon_exact and C128_hull_exact combine the bound with C118, C122 and C123. Where Python would raise (math.pow on overflow) the bound excludes it."
  },
  {
   "property": "C129",
   "status": "proved",
   "theorems": [
    "PyrusGeom.C129_point",
    "PyrusGeom.C129_shape"
   ],
   "note": "Comparisons with NaN are false; nothing else is assumed."
  },
  {
   "property": "C130",
   "status": "partial",
   "theorems": [
    "PyrusGeom.C130_eq_partial",
    "PyrusGeom.C130_weak_partial",
    "PyrusGeom.C130_refuted"
   ],
   "note": "Refuted by NaN (==) and by infinity (equals_weakly). Proved: == exactly without NaN, equals_weakly exactly with finite coordinates."
  },
  {
   "property": "C131",
   "status": "proved",
   "theorems": [
    "PyrusGeom.C131_bound"
   ],
   "note": "Case analysis on NaN, infinities and finite values."
  },
  {
   "property": "C132",
   "status": "proved",
   "theorems": [
    "PyrusGeom.C132_nan",
    "PyrusGeom.C132_finite"
   ],
   "note": "C132_finite carries C96 over to the model with overflow."
  },
  {
   "property": "C133",
   "status": "partial",
   "theorems": [
    "PyrusGeom.C133_refuted",
    "PyrusGeom.C133_partial"
   ],
   "note": "Refuted with coordinates of 2^598: an infinity minus an infinity. Proved up to 2^510."
  },
  {
   "property": "C134",
   "status": "proved",
   "theorems": [
    "PyrusGeom.C134_triangle",
    "PyrusGeom.C134_segment"
   ],
   "note": "Spec.ClearTurn is the margin; for segments the coordinates are multiples of 2^k, k >= -268, so that products of areas do not underflow."
  },
  {
   "property": "C135",
   "status": "proved",
   "theorems": [
    "PyrusGeom.C135_area"
   ],
   "note": "The bound B is explicit and quadratic in the number of vertices."
  },
  {
   "property": "C136",
   "status": "proved",
   "theorems": [
    "PyrusGeom.C136_parity",
    "PyrusGeom.C136_convex",
    "PyrusGeom.C136_even_odd"
   ],
   "note": "Spec.ClearOf is the margin; M bounds the coordinates and the polygon is not smaller than 2^-40 M."
  },
  {
   "property": "C137",
   "status": "proved",
   "theorems": [
    "PyrusGeom.C137_wrapping",
    "PyrusGeom.C137_edges"
   ],
   "note": "Spec.ClearPos is the margin."
  },
  {
   "property": "C138",
   "status": "proved",
   "theorems": [
    "PyrusGeom.C138_direct"
   ],
   "note": "The sort may be any permutation."
  },
  {
   "property": "C139",
   "status": "proved",
   "theorems": [
    "PyrusGeom.C139_graham",
    "PyrusGeom.C139_direct_order"
   ],
   "note": "For every sort that permutes and, for a strict total order, sorts. The bound 2^500 excludes underflow of distances."
  },
  {
   "property": "C140",
   "status": "proved",
   "theorems": [
    "PyrusGeom.SoccerMath.C140_value",
    "PyrusGeom.SoccerMath.C140_error",
    "PyrusGeom.SoccerMath.C140_monotone"
   ],
   "note": "All reals."
  },
  {
   "property": "C141",
   "status": "partial",
   "theorems": [
    "PyrusGeom.SoccerMath.C141_partial",
    "PyrusGeom.SoccerMath.C141_zero",
    "PyrusGeom.SoccerMath.C141_seen_zero",
    "PyrusGeom.SoccerMath.C141_refuted"
   ],
   "note": "Refuted: near distances are seen as 0, and unquantize_error(0, q) raises ValueError. Proved for every other seen value, with an upper bound of the result."
  },
  {
   "property": "C142",
   "status": "proved",
   "theorems": [
    "PyrusGeom.C142_ray",
    "PyrusGeom.C142_ray_laws",
    "PyrusGeom.C142_ray_not_transitive",
    "PyrusGeom.C142_segment",
    "PyrusGeom.C142_segment_laws"
   ],
   "note": "All rays and segments; non-transitivity of ray equality by a witness."
  },
  {
   "property": "C143",
   "status": "proved",
   "theorems": [
    "PyrusGeom.C143_abs",
    "PyrusGeom.C143_reverse",
    "PyrusGeom.C143_set_dir",
    "PyrusGeom.C143_setters",
    "PyrusGeom.C143_static",
    "PyrusGeom.C143_radian"
   ],
   "note": "All vectors and angles. The setters are stated for completeness, they are the definitions."
  },
  {
   "property": "C144",
   "status": "proved",
   "theorems": [
    "PyrusGeom.C144_line",
    "PyrusGeom.C144_equidistant"
   ],
   "note": "All angles; for equal directions only the first part."
  },
  {
   "property": "C145",
   "status": "proved",
   "theorems": [
    "PyrusGeom.C145_value",
    "PyrusGeom.C145_circle",
    "PyrusGeom.C145_triangle",
    "PyrusGeom.C145_three_numbers"
   ],
   "note": "All argument lists built from the modelled kinds of values."
  },
  {
   "property": "C146",
   "status": "proved",
   "theorems": [
    "PyrusGeom.C146_in_place",
    "PyrusGeom.C146_detached",
    "PyrusGeom.C146_values",
    "PyrusGeom.C146_reference"
   ],
   "note": "All heaps; Closed (no dangling reference) is the only condition."
  },
  {
   "property": "C147",
   "status": "proved",
   "theorems": [
    "PyrusGeom.C147_add_vertex",
    "PyrusGeom.C147_new_polygon",
    "PyrusGeom.C147_to_polygon",
    "PyrusGeom.C147_add_point"
   ],
   "note": "All heaps."
  },
  {
   "property": "C148",
   "status": "partial",
   "theorems": [
    "PyrusGeom.C148_append_partial",
    "PyrusGeom.C148_partial",
    "PyrusGeom.C148_assign_partial",
    "PyrusGeom.C148_refuted"
   ],
   "note": "Refuted: clear() leaves one vertex at the origin, so a square of area 1 gets area 3/2. Proved: the origin followed by vs, the exact change of area, and that assign replaces all unless the list is empty."
  },
  {
   "property": "C149",
   "status": "partial",
   "theorems": [
    "PyrusGeom.Hull.C149_partial",
    "PyrusGeom.Hull.C149_refuted_graham",
    "PyrusGeom.Hull.C149_refuted"
   ],
   "note": "Refuted after a Graham scan: the next compute empties the input. Proved for all histories of the other calls, the last compute may be any method."
  },
  {
   "property": "C150",
   "status": "partial",
   "theorems": [
    "PyrusGeom.C150_partial",
    "PyrusGeom.C150_refuted"
   ],
   "note": "Refuted if the list passed is the one the hull was made from and not empty: the loop never ends. Proved for every other list."
  },
  {
   "property": "C151",
   "status": "proved",
   "theorems": [
    "PyrusGeom.C151_fan",
    "PyrusGeom.C151_any_direction"
   ],
   "note": "All polygons, self-intersecting ones included, all directions; points off the outline."
  },
  {
   "property": "C152",
   "status": "proved",
   "theorems": [
    "PyrusGeom.C152_transform"
   ],
   "note": "All polygons and invertible matrices; strict mode if no two consecutive vertices coincide (C73)."
  },
  {
   "property": "C153",
   "status": "proved",
   "theorems": [
    "PyrusGeom.C153_diagonal"
   ],
   "note": "All polygons and diagonals."
  },
  {
   "property": "C154",
   "status": "partial",
   "theorems": [
    "PyrusGeom.AngleDeg.C154_left_partial",
    "PyrusGeom.AngleDeg.C154_right_partial",
    "PyrusGeom.AngleDeg.C154_guard_exact",
    "PyrusGeom.AngleDeg.C154_refuted",
    "PyrusGeom.AngleDeg.C154_relations"
   ],
   "note": "Refuted for self -180 and argument 180 (and conversely), the same direction; proved for every other pair, the guard is exact."
  },
  {
   "property": "C155",
   "status": "proved",
   "theorems": [
    "PyrusGeom.AngleDeg.C155_abs",
    "PyrusGeom.AngleDeg.C155_default",
    "PyrusGeom.C155_truediv",
    "PyrusGeom.C155_segment_valid",
    "PyrusGeom.C155_segment_direction"
   ],
   "note": "All inputs."
  },
  {
   "property": "C156",
   "status": "proved",
   "theorems": [
    "PyrusGeom.C156_constructors",
    "PyrusGeom.C156_accessors"
   ],
   "note": "All heaps; stored angles normalised and sizes nonnegative, which is every reachable one (C01, C54)."
  },
  {
   "property": "C157",
   "status": "proved",
   "theorems": [
    "PyrusGeom.C157_program",
    "PyrusGeom.C157_self_intersected",
    "PyrusGeom.C157_shared"
   ],
   "note": "All programs of 23 mutators; assign(point, size), which makes sharing, is excluded and its effect characterised by C157_shared."
  },
  {
   "property": "C158",
   "status": "proved",
   "theorems": [
    "PyrusGeom.C158_vector_calls",
    "PyrusGeom.C158_vector_calls2",
    "PyrusGeom.C158_vector_functions",
    "PyrusGeom.C158_angle_calls",
    "PyrusGeom.C158_angle_functions",
    "PyrusGeom.C158_size_matrix_calls",
    "PyrusGeom.C158_program",
    "PyrusGeom.C158_from_empty",
    "PyrusGeom.C158_frame"
   ],
   "note": "All programs of 68 kinds of calls plus the 23 of C157. Not in the language: the accessors that return a part itself, Rect2D(point, size) and assign(point, size), polygons and hulls (C80, C95, C147 and C157_shared say what those share)."
  },
  {
   "property": "C159",
   "status": "partial",
   "theorems": [
    "PyrusGeom.EqObj.C159_raises",
    "PyrusGeom.EqObj.C159_same_class",
    "PyrusGeom.EqObj.C159_different",
    "PyrusGeom.EqObj.C159_vector",
    "PyrusGeom.EqObj.C159_symm_partial",
    "PyrusGeom.EqObj.C159_refuted"
   ],
   "note": "Refuted: seven __eq__ methods do not test the class of their argument. C159_raises gives the exact set of pairs on which == raises, C159_symm_partial the agreement of the two orders whenever both return."
  },
  {
   "property": "C160",
   "status": "proved",
   "theorems": [
    "PyrusGeom.C160_add",
    "PyrusGeom.C160_sub",
    "PyrusGeom.C160_mul",
    "PyrusGeom.C160_neg_fabs"
   ],
   "note": "Full on the values of Model/PyVal."
  },
  {
   "property": "C161",
   "status": "partial",
   "theorems": [
    "PyrusGeom.C161_vector",
    "PyrusGeom.C161_vector_add",
    "PyrusGeom.C161_angle",
    "PyrusGeom.C161_size",
    "PyrusGeom.C161_segment",
    "PyrusGeom.C161_swap",
    "PyrusGeom.C161_circle",
    "PyrusGeom.C161_sector",
    "PyrusGeom.C161_triangle",
    "PyrusGeom.C161_rect",
    "PyrusGeom.C161_rect_assign",
    "PyrusGeom.C161_matrix",
    "PyrusGeom.C161_vector_typed_partial",
    "PyrusGeom.C161_small_typed_partial",
    "PyrusGeom.C161_rect_typed_partial",
    "PyrusGeom.C161_rect_arity",
    "PyrusGeom.C161_matrix_rotate",
    "PyrusGeom.C161_refuted"
   ],
   "note": "Refuted: assign of segments, circles, sectors, triangles, sizes and rectangles, add/sub of vectors, set_degree, set_size, translate and scale leave a half-changed object. For each the exact condition and the state left are proved; the other methods satisfy the property in full. The _typed_partial theorems show that documented argument types never raise."
  },
  {
   "property": "C162",
   "status": "proved",
   "theorems": [
    "PyrusGeom.AngleDeg.C162_angle",
    "PyrusGeom.Vec.C162_vector",
    "PyrusGeom.Line.C162_line",
    "PyrusGeom.Ray.C162_ray",
    "PyrusGeom.Seg.C162_segment",
    "PyrusGeom.Tri.C162_triangle",
    "PyrusGeom.Circle.C162_circle",
    "PyrusGeom.C162_matrix_total",
    "PyrusGeom.C162_sector_total",
    "PyrusGeom.C162_rect_total",
    "PyrusGeom.C162_polygon",
    "PyrusGeom.SoccerMath.C162_soccer_math"
   ],
   "note": ""
  },
  {
   "property": "C163",
   "status": "partial",
   "theorems": [
    "PyrusGeom.C163_segment_dist",
    "PyrusGeom.C163_segment_seg",
    "PyrusGeom.C163_polygon_dist",
    "PyrusGeom.Circle.C163_circle_circle",
    "PyrusGeom.Circle.C163_circum_contains",
    "PyrusGeom.C163_segment_dist_example",
    "PyrusGeom.AngleDeg.C163_angle_number",
    "PyrusGeom.AngleDeg.C163_angle",
    "PyrusGeom.Vec.C163_vector",
    "PyrusGeom.Vec.C163_refuted",
    "PyrusGeom.Vec.C163_dist_partial",
    "PyrusGeom.Line.C163_line",
    "PyrusGeom.Line.C163_refuted_line",
    "PyrusGeom.Ray.C163_ray",
    "PyrusGeom.Seg.C163_segment",
    "PyrusGeom.Tri.C163_triangle",
    "PyrusGeom.Circle.C163_circle",
    "PyrusGeom.C163_other",
    "PyrusGeom.C163_polygon",
    "PyrusGeom.SoccerMath.C163_quantize",
    "PyrusGeom.SoccerMath.C163_pow"
   ],
   "note": "Refuted: dist raises OverflowError for the finite vector (2^600, 0), and Line2D.dist raises ZeroDivisionError for a line with coefficients 2^-600. For each function the exact set of doubles for which it raises is proved. C163_dist_partial: coordinates up to 2^510 never overflow."
  },
  {
   "property": "C164",
   "status": "partial",
   "theorems": [
    "PyrusGeom.Hull.C164_wrapping_any",
    "PyrusGeom.Hull.C164_direct_any",
    "PyrusGeom.Hull.C164_graham_ends",
    "PyrusGeom.Hull.C164_lists",
    "PyrusGeom.Hull.C164_refuted_graham",
    "PyrusGeom.Hull.C164_real",
    "PyrusGeom.Hull.C164_graham_partial",
    "PyrusGeom.Hull.C164_double",
    "PyrusGeom.Hull.C164_graham_double_partial",
    "PyrusGeom.Hull.C164_refuted_nan"
   ],
   "note": "Refuted: the Graham scan raises IndexError on three or more equal points, and gift wrapping on points with NaN coordinates. Proved: all three methods end; gift wrapping and the direct method never raise without NaN; the Graham scan does not raise if no two points are equal (for doubles: at least 2^-537 apart), whatever the sort does."
  },
  {
   "property": "C165",
   "status": "partial",
   "theorems": [
    "PyrusGeom.C165_polygon_partial",
    "PyrusGeom.C165_segment_partial",
    "PyrusGeom.C165_line_partial",
    "PyrusGeom.C165_refuted"
   ],
   "note": "Refuted: for the segment from (0,0) to (2^-60,2^-60) and the point (1,-1) the computed distance is 0, the exact one is sqrt 2. Proved instead: the error of Segment2D.dist is at most 2^-45 * (dist from origin + dist from terminal)^2 / length for segments of length at least 2^-400; the error of Line2D.dist is at most 2^-47 * (|ax|+|by|+|c|) / |(a,b)| + 2^-600. Polygon2D.dist(p, False): error at most 2^-45 times the largest such term over the edges (C165_polygon_partial). Distances of two segments: C181. Missing: shorter segments, overflow."
  },
  {
   "property": "C166",
   "status": "partial",
   "theorems": [
    "PyrusGeom.C166_hash",
    "PyrusGeom.C166_dict_partial",
    "PyrusGeom.C166_changed_key",
    "PyrusGeom.C166_refuted"
   ],
   "note": "The contract of hash holds (C166_hash). The map property is refuted when a vector is changed after it was used as a key (C166_refuted, C166_changed_key), and proved for programs that do not do this (C166_dict_partial). AngleDeg, Line2D, Segment2D, Ray2D, Size2D, Sector2D and Matrix2D define __eq__ without __hash__ and cannot be keys."
  },
  {
   "property": "C167",
   "status": "partial",
   "theorems": [
    "PyrusGeom.C167_alias",
    "PyrusGeom.C167_binary",
    "PyrusGeom.C167_value_partial",
    "PyrusGeom.C167_refuted_invalid",
    "PyrusGeom.C167_refuted_division",
    "PyrusGeom.C167_refuted_matrix",
    "PyrusGeom.C167_matrix"
   ],
   "note": "Proved for vectors that are valid and for angles (C167_value_partial, C167_binary, C167_alias). Refuted for invalid vectors (v += w stays invalid, v + w is valid), for division (a / c and a /= c on an AngleDeg always raise; v /= c does not change v; __idiv__ is never called in Python 3) and for matrices (A * B overwrites A, A * c is A)."
  },
  {
   "property": "C168",
   "status": "proved",
   "theorems": [
    "PyrusGeom.C168_enclosed",
    "PyrusGeom.C168_inside",
    "PyrusGeom.C168_two_sides",
    "PyrusGeom.C168_needs_simple"
   ],
   "note": "Proved for all simple polygons (C168_inside, C168_two_sides); one direction holds for every polygon (C168_enclosed). Without simplicity the other fails (C168_needs_simple)."
  },
  {
   "property": "C169",
   "status": "partial",
   "theorems": [
    "PyrusGeom.C169_winding",
    "PyrusGeom.C169_polygon",
    "PyrusGeom.C169_orientation",
    "PyrusGeom.C169_triangle_partial",
    "PyrusGeom.C169_refuted_triangle",
    "PyrusGeom.C169_rect",
    "PyrusGeom.C169_circle",
    "PyrusGeom.C169_sector_set",
    "PyrusGeom.C169_sector_partial",
    "PyrusGeom.C169_refuted_sector"
   ],
   "note": "Proved for simple polygons (C169_polygon, C169_orientation), for the signed area of every polygon (C169_winding), rectangles (C169_rect) and circles (C169_circle). Triangles: refuted if the three vertices coincide (contains accepts the whole plane), proved otherwise. Sectors: area is the measure of the annular sector of the stored fields (C169_sector_set); contains differs from it in a box of half width EPSILON around the center (C169_refuted_sector), proved equal if the inner radius keeps clear of this box."
  },
  {
   "property": "C170",
   "status": "partial",
   "theorems": [
    "PyrusGeom.C170_half_plane_partial",
    "PyrusGeom.C170_area_partial",
    "PyrusGeom.C170_rect_partial",
    "PyrusGeom.C170_rect_area_partial",
    "PyrusGeom.C170_refuted_half_plane",
    "PyrusGeom.C170_refuted_rect"
   ],
   "note": "Refuted: a cut edge that the code takes for parallel to the line makes the result empty (C170_refuted_half_plane), and the lower side of a rectangle is cut at the upper line (C170_refuted_rect). Proved for half planes if no cut edge is taken for parallel (C170_half_plane_partial, C170_area_partial), and for rectangles if moreover no vertex is below the lower side (C170_rect_partial, C170_rect_area_partial)."
  },
  {
   "property": "C171",
   "status": "partial",
   "theorems": [
    "PyrusGeom.C171_frontier",
    "PyrusGeom.C171_area",
    "PyrusGeom.C171_extreme",
    "PyrusGeom.C171_wrapping_partial",
    "PyrusGeom.C171_graham_partial",
    "PyrusGeom.C171_refuted"
   ],
   "note": "Refuted for input with three points on a line of the boundary (C171_refuted). Proved for gift wrapping if no point is repeated and no three are on a line bounding the hull (C171_wrapping_partial), and for the Graham scan whenever it computes the hull in the sense of C113 (C171_graham_partial)."
  },
  {
   "property": "C172",
   "status": "partial",
   "theorems": [
    "PyrusGeom.C172_pred",
    "PyrusGeom.C172_sound",
    "PyrusGeom.C172_contains_partial",
    "PyrusGeom.C172_area_partial",
    "PyrusGeom.C172_refuted",
    "PyrusGeom.C172_rectangle",
    "PyrusGeom.C172_example"
   ],
   "note": "The predicates and soundness for all inputs. The set equation is refuted if an edge crosses the threshold within EPSILON (C172_refuted), and proved if no crossing edge is that flat (C172_contains_partial, C172_area_partial). C172_rectangle: how the rectangle clip uses the predicates."
  },
  {
   "property": "C173",
   "status": "proved",
   "theorems": [
    "PyrusGeom.C173_products",
    "PyrusGeom.C173_transform",
    "PyrusGeom.C173_length",
    "PyrusGeom.C173_set_length",
    "PyrusGeom.C173_set_length_length",
    "PyrusGeom.C173_normalize"
   ],
   "note": ""
  },
  {
   "property": "C174",
   "status": "proved",
   "theorems": [
    "PyrusGeom.C174_intersection",
    "PyrusGeom.C174_projection"
   ],
   "note": ""
  },
  {
   "property": "C175",
   "status": "partial",
   "theorems": [
    "PyrusGeom.C175_vector",
    "PyrusGeom.C175_line",
    "PyrusGeom.C175_segment",
    "PyrusGeom.C175_triangle",
    "PyrusGeom.C175_circumcenter_partial",
    "PyrusGeom.C175_circle",
    "PyrusGeom.C175_polygon",
    "PyrusGeom.C175_travel",
    "PyrusGeom.C175_contains_partial",
    "PyrusGeom.C175_contains_strict",
    "PyrusGeom.C175_dist_partial",
    "PyrusGeom.C175_contains_refuted",
    "PyrusGeom.C175_bisector_refuted"
   ],
   "note": "Everything but two cases. Refuted: the perpendicular bisector of two points within EPSILON of each other (C175_bisector_refuted; hence the guard in C175_line and C175_circumcenter_partial), and contains(p, True) for points on the outline (C175_contains_refuted; hence the guard in C175_contains_partial and C175_dist_partial). contains(p, False) has no guard."
  },
  {
   "property": "C176",
   "status": "partial",
   "theorems": [
    "PyrusGeom.C176_line",
    "PyrusGeom.C176_segment",
    "PyrusGeom.C176_reverse",
    "PyrusGeom.C176_triangle",
    "PyrusGeom.C176_transpose_vector",
    "PyrusGeom.C176_transpose_line",
    "PyrusGeom.C176_transpose_segment",
    "PyrusGeom.C176_transpose",
    "PyrusGeom.C176_dist_partial",
    "PyrusGeom.C176_dist_refuted"
   ],
   "note": "Everything but the distance of two segments with infinite coordinates, where min() depends on the order because of NaN (C176_dist_refuted); proved for double precision without special values (C176_dist_partial)."
  },
  {
   "property": "C177",
   "status": "partial",
   "theorems": [
    "PyrusGeom.C177_unique_head",
    "PyrusGeom.C177_unique",
    "PyrusGeom.C177_hull_partial",
    "PyrusGeom.C177_subset_partial",
    "PyrusGeom.C177_order_partial",
    "PyrusGeom.C177_idempotent_partial",
    "PyrusGeom.C177_graham_partial",
    "PyrusGeom.C177_refuted",
    "PyrusGeom.C177_idempotent_refuted",
    "PyrusGeom.C177_collinear_refuted"
   ],
   "note": "For inputs without repeated points, without three points on a line bounding the hull, with doubled areas zero or at least EPSILON. False otherwise: four points in another order have two instead of three vertices (C177_refuted), the hull of a hull loses a vertex (C177_idempotent_refuted), leaving out a point of an edge adds a vertex (C177_collinear_refuted)."
  },
  {
   "property": "C178",
   "status": "partial",
   "theorems": [
    "PyrusGeom.C178_angle",
    "PyrusGeom.C178_vector",
    "PyrusGeom.C178_line",
    "PyrusGeom.C178_rayRest",
    "PyrusGeom.C178_segment",
    "PyrusGeom.C178_triangle",
    "PyrusGeom.C178_circle",
    "PyrusGeom.C178_matrix",
    "PyrusGeom.C178_size",
    "PyrusGeom.C178_rect",
    "PyrusGeom.C178_sectorRest",
    "PyrusGeom.C178_polygon",
    "PyrusGeom.C178_soccer",
    "PyrusGeom.C178_hull",
    "PyrusGeom.C178_atan2Deg_partial",
    "PyrusGeom.C178_atan2Deg_below",
    "PyrusGeom.C178_th_partial",
    "PyrusGeom.C178_th_below",
    "PyrusGeom.C178_th_iff",
    "PyrusGeom.C178_sub",
    "PyrusGeom.C178_fromBelow",
    "PyrusGeom.C178_ray_partial",
    "PyrusGeom.C178_direction_partial",
    "PyrusGeom.C178_inRightDir_partial",
    "PyrusGeom.C178_rayLine_partial",
    "PyrusGeom.C178_rayRay_partial",
    "PyrusGeom.C178_circleRay_partial",
    "PyrusGeom.C178_rectRay_partial",
    "PyrusGeom.C178_triRay_partial",
    "PyrusGeom.C178_sector_partial",
    "PyrusGeom.C178_incenter_partial",
    "PyrusGeom.C178_mergeSort",
    "PyrusGeom.C178_compute",
    "PyrusGeom.C178_refuted",
    "PyrusGeom.C178_reverse_refuted"
   ],
   "note": "The functions that call atan2 (th, rays, sectors, incenter) with the exact guard that no vector comes from below along the negative x axis; all others without restriction. Without the guard false: the sector from 90 to 180 degrees contains (-1, 0.0) but not (-1, -0.0) (C178_refuted), and reversing (1, 0.0) gives direction -180 (C178_reverse_refuted)."
  },
  {
   "property": "C179",
   "status": "proved",
   "theorems": [
    "PyrusGeom.C179_deg2rad",
    "PyrusGeom.C179_sin_deg",
    "PyrusGeom.C179_rotate",
    "PyrusGeom.C179_fromPolar",
    "PyrusGeom.C179_setPolar",
    "PyrusGeom.C179_th",
    "PyrusGeom.C179_polar_th",
    "PyrusGeom.C179_rotate_length",
    "PyrusGeom.C179_rotate_back",
    "PyrusGeom.C179_rotate_th"
   ],
   "note": "IEEE double arithmetic without overflow. Accurate requires sqrt and fmod exact, pi the nearest double, sin, cos and atan2 within one unit in the last place; accurate_double shows that correctly rounded functions qualify. Vectors below twice EPSILON are excluded from the statements on directions (th gives 0 inside the EPSILON box, part of C179_th)."
  },
  {
   "property": "C180",
   "status": "proved",
   "theorems": [
    "PyrusGeom.C180_within",
    "PyrusGeom.C180_direction",
    "PyrusGeom.C180_sector",
    "PyrusGeom.C180_ray"
   ],
   "note": "Excluded besides the margins: sectors within 2**-44 degrees of the full circle, or with ends stored as -180 and 180 (C05)."
  },
  {
   "property": "C181",
   "status": "partial",
   "theorems": [
    "PyrusGeom.C181_dist_partial",
    "PyrusGeom.C181_meet",
    "PyrusGeom.C181_clear",
    "PyrusGeom.C181_refuted"
   ],
   "note": "The bound is proved under the hypothesis that disjoint segments are not taken for intersecting ones; C181_refuted shows that the code violates the claim without it (segments more than 2 apart, distance 0). Coordinates must be multiples of 2^-268 so that the product of two areas does not underflow."
  },
  {
   "property": "C182",
   "status": "proved",
   "theorems": [
    "PyrusGeom.C182_travel",
    "PyrusGeom.C182_distance",
    "PyrusGeom.C182_point",
    "PyrusGeom.C182_final",
    "PyrusGeom.C182_final_distance",
    "PyrusGeom.C182_simulation"
   ],
   "note": "The library pow is assumed accurate to one ulp (Spec.AccuratePow, satisfied by the correctly rounded one)."
  },
  {
   "property": "C183",
   "status": "proved",
   "theorems": [
    "PyrusGeom.C183_kick",
    "PyrusGeom.C183_dash",
    "PyrusGeom.C183_turn",
    "PyrusGeom.C183_speed",
    "PyrusGeom.C183_over",
    "PyrusGeom.C183_first"
   ],
   "note": "Bounds are relative to the sizes of the terms (plus 2^-300 for underflow), not to the result, which may cancel."
  },
  {
   "property": "C184",
   "status": "partial",
   "theorems": [
    "PyrusGeom.C184_line",
    "PyrusGeom.C184_horizontal",
    "PyrusGeom.C184_circles",
    "PyrusGeom.C184_refuted",
    "PyrusGeom.C184_circles_found",
    "PyrusGeom.C184_circles_vertical",
    "PyrusGeom.C184_refuted_circles"
   ],
   "note": "Every exact intersection is found only when reach * (1 + |b / a|) <= 2048; refuted without that guard (C184_refuted). Two circles: the same, with a margin between the distance of the centers and the sum and difference of the radii; refuted without it (C184_refuted_circles)."
  },
  {
   "property": "C185",
   "status": "partial",
   "theorems": [
    "PyrusGeom.C185_det",
    "PyrusGeom.C185_undo",
    "PyrusGeom.C185_product",
    "PyrusGeom.C185_rotation",
    "PyrusGeom.C185_refuted"
   ],
   "note": "The undo claim holds whenever the computed determinant is nonzero (C185_undo); it is refuted for matrices with nonzero determinant in general (C185_refuted)."
  },
  {
   "property": "C186",
   "status": "proved",
   "theorems": [
    "PyrusGeom.C186_residual",
    "PyrusGeom.C186_vertical",
    "PyrusGeom.C186_vertical_complete",
    "PyrusGeom.C186_horizontal",
    "PyrusGeom.C186_horizontal_complete"
   ],
   "note": "Exact crossings are stated with segment membership; the width condition 2^-18 of the completeness part is needed because intersections with a determinant below EPSILON are reported as missing and the loop stops."
  },
  {
   "property": "C187",
   "status": "proved",
   "theorems": [
    "PyrusGeom.C187_vector",
    "PyrusGeom.C187_angle",
    "PyrusGeom.C187_line",
    "PyrusGeom.C187_segment",
    "PyrusGeom.C187_ray",
    "PyrusGeom.C187_triangle",
    "PyrusGeom.C187_circle",
    "PyrusGeom.C187_size",
    "PyrusGeom.C187_rectangle",
    "PyrusGeom.C187_matrix",
    "PyrusGeom.C187_sector",
    "PyrusGeom.C187_soccer_math",
    "PyrusGeom.C187_orthocenter",
    "PyrusGeom.C187_polygon",
    "PyrusGeom.C187_polygon_area",
    "PyrusGeom.C187_hull",
    "PyrusGeom.C187_bound_needed",
    "PyrusGeom.C187_rint",
    "PyrusGeom.C187_quantize",
    "PyrusGeom.C187_unquantize",
    "PyrusGeom.C187_quantize_dist",
    "PyrusGeom.C187_normalize_angle",
    "PyrusGeom.C187_f_range"
   ],
   "note": "The literals of the source are int or float depending on the place; the theorems hold for both readings (parameter lit). math.pow and math.fabs return floats where the model keeps an int; the values agree for the bounds used."
  },
  {
   "property": "C188",
   "status": "proved",
   "theorems": [
    "PyrusGeom.C188_exist_intersection",
    "PyrusGeom.C188_except_endpoint",
    "PyrusGeom.C188_on_segment",
    "PyrusGeom.C188_ccw",
    "PyrusGeom.C188_contains"
   ],
   "note": "OverflowError of int to float conversion does not arise: no conversion takes place."
  },
  {
   "property": "C189",
   "status": "proved",
   "theorems": [
    "PyrusGeom.C189_circumcenter",
    "PyrusGeom.C189_equidistant",
    "PyrusGeom.C189_bound_needed",
    "PyrusGeom.C189_orthocenter",
    "PyrusGeom.C189_incenter"
   ],
   "note": "The bounds on the area are sufficient, not optimal; C189_bound_needed shows that no bound at all is not enough. For the incenter only the angle at the third vertex matters, as the code intersects the bisectors of the first two."
  },
  {
   "property": "C190",
   "status": "proved",
   "theorems": [
    "PyrusGeom.C190_ray_line",
    "PyrusGeom.C190_rays",
    "PyrusGeom.C190_parallel"
   ],
   "note": "Nothing is claimed for sines between EPSILON/2 and 2^-18 and for intersections closer than the stated bound to the origin of a ray. The code accepts points up to 10 degrees off the direction, which does not matter for points on the line."
  },
  {
   "property": "C191",
   "status": "proved",
   "theorems": [
    "PyrusGeom.Poly.C191_box",
    "PyrusGeom.Poly.C191_agree",
    "PyrusGeom.Poly.C191_contains",
    "PyrusGeom.Poly.C191_dist",
    "PyrusGeom.Poly.C191_dist_agree"
   ],
   "note": "dist of a polygon with exactly one vertex is NaN if that vertex or the point has a NaN coordinate; the claim leaves it out. The agreement of dist with the generic model asks for distances from the edges that are numbers."
  },
  {
   "property": "C192",
   "status": "proved",
   "theorems": [
    "PyrusGeom.C192_points",
    "PyrusGeom.C192_shapes",
    "PyrusGeom.C192_polygon",
    "PyrusGeom.C192_coarse",
    "PyrusGeom.C192_coarse_needed",
    "PyrusGeom.C192_tolerance"
   ],
   "note": "Overflow is not modelled at FP double, so the claim is about results within the range of doubles. Functions that call sin, cos, atan2 or compare with EPSILON are not in the claim."
  },
  {
   "property": "C193",
   "status": "proved",
   "theorems": [
    "PyrusGeom.C193_dist",
    "PyrusGeom.C193_length",
    "PyrusGeom.C193_circle",
    "PyrusGeom.C193_sector",
    "PyrusGeom.C193_rect",
    "PyrusGeom.C193_kick_rate",
    "PyrusGeom.C193_dir_rate",
    "PyrusGeom.C193_effective_turn",
    "PyrusGeom.C193_final_speed",
    "PyrusGeom.C193_inertia_final",
    "PyrusGeom.C193_inertia_steps",
    "PyrusGeom.C193_first_term",
    "PyrusGeom.C193_clamp",
    "PyrusGeom.C193_quantize"
   ],
   "note": "C193_inertia_steps and C193_first_term are for every library pow whose value is at most 1 (and, for growth in n, falls in n); they are hypotheses on the computed powers. dir_rate is not claimed to be monotone across 90 degrees."
  },
  {
   "property": "C194",
   "status": "proved",
   "theorems": [
    "PyrusGeom.C194_circle",
    "PyrusGeom.C194_rect",
    "PyrusGeom.C194_arc",
    "PyrusGeom.C194_sector",
    "PyrusGeom.C194_arcs"
   ],
   "note": "Sector2D stores min(0, inner radius), see C64; the claim is about the stored radii."
  },
  {
   "property": "C195",
   "status": "proved",
   "theorems": [
    "PyrusGeom.C195_first_term",
    "PyrusGeom.C195_length",
    "PyrusGeom.C195_round_trip"
   ],
   "note": "ratios from 1 on and lengths from the early returns (-1, 0) are in C90, over the reals."
  },
  {
   "property": "C196",
   "status": "proved",
   "theorems": [
    "PyrusGeom.C196_value",
    "PyrusGeom.C196_error"
   ],
   "note": "seen value 0 is excluded because unquantize_error raises there (C141)."
  },
  {
   "property": "C197",
   "status": "proved",
   "theorems": [
    "PyrusGeom.C197_line",
    "PyrusGeom.C197_ray",
    "PyrusGeom.C197_ray_meets",
    "PyrusGeom.C197_triangle",
    "PyrusGeom.C197_triangle_area"
   ],
   "note": "the copy of a ray has a valid origin even if the original origin is invalid (C18)."
  },
  {
   "property": "C198",
   "status": "proved",
   "theorems": [
    "PyrusGeom.C198_segment",
    "PyrusGeom.C198_horizontal"
   ],
   "note": "rays are C199; intersections nearer to the border of the box than the margin may be dropped."
  },
  {
   "property": "C199",
   "status": "proved",
   "theorems": [
    "PyrusGeom.C199_ray",
    "PyrusGeom.C199_horizontal"
   ],
   "note": "for a point within 2 EPSILON of the origin of the ray the direction is not bounded: th() is 0 there (C179)."
  },
  {
   "property": "C200",
   "status": "proved",
   "theorems": [
    "PyrusGeom.C200_apart",
    "PyrusGeom.C200_line",
    "PyrusGeom.C200_across",
    "PyrusGeom.C200_down",
    "PyrusGeom.C200_segment",
    "PyrusGeom.C200_ray"
   ],
   "note": "a line that meets the top or bottom side and is not taken for vertical: only the soundness is proved, since two hits near corners of the left and right side can use up the two places."
  },
  {
   "property": "C201",
   "status": "proved",
   "theorems": [
    "PyrusGeom.C201_apart",
    "PyrusGeom.C201_segment",
    "PyrusGeom.C201_found",
    "PyrusGeom.C201_raises_iff",
    "PyrusGeom.C201_triangle"
   ],
   "note": "the code raises IndexError when the line meets the first two sides (C47_refuted_line); C201_raises_iff says exactly when."
  }
 ]
}