{"id": "C01", "title": "Segment.locate is exact membership", "statement": "segment.locate(p) is BOUNDARY exactly when p = start + t*(end-start) for some t in [0,1], and EXTERIOR otherwise; it is never INTERIOR and does not depend on the direction of the segment.", "quantifier": "all segments (including axis-parallel and degenerate ones) and all points with exact rational coordinates", "why_tests_cant": "The plane is infinite and the code mixes strict and non-strict comparisons per direction; only a proof covers every slope, direction and degenerate case.", "anchors": ["rene/_utils.py: locate_point_in_segment", "rene/_geometries/base_segment.py: BaseSegment.locate"]}
{"id": "C02", "title": "Segment.relate_to(Segment) is the set-theoretic relation", "statement": "For two non-degenerate segments the answer is EQUAL iff they have the same points, COMPONENT iff the first is a strict subset, COMPOSITE iff a strict superset, OVERLAP iff neither contains the other and they share more than one point, CROSS iff they share exactly one point interior to both, TOUCH iff they share exactly one point which is an endpoint of at least one, DISJOINT iff they share none; no other answer is possible.", "quantifier": "all pairs of non-degenerate segments", "why_tests_cant": "A decision tree of orientation tests with dozens of degenerate configurations (collinear, shared endpoint, T-junction); tests sample a few of uncountably many.", "anchors": ["rene/_relating/segment_endpoints.py: relate_to_segment_endpoints", "rene/_relating/segment.py: relate_to_segment"]}
{"id": "C03", "title": "relate_to is complementary for segments and independent of direction", "statement": "a.relate_to(b) equals b.relate_to(a).complement and does not change when either segment is given reversed.", "quantifier": "all pairs of non-degenerate segments", "why_tests_cant": "Symmetry must hold across all branches of an asymmetric decision tree.", "anchors": ["rene/_relating/segment_endpoints.py: relate_to_segment_endpoints", "rene/_enums.py: Relation.complement"]}
{"id": "C04", "title": "Relation.complement is an involution that fixes the symmetric relations", "statement": "r.complement.complement is r for every Relation; CROSS, DISJOINT, EQUAL, OVERLAP, TOUCH are fixed; COMPONENT/COMPOSITE, COVER/WITHIN, ENCLOSED/ENCLOSES are swapped.", "quantifier": "all relations", "why_tests_cant": "Needed as a law by every symmetric dispatch; stated over the whole enumeration.", "anchors": ["rene/_enums.py: Relation.complement"]}
{"id": "C05", "title": "Segment & Segment is the regularised intersection", "statement": "a & b is a segment whose points are exactly the common points when a and b share more than one point, and is Empty when they share at most one point.", "quantifier": "all pairs of non-degenerate segments", "why_tests_cant": "The result is chosen by sorting endpoints after relation shortcuts; every collinear arrangement must be right.", "anchors": ["rene/_clipping/intersection.py: intersect_segment_with_segment"]}
{"id": "C06", "title": "Segment | Segment covers exactly both segments without overlap", "statement": "The points of a | b are exactly the points of a or of b, all components are non-degenerate, and two different components share at most one point, which is not in the middle of both.", "quantifier": "all pairs of non-degenerate segments", "why_tests_cant": "Crossing points are computed by rational division; the union and non-overlap must hold for every pair.", "anchors": ["rene/_clipping/union.py: unite_segment_with_segment"]}
{"id": "C07", "title": "Segment - Segment is the regularised difference", "statement": "The points of a - b are those of the closure of a \\ b: every point of a not in b is kept, and every component of the result meets b in at most finitely many points (endpoints); the result is Empty iff a is a subset of b.", "quantifier": "all pairs of non-degenerate segments", "why_tests_cant": "Overlap handling picks endpoints by comparisons with strict/non-strict choices.", "anchors": ["rene/_clipping/difference.py: subtract_segment_from_segment", "rene/_utils.py: subtract_segments_overlap"]}
{"id": "C08", "title": "Segment ^ Segment is the regularised symmetric difference", "statement": "The points of a ^ b contain every point in exactly one of a, b and are contained in a union b; no component shares more than finitely many points with both operands.", "quantifier": "all pairs of non-degenerate segments", "why_tests_cant": "Same reason as for the difference: every collinear arrangement must be right.", "anchors": ["rene/_clipping/symmetric_difference.py: symmetric_subtract_segment_from_segment"]}
{"id": "C09", "title": "Segment & Multisegment/Contour is the regularised intersection", "statement": "segment & multisegmental: every component of the result is inside both operands, and every component of positive length common to the segment and one of the multisegmental's segments is inside the result; the order of operands does not matter.", "quantifier": "all non-degenerate segments, all multisegmentals of any length", "why_tests_cant": "Induction over the number of segments, with bounding-box filtering before each exact test.", "anchors": ["rene/_clipping/intersection.py: intersect_segment_with_multisegmental, intersect_multisegmental_with_segment, intersect_segments_with_common_continuum_bounding_boxes"]}
{"id": "C10", "title": "Segment | Multisegment/Contour covers exactly both operands", "statement": "The points of segment | multisegmental are exactly the points of the segment or the multisegmental.", "quantifier": "all non-degenerate segments and all multisegmentals (any number of components) without overlapping components", "why_tests_cant": "A loop that accumulates break points and splits; correctness is inductive in the number of components.", "anchors": ["rene/_clipping/union.py: unite_segment_with_multisegmental, unite_multisegmental_with_segment"]}
{"id": "C11", "title": "Multisegment/Contour - Segment is the regularised difference", "statement": "Every point of the multisegmental outside the segment is kept, nothing outside the multisegmental is produced, and no component of the result shares more than one point with the segment.", "quantifier": "all multisegmentals of any length and all non-degenerate segments", "why_tests_cant": "Inductive over the number of components with per-component relation dispatch.", "anchors": ["rene/_clipping/difference.py: subtract_segment_from_multisegmental"]}
{"id": "C12", "title": "Box predicates agree with point sets", "statement": "disjoint_with, touches, overlaps, covers, encloses, enclosed_by, within and equals_to on valid boxes hold exactly when the corresponding relation holds between the rectangles as point sets and their interiors.", "quantifier": "all pairs of valid boxes with positive area (and, where stated, degenerate boxes)", "why_tests_cant": "81 relative configurations of two rectangles times degenerate cases, with strict and non-strict comparisons; each shortcut in every boolean operation relies on them.", "anchors": ["rene/_geometries/base_box.py: BaseBox.covers, disjoint_with, enclosed_by, encloses, equals_to, overlaps, touches, within"]}
{"id": "C13", "title": "Box.relate_to agrees with the predicates and is complementary", "statement": "a.relate_to(b) returns DISJOINT, TOUCH, OVERLAP, COVER, ENCLOSES, COMPOSITE, EQUAL, COMPONENT, ENCLOSED or WITHIN consistently with the predicates and point sets, and equals b.relate_to(a).complement.", "quantifier": "all pairs of valid boxes", "why_tests_cant": "The function is a very deep decision tree; sampled tests do not cover the tree times degenerate boxes.", "anchors": ["rene/_geometries/base_box.py: BaseBox.relate_to"]}
{"id": "C14", "title": "Bounding boxes are tight", "statement": "bounding_box of a segment, contour, multisegment, polygon and multipolygon contains every point of the geometry, and every one of its four sides is reached by some vertex (it is the least such box).", "quantifier": "all non-empty geometries of any size", "why_tests_cant": "Induction over arbitrarily many vertices.", "anchors": ["rene/_utils.py: merge_boxes", "rene/_geometries/base_segment.py: bounding_box", "rene/_geometries/base_contour.py: bounding_box", "rene/_geometries/base_multisegment.py: bounding_box", "rene/_geometries/base_polygon.py: bounding_box", "rene/_geometries/base_multipolygon.py: bounding_box"]}
{"id": "C15", "title": "Bounding-box shortcuts of boolean operations are sound", "statement": "If the boxes of two segments have no common continuum the segments share at most one point; if boxes are disjoint the geometries share no point; hence components skipped by the bounding-box filters never contribute to an intersection nor are changed by a difference.", "quantifier": "all geometries of any size whose components get filtered", "why_tests_cant": "A filter may be wrong only for a rare touching configuration (for example a degenerate box of an axis-parallel segment touching another box).", "anchors": ["rene/_utils.py: do_boxes_have_common_area, do_boxes_have_no_common_area, do_boxes_have_common_continuum, do_boxes_have_no_common_continuum, to_boxes_ids_with_common_area, to_boxes_ids_with_common_continuum, to_boxes_ids_with_intersection"]}
{"id": "C16", "title": "Points are totally ordered lexicographically, consistently with == and hash", "statement": "Point comparison is a total order (irreflexive, transitive, trichotomous) with <=, >, >= consistent with < and ==; equal points hash alike.", "quantifier": "all points", "why_tests_cant": "Laws over all triples of points.", "anchors": ["rene/_geometries/base_point.py: BasePoint.__eq__, __ge__, __gt__, __hash__, __le__, __lt__"]}
{"id": "C17", "title": "Segment equality ignores direction and agrees with hash and point set", "statement": "a == b iff a and b have the same endpoints as unordered pairs iff they contain the same points; == is an equivalence relation; equal segments hash alike.", "quantifier": "all segments", "why_tests_cant": "Law over all pairs/triples.", "anchors": ["rene/_geometries/base_segment.py: BaseSegment.__eq__, __hash__"]}
{"id": "C18", "title": "Contour equality is equality up to rotation and direction of vertices", "statement": "For contours with pairwise distinct vertices, a == b iff the vertex sequence of b is a rotation of that of a or of its reversal; == is an equivalence relation.", "quantifier": "all contours with distinct vertices, any number of vertices", "why_tests_cant": "Induction over arbitrarily long sequences and all shifts.", "anchors": ["rene/_geometries/base_contour.py: BaseContour.__eq__, _are_non_empty_unique_sequences_rotationally_equivalent"]}
{"id": "C19", "title": "Equal contours hash alike", "statement": "a == b implies hash(a) == hash(b) for contours with distinct vertices that turn at their least vertex; for contours collinear at the least vertex the implication fails.", "quantifier": "all contours", "why_tests_cant": "Hash/equality coherence over all rotations and reversals of arbitrarily long sequences.", "anchors": ["rene/_geometries/base_contour.py: BaseContour.__hash__, BaseContour.__eq__"]}
{"id": "C20", "title": "Multisegment, Polygon, Multipolygon equality ignores component order and agrees with hash", "statement": "Equality is invariant under reordering components (and holes), is an equivalence relation and implies equal hashes.", "quantifier": "all geometries, all permutations of components", "why_tests_cant": "All permutations of arbitrarily many components.", "anchors": ["rene/_geometries/base_multisegment.py: __eq__, __hash__", "rene/_geometries/base_polygon.py: __eq__, __hash__", "rene/_geometries/base_multipolygon.py: __eq__, __hash__"]}
{"id": "C21", "title": "Contour.locate and Multisegment.locate are exact membership", "statement": "locate(p) is BOUNDARY iff p lies on some segment and EXTERIOR otherwise.", "quantifier": "all contours/multisegments of any size and all points", "why_tests_cant": "Infinite domain; arbitrary component counts.", "anchors": ["rene/_geometries/base_contour.py: locate", "rene/_geometries/base_multisegment.py: locate"]}
{"id": "C22", "title": "Region location: boundary exactness and invariance", "statement": "Locating a point in the region bounded by a contour answers BOUNDARY iff the point is on the contour; the answer does not change when the vertices are rotated or reversed; points outside the bounding box are EXTERIOR.", "quantifier": "all contours of any size and all points", "why_tests_cant": "Ray casting must treat vertices at the height of the point consistently; that is a statement about all vertex sequences.", "anchors": ["rene/_utils.py: locate_point_in_region"]}
{"id": "C23", "title": "Region location is constant on connected pieces of the complement and flips across edges", "statement": "If a segment (path) does not meet the contour, its two ends get the same location; so the classification is a function of the connected component of the complement of the contour, and points outside the bounding box share EXTERIOR.", "quantifier": "all closed vertex sequences and all polygonal paths avoiding the contour", "why_tests_cant": "A Jordan-curve-type statement over all polygons: the ray direction must not matter; impossible to sample.", "anchors": ["rene/_utils.py: locate_point_in_region"]}
{"id": "C24", "title": "Polygon.locate and Multipolygon.locate combine border and holes", "statement": "polygon.locate(p) is INTERIOR iff p is strictly inside the border and strictly outside every hole, BOUNDARY iff p is on the border or (in the region and) on a hole, EXTERIOR otherwise; multipolygon.locate is the location in the first polygon not giving EXTERIOR.", "quantifier": "all polygons with any number of holes, all multipolygons, all points", "why_tests_cant": "Arbitrarily many holes and polygons.", "anchors": ["rene/_geometries/base_polygon.py: locate", "rene/_geometries/base_multipolygon.py: locate"]}
{"id": "C25", "title": "Contour.orientation", "statement": "orientation is invariant under rotation of the vertices, flips under reversal, and for simple contours equals the sign of the signed area (which is not zero).", "quantifier": "all contours with distinct vertices; all simple contours for the area", "why_tests_cant": "All rotations of arbitrarily long sequences.", "anchors": ["rene/_geometries/base_contour.py: orientation", "rene/_utils.py: to_contour_orientation, to_arg_min, to_oriented_segments, rotate_sequence"]}
{"id": "C26", "title": "Orientation predicate laws", "statement": "orient(a,b,c) is the exact sign of the signed area: antisymmetric in any swap, invariant under cyclic shifts and translation, COLLINEAR iff the points are on one line.", "quantifier": "all triples of points", "why_tests_cant": "Exact-arithmetic identity over an infinite field.", "anchors": ["rene/_exact/__init__.py: orient", "rene/_utils.py: cross_multiply, to_sign"]}
{"id": "C27", "title": "Segment intersection point is exact", "statement": "When two segments properly cross, the computed intersection point lies on both segments, strictly between the endpoints of each in the lexicographic order, and is the only common point.", "quantifier": "all pairs of properly crossing segments", "why_tests_cant": "Rational-division formula over all inputs; sweeps assert it.", "anchors": ["rene/_exact/__init__.py: to_segments_intersection_scale, to_segments_intersection"]}
{"id": "C28", "title": "In-circle predicate is the circumcircle test", "statement": "For a counterclockwise triangle, the predicate answers INTERIOR/BOUNDARY/EXTERIOR exactly when the point's distance to the circumcentre is less than/equal to/greater than the circumradius.", "quantifier": "all counterclockwise triangles and all points", "why_tests_cant": "A degree-4 polynomial identity; tests sample it.", "anchors": ["rene/_utils.py: locate_point_in_point_point_point_circle"]}
{"id": "C29", "title": "Seeded permutation is a bijection from seeds", "statement": "permute rearranges without loss or duplication for every seed, is deterministic, and distinct seeds below n! yield distinct arrangements (all arrangements are reachable).", "quantifier": "all lists and all non-negative seeds", "why_tests_cant": "n! arrangements for every n.", "anchors": ["rene/_utils.py: permute"]}
{"id": "C30", "title": "Seed validation", "statement": "A trapezoidation seed is accepted iff it is an integer in [0, max usize]; otherwise TypeError, ValueError or OverflowError as documented.", "quantifier": "all integers and non-integers", "why_tests_cant": "Unbounded integer domain.", "anchors": ["rene/_utils.py: validate_seed", "rene/_exact/trapezoidation.py"]}
{"id": "C31", "title": "Constructors reject too few components and keep components otherwise", "statement": "Contour needs 3 vertices, Multisegment 2 segments, Multipolygon 2 polygons: otherwise ValueError; accepted geometries expose exactly the given components in order.", "quantifier": "all component lists", "why_tests_cant": "All lengths.", "anchors": ["rene/_exact/contour.py", "rene/_exact/multisegment.py", "rene/_exact/multipolygon.py", "rene/constants.py"]}
{"id": "C32", "title": "Component views behave like the sequences they expose", "statement": "len, indexing (including negative and out-of-range), slices, index and count of vertices/segments views agree with the underlying list; the segments view of a contour is the cyclic list of consecutive vertex pairs, with count and index agreeing with it.", "quantifier": "all contours, all indices and values", "why_tests_cant": "Arbitrary indices and lengths.", "anchors": ["rene/_exact/contour.py: ContourSegments, ContourVertices", "rene/_exact/multisegment.py: MultisegmentSegments", "rene/_exact/polygon.py: PolygonHoles", "rene/_exact/multipolygon.py: MultipolygonPolygons"]}
{"id": "C33", "title": "Empty is neutral/absorbing and never contains a point", "statement": "For every geometry g: empty | g = g = g | empty, empty & g = empty, g - empty = g, empty - g = empty, empty ^ g = g; empty.locate(p) is EXTERIOR, relate_to gives DISJOINT for non-empty and EQUAL for empty; all Empty instances are equal with equal hash.", "quantifier": "all geometries", "why_tests_cant": "Law over all geometries.", "anchors": ["rene/_geometries/base_empty.py", "rene/_geometries/base_segment.py: __and__/__or__/__sub__/__xor__"]}
{"id": "C34", "title": "Sweep behind boolean operations: exact refinement, no failing assertion, termination", "statement": "For every two lists of segments whose members do not overlap within a list, at every step of the sweep behind the boolean operations of multisegmentals: no assertion of the code fails, the sweep line is strictly sorted by its key (so tree search finds what it should), each current subsegment lies on the segment it came from and the subsegments of an original segment cover it exactly, opposite-event bookkeeping is an involution pairing left with right events, and no event changes its operand; the sweep pops finitely many events (explicit bound) in non-decreasing order of points, and the emitted groups of coincident subsegments are pairwise non-overlapping and non-crossing.", "quantifier": "all pairs of finite lists of non-degenerate rational segments, pairwise sharing at most one point inside each list; all steps of the sweep", "why_tests_cant": "An invariant over every history of the sweep.", "anchors": ["rene/_clipping/linear.py: Operation.__init__, _divide, _detect_intersection, __iter__"]}
{"id": "C35", "title": "Multisegmental boolean operations", "statement": "For multisegments/contours a, b (and with a segment in place of one of them) whose own components do not overlap: no operation raises; the points of a & b, a - b, a ^ b are exactly the regularised intersection, difference and symmetric difference (isolated points dropped, ends kept) and the points of a | b exactly those of a or b; the components of the result are non-degenerate, pairwise share at most one point, and for & meet only at common ends.", "quantifier": "all contours with at least 3 vertices and multisegments with at least 2 segments over exact rationals, components of an operand pairwise sharing at most one point", "why_tests_cant": "Arbitrary arrangements of arbitrarily many segments.", "anchors": ["rene/_clipping/intersection.py: LinearIntersection", "rene/_clipping/union.py: LinearUnion", "rene/_clipping/difference.py: LinearDifference", "rene/_clipping/symmetric_difference.py: LinearSymmetricDifference", "rene/_clipping/linear.py"]}
{"id": "C36", "title": "is_valid of multisegments and contours", "statement": "Multisegment.is_valid of non-degenerate segments is True exactly when different segments meet only at points which are ends of both; Contour.is_valid is True exactly when the vertices are distinct, the edges meet only at common ends and no vertex is collinear with its neighbours; no assert fails while the segments meet only at common ends.", "quantifier": "all lists of non-degenerate segments, all lists of contour vertices, all orders in which the queue may break ties", "why_tests_cant": "The validity sweep divides segments and merges collinear ones; its answer must be right for every configuration of arbitrarily many segments.", "anchors": ["rene/_geometries/base_multisegment.py: is_valid", "rene/_geometries/base_contour.py: is_valid, _neighbour_segments_vertices_touch", "rene/_bentley_ottmann/base.py: sweep", "rene/_bentley_ottmann/events_registry.py: EventsRegistry"]}
{"id": "C37", "title": "Segment.relate_to(Contour) and Segment.relate_to(Multisegment)", "statement": "Segment.relate_to(Contour) and Segment.relate_to(Multisegment) never fail and answer exactly the relation of the two point sets: DISJOINT without common points; COMPONENT, COMPOSITE, EQUAL by inclusion (for a contour: COMPONENT for a part of one edge); OVERLAP for other common continua; CROSS when an edge is crossed properly or the chain changes sides at a vertex inside the segment; TOUCH otherwise. With a straight angle at the first vertex of a contour the answer can be CROSS for a mere touch (finding).", "quantifier": "all non-degenerate segments, all contours without overlapping edges and straight angles, all multisegments whose components neither overlap nor cross", "why_tests_cant": "Inductive scan over arbitrarily many components with accumulated state.", "anchors": ["rene/_relating/segment_endpoints.py: relate_to_contour_segments, relate_to_multisegment_segments"]}
{"id": "C38", "title": "Quad-edge structure keeps its invariants", "statement": "Triangulation edges form a quad-edge algebra: opposite and rotation operators satisfy the group laws; every sequence of create/splice/connect/delete/swap operations keeps next-around-start a permutation with its inverse given by the rotated edge; splice is an involution.", "quantifier": "all sequences of mesh operations", "why_tests_cant": "Invariant over all operation histories.", "anchors": ["rene/_triangulation/quad_edge.py", "rene/_triangulation/mesh.py: Mesh"]}
{"id": "C39", "title": "Point location in a trapezoidation terminates within its height", "statement": "Trapezoidation.locate returns a location for every point, whatever multisegment or polygon and seed the trapezoidation was built from; the height is defined and bounds the number of steps of every point location; no point is INTERIOR for a multisegment.", "quantifier": "all multisegments and polygons, seeds and query points", "why_tests_cant": "All graphs and histories of insertions.", "anchors": ["rene/_seidel/node.py", "rene/_seidel/x_node.py", "rene/_seidel/y_node.py", "rene/_seidel/leaf.py", "rene/_seidel/trapezoidation.py", "rene/_seidel/edge.py"]}
{"id": "C40", "title": "Collinear vertex shrinking keeps the border's point set", "statement": "Dropping collinear vertices from a triangulation's border yields a subsequence of the vertices and, for a closed chain whose consecutive collinear edges do not backtrack, the same point set.", "quantifier": "all vertex lists of length >= 3", "why_tests_cant": "Inductive over arbitrary lists.", "anchors": ["rene/_utils.py: shrink_collinear_vertices", "rene/_exact/triangulation.py"]}
{"id": "C41", "title": "Linear minus polygon is NOT independent of the bounding-box shortcut (finding)", "statement": "One would rely on `multisegment - polygon` removing pieces running along the polygon's border regardless of the other segments. It does not: there are a multisegment and a polygon such that a piece along the border is kept when the bounding boxes have no common area, and removed after an unrelated segment is added. The expected independence is refuted.", "quantifier": "existence of a minuend, an additional segment and a polygon", "why_tests_cant": "The branches disagree only when the boxes merely touch.", "anchors": ["rene/_clipping/difference.py: subtract_polygon_from_multisegmental, subtract_multipolygon_from_multisegmental"]}
{"id": "C42", "title": "Helpers used for triangulation input", "statement": "deduplicate of sorted points gives exactly the distinct points in strictly increasing order; ceil_log2(n) is the least k with n <= 2^k; the base-case decomposition covers every n >= 2 by blocks of size 2 and 3 exactly.", "quantifier": "all lists and all positive integers", "why_tests_cant": "Unbounded.", "anchors": ["rene/_utils.py: deduplicate, ceil_log2", "rene/_triangulation/mesh.py: to_base_cases", "rene/_triangulation/delaunay.py: DelaunayTriangulation.from_points"]}
{"id": "C43", "title": "Operators on linear geometries form a boolean algebra of regularised point sets", "statement": "For valid linear geometries (empty, segments, multisegments, contours) every expression built with &, |, - and ^ evaluates without an error to a valid linear geometry whose points are, up to finitely many, those of the same set expression; the points of a result are determined by this, so that every set identity (commutativity, distributivity, De Morgan, (a - b) | (a & b) = a) holds for the computed geometries.", "quantifier": "all expressions of any size over all valid linear geometries", "why_tests_cant": "results are fed back as operands, with arbitrarily nested intersections and touching pieces; the identities range over all geometries and expression trees", "anchors": ["rene/_geometries/base_segment.py: __and__, __or__, __sub__, __xor__", "rene/_geometries/base_contour.py", "rene/_geometries/base_multisegment.py", "rene/_geometries/base_empty.py"]}
{"id": "C44", "title": "Trapezoidation.locate does NOT agree with Polygon.locate (finding)", "statement": "One would rely on Trapezoidation.from_polygon(p).locate(q) == p.locate(q) for valid polygons. It does not hold: for a triangle with a suitable first vertex an interior point is reported EXTERIOR with every seed. The expected agreement is refuted.", "quantifier": "existence of a polygon and a point, all seeds", "why_tests_cant": "The existing tests compare locate with itself; the claim ranges over all seeds.", "anchors": ["rene/_seidel/trapezoidation.py: _populate_from_contour"]}
{"id": "C45", "title": "Trapezoidation of touching segments depends on the seed (finding)", "statement": "One would rely on the location of a point in the trapezoidation of a valid multisegment being independent of the seed. It is not when an end point of a segment is inside another segment: a point of a segment is reported EXTERIOR with one seed and BOUNDARY with another.", "quantifier": "existence of a multisegment, a point and two seeds", "why_tests_cant": "Needs the comparison of all insertion orders on degenerate input.", "anchors": ["rene/_seidel/trapezoidation.py: _find_intersecting_trapezoids", "rene/_seidel/edge.py: is_under"]}
{"id": "C46", "title": "Segment.relate_to(Polygon) recognises the outside and the inside", "statement": "For polygons with at most one hole Segment.relate_to(Polygon) never fails, answers DISJOINT exactly when every point of the segment is located outside of the polygon, WITHIN exactly when every point is located inside, and (without holes) COMPONENT only for a part of an edge.", "quantifier": "all non-degenerate segments and polygons with non-degenerate edges and at most one hole inside of the border", "why_tests_cant": "Ranges over all points of all segments and arbitrary borders.", "anchors": ["rene/_relating/segment_endpoints.py: relate_to_region, _relate_to_region_border, _locate_point_in_region", "rene/_relating/segment.py: relate_to_polygon"]}
{"id": "C47", "title": "Segment.relate_to(Polygon) is NOT a function of the point sets (findings)", "statement": "One would rely on relate_to(Polygon) giving the same answer for equal polygons and for equal segments, and on CROSS for segments with points both inside and outside. None of it holds: a square with its vertices listed clockwise answers TOUCH for the diagonal that is ENCLOSED by the equal counterclockwise square; a counterclockwise polygon ENCLOSES a segment without interior points and TOUCHes the reversed one; a segment which enters along an edge answers TOUCH though it has interior and exterior points.", "quantifier": "existence of polygons and segments, all points for the equality of the polygons", "why_tests_cant": "The tests do not compare the answers of equal geometries; equality of the two polygons as point sets ranges over all points.", "anchors": ["rene/_relating/segment_endpoints.py: relate_to_region"]}
{"id": "C48", "title": "Linear & polygon is the regularised intersection with the closed region", "statement": "For every non-degenerate Segment, Multisegment or Contour whose segments do not overlap and every valid Polygon or Multipolygon, `&` in either argument order never fails and returns Empty, a Segment or a Multisegment whose points are exactly the one-dimensional part of the common points (isolated contact points dropped), with pieces along the border included and pieces inside holes excluded; the returned segments meet only at common endpoints.", "quantifier": "all linear geometries without overlapping segments, all valid polygons/multipolygons with any number of vertices and holes, all points of the plane, all sweep histories", "why_tests_cant": "Ranges over all sweep-line histories, all orders of events, all points of the plane and arbitrary sizes.", "anchors": ["rene/_clipping/intersection.py: intersect_segment_with_polygon, intersect_polygon_with_segment, intersect_multisegmental_with_polygon, intersect_polygon_with_multisegmental, intersect_segment_with_multipolygon, intersect_multipolygon_with_segment, intersect_multisegmental_with_multipolygon, intersect_multipolygon_with_multisegmental", "rene/_clipping/mixed.py: LinearShapedIntersection, ShapedLinearIntersection", "rene/_clipping/operation.py"]}
{"id": "C49", "title": "Linear - polygon covers exactly the difference, each piece listed twice (finding)", "statement": "For every non-degenerate Segment, Multisegment or Contour whose segments do not overlap and every valid Polygon or Multipolygon, `-` never fails; when the bounding boxes have no common area the minuend is returned unchanged and has no point inside of the subtrahend; otherwise the points of the result are exactly the one-dimensional part of the minuend outside of the closed region. One would rely on the segments of the result not overlapping; instead every piece produced by the sweep is listed twice, once in each direction.", "quantifier": "all linear geometries without overlapping segments, all valid polygons/multipolygons, all points of the plane, all sweep histories", "why_tests_cant": "Ranges over all sweep-line histories and all points of the plane; the tests compare point membership, which the duplication does not change.", "anchors": ["rene/_clipping/difference.py: subtract_polygon_from_segment, subtract_polygon_from_multisegmental, subtract_multipolygon_from_segment, subtract_multipolygon_from_multisegmental", "rene/_clipping/mixed.py: LinearShapedDifference"]}
{"id": "C50", "title": "Boolean operations on polygons return sound contours", "statement": "For all valid Polygons and Multipolygons, `-`, `&`, `|` and `^` never fail (no assertion, no index error) and return Empty, a Polygon or a Multipolygon whose contours are all simple closed polylines, pairwise without overlapping edges; every polygon of the result is either a polygon of an operand or has a counterclockwise border and clockwise holes; and all points of its contours lie on contours of the operands.", "quantifier": "all valid polygons and multipolygons with any number of vertices and holes, all four operations, all sweep histories", "why_tests_cant": "Ranges over all operands, all sweep-line histories and all ways in which contours can touch, nest and share edges, with arbitrary sizes.", "anchors": ["rene/_clipping/difference.py: subtract_polygon_from_polygon, subtract_multipolygon_from_polygon, subtract_polygon_from_multipolygon, subtract_multipolygon_from_multipolygon", "rene/_clipping/intersection.py: intersect_polygon_with_polygon, intersect_polygon_with_multipolygon, intersect_multipolygon_with_polygon, intersect_multipolygon_with_multipolygon", "rene/_clipping/union.py: unite_polygon_with_polygon, unite_polygon_with_multipolygon, unite_multipolygon_with_polygon, unite_multipolygon_with_multipolygon", "rene/_clipping/symmetric_difference.py: symmetric_subtract_*", "rene/_clipping/shaped.py: Operation", "rene/_utils.py: collect_maybe_empty_polygons, collect_non_empty_polygons"]}
{"id": "C51", "title": "Boolean operations on polygons: even-odd interior", "statement": "For all valid Polygons and Multipolygons and every point off the operands' edges, the number of contours (borders and holes) of the result of `-`, `&`, `|`, `^` which have the point strictly inside is odd if and only if the point is in the first region and not in the second one, in both, in at least one, in exactly one, respectively. In particular the contours of the result always delimit exactly the right set.", "quantifier": "all valid polygons and multipolygons with any number of vertices and holes, all four operations, all sweep histories, all points of the plane off the operands' edges", "why_tests_cant": "Ranges over all operands, all sweep-line histories and all ways in which contours can touch, nest and share edges, with arbitrary sizes. Holds for all of the infinitely many points.", "anchors": ["rene/_clipping/difference.py: subtract_polygon_from_polygon, subtract_multipolygon_from_polygon, subtract_polygon_from_multipolygon, subtract_multipolygon_from_multipolygon", "rene/_clipping/intersection.py: intersect_polygon_with_polygon, intersect_polygon_with_multipolygon, intersect_multipolygon_with_polygon, intersect_multipolygon_with_multipolygon", "rene/_clipping/union.py: unite_polygon_with_polygon, unite_polygon_with_multipolygon, unite_multipolygon_with_polygon, unite_multipolygon_with_multipolygon", "rene/_clipping/symmetric_difference.py: symmetric_subtract_*", "rene/_clipping/shaped.py: Operation", "rene/_utils.py: collect_maybe_empty_polygons, collect_non_empty_polygons", "rene/_utils.py: locate_point_in_region"]}
{"id": "C52", "title": "Boolean operations of polygonal geometries: interior points of the result (finding)", "statement": "One would rely on `&`, `|`, `-` and `^` of valid Polygons/Multipolygons returning a geometry whose interior points are exactly those selected by the operation among the points off the operands' edges. This is false: a contour of the result may be listed as a hole of a polygon whose border does not contain it, so that a point of the subtrahend is located inside of the difference.", "quantifier": "all valid polygons and multipolygons, all points of the plane, all sweep histories", "why_tests_cant": "Ranges over all operands; the failing configuration needs a vertex of one operand on an edge of another one, where several contours of the result touch, which random tests do not hit.", "anchors": ["rene/_clipping/shaped.py: Operation", "rene/_clipping/connection.py", "rene/_clipping/difference.py: subtract_multipolygon_from_polygon"]}
{"id": "C53", "title": "relate_to of two contours or multisegments", "statement": "For two constructed contours/multisegments whose segments are non-degenerate and meet only at common endpoints, and neither of which is just one segment of the other, `a.relate_to(b)` returns EQUAL/COMPONENT/COMPOSITE exactly when the point sets are equal / `a` is a proper part of `b` / `b` is a proper part of `a`, OVERLAP when neither is part of the other and infinitely many points are common, CROSS or TOUCH when some but only finitely many points are common, DISJOINT when there are none; the only exception is AssertionError, raised only for operands without common points. Without the conditions on the operands the answers are wrong (EQUAL for a proper part, OVERLAP for a multisegment with itself). Where three segments of an operand meet at a common point, `a.relate_to(b)` may be TOUCH while `b.relate_to(a)` is CROSS.", "quantifier": "all pairs of contours and multisegments, all coordinates, all orders of the segments, every history of the sweep line", "why_tests_cant": "The answer depends on the whole history of a sweep with bounding-box filters, early exits and subset flags; no finite set of operands covers the coincidences.", "anchors": ["rene/_relating/multisegmental.py: relate_to_multisegmental", "rene/_relating/linear.py: LinearIntersectingSegmentsEventsQueue, RelationState, has_crossing", "rene/_geometries/base_contour.py: relate_to", "rene/_geometries/base_multisegment.py: relate_to"]}
{"id": "C54", "title": "relate_to of two polygons or multipolygons", "statement": "For valid polygons/multipolygons with counterclockwise borders and clockwise holes (and, in a multipolygon, borders which do not overlap or lie in holes), `a.relate_to(b)` never fails and returns the only correct relation of the two closed regions: DISJOINT without common points; TOUCH when only boundaries meet; OVERLAP when insides meet but none is a part of the other; EQUAL for the same points; WITHIN / COMPONENT / ENCLOSED when `a` is a proper part of `b` which is strictly inside / has its boundary on the boundary / has a boundary that meets both the boundary and the inside; COVER / COMPOSITE / ENCLOSES with the roles exchanged; never CROSS. For other orientations of the borders the answers are wrong: a polygon related to an `==` polygon with the vertices listed in the other direction gives TOUCH.", "quantifier": "all pairs of polygons and multipolygons, all coordinates, all numbers of holes and polygons, every history of the sweep line", "why_tests_cant": "The answer depends on the whole history of a sweep with bounding-box filters, early exits and flags, and on parities of edges below each edge; no finite set of operands covers the coincidences.", "anchors": ["rene/_relating/shaped.py: Operation, RelationState, EventKind", "rene/_relating/polygon.py: relate_to_polygon, relate_to_multipolygon", "rene/_relating/multipolygon.py: relate_to_polygon, relate_to_multipolygon", "rene/_relating/utils.py: polygon_to_segments"]}
{"id": "C55", "title": "relate_to of a linear and a polygonal geometry is NOT the relation of the point sets (findings)", "statement": "`a.relate_to(b)` for a segment, multisegment or contour and a polygon or multipolygon, in either order: operands whose bounding boxes are apart are DISJOINT (and have no common point); a multisegment or contour with a segment whose bounding box is apart from that of the polygonal operand is never WITHIN it, ENCLOSED by it or a COMPONENT of it. Otherwise the answer cannot be relied on. For all operands `polygonal.relate_to(linear)` is a relation of the linear to the polygonal operand (never COVER, ENCLOSES or COMPOSITE), so a square is WITHIN a segment inside it. Edges which the sweep has passed stay in the sweep line: for valid polygons a segment inside is reported as DISJOINT, a contour that leaves a triangle as WITHIN it, and for an arch and a segment inside an AssertionError is raised. `multipolygon.relate_to(multisegment)` raises ValueError for a multisegment between the polygons.", "quantifier": "all pairs of polygonal and linear operands for the direction and the disjoint boxes; concrete valid operands for the findings", "why_tests_cant": "Which stale edge is consulted depends on the whole history of the sweep; random tests with convex or small polygons do not meet it.", "anchors": ["rene/_relating/mixed.py:Operation._remove", "rene/_relating/mixed.py:Operation.to_relation", "rene/_relating/mixed.py:RelationState.update", "rene/_relating/polygon.py:relate_to_segment", "rene/_relating/polygon.py:relate_to_multisegmental", "rene/_relating/multipolygon.py:relate_to_multisegmental", "rene/_relating/multipolygon.py:relate_to_segment", "rene/_relating/multisegmental.py:relate_to_polygon", "rene/_relating/multisegmental.py:relate_to_multipolygon", "rene/_relating/segment.py:relate_to_multipolygon", "rene/_relating/segment.py:relate_to_multiregion"]}
{"id": "C56", "title": "Constrained Delaunay triangulation of a polygon: triangles, and what it does not guarantee (findings)", "statement": "Whenever `ConstrainedDelaunayTriangulation.from_polygon(polygon)` completes, its points are the distinct vertices of the polygon in lexicographic order, and every contour of `triangles` is a counterclockwise triangle with vertices among them, starting with its least vertex, which is not one of the triangular holes. When the edges crossing a constraint have been resolved, no edge of the mesh crosses it. It is NOT guaranteed that the triangles cover just the polygon: a hole whose vertices are listed counterclockwise is triangulated too, although the polygon is equal to the one with the clockwise hole; that the triangulation is Delaunay up to the constraints: swapped edges are not reconsidered; or that the construction completes: a hole with a vertex inside an edge of the border raises AssertionError.", "quantifier": "all polygons with non-empty contours, all runs which complete; concrete polygons for the findings", "why_tests_cant": "The mesh depends on the whole history of splices and swaps; the defects need particular orientations or narrow polygons of at least eight vertices (about one in three thousand random polygons).", "anchors": ["rene/_triangulation/constrained_delaunay.py:ConstrainedDelaunayTriangulation.from_polygon", "rene/_triangulation/constrained_delaunay.py:ConstrainedDelaunayTriangulation.triangles_vertices", "rene/_triangulation/constrained_delaunay.py:resolve_crossings", "rene/_triangulation/constrained_delaunay.py:restore_delaunay_criterion", "rene/_triangulation/constrained_delaunay.py:is_segment_inside_hole", "rene/_triangulation/constrained_delaunay.py:detect_crossings", "rene/_triangulation/vertices.py:ContourVertex", "rene/_exact/triangulation.py:ConstrainedDelaunayTriangulation"]}
{"id": "C57", "title": "Boolean operations of polygonal geometries are exact when no two contours meet inside an edge of the other operand", "statement": "For all valid Polygons and Multipolygons which satisfy the condition that edges of one operand meet only at common vertices, and no point common to two contours of one operand lies inside an edge of the other one (so common vertices, common edges, crossing edges and vertices of one operand inside edges of the other one are allowed, and two polygons without holes always satisfy it), `-`, `&`, `|`, `^` return a geometry whose `locate` answers INTERIOR for every point off the operands' edges which is in the first region and not in the second, in both, in at least one, in exactly one, respectively, and EXTERIOR for every other such point: every hole of the result is assigned to the polygon around it and no region is lost, filled or counted twice. C52 shows that the condition cannot be dropped.", "quantifier": "all valid polygons and multipolygons of any size satisfying the condition, all four operations, all sweep histories, all points of the plane off the operands' edges", "why_tests_cant": "Ranges over all operands, all sweep-line histories and all nestings of the resulting contours of arbitrary depth, and over the infinitely many points; the assignment of holes depends on which edge was recorded as just below when each contour's first edge was swept.", "anchors": ["rene/_clipping/difference.py: subtract_polygon_from_polygon, subtract_multipolygon_from_polygon, subtract_polygon_from_multipolygon, subtract_multipolygon_from_multipolygon", "rene/_clipping/intersection.py: intersect_polygon_with_polygon, intersect_polygon_with_multipolygon, intersect_multipolygon_with_polygon, intersect_multipolygon_with_multipolygon", "rene/_clipping/union.py: unite_polygon_with_polygon, unite_polygon_with_multipolygon, unite_multipolygon_with_polygon, unite_multipolygon_with_multipolygon", "rene/_clipping/symmetric_difference.py: symmetric_subtract_*", "rene/_clipping/shaped.py: Operation", "rene/_utils.py: collect_maybe_empty_polygons, collect_non_empty_polygons", "rene/_utils.py: locate_point_in_region", "rene/_geometries/base_polygon.py: BasePolygon.locate", "rene/_geometries/base_multipolygon.py: BaseMultipolygon.locate"]}
{"id": "C58", "title": "Results of boolean operations of polygonal geometries are valid operands again", "statement": "For all valid Polygons and Multipolygons which satisfy the condition that edges of one operand meet only at common vertices, and no point common to two contours of one operand lies inside an edge of the other one (so common vertices, common edges, crossing edges and vertices of one operand inside edges of the other one are allowed, and two polygons without holes always satisfy it), `-`, `&`, `|`, `^` return Empty, a Polygon or a Multipolygon which is valid: its contours are simple and pairwise without overlapping edges, every hole is inside of the border of its polygon, no point inside of one hole belongs to another one, and no point inside of one polygon belongs to another one; so it may be passed to any operation again. Without the condition this fails (C58_invalid_result: `wedge - [hook, thorn]` has a hole outside of its border).", "quantifier": "all valid polygons and multipolygons of any size satisfying the condition, all four operations, all sweep histories, all points of the plane", "why_tests_cant": "Validity quantifies over all points of the plane and all pairs of contours of results of arbitrary size and nesting depth; a test can only probe some points of some results.", "anchors": ["rene/_clipping/difference.py: subtract_polygon_from_polygon, subtract_multipolygon_from_polygon, subtract_polygon_from_multipolygon, subtract_multipolygon_from_multipolygon", "rene/_clipping/intersection.py: intersect_polygon_with_polygon, intersect_polygon_with_multipolygon, intersect_multipolygon_with_polygon, intersect_multipolygon_with_multipolygon", "rene/_clipping/union.py: unite_polygon_with_polygon, unite_polygon_with_multipolygon, unite_multipolygon_with_polygon, unite_multipolygon_with_multipolygon", "rene/_clipping/symmetric_difference.py: symmetric_subtract_*", "rene/_clipping/shaped.py: Operation", "rene/_utils.py: collect_maybe_empty_polygons, collect_non_empty_polygons", "rene/_utils.py: locate_point_in_region", "rene/_geometries/base_polygon.py: BasePolygon.locate", "rene/_geometries/base_multipolygon.py: BaseMultipolygon.locate"]}
{"id": "C59", "title": "Results of boolean operations of polygonal geometries are the regularised set operations, at every point", "statement": "For all valid Polygons and Multipolygons which satisfy the condition that edges of one operand meet only at common vertices, and no point common to two contours of one operand lies inside an edge of the other one (so common vertices, common edges, crossing edges and vertices of one operand inside edges of the other one are allowed, and two polygons without holes always satisfy it) and every point q of the plane, including those on edges and at vertices: `locate(q)` of the result of `-`, `&`, `|`, `^` is INTERIOR if and only if all the points off the operands' edges in some neighbourhood of q satisfy the boolean condition (in the first region and not in the second, in both, in at least one, in exactly one), EXTERIOR if and only if none of them does, and BOUNDARY if and only if there are both arbitrarily close.", "quantifier": "all valid polygons and multipolygons of any size satisfying the condition, all four operations, all sweep histories, all points of the plane", "why_tests_cant": "Ranges over all operands, all sweep-line histories and all points, with neighbourhoods of every radius; points on edges and vertices of the result are a null set which sampling misses.", "anchors": ["rene/_clipping/difference.py: subtract_polygon_from_polygon, subtract_multipolygon_from_polygon, subtract_polygon_from_multipolygon, subtract_multipolygon_from_multipolygon", "rene/_clipping/intersection.py: intersect_polygon_with_polygon, intersect_polygon_with_multipolygon, intersect_multipolygon_with_polygon, intersect_multipolygon_with_multipolygon", "rene/_clipping/union.py: unite_polygon_with_polygon, unite_polygon_with_multipolygon, unite_multipolygon_with_polygon, unite_multipolygon_with_multipolygon", "rene/_clipping/symmetric_difference.py: symmetric_subtract_*", "rene/_clipping/shaped.py: Operation", "rene/_utils.py: collect_maybe_empty_polygons, collect_non_empty_polygons", "rene/_utils.py: locate_point_in_region", "rene/_geometries/base_polygon.py: BasePolygon.locate", "rene/_geometries/base_multipolygon.py: BaseMultipolygon.locate"]}
{"id": "C60", "title": "Algebraic laws of boolean operations of polygonal geometries", "statement": "For all valid Polygons and Multipolygons which satisfy the condition that edges of one operand meet only at common vertices, and no point common to two contours of one operand lies inside an edge of the other one (so common vertices, common edges, crossing edges and vertices of one operand inside edges of the other one are allowed, and two polygons without holes always satisfy it): `a & b`, `a | b`, `a ^ b` locate every point of the plane exactly as `b & a`, `b | a`, `b ^ a` do. For every valid Polygon or Multipolygon a whose edges meet only at common vertices: `a & a` and `a | a` locate every point as `a` does, and `a - a` and `a ^ a` are Empty.", "quantifier": "all valid polygons and multipolygons of any size satisfying the conditions, all points of the plane", "why_tests_cant": "The operands are treated asymmetrically by the sweep (event order, overlap kinds, shortcuts), so symmetry must be shown for all inputs and histories; equality of regions quantifies over all points.", "anchors": ["rene/_clipping/difference.py: subtract_polygon_from_polygon, subtract_multipolygon_from_polygon, subtract_polygon_from_multipolygon, subtract_multipolygon_from_multipolygon", "rene/_clipping/intersection.py: intersect_polygon_with_polygon, intersect_polygon_with_multipolygon, intersect_multipolygon_with_polygon, intersect_multipolygon_with_multipolygon", "rene/_clipping/union.py: unite_polygon_with_polygon, unite_polygon_with_multipolygon, unite_multipolygon_with_polygon, unite_multipolygon_with_multipolygon", "rene/_clipping/symmetric_difference.py: symmetric_subtract_*", "rene/_clipping/shaped.py: Operation", "rene/_utils.py: collect_maybe_empty_polygons, collect_non_empty_polygons", "rene/_utils.py: locate_point_in_region", "rene/_geometries/base_polygon.py: BasePolygon.locate", "rene/_geometries/base_multipolygon.py: BaseMultipolygon.locate"]}
{"id": "C61", "title": "Expressions over the boolean operators of polygonal geometries", "statement": "For every expression of any size and shape built with `&`, `|`, `-`, `^` from Empty, valid Polygons and valid Multipolygons, such that the operands of every operator in it satisfy the condition of C57-C60: the evaluation raises no error and gives Empty, a valid Polygon or a valid Multipolygon of at least two polygons, whose `locate(q)` is, for every point q of the plane, INTERIOR if and only if all the points off the boundaries of the leaves in some neighbourhood of q satisfy the boolean combination of being in the leaves, EXTERIOR if and only if none does, BOUNDARY if and only if there are both arbitrarily close. Hence two expressions with equivalent boolean combinations (de Morgan, distributivity, associativity, absorption, `(a - b) | (a & b)` and `a`, `(a | b) - (a & b)` and `(a - b) | (b - a)` and `a ^ b`) locate every point in the same way.", "quantifier": "all expression trees, all valid polygonal leaves of any size, all four operators at every node, all points of the plane", "why_tests_cant": "Ranges over expressions of unbounded depth, where the result of one operation, built by the code itself, is an operand of the next one, and over all points of the plane.", "anchors": ["rene/_clipping/difference.py: subtract_polygon_from_polygon, subtract_multipolygon_from_polygon, subtract_polygon_from_multipolygon, subtract_multipolygon_from_multipolygon", "rene/_clipping/intersection.py: intersect_polygon_with_polygon, intersect_polygon_with_multipolygon, intersect_multipolygon_with_polygon, intersect_multipolygon_with_multipolygon", "rene/_clipping/union.py: unite_polygon_with_polygon, unite_polygon_with_multipolygon, unite_multipolygon_with_polygon, unite_multipolygon_with_multipolygon", "rene/_clipping/symmetric_difference.py: symmetric_subtract_*", "rene/_clipping/shaped.py: Operation", "rene/_utils.py: collect_maybe_empty_polygons, collect_non_empty_polygons", "rene/_utils.py: locate_point_in_region", "rene/_geometries/base_polygon.py: BasePolygon.locate", "rene/_geometries/base_multipolygon.py: BaseMultipolygon.locate", "rene/_geometries/base_polygon.py: BasePolygon.__and__, __or__, __sub__, __xor__", "rene/_geometries/base_multipolygon.py: BaseMultipolygon.__and__, __or__, __sub__, __xor__", "rene/_geometries/base_empty.py: BaseEmpty.__and__, __or__, __sub__, __xor__"]}
{"id": "C62", "title": "Trapezoidation of a multisegment locates every point", "statement": "For every non-empty multisegment whose segments are not degenerate and meet only at points which are end points of both, and for every seed: `Trapezoidation.from_multisegment(multisegment, seeder=...)` raises no error, and for every point q of the plane `trapezoidation.locate(q)` equals `multisegment.locate(q)`, and `q in trapezoidation` is true if and only if q belongs to one of the segments.", "quantifier": "all such multisegments of any size, all seeds (all orders of insertion), all points of the plane, including the points on vertical lines through end points", "why_tests_cant": "The search graph depends on the order of insertion of the edges, of which there are n!, and correctness is a statement about all points of the plane; degenerate positions (common end points, equal abscissas) are where such code breaks.", "anchors": ["rene/_seidel/trapezoidation.py: Trapezoidation.from_multisegment, Trapezoidation.from_polygon, Trapezoidation._from_box, Trapezoidation.locate, Trapezoidation.__contains__", "rene/_seidel/trapezoidation.py: _add_edge, _add_edge_to_first_trapezoid, _add_edge_to_middle_trapezoid, _add_edge_to_last_trapezoid, _add_edge_to_single_trapezoid, _find_intersecting_trapezoids", "rene/_seidel/edge.py: Edge", "rene/_seidel/trapezoid.py: Trapezoid", "rene/_seidel/leaf.py, x_node.py, y_node.py: search_edge, locate", "rene/_geometries/base_multisegment.py: BaseMultisegment.locate"]}
{"id": "C63", "title": "Trapezoidation of a polygon: boundary, and independence of the seed", "statement": "For every valid polygon (with any holes) whose edges meet only at common end points, and for every seed: `Trapezoidation.from_polygon(polygon, seeder=...)` raises no error, and for every point q of the plane `trapezoidation.locate(q)` is BOUNDARY if and only if `polygon.locate(q)` is; and the location of no point depends on the seed. (Whether a point is INTERIOR or EXTERIOR is wrong in general, see C44.)", "quantifier": "all valid polygons of any size with any holes whose contours do not touch except at common vertices, all pairs of seeds, all points of the plane", "why_tests_cant": "The search graph depends on the order of insertion of the edges, of which there are n!; the statement is about all of them and about all points of the plane.", "anchors": ["rene/_seidel/trapezoidation.py: Trapezoidation.from_multisegment, Trapezoidation.from_polygon, Trapezoidation._from_box, Trapezoidation.locate, Trapezoidation.__contains__", "rene/_seidel/trapezoidation.py: _add_edge, _add_edge_to_first_trapezoid, _add_edge_to_middle_trapezoid, _add_edge_to_last_trapezoid, _add_edge_to_single_trapezoid, _find_intersecting_trapezoids", "rene/_seidel/edge.py: Edge", "rene/_seidel/trapezoid.py: Trapezoid", "rene/_seidel/leaf.py, x_node.py, y_node.py: search_edge, locate", "rene/_geometries/base_polygon.py: BasePolygon.locate"]}
{"id": "C64", "title": "Trapezoidation of a polygon: INTERIOR is sound, and missed exactly under and over closing edges", "statement": "For every valid polygon (with any holes) whose edges meet only at common end points, and for every seed, `Trapezoidation.from_polygon(polygon, seeder=...)` gives a trapezoidation such that for every point q: if `trapezoidation.locate(q)` is INTERIOR then `polygon.locate(q)` is INTERIOR; and if `polygon.locate(q)` is INTERIOR and no point strictly inside of an edge from the last to the first vertex of the border or of a hole can be seen from q through the inside of the polygon, then `trapezoidation.locate(q)` is INTERIOR. Conversely, every point q of the inside from which such a point, exactly over or under q, can be seen through the inside is located as EXTERIOR; and if no vertex is exactly over or under q, these are all the points of the inside located as EXTERIOR. Hence `trapezoidation.locate(q) == polygon.locate(q)` holds for all points q if and only if, in the border and in every hole, the last vertex is exactly over or under the first one. (C44 shows that the condition cannot be dropped: these closing edges get the wrong flag.)", "quantifier": "all valid polygons of any size with any holes whose contours touch at common vertices only, all seeds, all points of the plane", "why_tests_cant": "Soundness for all points of the plane and all n! orders of insertion; the flags of the closing edges are wrong, and that two of them never combine into a wrong INTERIOR is a fact about all polygons.", "anchors": ["rene/_seidel/trapezoidation.py: Trapezoidation.from_polygon, Trapezoidation.locate, _populate_from_contour", "rene/_seidel/trapezoid.py: Trapezoid (attribute is_component)", "rene/_seidel/edge.py: Edge (attribute interior_to_left)", "rene/_geometries/base_polygon.py: BasePolygon.locate"]}
{"id": "C65", "title": "Texts of geometries determine them", "statement": "For any two geometries of any kinds (empty, segment, multisegment, contour, polygon, multipolygon): if their `str` are equal (or their `repr` are equal) then they are of the same kind and have equal parts in the same order (coordinates, vertices, segments, holes, polygons), so no two different geometries are written alike; the same for two points and for two boxes. This holds for `str` and `repr` of fractions, and for any printer of scalars whose texts can be told apart from what follows them.", "quantifier": "all pairs of geometries of any size, nested to any length of lists, with any rational coordinates", "why_tests_cant": "Injectivity ranges over all pairs of geometries; an ambiguity of separators would show only for particular nestings.", "anchors": ["rene/_geometries/base_point.py: BasePoint.__repr__, __str__", "rene/_geometries/base_segment.py: BaseSegment.__repr__, __str__", "rene/_geometries/base_box.py: BaseBox.__repr__, __str__", "rene/_geometries/base_contour.py: BaseContour.__repr__, __str__", "rene/_geometries/base_multisegment.py: BaseMultisegment.__repr__, __str__", "rene/_geometries/base_polygon.py: BasePolygon.__repr__, __str__", "rene/_geometries/base_multipolygon.py: BaseMultipolygon.__repr__, __str__", "rene/_geometries/base_empty.py: BaseEmpty.__repr__"]}
{"id": "C66", "title": "The text of a geometry is an expression which rebuilds it", "statement": "For every geometry (empty, segment, multisegment, contour, polygon, multipolygon, also points and boxes) whose parts can be constructed without an exception (contours have at least 3 vertices, multisegments at least 2 segments, multipolygons at least 2 polygons; all geometries made through the constructors do): evaluating its `repr` as a Python expression, with the names of the classes bound to their constructors and the texts of coordinates to their values, gives back the same geometry: no constructor raises, no part is lost or exchanged.", "quantifier": "all geometries of any size and nesting with any rational coordinates", "why_tests_cant": "The round trip ranges over all geometries with lists of all lengths.", "anchors": ["rene/_geometries/base_*.py: __repr__, __str__", "rene/_exact/{point,segment,box,contour,multisegment,polygon,multipolygon,empty}.py: __new__", "rene/_constants.py"]}
