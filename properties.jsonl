{"id": "C01", "title": "divide_into_shapes always returns", "statement": "For every slice of vertex indices, divide_into_shapes terminates and returns a value: no internal assertion fires and no bit-vector or slice access is out of range.", "quantifier": "every finite list of indices (any length, odd lengths, duplicated edges, self edges, arbitrary gaps in the numbering)", "why_tests_cant": "The walk is a data dependent graph traversal with several exit conditions and asserts; the number of graphs is unbounded.", "anchors": ["src/shape.rs: divide_into_shapes, unwind_line, termination_candidate_nodes, SetVob"]}
{"id": "C02", "title": "divide_into_shapes invents no edge", "statement": "If the input contains no edge from a vertex to itself, then every two consecutive indices of every returned shape are the two ends of some edge of the input.", "quantifier": "every list of edges without self edges", "why_tests_cant": "Must hold for every graph; tests check five small graphs.", "anchors": ["src/shape.rs: divide_into_shapes, unwind_line"]}
{"id": "C03", "title": "divide_into_shapes loses and duplicates no edge", "statement": "If the input contains no self edge, every undirected input edge occurs exactly once as a pair of consecutive indices among all returned shapes (whatever its multiplicity or orientation in the input).", "quantifier": "every list of edges without self edges", "why_tests_cant": "Exact cover of an arbitrary edge set cannot be sampled.", "anchors": ["src/shape.rs: divide_into_shapes"]}
{"id": "C04", "title": "shapes are split exactly at junctions and dead ends", "statement": "Without self edges, every vertex strictly inside a returned shape has exactly two distinct neighbours in the input; a shape either starts and ends at vertices with a number of neighbours different from two, or its first and last index are equal (a loop).", "quantifier": "every list of edges without self edges", "why_tests_cant": "Depends on the global structure of the graph.", "anchors": ["src/shape.rs: divide_into_shapes, termination_candidate_nodes"]}
{"id": "C05", "title": "the returned bit vector marks exactly the two-way connected vertices", "statement": "Without self edges, the bit vector returned by divide_into_shapes has one bit for each index 0..=max index, and the bit of a vertex is set iff that vertex has exactly two distinct neighbours in the input.", "quantifier": "every list of edges without self edges", "why_tests_cant": "Relates the final traversal state to the degree of every vertex of every graph.", "anchors": ["src/shape.rs: divide_into_shapes"]}
{"id": "C06", "title": "duplicated edges and a trailing odd index do not change the shapes", "statement": "Repeating an edge (in either orientation) that already occurred earlier in the list, or appending one extra index that does not complete a pair, leaves the result of divide_into_shapes unchanged.", "quantifier": "every index list and every duplicate inserted after the original", "why_tests_cant": "Unbounded inputs.", "anchors": ["src/shape.rs: adjacency_map, divide_into_shapes"]}
{"id": "C07", "title": "simplify_rdp keeps end points and order (2D and 3D)", "statement": "The result of simplify_rdp is a subsequence of the input points in the original order that starts with the first and ends with the last input point; inputs of at most two points are returned unchanged. This holds whatever the coordinates are (including NaN and infinities) and for any distance predicate.", "quantifier": "every 2D or 3D line string, every threshold, every floating point behaviour", "why_tests_cant": "Unbounded recursion over arbitrary data including NaN.", "anchors": ["src/linestring_2d.rs: LineString2::simplify_rdp", "src/linestring_2d/simplify.rs: simplify_rdp_recursive", "src/linestring_3d.rs: LineString3::simplify_rdp", "src/linestring_3d/simplify.rs: simplify_rdp_recursive"]}
{"id": "C08", "title": "simplify_rdp error bound (2D)", "statement": "In exact arithmetic, every point dropped by the 2D simplify_rdp(d) lies at distance at most |d| from the segment between the two retained points that surround it.", "quantifier": "every line string and every predicate d", "why_tests_cant": "A geometric guarantee for every polyline and tolerance.", "anchors": ["src/linestring_2d.rs: simplify_rdp, distance_to_line_squared_safe", "src/linestring_2d/simplify.rs: simplify_rdp_recursive"]}
{"id": "C09", "title": "simplify_rdp error bound (3D)", "statement": "In exact arithmetic, every point dropped by the 3D simplify_rdp(d) lies at distance at most |d| from the infinite line through the two retained points that surround it (or from the point itself when they coincide).", "quantifier": "every 3D line string and every predicate d", "why_tests_cant": "A geometric guarantee for every polyline and tolerance.", "anchors": ["src/linestring_3d.rs: simplify_rdp, distance_to_line_squared_safe", "src/linestring_3d/simplify.rs: simplify_rdp_recursive"]}
{"id": "C10", "title": "simplify_rdp is idempotent", "statement": "Simplifying an already simplified line again with the same predicate changes nothing (for coordinates that never produce NaN).", "quantifier": "every line string (2D and 3D), every predicate", "why_tests_cant": "Quantifies over all inputs and relates two runs.", "anchors": ["src/linestring_2d.rs: simplify_rdp", "src/linestring_2d/simplify.rs: simplify_rdp_recursive", "src/linestring_3d.rs: simplify_rdp"]}
{"id": "C11", "title": "indexed RDP agrees with the plain RDP", "statement": "indexed_simplify_rdp_2d / indexed_simplify_rdp_3d over a list of at least two valid indices returns a subsequence of the indices, keeping the first and last, and the points it designates are exactly those the plain simplify_rdp returns for the line of the designated points (given more than two vertices in the vertex table).", "quantifier": "every vertex table, index list and predicate", "why_tests_cant": "Relates two separate implementations on every input.", "anchors": ["src/linestring_2d/simplify.rs: indexed_simplify_rdp_2d, indexed_simplify_rdp_recursive_2d", "src/linestring_3d/simplify.rs: indexed_simplify_rdp"]}
{"id": "C12", "title": "simplify_vw (2D) keeps order and the first point", "statement": "simplify_vw returns a subsequence of the input starting with the first point; an open line keeps also its last point; lines of fewer than three points are returned unchanged.", "quantifier": "every 2D line string without NaN areas, every number of points to delete, every tie breaking of the heap", "why_tests_cant": "Heap order and number of steps are unbounded.", "anchors": ["src/linestring_2d/simplify.rs: simplify_vw"]}
{"id": "C13", "title": "simplify_vw (2D) deletes exactly the possible number of points", "statement": "For an open line of n>=4 points simplify_vw(k) returns n-min(k,n-4) points (for n=3: 3-min(k,1)); for a closed line of n>=3 points it returns n-min(k,n-3) points.", "quantifier": "every line, every k", "why_tests_cant": "Exact count for every length and k; the 4-point limit for open lines is not covered by any test.", "anchors": ["src/linestring_2d/simplify.rs: simplify_vw"]}
{"id": "C14", "title": "simplify_vw is greedy", "statement": "The points are deleted one at a time, and each deleted point is one whose triangle area with its current neighbours is the smallest among all points still eligible for deletion at that moment.", "quantifier": "every line (2D and 3D), every k, every run of the priority queue", "why_tests_cant": "A refinement of an imperative heap algorithm with stale entries to an abstract greedy algorithm for every history.", "anchors": ["src/linestring_2d/simplify.rs: simplify_vw", "src/linestring_3d/simplify.rs: simplify_vw", "src/linestring_2d.rs: triangle_area_squared_times_4"]}
{"id": "C15", "title": "simplify_vw (3D) result size", "statement": "The 3D simplify_vw(k) of n>=3 points returns 1+(n-2-min(k,n-2)) points which form a subsequence of the input starting with the first point (the last point is never part of the result).", "quantifier": "every 3D line string, every k", "why_tests_cant": "All lengths and k.", "anchors": ["src/linestring_3d/simplify.rs: simplify_vw"]}
{"id": "C16", "title": "2D point to segment distance is exact", "statement": "In exact arithmetic distance_to_line_squared_safe(a,b,p) (2D) is the minimum of |p-q|^2 over all points q of the closed segment ab, and distance_to_line_squared agrees with it whenever a != b; it is symmetric in a and b.", "quantifier": "all a, b, p", "why_tests_cant": "A minimum over a continuum.", "anchors": ["src/linestring_2d.rs: distance_to_line_squared, distance_to_line_squared_safe"]}
{"id": "C17", "title": "3D point to line distance is exact", "statement": "In exact arithmetic distance_to_line_squared_safe(a,b,p) (3D) is the minimum of |p-q|^2 over all points q of the infinite line through a and b (of the single point a if a = b).", "quantifier": "all a, b, p", "why_tests_cant": "A minimum over a continuum.", "anchors": ["src/linestring_3d.rs: distance_to_line_squared, distance_to_line_squared_safe"]}
{"id": "C18", "title": "intersection_point is sound", "statement": "In exact arithmetic, if Line2::intersection_point returns a point then that point lies on both segments, and if it returns an overlap then both ends of the overlap lie on both segments.", "quantifier": "all pairs of segments, including degenerate ones", "why_tests_cant": "Continuum of inputs, several branches.", "anchors": ["src/linestring_2d.rs: Line2::intersection_point, intersect_line_point, precedes"]}
{"id": "C19", "title": "intersection_point is complete and precise", "statement": "In exact arithmetic, if two segments share at least one point then intersection_point returns Some; a returned single point is the only common point and a returned overlap is exactly the set of common points. Hence None iff the segments are disjoint.", "quantifier": "all pairs of segments, including degenerate ones", "why_tests_cant": "Continuum of inputs.", "anchors": ["src/linestring_2d.rs: Line2::intersection_point"]}
{"id": "C20", "title": "intersection_point is symmetric", "statement": "In exact arithmetic, a.intersection_point(b) is Some iff b.intersection_point(a) is Some and both denote the same set of points; reversing the direction of either segment does not change the denoted set. The returned values are even equal: an overlap is reported from left to right (upwards if vertical), whatever the directions of the segments.", "quantifier": "all pairs of segments", "why_tests_cant": "Continuum of inputs; relates several runs.", "anchors": ["src/linestring_2d.rs: Line2::intersection_point"]}
{"id": "C21", "title": "line string versus segment queries agree with the per segment test", "statement": "intersection returns the result for the first segment of the line string that meets the other segment, find_all_intersections returns one entry per meeting segment in order, and find_two_intersections returns up to two different common points; in exact arithmetic each of them reports nothing iff the line string and the segment are disjoint.", "quantifier": "every line string and segment", "why_tests_cant": "All inputs.", "anchors": ["src/linestring_2d.rs: LineString2::intersection, find_two_intersections, find_all_intersections"]}
{"id": "C22", "title": "closest_ray_intersection returns the nearest hit", "statement": "In exact arithmetic with a non zero ray direction, if closest_ray_intersection returns a point then that point is on the line string and on the ray at a positive parameter; and no other visible hit is strictly closer. If it returns None there is no visible hit at a positive parameter. (A hit is any common point of the ray and an edge; hits on an edge that is collinear with the ray are visible only if the whole edge lies strictly ahead of the origin.) So the result is exactly the nearest visible hit.", "quantifier": "every line string, origin and direction", "why_tests_cant": "Continuum of inputs, minimum over all edges.", "anchors": ["src/linestring_2d.rs: ray_edge_intersection, closest_ray_intersection"]}
{"id": "C23", "title": "Intersection::closest picks the nearer end", "statement": "closest(p) of an overlap returns one of its two ends and no end is strictly nearer to p; closest and single of a point intersection return that point.", "quantifier": "all overlaps and points", "why_tests_cant": "All inputs.", "anchors": ["src/linestring_2d.rs: Intersection::single, Intersection::closest"]}
{"id": "C24", "title": "is_self_intersecting on short lines", "statement": "For a line string of fewer than ten points is_self_intersecting returns Ok; with at most two points Ok(false). In exact arithmetic, if two non-adjacent segments have exactly one common point and it is not an end point of both, it returns Ok(true); and whenever it returns Ok(true) either two non-adjacent segments share a point that is not an end point of both or two consecutive segments were judged overlapping by the three point test. Exactly: Ok(true) iff the three point test fires for two consecutive segments or two non-adjacent segments meet and the leftmost (lowest) of their common points is not an end point of both.", "quantifier": "every line string with fewer than ten points", "why_tests_cant": "Continuum of inputs.", "anchors": ["src/linestring_2d.rs: is_self_intersecting, intersection_point3"]}
{"id": "C25", "title": "window_iter and chunk_iter enumerate the segments", "statement": "window_iter yields exactly len-1 segments (0 for an empty line); the i-th goes from point i to point i+1. chunk_iter yields floor(len/2) segments, the i-th from point 2i to point 2i+1, and remainder() is the unpaired last point if any. The reported len() is the number of segments still to be yielded and the size hints bracket it.", "quantifier": "every line string (2D and 3D)", "why_tests_cant": "All lengths.", "anchors": ["src/linestring_2d.rs: window_iter, chunk_iter, WindowIterator, ChunkIterator", "src/linestring_2d/impls.rs", "src/linestring_3d.rs: window_iter, chunk_iter", "src/linestring_3d/impls.rs"]}
{"id": "C26", "title": "discretize keeps the original points in order", "statement": "The sequence yielded by discretize contains every original point, in the original order (as a subsequence), starts with the first and ends with the last point; an empty line yields nothing and a single point yields itself.", "quantifier": "every line string (2D and 3D), every positive distance", "why_tests_cant": "Stateful iterator over arbitrary input.", "anchors": ["src/linestring_2d.rs: DiscreteLineSegmentIterator", "src/linestring_3d.rs: DiscreteLineSegmentIterator"]}
{"id": "C27", "title": "discretize step length", "statement": "In exact arithmetic with distance>0 any two consecutive points yielded by discretize are at most `distance` apart, all yielded points lie on the line string, and every segment of positive length L is divided into exactly ceil(L/distance) equal steps.", "quantifier": "every line string (2D and 3D), every positive distance", "why_tests_cant": "Continuum of inputs.", "anchors": ["src/linestring_2d.rs: DiscreteLineSegmentIterator", "src/linestring_3d.rs: DiscreteLineSegmentIterator"]}
{"id": "C28", "title": "2D/3D axis copies are reversible", "statement": "LineString2::copy_to_3d followed by LineString3::copy_to_2d with the same plane returns the original line, likewise Plane::point_to_3d followed by point_to_2d, and Line2::copy_to_3d followed by Line3::copy_to_2d; the coordinate orthogonal to the plane is zero.", "quantifier": "every line string, point, line, plane", "why_tests_cant": "All inputs.", "anchors": ["src/linestring_2d.rs: copy_to_3d, Line2::copy_to_3d", "src/linestring_3d.rs: Plane::point_to_3d, Plane::point_to_2d, copy_to_2d"]}
{"id": "C29", "title": "get_plane recognises axis aligned boxes", "statement": "In exact arithmetic Plane::get_plane(aabb) returns a plane iff the box exists and its extent is zero in exactly one axis, namely the axis orthogonal to the returned plane; get_plane_relaxed gives the same answer when its tolerances are exact.", "quantifier": "every aabb", "why_tests_cant": "All inputs.", "anchors": ["src/linestring_3d.rs: Plane::get_plane, get_plane_relaxed"]}
{"id": "C30", "title": "Aabb contains what it was built from and is minimal", "statement": "An Aabb2/Aabb3 built with with_points (or by any sequence of updates) contains every point it was fed (inclusive test), and any other box containing these points contains it; it is empty iff nothing was fed.", "quantifier": "every sequence of updates with points, point slices and boxes", "why_tests_cant": "All histories of updates.", "anchors": ["src/linestring_2d.rs: Aabb2", "src/linestring_3d.rs: Aabb3"]}
{"id": "C31", "title": "Aabb construction is order independent", "statement": "Feeding the same points in any order, with any repetition, and grouped in any way into update_with_point, update_with_points and update_with_aabb calls yields the same box.", "quantifier": "every two histories feeding the same set of points", "why_tests_cant": "All histories.", "anchors": ["src/linestring_2d.rs: Aabb2", "src/linestring_3d.rs: Aabb3"]}
{"id": "C32", "title": "Aabb containment tests", "statement": "contains_point_inclusive, contains_line_inclusive and contains_aabb_inclusive answer true iff (exact arithmetic) the point, the whole segment, respectively the whole other box is inside; nothing is contained in an empty box and an empty box is contained in nothing; containment of boxes is transitive.", "quantifier": "every box, point, segment and box", "why_tests_cant": "Continuum of inputs.", "anchors": ["src/linestring_2d.rs: Aabb2::contains_*", "src/linestring_3d.rs: Aabb3::contains_*"]}
{"id": "C33", "title": "Aabb2::convex_hull is a counter clockwise convex hull", "statement": "Aabb2::convex_hull returns a closed loop of five points starting at the minimum corner, all inside the box, and (for positive width and height) a point is inside the box iff it is on or left of each of the four edges.", "quantifier": "every aabb and every point", "why_tests_cant": "Continuum of inputs.", "anchors": ["src/linestring_2d.rs: Aabb2::convex_hull"]}
{"id": "C34", "title": "SimpleAffine transforms are inverse to each other", "statement": "In exact arithmetic, for the transform built from any two non empty boxes, transform_ba(transform_ab(p)) = p and transform_ab(transform_ba(p)) = p; the four-value array versions agree with the point versions; building with an empty box is an error.", "quantifier": "all pairs of boxes and all points", "why_tests_cant": "Continuum of inputs.", "anchors": ["src/linestring_2d.rs: SimpleAffine"]}
{"id": "C35", "title": "SimpleAffine maps the source box into the destination box", "statement": "In exact arithmetic, if both destination dimensions are at least 1, transform_ab maps every point in the source box into the destination box, and the center of the source box to the center of the destination box; the scaling is uniform and positive.", "quantifier": "all pairs of boxes and all points", "why_tests_cant": "Continuum of inputs.", "anchors": ["src/linestring_2d.rs: SimpleAffine::new, transform_ab"]}
{"id": "C36", "title": "graham_scan returns the convex hull", "statement": "In exact arithmetic, for at least four points that are not all equal (not counting a repeated loop point), graham_scan (LineString2::convex_hull) returns a closed loop whose vertices are input points, that makes a strict left turn at every vertex, and every input point is on or to the left of every edge. If all points are on one line the loop goes from one end to the other and back. In any arithmetic, NaN included, and for any number of points, the result is the error for points that cannot be compared or a list of input points, never a panic. Up to three points (a repeated loop point not counted) are returned unclosed, three of them ordered counter clockwise; the same holds for graham_scan_wo_atan2 and gift_wrap. Of five or more equal points the Graham scans return one, gift_wrap all.", "quantifier": "every list of points (at least four for the hull), every result of the unstable sort", "why_tests_cant": "Continuum of inputs, unbounded size.", "anchors": ["src/linestring_2d/convex_hull.rs: graham_scan, find_lowest_x, point_orientation", "src/linestring_2d.rs: convex_hull"]}
{"id": "C37", "title": "graham_scan_wo_atan2 returns the convex hull", "statement": "Same as for graham_scan, for the variant that sorts with orientation predicates instead of atan2. In any arithmetic the result is an error or a list of input points, and the only possible panic is the one inside the sort.", "quantifier": "every list of at least four points, every sorted result", "why_tests_cant": "Continuum of inputs, unbounded size.", "anchors": ["src/linestring_2d/convex_hull.rs: graham_scan_wo_atan2"]}
{"id": "C38", "title": "gift_wrap terminates and returns the convex hull", "statement": "gift_wrap terminates on every input (whatever the arithmetic does, including NaN) and its output consists of input points; in exact arithmetic, for at least four pairwise different points, the output is the closed convex hull (strict left turns, every input point on or left of every edge). With repeated points vertices of the hull can be lost.", "quantifier": "every list of points", "why_tests_cant": "Unbounded loop, continuum of inputs.", "anchors": ["src/linestring_2d/convex_hull.rs: gift_wrap"]}
{"id": "C39", "title": "indexed hulls designate input indices", "statement": "indexed_gift_wrap, indexed_graham_scan and convex_hull_par only return indices that are members of the given index list, for every thread schedule of the parallel version.", "quantifier": "every vertex table, index list, chunk size and reduction tree", "why_tests_cant": "All schedules of the parallel reduce.", "anchors": ["src/linestring_2d/convex_hull.rs: indexed_gift_wrap, indexed_graham_scan, convex_hull_par, combine_indexed_convex_hull"]}
{"id": "C40", "title": "indexed hulls are convex hulls", "statement": "In exact arithmetic, for pairwise different points, indexed_graham_scan and indexed_gift_wrap return closed index loops whose points form the convex hull (strict left turns, all points on or left of each edge). Two or three indices are returned closed as well. In any arithmetic, for indices inside of the vertex table, both return given indices or the error for points that cannot be compared, never a panic.", "quantifier": "every vertex table and index list with distinct points", "why_tests_cant": "Continuum of inputs.", "anchors": ["src/linestring_2d/convex_hull.rs: indexed_graham_scan, indexed_gift_wrap"]}
{"id": "C41", "title": "convex_hull_par: one chunk, several chunks", "statement": "In exact arithmetic, for at least four pairwise different points, if the chunk size is at least the number of indices convex_hull_par returns the same closed convex hull as indexed_graham_scan, for every shape of the reduction. With several chunks this fails: the result can depend on the schedule, lose points, not be convex, and the call may not terminate. Up to three indices are returned without closing index, in any arithmetic.", "quantifier": "every input and every reduction tree; counterexamples for several chunks", "why_tests_cant": "All schedules.", "anchors": ["src/linestring_2d/convex_hull.rs: convex_hull_par, combine_indexed_convex_hull"]}
{"id": "C42", "title": "contains_point_inclusive decides hull membership", "statement": "In exact arithmetic, for a closed strictly convex counter clockwise hull, contains_point_inclusive(p) is true iff p is on or left of every edge; these points are exactly the convex combinations of the vertices. LineString2::contains_point_inclusive is the same for a closed line and false for an open line. A hull of one point contains exactly that point, an empty hull nothing. In any arithmetic and for any list of points the containment tests return without panic.", "quantifier": "every strictly convex hull and every point", "why_tests_cant": "Continuum of inputs, binary search over unbounded size.", "anchors": ["src/linestring_2d/convex_hull.rs: contains_point_inclusive", "src/linestring_2d.rs: contains_point_inclusive"]}
{"id": "C43", "title": "contains_point_exclusive never accepts an outside or boundary point", "statement": "In exact arithmetic, for a closed strictly convex counter clockwise hull, contains_point_exclusive(p) is true exactly if p is strictly left of every edge and on no line through the second point of the loop and another of its vertices; interior points on such a line are all rejected. For the open list of the same vertices the lines go through its first point.", "quantifier": "every strictly convex hull and every point", "why_tests_cant": "Continuum of inputs.", "anchors": ["src/linestring_2d/convex_hull.rs: contains_point_exclusive"]}
{"id": "C44", "title": "contains_convex_hull tests all points", "statement": "contains_convex_hull(a,b) and contains_convex_hull_par(a,b) give the same answer for every schedule, and in exact arithmetic for a strictly convex hull a the answer is true iff every point of b is on or left of every edge of a. The parallel answer is the same for every schedule in any arithmetic and for any container. A container of at most one point contains nothing, not even the empty line, every longer one contains the empty line; an open segment contains no other line, a doubled point contains every line, a flat hull of a segment contains the lines on the infinite line through it.", "quantifier": "every pair of hulls, every schedule", "why_tests_cant": "All schedules, continuum of inputs.", "anchors": ["src/linestring_2d/convex_hull.rs: contains_convex_hull, contains_convex_hull_par"]}
{"id": "C45", "title": "sweep line rejects non finite input", "statement": "with_lines returns an error iff some coordinate of some line is not finite; otherwise it accepts and records every line with its end points.", "quantifier": "every list of lines", "why_tests_cant": "All inputs.", "anchors": ["src/linestring_2d/intersection.rs: IntersectionData::with_lines", "src/linestring_2d/indexed_intersection.rs"]}
{"id": "C46", "title": "sweep line reports only true intersections", "statement": "In exact arithmetic every position reported by the sweep line intersection algorithm (plain and indexed) lies on every line reported for that position.", "quantifier": "every set of lines, every event history", "why_tests_cant": "Event driven algorithm; unbounded number of events.", "anchors": ["src/linestring_2d/intersection.rs: IntersectionData::compute, handle_event, find_new_events", "src/linestring_2d/indexed_intersection.rs"]}
{"id": "C47", "title": "sweep line reports positions in sweep order without duplicates", "statement": "The positions reported by the sweep line algorithm are strictly increasing in the order (y, then x).", "quantifier": "every set of lines", "why_tests_cant": "All histories.", "anchors": ["src/linestring_2d/intersection.rs: compute, SiteEventKey"]}
{"id": "C48", "title": "sweep line terminates", "statement": "In exact arithmetic compute() terminates for every finite set of finite lines.", "quantifier": "every set of lines", "why_tests_cant": "Events generate events; termination is a global argument.", "anchors": ["src/linestring_2d/intersection.rs: compute, handle_event"]}
{"id": "C49", "title": "indexed sweep line preserves the vertices", "statement": "The vertices present before the indexed intersection computation are unchanged (same indices) afterwards; every reported vertex index is valid.", "quantifier": "every vertex table and edge list", "why_tests_cant": "All histories.", "anchors": ["src/linestring_2d/indexed_intersection.rs: IntersectionData::compute, handle_event"]}
{"id": "C50", "title": "parabolic arc end points", "statement": "If the discretization of a VoronoiParabolicArc finishes, the first and last points are exactly the start and end point of the arc.", "quantifier": "every arc, every max distance, every floating point behaviour", "why_tests_cant": "Unbounded subdivision.", "anchors": ["src/linestring_2d.rs: VoronoiParabolicArc::discretize_2d, discretize_3d"]}
{"id": "C51", "title": "parabolic arc points are equidistant", "statement": "In exact arithmetic every intermediate point generated by discretize_2d has the same distance to the cell point as to the line through the segment, and discretization terminates for max_dist>0 when the two end points have different projections on the segment.", "quantifier": "every arc whose cell point is not on the line through its segment", "why_tests_cant": "Continuum of inputs.", "anchors": ["src/linestring_2d.rs: VoronoiParabolicArc::discretize_2d"]}
{"id": "C52", "title": "save_to_obj_file writes a consistent file", "statement": "Every line record written by save_to_obj_file references two vertex records of the file whose text is the text of the end points of the corresponding segment, each distinct vertex text is written once, and vertex numbers start at 1. The text can be read back: a reader that splits it at line feeds and takes numbers apart at spaces recovers these records (if the object name has no line feed).", "quantifier": "every list of line strings", "why_tests_cant": "All inputs.", "anchors": ["src/linestring_3d.rs: save_to_obj_file"]}
{"id": "C53", "title": "approximate comparison of lines ignores direction", "statement": "abs_diff_eq / ulps_eq of Line2 are reflexive and identify a line with its reversal if the scalar comparison is reflexive and symmetric; with an exact scalar comparison they hold iff the two undirected segments have the same end points (so the direction of either line is irrelevant); Approx on Vec (2D and 3D) holds iff lengths agree and all points compare.", "quantifier": "all pairs of lines and line strings", "why_tests_cant": "All inputs.", "anchors": ["src/linestring_2d/impls.rs: AbsDiffEq, UlpsEq for Line2", "src/linestring_3d/impls.rs", "src/linestring_2d.rs: Approx"]}
{"id": "C54", "title": "simplify_rdp keeps exactly the points of the textbook algorithm", "statement": "In exact arithmetic simplify_rdp(d) keeps no interior point between two kept points if all are within |d| of the segment (3D: line) between them; otherwise it keeps the farthest one (the last of the farthest) and treats both halves in the same way. In particular nothing is kept without need.", "quantifier": "every line string of at least two points (2D and 3D), every predicate", "why_tests_cant": "Full functional characterisation of a recursion over a continuum of inputs.", "anchors": ["src/linestring_2d/simplify.rs: simplify_rdp_recursive", "src/linestring_3d/simplify.rs: simplify_rdp_recursive"]}
{"id": "C55", "title": "parabolic arc accuracy", "statement": "In exact arithmetic, if the end points of a VoronoiParabolicArc are equidistant from the cell point and the line of the segment and have different projections on it, the points of discretize_2d have strictly monotone projections on the segment, and every point of the arc is within max_dist of the line through the two consecutive output points around it. (The distance to the polyline itself is not bounded by max_dist.)", "quantifier": "every arc, every non zero max_dist, every point of the arc", "why_tests_cant": "Continuum of inputs and of points of the arc.", "anchors": ["src/linestring_2d.rs: VoronoiParabolicArc::discretize_2d"]}
{"id": "C56", "title": "sweep line reports shared end points", "statement": "In exact arithmetic, with ignore_end_point_intersections = false and stop_at_first_intersection = false, any two different lines that have a common end point are reported together at that position (plain and indexed version).", "quantifier": "every set of lines, every pair of lines, every iteration order of the hash set of active lines", "why_tests_cant": "Event driven algorithm with hash set iteration; all inputs.", "anchors": ["src/linestring_2d/intersection.rs: compute, handle_event, report_intersections_to_result", "src/linestring_2d/indexed_intersection.rs"]}
{"id": "C57", "title": "sweep line entries are sorted and name at least two lines", "statement": "In exact arithmetic every position reported by the sweep line algorithm comes with a sorted list of at least two line indices, without repetition if no line has length zero (plain and indexed version).", "quantifier": "every set of lines, every configuration", "why_tests_cant": "All inputs and histories.", "anchors": ["src/linestring_2d/intersection.rs: compute, handle_event, report_intersections_to_result"]}
{"id": "C58", "title": "sweep line configuration and is_self_intersecting of long line strings", "statement": "In exact arithmetic: with ignore_end_point_intersections every reported position is strictly inside one of the reported lines and on a second one; with stop_at_first_intersection at most one position is reported (plain and indexed version); by default both are off; is_self_intersecting of a line string of ten or more points terminates, and returns true only if two different edges have a common point that is strictly inside one of them.", "quantifier": "every set of lines, every line string, every iteration order of the hash set", "why_tests_cant": "All inputs and histories.", "anchors": ["src/linestring_2d/intersection.rs: compute, handle_event", "src/linestring_2d.rs: is_self_intersecting"]}
{"id": "C59", "title": "sweep line finds every intersection of lines in general position", "statement": "In exact arithmetic, if no line is horizontal, two different lines have at most one common point, no line begins (at the end that the sweep line meets first) inside another one, and no common point of two lines has the y of another common point or end point, then a point is common to two different lines iff the algorithm reports it for both of them (ignore_end_point_intersections = stop_at_first_intersection = false; plain and indexed version). Lines may end inside other lines. With ignore_end_point_intersections exactly the common points that are inside of some line are reported (if no line ends inside another one: exactly the crossings), with stop_at_first_intersection something is reported iff two lines have a common point that is not an end point of both (both for the plain and the indexed version), and is_self_intersecting of a line string of ten or more points is true iff two of its edges have such a point. Without these assumptions intersections are missed.", "quantifier": "every set of lines in general position, every iteration order of the hash set", "why_tests_cant": "Completeness of an event driven algorithm: a global invariant about all states.", "anchors": ["src/linestring_2d/intersection.rs: compute, handle_event, find_new_events, MinMax, MinMaxSlope", "src/linestring_2d/indexed_intersection.rs"]}
{"id": "C60", "title": "sweep line result does not depend on the iteration order of the hash set", "statement": "In exact arithmetic compute of IntersectionData returns the same positions with the same line indices whatever the order in which the hash set of active lines is iterated in each round (so two runs, two processes or two versions of the hasher agree); the same holds for is_self_intersecting of long line strings, and for the positions and line indices (not the numbering of new vertices) of IntersectionTester. If every edge goes upwards, or if the lines are in general position (as in C59) and the edges have any direction, IntersectionTester and IntersectionData agree with each other. Turning lines around never changes the result of IntersectionData (in any arithmetic, if the event queue tells the ends of the turned lines apart).", "quantifier": "every set of lines, every configuration, every pair of iteration orders", "why_tests_cant": "The iteration order of a randomly seeded hash set cannot be enumerated by tests; two run (relational) property.", "anchors": ["src/linestring_2d/intersection.rs: compute, handle_event, find_new_events, MinMax, MinMaxSlope", "src/linestring_2d/indexed_intersection.rs"]}
{"id": "C61", "title": "stop_at_first_intersection returns the first entry of the full result", "statement": "In exact arithmetic the result with stop_at_first_intersection is exactly the first entry of the result without it (empty if that is empty), whatever the iteration orders of the hash set in the two runs (plain and indexed version).", "quantifier": "every set of lines, both settings of ignore_end_point_intersections, every pair of iteration orders", "why_tests_cant": "Relation between two runs, all inputs.", "anchors": ["src/linestring_2d/intersection.rs: compute, handle_event", "src/linestring_2d/indexed_intersection.rs"]}
{"id": "C62", "title": "all convex hull algorithms agree", "statement": "In exact arithmetic the hull loop that starts at the lowest leftmost point is unique, so graham_scan depends on the set of the points only (not on their order, repetitions or the tie breaking of the unstable sort); graham_scan and graham_scan_wo_atan2 return the same list, so does gift_wrap if no point is repeated, and the indexed functions (indexed_graham_scan, indexed_gift_wrap, convex_hull_par with one chunk) return the indices of the same points in the same order. The hull of a hull with at least four corners is the same list again; the hull of a triangular hull is not (the closing point is lost).", "quantifier": "every list of at least four points that are not all equal, every permutation of it, every behaviour of the unstable sort", "why_tests_cant": "Relation between runs of different algorithms on all inputs.", "anchors": ["src/linestring_2d/convex_hull.rs: graham_scan, graham_scan_wo_atan2, gift_wrap, indexed_graham_scan, indexed_gift_wrap, convex_hull_par"]}
{"id": "C63", "title": "the returned hull spans the convex hull of the input", "statement": "In exact arithmetic the convex hull (smallest convex set) of the returned vertices is the convex hull of the input points, every input point is a convex combination of at most three returned vertices, and the bounding box (Aabb2) of the returned hull is the bounding box of the input.", "quantifier": "every list of at least four points that are not all equal", "why_tests_cant": "All inputs.", "anchors": ["src/linestring_2d/convex_hull.rs: graham_scan", "src/linestring_2d.rs: Aabb2::with_points"]}
{"id": "C64", "title": "convex_hull_par with several chunks returns the hull of points in general position", "statement": "In exact arithmetic, if all points differ, no three of them are on a line and no task of the parallel reduction folds more than one chunk (rayon has split the work completely), convex_hull_par terminates and returns the convex hull, closed and starting at the lowest leftmost point, for every number and size of chunks; it is the same index list as that of the sequential indexed_graham_scan. (Without either assumption points are lost, see C41.)", "quantifier": "every list of at least four points in general position, every chunk size, every such schedule", "why_tests_cant": "The merge of two hulls stops searching early; that this is right for all pairs of hulls and all trees of merges is an inductive geometric argument.", "anchors": ["src/linestring_2d/convex_hull.rs: convex_hull_par, combine_indexed_convex_hull", "src/linestring_2d.rs: convex_hull_par"]}
{"id": "C65", "title": "corners, extents, centre and equality of boxes", "statement": "In exact arithmetic low, high and min_max return the corners of the box, extents returns them together with their difference, center is the midpoint of the corners and is inside the box, all of them are None for an empty box, and two Aabb2 built from points compare equal iff contains_point_inclusive answers the same for every point.", "quantifier": "every box; for the last two statements every box built by any sequence of updates", "why_tests_cant": "All boxes and all probe points.", "anchors": ["src/linestring_2d.rs: Aabb2::{low, high, min_max, extents, center}", "src/linestring_3d.rs: Aabb3::{get_low, get_high, extents, center}", "src/linestring_2d/impls.rs: PartialEq for Aabb2"]}
{"id": "C66", "title": "apply on boxes", "statement": "If a function maps every axis by a monotone function (translation, scaling with non-negative factors) then apply turns the box of a set of points into the box of the mapped points, whatever the history of the box (2D and 3D). For other functions the corners may come out in the wrong order; such a box (also an Aabb3 made with from out of unordered corners) contains nothing.", "quantifier": "every history of a box, every monotone axis map, every point", "why_tests_cant": "All histories, functions and points.", "anchors": ["src/linestring_2d.rs: Aabb2::apply", "src/linestring_3d.rs: Aabb3::apply", "src/linestring_3d/impls.rs: From<[IT; 2]> for Aabb3, From<[T::Scalar; 6]> for Aabb3"]}
{"id": "C67", "title": "simplification commutes with similarity transforms", "statement": "apply replaces every point by its image. In exact arithmetic, for any map that scales all distances by a factor c>0 (translations, rotations, reflections, uniform scalings, SimpleAffine::transform_ab), simplify_rdp of the mapped line with tolerance c*d is the mapped result of simplify_rdp with tolerance d, and simplify_vw of the mapped line gives the mapped result (if entries of equal area are given out in the same order), 2D and 3D.", "quantifier": "every line, tolerance, number of points to delete, similarity map and heap behaviour", "why_tests_cant": "Relation between two runs, for all inputs and all maps.", "anchors": ["src/linestring_2d.rs: LineString2::apply, simplify_rdp, simplify_vw, SimpleAffine", "src/linestring_3d.rs: LineString3::apply", "src/linestring_2d/simplify.rs", "src/linestring_3d/simplify.rs"]}
{"id": "C68", "title": "orientation predicates", "statement": "In exact arithmetic cross_2d(a,b,c) is twice the signed area of the triangle, invariant under rotation of the arguments and antisymmetric under exchange; point_orientation is Left, Right or Collinear iff this area is positive, negative or the points are on one line; is_point_left and is_point_left_allow_collinear agree with point_orientation(..).is_left() and is_left_or_collinear().", "quantifier": "every triple of points", "why_tests_cant": "All triples.", "anchors": ["src/linestring_2d/convex_hull.rs: cross_2d, point_orientation, is_point_left, is_point_left_allow_collinear, Orientation"]}
{"id": "C69", "title": "intersect_line_point decides whether a point is on a segment", "statement": "In exact arithmetic (with exact square roots) intersect_line_point(line, p) is Some(p) if p is on the closed segment and None otherwise; scale_to_coordinate(a, b-a, t) is a + t(b-a).", "quantifier": "every segment (also of length zero) and point", "why_tests_cant": "All segments and points.", "anchors": ["src/linestring_2d.rs: intersect_line_point, scale_to_coordinate"]}
{"id": "C70", "title": "is_connected and point_count", "statement": "is_connected is true iff the line string is empty or its first and last points compare equal (2D and 3D); point_count is the number of points, less one for a closed line string of more than two points. Line3::apply maps both ends; lines made from arrays have the numbers as coordinates in order.", "quantifier": "every line string", "why_tests_cant": "All line strings.", "anchors": ["src/linestring_2d.rs: is_connected, point_count", "src/linestring_3d.rs: is_connected"]}
{"id": "C71", "title": "the orientation tests in floating point", "statement": "On f32 and f64 with IEEE rounding: for finite coordinates on a grid that is not too large or too fine for the precision (f64: for example integers up to 2^23, or multiples of 2^-20 up to 8), point_orientation, is_point_left and is_point_left_allow_collinear give the exact answer for the points the floats stand for. Below 2^-28 (f64) or 2^-13 (f32) every three points are reported collinear, because ulps_eq has an absolute tolerance; hulls then lose corners and contain points outside.", "quantifier": "every binary format, every grid within the stated bounds, every triple of points on it; every triple of tiny points", "why_tests_cant": "All floats, with rounding; tests sample a few.", "anchors": ["src/linestring_2d/convex_hull.rs: cross_2d, point_orientation, is_point_left, is_point_left_allow_collinear"]}
{"id": "C72", "title": "gift wrapping in floating point", "statement": "On f32 and f64 with IEEE rounding, for points on a grid as in C71 without repetitions, gift_wrap and indexed_gift_wrap terminate and return the convex hull of the points the floats stand for, closed, starting at the lowest leftmost one and made of input points.", "quantifier": "every binary format, grid and list of at least four different points on it", "why_tests_cant": "All inputs, with rounding.", "anchors": ["src/linestring_2d/convex_hull.rs: gift_wrap, indexed_gift_wrap"]}
{"id": "C73", "title": "graham_scan_wo_atan2 in floating point", "statement": "On f32 and f64 with IEEE rounding, for points on a grid as in C71 (repetitions allowed, not all equal), graham_scan_wo_atan2 returns the convex hull of the points the floats stand for, for every sorting function that sorts them by the function's comparison; such sorting functions exist.", "quantifier": "every binary format, grid, list of at least four points on it and correct sort", "why_tests_cant": "All inputs and all sort algorithms, with rounding.", "anchors": ["src/linestring_2d/convex_hull.rs: graham_scan_wo_atan2"]}
{"id": "C74", "title": "graham_scan in floating point", "statement": "On f32 and f64 with IEEE rounding, for points on a grid as in C71 (repetitions allowed, not all equal), graham_scan and LineString2::convex_hull return the convex hull of the points the floats stand for, if the atan2 of the platform is accurate to 2^(2-precision) and returns the same value for parallel directions; no other property of atan2 is needed.", "quantifier": "every binary format, grid, list of at least four points on it, atan2 with the stated accuracy, correct sort", "why_tests_cant": "All inputs, all mathematical libraries, with rounding.", "anchors": ["src/linestring_2d/convex_hull.rs: graham_scan", "src/linestring_2d.rs: LineString2::convex_hull"]}
{"id": "C75", "title": "containment in a convex hull in floating point", "statement": "On f32 and f64 with IEEE rounding, for a hull and points on a grid as in C71, contains_point_inclusive says exactly whether the point is left of or on every edge, contains_point_exclusive says exactly whether it is strictly left of every edge and on no diagonal through the second vertex, and contains_convex_hull (sequential and parallel) says exactly whether all points are contained.", "quantifier": "every binary format, grid, hull of at least three corners and point on it, every parallel schedule", "why_tests_cant": "All hulls and points, with rounding.", "anchors": ["src/linestring_2d/convex_hull.rs: contains_point_inclusive, contains_point_exclusive, contains_convex_hull, contains_convex_hull_par"]}
{"id": "C76", "title": "bounding boxes in floating point", "statement": "For all floats (NaN, infinities and signed zeros included), whatever calls built it: an axis of an Aabb2 goes from the least to the greatest coordinate fed that is not NaN (NaN if there is none), the box does not depend on order or grouping (up to the sign of zero), and every fed point without NaN is contained. The same for an Aabb3 if no NaN is fed, and always for Aabb3::with_points. The computed centre of a box with finite corners lies in the box if the sum of the corners does not overflow. A NaN fed first to an Aabb3 point by point stays; the centre of a box with huge corners is infinite and outside.", "quantifier": "every binary format, every history of calls, all floats", "why_tests_cant": "All histories and all floats including NaN.", "anchors": ["src/linestring_2d.rs: Aabb2", "src/linestring_3d.rs: Aabb3"]}
{"id": "C77", "title": "intersections of segments in floating point", "statement": "On f32 and f64 with IEEE rounding, for two segments with ends on a grid as in C71, none of them a point: intersection_point reports something exactly if the exact segments have a common point, reports a single point exactly if there is only one common point and an overlap exactly if there are more; the reported point and the ends of the reported overlap are within 32 * (largest coordinate) * 2^-precision of the exact ones, in each coordinate. Whether something is reported does not depend on the order or direction of the segments. If the exact common point is an end of the first segment it is reported without error; for ends of the second segment this is not so.", "quantifier": "every binary format, grid and pair of proper segments on it", "why_tests_cant": "All segments, with rounding.", "anchors": ["src/linestring_2d.rs: Line2::intersection_point"]}
{"id": "C78", "title": "points on segments in floating point", "statement": "On f32 and f64 with IEEE rounding and points on a grid as in C71: intersect_line_point accepts every point of the grid that lies on the segment and returns it unchanged; an accepted point satisfies |ap| + |pb| <= |ab| + 2^-precision * (16 |ab| + 4); for a segment that is a point only that point is accepted. If the unit of the grid is at least one and 1024 times the fourth power of the bound is at most 2^precision (f64: integers up to 1448), the test is exact, and intersection_point then reports something exactly if the two segments, points or not, have a common point. On larger grids points off the segment can be accepted.", "quantifier": "every binary format, grid, segment and point on it", "why_tests_cant": "All segments and points, with rounding.", "anchors": ["src/linestring_2d.rs: intersect_line_point", "src/linestring_2d.rs: Line2::intersection_point"]}
{"id": "C79", "title": "the sweep line in floating point", "statement": "On f32 and f64 with IEEE rounding, for all lines with finite end points, every configuration, every iteration order of the hash sets and every shape of the search trees: a result of compute (plain and indexed) consists of finite positions with sorted numbers of lines (at least two if one intersection was asked for), and InvalidData is reported only if two of the lines have a computed intersection that is not finite. If the search trees can be relied on (one node, or the comparison of positions is transitive on the end points and computed intersections), compute stops after a number of rounds that depends on the number of lines only, never panics, never reports another error, and every position has at least two lines. If the end points lie on a grid as in C71 and no line is a point (or the grid is small as in C78), InvalidData is never reported and every line listed for a position passes within (80 * largest coordinate + 9) * 2^-precision of it in each coordinate ((64 * largest coordinate + 6) * 2^-precision if the trees can be relied on). is_self_intersecting of long line strings answers under the same conditions. There are finite lines (close to the largest double) for which InvalidData is reported, and there are six segments with end points a few epsilon apart for which the emulated pop_first does not find the first event and compute fails with InternalError.", "quantifier": "every binary format, list of lines with finite ends, configuration, iteration order, tree shape", "why_tests_cant": "All inputs and schedules, with rounding; ulps_eq is not transitive.", "anchors": ["src/linestring_2d/intersection.rs: compute", "src/linestring_2d/indexed_intersection.rs: compute", "src/linestring_2d.rs: is_self_intersecting"]}
{"id": "C80", "title": "simplify_rdp in floating point", "statement": "On f32 and f64 with IEEE rounding, for coordinates on a grid as in C71 whose squares neither overflow nor become subnormal: simplify_rdp (2D and 3D) is the textbook algorithm for distances with a relative error of at most 3 (3D: 5) times 2^-precision and a threshold with a relative error of at most 2^-precision; every dropped point is within the tolerance of the segment (3D: line) that replaces it, up to the factor 1 + 8 * 2^-precision for the square; simplifying again with the same tolerance (whatever it is, also NaN) changes nothing. For very small coordinates squares are rounded to zero and a point can be dropped that is twice the tolerance away.", "quantifier": "every binary format, grid, list of points on it, and tolerance", "why_tests_cant": "All inputs, with rounding.", "anchors": ["src/linestring_2d/simplify.rs: simplify_rdp", "src/linestring_3d/simplify.rs: simplify_rdp", "src/linestring_2d.rs: Line2::distance_to_point_squared", "src/linestring_3d.rs: Line3::distance_to_point_squared"]}
{"id": "C81", "title": "simplify_vw in floating point", "statement": "On f32 and f64 with IEEE rounding, for all lines with finite coordinates up to 2^m, 2m + 3 < emax (f64: up to 2^510): simplify_vw (2D and 3D) does not panic and returns a subsequence with the first point and the number of points of C13 and C15, whatever the heap does with equal keys. On a grid as in C80 the point deleted next is one whose triangle has the least exact area (3D: the least up to the factor 1 + 8 * 2^-precision for the square). Finite coordinates of about 2^600 make it panic, and for very small coordinates all areas are rounded to zero and a point with a larger area may be deleted first.", "quantifier": "every binary format, all finite points below the bound, every number of points to delete, every heap", "why_tests_cant": "All inputs and heap layouts, with rounding.", "anchors": ["src/linestring_2d/simplify.rs: simplify_vw", "src/linestring_3d/simplify.rs: simplify_vw", "src/linestring_2d.rs: triangle_area_squared_times_4", "src/linestring_3d.rs: triangle_area_squared_times_4"]}
{"id": "C82", "title": "intersections of line strings with segments in floating point", "statement": "On f32 and f64 with IEEE rounding, for line strings and segments with coordinates on a grid as in C71, none of the segments a point (or on a small grid as in C78): intersection returns None exactly if the line string and the segment have no common point, otherwise the intersection with the first edge that meets the segment; find_all_intersections has one entry for every edge that meets it, in order; find_two_intersections reports nothing exactly if there is no common point, one point only if all common points are that point up to the error, and otherwise two different points near common points. The error is the one of C77. Two different floats can be reported for one common point.", "quantifier": "every binary format, grid, line string and segment on it", "why_tests_cant": "All line strings and segments, with rounding.", "anchors": ["src/linestring_2d.rs: LineString2::intersection", "src/linestring_2d.rs: find_two_intersections", "src/linestring_2d.rs: find_all_intersections"]}
{"id": "C83", "title": "self intersection of short line strings in floating point", "statement": "On f32 and f64 with IEEE rounding, for line strings of fewer than ten points on a small grid as in C78: two edges that are not neighbours and have exactly one common point, not an end of both, make is_self_intersecting answer true; if it answers true, there are two such edges with a common point that is not an end of both, or three consecutive points that meet the (mistyped) three point test of C24 for their exact values. The three point test decides about exact slopes for all points on a grid as in C71 (equal slopes are never missed, different ones never confused; a zero denominator gives an infinite slope), if the middle ordinate is not a negative zero. If no slope has a zero denominator the answer is the one of exact arithmetic. A negative zero can change the answer.", "quantifier": "every binary format, grid, line string of fewer than ten points on it", "why_tests_cant": "All line strings, with rounding, infinite slopes and signed zeros.", "anchors": ["src/linestring_2d.rs: is_self_intersecting", "src/linestring_2d.rs: Line2::intersection_point3"]}
{"id": "C84", "title": "discretize in floating point", "statement": "On f32 and f64 with IEEE rounding, for line strings with coordinates on a grid as in C71 and a positive distance for which no segment gets more steps than the precision can count: discretize (2D and 3D) divides every segment into equal parts whose number is the least sufficient one up to a relative error of 3 * 2^-precision in the length; every returned point is the exact division point up to 6 * 2^-precision times the largest coordinate, all points of the line string are returned in order with their exact values, the last one at the end, and consecutive points are at most the distance apart, up to rounding. A NaN, infinite or negative distance, and one so large that the quotient underflows, loses all points but the last; the distance zero, or coordinates whose squared difference overflows, yield 2^64 - 1 copies of the first point.", "quantifier": "every binary format, grid, line string on it and distance", "why_tests_cant": "All line strings and distances, with rounding, overflow and underflow.", "anchors": ["src/linestring_2d.rs: DiscreteLineSegmentIterator", "src/linestring_3d.rs: DiscreteLineSegmentIterator", "src/linestring_2d.rs: discretize", "src/linestring_3d.rs: discretize"]}
{"id": "C85", "title": "indexed_graham_scan and convex_hull_par in floating point", "statement": "On f32 and f64 with IEEE rounding and an atan2 as in C74, for vertices on a grid as in C71 where different indices mean different points: indexed_graham_scan returns the hull loop of the indexed points, starting with the lowest of them; convex_hull_par with all indices in one chunk returns the same for every schedule; with several chunks and no three points on a line it does so if every task folds one chunk; the same for LineString2::convex_hull_par.", "quantifier": "every binary format, grid, list of vertices on it, list of indices, chunk size, sort and (complete) schedule", "why_tests_cant": "All inputs and schedules, with rounding.", "anchors": ["src/linestring_2d/convex_hull.rs: indexed_graham_scan", "src/linestring_2d/convex_hull.rs: convex_hull_par", "src/linestring_2d/convex_hull.rs: combine_indexed_convex_hull", "src/linestring_2d.rs: LineString2::convex_hull_par"]}
{"id": "C86", "title": "distances in floating point", "statement": "On f32 and f64 with IEEE rounding, for points with coordinates on a grid as in C80: distance_to_line_squared_safe (2D: to the segment; 3D: to the line) is finite and has a relative error of at most 3 (3D: 5) times 2^-prec, and is zero exactly if the point is on the segment (line); so is distance_to_line_squared in 2D if the ends differ. For all floats, also infinite and NaN ones, no computed squared distance is negative; for equal finite ends distance_to_line_squared is NaN.", "quantifier": "every binary format, grid and three points on it; all floats for the last two claims", "why_tests_cant": "All points, with rounding, cancellation, underflow and special values.", "anchors": ["src/linestring_2d.rs: distance_to_line_squared", "src/linestring_2d.rs: distance_to_line_squared_safe", "src/linestring_3d.rs: distance_to_line_squared", "src/linestring_3d.rs: distance_to_line_squared_safe"]}
{"id": "C87", "title": "SimpleAffine in floating point", "statement": "On f32 and f64 with IEEE rounding, for two boxes with corners on a grid as in C71 (any order of the corners): new succeeds, and for every finite point up to twice the extent of the grid transform_ab and transform_ba succeed and differ from the exact map by at most 2^-prec times (|image| + 4 |image - centre|), plus the smallest positive number. Points of the source box land in the destination box (sides at least 1) enlarged by 6 * 2^-prec of the largest coordinate, and come back with an error of at most 2^-prec (|p| + (5 + 2 |c| / D) S). For all floats: what the functions return is finite. The errors do occur (a corner leaves the destination; a corner does not come back), and a source box whose size overflows collapses to a point without an error.", "quantifier": "every binary format, grid, pair of boxes on it and finite point; all floats for finiteness", "why_tests_cant": "All boxes and points, with rounding and underflow.", "anchors": ["src/linestring_2d.rs: SimpleAffine::new", "src/linestring_2d.rs: SimpleAffine::transform_ab", "src/linestring_2d.rs: SimpleAffine::transform_ba"]}
{"id": "C88", "title": "VoronoiParabolicArc in floating point", "statement": "On f32 and f64 with IEEE rounding, for a segment and a cell point on a grid as in C71 that are not collinear: every point that discretize_2d returns between the end points, if it is finite, is close to a point P with exactly the same distance to the line through the segment as to the cell point: each coordinate differs by at most 2^-prec times (10 times the distance of P to the start of the segment in the 1-norm, plus the coordinate of P); the same for the first two coordinates in discretize_3d. Both functions never return if the tolerance is NaN, if the start and the end of the arc are equal or (on the grid) have the same projection on the segment, if the segment is a point, if the cell point is the start of the segment or (on the grid) on its line; and, even for a positive tolerance and coordinates below 60, f32 rounding can make them loop forever.", "quantifier": "every binary format, grid, arc on it, tolerance and number of rounds; all floats for NaN tolerance, equal ends, point segment and cell point at the start", "why_tests_cant": "All arcs and tolerances, with rounding and special values; that a loop never ends.", "anchors": ["src/linestring_2d.rs: VoronoiParabolicArc::discretize_2d", "src/linestring_2d.rs: VoronoiParabolicArc::discretize_3d", "src/linestring_2d.rs: parabola_y", "src/linestring_2d.rs: point_projection"]}
{"id": "C89", "title": "closest_ray_intersection in floating point", "statement": "On f32 and f64 with IEEE rounding, with the points of the line, the origin and the direction (not zero) on a grid as in C71: closest_ray_intersection answers None only if the exact ray has no visible hit (C22) with the exact line string, and a returned point is finite and differs in each coordinate by at most 32*B*2^s*2^-prec (gridError) from a point of the exact ray at a parameter t > 0 that lies on the line string, with t at most the parameter of every visible hit. With a zero direction the answer is None whatever the other numbers are (also NaN and infinities). Off the grid the first part is false: in f32 a ray can slip through a vertex of the line.", "quantifier": "every binary format, grid, line string, origin and direction on it; all floats for the zero direction", "why_tests_cant": "All lines, rays and roundings.", "anchors": ["src/linestring_2d.rs: LineString2::closest_ray_intersection", "src/linestring_2d.rs: LineString2::ray_edge_intersection"]}
{"id": "C90", "title": "simplifications are nested", "statement": "With a larger tolerance (in absolute value) simplify_rdp (2D, 3D and the indexed versions) keeps a subsequence of what it keeps with a smaller one, in exact arithmetic and on f32/f64 for all coordinates including NaN and infinities; simplifying first with the smaller and then with the larger tolerance gives the same as simplifying once with the larger one (exact; on f32/f64 if no computed distance is NaN). A NaN tolerance removes nothing. simplify_vw(n) with a larger n keeps a subsequence of what a smaller n keeps, for any arithmetic and any behaviour of the priority queue. A point with a NaN coordinate can hide other points from simplify_rdp: a point far off the line is dropped.", "quantifier": "every line string, index list, pair of tolerances or counts, priority queue behaviour", "why_tests_cant": "Pairs of runs over all inputs.", "anchors": ["src/linestring_2d.rs: LineString2::simplify_rdp", "src/linestring_3d/simplify.rs: simplify_rdp", "src/linestring_2d/simplify.rs: indexed_simplify_rdp", "src/linestring_2d/simplify.rs: simplify_vw", "src/linestring_3d/simplify.rs: simplify_vw"]}
{"id": "C91", "title": "shared end points are reported in floating point", "statement": "For segments on f32/f64 whose coordinates are multiples of a power of two of bounded size, and search trees that can be relied on (as in C79), the sweep with end points (ignore_end_point_intersections off, stop_at_first off) never fails, and if two segments have an end point with the same value then both are listed in one result entry, at a position that differs from that end point by at most a stated bound in each coordinate (of the size of a few ulps). The same holds for the indexed version (the end point may have two numbers), and so for every inner vertex of a line string. Away from such a grid a common end point may be lost: there are four segments of doubles two of which start in the bitwise same point and only one of the two is reported.", "quantifier": "every list of segments on a grid, hash set order, shape of the search trees, pair of lines with a common end point", "why_tests_cant": "The claim ranges over all inputs, hash orders and tree shapes; the counterexample needs coordinates at the size of the tolerance.", "anchors": ["src/linestring_2d/intersection.rs: IntersectionData::with_lines, compute, handle_event, report_intersections_to_result, SiteEventKey::partial_cmp", "src/linestring_2d/indexed_intersection.rs: IntersectionTester::with_edges, compute, handle_event"]}
{"id": "C92", "title": "the division into shapes depends only on the set of undirected edges", "statement": "Without self edges, the shapes and the marks of divide_into_shapes do not depend on the order of the edges, on the direction in which an edge is given, on repetitions, or on the numbers of the vertices: two index lists with the same undirected edges give the same marks, and their shapes correspond one to one, each pair being the same path up to its direction and, for a loop, its starting vertex; renaming the vertices by an injective map renames the shapes in the same sense. No other list of paths satisfies C02-C04.", "quantifier": "every pair of index lists with the same edges, every injective renaming, every other division", "why_tests_cant": "Pairs of runs over all inputs.", "anchors": ["src/shape.rs: divide_into_shapes", "src/shape.rs: unwind_line", "src/shape.rs: adjacency_map", "src/shape.rs: termination_candidate_nodes"]}
{"id": "C93", "title": "hulls and containment fit together", "statement": "In exact arithmetic, for at least four points not all on one line: contains_point_inclusive on the hull that was computed from them answers true exactly for their convex combinations, in particular for every input point, and whenever contains_point_exclusive does; contains_convex_hull of the hulls of two sets says exactly whether all points of the second are convex combinations of points of the first, so the hull of more points contains the hull of fewer; it is reflexive, transitive, and hulls that contain each other are the same list. On f32/f64 with points on a grid as in C71 convex_hull followed by the containment tests gives the same answers.", "quantifier": "every list of points, every pair and triple of hulls, every point; every grid on floats", "why_tests_cant": "Compositions of calls over all inputs.", "anchors": ["src/linestring_2d.rs: LineString2::convex_hull", "src/linestring_2d.rs: LineString2::contains_point_inclusive", "src/linestring_2d/convex_hull.rs: contains_point_inclusive", "src/linestring_2d/convex_hull.rs: contains_convex_hull", "src/linestring_2d/convex_hull.rs: graham_scan"]}
{"id": "C94", "title": "what is computed does not depend on the coordinate system", "statement": "In exact arithmetic, for every affine map of the plane with non zero determinant (moves, rotations, mirror images, shears, scalings): intersection_point, intersection and find_all_intersections on the mapped arguments give the mapped results, one for one and in the same order (the ends of an overlap may be swapped); closest_ray_intersection gives the mapped point when the direction is mapped too; the convex hull of the mapped points has exactly the mapped edges, in the same direction if the determinant is positive and in the opposite one if it is negative; the sweep reports the mapped points with the same lines, in general position; after a translation and positive uniform scaling it does so for any lines (plain and indexed, with every setting), and is_self_intersecting of ten points and more gives the same answer. If the determinant is positive all containment tests give the same answer on any loop, hull or not. After a translation and positive scaling the hull is the mapped hull vertex by vertex, for gift_wrap on any input. discretize commutes with every map that scales distances by c if the step is scaled by c, in 2D and 3D, and the discretization of the reversed line is the reversed one. is_self_intersecting of fewer than ten points is different: moving or mirroring the line can change its answer.", "quantifier": "every non degenerate affine map (every similarity), all segments, line strings, loops, points, step sizes, results of the unstable sort, iteration orders and tree shapes", "why_tests_cant": "Continuum of maps and inputs, unbounded sizes; relates two runs.", "anchors": ["src/linestring_2d.rs: Line2::intersection_point, intersection, find_all_intersections, closest_ray_intersection, contains_point_inclusive, convex_hull, discretize, is_self_intersecting", "src/linestring_2d/convex_hull.rs: contains_point_inclusive, contains_convex_hull, gift_wrap, graham_scan", "src/linestring_2d/intersection.rs: IntersectionData::compute", "src/linestring_3d.rs: discretize"]}
{"id": "C95", "title": "length, extent and size of simplified and discretized line strings", "statement": "Over the real numbers discretize(d) keeps the length of the line string, yields at least length/d + 1 points and at most length/d plus the number of points of the line, does not change the bounding box, returns a line string whose segments are not longer than d unchanged, and is idempotent. simplify_rdp and simplify_vw never make a line longer, simplify_rdp not shorter than the distance between its ends, and the bounding box of the result is contained in the bounding box of the line. 2D and 3D.", "quantifier": "every line string, distance, tolerance, number of points to delete, order of equal areas", "why_tests_cant": "Continuum of inputs, unbounded sizes; an inequality that must hold for all of them.", "anchors": ["src/linestring_2d.rs: LineString2::discretize, DiscreteLineSegmentIterator", "src/linestring_3d.rs: LineString3::discretize", "src/linestring_2d.rs: LineString2::simplify_rdp, Aabb2::with_points, contains_aabb", "src/linestring_2d/simplify.rs: simplify_vw", "src/linestring_3d/simplify.rs: simplify_rdp, simplify_vw"]}
{"id": "C96", "title": "the Debug text of numbers, lines and boxes is faithful", "statement": "The Debug text of a Line2 is (x,y)-(x,y), of a Line3 (x,y,z)-(x,y,z), of an Aabb2 Aabb2[(x,y)-(x,y)] or Aabb2[None]; every finite number in it is an optional minus sign, digits, one decimal point and digits, whole numbers are written out with .0, NaN and the infinities without a point. If the standard library's Display of floats keeps its promises (round trip, sign, nearest), every line and box can be read back from its text bit for bit, including the sign of zero; so different lines have different texts. An overlap is never printed like a point if the vector type's own text does not begin with a parenthesis; the texts of VertexIndex and SiteEventKey show all fields.", "quantifier": "every float including NaN, infinities, signed zeros and subnormals, in every binary format; every line and box; every Display that keeps the promises", "why_tests_cant": "All floats, and all admissible standard library texts.", "anchors": ["src/lib.rs: format_float", "src/linestring_2d/impls.rs: Debug for Line2, Aabb2, Intersection", "src/linestring_3d/impls.rs: Debug for Line3", "src/linestring_2d/convex_hull/impls.rs: Debug for VertexIndex", "src/linestring_2d/indexed_intersection.rs: Debug for SiteEventKey"]}
{"id": "C97", "title": "simplification without ties depends neither on the direction of the line nor on the priority queue", "statement": "If no two points between two others are equally far (beyond the tolerance) from the segment (3D: line) between these, simplify_rdp of the reversed line string is the reversed result, and indexed_simplify_rdp of the reversed indices the reversed result, in exact arithmetic. If no two triangles of points in the order of the line have areas that compare equal and no point is repeated, simplify_vw of an open line string returns the same for every behaviour of the priority queue (2D and 3D, floats included), and of the reversed line the reversed result (2D in exact arithmetic; 3D, counting the last point that it drops, in exact arithmetic and on f32/f64, where the computed 3D area does not depend on the direction; the computed 2D area does). With ties the direction matters.", "quantifier": "every line string without ties, tolerance, number of points to delete, pair of priority queue behaviours", "why_tests_cant": "Relates two runs on all inputs.", "anchors": ["src/linestring_2d.rs: LineString2::simplify_rdp, simplify_vw", "src/linestring_2d/simplify.rs: simplify_rdp_recursive, simplify_vw", "src/linestring_3d/simplify.rs: simplify_rdp, simplify_vw"]}
{"id": "C98", "title": "the vertex list that the indexed sweep returns", "statement": "If IntersectionTester::compute returns, the returned vertices are the given ones, in their places and unchanged, followed by new ones; every new vertex has finite coordinates and is the point computed by intersection_point for two of the edges; every reported index is valid, and is the index of a new vertex or of an end of an edge (in every arithmetic). In exact arithmetic a reported index is an old one exactly if an edge ends at its position, every new vertex is a common point of two different edges, and with the default options the position of every new vertex is reported for two edges through it. A vertex is also added where one exists already, so the list can contain unused duplicates.", "quantifier": "every vertex list, edge list, options, iteration order of the hash set, shape of the search trees; all floats for the first part", "why_tests_cant": "All inputs and all schedules of the hash set and the trees.", "anchors": ["src/linestring_2d/indexed_intersection.rs: IntersectionTester::compute, find_new_events, add_intersection_event"]}
{"id": "C99", "title": "2D and 3D functions agree on line strings in a coordinate plane", "statement": "For a 2D line string copied to 3D with copy_to_3d (any plane): discretize of the copy is the copy of the discretization and the corners of the bounding box of the copy are the copies of the corners, in exact arithmetic and bit for bit on all floats and distances; is_connected is the same; simplify_rdp gives the copy of the 2D result if in all triangles of points in the order of the line the angles at the first and last point are not obtuse (otherwise the 3D version, which measures from infinite lines, can drop more); simplify_vw of an open line gives the copy of the 2D result without its last point as long as four points are left. get_plane of the bounding box of a 3D line string finds a plane exactly if all points agree in the coordinate orthogonal to it and in no other one; copying to 2D and back then changes nothing but that coordinate, which becomes zero.", "quantifier": "every 2D and 3D line string, plane, distance, tolerance, number of points to delete and priority queue behaviour; all floats for discretize and boxes", "why_tests_cant": "Relates two implementations over all inputs.", "anchors": ["src/linestring_2d.rs: LineString2::copy_to_3d, discretize, simplify_rdp, simplify_vw, is_connected", "src/linestring_3d.rs: LineString3::copy_to_2d, discretize, is_connected, Plane::get_plane, Aabb3::with_points", "src/linestring_2d/simplify.rs: simplify_vw", "src/linestring_3d/simplify.rs: simplify_rdp, simplify_vw"]}
{"id": "C100", "title": "indexed_graham_scan_no_loop and its start index", "statement": "indexed_graham_scan_no_loop returns the result of indexed_graham_scan without the closing index. In any arithmetic and for indices and start inside of the vertex table it never panics, returns given indices (and the start), and gives the same result with the first index of that result as explicit start. In exact arithmetic, for pairwise different points, the index of the lowest leftmost point as start therefore gives the convex hull; any other start can give a loop that crosses itself.", "quantifier": "every vertex table, index list, start index, sort result; any arithmetic for the first part", "why_tests_cant": "Continuum of inputs, unbounded size.", "anchors": ["src/linestring_2d/convex_hull.rs: indexed_graham_scan_no_loop, indexed_graham_scan"]}
{"id": "C101", "title": "queries do not depend on the direction of a line string", "statement": "Reversing a line string reverses the segments of window_iter and exchanges their ends. In exact arithmetic find_all_intersections with a segment returns the same list in the opposite order, intersection and find_two_intersections report none, one or two points as before (a single point is the same one), closest_ray_intersection returns the same point (direction not zero); is_connected, point_count, the bounding box and convex_hull do not change. is_self_intersecting of fewer than ten points gives the same answer if the three point test of consecutive segments does not depend on the direction; it can (finding 45).", "quantifier": "every line string, segment, origin and non zero direction; for the hull every list of at least four points not all equal", "why_tests_cant": "Relates two runs on a continuum of inputs.", "anchors": ["src/linestring_2d.rs: window_iter, find_all_intersections, intersection, find_two_intersections, closest_ray_intersection, is_self_intersecting, is_connected, point_count, convex_hull", "src/linestring_3d.rs: window_iter, is_connected"]}
{"id": "C102", "title": "the order in which lines and edges are given does not matter to the sweep", "statement": "In exact arithmetic IntersectionData::compute run on the same lines in another order (each line in either direction) finds the same positions in the same order, and at each position the same lines under their new numbers, whatever the hash order, the tree shapes and the settings of ignore_end_point_intersections and stop_at_first_intersection. The indexed version finds the same positions and edges when the edges and the vertex table are rearranged (edge directions kept). Hence is_self_intersecting of a line string of ten points or more does not depend on its direction.", "quantifier": "every list of lines or edges, every rearrangement, hash order, tree shape and setting", "why_tests_cant": "Relates two runs; rearrangements and hash orders are unbounded.", "anchors": ["src/linestring_2d/intersection.rs: IntersectionData::with_lines, compute", "src/linestring_2d/indexed_intersection.rs: IntersectionTester::with_edges, compute", "src/linestring_2d.rs: LineString2::is_self_intersecting"]}
{"id": "C103", "title": "simplified lines are near as curves", "statement": "In exact arithmetic every point of the original 2D line string, not only its vertices, lies within |d| of a point of the line returned by simplify_rdp(d), and every point of the returned line lies within |d| of a point of the original. In 3D every point of the returned line lies within |d| of the original, and every point of the original lies within |d| of the infinite line through two consecutive returned points. On f32 and f64 with IEEE rounding the same holds for points on a grid as in C80 and finite d, with d squared replaced by (1 + 8/2^precision) d squared.", "quantifier": "every line string in 2D and 3D and every predicate d", "why_tests_cant": "There are infinitely many points on the lines, and infinitely many lines.", "anchors": ["src/linestring_2d.rs: LineString2::simplify_rdp", "src/linestring_3d.rs: LineString3::simplify_rdp"]}
{"id": "C104", "title": "a network divided into shapes and simplified", "statement": "If divide_into_shapes is run on the edges of a network without self edges and indexed_simplify_rdp_2d (or _3d) on every shape, with any tolerance and in any arithmetic, every call succeeds; every junction and dead end is still an end of a line; two simplified lines meet only in such vertices and only in their ends; two remaining vertices are connected by the simplified lines exactly if they were connected by the edges. In exact arithmetic in 2D every point of the network is within |d| of the simplified network and the other way round (3D: every point of the simplified network is within |d| of the network); on f32 and f64 with IEEE rounding and coordinates on a grid as in C80 the same holds with (1 + 8 * 2^-precision) d^2 for the square of the distance.", "quantifier": "every vertex table of more than two vertices, every list of edges with valid indices, every tolerance", "why_tests_cant": "Relates two functions run one after the other, for all graphs.", "anchors": ["src/shape.rs: divide_into_shapes", "src/linestring_2d/simplify.rs: indexed_simplify_rdp", "src/linestring_3d/simplify.rs: indexed_simplify_rdp"]}
{"id": "C105", "title": "simplify_rdp does not see inserted points", "statement": "In exact arithmetic simplify_rdp(d) returns the same line for a line string and for the line string with any points of its segments inserted (strictly between the ends, in any number and order), in 2D and 3D. The same holds for indexed_simplify_rdp (2D and 3D) with inserted indices. In particular simplify_rdp(d) after discretize(step) returns what simplify_rdp(d) returns for the original.", "quantifier": "every line string, every choice of inserted points, every step > 0 and tolerance d", "why_tests_cant": "Relates two runs on inputs of different, unbounded size; the farthest point must be the same in every recursive call.", "anchors": ["src/linestring_2d.rs: LineString2::simplify_rdp, discretize", "src/linestring_3d.rs: LineString3::simplify_rdp, discretize"]}
{"id": "C106", "title": "points inside of the hull do not matter", "statement": "In exact arithmetic graham_scan and LineString2::convex_hull return the same loop when points are added that are convex combinations of the given points, or when points that are not corners of the hull are left out. Hence the hull of a discretized line string is the hull of the line string, and the hull of two point sets together is the hull of the corners of their two hulls.", "quantifier": "every list of at least four points that are not all equal, every choice of further points, every behaviour of the unstable sort", "why_tests_cant": "Relates runs on different inputs of unbounded size.", "anchors": ["src/linestring_2d/convex_hull.rs: graham_scan", "src/linestring_2d.rs: LineString2::convex_hull, discretize"]}
{"id": "C107", "title": "a line string can be processed in parts", "statement": "Cut a line string at one of its vertices into two that share that vertex. In any arithmetic window_iter yields the segments of the first part and then those of the second (2D and 3D), find_all_intersections the intersections of the first part and then those of the second, intersection that of the first part and, only if there is none, that of the second; discretize(d) yields what it yields for the first part without the last point and then what it yields for the second (2D and 3D); a line string of fewer than ten points intersects itself if a contiguous part of it does. In exact arithmetic closest_ray_intersection returns the nearer of the results for the parts, the bounding box is the box of the first part updated with the box of the second, and the parts simplified with simplify_rdp(d) and joined at the shared vertex lie within |d| of the line string and the line string within |d| of them, as curves (3D: C09's infinite lines for the second half). Cutting is visible only where it has to be: the shared vertex survives simplify_rdp, and the parts need not intersect themselves if the whole does.", "quantifier": "every line string, every cut, every segment, ray, distance and tolerance", "why_tests_cant": "Relates three runs on inputs of unbounded size.", "anchors": ["src/linestring_2d.rs: window_iter, find_all_intersections, intersection, closest_ray_intersection, discretize, is_self_intersecting, simplify_rdp, Aabb2", "src/linestring_3d.rs: window_iter, discretize, simplify_rdp, Aabb3"]}
{"id": "C108", "title": "which vertex of a closed line string is its first does not matter", "statement": "Take a closed line string (its last point is its first) and start it at another of its vertices. In any arithmetic window_iter yields the same segments and find_all_intersections the same intersections in the same cyclic order (window_iter in 2D and 3D), intersection finds one iff it did before, and discretize(d) yields the same points in the same cyclic order (2D and 3D). In exact arithmetic closest_ray_intersection, the bounding box (2D and 3D), convex_hull and, for at least ten points, is_self_intersecting return the same; a convex hull loop is still one, and contains_point_inclusive (of the hull and of the line string) and contains_convex_hull (both versions) on it return the same. What does depend on the first vertex, as shown on examples: is_self_intersecting for fewer than ten points, contains_point_exclusive on diagonals, and the vertices simplify_rdp keeps.", "quantifier": "every closed line string of at least two different vertices, every new first vertex, every segment, ray, distance, point and other hull, every hash order and sort", "why_tests_cant": "Relates two runs on inputs of unbounded size.", "anchors": ["src/linestring_2d.rs: window_iter, find_all_intersections, intersection, closest_ray_intersection, discretize, is_self_intersecting, contains_point_inclusive, convex_hull, Aabb2", "src/linestring_3d.rs: window_iter, discretize, Aabb3", "src/linestring_2d/convex_hull.rs: graham_scan, contains_point_inclusive, contains_convex_hull", "src/linestring_2d/intersection.rs: compute"]}
{"id": "C109", "title": "queries depend only on the curve that a line string draws", "statement": "Let two 2D line strings of at least two points draw the same set of points – because one is the other reversed, the other started at another vertex (closed line strings), the other with points of its segments inserted (any number, in any order), the other discretized, or the other simplified by simplify_rdp(0); each of these is shown to draw the same curve (discretize also in 3D). In exact arithmetic intersection with a segment finds one on the one iff it finds one on the other, find_all_intersections returns results that cover the same set of points, find_two_intersections finds as many points and the same one if there is only one, closest_ray_intersection returns the same point unless one of the line strings has a proper segment along the ray, the bounding boxes are equal, and so are the convex hulls. With a segment along the ray closest_ray_intersection can differ: shown on an example.", "quantifier": "every pair of line strings that draw the same curve, every segment, ray and sort", "why_tests_cant": "Relates runs on two inputs of unbounded and different size.", "anchors": ["src/linestring_2d.rs: intersection, find_all_intersections, find_two_intersections, closest_ray_intersection, discretize, convex_hull, Aabb2::with_points", "src/linestring_3d.rs: discretize"]}
{"id": "C110", "title": "boxes and hulls fit together", "statement": "In exact arithmetic, for a box with positive width and height: Aabb2::convex_hull is a convex hull in the sense of C36 and the very list that graham_scan, graham_scan_wo_atan2 and gift_wrap return for its own points; contains_point_inclusive of the box, of that hull and of that loop as a line string give the same answer for every point; contains_convex_hull(hull, points) answers what contains_aabb_inclusive answers for the box of the points; the exclusive test accepts only points strictly inside of the box. The box of the loop around a box (of any width and height) is the box itself. For every computed hull with at least three corners: what its containment tests accept is inside of the box of the points, and if one hull contains another the box of the one contains the box of the other. In f32 and f64 arithmetic the tests of the box, of the loop around it (as hull and as line string) and contains_convex_hull against contains_aabb_inclusive agree in the same way, and a computed hull is inside of the box of its points, for points on a grid (multiples of a power of two, small enough for the precision). For boxes without width or height the hull tests accept points outside of the box (example).", "quantifier": "every box, every point, every list of points, every sort", "why_tests_cant": "Relates the results of independent functions for all inputs.", "anchors": ["src/linestring_2d.rs: Aabb2::convex_hull, contains_point_inclusive, contains_aabb_inclusive, with_points", "src/linestring_2d/convex_hull.rs: graham_scan, graham_scan_wo_atan2, gift_wrap, contains_point_inclusive, contains_point_exclusive, contains_convex_hull"]}
{"id": "C111", "title": "the convex hull functions agree in floating point", "statement": "In f32 and f64 arithmetic, for points on a grid (multiples of a power of two, small enough for the precision) and an atan2 of which the error is small enough (C74): graham_scan, graham_scan_wo_atan2, LineString2::convex_hull and, without repeated points, gift_wrap return the same corners in the same order; indexed_graham_scan and indexed_gift_wrap return the same list of indices. The corners depend only on the set of the points: not on their order, repetitions, the direction or first point of a line string, the sign of zeros, or how the unstable sort orders equal elements; adding points that are convex combinations of the others changes nothing. The hull of a hull of at least four corners is that hull, the hull of two point sets together is the hull of the corners of their hulls, and a hull has the same bounding box as its points.", "quantifier": "every list of grid points that the hull functions accept, every sort and atan2 as described", "why_tests_cant": "Relates several functions, and runs on inputs of unbounded and different size, in rounded arithmetic.", "anchors": ["src/linestring_2d/convex_hull.rs: graham_scan, graham_scan_wo_atan2, gift_wrap, indexed_graham_scan, indexed_gift_wrap", "src/linestring_2d.rs: LineString2::convex_hull, Aabb2::with_points"]}
{"id": "C112", "title": "the sweep line algorithm on some of the lines", "statement": "In exact arithmetic, if no line is horizontal, two lines have at most one common point, no line begins (in the order of the sweep) inside another one, and common points have not the height of other end points or common points: running the sweep on any selection of the lines, in any order, reports a point for two of them iff running it on all the lines does; the same for the indexed version, and with end points ignored if no line begins or ends inside another one. With end points ignored and stopping at the first intersection, if something is reported for the selection, something is reported for all lines; so a line string of at least ten points intersects itself if a part of it of at least ten points does. Without the conditions a further line can hide a crossing of two others: shown on an example.", "quantifier": "every list of lines or edges as described, every selection, every tie breaking and tree shape", "why_tests_cant": "Relates runs on two inputs of unbounded and different size.", "anchors": ["src/linestring_2d/intersection.rs: IntersectionData::compute", "src/linestring_2d/indexed_intersection.rs: IntersectionTester::compute", "src/linestring_2d.rs: LineString2::is_self_intersecting"]}
{"id": "C113", "title": "line strings that do not intersect themselves", "statement": "In exact arithmetic, if different segments of a line string have only end points in common, is_self_intersecting is false for ten and more points; for fewer points it is true only because of the (mistyped) three point test of C24 at one of its vertices. This applies to every line string that moves ahead in some fixed direction from every point to the next, to what simplify_rdp and simplify_vw make of it, to every convex hull with at least three corners; the loop Aabb2::convex_hull of a box with width and height is never reported to intersect itself. In f32 and f64 arithmetic, for points on a small grid and without negative zeros, the same holds for fewer than ten points, hulls with three to eight corners and boxes, with the three point test for the exact values (C83). The hull of a triangle, and three points that move ahead, can be reported to intersect themselves: shown on examples.", "quantifier": "every line string, direction, point set and box", "why_tests_cant": "Holds for inputs of unbounded size and every tie breaking.", "anchors": ["src/linestring_2d.rs: LineString2::is_self_intersecting, Line2::intersection_point3, Aabb2::convex_hull", "src/linestring_2d/convex_hull.rs: graham_scan, gift_wrap"]}
{"id": "C114", "title": "when simplify_rdp removes nothing and when it removes everything between the end points", "statement": "In exact arithmetic simplify_rdp returns just the two end points of a line string if and only if all other points are within |d| of the segment between them (2D) or of the line through them (3D; so spikes beyond the end points are removed); in particular in 2D if no point is further than |d| from the first one. It returns the line string unchanged if every point is further than |d| from the segments (3D: lines) between all earlier and later points. So with d = 0 it removes no corner of a convex hull and no point of a line string no three points of which are collinear, and indexed_simplify_rdp_2d returns all indices of a convex hull. The indexed functions remove nothing, or everything between the first and the last index, exactly when the plain ones do so for the designated points. In f32 and f64 arithmetic, for points on a grid on which squares neither overflow nor underflow, the same holds with a relative margin of 8 * 2^-prec in the squared distances, and a convex hull is unchanged for d = 0.", "quantifier": "every line string, convex hull, vertex table and tolerance", "why_tests_cant": "Holds for line strings of unbounded length and every tolerance.", "anchors": ["src/linestring_2d.rs: LineString2::simplify_rdp", "src/linestring_3d/simplify.rs: LineString3::simplify_rdp", "src/linestring_2d/simplify.rs: indexed_simplify_rdp_2d"]}
{"id": "C115", "title": "simplify_vw removes inserted points before corners", "statement": "In exact arithmetic, take a line string whose consecutive corners are nowhere collinear and insert any number of points into its segments, in the order of the way. In 2D, if the ends differ, simplify_vw that deletes at most as many points as were inserted (and leaves at least four) deletes no corner: it returns the line string with some of the inserted points left; deleting exactly as many as were inserted gives back a line string of at least four points. The same holds in 3D for every line string, open or closed, except that the returned line string lacks the last point. For a closed 2D line string the last point can be deleted before an inserted one (example), but if at most one point more is deleted than were inserted nothing but this closing point is lost, and deleting exactly one more gives back the line string without its closing point. So simplify_vw undoes discretize. In f32 and f64 arithmetic the same holds if all points lie on a grid (multiples of a power of two, small enough for the precision) and the inserted ones exactly on their segments.", "quantifier": "every line string as described, every insertion, every way the priority queue resolves ties", "why_tests_cant": "Holds for line strings of unbounded length and every insertion.", "anchors": ["src/linestring_2d.rs: LineString2::simplify_vw, discretize", "src/linestring_3d/simplify.rs: LineString3::simplify_vw", "src/linestring_3d.rs: discretize"]}
