# notes[id] = (forced status or "", text)
def n(i,t): notes[i]=("",t)
L="Any scalar arithmetic (NaN and rounding included). "
O="Any scalars without NaN (linear order). "
F="IEEE floats of any format, rounding included. "
X="Exact arithmetic (ordered field). "
n("C01","All index lists; no fuel in the statement: the measure bounds the walk. Includes self edges.")
n("C02","Hypothesis: no self edge; C02_self_edges_break_it shows it is needed.")
n("C03","Hypothesis: no self edge. Counted over all consecutive pairs of all shapes.")
n("C04","Hypothesis: no self edge. Neighbours counted in the input edge list, not in the model's adjacency map.")
n("C05","Hypothesis: no self edge.")
n("C06","Result equality for a repeated edge in either orientation and for a trailing unpaired index.")
n("C07",L+"Includes that the recursion ends and never indexes out of range.")
n("C08",X+"Statement uses minimum distance to the closed segment; |d| because the code squares d.")
n("C09",X+"Distance is to the infinite line; C09_3d_drops_spikes shows the segment version is false.")
n("C10",O)
n("C11",L+"C11_excluded_cases: single index is duplicated, empty list panics.")
n("C12","All behaviours of the heap (any least entry). Areas must be comparable (no NaN): C12_nan_area_panics shows the hypothesis is needed.")
n("C13","As C12. Findings: closed lines come out open, four points are never simplified.")
n("C14","As C12. Spec GreedyDeletes does not mention heap or links; C14_area2/3 identify the compared number as the squared area.")
n("C15","As C12. The 3D version never returns the last point.")
n("C16",X); n("C17",X+"Infinite line; C17_3d_is_not_segment_distance.")
n("C18",X+"ℝ instance exists (square roots)."); n("C19",X); n("C20",X)
n("C21","First/filter statements for any arithmetic; none-iff-disjoint in exact arithmetic.")
n("C22",X+"Visibility restriction for collinear edges is stated in the property and shown necessary.")
n("C23",X)
n("C24","Fewer than ten points (brute force branch). Findings: false positives of the three point test, missed overlaps.")
n("C25","Polymorphic in the point type, so 2D and 3D.")
n("C26",L+"for termination; order/containment needs that no segment is skipped (finite distance).")
n("C27",X+"with exact square roots; Archimedean through the law of ceil.")
n("C28","Zero of the scalar only; mixed use of point and line copies swaps YZ (finding).")
n("C29",X)
n("C30",O+"Quantifies over all histories of constructor and update calls.")
n("C31",O); n("C32",X); n("C33",X)
n("C34",X); n("C35",X+"Destination at least 1 in both axes; smaller ones are exceeded (finding).")
n("C36",X+"Any result of the unstable sort that is sorted by the comparator; atan2 only through its order.")
n("C37",X+"C37_sort_exists: the comparator is consistent enough for a sorted permutation to exist.")
n("C38","Termination for any arithmetic; hull for pairwise different points in exact arithmetic; duplicates lose vertices (finding).")
n("C39",L+"Any sort, any reduction tree.")
n("C40",X+"Pairwise different points (finding otherwise).")
n("C41",X+"One chunk is right for every reduction; four counterexamples for several chunks. See C64 for the positive result.")
n("C42",X+"Strictly convex closed loop; findings for degenerate loops.")
n("C43",X+"Sound; complete except on the diagonals through the second point (finding).")
n("C44",X+"Parallel version: every schedule.")
n("C45",L+"")
n("C46",X+"Every iteration order of the hash set in every round.")
n("C47",X); n("C48",X+"Measure on pending events and unreported positions; no bound on the number of lines.")
n("C49","Old vertices keep index and value; new indices are valid.")
n("C50",L+"If it finishes (see C51 for when).")
n("C51",X+"Termination for an Archimedean field; equal projections diverge (finding).")
n("C52",L+"Text of coordinates is an arbitrary function. The file system is not modelled: output is the list of lines, C52_fault covers a failed write.")
n("C53","Any comparison with the stated laws; tolerance comparison depends on direction (finding).")
n("C54",X+"Spec RdpKeeps is the textbook recursion.")
n("C55",X+"Distance to chords' lines; to the polyline it is not bounded (finding).")
n("C56",X+"Hash order arbitrary."); n("C57",X); n("C58",X)
n("C59",X+"SweepPosition (Spec/Sweep) lists the hypotheses, GeneralPosition the stronger ones of the versions about crossings; C59_touching_example meets the former and not the latter; counterexamples without them.")
n("C60",X+"Two runs with unrelated iteration orders and shapes of the search trees. General position as in C59. Finding 37: C60_direction_of_overlapping_edges."); n("C61",X)
n("C62",X); n("C63",X+"Smallest convex set is Mathlib's convexHull (for ℝ-like fields as modules over themselves).")
n("C64",X+"General position and one chunk per task; both needed (C41).")
n("C65",X); n("C66",O+"Negative part in exact arithmetic.")
n("C67",X+"Similarity is stated by distances only. For VW the heap of the mapped run breaks ties like the original one.")
n("C68",X); n("C69",X+"With exact square roots."); n("C70","is_connected for any arithmetic; point_count without NaN.")
n("C71",F+"Exact on a grid; all tiny points collinear (finding).")
n("C72",F); n("C73",F+"Any sort that sorts grid points; one exists (C73_sort_exists).")
n("C74",F+"atan2 is a parameter with an accuracy bound; such a function exists (C74_good_atan2_exists). Any sort that sorts entries without NaN; one exists.")
n("C75",F)
n("C76",F+"All floats including NaN; the 3D theorem excludes NaN because of C76_nan_poisons_box3 (finding).")
n("C77",F+"Exact common points are stated over the reals (OnSegment2 of exactR). Finding 22: C77_not_exact_at_the_other_ends.")
n("C78",F+"Distances are stated over the reals. Finding 17: C78_false_positive.")
n("C79",F+"Soundness needs no assumption but finiteness and holds for every shape of the search trees. Totality needs Dependable (Props/FloatSweep): C79_small_trees_are_dependable and C79_separate_points_are_dependable give cases, C79_an_internal_error_is_possible shows that it is needed (finding 35). 'At least two lines per position' also holds for every shape with stop_at_first_intersection.")
n("C80",F+"The distances D and the threshold T are the computed ones; their relative errors are part of the theorem. Finding 20: C80_underflow_exceeds_tolerance.")
n("C81",F+"C81_heap_exists gives a heap as the theorems want it. Findings 19 and 21: C81_large_coordinates_panic, C81_small_coordinates_lose_area.")
n("C82",F+"Common points are stated over the reals. Finding 23: C82_two_reports_for_one_point.")
n("C83",F+"ThreePoint (Spec/Intersect) and ThreePointFloat (Spec/Float) state the mistyped test of the code. Line strings of ten or more points: C79. Finding 24: C83_negative_zero.")
n("C84",F+"Lengths and distances are stated over the reals. StepGrid, StepCountWithin and DividedNear are in Spec/Float; stepGrid64 and stepGrid32 give the grids of integers. Findings 25 and 26.")
n("C85",F+"atan2 and the sort as in C74. The schedules of C41/C64: one chunk, or one task for every chunk (the others can be wrong also in exact arithmetic, findings of C41).")
n("C86",F+"The exact distance is the minimum over the points of the segment (line), as in C16 and C17. Finding 28: C86_equal_ends_nan.")
n("C87",F+"Spec/Affine states the map; C87_image_is_the_exact_transform links it with the code in exact arithmetic (C34, C35). Findings 29 and 30.")
n("C88",F+"Equidistant (Props/Parabola) is stated with the minimal distance to the points of the line. The third coordinate of discretize_3d is the computed distance to the cell point (C50). Finding 31.")
n("C89",F+"VisibleHit and rayPoint as in C22 (Props/Intersect). Finding 32.")
n("C90","Two runs on the same input. The stages theorems imply C10 (equal tolerances). The hypothesis on floats (no computed distance is NaN) holds on every grid as in C80. Finding 33: C90_nan_point_hides_others.")
n("C91",F+"C56 on floats. mergeError, GoodGrid, enough and Dependable as in C79. Finding 34: C91_a_common_end_point_may_be_lost.")
n("C92","SameShape and closeLoop are in Spec/Shape. The order of the shapes and the start and direction of loops do depend on the order of the edges (see the example sampleTurned).")
n("C93","Exact arithmetic (ExactScalar), and binary floating point formats for the _on_floats theorems (as in C74 and C75). InTriangleOf and IsHullLoop are in Spec/Hull; every hull function is shown to return an IsHullLoop in C36-C41, C72-C74, C85.")
n("C94",X+"Affine2 (Spec/AffineMap) and IsSimilarity2/3 (Spec/Similar) state the maps; ImageReport and IsEdge (Props/AffineInv) the relation of the results. General position of the mapped lines is a hypothesis, or follows for maps that keep horizontal lines (C94_sweep_horizontal). Finding 36: C94_self_intersection_depends_on_coordinates. Simplification: C67.")
n("C95",X+"Lengths over the real numbers (Spec/Length: dist2, dist3, pathLength); boxes over every ordered scalar for the simplifications and over every exact one with square roots for discretize.")
n("C96","Binary floating point formats (any precision). The texts of numbers made by the standard library are parameters: DisplayOk and DisplayOneOk (Spec/Decimal) state its promises, C96_texts_exist shows they can be kept. The reader (readLine2 etc. in Props/Debug, number in Spec/Decimal) is the specification. Formatter options are not modelled, nor the derived Debug of other types.")
n("C97","simplify_rdp and the reversal of simplify_vw in exact arithmetic (ExactScalar); C97_vw2_any_queue and C97_vw3_any_queue use no law of arithmetic; C97_vw3_reverse_float is for f32/f64 without NaN areas. The example theorems show that the hypotheses can be met. Finding 39: C97_rdp_ties.")
n("C98","C98_vertices_in_any_arithmetic uses no law of arithmetic (floats included). The others in exact arithmetic with exact square roots (as C45-C49), with the bound on the number of rounds of C45. OnEdge is in Props/SweepComplete, IsEdgeEnd beside the theorems. Finding 40: C98_unused_vertices.")
n("C99","Exact arithmetic (ExactScalar) for the simplifications, is_connected and get_plane; C99_discretize_floats and C99_box_floats for every binary format (exponent range at least that of usize for discretize). Findings: C99_rdp_differs, C99_vw_differs.")
n("C100","C100_any_arithmetic and C100_start_is_first use no law of arithmetic; C100_no_loop_is_hull in exact arithmetic with any sort that sorts. Finding 43: C100_other_starts.")
n("C101",X+"C101_segments uses no law of arithmetic. Finding 45: C101_self_intersection_depends_on_direction.")
n("C102","Exact arithmetic with exact square roots, with the bound on the number of rounds of C45. Renumbered (Proofs/SweepRename): what is at i in one list is at pi i in the other; C102_permuted_lines needs only List.Perm.")
n("C103",X+"C103_rdp2/3_curves_are_near_float: IEEE floats of any format, rounding included. C103_example shows that the first half of the 2D claim does not hold in 3D.")
n("C104","C104_simplified_network2/3 use no law of arithmetic (NaN and rounding included); C104_network_is_near2/3 in exact arithmetic, C104_network_is_near2/3_float on grids. SameNetwork is a structure beside the theorems, in terms of Edge, TwoNeighbours, windows of Spec/Shape.")
n("C105",X+"The hypothesis is the relation Simplification of Spec/Simplify with 'strictly inside of the segment': coarse arises from fine by dropping points of its own segments. C105_rdp2/3_discretize need exact square roots (as C27).")
n("C106",X+"By C62 the same holds for graham_scan_wo_atan2, and for gift_wrap and the indexed functions if no point is repeated. InTriangleOf is in Spec/Hull. C106_hull_of_discretized needs exact square roots (as C27).")
n("C107","C107_segments, C107_intersection, C107_find_all, C107_discretize and C107_self_intersection use no law of arithmetic (NaN and rounding included); the others in exact arithmetic. C107_a_cut_is_visible shows what does not carry over. For hulls see C106.")
n("C108","C108_segments, C108_intersection, C108_find_all and C108_discretize use no law of arithmetic (NaN and rounding included); the others in exact arithmetic. The long is_self_intersecting needs the step bound of C46 on the fuel. C108_what_depends_on_the_start shows what does not carry over.")
n("C109",X+"SameCurve is stated with OnPolyline, the set of the points on the segments. C109_reversed, C109_other_start, C109_inserted_point(s), C109_discretized(3), C109_rdp_zero are the ways to obtain it; C109_ray_along_a_segment shows why closest_ray_intersection needs its hypothesis.")
n("C110",X+"The theorems named _on_floats are about IEEE floats on a good grid. C110_flat_boxes shows what goes wrong without width or height. That the box of a hull is the box of its points is C63_same_bounding_box.")
n("C111",F+"Same corners means the same exact points: the results may differ in the sign of zeros if points are repeated. atan2, the sorts and the grid are those of C72-C74 and C85; convex_hull_par returns what indexed_graham_scan returns in the cases of C85.")
n("C112",X+"A selection is an injective map of indices; the conditions are those of C59 (SweepPosition, GeneralPosition) and are needed for all lines only.")
n("C113",X+"MovesAhead is about a fixed direction d: d.p grows from point to point. The theorems ..._on_floats are about Flt f with IEEE rounding and the grid of C83 (spacing at least 1, 1024 B^4 <= 2^prec). The exceptions of short line strings are C24s finding about intersection_point3.")
n("C114",X+"The distances are those of the independent specification (the minimum over the segment in 2D, over the line in 3D), not of the code. The theorems ..._on_floats are about Flt f with IEEE rounding and the grid of C80.")
n("C115",X+"What insertion means is an independent inductive specification (Inserted); that a line string turns at every corner is stated with the cross product of the specification (2D) and with Heron's formula (3D), not with the code. The theorems ..._on_floats are about Flt f with IEEE rounding and the grid of C80. The priority queue is any function that returns a least element.")
