# Formal model of eadf/linestring.rs — design

The Rust code (pinned commit, `/repo`) is read as text and modelled function by
function in Lean 4 under `lean/Verif/`.

* `Verif/Model/*`  – executable model; every definition cites file and lines in `/repo`.
* `Verif/Spec/*`   – small specifications, written without reference to the model's algorithms.
* `Verif/Proofs/*` – helper lemmas and invariants.
* `Verif/Props/*`  – the property theorems (named `Cxx_…`) with a satisfiability example beside them.
* `Verif/Witness/*` – the property theorems applied to concrete, non-trivial data: all hypotheses of a theorem are met at once
  (together with the examples that stand beside the theorems in `Props`).
* `Verif/Golden/*` – the repository's own unit tests and doc tests, evaluated on the model (a check that
  the model is the program; these are tests of the model, not proofs of properties).

`properties.jsonl` is generated by `scripts/props.py`, `MANIFEST.json` by `scripts/manifest.py` (it attaches
every theorem `Cxx_…` to property Cxx) with the notes of `scripts/notes.py`.

## Scalars

All geometry in the crate is generic over a floating point scalar.  The model is written once,
against a *lawless* class `Scalar α` (operations `+. -. *. /.`, comparisons returning `Bool`,
`min`, `max`, `sqrt`, `ceil`, `atan2`, `ulps_eq`, …).  Three law layers are used in hypotheses:

1. none – the theorem holds for every behaviour of the arithmetic, hence for IEEE floats with
   NaN, infinities and rounding;
2. `OrderedScalar` – comparisons, `min` and `max` come from a linear order and `ulps_eq` is
   reflexive: true for floats as long as no NaN occurs (±0 identified);
3. `ExactScalar` – the operations are those of a linearly ordered field and `ulps_eq` is equality
   (“exact arithmetic”).  Instances: ℚ, ℝ.  Square roots and `atan2` have their own law classes
   (`ExactSqrt`, `ExactAtan2`), both satisfied by ℝ (`Complex.arg`); ℚ has an `atan2` with the same
   order (diamond angle), so the concrete examples can be evaluated by the kernel.

The theorems of layer 3 say that the algorithm is right, not that the float evaluation is.  Rounding is
covered by a fourth layer:

4. `Flt f` – IEEE 754 binary floats of any format (`b64`, `b32`), with NaN, infinities, signed zeros, rounding
   to nearest even, overflow and gradual underflow (`Model/Float.lean`).  It is an instance of `Scalar`, so the
   same model runs on it.  C71 and later are about it: on grids that fit the precision the computed
   decisions are exact, and the results are transferred from ℚ (`Proofs/HullTransfer.lean`: if the primitive
   tests agree, the whole run agrees).  `atan2` is not determined by IEEE 754; it is a parameter (`Libm`).
   That the rounding of the model is the one of the standard is itself proved (`Proofs/FloatRound.lean`): a rounded
   number is a nearest representable one, ties go to the even mantissa, the relative error is at most `2^-prec`
   (plus half of the smallest subnormal), and the computed square root is a nearest one to the real square root.

A toy scalar `FQ` with NaN and ±∞ serves for witnesses about NaN.

`usize` is `Nat` (no wrap-around; lengths and indices never reach 2^64).

## Failure, divergence, nondeterminism

* A function that can panic (index out of range, `unwrap` of `None`, assertion) or return `Err` is modelled in
  `Except Err`; panics are explicit (`.error .panic`), so "returns a value" is a theorem and not an
  assumption.
* Loops are structural or well-founded where the code obviously shrinks something; other loops take fuel and
  return `.error .diverge` without it.  Termination theorems say for which fuel the value is there (and the
  value does not depend on larger fuel); divergence findings say that no fuel suffices.
* Unstable sorts, heap tie breaking, hash-map iteration, the shapes of the sweep's B-trees and the rayon reduction tree are modelled
  as relations or oracles (any permutation sorted w.r.t. the comparator, any minimal element, any
  iteration order chosen anew in each round, any next key to compare with in a search, any binary tree of folds over contiguous chunks); theorems quantify
  over all of them (the float theorems on the sweep that need more of the search trees than an arbitrary shape say so: `Dependable`).

## Plan per property

| id | model | how it is proved |
|----|-------|------------------|
| C01–C06 | `divide_into_shapes` with its bit sets, candidate stack and walk; panics are explicit | invariant over the two stages; fuel-free via a decreasing measure |
| C07 | RDP 2D/3D, lawless | well-founded recursion on length |
| C08, C09 | same | induction; distance spec as minimum over the segment/line |
| C10 | same, ordered scalars | induction; a split point of the original is a split point of the simplified line |
| C11 | indexed RDP | simulation with the plain one |
| C12–C15 | VW heap + linked list state machine, heap pop is any minimal entry | refinement invariant: live entries = links, stale entries harmless |
| C16, C17 | distance functions | ordered field algebra |
| C18–C20 | `intersection_point` | ordered field algebra |
| C21 | wrappers | list induction |
| C22, C23 | ray casting | fold invariant |
| C24 | brute force part | list induction; long lines use the sweep line (C45–) |
| C25 | windows/chunks | list induction |
| C26, C27 | iterator state machine | characterisation of the whole run as a list |
| C28, C29 | planes | case analysis |
| C30–C33 | Aabb2/Aabb3, ordered scalars | fold = lattice bounds, induction over histories of calls |
| C34, C35 | SimpleAffine | field algebra |
| C36, C37 | Graham scan | stack invariant over the angularly sorted points |
| C38 | gift wrap | termination by the bounded loop; angular order, next vertex = extreme point |
| C39–C41 | indexed hulls, parallel combine | as above, induction over reduction trees; witnesses for the failures |
| C42–C44 | point in hull | binary search invariant; fan triangulation |
| C45–C49 | sweep line state machine (plain and indexed) | invariants over events; termination by a measure on pending events |
| C50, C51 | parabolic arc | stack machine; field algebra |
| C52 | obj writer | fold invariant; file system not modelled, output is a list of text lines |
| C53 | approximate equality | case analysis |
| C54 | RDP | inductive textbook specification, induction on length |
| C55 | parabolic arc | convexity of the parabola, induction over the stack machine |
| C56–C59 | sweep line | status-line invariant: active lines = lines crossing the sweep line, neighbours are checked before they meet; `SweepPosition` (general position, but lines may end inside of others) in the hypotheses of C59, counterexamples without |
| C60, C61 | sweep line | simulation between two runs with different iteration orders / settings; for edges of any direction in general position by C59 and uniqueness of a report |
| C62 | all hull functions | uniqueness of the hull loop from the lowest leftmost point |
| C63 | all hull functions | fan decomposition; Mathlib `convexHull` |
| C64 | `combine_indexed_convex_hull` | exposed points of a union, gift wrapping over two hulls; induction over reduction trees |
| C65, C66 | Aabb accessors, `apply` | case analysis, monotone maps preserve ranges |
| C67 | RDP, VW, `apply`, `SimpleAffine` | distances and areas as functions of pairwise distances; simulation of two runs |
| C68–C70 | orientation predicates, `intersect_line_point`, `is_connected`, `point_count` | field algebra, case analysis |

| C71 | orientation tests on `Flt` | products and differences on a grid are representable, `ulps_eq` separates grid values; for tiny points monotonicity of rounding |
| C72–C75 | hulls and containment on `Flt` | transfer from ℚ along `exact`; for `graham_scan` a lower bound on the angle between grid directions against the error of `atan2` |
| C76 | boxes on `Flt`, all floats | order embedding of the floats that are not NaN into the extended rationals; monotone rounding for the centre |
| C77 | `intersection_point` on `Flt` | cross and dot products are exact on the grid, quotients keep their side of 0 and 1 (the gap between grid quotients is wider than the rounding error), error analysis of `p + r*t`; the exact run denotes the common points (C18, C19) |
| C78 | `intersect_line_point` on `Flt` | squared lengths are exact, error analysis of the correctly rounded root and of the sum, `ulps_eq` as a relative bound via the ordinals; Heron's inequality 4·orient² ≤ (S²−c²)c² turns a small excess into orient = 0 on small grids |
| C79 | the sweep line on `Flt` | the invariants of C46–C48 again without any law of arithmetic (Proofs/SweepRaw), relative to what the searches of the trees can be relied on for (`Rely`: nothing, one node, or a transitive comparison): every event created by an event lies after it in the exact order of the float values, and it lies on a line pair; a rank (number of possible later points of the pair) gives the measure Σ (4n²+1)^rank; nearness to a line in at most four steps (computed, merged into an event, found by a search, merged into the result), merging bounded by `ulps_diff` (Proofs/FloatUlps); the internal error is a concrete run |
| C80 | RDP on `Flt` | the squared distances are quotients of two numbers with small relative error (Proofs/FloatSimplify: `Rel`, `dist2_rel`, `dist3_rel`); the recursion on floats is the recursion on their rational values (`rdpRec_val`), to which the textbook theorem of C07 and idempotence of C11 apply; the threshold `d*d` is compared like a rational even if it underflows (`thr_exists`, `thr_any`) |
| C81 | VW on `Flt` | C12–C15 hold without laws of arithmetic for a comparison that is total on numbers other than NaN; areas are not NaN because all sums and products before the last squaring stay below `2^emax`; on a grid `orient` is exact and rounding squares of integers below `2^(prec-3)` is strictly monotone (`area2_le`); in space relative error 13/4 units |
| C82 | `intersection`, `find_all_intersections`, `find_two_intersections` on `Flt` | C77/C78 for each edge, induction over the edges; `PartialEq` of points on reported points |
| C83 | `is_self_intersecting` (fewer than ten points) and `intersection_point3` on `Flt` | C77 in its sharp form (exact at the ends of the first segment, otherwise a gap of 1/(8B²) units) decides `ulps_eq` with end points; quotients of small integers that differ are farther apart than `ulps_eq` allows; infinities by cases |
| C84 | `discretize` on `Flt` (`Model/Discretize`) | square root within 65/64 ulp, quotient, `ceil` and `as usize` of the quotient by `ceil_bounds`; every coordinate is three roundings away from the exact one; induction over the segments; bad distances, distance zero and overflow by cases on the special values |
| C85 | `indexed_graham_scan`, `convex_hull_par` on `Flt` | the algorithms see points only through tests that are exact on the grid (`Proofs/HullTransferPar`); for every sort of float entries a sort of rational entries with which all scans agree (`exact_sort`); then C40, C41, C64 over ℚ |
| C86 | `distToLineSq2/3`, `distToLineSqSafe2/3` on `Flt` | all products and sums before the division are exact on the grid, so only the last operations round (`dist2_rel`, `dist3_rel`); the exact value is the minimum by C16/C17; signs and NaN by cases on the special values |
| C87 | `SimpleAffine` on `Flt` | centres and sizes are exact on the grid; the scale and the three operations of each axis are one rounding each, a sum of floats has no underflow error (`round_add_rel`); `chain` adds up the four errors |
| C88 | `VoronoiParabolicArc` on `Flt` | finiteness of a result gives finiteness of all operands (`fin_add` …), the constants are exact on the grid, five roundings of `parabola_y` (`par_err`) and four of the rotation (`point_err`), underflow is absorbed by the distance of the parabola to the line; never ending: an invariant of the stack (NaN on top, or a cycle of two points that are never accepted) |
| C89 | `closest_ray_intersection` on `Flt` | every test of one edge is exact on the grid (`ray_close`: cross and dot products are exact, `ratio_pos`, `second_sign`), the parameter times the direction has a small error, the minimum over the edges is 1-Lipschitz (`nearestStep_close`), `axpy_far` for the point; then C22 on the exact points |
| C90 | pairs of runs of `rdpRec` and `vwLoop` | the farthest point does not depend on the threshold, so the recursion trees are nested (`rdpRec_nested`, induction on the length); the farthest point of a part is kept, so it is also the farthest of what was kept (`rdpRec_staged`); floats that are not NaN embed into ℚ (`nkey`), the squares of the tolerances are monotone; for VW the loop with the larger count continues from the state in which the other stopped and only unlinks (`vwLoop_nested`) |
| C91 | both sweeps on `Flt f`, tree shapes that can be relied on (C79) | on a grid the comparison of keys is the lexicographic order of the exact coordinates (`grid_sharp`), so the initial queue is strictly sorted and has one entry for an end point (`withLines_neat`, `withEdges_neat`, invariant of the insertions); `find_new_events` keeps keys, starting and ending lines of the entries and results only grow (`sweepLoop_shared`, induction on the loop); concrete counterexample off the grid |
| C92 | pairs of runs of `divideIntoShapes` | C02–C04 determine the shapes: a run that starts in a vertex without two neighbours is determined by its first edge (`Run.eq_of_start`), a loop through two-neighbour vertices up to rotation by one directed edge (`Cycle.rotation`, determinism of the successor and periodicity); an edge is in one shape only, so the correspondence is injective both ways |
| C93 | hull functions followed by containment tests | C36, C42, C44, C63 composed: points left of all edges are the convex combinations of the input (`inLoop_iff`), orientation is affine in its third argument; antisymmetry by uniqueness of the hull loop of the union (C62); floats by C74 and C75 |
| C94 | two runs, on an input and on its image | segments by the characterisation of the common points (C19) and uniqueness of the ends of a segment; rays by invariance of the parameter `t`; containment by a transfer lemma that only needs sides and equality (`Turns`); hull edges by uniqueness of the edges of a loop (a corner is no combination of other points); sweep by C59; `discretize` by C27 and Stewart's theorem; the sweep on moved and scaled lines in any position by a simulation of the two runs (`sweepLoop_move`) |
| C95 | `discretize`, simplifications, boxes | triangle inequality and induction over subsequences; equal steps of a division add up; uniqueness of a division (C94) for idempotence; ranges of coordinates for boxes |
| C96 | `format_float`, `Debug` impls | shape of decimal numerals; `fract() == 0` exactly for whole numbers (rounding never reaches zero above the least unit); rounding keeps whole numbers whole; a reader that inverts the texts; exact decimals as a model of the standard library's promises |
| C97 | two runs of a simplification | determinism of the textbook algorithms without ties (`keeps_unique`, `greedy_unique`) and their symmetry (`keeps_reverse`, `greedy_reverse`) by induction, composed with C54 and C14 |
| C98 | vertex table of the indexed sweep | lawless induction over the loop (`Proofs/SweepTable.lean`: shape of the table, provenance of keys); in exact arithmetic a further invariant of `sweepLoop_ok` (events at end points keep old indices, every new vertex has an event that knows two edges) |
| C99 | `copyTo3d`, `discNext ops2/ops3`, `simplifyRdp2/3`, `simplifyVw2/3`, `Aabb2/3.withPoints`, `getPlane` | the 3D operations on vectors with a zero coordinate reduce to the 2D ones (a handful of laws of the zero, proved for exact scalars and for floats); RDP and VW recursion commute with the copy; the extra stop rule of the 2D VW is shown to be without effect above four points |
| C100 | `indexedGrahamNoLoop` with a start | the stack of the scan keeps its bottom (`grahamLoop_get`); the position found by `find_lowest_x` is that of the point it returns (`findLowest_at`); composed with C40 |
| C101 | queries on the reversed line | `windows2` of a reversed list; a result of `intersection_point` is determined by the set of points it denotes, because overlaps are sorted (`result_determined`, also C20_same_result and C24_exact); the nearest visible hit is unique (C22_nearest_visible_hit); C31 and C62 for boxes and hulls |
| C102 | the sweep on rearranged lines, both versions | simulation of the two runs event by event (`sweepLoop_renumber`): the queues have the same positions and, up to the renumbering π, the same lines; the tested pairs correspond because the candidate lists keep all ties (`nb_mem`, `conn_mem`) |
| C103 | `simplify_rdp` 2D/3D as curves | C08/C09 pair consecutive points of the two lines; the squared distance of two points moving along two segments is convex (`dist_between`); for the other direction the foot points of the original run from one end of the segment to the other and pass every value (`passes`) |
| C104 | `divide_into_shapes` followed by `indexed_simplify_rdp` on every shape | a vertex with two neighbours is in one shape only (`two_in_one`), the others are ends (`end_of`), so thinning that keeps ends keeps the junctions; connectivity by induction along the path; nearness from C103 (exact and float) via C11 |
| C105 | `simplify_rdp` on a line and on the line with points inserted, `discretize` followed by `simplify_rdp` | the squared distance to a segment (line) is convex, so an inserted point is nowhere farther than the vertices around it and never the last farthest one; induction on the textbook run (`keeps_fine`), which has one result only (`keeps_unique`) |
| C106 | `graham_scan`, `convex_hull` on a set and a larger set with the same convex hull | a loop around the points is a loop around their convex combinations and starts lowest among them (`hullLoop_more`, `startsLowest_more`); uniqueness C62 |
| C107 | `window_iter`, `intersection`, `find_all_intersections`, `closest_ray_intersection`, `discretize`, `is_self_intersecting`, boxes, `simplify_rdp` on `a ++ x :: b`, `a ++ [x]` and `x :: b` | the windows of the whole are those of the parts (`windows2_append`), folds split; C22, C31, C103 for the exact claims |
| C108 | the same functions, `convex_hull`, the containment tests and the sweep on `s :: a ++ x :: (b ++ [s])` and `x :: b ++ s :: (a ++ [x])` | both are cut at the other vertex with C107; the exact claims depend on the set of neighbours or points only (C22, C31, C42, C44, C62, C102) |
| C109 | `intersection`, `find_all_intersections`, `find_two_intersections`, `closest_ray_intersection`, boxes, `convex_hull` on two line strings with the same points on their segments | C21 and C22 state the results in terms of these points; box and hull of both are those of the concatenation (C31, C106); curves of discretized line strings by induction on `Divided` |
| C110 | `Aabb2::convex_hull` and the containment tests of boxes and hulls | the loop around a box is shown to be a hull loop, uniqueness (C62) gives the results of the algorithms; C32, C33, C42–C44 for the tests; what a hull contains is a combination of its corners; floats: the tests are exact on a grid (C71, C75, C76) |
| C111 | the hull functions at `Flt f` | C72–C74 and C85 give hull loops of the exact points, which are unique (C62); convex combinations, union and box as in C106 and C63, on the exact points |
| C112 | `sweepIntersections`, `indexedSweepIntersections`, `isSelfIntersectingLong` | the conditions of C59 and the set of common points pass from all lines to a selection; C59 on both |
| C113 | `isSelfIntersectingShort`, `isSelfIntersectingLong` | C58 and C24 on line strings of which the segments meet in end points only; linear functional for those that move ahead, convexity for hull loops; C83 for floats |
| C114 | `simplifyRdp2`, `simplifyRdp3`, `indexedSimplifyRdp2` | induction over the textbook algorithm (C54, C80); a corner of a convex hull is not on the segment between two others |
| C115 | `simplifyVw2`, `simplifyVw3`, `discNext` | C14, C81 (every deletion takes a least triangle): as long as an inserted point is left there is a triangle of area 0, and no corner has one |

No property of the list was found to be inexpressible in the model.

## What is modelled

| file | modelled | not modelled |
|------|----------|--------------|
| `shape.rs` | everything | – |
| `linestring_2d.rs` | `Line2` (incl. `intersection_point`, `intersection_point3`, `precedes`), `VoronoiParabolicArc`, iterators, all of `LineString2 for Vec`, `Approx`, `Aabb2`, `intersect_line_point`, `Intersection`, distances, `SimpleAffine`, `DiscreteLineSegmentIterator` | nothing |
| `linestring_2d/simplify.rs`, `linestring_3d/simplify.rs` | everything | – |
| `linestring_2d/convex_hull.rs` | everything else | `combine_indexed_convex_hull_lazy` (dead code) |
| `linestring_2d/intersection.rs`, `indexed_intersection.rs` | the complete state machines, `Debug` of the event key | getters of the sweep line position |
| `linestring_2d/impls.rs`, `linestring_3d/impls.rs` | comparisons, conversions, iterators, defaults, `Debug` texts | options of the formatter |
| `linestring_3d.rs` | `Plane`, `Line3`, `Aabb3`, `LineString3 for Vec`, `Approx`, distances, `save_to_obj_file`, discretisation | – |
| `lib.rs` | error enum (as `Err`), `format_float` | |

Simplifications (also stated in the comments of the definitions): vectors are pairs/triples of scalars
(`vector-traits` operations are modelled componentwise: `dot`, `perp_dot`, `magnitude_sq`, `distance_sq`, …);
`Vec`, slices, `SmallVec` and `VecDeque`-like structures are lists; hash maps are functions or association lists;
the B-trees of the sweep line are association lists, searched by the path an arbitrary tree shape (`TreeShape`)
prescribes; every `get_mut`, `insert` and `remove` is such a search, also the `remove` in the emulated `pop_first` and the
second `get_mut` of `report_intersections_to_result`, so that it can miss a key or hit another one when the comparison is not transitive; text output is a list of lines; `Result<_, LinestringError>` and
panics share one error type with different constructors; fused/parallel execution of rayon is a tree of folds.

## Findings (each is a theorem about the model, with the witness evaluated by the kernel)

1. `simplify_rdp`: the documentation calls the parameter a squared distance; the code squares it.  The 3D version
   measures to the infinite line and drops spikes (`C09_3d_drops_spikes`).  The indexed version duplicates a
   single index and panics on an empty list (`C11_excluded_cases`).
2. `simplify_vw`: an open line of four points is never simplified (`C13_four_points_stay`); of a closed line the
   closing point is deleted first, so the result is not closed (`C13_closed_line_is_opened`); the 3D version always
   drops the last point (`C15_last_point_is_lost`); NaN panics (`C12_nan_area_panics`).
3. `is_self_intersecting`: straight lines and some corners are reported (`C24_straight_line_reported`,
   `C24_corner_reported`; a typo `middle.y() - start.x()` in `intersection_point3`); overlaps starting at a common
   end point are missed (`C24_misses_overlaps`).
4. `closest_ray_intersection`: a collinear edge at or behind the origin is invisible (`C22_…_invisible`).
5. `discretize` with an infinite distance drops points (`C26_infinite_distance_drops_points`).
6. `copy_to_3d`/`copy_to_2d`: the line versions and the point versions use different axis orders for YZ
   (`C28_mixed_yz_swaps`).
7. `SimpleAffine`: a destination smaller than 1 is exceeded (`C35_small_destination_exceeded`).
8. Hulls: three points give an open triangle (also if collinear, `C36_short_inputs`), so the hull of a triangular hull is
   open (`C62_hull_of_a_triangle_is_open`); repeated points lose vertices (`C38_duplicates_lose_points`,
   `C40_duplicate_start_loses_points`); `convex_hull_par` with several chunks is schedule dependent, loses points, and
   may diverge (`C41_*`) unless the points are in general position and every task has one chunk (C64).
9. `contains_point_exclusive` rejects interior points on a diagonal (`C43_exclusive_rejects_interior_points`); degenerate
   hulls contain too much (`C42_doubled_point_contains_everything`, `C42_flat_hull_contains_the_line`).
10. Sweep line: a start point on another line is missed, a crossing may be missed when an event has the same height
    (`C59_*`); a zero-length line meets itself (`C57_zero_length_line_meets_itself`); a second call of `with_lines` restarts
    the line index (`C45_second_call_restarts_the_index`).
11. Parabolic arcs: equal projections never terminate (`C51_same_projection_diverges`); `max_dist` does not bound the distance to
    the polyline (`C55_distance_to_polyline_not_bounded`).
12. `Aabb3::from` and `apply` do not order the corners; such boxes contain nothing (`C66_unordered_corners_contain_nothing`).

13. `graham_scan` relies on `atan2` returning identical values for parallel directions (hypothesis `GoodAtan.parallel` of C74); IEEE 754
    does not promise this.
14. `ulps_eq` has an absolute tolerance of one machine epsilon: in `f64` all points within 2^-28 of the origin are collinear
    (`C71_tiny_points_are_collinear`), the hull of a square of side 2^-30 has two corners (`C71_hull_of_a_tiny_square`) and contains points
    outside (`C71_tiny_square_contains_points_outside`).
15. `Aabb3::update_with_point` keeps a NaN that comes first for ever; `update_with_points` and `Aabb2` replace it
    (`C76_nan_poisons_box3`).
16. `center` overflows for corners above half of the largest float and then lies outside of the box (`C76_center_overflow`).
17. `intersect_line_point` compares rounded distances, so on larger grids it accepts points off the segment: doubles, (0,0)-(8388607,8388605)
    accepts (4194303,4194302); `intersection_point` then reports it (`C78_false_positive`).  Exact for small grids (`C78_exact_on_small_grids`).
18. The sweep reports `InvalidData` for some finite lines close to the largest double, because their computed intersection is not finite (`C79_finite_lines_may_be_refused`).
19. `simplify_vw` panics for finite coordinates whose products overflow (f64 about 2^600, f32 about 2^65): the areas are `inf - inf` = NaN and the heap's comparison unwraps `None` (`C81_large_coordinates_panic`).
20. `simplify_rdp` compares squares, so for tolerances below 2^-537 (f64; 2^-75 in f32) it drops points that are farther away than the tolerance (`C80_underflow_exceeds_tolerance`).
21. `simplify_vw` compares squared areas, which underflow for small coordinates: then a point with a larger area is deleted first (`C81_small_coordinates_lose_area`, f32 coordinates of about 2^-40).
22. `intersection_point` returns the common point without error if it is an end of the first segment, but not if it is an end of
    the second: (0,0)–(49,98) passes through (1,2), where the second segment starts, and a point one ulp off is reported
    (`C77_exact_at_the_ends`, `C77_not_exact_at_the_other_ends`).
23. Therefore `find_two_intersections` may report two different floats for one common point (`C82_two_reports_for_one_point`).
24. The three point test looks at sign bits, so a negative zero changes the answer of `is_self_intersecting` (`C83_negative_zero`).
25. `discretize` with a NaN, infinite or negative distance, or one so large that length/distance underflows, returns only the last point (and the start points of segments of length zero): `C84_bad_distance2`, `C84_underflow_drops_points`.
26. `discretize` with the distance 0, or with neighbours so far apart that the square of their distance overflows (`2^512` in `f64`, `2^64` in `f32`), returns `2^64 - 1` copies of the first point: `C84_zero_distance2`, `C84_huge_coordinates2`.
27. Hulls of very large finite points are wrong: with coordinates ±2^1023 the gift wrapping visits a corner twice and turns the wrong way, with ±2^600 `contains_point_inclusive` denies the centre of a square (`C71_hull_of_a_huge_square`, `C71_huge_square_loses_its_centre`).
28. `distance_to_line_squared` (2D and 3D) of a segment whose ends are equal is NaN, for every point; only the `_safe` versions handle the case (`C86_equal_ends_nan`).
29. `SimpleAffine`: a corner of the source box can be mapped outside of the destination box (by one unit in the last place), and points do not always come back (`C87_corner_leaves_the_destination`, `C87_corner_does_not_come_back`).
30. `SimpleAffine::new` with a source box whose size overflows reports no error; the transform maps every point to the centre of the destination (`C87_huge_box_collapses`).
31. `discretize_2d` and `discretize_3d` of an arc do not return (the stack grows until the memory is full) for a NaN tolerance, equal start and end points or equal projections, a segment that is a point, a cell point on the line of the segment, and for too small a tolerance: with `f32`, coordinates below 60 and the tolerance 2^-20 (`C88_*_never_end(s)`, `C88_small_tolerance_never_ends`).
32. Off the grid `closest_ray_intersection` can slip through a vertex: both edges compute a parameter just outside of [0,1] (`C89_a_ray_slips_through_a_vertex`, `f32`, coordinates with one decimal).
33. A point with a NaN coordinate hides the points before it from `simplify_rdp` (`max_by` with `unwrap_or(Equal)` is no order then): a point five units off the line is dropped with tolerance two (`C90_nan_point_hides_others`).
34. The comparison of `SiteEventKey`s with tolerances is not transitive, so with end points a few `f64::EPSILON` apart the event queue can hold two entries for one end point: two segments that start in the bitwise same point are not reported together, one of them is not reported at all (`C91_a_common_end_point_may_be_lost`). On a grid this cannot happen (C91).
35. `pop_first` of the event queue is emulated by `iter().next()` and `remove(&key)`, and the `remove` is a search. With six segments of finite doubles a few `f64::EPSILON` apart there are twelve keys, the root of the B-tree has the sixth, and the search for the first key goes to the right: `compute` fails with `InternalError` ("Found a key to pop but could not remove the value") although nothing is wrong with the segments; with a tree of one node the same comparison gives an empty result (`C79_an_internal_error_is_possible`).
36. `is_self_intersecting` (fewer than ten points) depends on the coordinate system: a straight line is reported or not depending on where it lies, and a line that ends by running along its own beginning is reported only in mirror image, because only one end of an overlap is compared with the end points (`C94_self_intersection_depends_on_coordinates`).
37. `with_edges` stores the edges as they are given while `with_lines` stores the rearranged lines, so with overlapping horizontal edges the report of `IntersectionTester` depends on the direction of an edge (`C60_direction_of_overlapping_edges`).
38. `WindowIterator` (2D) implements `ExactSizeIterator` without `size_hint`, which breaks the contract of that trait: `window_iter().take(n).len()` panics for every line string and `n > 0` (`C25_take_len_panics`).
39. `simplify_rdp` keeps the last one of several equally far points, so the result can depend on the direction of the line string (`C97_rdp_ties`).
40. `find_new_events` of the indexed sweep pushes a vertex for every intersection it detects, even if there is an event at that position; already two edges that share a vertex give an unused duplicate of it in the returned list (`C98_unused_vertices`).
41. The 3D `simplify_rdp` of a line string that lies in a plane drops points that the 2D version keeps (`C99_rdp_differs`), and the 3D `simplify_vw` goes below four points where the 2D version stops (`C99_vw_differs`).
42. `contains_convex_hull` of a hull of one point is false for every line, although `contains_point_inclusive` accepts the point; a doubled point contains every line (`C44_small_containers`, `C44_degenerate_containers`). With a container that is not convex the sequential and the parallel function can differ (`C44_differ_on_non_convex_containers`).
43. `indexed_graham_scan_no_loop` with a start other than the lowest leftmost point can return a loop that crosses itself, even if the start is a corner of the hull (`C100_other_starts`).
44. Of five or more equal points `graham_scan` returns one, not closed, and `gift_wrap` returns all of them; `graham_scan`, `gift_wrap` and `convex_hull_par` do not close hulls of two or three points, `indexed_graham_scan` and `indexed_gift_wrap` do (`C36_short_inputs_all`, `C36_equal_points`, `C40_short_inputs`, `C41_short_inputs`).
45. Because of the typo in the three point test `is_self_intersecting` of a bent line of three points can change with its direction: (1,0),(2,2),(3,3) intersects itself, (3,3),(2,2),(1,0) does not (`C101_self_intersection_depends_on_direction`).
46. `is_self_intersecting` of fewer than ten points depends on the first vertex of a closed line string, because its test of three consecutive points is not applied to the vertex that closes it: (0,0),(3,0),(0,4),(0,2),(0,0) intersects itself, the same triangle given from (0,2) on does not (`C108_what_depends_on_the_start`).
47. `closest_ray_intersection` depends on how a curve is divided into segments: with a point inserted in front of the origin into a segment along the ray it finds a hit, without it none (`C109_ray_along_a_segment`; cause: finding on collinear edges, C22).
48. `contains_point_inclusive` on `Aabb2::convex_hull` of a box without width or height accepts points outside of the box: every point if the box is a point, every point of the line if it is a segment (`C110_flat_boxes`; same cause as the degenerate hulls of C42).
49. The sweep can lose a crossing because of a third line: of (6,3)–(0,5), (0,4)–(2,1), (0,2)–(2,5) the first and the last cross at (18/11, 49/11), reported without the second line but not with it (`C112_a_further_line_hides_a_crossing`).
50. `is_self_intersecting` of fewer than ten points can be true for a convex hull: the triangle (2,1),(3,0),(4,5) (`C113_short_exceptions`).

## Trusted base

* Lean 4.33 kernel.
* Axioms: every theorem depends on at most `propext`, `Classical.choice` and `Quot.sound` (no axioms of our own, no compiled
  evaluation; examples on literals are checked with `decide +kernel`, i.e. by kernel reduction).  `ASSUMPTIONS.md` (generated by `scripts/assume.py`) lists, per theorem, the arithmetic laws in its
  statement and the axioms it depends on.
* For C71 and later: `Model/Float.lean` as a rendering of IEEE 754 (compared with the hardware's `Float` on 20000
  random pairs per operation with `scripts/floatcheck.lean.txt`, no difference), of `core::f64::{min, max}`, of `as usize` and of `ulps_eq` of
  the crate `approx` (from its documentation; the source is not available here).
* The reading of the Rust source.  `vector-traits` (dot, perp_dot, magnitude_sq, …), `approx`, `vob`,
  `ahash`, `smallvec`, `rayon`, `itertools` are dependencies whose source is not available here: their
  documented behaviour is modelled, as is that of `std` (sorting, heaps, slices, `max_by`).

## Running the model

`validation/run.sh` evaluates the definitions of `lean/Verif/Model` with native `f32` numbers on the random inputs of the project's
own tests, which assert exact counts, and compares the model of the floats with the hardware's.  Every number agrees
(`validation/README.md`): 7612 intersections of 250 random segments, 249 and 134 points of the simplifications, equal hulls of
3023 random points and of 1000 points on a circle, no difference between `Flt` and the hardware in 480 000 operations.  These are
tests of the model's fidelity, not proofs, and nothing in `lean/` depends on them.  The project's tests with literal inputs are
evaluated by the kernel in `lean/Verif/Golden`.

## Testing the theorems against wrong programs

`seeded/mutants*.py` list edits of the model (wrong boundary, swapped argument, dropped update, …), `seeded/run.py` applies them one by one
to a scratch copy, rebuilds, and records which theorems fail; `seeded/LOG.jsonl` has one line per attempt.
