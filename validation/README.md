# Running the model

The search trees of the sweep line are searched from the middle here (`TreeShape.middle`); with `TreeShape.oneNode` the numbers are the same.

`run.sh` evaluates the definitions of `lean/Verif/Model` themselves (no copy) with Lean's native `Float32` as scalar,
with the random generator of the tests (`StdRng` = ChaCha12, `gen_range` of rand 0.8) written out in `base.txt`.
The project's tests assert exact numbers for these inputs; the model has to give the same ones.

| test | asserted by the project | model |
|---|---|---|
| `intersection_14`: 250 random segments, number of intersections | 7612 | 7612 |
| `intersection_14`: `is_self_intersecting` of the 500 points | true | true |
| `simplify_8`: `simplify_vw(250)` of 500 random points | 249 | 249 |
| `simplify_8`: `indexed_simplify_rdp_3d(3.5)`, `simplify_rdp(3.5)` | 134, 134 | 134, 134 |
| `convex_hull_2`: 3023 random points, the three hulls agree | true | true (25 points) |
| `convex_hull_3`: containment of the hulls, both ways, all variants | t t f f, t t f f | the same |
| `convex_hull_circle`: 1000 points on a circle, five hulls agree | true | true (1001 points) |
| doc tests of the hull functions (centre left of every edge, points left of every edge) | true | true |
| `intersection_5`, `_9`, `_10`, `ray_intersection_2`: rotated segments | true | true |
| `simplify_vw_4`, `test_indexed_intersection_1`, `intersection_13` | 12 points; 7 vertices, 1 result | the same |

`float.txt` compares every operation of the model of floating point numbers (`Flt b32`, `Flt b64`: `+ - * /`, `sqrt`, `ceil`,
`<`, `<=`, `==`, `ulps_eq`, sign, finiteness, negation, absolute value, conversion to usize, bit patterns) with the hardware's on
20000 pairs of `f32` and 9990 pairs of `f64`, random and special (zeros, infinities, NaN, subnormals, ties, neighbours):
no difference.

These are tests of the model, not proofs.  The other tests of the project with literal inputs are run in the kernel, in
`lean/Verif/Golden`.
