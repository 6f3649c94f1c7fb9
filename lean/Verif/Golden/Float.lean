import Verif.Golden.Simplify
import Verif.Model.Misc
import Verif.Model.Aabb
import Verif.Model.LineString2
import Verif.Model.Sweep
import Verif.Model.Parabola
import Verif.Props.FloatContain
import Verif.Props.FloatTiny
import Verif.Props.FloatArc

/-!
# The project's own tests, run on the model in floating point

`/repo/tests/tests.rs` and `/repo/src/linestring_2d/indexed_intersection/tests.rs`, in `f32` as in the tests (`glam::Vec2`).
These are checks of the model against the code, not proofs of properties.  Not here: tests with square roots
(the kernel does not evaluate them), tests with random input.
-/

namespace Verif.Golden.Single
open Verif Model Props Props.ArcFlt

/-- `atan2` is not used in these tests -/
local instance : Libm b32 := noAtan b32
/-- the search trees of the sweep line have one node -/
local instance : TreeShape F32 := TreeShape.oneNode F32

/-- a decimal literal: `d n e` is `n` divided by ten to the `e` -/
def d (n : ℤ) (e : ℕ) : F32 := Flt.ofQ false (n / 10 ^ e)
def ln (a b c e : ℤ) : Line2 F32 := ⟨ipt b32 a b, ipt b32 c e⟩
def i3 (a b c : ℤ) : V3 F32 := ⟨d a 0, d b 0, d c 0⟩

/-- tests.rs `intersection_1`, `intersection_2`, `intersection_6`, `intersection_7`, `intersection_11`, `intersection_12` -/
example : (ln 200 200 300 300).intersectionPoint (ln 400 200 300 300) = some (.point (ipt b32 300 300)) ∧
    ((ln 200 200 300 300).intersectionPoint (ln 400 200 300 300)).map (fun i => i.closest (ipt b32 201 201)) =
      some (ipt b32 300 300) ∧
    (ln 200 200 300 400).intersectionPoint (ln 400 200 300 400) = some (.point (ipt b32 300 400)) ∧
    (ln 100 150 150 100).intersectionPoint (ln 150 100 160 150) = some (.point (ipt b32 150 100)) ∧
    (ln 100 150 150 100).intersectionPoint (ln 100 150 150 100) = some (.overlap (ln 100 150 150 100)) ∧
    (ln (-1) 0 1000 0).intersectionPoint (ln 0 0 5 0) = some (.overlap (ln 0 0 5 0)) ∧
    (ln 0 0 5 0).intersectionPoint (ln (-1) 0 1000 0) = some (.overlap (ln 0 0 5 0)) ∧
    (ln 4 (-9) (-10) 2).intersectionPoint (ln (-3) (-3) (-3) 3) = none ∧
    (ln (-3) (-3) (-3) 3).intersectionPoint (ln 4 (-9) (-10) 2) = none := by decide +kernel

/-- tests.rs `intersection_9`, `intersection_10`: lines through (200, 200), every 15 degrees, with the rounding of `pivot`
(tests.rs 30-57) -/
def pivots9 : List (Line2 F32) :=
  [(⟨⟨q32 (250) 0, q32 (200) 0⟩, ⟨q32 (199) 0, q32 (200) 0⟩⟩ : Line2 F32),
  (⟨⟨q32 (8136173) 15, q32 (6977649) 15⟩, ⟨q32 (13043897) 16, q32 (6545119) 15⟩⟩ : Line2 F32),
  (⟨⟨q32 (498281) 11, q32 (225) 0⟩, ⟨q32 (3262611) 14, q32 (399) 1⟩⟩ : Line2 F32),
  (⟨⟨q32 (1928031) 13, q32 (1928031) 13⟩, ⟨q32 (13060859) 16, q32 (13060859) 16⟩⟩ : Line2 F32),
  (⟨⟨q32 (225) 0, q32 (498281) 11⟩, ⟨q32 (399) 1, q32 (3262611) 14⟩⟩ : Line2 F32),
  (⟨⟨q32 (6977649) 15, q32 (8136173) 15⟩, ⟨q32 (6545119) 15, q32 (13043897) 16⟩⟩ : Line2 F32),
  (⟨⟨q32 (200) 0, q32 (250) 0⟩, ⟨q32 (200) 0, q32 (199) 0⟩⟩ : Line2 F32),
  (⟨⟨q32 (6129551) 15, q32 (8136173) 15⟩, ⟨q32 (6562081) 15, q32 (13043897) 16⟩⟩ : Line2 F32),
  (⟨⟨q32 (175) 0, q32 (498281) 11⟩, ⟨q32 (401) 1, q32 (3262611) 14⟩⟩ : Line2 F32),
  (⟨⟨q32 (1348769) 13, q32 (1928031) 13⟩, ⟨q32 (13153541) 16, q32 (13060859) 16⟩⟩ : Line2 F32),
  (⟨⟨q32 (320919) 11, q32 (225) 0⟩, ⟨q32 (3290989) 14, q32 (399) 1⟩⟩ : Line2 F32),
  (⟨⟨q32 (4971027) 15, q32 (13955299) 16⟩, ⟨q32 (13170503) 16, q32 (6545119) 15⟩⟩ : Line2 F32),
  (⟨⟨q32 (150) 0, q32 (200) 0⟩, ⟨q32 (201) 0, q32 (200) 0⟩⟩ : Line2 F32),
  (⟨⟨q32 (4971027) 15, q32 (6129551) 15⟩, ⟨q32 (13170503) 16, q32 (6562081) 15⟩⟩ : Line2 F32),
  (⟨⟨q32 (320919) 11, q32 (175) 0⟩, ⟨q32 (3290989) 14, q32 (401) 1⟩⟩ : Line2 F32),
  (⟨⟨q32 (1348769) 13, q32 (10790153) 16⟩, ⟨q32 (13153541) 16, q32 (13153541) 16⟩⟩ : Line2 F32),
  (⟨⟨q32 (175) 0, q32 (320919) 11⟩, ⟨q32 (401) 1, q32 (3290989) 14⟩⟩ : Line2 F32),
  (⟨⟨q32 (6129551) 15, q32 (4971027) 15⟩, ⟨q32 (6562081) 15, q32 (13170503) 16⟩⟩ : Line2 F32),
  (⟨⟨q32 (200) 0, q32 (150) 0⟩, ⟨q32 (200) 0, q32 (201) 0⟩⟩ : Line2 F32),
  (⟨⟨q32 (6977649) 15, q32 (4971027) 15⟩, ⟨q32 (6545119) 15, q32 (13170503) 16⟩⟩ : Line2 F32),
  (⟨⟨q32 (225) 0, q32 (320919) 11⟩, ⟨q32 (399) 1, q32 (3290989) 14⟩⟩ : Line2 F32),
  (⟨⟨q32 (15424247) 16, q32 (1348769) 13⟩, ⟨q32 (13060859) 16, q32 (13153541) 16⟩⟩ : Line2 F32),
  (⟨⟨q32 (498281) 11, q32 (11468799) 16⟩, ⟨q32 (3262611) 14, q32 (401) 1⟩⟩ : Line2 F32),
  (⟨⟨q32 (8136173) 15, q32 (12259101) 16⟩, ⟨q32 (13043897) 16, q32 (6562081) 15⟩⟩ : Line2 F32)]
def pivotsRay : List (Line2 F32) :=
  [(⟨⟨q32 (16383501) 16, q32 (3291097) 14⟩, ⟨q32 (1605637) 13, q32 (13102625) 16⟩⟩ : Line2 F32),
  (⟨⟨q32 (16076989) 16, q32 (3623009) 14⟩, ⟨q32 (12869617) 16, q32 (12996413) 16⟩⟩ : Line2 F32),
  (⟨⟨q32 (7628487) 15, q32 (1947529) 13⟩, ⟨q32 (6467609) 15, q32 (12909357) 16⟩⟩ : Line2 F32),
  (⟨⟨q32 (3516311) 14, q32 (4060205) 14⟩, ⟨q32 (3257639) 14, q32 (6428255) 15⟩⟩ : Line2 F32),
  (⟨⟨q32 (12707859) 16, q32 (16359575) 16⟩, ⟨q32 (13139147) 16, q32 (6423505) 15⟩⟩ : Line2 F32),
  (⟨⟨q32 (2854881) 14, q32 (7957983) 15⟩, ⟨q32 (6621107) 15, q32 (12882499) 16⟩⟩ : Line2 F32),
  (⟨⟨q32 (5211501) 15, q32 (14986695) 16⟩, ⟨q32 (832621) 12, q32 (1619605) 13⟩⟩ : Line2 F32),
  (⟨⟨q32 (2472651) 14, q32 (13732443) 16⟩, ⟨q32 (835283) 12, q32 (13057181) 16⟩⟩ : Line2 F32),
  (⟨⟨q32 (619649) 12, q32 (386565) 11⟩, ⟨q32 (13362625) 16, q32 (6583085) 15⟩⟩ : Line2 F32),
  (⟨⟨q32 (5245115) 15, q32 (2783793) 14⟩, ⟨q32 (6658279) 15, q32 (6632481) 15⟩⟩ : Line2 F32),
  (⟨⟨q32 (719911) 12, q32 (5120623) 15⟩, ⟨q32 (6617145) 15, q32 (3334119) 14⟩⟩ : Line2 F32),
  (⟨⟨q32 (1602701) 13, q32 (4921435) 15⟩, ⟨q32 (13130047) 16, q32 (6684173) 15⟩⟩ : Line2 F32),
  (⟨⟨q32 (7087011) 15, q32 (10008925) 16⟩, ⟨q32 (6510927) 15, q32 (6677531) 15⟩⟩ : Line2 F32),
  (⟨⟨q32 (3835493) 14, q32 (2677675) 14⟩, ⟨q32 (6464209) 15, q32 (1662365) 13⟩⟩ : Line2 F32),
  (⟨⟨q32 (8061755) 15, q32 (2956713) 14⟩, ⟨q32 (12865895) 16, q32 (3302407) 14⟩⟩ : Line2 F32)]

/-- an overlap equal to the line within `ulps_eq` (in either direction: impls.rs 214-236) -/
def overlaps (r : Option (Intersection F32)) (l : Line2 F32) : Bool :=
  match r with
  | some (.overlap a) => a.approxEq Scalar.ulpsEq l
  | _ => false
example : pivots9.all (fun l => overlaps (l.intersectionPoint l) l && overlaps (l.intersectionPoint ⟨l.end, l.start⟩) l) = true := by
  decide +kernel

/-- tests.rs `ray_intersection_1` -/
example : (closestRayIntersection [ipt b32 0 200, ipt b32 0 (-200)] (ipt b32 401 0) (ipt b32 (-400) 0)).isSome ∧
    closestRayIntersection [ipt b32 0 200, ipt b32 0 (-200)] (ipt b32 (-401) 0) (ipt b32 (-400) 0) = none := by decide +kernel

/-- tests.rs `ray_intersection_2` (every 24 degrees): a hit within 0.001 of (200, 200) -/
def near200 (x : F32) : Bool := Flt.le (Flt.abs (Flt.sub x (d 200 0))) (d 1 3)
example : pivotsRay.all (fun l => match closestRayIntersection [l.start, l.end] (ipt b32 1 0) (ipt b32 10 200) with
    | some p => near200 p.x && near200 p.y
    | none => false) = true := by decide +kernel

/-- tests.rs `self_intersecting_1` -/
def tenPoints (y : F32) : List (V2 F32) :=
  [ipt b32 0 0, ipt b32 1 0, ipt b32 2 0, ipt b32 3 0, ipt b32 4 0, ipt b32 5 0, ipt b32 10 0, ipt b32 1 10, ipt b32 0 10, ⟨d 1 0, y⟩]
example : isSelfIntersectingLong (fun _ l => l) 100 (tenPoints (d 5 1)) = .ok false ∧
    isSelfIntersectingLong (fun _ l => l) 100 (tenPoints (d (-5) 1)) = .ok true ∧
    (intersection2 (tenPoints (d (-5) 1)) (ln 0 0 1 1)).isSome ∧
    (findTwo2 (tenPoints (d (-5) 1)) (ln 0 0 1 1)).1.isSome ∧ (findTwo2 (tenPoints (d (-5) 1)) (ln 0 0 1 1)).2.isSome ∧
    (findAll2 (tenPoints (d (-5) 1)) (ln 0 0 1 1)).length = 2 := by decide +kernel

/-- tests.rs `another_test` -/
example : isSelfIntersectingShort [ipt b32 0 10, ipt b32 5 51, ipt b32 15 51] = some false := by decide +kernel

/-- tests.rs `intersection_13`, indexed_intersection/tests.rs `test_indexed_intersection_1` -/
def poly13 : List (V2 F32) :=
  [⟨d 6513134 4, d 41021536 5⟩, ⟨d 3357384 4, d 54454614 5⟩, ⟨d 15429922 5, d 36310654 5⟩,
   ⟨d 42506284 5, d 25550153 5⟩, ⟨d 6511434 4, d 38716595 5⟩, ⟨d 250 0, d 300 0⟩]
example : isSelfIntersectingShort poly13 = some true ∧
    (indexedSweepIntersections (fun _ l => l) 100 true true poly13 [(0, 1), (2, 3), (4, 5)]).toOption.map
      (fun r => (r.1.length, r.2.length)) = some (7, 1) := by decide +kernel

/-- tests.rs `transform_test_1`, `transform_test_2` -/
def box (a b c e : ℤ) : Aabb2 F32 := Aabb2.fromIter [ipt b32 a b, ipt b32 c e]
def ab (x y : Aabb2 F32) (p : V2 F32) : Option (V2 F32) := (SimpleAffine.new x y).bind (fun t => t.transformAb p)
def ba (x y : Aabb2 F32) (p : V2 F32) : Option (V2 F32) := (SimpleAffine.new x y).bind (fun t => t.transformBa p)
example : ab (box 0 0 1 1) (box 1 1 2 2) (ipt b32 0 0) = some (ipt b32 1 1) ∧ ab (box 0 0 1 1) (box 1 1 2 2) (ipt b32 1 1) = some (ipt b32 2 2) ∧
    ab (box 0 0 1 1) (box 1 1 2 2) (ipt b32 0 1) = some (ipt b32 1 2) ∧ ab (box 0 0 1 1) (box 1 1 2 2) (ipt b32 1 0) = some (ipt b32 2 1) := by
  decide +kernel
example : ab (box (-100) (-100) 100 100) (box 0 0 800 800) (ipt b32 (-100) (-100)) = some (ipt b32 0 0) ∧
    ba (box (-100) (-100) 100 100) (box 0 0 800 800) (ipt b32 0 0) = some (ipt b32 (-100) (-100)) ∧
    ab (box (-100) (-100) 100 100) (box 0 0 800 800) (ipt b32 100 100) = some (ipt b32 800 800) ∧
    ba (box (-100) (-100) 100 100) (box 0 0 800 800) (ipt b32 800 800) = some (ipt b32 100 100) := by decide +kernel

/-- tests.rs `distance_to_line_squared_01` -/
example : distToLineSq2 (ipt b32 0 0) (ipt b32 1 0) (ipt b32 (-2) 0) = d 4 0 ∧
    distToLineSq2 (ipt b32 0 0) (ipt b32 1 0) (ipt b32 4 0) = d 9 0 ∧
    distToLineSq2 (ipt b32 0 0) (ipt b32 1 0) ⟨d 5 1, d 2 0⟩ = d 4 0 ∧
    distToLineSq2 (ipt b32 0 0) (ipt b32 1 0) ⟨d 5 1, d (-2) 0⟩ = d 4 0 := by decide +kernel

/-- tests.rs `simplify_1` to `simplify_7`, `simplify_vw_1` to `simplify_vw_3` -/
def loop7 : List (V2 F32) :=
  [ipt b32 77 613, ipt b32 689 650, ipt b32 710 467, ipt b32 220 200, ipt b32 120 300, ipt b32 100 100, ipt b32 77 613]
def loop7' : List (V3 F32) := loop7.map (fun p => ⟨p.x, p.y, d 0 0⟩)
def vw2 (l : List (V2 F32)) (n : Nat) : Except Err (List (V2 F32)) := simplifyVw2 (fun _ heap => leastPos heap) 100 l n
def vw3 (l : List (V3 F32)) (n : Nat) : Except Err (List (V3 F32)) := simplifyVw3 (fun _ heap => leastPos heap) 100 l n
example : count (simplifyRdp2 [ipt b32 10 10, ipt b32 13 11, ipt b32 20 10] (d 10 0)) = some 2 ∧
    count (simplifyRdp2 [ipt b32 10 10, ipt b32 13 11, ipt b32 20 10] (d 1 1)) = some 3 ∧
    count (simplifyRdp2 [ipt b32 10 10, ipt b32 20 10] (d 1 1)) = some 2 ∧
    count (simplifyRdp2 [ipt b32 10 10, ipt b32 15 12, ipt b32 17 13, ipt b32 20 10] (d 11 1)) = some 3 ∧
    count (simplifyRdp2 loop7 (d 1 0)) = some 7 ∧ (simplifyRdp2 loop7 (d 1 0)).toOption.map pointCount2 = some 6 ∧
    count (simplifyRdp3 loop7' (d 1 0)) = some 7 ∧ count (vw3 loop7' 1) = some 5 ∧
    count (indexedSimplifyRdp2 [ipt b32 0 3, ipt b32 1 2, ipt b32 4 1, ipt b32 0 0] [0, 1, 2, 3] (d 1 0)) = some 3 ∧
    count (simplifyRdp2 [ipt b32 0 3, ipt b32 1 2, ipt b32 4 1, ipt b32 0 0] (d 1 0)) = some 3 ∧
    count (vw2 [ipt b32 0 3, ipt b32 1 2, ipt b32 4 1, ipt b32 0 0] 1) = some 4 ∧
    count (indexedSimplifyRdp3 [i3 0 3 0, i3 1 2 0, i3 4 1 0, i3 0 0 0] [0, 1, 2, 3] (d 1 0)) = some 3 ∧
    count (simplifyRdp3 [i3 0 3 0, i3 1 2 0, i3 4 1 0, i3 0 0 0] (d 1 0)) = some 3 ∧
    count (vw3 [i3 0 3 0, i3 1 2 0, i3 4 1 0, i3 0 0 0] 1) = some 2 ∧
    count (simplifyRdp3 [i3 0 3 0, i3 1 2 0] (d 1000 0)) = some 2 ∧ count (vw3 [i3 0 3 0, i3 1 2 0] 1000) = some 2 ∧
    count (vw2 loop7 4) = some 3 ∧
    count (vw2 [ipt b32 0 0, ipt b32 100 0, ipt b32 99 99, ipt b32 100 100, ipt b32 101 101, ipt b32 0 100, ipt b32 0 0] 2) = some 5 := by
  decide +kernel

/-- convex_hull/tests.rs `contains_point_exclusive_1`, `contains_point_inclusive_1`; in `f32` 10.0000001 is 10 -/
def square10 : List (V2 F32) := [ipt b32 0 0, ipt b32 10 0, ipt b32 10 10, ipt b32 0 10, ipt b32 0 0]
def probes : List (V2 F32) :=
  [ipt b32 5 6, ipt b32 0 0, ipt b32 0 10, ipt b32 10 10, ipt b32 5 10, ⟨d 999999 5, d 999999 5⟩, ⟨d 10 0, d 999999 5⟩]
example : probes.mapM (containsPointExclusive square10) = .ok [true, false, false, false, false, true, false] ∧
    probes.mapM (containsPointInclusive square10) = .ok [true, true, true, true, true, true, true] := by decide +kernel

/-- tests.rs `convex_hull_0`, `convex_hull_1`, `convex_hull_4`, `convex_hull_5`: gift wrapping -/
def hull0 : List (V2 F32) := [ipt b32 0 0, ipt b32 100 0, ipt b32 100 100, ipt b32 0 100, ipt b32 1 1220, ipt b32 50 2, ipt b32 0 0]
def hull4 : List (V2 F32) := List.replicate 7 (ipt b32 0 0) ++
  [⟨d 5027466 6, d 139643 5⟩, ⟨d 572535 6, d 340357 5⟩, ⟨d 1796431 6, d 172535 6⟩, ⟨d 380357 5, d 4627465 6⟩]
def hull5 : List (V2 F32) := [ipt b32 0 0, ipt b32 2 3, ipt b32 4 3, ipt b32 6 3, ipt b32 1 1, ipt b32 7 4]
example : giftWrap 100 hull0 =
      .ok [ipt b32 0 0, ipt b32 100 0, ipt b32 100 100, ipt b32 1 1220, ipt b32 0 100, ipt b32 0 0] ∧
    (giftWrap 100 hull0).bind (fun h => allM (fun p => lineContainsInclusive h p) hull0) = .ok true ∧
    indexedGiftWrap 100 hull4 [7, 8, 9, 10] = .ok [8, 9, 7, 10, 8] ∧
    giftWrap 100 hull5 = .ok [ipt b32 0 0, ipt b32 6 3, ipt b32 7 4, ipt b32 2 3, ipt b32 0 0] ∧
    indexedGiftWrap 100 hull5 (List.range 6) = .ok [0, 3, 5, 1, 0] := by decide +kernel

/-- tests.rs `voronoi_parabolic_arc_1` -/
example : Arc.discretize2d 100 (⟨ln 100 100 300 100, ipt b32 200 200, ipt b32 100 200, ipt b32 300 200⟩ : Arc F32) (d 8 1) =
    some [ipt b32 100 200, ⟨d 125 0, d 178125 3⟩, ⟨d 150 0, d 1625 1⟩, ⟨d 175 0, d 153125 3⟩, ipt b32 200 150, ⟨d 225 0, d 153125 3⟩,
      ⟨d 250 0, d 1625 1⟩, ⟨d 275 0, d 178125 3⟩, ipt b32 300 200] := by decide +kernel

end Verif.Golden.Single
