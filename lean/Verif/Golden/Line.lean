import Verif.Model.Misc
import Verif.Model.Aabb
import Verif.Model.LineString2
import Verif.Model.Sweep
import Verif.Model.Parabola
import Verif.Model.Discretize
import Verif.Model.Obj
import Verif.Spec.Instances

/-!
# The project's own tests of lines, boxes, iterators and intersections, run on the model

Not here: `intersection_3` and `intersection_4` (a line and a point) take square roots of rational numbers, see `C69_*` for that
function; tests with random input.

`/repo/tests/tests.rs`, `/repo/src/linestring_2d/tests.rs`, `/repo/src/linestring_3d/tests.rs`, with exact rational
arithmetic instead of floats.  These are checks of the model against the code, not proofs of properties.
-/

namespace Verif.Golden
open Verif Model

def ln (a b c d : ℚ) : Line2 FQ := ⟨⟨.fin a, .fin b⟩, ⟨.fin c, .fin d⟩⟩
def lq (a b c d : ℚ) : Line2 ℚ := ⟨⟨a, b⟩, ⟨c, d⟩⟩
def pq (a b : ℚ) : V2 FQ := ⟨.fin a, .fin b⟩

/-- tests.rs `linestring2_1` -/
example : pointCount2 ([⟨0, 0⟩, ⟨1, 1⟩, ⟨2, 2⟩, ⟨3, 3⟩, ⟨1, 10⟩] : List (V2 ℚ)) = 5 ∧
    (windowIter2 ([⟨0, 0⟩, ⟨1, 1⟩, ⟨2, 2⟩, ⟨3, 3⟩, ⟨1, 10⟩] : List (V2 ℚ))).length = 4 := by decide +kernel

/-- tests.rs `aabb_1` -/
example : (Aabb2.fromIter ([⟨0, 0⟩, ⟨10, 1⟩] : List (V2 ℚ))).convexHull =
      some [⟨0, 0⟩, ⟨10, 0⟩, ⟨10, 1⟩, ⟨0, 1⟩, ⟨0, 0⟩] ∧
    (Aabb2.fromIter ([⟨0, 0⟩, ⟨10, 1⟩] : List (V2 ℚ))).toVec = [⟨0, 0⟩, ⟨10, 0⟩, ⟨10, 1⟩, ⟨0, 1⟩, ⟨0, 0⟩] := by
  decide +kernel

/-- tests.rs `intersection_1`, `intersection_2` -/
example : (lq 200 200 300 300).intersectionPoint (lq 400 200 300 300) = some (.point ⟨300, 300⟩) ∧
    ((lq 200 200 300 300).intersectionPoint (lq 400 200 300 300)).map (fun i => i.closest ⟨201, 201⟩) = some ⟨300, 300⟩ ∧
    (lq 200 200 300 400).intersectionPoint (lq 400 200 300 400) = some (.point ⟨300, 400⟩) := by decide +kernel

/-- tests.rs `intersection_7`: equal lines -/
example : (lq 100 150 150 100).intersectionPoint (lq 100 150 150 100) = some (.overlap (lq 100 150 150 100)) := by
  decide +kernel

/-- tests.rs `intersection_12`: overlapping lines -/
example : (lq (-1) 0 1000 0).intersectionPoint (lq 0 0 5 0) = some (.overlap (lq 0 0 5 0)) ∧
    (lq 0 0 5 0).intersectionPoint (lq (-1) 0 1000 0) = some (.overlap (lq 0 0 5 0)) := by decide +kernel

/-- tests.rs `intersection_11` -/
example : (lq 4 (-9) (-10) 2).intersectionPoint (lq (-3) (-3) (-3) 3) = none ∧
    (lq (-3) (-3) (-3) 3).intersectionPoint (lq 4 (-9) (-10) 2) = none := by decide +kernel

/-- tests.rs `ray_intersection_1` -/
example : closestRayIntersection ([⟨0, 200⟩, ⟨0, -200⟩] : List (V2 ℚ)) ⟨401, 0⟩ ⟨-400, 0⟩ = some ⟨0, 0⟩ ∧
    closestRayIntersection ([⟨0, 200⟩, ⟨0, -200⟩] : List (V2 ℚ)) ⟨-401, 0⟩ ⟨-400, 0⟩ = none := by decide +kernel

/-- the search trees of the sweep line have one node (at most eleven keys) in these tests -/
local instance : TreeShape ℚ := TreeShape.oneNode ℚ

/-- tests.rs `self_intersecting_1` -/
def tenPoints (y : ℚ) : List (V2 ℚ) :=
  [⟨0, 0⟩, ⟨1, 0⟩, ⟨2, 0⟩, ⟨3, 0⟩, ⟨4, 0⟩, ⟨5, 0⟩, ⟨10, 0⟩, ⟨1, 10⟩, ⟨0, 10⟩, ⟨1, y⟩]
example : isSelfIntersectingLong (fun _ l => l) 100 (tenPoints (1 / 2)) = .ok false ∧
    isSelfIntersectingLong (fun _ l => l) 100 (tenPoints (-1 / 2)) = .ok true ∧
    (intersection2 (tenPoints (-1 / 2)) (lq 0 0 1 1)).isSome ∧
    (findTwo2 (tenPoints (-1 / 2)) (lq 0 0 1 1)).1.isSome ∧ (findTwo2 (tenPoints (-1 / 2)) (lq 0 0 1 1)).2.isSome ∧
    (findAll2 (tenPoints (-1 / 2)) (lq 0 0 1 1)).length = 2 := by decide +kernel

/-- tests.rs `another_test` -/
example : isSelfIntersectingShort ([⟨0, 10⟩, ⟨5, 51⟩, ⟨15, 51⟩] : List (V2 ℚ)) = some false := by decide +kernel

/-- tests.rs `intersection_13` -/
def poly13 : List (V2 ℚ) :=
  [⟨6513134 / 10000, 41021536 / 100000⟩, ⟨3357384 / 10000, 54454614 / 100000⟩, ⟨15429922 / 100000, 36310654 / 100000⟩,
   ⟨42506284 / 100000, 25550153 / 100000⟩, ⟨6511434 / 10000, 38716595 / 100000⟩, ⟨250, 300⟩]
example : isSelfIntersectingShort poly13 = some true ∧
    (indexedSweepIntersections (fun _ l => l) 100 true true poly13 [(0, 1), (2, 3), (4, 5)]).toOption.map
      (fun r => (r.1.length, r.2.length)) = some (7, 1) := by decide +kernel

/-- tests.rs `transform_test_1`, `transform_test_2`, `transform_test_3` -/
def box (a b c d : ℚ) : Aabb2 ℚ := Aabb2.fromIter [⟨a, b⟩, ⟨c, d⟩]
def ab (x y : Aabb2 ℚ) (p : V2 ℚ) : Option (V2 ℚ) := (SimpleAffine.new x y).bind (fun t => t.transformAb p)
def ba (x y : Aabb2 ℚ) (p : V2 ℚ) : Option (V2 ℚ) := (SimpleAffine.new x y).bind (fun t => t.transformBa p)
example : ab (box 0 0 1 1) (box 1 1 2 2) ⟨0, 0⟩ = some ⟨1, 1⟩ ∧ ab (box 0 0 1 1) (box 1 1 2 2) ⟨1, 1⟩ = some ⟨2, 2⟩ ∧
    ab (box 0 0 1 1) (box 1 1 2 2) ⟨0, 1⟩ = some ⟨1, 2⟩ ∧ ab (box 0 0 1 1) (box 1 1 2 2) ⟨1, 0⟩ = some ⟨2, 1⟩ := by
  decide +kernel
example : ab (box (-100) (-100) 100 100) (box 0 0 800 800) ⟨-100, -100⟩ = some ⟨0, 0⟩ ∧
    ba (box (-100) (-100) 100 100) (box 0 0 800 800) ⟨0, 0⟩ = some ⟨-100, -100⟩ ∧
    ab (box (-100) (-100) 100 100) (box 0 0 800 800) ⟨100, 100⟩ = some ⟨800, 800⟩ ∧
    ba (box (-100) (-100) 100 100) (box 0 0 800 800) ⟨800, 800⟩ = some ⟨100, 100⟩ ∧
    (SimpleAffine.new (box (-100) (-100) 100 100) (box 0 0 800 800)).bind (fun t => t.transformAbA (⟨-100, -100⟩, ⟨100, 100⟩)) =
      some (⟨0, 0⟩, ⟨800, 800⟩) ∧
    (SimpleAffine.new (box (-100) (-100) 100 100) (box 0 0 800 800)).bind (fun t => t.transformBaA (⟨0, 0⟩, ⟨800, 800⟩)) =
      some (⟨-100, -100⟩, ⟨100, 100⟩) := by decide +kernel

/-- tests.rs `voronoi_parabolic_arc_1` -/
example : Arc.discretize2d 100 (⟨lq 100 100 300 100, ⟨200, 200⟩, ⟨100, 200⟩, ⟨300, 200⟩⟩ : Arc ℚ) (4 / 5) =
    some [⟨100, 200⟩, ⟨125, 178125 / 1000⟩, ⟨150, 1625 / 10⟩, ⟨175, 153125 / 1000⟩, ⟨200, 150⟩, ⟨225, 153125 / 1000⟩,
      ⟨250, 1625 / 10⟩, ⟨275, 178125 / 1000⟩, ⟨300, 200⟩] := by decide +kernel

/-- src/linestring_2d/tests.rs `test_discretize_2d_1`, src/linestring_3d/tests.rs `test_discretize_3d_1` -/
example : (Arc.discretize2d 100 (⟨lq 0 0 10 0, ⟨1 / 2, 1 / 2⟩, ⟨0, 0⟩, ⟨10, 0⟩⟩ : Arc ℚ) (1 / 10)).map List.length = some 10 ∧
    (Arc.discretize3d 100 (⟨lq 0 0 10 0, ⟨1 / 2, 1 / 2⟩, ⟨0, 0⟩, ⟨10, 0⟩⟩ : Arc ℚ) (1 / 10)).map List.length = some 10 := by
  decide +kernel

/-- src/linestring_2d/tests.rs `test_linestring_iter_1` and src/linestring_3d/tests.rs `test_linestring_iter_1` -/
example : (List.range 7).map (fun k => ((windows2 (List.range (7 - k))).length, (chunkIter2 (List.replicate (7 - k) (⟨0, 0⟩ : V2 ℚ))).length)) =
    [(6, 3), (5, 3), (4, 2), (3, 2), (2, 1), (1, 1), (0, 0)] ∧
    (List.range 7).map (fun k => (windowLen (List.range (7 - k)), chunkLen (chunkNew (List.range (7 - k))))) =
    [(6, 3), (5, 3), (4, 2), (3, 2), (2, 1), (1, 1), (0, 0)] ∧
    (chunkRemainder (chunkNew (List.range 7))).length = 1 ∧ (chunkRemainder (chunkNew (List.range 1))).length = 1 := by
  decide +kernel

/-- src/linestring_2d/tests.rs `test_linestring_iter_2`: start points of the segments -/
example : (windows2 (List.range 7)).map (·.1) = [0, 1, 2, 3, 4, 5] ∧
    (chunkIter2 ((List.range 7).map (fun (i : Nat) => (⟨i, 0⟩ : V2 ℚ)))).map (·.start.x) = [0, 2, 4] := by decide +kernel

/-- src/linestring_2d/tests.rs `test_aabb2_1` -/
def box10 : Aabb2 ℚ := Aabb2.withPoints [⟨0, 0⟩, ⟨10, 10⟩]
example : box10.center = some ⟨5, 5⟩ ∧ box10.containsPoint ⟨0, 0⟩ ∧ box10.containsPoint ⟨10, 10⟩ ∧ box10.containsPoint ⟨0, 10⟩ ∧
    box10.containsPoint ⟨10, 0⟩ ∧ box10.containsAabb box10 ∧ (∀ l ∈ chunkIter2 box10.toVec, box10.containsLine l) ∧
    box10.extents = some (⟨0, 0⟩, ⟨10, 10⟩, ⟨10, 10⟩) ∧ (Aabb2.default : Aabb2 ℚ).extents = none ∧
    ((Aabb2.new (⟨0, 0⟩ : V2 ℚ)).updateWithAabb (Aabb2.withPoints [⟨1, 1⟩, ⟨11, 11⟩])).containsAabb
      (Aabb2.withPoints [⟨1, 1⟩, ⟨11, 11⟩]) := by decide +kernel

/-- src/linestring_3d/tests.rs `test_aabb3_1`, `test_aabb3_2` -/
def cube : Aabb3 ℚ := Aabb3.withPoints [⟨0, 0, 0⟩, ⟨10, 10, 10⟩]
example : cube.center = some ⟨5, 5, 5⟩ ∧ cube.containsPoint ⟨0, 0, 0⟩ ∧ cube.containsPoint ⟨10, 10, 0⟩ ∧ cube.containsPoint ⟨0, 10, 0⟩ ∧
    cube.containsPoint ⟨10, 0, 0⟩ ∧ cube.containsPoint ⟨0, 0, 10⟩ ∧ cube.containsPoint ⟨10, 10, 10⟩ ∧ cube.containsPoint ⟨0, 10, 10⟩ ∧
    cube.containsPoint ⟨10, 0, 10⟩ ∧ cube.containsLine ⟨⟨1 / 10, 1 / 10, 1 / 10⟩, ⟨2 / 10, 2 / 10, 2 / 10⟩⟩ ∧ cube.containsAabb cube ∧
    cube.extents = some (⟨0, 0, 0⟩, ⟨10, 10, 10⟩, ⟨10, 10, 10⟩) ∧ (Aabb3.default : Aabb3 ℚ).extents = none ∧
    (Aabb3.ofScalars (0 : ℚ) 0 0 10 10 10).center = some ⟨5, 5, 5⟩ ∧
    (Aabb3.ofCorners (⟨0, 0, 0⟩ : V3 ℚ) ⟨10, 10, 10⟩).center = some ⟨5, 5, 5⟩ := by decide +kernel

/-- src/linestring_3d/tests.rs `test_get_plane_xy`, `test_get_plane_xz`, `test_get_plane_yz` -/
def ptsXy : List (V3 ℚ) := [⟨1, 0, 0⟩, ⟨0, 1, 0⟩, ⟨1, 1, 0⟩]
def ptsXz : List (V3 ℚ) := [⟨1, 0, 0⟩, ⟨0, 0, 2⟩, ⟨1, 0, 1⟩]
def ptsYz : List (V3 ℚ) := [⟨0, 1, 0⟩, ⟨0, 0, 2⟩, ⟨0, 10, 1⟩]
example : Plane.getPlane (Aabb3.withPoints ptsXy) = some .xy ∧ Plane.getPlane (Aabb3.withPoints ptsXz) = some .xz ∧
    Plane.getPlane (Aabb3.withPoints ptsYz) = some .yz ∧ copyTo3d (copyTo2d ptsXy .xy) .xy = ptsXy ∧
    copyTo3d (copyTo2d ptsXz .xz) .xz = ptsXz ∧ copyTo3d (copyTo2d ptsYz .yz) .yz = ptsYz ∧
    applyLine (fun x => x.add ⟨1, 2, 3⟩) (copyTo3d (copyTo2d ptsXz .xz) .xz) = [⟨2, 2, 3⟩, ⟨1, 2, 5⟩, ⟨2, 2, 4⟩] := by
  decide +kernel

/-- tests.rs `test_save_to_obj_file`: no error -/
example : (saveToObj (fun p : V3 ℚ => toString p.x.num ++ "," ++ toString p.y.num ++ "," ++ toString p.z.num) "object_name"
    [chunkIter3 [⟨0, 0, 0⟩, ⟨2, 3, 10⟩, ⟨4, 3, 0⟩, ⟨6, 3, 0⟩, ⟨1, 1, 1⟩, ⟨7, 4, 0⟩]] [] none).err = none := by
  decide +kernel

end Verif.Golden
