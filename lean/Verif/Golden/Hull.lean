import Verif.Model.Hull
import Verif.Spec.Instances
import Verif.Props.HullOneChunk

/-!
# The project's own tests of the convex hulls, run on the model

`/repo/tests/tests.rs` and `/repo/src/linestring_2d/convex_hull/tests.rs`, with exact rational arithmetic instead of floats
(the angle is replaced by a rational function that orders directions in the same way).  These are checks of the model
against the code, not proofs of properties.
-/

namespace Verif.Golden
open Verif Model Props

/-- the sort of `graham_scan`, the comparison of `graham_scan_wo_atan2`, for evaluation -/
def ptSort : List (V2 ℚ × ℚ × ℚ) → List (V2 ℚ × ℚ × ℚ) := insSort (fun a b => angleCmp a b != .gt)
def woSort (start : V2 ℚ) (l : List (V2 ℚ)) : Option (List (V2 ℚ)) :=
  some (insSort (fun a b => orientCmp start a b != some .gt) l)
def ixSort : List (Nat × ℚ × ℚ) → List (Nat × ℚ × ℚ) := insSort (fun a b => angleCmp a b != .gt)
/-- the points of an index list -/
def points (vs : List (V2 ℚ)) (r : Except Err (List Nat)) : Except Err (List (V2 ℚ)) := r.bind (fun l => l.mapM (idx vs))

/-- rayon's schedule of four chunks: halved, then halved again (two threads or more) or not (one thread) -/
def split4 : Sched := .node 2 (.node 1 .leaf .leaf) (.node 1 .leaf .leaf)
def split4' : Sched := .node 2 .leaf .leaf

/-- tests.rs `convex_hull_0`, `convex_hull_1` -/
def hull0 : List (V2 ℚ) := [⟨0, 0⟩, ⟨100, 0⟩, ⟨100, 100⟩, ⟨0, 100⟩, ⟨1, 1220⟩, ⟨50, 2⟩, ⟨0, 0⟩]
def hull0r : Except Err (List (V2 ℚ)) := .ok [⟨0, 0⟩, ⟨100, 0⟩, ⟨100, 100⟩, ⟨1, 1220⟩, ⟨0, 100⟩, ⟨0, 0⟩]
example : giftWrap 100 hull0 = hull0r ∧ grahamScan ptSort hull0 = hull0r ∧
    points hull0 (indexedGrahamScan ixSort hull0 (List.range 7)) = hull0r ∧
    points hull0 (indexedGiftWrap 100 hull0 (List.range 7)) = hull0r ∧
    points hull0 (convexHullPar 100 split4 ixSort hull0 (List.range 7) 2) = hull0r ∧
    points hull0 (convexHullPar 100 split4' ixSort hull0 (List.range 7) 2) = hull0r ∧
    lineConvexHullPar 100 split4 ixSort hull0 2 = hull0r ∧ lineConvexHullPar 100 split4' ixSort hull0 2 = hull0r ∧
    (hull0r.bind (fun h => allM (fun p => lineContainsInclusive h p) hull0)) = .ok true ∧
    (hull0r.bind (fun h => containsConvexHull h h)) = .ok true := by decide +kernel

/-- with another schedule the same input would lose the point `(0, 100)` (the input repeats its first point under another
index; see C41) -/
example : lineConvexHullPar 100 (.node 1 .leaf .leaf) ixSort hull0 2 = .ok [⟨0, 0⟩, ⟨100, 0⟩, ⟨100, 100⟩, ⟨1, 1220⟩, ⟨0, 0⟩] := by
  decide +kernel

/-- tests.rs `convex_hull_4` -/
def hull4 : List (V2 ℚ) := List.replicate 7 ⟨0, 0⟩ ++
  [⟨5027466 / 1000000, 139643 / 100000⟩, ⟨572535 / 1000000, 340357 / 100000⟩, ⟨1796431 / 1000000, 172535 / 1000000⟩,
   ⟨380357 / 100000, 4627465 / 1000000⟩]
example : indexedGrahamScan ixSort hull4 [7, 8, 9, 10] = .ok [8, 9, 7, 10, 8] ∧
    indexedGiftWrap 100 hull4 [7, 8, 9, 10] = .ok [8, 9, 7, 10, 8] ∧
    convexHullPar 100 (.node 1 .leaf .leaf) ixSort hull4 [7, 8, 9, 10] 2 = .ok [8, 9, 7, 10, 8] ∧
    giftWrap 100 (hull4.drop 7) = points hull4 (.ok [8, 9, 7, 10, 8]) ∧
    grahamScan ptSort (hull4.drop 7) = points hull4 (.ok [8, 9, 7, 10, 8]) := by decide +kernel

/-- tests.rs `convex_hull_5` -/
def hull5 : List (V2 ℚ) := [⟨0, 0⟩, ⟨2, 3⟩, ⟨4, 3⟩, ⟨6, 3⟩, ⟨1, 1⟩, ⟨7, 4⟩]
example : giftWrap 100 hull5 = points hull5 (.ok [0, 3, 5, 1, 0]) ∧
    grahamScan ptSort hull5 = points hull5 (.ok [0, 3, 5, 1, 0]) ∧
    indexedGrahamScan ixSort hull5 (List.range 6) = .ok [0, 3, 5, 1, 0] ∧
    indexedGiftWrap 100 hull5 (List.range 6) = .ok [0, 3, 5, 1, 0] ∧
    convexHullPar 100 (.node 1 .leaf (.node 1 .leaf .leaf)) ixSort hull5 (List.range 6) 2 = .ok [0, 3, 5, 1, 0] := by decide +kernel

/-- tests.rs `convex_hull_6`, with a 4 by 4 grid (the test has 100 by 100 points): all algorithms agree -/
def grid : List (V2 ℚ) :=
  (List.range 4).flatMap (fun (i : Nat) => (List.range 5).map (fun (j : Nat) => ⟨if i % 2 = 0 then (j : ℚ) else 4 - j, i⟩))
example : grahamScan ptSort grid = .ok [⟨0, 0⟩, ⟨4, 0⟩, ⟨4, 3⟩, ⟨0, 3⟩, ⟨0, 0⟩] ∧
    giftWrap 200 grid = grahamScan ptSort grid ∧ grahamScanWoAtan2 woSort grid = grahamScan ptSort grid ∧
    points grid (indexedGrahamScan ixSort grid (List.range 20)) = grahamScan ptSort grid ∧
    indexedGiftWrap 200 grid (List.range 20) = indexedGrahamScan ixSort grid (List.range 20) ∧
    convexHullPar 200 (.node 1 .leaf (.node 1 .leaf .leaf)) ixSort grid (List.range 20) 7 = indexedGrahamScan ixSort grid (List.range 20) := by decide +kernel

/-- convex_hull/tests.rs `contains_point_exclusive_1`, `contains_point_inclusive_1` -/
def square10 : List (V2 ℚ) := [⟨0, 0⟩, ⟨10, 0⟩, ⟨10, 10⟩, ⟨0, 10⟩, ⟨0, 0⟩]
def probes : List (V2 ℚ) :=
  [⟨5, 6⟩, ⟨0, 0⟩, ⟨0, 10⟩, ⟨10, 10⟩, ⟨5, 10⟩, ⟨100000001 / 10000000, 10⟩, ⟨999999 / 100000, 999999 / 100000⟩, ⟨10, 999999 / 100000⟩]
example : probes.mapM (containsPointExclusive square10) = .ok [true, false, false, false, false, false, true, false] ∧
    probes.mapM (containsPointInclusive square10) = .ok [true, true, true, true, true, false, true, true] := by decide +kernel

/-- the README example, src/linestring_2d/tests.rs 94-110 -/
def readme : List (V2 ℚ) := [⟨77, 613⟩, ⟨689, 650⟩, ⟨710, 467⟩, ⟨220, 200⟩]
example : (lineConvexHull ptSort readme).bind (fun h => allM (fun p => lineContainsInclusive h p) readme) = .ok true ∧
    (lineConvexHull ptSort readme).bind (fun h => lineContainsExclusive h ⟨300, 500⟩) = .ok true := by decide +kernel

/-- documentation of `point_orientation`, `is_point_left`, `cross_2d` (convex_hull.rs 163-231) -/
example : (fun a b c : V2 ℚ => isPointLeft a b c ∧ ¬ isPointLeft a c b ∧ isPointLeft c a b ∧ ¬ isPointLeft c b a ∧
    (pointOrientation a b c).isLeft ∧ ¬ (pointOrientation a c b).isLeft ∧ (pointOrientation c a b).isLeft ∧
    ¬ (pointOrientation c b a).isLeft ∧ isPointLeftAllowCollinear a b b ∧ isPointLeftAllowCollinear a b a)
    ⟨0, 0⟩ ⟨0, 10⟩ ⟨-10, 5⟩ := by decide +kernel

end Verif.Golden
