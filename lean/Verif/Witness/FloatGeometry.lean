import Verif.Props.FloatAffine
import Verif.Props.FloatBox
import Verif.Props.FloatContain
import Verif.Props.FloatIntersect
import Verif.Props.FloatLinePoint
import Verif.Props.FloatLineString
import Verif.Props.FloatSelf
import Verif.Props.FloatTiny
import Verif.Props.FloatArc
import Verif.Props.FloatArcNear
import Verif.Props.FloatDiscretize
import Verif.Props.FloatDist
import Verif.Props.FloatRay
/-!
# The hypotheses of the theorems about floating point geometry are met

Every theorem is applied to doubles with small integer coordinates.
-/
namespace Verif.Witness
open Verif Verif.Spec Verif.Model Verif.Props Fl Flt Verif.Proofs.FloatHull Verif.Proofs.FloatIntersect Verif.Proofs.FloatLinePoint
open Verif.Props.Discretize

/-- a point of the integer grid of `f64` -/
theorem gp {k l : ℤ} (hk : |k| ≤ 2 ^ 23) (hl : |l| ≤ 2 ^ 23) : OnGrid 0 (2 ^ 23) (ipt b64 k l) := (onGrid_ipt goodGrid64 hk hl).1
theorem gx {k l : ℤ} (hk : |k| ≤ 2 ^ 23) (hl : |l| ≤ 2 ^ 23) : exact (ipt b64 k l) = ⟨k, l⟩ := (onGrid_ipt goodGrid64 hk hl).2
theorem gp3 {k l m : ℤ} (hk : |k| ≤ 2 ^ 23) (hl : |l| ≤ 2 ^ 23) (hm : |m| ≤ 2 ^ 23) : OnGrid3 0 (2 ^ 23) (ipt3 b64 k l m) :=
  (onGrid3_ipt goodGrid64 hk hl hm).1
/-- a point of the smaller integer grid -/
theorem sp {k l : ℤ} (hk : |k| ≤ 1448) (hl : |l| ≤ 1448) : OnGrid 0 1448 (ipt b64 k l) := (onGrid_ipt smallGrid64.1 hk hl).1

section
variable (L : Libm b64)

/-! Boxes -/
example := C87_transform_ab affineGrid64 (by norm_num) _ _ _ _ (gp (k := -1) (l := -1) (by norm_num) (by norm_num))
  (gp (k := 38) (l := 38) (by norm_num) (by norm_num)) (gp (k := -50) (l := -50) (by norm_num) (by norm_num))
  (gp (k := 5) (l := 5) (by norm_num) (by norm_num))
example := C87_transform_ba affineGrid64 (by norm_num) _ _ _ _ (gp (k := -1) (l := -1) (by norm_num) (by norm_num))
  (gp (k := 38) (l := 38) (by norm_num) (by norm_num)) (gp (k := -50) (l := -50) (by norm_num) (by norm_num))
  (gp (k := 5) (l := 5) (by norm_num) (by norm_num))
example := C87_round_trip affineGrid64 (by norm_num) _ _ _ _ (gp (k := -1) (l := -1) (by norm_num) (by norm_num))
  (gp (k := 38) (l := 38) (by norm_num) (by norm_num)) (gp (k := -50) (l := -50) (by norm_num) (by norm_num))
  (gp (k := 5) (l := 5) (by norm_num) (by norm_num))
example := C87_stays_in_the_destination affineGrid64 (by norm_num) _ _ _ _ (gp (k := -1) (l := -1) (by norm_num) (by norm_num))
  (gp (k := 38) (l := 38) (by norm_num) (by norm_num)) (gp (k := -50) (l := -50) (by norm_num) (by norm_num))
  (gp (k := 5) (l := 5) (by norm_num) (by norm_num)) (by decide +kernel) (by decide +kernel)
example := C76_center2_on_floats (ipt b64 1 2) (ipt b64 5 9) (by decide +kernel) (by decide +kernel) (by decide +kernel)
  (by decide +kernel) (by decide +kernel) (by decide +kernel) (by decide +kernel) (by decide +kernel)
example := C76_center3_on_floats (ipt3 b64 1 2 3) (ipt3 b64 5 9 3) (by decide +kernel) (by decide +kernel) (by decide +kernel)
  (by decide +kernel) (by decide +kernel) (by decide +kernel) (by decide +kernel) (by decide +kernel) (by decide +kernel)
  (by decide +kernel) (by decide +kernel) (by decide +kernel)
/-- a NaN among the points does not harm the two-dimensional box -/
example := C76_box2_contains_fed_on_floats (.points (.new ⟨.nan, ofQ false 3⟩) [ipt b64 1 2, ipt b64 4 4]) (ipt b64 4 4)
  (by simp [Hist2.fed]) (by decide +kernel) (by decide +kernel)
theorem box3_fed : ∀ p ∈ (Hist3.point (.withPoints [ipt3 b64 2 3 4]) (ipt3 b64 1 7 0)).fed, p.x ≠ .nan ∧ p.y ≠ .nan ∧ p.z ≠ .nan := by
  decide +kernel
example := C76_box3_on_floats _ box3_fed
/-- the same two points fed in another order -/
example := C76_box2_order_independent_on_floats (.points (.new (ipt b64 1 2)) [ipt b64 4 4]) (.points (.new (ipt b64 4 4)) [ipt b64 1 2])
  (by intro p; simp [Hist2.fed, or_comm])

/-! Orientation and segments -/
example := C71_orientation_is_exact goodGrid64 _ _ _ (gp (k := 0) (l := 0) (by norm_num) (by norm_num))
  (gp (k := 38) (l := 38) (by norm_num) (by norm_num)) (gp (k := -50) (l := 7) (by norm_num) (by norm_num))
example := C71_tiny_points_are_collinear (tinyPt (-30) 4 4) (tinyPt (-30) 1 0) (tinyPt (-30) 0 1)
  (by unfold Tiny; decide +kernel) (by unfold Tiny; decide +kernel) (by unfold Tiny; decide +kernel)
/-- (0,0)-(300,100) and (0,70)-(200,-1) -/
example := C77_reported_iff_common_point goodGrid64 (gp (k := 0) (l := 0) (by norm_num) (by norm_num))
  (gp (k := 300) (l := 100) (by norm_num) (by norm_num)) (gp (k := 0) (l := 70) (by norm_num) (by norm_num))
  (gp (k := 200) (l := -1) (by norm_num) (by norm_num)) (by decide +kernel) (by decide +kernel)
example := C77_symmetric goodGrid64 (gp (k := 0) (l := 0) (by norm_num) (by norm_num))
  (gp (k := 300) (l := 100) (by norm_num) (by norm_num)) (gp (k := 0) (l := 70) (by norm_num) (by norm_num))
  (gp (k := 200) (l := -1) (by norm_num) (by norm_num)) (by decide +kernel) (by decide +kernel)
/-- the first segment ends on the second one -/
theorem touch_point : (Line2.mk (ipt b64 0 0) (ipt b64 4 4)).intersectionPoint ⟨ipt b64 2 4, ipt b64 6 4⟩ = some (.point (ipt b64 4 4)) := by
  have h : (let _ : Libm b64 := noAtan b64
    (Line2.mk (ipt b64 0 0) (ipt b64 4 4)).intersectionPoint ⟨ipt b64 2 4, ipt b64 6 4⟩) = some (.point (ipt b64 4 4)) := by decide +kernel
  exact h
example := C77_exact_at_the_ends goodGrid64 (gp (k := 0) (l := 0) (by norm_num) (by norm_num))
  (gp (k := 4) (l := 4) (by norm_num) (by norm_num)) (gp (k := 2) (l := 4) (by norm_num) (by norm_num))
  (gp (k := 6) (l := 4) (by norm_num) (by norm_num)) (by decide +kernel) (by decide +kernel) (touch_point L) (Or.inr rfl)
  (by rw [exactR_ipt goodGrid64 (by norm_num) (by norm_num), exactR_ipt goodGrid64 (by norm_num) (by norm_num),
        exactR_ipt goodGrid64 (by norm_num) (by norm_num)]
      exact ⟨1 / 2, by norm_num, by norm_num, by norm_num [lerp2]⟩)
theorem mid_on_segment : OnSegment2 (exactR (ipt b64 (-300) 100)) (exactR (ipt b64 700 500)) (exactR (ipt b64 200 300)) := by
  rw [exactR_ipt goodGrid64 (by norm_num) (by norm_num), exactR_ipt goodGrid64 (by norm_num) (by norm_num),
        exactR_ipt goodGrid64 (by norm_num) (by norm_num)]
  exact ⟨1 / 2, by norm_num, by norm_num, by norm_num [lerp2]⟩
example := C78_accepts_points_on_the_segment goodGrid64 (gp (k := -300) (l := 100) (by norm_num) (by norm_num))
  (gp (k := 700) (l := 500) (by norm_num) (by norm_num)) (gp (k := 200) (l := 300) (by norm_num) (by norm_num)) mid_on_segment
example := C78_accepted_points_are_near goodGrid64 (gp (k := -300) (l := 100) (by norm_num) (by norm_num))
  (gp (k := 700) (l := 500) (by norm_num) (by norm_num)) (gp (k := 200) (l := 300) (by norm_num) (by norm_num)) _
  (C78_accepts_points_on_the_segment goodGrid64 (gp (k := -300) (l := 100) (by norm_num) (by norm_num))
  (gp (k := 700) (l := 500) (by norm_num) (by norm_num)) (gp (k := 200) (l := 300) (by norm_num) (by norm_num)) mid_on_segment)
example := C78_point_on_point goodGrid64 (gp (k := 7) (l := 5) (by norm_num) (by norm_num))
  (gp (k := 7) (l := 5) (by norm_num) (by norm_num)) (gp (k := 2) (l := 3) (by norm_num) (by norm_num)) rfl
example := C78_exact_on_small_grids smallGrid64.1 le_rfl smallGrid64.2 (sp (k := -300) (l := 100) (by norm_num) (by norm_num))
  (sp (k := 700) (l := 500) (by norm_num) (by norm_num)) (sp (k := 200) (l := 301) (by norm_num) (by norm_num))
example := C78_any_segments_on_small_grids smallGrid64.1 le_rfl smallGrid64.2 (sp (k := -300) (l := 100) (by norm_num) (by norm_num))
  (sp (k := 700) (l := 500) (by norm_num) (by norm_num)) (sp (k := 200) (l := 301) (by norm_num) (by norm_num))
  (sp (k := 200) (l := 299) (by norm_num) (by norm_num))

/-! Polylines -/
def fLine : List (V2 F64) := [ipt b64 0 0, ipt b64 49 98, ipt b64 49 1, ipt b64 1 2]
theorem fLine_grid : ∀ p ∈ fLine, OnGrid 0 1448 p := by
  intro p hp
  simp only [fLine, List.mem_cons, List.not_mem_nil, or_false] at hp
  rcases hp with rfl | rfl | rfl | rfl <;> exact sp (by norm_num) (by norm_num)
theorem fLine_big : ∀ p ∈ fLine, OnGrid 0 (2 ^ 23) p := by
  intro p hp
  simp only [fLine, List.mem_cons, List.not_mem_nil, or_false] at hp
  rcases hp with rfl | rfl | rfl | rfl <;> exact gp (by norm_num) (by norm_num)
example := C82_intersection_none_iff smallGrid64.1 fLine_grid (sp (k := 1) (l := 2) (by norm_num) (by norm_num))
  (sp (k := 0) (l := 5) (by norm_num) (by norm_num)) (Or.inl ⟨le_rfl, smallGrid64.2⟩)
example := C82_find_all smallGrid64.1 fLine_grid (sp (k := 1) (l := 2) (by norm_num) (by norm_num))
  (sp (k := 0) (l := 5) (by norm_num) (by norm_num)) (Or.inl ⟨le_rfl, smallGrid64.2⟩)
theorem fLine_hit : (@intersection2 F64 (@fltScalar b64 (noAtan b64)) fLine ⟨ipt b64 1 2, ipt b64 0 5⟩).isSome = true := by decide +kernel
example := @C82_intersection_is_first b64 (noAtan b64) _ _ smallGrid64.1 _ fLine_grid _ _ (sp (k := 1) (l := 2) (by norm_num) (by norm_num))
  (sp (k := 0) (l := 5) (by norm_num) (by norm_num)) (Or.inl ⟨le_rfl, smallGrid64.2⟩) _ (Option.some_get fLine_hit).symm
example := C83_three_point_test goodGrid64 (gp (k := 0) (l := 0) (by norm_num) (by norm_num))
  (gp (k := 4) (l := 4) (by norm_num) (by norm_num)) (gp (k := 2) (l := 4) (by norm_num) (by norm_num)) (by decide +kernel)
theorem fLine_signs : ∀ v ∈ fLine, v.y ≠ .zero true := by decide +kernel
theorem fLine_self : isSelfIntersectingShort fLine = some true := by
  have h : (let _ : Libm b64 := noAtan b64; isSelfIntersectingShort fLine) = some true := by decide +kernel
  exact h
example := C83_true_has_reason smallGrid64.1 le_rfl smallGrid64.2 fLine_grid fLine_signs (fLine_self L)
theorem ray_hit : (closestRayIntersection fLine (ipt b64 1 (-1)) (ipt b64 0 80)).isSome = true := by
  have h : (let _ : Libm b64 := noAtan b64; closestRayIntersection fLine (ipt b64 1 (-1)) (ipt b64 0 80)).isSome = true := by decide +kernel
  exact h
example := C89_nearest_hit_on_floats goodGrid64 fLine (ipt b64 1 (-1)) (ipt b64 0 80) _ fLine_big (gp (by norm_num) (by norm_num))
  (gp (by norm_num) (by norm_num)) (by decide +kernel) (Option.some_get (ray_hit L)).symm
theorem ray_miss : closestRayIntersection fLine (ipt b64 (-1) 0) (ipt b64 (-5) 80) = none := by
  have h : (let _ : Libm b64 := noAtan b64; closestRayIntersection fLine (ipt b64 (-1) 0) (ipt b64 (-5) 80)) = none := by decide +kernel
  exact h
example := C89_none_on_floats goodGrid64 fLine (ipt b64 (-1) 0) (ipt b64 (-5) 80) fLine_big (gp (by norm_num) (by norm_num))
  (gp (by norm_num) (by norm_num)) (by decide +kernel) (ray_miss L) 1 _ _ 3 rfl rfl (by norm_num)

/-! Distances -/
example := C86_distance3_safe squareGrid64 (by norm_num) _ _ _ (gp3 (k := 0) (l := 0) (m := 0) (by norm_num) (by norm_num) (by norm_num))
  (gp3 (k := 7) (l := 1) (m := 2) (by norm_num) (by norm_num) (by norm_num))
  (gp3 (k := 14) (l := 2) (m := 5) (by norm_num) (by norm_num) (by norm_num))

/-! Parabolic arcs -/
def fArc : Arc F64 := ⟨⟨ipt b64 100 100, ipt b64 300 100⟩, ipt b64 200 200, ipt b64 100 200, ipt b64 300 200⟩
theorem fArc_out : (@Arc.discretize2d F64 (@fltScalar b64 (noAtan b64)) 20 fArc (ofQ false 1)).isSome = true := by decide +kernel
example := @C88_points_near_the_parabola_2d b64 (noAtan b64) _ _ goodGrid64 (by norm_num) (by norm_num [b64]) fArc _ 20 _ (gp (by norm_num) (by norm_num))
  (gp (by norm_num) (by norm_num)) (gp (by norm_num) (by norm_num)) (by decide +kernel) (Option.some_get fArc_out).symm
example := C88_cell_on_line_never_ends goodGrid64 ⟨⟨ipt b64 100 100, ipt b64 300 100⟩, ipt b64 200 100, ipt b64 100 200, ipt b64 300 200⟩
  (ofQ false 1) 1000 (gp (by norm_num) (by norm_num)) (gp (by norm_num) (by norm_num)) (gp (by norm_num) (by norm_num)) (by decide +kernel)
example := C88_same_foot_never_ends goodGrid64 (by norm_num)
  ⟨⟨ipt b64 100 100, ipt b64 300 100⟩, ipt b64 200 200, ipt b64 100 200, ipt b64 100 300⟩
  (ofQ false 1) 1000 (gp (by norm_num) (by norm_num)) (gp (by norm_num) (by norm_num)) (gp (by norm_num) (by norm_num))
  (gp (by norm_num) (by norm_num)) (gp (by norm_num) (by norm_num)) (by decide +kernel)
example := C88_equal_ends_never_end (⟨⟨ipt b64 100 100, ipt b64 300 100⟩, ipt b64 200 200, ipt b64 100 200, ipt b64 100 200⟩ : Arc F64)
  (ofQ false 1) 1000 rfl
example := C88_point_segment_never_ends (⟨⟨ipt b64 100 100, ipt b64 100 100⟩, ipt b64 200 200, ipt b64 100 200, ipt b64 100 200⟩ : Arc F64)
  (ofQ false 1) 1000 rfl
example := C88_cell_at_start_never_ends (⟨⟨ipt b64 100 100, ipt b64 300 100⟩, ipt b64 100 100, ipt b64 100 200, ipt b64 300 200⟩ : Arc F64)
  (ofQ false 1) 1000 rfl
end

end Verif.Witness
