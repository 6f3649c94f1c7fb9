import Verif.Props.DirectionMore
import Verif.Props.AffineInv
import Verif.Props.DiscretizeSim
import Verif.Props.Length
import Verif.Props.RdpRefine
import Verif.Witness.Contain
/-!
# The hypotheses of the theorems about intersections, about coordinate changes and about discretizing are met

Most of them are about the real numbers: the lines (0,0)-(4,4) and (0,2)-(4,0) cross in (4/3,4/3), the lines (0,0)-(5,0) and
(1,0)-(3,0) have the second one in common.
-/
namespace Verif.Witness
open Verif Verif.Spec Verif.Model Verif.Props Verif.Props.Intersect Verif.Proofs.Intersect

def lineA : Line2 ℝ := ⟨⟨0, 0⟩, ⟨4, 4⟩⟩
def lineB : Line2 ℝ := ⟨⟨0, 2⟩, ⟨4, 0⟩⟩
/-- the only common point -/
theorem lineAB (q : V2 ℝ) : (OnSegment2 lineA.start lineA.end q ∧ OnSegment2 lineB.start lineB.end q) ↔ q = ⟨4 / 3, 4 / 3⟩ := by
  constructor
  · rintro ⟨⟨t, -, -, rfl⟩, u, -, -, h⟩
    simp only [lerp2, lineA, lineB, V2.mk.injEq] at h ⊢
    constructor <;> linarith [h.1, h.2]
  · rintro rfl
    refine ⟨⟨1 / 3, by norm_num, by norm_num, ?_⟩, 1 / 3, by norm_num, by norm_num, ?_⟩ <;>
      simp only [lerp2, lineA, lineB, V2.mk.injEq] <;> norm_num
/-- what `intersection_point` answers -/
theorem lineAB_point : lineA.intersectionPoint lineB = some (.point ⟨4 / 3, 4 / 3⟩) := by
  cases h : lineA.intersectionPoint lineB with
  | none => exact absurd ((lineAB _).2 rfl) ((C19_none_iff_disjoint _ _).1 h ⟨4 / 3, 4 / 3⟩)
  | some r =>
    cases r with
    | point p => rw [(C19_point_is_unique _ _ p h ⟨4 / 3, 4 / 3⟩).1 ((lineAB _).2 rfl)]
    | overlap o =>
      obtain ⟨h1, h2⟩ := C19_overlap_is_exact _ _ o h
      have e1 := (lineAB o.start).1 ((h2 o.start).2 ⟨0, by norm_num, by norm_num, by simp [lerp2]⟩)
      have e2 := (lineAB o.end).1 ((h2 o.end).2 ⟨1, by norm_num, by norm_num, by simp [lerp2]⟩)
      exact absurd (e1.trans e2.symm) h1
example := C18_point_is_common _ _ _ lineAB_point
example := C19_point_is_unique _ _ _ lineAB_point
def lineC : Line2 ℝ := ⟨⟨0, 0⟩, ⟨5, 0⟩⟩
def lineD : Line2 ℝ := ⟨⟨1, 0⟩, ⟨3, 0⟩⟩
theorem lineCD_overlap : ∃ o, lineC.intersectionPoint lineD = some (.overlap o) := by
  have c1 : OnSegment2 lineC.start lineC.end ⟨1, 0⟩ ∧ OnSegment2 lineD.start lineD.end ⟨1, 0⟩ :=
    ⟨⟨1 / 5, by norm_num, by norm_num, by simp [lerp2, lineC]⟩, 0, by norm_num, by norm_num, by simp [lerp2, lineD]⟩
  have c3 : OnSegment2 lineC.start lineC.end ⟨3, 0⟩ ∧ OnSegment2 lineD.start lineD.end ⟨3, 0⟩ :=
    ⟨⟨3 / 5, by norm_num, by norm_num, by simp [lerp2, lineC]⟩, 1, by norm_num, by norm_num, by simp [lerp2, lineD]⟩
  cases h : lineC.intersectionPoint lineD with
  | none => exact absurd c1 ((C19_none_iff_disjoint _ _).1 h _)
  | some r =>
    cases r with
    | overlap o => exact ⟨o, rfl⟩
    | point p =>
      have e := ((C19_point_is_unique _ _ p h ⟨1, 0⟩).1 c1).trans ((C19_point_is_unique _ _ p h ⟨3, 0⟩).1 c3).symm
      simp only [V2.mk.injEq] at e
      norm_num at e
example := C19_overlap_is_exact _ _ _ lineCD_overlap.choose_spec
example := C18_overlap_is_common _ _ _ lineCD_overlap.choose.start lineCD_overlap.choose_spec ⟨0, by norm_num, by norm_num, by simp [lerp2]⟩
example := C25_window_iter_state [1, 2, 3] (1, 2) [2, 3] rfl
example := C25_chunk_iter_state (chunkNew [1, 2, 3, 4, 5]) (1, 2) ⟨[3, 4], [5]⟩ rfl
/-- a ray that hits two edges -/
example := C22_closest_ray_hit [(⟨3, -1⟩ : V2 ℚ), ⟨3, 1⟩, ⟨2, 1⟩, ⟨2, -2⟩] ⟨1, 0⟩ ⟨0, 0⟩ ⟨2, 0⟩ (by decide) (by decide +kernel)
example := C22_nearest_visible_hit [(⟨3, -1⟩ : V2 ℚ), ⟨3, 1⟩, ⟨2, 1⟩, ⟨2, -2⟩] ⟨1, 0⟩ ⟨0, 0⟩ ⟨2, 0⟩ (by decide)
example := C22_none [(⟨3, -1⟩ : V2 ℚ), ⟨3, 1⟩, ⟨2, 1⟩, ⟨2, -2⟩] ⟨0, 1⟩ ⟨0, 0⟩ (by decide) (by decide +kernel) 1 ⟨3, 1⟩ ⟨2, 1⟩ 2 rfl rfl (by norm_num)
example := C101_closest_ray [(⟨3, -1⟩ : V2 ℚ), ⟨3, 1⟩, ⟨2, 1⟩, ⟨2, -2⟩] ⟨1, 0⟩ ⟨0, 0⟩ (by decide)
/-- the first and the third segment cross -/
theorem hookCross (q : V2 ℝ) : (OnSegment2 ⟨0, 0⟩ ⟨4, 4⟩ q ∧ OnSegment2 ⟨0, 2⟩ ⟨4, 0⟩ q) ↔ q = ⟨4 / 3, 4 / 3⟩ := lineAB q
example := C24_detects_crossings [(⟨0, 0⟩ : V2 ℝ), ⟨4, 4⟩, ⟨0, 2⟩, ⟨4, 0⟩] (by simp) 0 2 _ _ _ _ ⟨4 / 3, 4 / 3⟩ (by norm_num) rfl rfl rfl rfl hookCross
  (by simp only [V2.mk.injEq]; norm_num)
theorem hookSelf : isSelfIntersectingShort [(⟨0, 0⟩ : V2 ℝ), ⟨4, 4⟩, ⟨0, 2⟩, ⟨4, 0⟩] = some true :=
  C24_detects_crossings [(⟨0, 0⟩ : V2 ℝ), ⟨4, 4⟩, ⟨0, 2⟩, ⟨4, 0⟩] (by simp) 0 2 _ _ _ _ ⟨4 / 3, 4 / 3⟩ (by norm_num) rfl rfl rfl rfl hookCross
    (by simp only [V2.mk.injEq]; norm_num)
example := C24_true_has_reason _ hookSelf
example := C24_three_point_test (⟨1, 0⟩ : V2 ℚ) ⟨2, 2⟩ ⟨3, 3⟩ (by norm_num) (by norm_num)
example := C24_exact [(⟨0, 0⟩ : V2 ℝ), ⟨4, 4⟩, ⟨0, 2⟩, ⟨4, 0⟩] (by simp) (by simp)
example := C53_approx_exact (fun a b : ℚ => decide (a = b)) (by simp) ⟨⟨0, 0⟩, ⟨1, 2⟩⟩ ⟨⟨1, 2⟩, ⟨0, 0⟩⟩
example := C53_approx_undirected (fun a b : ℚ => decide (a = b)) (by simp) ⟨⟨0, 0⟩, ⟨1, 2⟩⟩ ⟨⟨1, 2⟩, ⟨0, 0⟩⟩
example := C53_approx_refl (fun a b : ℚ => decide (a - b ≤ 1)) (by simp) ⟨⟨0, 0⟩, ⟨1, 2⟩⟩
example := C53_approx_reversed (fun a b : ℚ => decide (a - b ≤ 1 ∧ b - a ≤ 1)) (by simp) (fun a b => by simp only [and_comm]) ⟨⟨0, 0⟩, ⟨1, 2⟩⟩

section affine
open Verif.Props.AffineInv
theorem rot_det : (rotation (K := ℝ)).det ≠ 0 := by simp only [rotation, Affine2.det]; norm_num
theorem mir_det : (mirror (K := ℝ)).det ≠ 0 := by simp only [mirror, Affine2.det]; norm_num
theorem shear_pos : 0 < (shear (K := ℚ)).det := by simp only [shear, Affine2.det]; norm_num
theorem mirQ : (mirror (K := ℚ)).det ≠ 0 := by simp only [mirror, Affine2.det]; norm_num
example := C94_intersection_point rotation rot_det lineA lineB
example := C94_intersection_point mirror mir_det lineC lineD
example := C94_line_string_intersections mirror mir_det [⟨-1, 3⟩, ⟨0, 0⟩, ⟨4, 4⟩] lineB
example := C94_closest_ray_intersection mirror mirQ [(⟨3, -1⟩ : V2 ℚ), ⟨3, 1⟩, ⟨2, 1⟩, ⟨2, -2⟩] ⟨1, 0⟩ ⟨0, 0⟩ (by decide)
example := C94_contains shear shear_pos unitSquare ⟨1, 1⟩
example := C94_contains_convex_hull shear shear_pos unitSquare [⟨1, 1⟩, ⟨1, 0⟩] List.reverse List.reverse (by simp)
example := C94_convex_hull mirror mirQ sortV sortV sortV_sorts sortV_sorts square (by decide) (by decide) square_two
example := C94_moved_and_scaled (s := (3 : ℚ)) (by norm_num) 5 7 sortV sortV sortV_sorts sortV_sorts square (by decide) (by decide) square_two
example := C94_gift_wrap (s := (3 : ℚ)) (by norm_num) 5 7 100 square' [0, 2, 1, 4, 5]
end affine

section disc
open Verif.Props.Discretize Verif.Props.Length
/-- a corner in steps of length 2 -/
theorem corner : ∃ out, Collects (discNext ops2) (discNew ops2 ([⟨0, 0⟩, ⟨4, 0⟩, ⟨4, 3⟩, ⟨0, 3⟩] : List (V2 ℝ)) 2) out := by
  obtain ⟨out, h, -⟩ := C26_always_ends ops2 ([⟨0, 0⟩, ⟨4, 0⟩, ⟨4, 3⟩, ⟨0, 3⟩] : List (V2 ℝ)) 2
  exact ⟨out, h⟩
theorem corner3 : ∃ out, Collects (discNext ops3) (discNew ops3 ([⟨0, 0, 0⟩, ⟨4, 0, 1⟩, ⟨4, 3, 5⟩] : List (V3 ℝ)) 2) out := by
  obtain ⟨out, h, -⟩ := C26_always_ends ops3 ([⟨0, 0, 0⟩, ⟨4, 0, 1⟩, ⟨4, 3, 5⟩] : List (V3 ℝ)) 2
  exact ⟨out, h⟩
example := C27_divided2 _ _ _ (by norm_num) (by simp) corner.choose_spec
example := C27_divided3 _ _ _ (by norm_num) (by simp) corner3.choose_spec
example := C26_keeps_points2 _ _ _ (by norm_num) corner.choose_spec
example := C26_keeps_points3 _ _ _ (by norm_num) corner3.choose_spec
/-- there are at least six points in the result, so there is a pair of neighbours -/
example : ∃ p q, corner.choose[2]? = some p ∧ corner.choose[3]? = some q ∧ sqDist2 p q ≤ 2 ^ 2 := by
  have hs := (C26_keeps_points2 _ _ _ (by norm_num) corner.choose_spec).1.length_le
  simp only [List.length_cons, List.length_nil] at hs
  have h2 := List.getElem?_eq_getElem (l := corner.choose) (i := 2) (by omega)
  have h3 := List.getElem?_eq_getElem (l := corner.choose) (i := 3) (by omega)
  exact ⟨_, _, h2, h3, C27_step_length2 _ _ _ (by norm_num) corner.choose_spec 2 _ _ h2 h3⟩
example : ∃ p q, corner3.choose[1]? = some p ∧ corner3.choose[2]? = some q ∧ sqDist3 p q ≤ 2 ^ 2 := by
  have hs := (C26_keeps_points3 _ _ _ (by norm_num) corner3.choose_spec).1.length_le
  simp only [List.length_cons, List.length_nil] at hs
  have h2 := List.getElem?_eq_getElem (l := corner3.choose) (i := 1) (by omega)
  have h3 := List.getElem?_eq_getElem (l := corner3.choose) (i := 2) (by omega)
  exact ⟨_, _, h2, h3, C27_step_length3 _ _ _ (by norm_num) corner3.choose_spec 1 _ _ h2 h3⟩
example := C27_on_line2 _ _ _ (by norm_num) (by simp) corner.choose_spec
example := C27_on_line3 _ _ _ (by norm_num) (by simp) corner3.choose_spec
example := C94_discretize3 (c := (3 : ℝ)) (f := fun p => ⟨-3 * p.y, 3 * p.x, 3 * p.z + 1⟩) ⟨by norm_num, fun p q => by unfold sqDist3; ring⟩
  _ _ _ (by norm_num) corner3.choose_spec
example := C94_discretize_reverse3 _ _ _ (by norm_num) corner3.choose_spec
example := C95_discretize_box2 _ _ _ (by norm_num) corner.choose_spec
example := C95_discretize_box3 _ _ _ (by norm_num) corner3.choose_spec
example := (C95_discretize_idempotent (2 : ℝ) (by norm_num)).1 _ _ corner.choose_spec
example := (C95_discretize_length (2 : ℝ) (by norm_num)).2 _ _ corner3.choose_spec
example := (C95_discretize_size (2 : ℝ) (by norm_num)).2 _ _ (by simp) corner3.choose_spec
example := C95_discretize_fine2 ([⟨0, 0⟩, ⟨1, 1⟩] : List (V2 ℝ)) 2 (by norm_num) (by
  intro i a b ha hb
  match i with
  | 0 => simp at ha hb; subst ha hb; norm_num [sqDist2]
  | n + 1 => simp at hb)
example := C95_discretize_fine3 ([⟨0, 0, 1⟩, ⟨1, 1, 1⟩] : List (V3 ℝ)) 2 (by norm_num) (by
  intro i a b ha hb
  match i with
  | 0 => simp at ha hb; subst ha hb; norm_num [sqDist3]
  | n + 1 => simp at hb)
example := Rdp.C105_rdp2_discretize _ _ 2 1 (by norm_num) corner.choose_spec
example := Rdp.C105_rdp3_discretize _ _ 2 1 (by norm_num) corner3.choose_spec
example : ∃ out, simplifyRdp2 ([⟨0, 0⟩, ⟨4, 0⟩, ⟨4, 3⟩, ⟨0, 3⟩] : List (V2 ℝ)) 1 = .ok out ∧
    pathLength dist2 out ≤ pathLength dist2 [⟨0, 0⟩, ⟨4, 0⟩, ⟨4, 3⟩, ⟨0, 3⟩] ∧
    (Aabb2.withPoints [⟨0, 0⟩, ⟨4, 0⟩, ⟨4, 3⟩, ⟨0, 3⟩]).containsAabb (Aabb2.withPoints out) = true := by
  obtain ⟨out, h, -⟩ := Rdp.C07_rdp2_keeps_ends_and_order ([⟨0, 0⟩, ⟨4, 0⟩, ⟨4, 3⟩, ⟨0, 3⟩] : List (V2 ℝ)) 1
  exact ⟨out, h, (C95_rdp2_length _ _ _ h).1, (C95_rdp_box 1).1 _ _ (by simp) h⟩
example : ∃ out, simplifyRdp3 ([⟨0, 0, 0⟩, ⟨4, 0, 1⟩, ⟨4, 3, 5⟩] : List (V3 ℝ)) 1 = .ok out ∧
    pathLength dist3 out ≤ pathLength dist3 [⟨0, 0, 0⟩, ⟨4, 0, 1⟩, ⟨4, 3, 5⟩] := by
  obtain ⟨out, h, -⟩ := Rdp.C07_rdp3_keeps_ends_and_order ([⟨0, 0, 0⟩, ⟨4, 0, 1⟩, ⟨4, 3, 5⟩] : List (V3 ℝ)) 1
  exact ⟨out, h, (C95_rdp3_length _ _ _ h).1⟩
example := (C95_vw_box (K := ℚ) exact_total (fun _ heap => leastPos heap) (leastPos_pops exact_total) 1 100).1 vwOpen (by decide) (fun _ _ _ _ _ _ => trivial) (by decide)
end disc
end Verif.Witness
