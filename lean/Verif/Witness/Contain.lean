import Verif.Witness.Hull
import Verif.Props.ContainExact
import Verif.Props.ContainSmall
import Verif.Props.BoxMore
import Verif.Props.BoxCenter
import Verif.Props.Curve
import Verif.Props.BoxHull
/-!
# The hypotheses of the theorems about containment and about bounding boxes are met
-/
namespace Verif.Witness
open Verif Verif.Spec Verif.Model Verif.Hull Verif.Props

theorem unitSquare_loop : IsHullLoop square' unitSquare := by
  obtain ⟨hull, h1, h2, -⟩ := square'_hull
  have h3 := square'_is
  rw [h1] at h3
  cases h3
  exact h2
theorem unitSquare_open : IsHullLoop square' (unitSquare.dropLast ++ [⟨0, 0⟩]) := unitSquare_loop
example := ClosedStart.C108_hull_loop (⟨0, 0⟩ : V2 ℚ) ⟨2, 2⟩ [⟨2, 0⟩] [⟨0, 2⟩] unitSquare_loop
example : containsPointInclusive [(⟨0, 0⟩ : V2 ℚ), ⟨2, 0⟩, ⟨2, 2⟩, ⟨0, 2⟩, ⟨0, 0⟩] ⟨1, 1⟩ =
    containsPointInclusive [(⟨2, 2⟩ : V2 ℚ), ⟨0, 2⟩, ⟨0, 0⟩, ⟨2, 0⟩, ⟨2, 2⟩] ⟨1, 1⟩ :=
  (ClosedStart.C108_contains_inclusive (⟨0, 0⟩ : V2 ℚ) ⟨2, 2⟩ [⟨2, 0⟩] [⟨0, 2⟩] unitSquare_loop (by decide) ⟨1, 1⟩ [] id id
    (fun _ => .refl _) (fun _ => .refl _)).1
example := ClosedStart.C108_convex_hull sortV sortV sortV_sorts sortV_sorts (⟨0, 0⟩ : V2 ℚ) ⟨2, 2⟩ [⟨2, 0⟩, ⟨1, 1⟩] [⟨0, 2⟩] (by decide)
  ⟨⟨2, 2⟩, by simp, by decide +kernel⟩
example := BoxHull.C110_box_hull_is_a_hull (⟨some (⟨0, 0⟩, ⟨4, 3⟩)⟩ : Aabb2 ℚ) ⟨0, 0⟩ ⟨4, 3⟩ rfl (by decide) (by decide) sortV sortV_sorts _
  sortC37.choose_spec 37 (by decide)
example := BoxHull.C110_box_of_box_hull (⟨some (⟨0, 0⟩, ⟨4, 3⟩)⟩ : Aabb2 ℚ) ⟨0, 0⟩ ⟨4, 3⟩ rfl (by decide) (by decide)
example := BoxHull.C110_containment_agrees (⟨some (⟨0, 0⟩, ⟨4, 3⟩)⟩ : Aabb2 ℚ) ⟨0, 0⟩ ⟨4, 3⟩ rfl (by decide) (by decide)
example := BoxHull.C110_hull_in_box unitSquare_loop (by decide) ⟨1, 2⟩ (Or.inl (by decide +kernel))
example := BoxHull.C110_nested_hulls_nested_boxes unitSquare_loop unitSquare_loop (by decide) (by decide +kernel)
example := Curve.C109_convex_hull sortV sortV sortV_sorts sortV_sorts _ _ Curve.sample.1 (by decide) (by decide +kernel) (by decide)
  (by decide +kernel) ⟨⟨0, 0⟩, by simp, ⟨4, 0⟩, by simp, by decide +kernel⟩
example := C42_inclusive_iff_left_of_every_edge unitSquare_loop (by decide) ⟨1, 2⟩
example := C42_left_of_every_edge_iff_convex_combination unitSquare_loop (by decide) ⟨1, 2⟩
example := C42_inclusive_open_hull (w := unitSquare.dropLast) (base := ⟨0, 0⟩) rfl unitSquare_open (by decide) ⟨1, 2⟩
example := C42_line_inclusive unitSquare_loop (by decide) ⟨1, 2⟩
example := C42_line_open_false unitSquare.dropLast ⟨1, 1⟩ (by decide +kernel)
example := C43_exclusive_sound unitSquare_loop (by decide) ⟨1, 1 / 2⟩
example := C43_exclusive_complete unitSquare_loop (by decide) ⟨1, 1 / 2⟩ ⟨2, 0⟩ rfl
  (by
    obtain ⟨r, h1, h2⟩ := C43_exclusive_sound unitSquare_loop (by decide) (⟨1, 1 / 2⟩ : V2 ℚ)
    have h3 : containsPointExclusive unitSquare (⟨1, 1 / 2⟩ : V2 ℚ) = .ok true := by decide +kernel
    rw [h3] at h1; cases h1
    exact h2 rfl)
  (by decide +kernel)
example := C43_line_exclusive unitSquare_loop (by decide) ⟨1, 1 / 2⟩
example := C43_exclusive_iff unitSquare_loop (by decide) ⟨1, 1⟩ ⟨2, 0⟩ rfl
example := C43_exclusive_open_hull (w := unitSquare.dropLast) (base := ⟨0, 0⟩) rfl unitSquare_open (by decide) ⟨1, 1⟩
example := C44_contains_hull_iff unitSquare_loop (by decide) [⟨1, 1⟩, ⟨2, 0⟩]
example := C44_hull_contains_its_points unitSquare_loop (by decide)
example := C44_degenerate_containers (⟨1, 2⟩ : V2 ℚ) ⟨3, 4⟩ [⟨2, 3⟩] List.reverse (fun l => l.reverse_perm)

section
open Verif.Props.Aabb Verif.Proofs.Aabb
/-- a box that was fed with points and another box -/
def hist : Hist2 ℚ := .aabb (.point (.withPoints [⟨1, 5⟩, ⟨3, 2⟩]) ⟨2, 9⟩) (.new ⟨0, 3⟩)
def hist' : Hist2 ℚ := .fromIter [⟨0, 3⟩, ⟨2, 9⟩, ⟨3, 2⟩, ⟨1, 5⟩, ⟨0, 3⟩]
def hist3 : Hist3 ℚ := .point (.withPoints [⟨1, 5, 0⟩, ⟨3, 2, 7⟩]) ⟨2, 9, 1⟩
def hist3' : Hist3 ℚ := .withPoints [⟨3, 2, 7⟩, ⟨2, 9, 1⟩, ⟨1, 5, 0⟩, ⟨2, 9, 1⟩]
example := C30_box2_contains_fed hist ⟨3, 2⟩ (by decide +kernel)
example := C30_box3_contains_fed hist3 ⟨3, 2, 7⟩ (by decide +kernel)
example := C30_box2_minimal hist (by decide +kernel) ⟨some (⟨0, 0⟩, ⟨3, 9⟩)⟩ (by decide +kernel)
example := C30_box3_minimal hist3 (by decide +kernel) ⟨some (⟨0, 0, 0⟩, ⟨3, 9, 8⟩)⟩ (by decide +kernel)
example := C31_box2_order_independent hist hist' (by
  have h1 : ∀ p ∈ hist.fed, p ∈ hist'.fed := by decide +kernel
  have h2 : ∀ p ∈ hist'.fed, p ∈ hist.fed := by decide +kernel
  exact fun p => ⟨h1 p, h2 p⟩)
example := C31_box3_order_independent hist3 hist3' (by
  have h1 : ∀ p ∈ hist3.fed, p ∈ hist3'.fed := by decide +kernel
  have h2 : ∀ p ∈ hist3'.fed, p ∈ hist3.fed := by decide +kernel
  exact fun p => ⟨h1 p, h2 p⟩)
theorem proper2 : Proper2 (⟨some (⟨1, 1⟩, ⟨4, 2⟩)⟩ : Aabb2 ℚ) := ⟨_, _, rfl, by norm_num, by norm_num⟩
theorem proper3 : Proper3 (⟨some (⟨0, 0, 1⟩, ⟨4, 2, 1⟩)⟩ : Aabb3 ℚ) := ⟨_, _, rfl, by norm_num, by norm_num, by norm_num⟩
example := C32_contains_aabb2 ⟨some (⟨0, 0⟩, ⟨4, 4⟩)⟩ _ proper2
example := C32_contains_aabb3 ⟨some (⟨0, 0, 0⟩, ⟨4, 4, 4⟩)⟩ _ proper3
example := C33_convex_hull (⟨some (⟨0, 0⟩, ⟨4, 2⟩)⟩ : Aabb2 ℚ) [⟨0, 0⟩, ⟨4, 0⟩, ⟨4, 2⟩, ⟨0, 2⟩, ⟨0, 0⟩] (by decide +kernel)
example := C28_copy_roundtrip_3d .xz (⟨1, 0, 3⟩ : V3 ℚ) [⟨1, 0, 3⟩, ⟨5, 0, 6⟩] rfl (by decide +kernel)
example := C29_get_plane _ (Or.inr proper3) .xy
example := C29_points_in_plane _ .xy proper3 (by decide +kernel) ⟨1, 1, 1⟩ ⟨4, 0, 1⟩
  ⟨_, _, rfl, by norm_num⟩ ⟨_, _, rfl, by norm_num⟩
example := C29_relaxed (⟨some (⟨0, 0, 1⟩, ⟨4, 2, 1⟩)⟩ : Aabb3 ℚ) (fun d => decide (d = 0)) (by simp)
/-- two boxes and the map between them -/
theorem mapBoxes : SimpleAffine.new (⟨some (⟨0, 0⟩, ⟨1, 2⟩)⟩ : Aabb2 ℚ) ⟨some (⟨10, 10⟩, ⟨12, 14⟩)⟩ =
    some ⟨⟨-1 / 2, -1⟩, ⟨1, 1⟩, ⟨11, 12⟩⟩ := by decide +kernel
example := C35_scale_uniform _ _ _ mapBoxes
example := C34_inverse _ _ _ mapBoxes ⟨1, 1⟩
example := C35_center _ _ _ mapBoxes ⟨1 / 2, 1⟩ ⟨11, 12⟩ (by decide +kernel) (by decide +kernel)
example := C35_maps_into _ _ _ mapBoxes _ _ rfl (by norm_num) (by norm_num) ⟨1, 1⟩ ⟨_, _, rfl, by norm_num⟩
example := C65_center_inside hist ⟨3 / 2, 11 / 2⟩ (by decide +kernel)
example := C65_center_inside3 hist3 ⟨2, 11 / 2, 7 / 2⟩ (by decide +kernel)
example := C66_apply2 hist (fun p => ⟨2 * p.x + 1, 3 * p.y⟩) (fun x => 2 * x + 1) (fun y => 3 * y) (fun a b h => by simp only; linarith)
  (fun a b h => by simp only; linarith) (fun _ => rfl)
example := C66_apply3 hist3 (fun p => ⟨2 * p.x + 1, 3 * p.y, p.z⟩) (fun x => 2 * x + 1) (fun y => 3 * y) id (fun a b h => by simp only; linarith)
  (fun a b h => by simp only; linarith) monotone_id (fun _ => rfl)
end
end Verif.Witness
