import Verif.Props.Direction
import Verif.Props.HullUnique
import Verif.Model.Misc
/-!
# C101: connectedness, box and hull of the reversed line string
-/
namespace Verif.Props.Intersect
open Verif Verif.Model Verif.Spec Verif.Proofs.Intersect Scalar

/-- **C101** `is_connected` (2D and 3D), `point_count`, the bounding box and the convex hull of the reversed line string are
those of the line string. -/
theorem C101_connected_box_hull {K : Type} [Scalar K] [Field K] [LinearOrder K] [ExactScalar K] (line : List (V2 K)) (line3 : List (V3 K)) :
    isConnected2 line.reverse = isConnected2 line ∧ isConnected3 line3.reverse = isConnected3 line3 ∧
    pointCount2 line.reverse = pointCount2 line ∧ Aabb2.withPoints line.reverse = Aabb2.withPoints line ∧
    ∀ [ExactAtan2 K] (srt srt' : List (V2 K × K × K) → List (V2 K × K × K)), Sorts angleCmp srt → Sorts angleCmp srt' →
      4 ≤ line.length → (line.head? = line.getLast? → 5 ≤ line.length) → (∃ a ∈ line, ∃ b ∈ line, a ≠ b) →
      lineConvexHull srt' line.reverse = lineConvexHull srt line := by
  have h2 : ∀ a b : V2 K, a.beq b = b.beq a := by
    intro a b
    rw [Bool.eq_iff_iff, v2_beq, v2_beq]; exact eq_comm
  have h3 : ∀ a b : V3 K, a.beq b = b.beq a := by
    intro a b
    simp only [V3.beq, beq_decide, eq_comm]
  have c : isConnected2 line.reverse = isConnected2 line := by
    unfold isConnected2
    rw [List.head?_reverse, List.getLast?_reverse]
    cases line.head? <;> cases line.getLast? <;> first | rfl | exact h2 _ _
  refine ⟨c, ?_, ?_, ?_, ?_⟩
  · unfold isConnected3
    rw [List.head?_reverse, List.getLast?_reverse, List.isEmpty_reverse]
    congr 1
    cases line3.head? <;> cases line3.getLast? <;> first | rfl | exact h3 _ _
  · unfold pointCount2
    rw [c, List.length_reverse]
  · exact Aabb.C31_box2_order_independent (.withPoints line.reverse) (.withPoints line) (fun p => List.mem_reverse)
  · intro _ srt srt' hs hs' h4 h5 hne
    refine ((C62_graham_scan_depends_on_the_set_only srt srt' hs hs' line line.reverse (fun p => List.mem_reverse.symm) h4 h5
      (by rw [List.length_reverse]; exact h4) ?_ hne).2).symm
    intro e
    rw [List.length_reverse]
    rw [List.head?_reverse, List.getLast?_reverse] at e
    exact h5 e.symm

end Verif.Props.Intersect
