import Verif.Props.HullContain
import Verif.Props.HullMerge
import Verif.Props.HullMore
import Verif.Props.HullSmall
import Verif.Props.HullWalk
import Verif.Props.NoLoop
import Verif.Props.GiftWrap
import Verif.Props.HullPar
/-!
# The hypotheses of the theorems about convex hulls are met

Every theorem is applied to a polygon with points inside of it, on its edges and repeated, or to indices of such points.
-/
namespace Verif.Witness
open Verif Verif.Spec Verif.Model Verif.Hull Verif.Props

abbrev sortV : List (V2 ℚ × ℚ × ℚ) → List (V2 ℚ × ℚ × ℚ) := fun l => l.mergeSort (fun a b => angleCmp a b != .gt)
abbrev sortI : List (Nat × ℚ × ℚ) → List (Nat × ℚ × ℚ) := fun l => l.mergeSort (fun a b => angleCmp a b != .gt)
theorem sortV_sorts : Sorts angleCmp sortV := sorts_mergeSort
theorem sortI_sorts : Sorts angleCmp sortI := sorts_mergeSort

/-- a square with points inside, on an edge, and a repeated corner -/
def square : List (V2 ℚ) := [⟨0, 0⟩, ⟨1, 1⟩, ⟨2, 0⟩, ⟨2, 2⟩, ⟨2, 2⟩, ⟨0, 2⟩, ⟨1, 0⟩, ⟨0, 0⟩]
/-- the same points in another order, each once -/
def square' : List (V2 ℚ) := [⟨0, 2⟩, ⟨2, 0⟩, ⟨1, 1⟩, ⟨1, 0⟩, ⟨0, 0⟩, ⟨2, 2⟩]
theorem square_two : ∃ a ∈ square, ∃ b ∈ square, a ≠ b := ⟨⟨0, 0⟩, by simp [square], ⟨1, 1⟩, by simp [square], by decide⟩
theorem square'_two : ∃ a ∈ square', ∃ b ∈ square', a ≠ b := ⟨⟨0, 0⟩, by simp [square'], ⟨1, 1⟩, by simp [square'], by decide⟩
theorem square_same : ∀ p, p ∈ square ↔ p ∈ square' := by
  have h1 : ∀ p ∈ square, p ∈ square' := by decide +kernel
  have h2 : ∀ p ∈ square', p ∈ square := by decide +kernel
  exact fun p => ⟨h1 p, h2 p⟩
theorem square_notFlat : NotFlat square := ⟨⟨0, 0⟩, by simp [square], ⟨2, 0⟩, by simp [square], ⟨2, 2⟩, by simp [square], by decide +kernel⟩
/-- a triangle within the square -/
def triangle : List (V2 ℚ) := [⟨0, 0⟩, ⟨1, 0⟩, ⟨1, 1⟩, ⟨1 / 2, 1 / 4⟩]
theorem triangle_two : ∃ a ∈ triangle, ∃ b ∈ triangle, a ≠ b := ⟨⟨0, 0⟩, by simp [triangle], ⟨1, 1⟩, by simp [triangle], by decide⟩
theorem triangle_notFlat : NotFlat triangle := ⟨⟨0, 0⟩, by simp [triangle], ⟨1, 0⟩, by simp [triangle], ⟨1, 1⟩, by simp [triangle], by decide +kernel⟩

example := C36_graham_scan_is_hull sortV sortV_sorts square (by decide) (by decide) square_two
example := C37_sort_exists (⟨0, 0⟩ : V2 ℚ) square (by decide +kernel)
/-- a sort that meets the hypothesis of C37 -/
theorem sortC37 : ∃ srt : V2 ℚ → List (V2 ℚ) → Option (List (V2 ℚ)), ∀ s l, (∀ a ∈ l, s.x < a.x ∨ s.x = a.x ∧ s.y ≤ a.y) →
    (∀ a ∈ l, ∀ b ∈ l, orientCmp s a b ≠ none) → ∃ r, srt s l = some r ∧ r.Perm l ∧ r.Pairwise (fun a b => orientCmp s a b ≠ some .gt) := by
  classical
  refine ⟨fun s l => if h : ∀ a ∈ l, s.x < a.x ∨ s.x = a.x ∧ s.y ≤ a.y then some (C37_sort_exists s l h).choose else none, ?_⟩
  intro s l h _
  simp only [dif_pos h]
  exact ⟨_, rfl, (C37_sort_exists s l h).choose_spec⟩
example := C37_graham_scan_wo_atan2_is_hull _ sortC37.choose_spec square (by decide) (by decide) square_two
example := C36_any_arithmetic sortV (fun l => (sortV_sorts l).1) square
example := C37_any_arithmetic (fun _ l => some l) (fun _ l r h => by cases h; exact .refl _) square
example := C38_gift_wrap_terminates square 100 (by decide)
example := C38_gift_wrap_is_hull square' (by decide) (by decide) (by decide +kernel) (by decide +kernel) 100 (by decide)
example := C36_short_inputs_all sortV (fun _ l => some l) 100 [⟨0, 0⟩, ⟨2, 0⟩, ⟨2, 2⟩, ⟨0, 0⟩] [⟨2, 0⟩, ⟨2, 2⟩, ⟨0, 0⟩] (by simp) (by decide)
example := C36_equal_points (⟨1, 2⟩ : V2 ℚ) 7 sortV (fun l => (sortV_sorts l).1) (fun _ l => some l) (fun _ l => ⟨l, rfl, .refl _⟩) 7 (by decide)

/-- what is known of the hull of the square -/
theorem square_hull : ∃ hull, grahamScan sortV square = .ok hull ∧ IsHullLoop square hull ∧ StartsLowest square hull := by
  obtain ⟨hull, h1, -, h2, h3⟩ := C36_graham_scan_is_hull sortV sortV_sorts square (by decide) (by decide) square_two
  exact ⟨hull, h1, h2, h3⟩
theorem square'_hull : ∃ hull, grahamScan sortV square' = .ok hull ∧ IsHullLoop square' hull ∧ StartsLowest square' hull := by
  obtain ⟨hull, h1, -, h2, h3⟩ := C36_graham_scan_is_hull sortV sortV_sorts square' (by decide) (by decide +kernel) square'_two
  exact ⟨hull, h1, h2, h3⟩
theorem triangle_hull : ∃ hull, grahamScan sortV triangle = .ok hull ∧ IsHullLoop triangle hull ∧ StartsLowest triangle hull := by
  obtain ⟨hull, h1, -, h2, h3⟩ := C36_graham_scan_is_hull sortV sortV_sorts triangle (by decide) (by decide +kernel) triangle_two
  exact ⟨hull, h1, h2, h3⟩
example := C93_hull_contains_the_combinations square_hull.choose_spec.2.1 square_notFlat
example := C93_convex_hull_then_contains sortV sortV_sorts square (by decide) (by decide) square_notFlat
example := C93_nested_hulls square_hull.choose_spec.2.1 triangle_hull.choose_spec.2.1 square_notFlat
example := C93_more_points_larger_hull square_hull.choose_spec.2.1 square'_hull.choose_spec.2.1 square_notFlat (fun p h => (square_same p).2 h)
example := C93_containment_is_an_order square_hull.choose_spec.2.1 triangle_hull.choose_spec.2.1 triangle_hull.choose_spec.2.1 square_notFlat triangle_notFlat
example := C62_hull_is_unique square_same square_hull.choose_spec.2.1 square_hull.choose_spec.2.2 square'_hull.choose_spec.2.1 square'_hull.choose_spec.2.2
example := C62_graham_scan_depends_on_the_set_only sortV sortV sortV_sorts sortV_sorts square square' square_same (by decide) (by decide) (by decide)
  (by decide +kernel) square_two
example := C62_graham_scans_agree sortV sortV_sorts _ sortC37.choose_spec square (by decide) (by decide) square_two
example := C62_gift_wrap_agrees sortV sortV_sorts square' (by decide) (by decide +kernel) (by decide +kernel) (by decide +kernel) 100 (by decide)
example := C63_points_are_combinations_of_the_vertices square_hull.choose_spec.2.1
example := C63_same_bounding_box square_hull.choose_spec.2.1
example := C63_graham_scan_keeps_the_bounding_box sortV sortV_sorts square _ (by decide) (by decide) square_two square_hull.choose_spec.1
/-- the gift wrapping computes the hull of the square, so its five entries are known -/
theorem square'_is : grahamScan sortV square' = .ok [⟨0, 0⟩, ⟨2, 0⟩, ⟨2, 2⟩, ⟨0, 2⟩, ⟨0, 0⟩] := by
  rw [← C62_gift_wrap_agrees sortV sortV_sorts square' (by decide) (by decide +kernel) (by decide +kernel) (by decide +kernel) 100 (by decide)]
  decide +kernel
example := C62_hull_of_hull sortV sortV sortV_sorts sortV_sorts square' (by decide) (by decide +kernel) square'_two _ square'_is (by decide)
example := C106_inner_points_do_not_matter sortV sortV sortV_sorts sortV_sorts [⟨0, 0⟩, ⟨4, 0⟩, ⟨4, 3⟩, ⟨0, 3⟩]
  [⟨0, 0⟩, ⟨4, 0⟩, ⟨4, 3⟩, ⟨0, 3⟩, ⟨2, 0⟩, ⟨1, 1⟩] (by decide +kernel) C106_example.1 (by decide) (by decide +kernel) (by decide) (by decide +kernel)
  ⟨⟨0, 0⟩, by simp, ⟨4, 0⟩, by simp, by decide +kernel⟩
example := C106_corners_suffice sortV sortV sortV_sorts sortV_sorts square' [⟨2, 2⟩, ⟨0, 0⟩, ⟨1, 1⟩, ⟨2, 0⟩, ⟨0, 2⟩] _ (by decide) (by decide +kernel)
  (by decide) (by decide +kernel) square'_two square'_is (by decide +kernel) (by decide +kernel)
example := C106_union_of_hulls sortV sortV sortV_sorts sortV_sorts square' triangle _ _ (by decide) (by decide +kernel) square'_two (by decide) (by decide +kernel)
  triangle_two square'_is triangle_hull.choose_spec.1

/-- vertices and indices: a square, one point inside, one vertex that is not used -/
def hVertices : List (V2 ℚ) := [⟨0, 0⟩, ⟨1, 1⟩, ⟨2, 0⟩, ⟨2, 2⟩, ⟨0, 2⟩, ⟨7, 0⟩]
def hIndices : List Nat := [4, 3, 2, 1, 0, 4]
def hPt (i : Nat) : V2 ℚ := hVertices.getD i ⟨0, 0⟩
theorem hPt_ok : ∀ i ∈ hIndices, getElem? hVertices i = some (hPt i) := by decide +kernel
theorem hPt_inj : ∀ i ∈ hIndices, ∀ j ∈ hIndices, hPt i = hPt j → i = j := by decide +kernel
example := C62_indexed_agree sortV sortV_sorts sortI sortI_sorts hVertices hIndices hPt hPt_ok (by decide) (by decide) hPt_inj (by decide) (by decide)
  100 (by decide) 6 (by decide) .leaf
example := C40_indexed_graham_scan_is_hull sortI sortI_sorts hVertices hIndices hPt hPt_ok (by decide) (by decide) hPt_inj
  ⟨0, by decide, 1, by decide, by decide⟩
example := C40_indexed_gift_wrap_is_hull hVertices hIndices hPt hPt_ok (by decide) (by decide) hPt_inj (by decide) (by decide) 100 (by decide)
example := C40_any_arithmetic sortI (fun l => (sortI_sorts l).1) hVertices hIndices (by decide) 100 (by decide)
example := C40_short_inputs sortI 100 hVertices hPt 0 2 3 (by decide +kernel) (by decide +kernel) (by decide +kernel)
example := C41_one_chunk_is_hull sortI sortI_sorts hVertices hIndices hPt hPt_ok (by decide) (by decide) hPt_inj (by decide) (by decide) 6 (by decide) .leaf
  100 (by decide)
example := C41_short_inputs 100 .leaf sortI hVertices [0, 2, 3, 0] 2 (by decide)
example := C100_any_arithmetic sortI (fun l => (sortI_sorts l).1) hVertices hIndices (by decide)
example := C100_no_loop_is_hull sortI sortI_sorts hVertices hIndices hPt hPt_ok (by decide) (by decide) hPt_inj ⟨0, by decide, 1, by decide, by decide⟩
  0 (by decide) (by unfold LexLt; decide +kernel)
example : ∃ hull, indexedGrahamNoLoop sortI hVertices hIndices none = .ok hull ∧ indexedGrahamNoLoop sortI hVertices hIndices (some 0) = .ok hull := by
  obtain ⟨hull, h1, -, h2, -⟩ := C100_no_loop_is_hull sortI sortI_sorts hVertices hIndices hPt hPt_ok (by decide) (by decide) hPt_inj
    ⟨0, by decide, 1, by decide, by decide⟩ 0 (by decide) (by unfold LexLt; decide +kernel)
  exact ⟨hull, h1, C100_start_is_first sortI (fun l => (sortI_sorts l).1) hVertices hIndices (by decide) hull 0 h1 h2⟩

theorem merge_pt : ∀ i ∈ List.range 7, getElem? mergePts i = some (mergePts.getD i ⟨0, 0⟩) := by decide +kernel
theorem merge_line : ∀ i ∈ List.range 7, ∀ j ∈ List.range 7, ∀ k ∈ List.range 7, i ≠ j → i ≠ k → j ≠ k →
    orient (mergePts.getD i ⟨0, 0⟩) (mergePts.getD j ⟨0, 0⟩) (mergePts.getD k ⟨0, 0⟩) ≠ 0 := by decide +kernel
example := C64_several_chunks_is_hull sortI sortI_sorts mergePts (List.range 7) (fun i => mergePts.getD i ⟨0, 0⟩) merge_pt (by decide) (by decide)
  (by decide +kernel) merge_line (by decide) (by decide) 3 (by decide) mergeSched (show OneChunkPerTask mergeSched 3 by simp [OneChunkPerTask, mergeSched]) 100 (by decide)
example := C64_line_several_chunks_is_hull sortI sortI_sorts mergePts (by decide) (by decide +kernel)
  (by
    intro i j k a b c ha hb hc hij hjk
    have hk : k < 7 := (List.getElem?_eq_some_iff.1 hc).1
    have e : ∀ n x, getElem? mergePts n = some x → x = mergePts.getD n ⟨0, 0⟩ := by
      intro n x h
      rw [List.getD_eq_getElem?_getD, h]; rfl
    rw [e _ _ ha, e _ _ hb, e _ _ hc]
    exact merge_line i (List.mem_range.2 (by omega)) j (List.mem_range.2 (by omega)) k (List.mem_range.2 hk) (by omega) (by omega) (by omega))
  3 (by decide) mergeSched (by simp [OneChunkPerTask, mergeSched, mergePts]) 100 (by decide)
end Verif.Witness
