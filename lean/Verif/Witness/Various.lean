import Verif.Props.Parabola
import Verif.Props.Dist
import Verif.Props.Planar
import Verif.Props.Debug
import Verif.Props.Misc
import Verif.Props.ObjText
/-!
# The hypotheses of the theorems about parabolic arcs, distances, planar lines, texts and saved files are met
-/
namespace Verif.Witness
open Verif Verif.Spec Verif.Model Verif.Props

/-! `exArc`: the arc between (100,200) and (300,200) of the parabola around (200,200) over the segment (100,100)-(300,100) -/
def exArcOut : List (V2 ℚ) := [⟨100, 200⟩, ⟨125, 1425 / 8⟩, ⟨150, 325 / 2⟩, ⟨175, 1225 / 8⟩,
      ⟨200, 150⟩, ⟨225, 1225 / 8⟩, ⟨250, 325 / 2⟩, ⟨275, 1425 / 8⟩, ⟨300, 200⟩]
theorem exArc_out : exArc.discretize2d 20 (8 / 10) = some exArcOut := by decide +kernel
theorem exArc_cell : orient exArc.segment.start exArc.segment.end exArc.cellPoint ≠ 0 := by decide +kernel
theorem exArc_ends : along exArc.segment.start exArc.segment.end exArc.startPoint ≠
      along exArc.segment.start exArc.segment.end exArc.endPoint := by decide +kernel
example := C50_end_points_2d 20 exArc (8 / 10) _ exArc_out
example := C51_equidistant 20 exArc (8 / 10) _ exArc_cell exArc_out
example := C51_terminates exArc (8 / 10) (by norm_num) exArc_cell exArc_ends
example := C51_terminates_3d exArc (8 / 10) (by norm_num) exArc_cell exArc_ends
example := C50_end_points_3d _ exArc (8 / 10) _ ((C51_terminates_3d exArc (8 / 10) (by norm_num) exArc_cell exArc_ends
  ).choose_spec.choose_spec _ le_rfl).1
example := C55_monotone 20 exArc (8 / 10) _ (by norm_num) exArc_cell exArc_ends exArc_out
/-- the arc point over x = 210 -/
example := C55_accuracy 20 exArc (8 / 10) _ (by norm_num) exArc_cell exArc_ends
  (by rw [equidistant_iff _ _ _ _ (by decide +kernel)]; decide +kernel) (by rw [equidistant_iff _ _ _ _ (by decide +kernel)]; decide +kernel)
  exArc_out ⟨210, 301 / 2⟩ (by rw [equidistant_iff _ _ _ _ (by decide +kernel)]; decide +kernel) (by decide +kernel)
/-- the same arc over the real numbers -/
def exArcR : Arc ℝ := ⟨⟨⟨100, 100⟩, ⟨300, 100⟩⟩, ⟨200, 200⟩, ⟨100, 200⟩, ⟨300, 200⟩⟩
theorem exArcR_cell : orient exArcR.segment.start exArcR.segment.end exArcR.cellPoint ≠ 0 := by
  norm_num [exArcR, orient]
theorem exArcR_ends : along exArcR.segment.start exArcR.segment.end exArcR.startPoint ≠
      along exArcR.segment.start exArcR.segment.end exArcR.endPoint := by norm_num [exArcR, along]
example := C51_equidistant_3d _ exArcR (8 / 10) _ exArcR_cell ((C51_terminates_3d exArcR (8 / 10) (by norm_num) exArcR_cell
  exArcR_ends).choose_spec.choose_spec _ le_rfl).1

example := Dist.C16_dist2_is_min (⟨0, 0⟩ : V2 ℚ) ⟨3, 1⟩ ⟨1, 2⟩ (by decide +kernel)
example := Dist.C16_safe_agrees (⟨0, 0⟩ : V2 ℚ) ⟨3, 1⟩ ⟨1, 2⟩ (by decide +kernel)
example := Dist.C17_dist3_is_min (⟨0, 0, 0⟩ : V3 ℚ) ⟨3, 1, 2⟩ ⟨1, 2, 5⟩ (by decide +kernel)

theorem flat_plane : Plane.getPlane (Aabb3.withPoints [(⟨0, 0, 4⟩ : V3 ℚ), ⟨5, 1, 4⟩, ⟨2, 3, 4⟩]) = some .xy := by decide +kernel
example := Planar.C99_copy_flat [(⟨0, 0, 4⟩ : V3 ℚ), ⟨5, 1, 4⟩, ⟨2, 3, 4⟩] .xy flat_plane

/-! A text of numbers that satisfies what is asked of it exists (`C96_texts_exist`); used on 12.0 and on two lines. -/
section text
open Verif.Fl Verif.Flt Verif.Props.Debug
example := C96_number_reads_back (C96_texts_exist b64) (ofQ false (3 / 2))
example := C96_number_has_a_point (C96_texts_exist b64) (ofQ false (3 / 2)) (by decide +kernel)
example := C96_whole_number (C96_texts_exist b64) (ofQ false (-12)) (by decide +kernel) (-12) (by decide +kernel)
example := C96_not_finite (C96_texts_exist b32)
example := C96_line2_reads_back (C96_texts_exist b32) ⟨⟨.zero false, .zero true⟩, ⟨ofQ false (-12), .inf false⟩⟩
example := C96_line3_reads_back (C96_texts_exist b32) ⟨⟨.zero false, .zero true, .nan⟩, ⟨ofQ false (-12), .inf false, .zero true⟩⟩
example := C96_aabb2_reads_back (C96_texts_exist b32) ⟨some (⟨.zero false, .zero true⟩, ⟨ofQ false 12, .inf false⟩)⟩
example := C96_line2_text_determines (C96_texts_exist b64) (⟨⟨.zero false, .zero true⟩, ⟨ofQ false (-12), .inf false⟩⟩) _ rfl
end text

/-! Two lines with a common end point; the point map sorted by position. -/
section file
def objLines : List (List (Line3 ℚ)) := [[⟨⟨0, 0, 0⟩, ⟨1, 0, 0⟩⟩], [⟨⟨1, 0, 0⟩, ⟨2, 0, 0⟩⟩]]
def objFmt : V3 ℚ → String := fun v => if v.x = 0 then "v 0" else if v.x = 1 then "v 1" else "v 2"
theorem obj_sort : SortOf (objPointSet objFmt objLines) [("v 0", 0), ("v 1", 1), ("v 2", 2)] :=
  ⟨by decide +kernel, by decide +kernel⟩
example := C52_file objFmt "a" objLines _ obj_sort
example := C52_fault objFmt "a" objLines _ (some 3) obj_sort
example := C52_saved_text_is_well_formed objFmt "a" objLines _ obj_sort (by decide) (fun v => by
  unfold objFmt
  by_cases h : v.x = 0
  · rw [if_pos h]; exact ⟨⟨['0'], by decide⟩, by decide, by decide⟩
  · rw [if_neg h]
    by_cases g : v.x = 1
    · rw [if_pos g]; exact ⟨⟨['1'], by decide⟩, by decide, by decide⟩
    · rw [if_neg g]; exact ⟨⟨['2'], by decide⟩, by decide, by decide⟩)
end file

end Verif.Witness
