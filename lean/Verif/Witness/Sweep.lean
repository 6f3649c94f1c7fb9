import Verif.Props.SweepRename
import Verif.Props.SweepMove
import Verif.Props.SweepTable
import Verif.Props.SweepTouch
import Verif.Props.SweepDirection
import Verif.Props.SweepIndexed
import Verif.Props.ClosedStart
/-!
# The hypotheses of the theorems about the sweep line are met

Every theorem is applied to three lines (two of them cross, two have a common end point), to the same lines given as
edges of five vertices, or to a line string that crosses itself; search trees with more than one node.
-/
namespace Verif.Witness
open Verif Verif.Spec Verif.Model Verif.Sweep Verif.Props

/-- search trees that split in the middle -/
local instance : TreeShape ℝ := TreeShape.middle ℝ
local instance : TreeShape FQ := TreeShape.middle FQ

theorem keep_perm : ∀ n l, (keepOrder n l).Perm l := fun _ _ => .refl _
theorem back_perm : ∀ n l, (backwards n l).Perm l := fun _ l => l.reverse_perm
theorem three : 2 * gpExample.length + gpExample.length * gpExample.length < 16 := by simp [gpExample]

/-- the lines of `gpExample` as edges -/
def gpVertices : List (V2 ℝ) := [⟨0, 0⟩, ⟨4, 4⟩, ⟨5, 1⟩, ⟨0, 3⟩, ⟨9, 5⟩]
def gpEdges : List (Nat × Nat) := [(0, 1), (2, 3), (1, 4)]
theorem gpEdges_in : ∀ e ∈ gpEdges, e.1 < gpVertices.length ∧ e.2 < gpVertices.length := by
  simp [gpEdges, gpVertices]
theorem three' : 2 * gpEdges.length + gpEdges.length * gpEdges.length < 16 := by simp [gpEdges]
theorem gpEdges_lines : EdgeLines gpVertices gpEdges gpExample := by
  refine ⟨rfl, ?_⟩
  intro i e l he hl
  match i, he, hl with
  | 0, he, hl => simp [gpExample, gpEdges] at he hl; subst he hl; exact ⟨rfl, rfl⟩
  | 1, he, hl => simp [gpExample, gpEdges] at he hl; subst he hl; exact ⟨rfl, rfl⟩
  | 2, he, hl => simp [gpExample, gpEdges] at he hl; subst he hl; exact ⟨rfl, rfl⟩
  | n + 3, he, hl => simp [gpExample] at hl

/-- eleven points, the first segment is crossed by the last one -/
def longLine : List (V2 ℝ) := [⟨0, 0⟩, ⟨10, 1⟩, ⟨11, 3⟩, ⟨10, 5⟩, ⟨9, 7⟩, ⟨8, 9⟩, ⟨7, 11⟩, ⟨6, 13⟩, ⟨5, 15⟩, ⟨4, 17⟩, ⟨3, -2⟩]
theorem eleven : 2 * longLine.length + longLine.length * longLine.length < 144 := by simp [longLine]

example := C46_reported_points_are_common keepOrder keep_perm false false gpExample 16 three
example := C47_positions_increase keepOrder keep_perm false false gpExample 16 three
example := C48_terminates keepOrder keep_perm false false gpExample 16 three
example := C48_indexed_terminates keepOrder keep_perm false false gpVertices gpEdges gpEdges_in 16 three'
example := C49_vertices_preserved keepOrder keep_perm false false gpVertices gpEdges gpEdges_in 16 three'
example := C46_indexed_reported_points_are_common keepOrder keep_perm false false gpVertices gpEdges gpEdges_in 16 three'
example := C47_indexed_positions_increase keepOrder keep_perm false false gpVertices gpEdges gpEdges_in 16 three'
example := C56_shared_end_points_are_reported keepOrder keep_perm gpExample 16 three
example := C56_indexed_shared_end_points_are_reported keepOrder keep_perm gpVertices gpEdges gpEdges_in 16 three'
example := C57_at_least_two_lines keepOrder keep_perm false false gpExample 16 three
example := C58_ignoring_end_points keepOrder keep_perm false gpExample 16 three
example := C58_stops_at_the_first keepOrder keep_perm true gpExample 16 three
example := C58_self_intersecting_is_true keepOrder keep_perm longLine 144 eleven

/-- end points ignored: the crossing of the first two lines is reported -/
example : ∃ r, sweepIntersections keepOrder 16 true false gpExample = .ok r ∧ ∃ x ∈ r, x.1 = ⟨15 / 7, 15 / 7⟩ ∧ 0 ∈ x.2 ∧ 1 ∈ x.2 := by
  obtain ⟨r, h1, h2⟩ := C59_ignoring_end_points_reports_exactly_the_crossings keepOrder keep_perm gpExample gpExample_general 16 three
  refine ⟨r, h1, (h2 0 1 _ (by decide)).1 ⟨_, _, rfl, rfl, ?_, ?_, ?_, ?_⟩⟩
  · exact ⟨15 / 28, by norm_num, by norm_num, by simp only [lerp2, V2.mk.injEq]; norm_num⟩
  · exact ⟨4 / 7, by norm_num, by norm_num, by simp only [lerp2, V2.mk.injEq]; norm_num⟩
  · rintro (e | e) <;> simp only [V2.mk.injEq] at e <;> norm_num at e
  · rintro (e | e) <;> simp only [V2.mk.injEq] at e <;> norm_num at e
example := C59_stop_at_first_finds_a_crossing keepOrder keep_perm gpExample gpExample_general 16 three
example := C59_indexed_reports_exactly_the_common_points keepOrder keep_perm gpVertices gpEdges gpExample gpEdges_lines
  gpExample_general.sweep 16 three'

example := C60_independent_of_hash_order (TreeShape.oneNode ℝ) (TreeShape.middle ℝ) keepOrder backwards keep_perm back_perm
  false false gpExample 16 20 three (three.trans (by decide))
example := C60_self_intersecting_independent (TreeShape.oneNode ℝ) (TreeShape.middle ℝ) keepOrder backwards keep_perm back_perm
  longLine 144 150 eleven (eleven.trans (by decide))
example := C61_first_of_the_full_result keepOrder backwards keep_perm back_perm false gpExample 16 16 three three
example := C60_indexed_independent_of_hash_order (TreeShape.oneNode ℝ) (TreeShape.middle ℝ) keepOrder backwards keep_perm back_perm
  false false gpVertices gpEdges gpEdges_in 16 16 three' three'
example := C61_indexed_first_of_the_full_result keepOrder backwards keep_perm back_perm false gpVertices gpEdges gpEdges_in 16 16
  three' three'
/-- the second line begins at its upper end, so the edges are taken from a list of lines that all go up -/
example := C60_plain_and_indexed_agree (TreeShape.oneNode ℝ) (TreeShape.middle ℝ) keepOrder backwards keep_perm back_perm false false
  gpVertices gpEdges gpExample rfl (by
    intro i e l he hl
    match i, he, hl with
    | 0, he, hl => simp [gpExample, gpEdges] at he hl; subst he hl; exact ⟨rfl, rfl, Or.inl (by norm_num)⟩
    | 1, he, hl => simp [gpExample, gpEdges] at he hl; subst he hl; exact ⟨rfl, rfl, Or.inl (by norm_num)⟩
    | 2, he, hl => simp [gpExample, gpEdges] at he hl; subst he hl; exact ⟨rfl, rfl, Or.inl (by norm_num)⟩
    | n + 3, he, hl => simp [gpExample] at hl) 16 16 three' three'
example := C60_edge_direction (TreeShape.oneNode ℝ) (TreeShape.middle ℝ) keepOrder backwards keep_perm back_perm false
  gpVertices gpEdges gpExample gpEdges_lines gpExample_general.sweep 16 16 three' three'
example := C60_line_direction keepOrder 20 false false
  ([⟨⟨0, 0⟩, ⟨4, 4⟩⟩, ⟨⟨4, 0⟩, ⟨0, 5⟩⟩, ⟨⟨7, 1⟩, ⟨-1, 1⟩⟩] : List (Line2 ℝ))
    [⟨⟨4, 4⟩, ⟨0, 0⟩⟩, ⟨⟨4, 0⟩, ⟨0, 5⟩⟩, ⟨⟨-1, 1⟩, ⟨7, 1⟩⟩]
  (.turn ⟨⟨0, 0⟩, ⟨4, 4⟩⟩ (ends_apart _ (by simp)) (.same _ (.turn ⟨⟨7, 1⟩, ⟨-1, 1⟩⟩ (ends_apart _ (by simp; norm_num)) .nil)))

example := C94_sweep_moved_and_scaled (K := ℝ) (s := 3) (by norm_num) 7 (-2) (TreeShape.oneNode ℝ) (TreeShape.middle ℝ) keepOrder
  backwards keep_perm back_perm false false gpExample 16 16 three three
example := C94_indexed_sweep_moved_and_scaled (K := ℝ) (s := 3) (by norm_num) 7 (-2) (TreeShape.oneNode ℝ) (TreeShape.middle ℝ)
  keepOrder backwards keep_perm back_perm false false gpVertices gpEdges gpEdges_in 16 16 three' three'
example := C94_long_self_intersection (K := ℝ) (s := 3) (by norm_num) 7 (-2) (TreeShape.oneNode ℝ) (TreeShape.middle ℝ) keepOrder
  backwards keep_perm back_perm longLine 144 144 eleven eleven

/-- the lines of `gpExample`, the first and the last one exchanged -/
theorem gpExample_swapped : Renumbered (Equiv.swap 0 2) gpExample gpExample.reverse := by
  intro i
  match i with
  | 0 => rw [Equiv.swap_apply_left]; rfl
  | 1 => rfl
  | 2 => rw [Equiv.swap_apply_right]; rfl
  | n + 3 => rw [Equiv.swap_apply_of_ne_of_ne (by omega) (by omega)]; rfl
example := C102_line_order (TreeShape.oneNode ℝ) (TreeShape.middle ℝ) keepOrder backwards keep_perm back_perm false false
  (Equiv.swap 0 2) gpExample gpExample.reverse gpExample_swapped 16 16 three (by simp [gpExample])
example := C102_line_order_and_direction (TreeShape.oneNode ℝ) (TreeShape.middle ℝ) keepOrder backwards keep_perm back_perm false false
  (Equiv.swap 0 2) gpExample (gpExample.reverse.map (fun l => ⟨l.end, l.start⟩)) (by
    intro i
    right
    rw [List.getElem?_map, gpExample_swapped i]) 16 16 three (by simp [gpExample])
example := ClosedStart.C108_self_intersecting_long (TreeShape.oneNode ℝ) (TreeShape.middle ℝ) keepOrder backwards keep_perm back_perm
  (⟨0, 0⟩ : V2 ℝ) ⟨4, 4⟩ [⟨4, 0⟩] [⟨0, 4⟩] 25 25 (by decide) (by decide)
example := C102_permuted_lines (TreeShape.oneNode ℝ) (TreeShape.middle ℝ) keepOrder backwards keep_perm back_perm false false
  gpExample gpExample.reverse gpExample.reverse_perm.symm 16 16 three (by simp [gpExample])
example := C102_long_line_string_direction (TreeShape.oneNode ℝ) (TreeShape.middle ℝ) keepOrder backwards keep_perm back_perm
  longLine 144 144 eleven eleven
example := C102_edge_order (TreeShape.oneNode ℝ) (TreeShape.middle ℝ) keepOrder backwards keep_perm back_perm false false
  (Equiv.swap 0 1) ([⟨0, 0⟩, ⟨4, 4⟩, ⟨5, 1⟩] : List (V2 ℝ)) [⟨5, 1⟩, ⟨4, 4⟩, ⟨0, 0⟩] [(0, 1), (1, 2)] [(1, 0), (2, 1)] (by simp) (by simp)
  (by
    intro i
    match i with
    | 0 => rw [Equiv.swap_apply_left]; rfl
    | 1 => rw [Equiv.swap_apply_right]; rfl
    | n + 2 => rw [Equiv.swap_apply_of_ne_of_ne (by omega) (by omega)]; rfl) 16 16 (by simp) (by simp)

example := C98_vertices_in_any_arithmetic keepOrder 50 false false
  [(⟨.fin 0, .fin 0⟩ : V2 FQ), ⟨.fin 4, .fin 4⟩, ⟨.fin 4, .fin 0⟩, ⟨.fin 0, .fin 4⟩] [(0, 1), (2, 3)]
  [⟨.fin 0, .fin 0⟩, ⟨.fin 4, .fin 4⟩, ⟨.fin 4, .fin 0⟩, ⟨.fin 0, .fin 4⟩, ⟨.fin 2, .fin 2⟩] [(4, [0, 1])] (by decide +kernel)
example := C98_old_index_iff_end_point keepOrder keep_perm false false gpVertices gpEdges gpEdges_in 16 three'
example := C98_new_vertices_are_reported keepOrder keep_perm gpVertices gpEdges gpEdges_in 16 three'

example := C57_indexed_at_least_two_lines keepOrder keep_perm false false gpVertices gpEdges gpExample gpEdges_lines 16 three'
example := C58_indexed_ignoring_end_points keepOrder keep_perm false gpVertices gpEdges gpExample gpEdges_lines 16 three'
example := C58_indexed_stops_at_the_first keepOrder keep_perm true gpVertices gpEdges gpEdges_in 16 three'
/-- indexed version, end points ignored: the crossing of the first two edges is reported, also if the algorithm stops there -/
example : (∃ tab r, indexedSweepIntersections keepOrder 16 true false gpVertices gpEdges = .ok (tab, r) ∧
      ∃ x ∈ r, tab[x.1]? = some ⟨15 / 7, 15 / 7⟩ ∧ 0 ∈ x.2 ∧ 1 ∈ x.2) ∧
    ∃ tab r, indexedSweepIntersections keepOrder 16 true true gpVertices gpEdges = .ok (tab, r) ∧ r ≠ [] := by
  have on0 : IsOn (⟨⟨0, 0⟩, ⟨4, 4⟩⟩ : Line2 ℝ) ⟨15 / 7, 15 / 7⟩ :=
    ⟨15 / 28, by norm_num, by norm_num, by simp only [lerp2, V2.mk.injEq]; norm_num⟩
  have on1 : IsOn (⟨⟨5, 1⟩, ⟨0, 3⟩⟩ : Line2 ℝ) ⟨15 / 7, 15 / 7⟩ :=
    ⟨4 / 7, by norm_num, by norm_num, by simp only [lerp2, V2.mk.injEq]; norm_num⟩
  have no0 : ¬ IsEnd (⟨⟨0, 0⟩, ⟨4, 4⟩⟩ : Line2 ℝ) ⟨15 / 7, 15 / 7⟩ := by
    rintro (h | h) <;> simp only [V2.mk.injEq] at h <;> norm_num at h
  constructor
  · obtain ⟨tab, r, h1, h2⟩ := C59_indexed_ignoring_end_points keepOrder keep_perm gpVertices gpEdges gpExample gpEdges_lines
      gpExample_general.sweep 16 three'
    exact ⟨tab, r, h1, (h2 0 1 _ (by decide)).1 ⟨⟨_, _, rfl, rfl, on0, on1⟩, _, List.mem_cons_self, on0, no0⟩⟩
  · obtain ⟨tab, r, h1, h2⟩ := C59_indexed_stop_at_first_finds_a_touch keepOrder keep_perm gpVertices gpEdges gpExample gpEdges_lines
      gpExample_general.sweep 16 three'
    exact ⟨tab, r, h1, h2.2 ⟨0, 1, _, _, _, by decide, rfl, rfl, on0, on1, fun h => no0 h.1⟩⟩

end Verif.Witness
