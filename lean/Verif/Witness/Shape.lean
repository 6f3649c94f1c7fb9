import Verif.Props.ShapeUnique
import Verif.Props.ShapeSimplify
/-!
# The hypotheses of the theorems about dividing a network into shapes are met

`sample` is a network with two junctions, a dead end and a separate triangle; `sampleTurned` lists the same edges in another
order and in other directions.
-/
namespace Verif.Witness
open Verif Verif.Model Verif.Shape Verif.Spec Verif.Spec.Shape Verif.Props.Shape

theorem sample_same : ∀ u v, Edge sample u v ↔ Edge sampleTurned u v := by
  intro u v
  rw [edge_iff, edge_iff]
  have h1 : ∀ p ∈ chunks2 sample, p ∈ chunks2 sampleTurned ∨ (p.2, p.1) ∈ chunks2 sampleTurned := by decide
  have h2 : ∀ p ∈ chunks2 sampleTurned, p ∈ chunks2 sample ∨ (p.2, p.1) ∈ chunks2 sample := by decide
  constructor
  · rintro (h | h)
    · exact h1 _ h
    · exact (h1 _ h).symm
  · rintro (h | h)
    · exact h2 _ h
    · exact (h2 _ h).symm
theorem sample_divided : divideIntoShapes sample = .ok ([[1, 8], [1, 3, 0], [1, 2, 0], [0, 1], [5, 6, 7, 5]],
    [false, false, true, true, false, true, true, true, false]) := by decide +kernel
theorem sampleTurned_divided : divideIntoShapes sampleTurned = .ok ([[1, 2, 0], [1, 3, 0], [1, 8], [0, 1], [5, 7, 6, 5]],
    [false, false, true, true, false, true, true, true, false]) := by decide +kernel
theorem turned_noSelf : NoSelfEdge sampleTurned := fun v e => sample_noSelf v ((sample_same v v).2 e)
example := C02_divide_invents_no_edge sample sample_noSelf _ _ sample_divided
example := C03_divide_covers_each_edge_once sample sample_noSelf _ _ sample_divided
example := C04_divide_splits_at_junctions sample sample_noSelf _ _ sample_divided
example := C05_divide_marks_two_way_vertices sample sample_noSelf _ _ sample_divided
example := C06_divide_ignores_duplicates [0, 1, 1, 2] [7, 8] rfl 2 1 (by rw [edge_iff]; decide)
example := C06_divide_ignores_odd_index [0, 1, 1, 2] rfl 9
example := C92_divide_depends_only_on_the_edges sample sampleTurned sample_noSelf sample_same _ _ _ _ sample_divided
  sampleTurned_divided
/-- the division of the reordered edges is another division of the same network -/
example := C92_no_other_division sample sample_noSelf _ _ sample_divided [[1, 2, 0], [1, 3, 0], [1, 8], [0, 1], [5, 7, 6, 5]]
  (fun s hs w hw => (sample_same _ _).2 (C02_divide_invents_no_edge sampleTurned
    turned_noSelf _ _ sampleTurned_divided s hs w hw))
  (fun u v e => C03_divide_covers_each_edge_once sampleTurned
    turned_noSelf _ _ sampleTurned_divided u v ((sample_same _ _).1 e))
  (by
    have tn : ∀ v, TwoNeighbours sampleTurned v ↔ TwoNeighbours sample v := fun v => by
      rw [← (C05_divide_marks_two_way_vertices sampleTurned turned_noSelf _ _
        sampleTurned_divided).2.2 v, ← (C05_divide_marks_two_way_vertices sample sample_noSelf _ _ sample_divided).2.2 v]
    intro s hs
    obtain ⟨f, i, l, h1, h2, h3, h4, h5⟩ := C04_divide_splits_at_junctions sampleTurned
      turned_noSelf _ _ sampleTurned_divided s hs
    exact ⟨f, i, l, h1, fun x hx => (tn x).1 (h2 x hx), h3, h4, h5.imp (fun h => ⟨fun g => h.1 ((tn _).2 g),
      fun g => h.2 ((tn _).2 g)⟩) id⟩)
theorem moved_divided : divideIntoShapes (sample.map (· + 2)) = .ok ([[3, 10], [3, 5, 2], [3, 4, 2], [2, 3], [7, 8, 9, 7]],
    [false, false, false, false, true, true, false, true, true, true, false]) := by decide +kernel
example := C92_divide_commutes_with_renaming (· + 2) (fun a b h => by simpa using h) sample sample_noSelf _ _ _ _ sample_divided
  moved_divided

def netEdges : List Nat := [0, 1, 1, 2, 0, 3, 3, 4, 0, 5, 6, 7, 7, 8, 8, 6]
def netPoints : List (V2 ℚ) := [⟨0, 0⟩, ⟨5, 1 / 2⟩, ⟨10, 0⟩, ⟨0, 5⟩, ⟨5, 5⟩, ⟨-3, 0⟩, ⟨20, 0⟩, ⟨30, 0⟩, ⟨20, 1 / 2⟩]
def netPoints3 : List (V3 ℚ) := [⟨0, 0, 1⟩, ⟨5, 1 / 2, 1⟩, ⟨10, 0, 1⟩, ⟨0, 5, 1⟩, ⟨5, 5, 1⟩, ⟨-3, 0, 1⟩, ⟨20, 0, 1⟩, ⟨30, 0, 1⟩, ⟨20, 1 / 2, 1⟩]
theorem net_noSelf : NoSelfEdge netEdges := by
  have h : ∀ p ∈ chunks2 netEdges, p.1 ≠ p.2 := by decide
  intro u
  rw [edge_iff]
  rintro (e | e)
  · exact h _ e rfl
  · exact h _ e rfl
theorem net_inside : ∀ u v, Edge netEdges u v → u < 9 := by
  have h : ∀ p ∈ chunks2 netEdges, p.1 < 9 ∧ p.2 < 9 := by decide
  intro u v
  rw [edge_iff]
  rintro (e | e)
  · exact (h _ e).1
  · exact (h _ e).2
example := C104_simplified_network2 netPoints netEdges 1 net_noSelf (by decide) net_inside _ _ C104_example.1
example := C104_simplified_network3 netPoints3 netEdges 1 net_noSelf (by decide) net_inside _ _ C104_example.1
example := C104_network_is_near2 netPoints netEdges 1 net_noSelf (by decide) net_inside _ _ C104_example.1 _
  (C104_simplified_network2 netPoints netEdges 1 net_noSelf (by decide) net_inside _ _ C104_example.1).choose_spec.1
example := C104_network_is_near3 netPoints3 netEdges 1 net_noSelf (by decide) net_inside _ _ C104_example.1 _
  (C104_simplified_network3 netPoints3 netEdges 1 net_noSelf (by decide) net_inside _ _ C104_example.1).choose_spec.1

end Verif.Witness
