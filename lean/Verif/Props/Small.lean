import Verif.Props.Intersect
import Verif.Props.Contain
import Verif.Props.Misc
import Verif.Model.Misc
import Verif.Model.Sweep
/-!
# Small functions
-/
namespace Verif.Props
open Verif Verif.Model Scalar

/-- C25: the segments of `window_iter` (2D): the `i`-th goes from point `i` to point `i + 1`. -/
theorem C25_window_segments2 {α : Type} [Scalar α] (l : List (V2 α)) :
    (windowIter2 l).length = l.length - 1 ∧
    ∀ i s, (windowIter2 l)[i]? = some s ↔ l[i]? = some s.start ∧ l[i + 1]? = some s.end := by
  refine ⟨by rw [windowIter2, List.length_map, Intersect.windows2_length], fun i s => ?_⟩
  rw [windowIter2, List.getElem?_map, ← Intersect.windows2_get, Option.map_eq_some_iff]
  constructor
  · rintro ⟨w, h, rfl⟩; exact h
  · intro h; exact ⟨_, h, rfl⟩

/-- C25: the segments of `window_iter` (3D) -/
theorem C25_window_segments3 {α : Type} [Scalar α] (l : List (V3 α)) :
    (windowIter3 l).length = l.length - 1 ∧
    ∀ i s, (windowIter3 l)[i]? = some s ↔ l[i]? = some s.start ∧ l[i + 1]? = some s.end := by
  refine ⟨by rw [windowIter3, List.length_map, Intersect.windows2_length], fun i s => ?_⟩
  rw [windowIter3, List.getElem?_map, ← Intersect.windows2_get, Option.map_eq_some_iff]
  constructor
  · rintro ⟨w, h, rfl⟩; exact h
  · intro h; exact ⟨_, h, rfl⟩

/-- C25: the segments of `chunk_iter` (2D): the `i`-th goes from point `2i` to point `2i + 1`. -/
theorem C25_chunk_segments2 {α : Type} [Scalar α] (l : List (V2 α)) :
    (chunkIter2 l).length = l.length / 2 ∧
    ∀ i s, (chunkIter2 l)[i]? = some s ↔ l[2 * i]? = some s.start ∧ l[2 * i + 1]? = some s.end := by
  refine ⟨by rw [chunkIter2, List.length_map, Intersect.chunks2_length], fun i s => ?_⟩
  rw [chunkIter2, List.getElem?_map, ← Intersect.chunks2_get, Option.map_eq_some_iff]
  constructor
  · rintro ⟨w, h, rfl⟩; exact h
  · intro h; exact ⟨_, h, rfl⟩

/-- C25: the segments of `chunk_iter` (3D) -/
theorem C25_chunk_segments3 {α : Type} [Scalar α] (l : List (V3 α)) :
    (chunkIter3 l).length = l.length / 2 ∧
    ∀ i s, (chunkIter3 l)[i]? = some s ↔ l[2 * i]? = some s.start ∧ l[2 * i + 1]? = some s.end := by
  refine ⟨by rw [chunkIter3, List.length_map, Intersect.chunks2_length], fun i s => ?_⟩
  rw [chunkIter3, List.getElem?_map, ← Intersect.chunks2_get, Option.map_eq_some_iff]
  constructor
  · rintro ⟨w, h, rfl⟩; exact h
  · intro h; exact ⟨_, h, rfl⟩

/-- C42: a hull of one point contains exactly that point, for both tests (so the exclusive test accepts it,
although it is a corner); the empty hull contains nothing. -/
theorem C42_single_point {K : Type} [Scalar K] [LinearOrder K] [OrderedScalar K] (a p : V2 K) :
    containsPointInclusive [a] p = .ok (decide (p = a)) ∧ containsPointExclusive [a] p = .ok (decide (p = a)) ∧
    containsPointInclusive [] p = .ok false ∧ containsPointExclusive [] p = .ok false := by
  have hb : p.beq a = decide (p = a) := by
    obtain ⟨p1, p2⟩ := p
    obtain ⟨a1, a2⟩ := a
    rw [Bool.eq_iff_iff]
    simp [V2.beq, beq_decide]
  refine ⟨?_, ?_, rfl, rfl⟩
  · show Except.ok (p.beq a) = _
    rw [hb]
  · show Except.ok (p.beq a) = _
    rw [hb]

/-- C70: `Line3::apply` maps both ends, as `apply` of a line string does with all points. -/
theorem C70_line_apply {α : Type} [Scalar α] (l : Line3 α) (f : V3 α → V3 α) :
    applyLine f [l.start, l.end] = [(l.apply f).start, (l.apply f).end] := by
  simp [applyLine, applyStep, List.range_succ, Line3.apply]

/-- C70: lines made from arrays: the numbers are the coordinates, in order. -/
theorem C70_line_from_array {α : Type} [Scalar α] (a b c d e f : α) :
    (let l := Line2.ofScalars a b c d; [l.start.x, l.start.y, l.end.x, l.end.y]) = [a, b, c, d] ∧
    (let l := Line2.ofPairs (a, b) (c, d); [l.start.x, l.start.y, l.end.x, l.end.y]) = [a, b, c, d] ∧
    (let l := Line3.ofScalars a b c d e f;
      [l.start.x, l.start.y, l.start.z, l.end.x, l.end.y, l.end.z]) = [a, b, c, d, e, f] :=
  ⟨rfl, rfl, rfl⟩

/-- C58: the default configuration computes everything, end points included: it is the configuration with
both options switched off. -/
theorem C58_default_configuration {α : Type} [Scalar α] [TreeShape α] (order : Nat → List Nat → List Nat) (fuel : Nat) (input : List (Line2 α)) :
    (do let d ← withLines SweepData.default input
        sweepCompute order fuel d) = sweepIntersections order fuel false false input ∧
    ∀ vs edges, (do let d ← withEdges (IndexedSweepData.new vs) edges
                    indexedSweepCompute order fuel d) = indexedSweepIntersections (α := α) order fuel false false vs edges :=
  ⟨rfl, fun _ _ => rfl⟩

example : (chunkIter2 [(⟨0, 0⟩ : V2 ℚ), ⟨1, 0⟩, ⟨2, 0⟩, ⟨3, 0⟩, ⟨4, 0⟩]).map (·.start.x) = [0, 2] := by decide +kernel

end Verif.Props
