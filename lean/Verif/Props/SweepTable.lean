import Verif.Proofs.SweepTable
import Verif.Props.SweepComplete
/-!
# C98: the vertex list that the indexed sweep line returns
-/
set_option linter.unusedSectionVars false
set_option linter.unusedVariables false
namespace Verif.Props
open Verif Verif.Spec Verif.Model Verif.Sweep Verif.Proofs.Intersect

/-! ## in every arithmetic -/
section
variable {α : Type} [Scalar α] [TreeShape α]

/-- C98, in every arithmetic (floating point included), for every iteration order of the hash set and every shape of the search
trees: if the indexed sweep line returns, then the returned vertices are the given ones, unchanged and in their places, and
further ones. Every further vertex has finite coordinates and is the point that `intersection_point` computes for two of the
edges; a reported index is valid, and it is one of a new vertex, or of an end of an edge. -/
theorem C98_vertices_in_any_arithmetic (order : Nat → List Nat → List Nat) (fuel : Nat) (ign stop : Bool) (vs : List (V2 α))
    (edges : List (Nat × Nat)) (tab : List (V2 α)) (r : List (Nat × List Nat))
    (h : indexedSweepIntersections order fuel ign stop vs edges = .ok (tab, r)) :
    (∃ new, tab = vs ++ new ∧ ∀ p ∈ new, FiniteV2 p ∧ ∃ e ∈ edges, ∃ f ∈ edges, ∃ a b c d it, vs[e.1]? = some a ∧
      vs[e.2]? = some b ∧ vs[f.1]? = some c ∧ vs[f.2]? = some d ∧ (Line2.mk a b).intersectionPoint ⟨c, d⟩ = some it ∧
      it.single = p) ∧
    ∀ x ∈ r, x.1 < tab.length ∧ (vs.length ≤ x.1 ∨ ∃ e ∈ edges, x.1 = e.1 ∨ x.1 = e.2) := by
  obtain ⟨⟨new, h1, h2⟩, h3⟩ := SweepTable.indexed_table h
  refine ⟨⟨new, h1, fun p hp => ?_⟩, h3⟩
  obtain ⟨g1, g2, g⟩ := h2 p hp
  exact ⟨⟨g1, g2⟩, g⟩

end

/-! ## in exact arithmetic -/
section
variable {K : Type} [Scalar K] [Field K] [LinearOrder K] [ExactScalar K] [ExactSqrt K]

/-- an end point of one of the edges -/
def IsEdgeEnd (vs : List (V2 K)) (edges : List (Nat × Nat)) (p : V2 K) : Prop :=
  ∃ e ∈ edges, vs[e.1]? = some p ∨ vs[e.2]? = some p

theorem onEdge_of {vs : List (V2 K)} {edges : List (Nat × Nat)} (hin : ∀ e ∈ edges, EdgeOk vs e) {i : Nat} {l : Line2 K} {p : V2 K}
    (hl : (edges.map (edgeLine vs ⟨0, 0⟩))[i]? = some l) (hp : OnSegment2 l.start l.end p) : OnEdge vs edges i p := by
  rw [List.getElem?_map] at hl
  obtain ⟨e, he, rfl⟩ := Option.map_eq_some_iff.1 hl
  obtain ⟨hb1, hb2⟩ := hin e (List.mem_of_getElem? he)
  have g1 : vs[e.1]? = some vs[e.1] := List.getElem?_eq_getElem hb1
  have g2 : vs[e.2]? = some vs[e.2] := List.getElem?_eq_getElem hb2
  refine ⟨e, _, _, he, g1, g2, ?_⟩
  unfold edgeLine at hp
  rw [g1, g2] at hp
  exact hp

theorem edgeEnd_iff {vs : List (V2 K)} {edges : List (Nat × Nat)} (hin : ∀ e ∈ edges, EdgeOk vs e) (p : V2 K) :
    IsEdgeEnd vs edges p ↔ ∃ l ∈ edges.map (edgeLine vs ⟨0, 0⟩), p = lo l ∨ p = hi l := by
  have key : ∀ e ∈ edges, (vs[e.1]? = some p ∨ vs[e.2]? = some p) ↔
      (p = lo (edgeLine vs ⟨0, 0⟩ e) ∨ p = hi (edgeLine vs ⟨0, 0⟩ e)) := by
    intro e he
    obtain ⟨hb1, hb2⟩ := hin e he
    have g1 : vs[e.1]? = some vs[e.1] := List.getElem?_eq_getElem hb1
    have g2 : vs[e.2]? = some vs[e.2] := List.getElem?_eq_getElem hb2
    rw [← ends_iff]
    unfold edgeLine
    rw [g1, g2]
    simp only [Option.some_inj, Option.getD_some]
    exact ⟨fun h => h.imp Eq.symm Eq.symm, fun h => h.imp Eq.symm Eq.symm⟩
  constructor
  · rintro ⟨e, he, h⟩
    exact ⟨_, List.mem_map_of_mem he, (key e he).1 h⟩
  · rintro ⟨l, hl, h⟩
    obtain ⟨e, he, rfl⟩ := List.mem_map.1 hl
    exact ⟨e, he, (key e he).2 h⟩

/-- C98, exact: an old index is reported exactly for the positions where an edge ends, a new index for all others -/
theorem C98_old_index_iff_end_point [TreeShape K] (order : Nat → List Nat → List Nat) (hord : ∀ n l, (order n l).Perm l)
    (ign stop : Bool) (vs : List (V2 K)) (edges : List (Nat × Nat))
    (hin : ∀ e ∈ edges, e.1 < vs.length ∧ e.2 < vs.length) (fuel : Nat)
    (hf : 2 * edges.length + edges.length * edges.length < fuel) :
    ∃ tab r, indexedSweepIntersections order fuel ign stop vs edges = .ok (tab, r) ∧
      ∀ x ∈ r, ∃ p, tab[x.1]? = some p ∧ (x.1 < vs.length ↔ IsEdgeEnd vs edges p) := by
  obtain ⟨new, r, H, h1, h2, h3, h4, h5, h6⟩ := SweepTable.indexed_vertices order hord ign stop vs ⟨0, 0⟩ edges hin fuel hf
  refine ⟨_, _, h1, ?_⟩
  intro x hx
  obtain ⟨-, h7⟩ := SweepTable.indexed_table h1
  have hx' := h7 x hx
  obtain ⟨y, hy, rfl⟩ := List.mem_map.1 hx
  refine ⟨_, h2 y hy, fun hlt => ?_, fun he => h4 y hy ((edgeEnd_iff hin _).1 he)⟩
  have hg := h2 y hy
  simp only at hlt hx'
  rw [List.getElem?_append_left hlt] at hg
  obtain ⟨-, h | ⟨e, he, h | h⟩⟩ := hx'
  · omega
  · exact ⟨e, he, Or.inl (h ▸ hg)⟩
  · exact ⟨e, he, Or.inr (h ▸ hg)⟩

/-- C98, exact: every new vertex is a common point of two different edges -/
theorem C98_new_vertices_are_common [TreeShape K] (order : Nat → List Nat → List Nat) (hord : ∀ n l, (order n l).Perm l)
    (ign stop : Bool) (vs : List (V2 K)) (edges : List (Nat × Nat))
    (hin : ∀ e ∈ edges, e.1 < vs.length ∧ e.2 < vs.length) (fuel : Nat)
    (hf : 2 * edges.length + edges.length * edges.length < fuel) :
    ∃ new r, indexedSweepIntersections order fuel ign stop vs edges = .ok (vs ++ new, r) ∧
      ∀ p ∈ new, ∃ i j, i ≠ j ∧ OnEdge vs edges i p ∧ OnEdge vs edges j p := by
  obtain ⟨new, r, H, h1, h2, h3, h4, h5, h6⟩ := SweepTable.indexed_vertices order hord ign stop vs ⟨0, 0⟩ edges hin fuel hf
  refine ⟨new, _, h1, fun p hp => ?_⟩
  obtain ⟨i, j, hij, ⟨l, hl, hl'⟩, ⟨m, hm, hm'⟩⟩ := h5 p hp
  exact ⟨i, j, hij, onEdge_of hin hl hl', onEdge_of hin hm hm'⟩

/-- C98, exact: with the default options no new vertex is forgotten in the answer: its position is reported (not necessarily
with its index, see `C98_unused_vertices`) for at least two edges through it -/
theorem C98_new_vertices_are_reported [TreeShape K] (order : Nat → List Nat → List Nat) (hord : ∀ n l, (order n l).Perm l)
    (vs : List (V2 K)) (edges : List (Nat × Nat))
    (hin : ∀ e ∈ edges, e.1 < vs.length ∧ e.2 < vs.length) (fuel : Nat)
    (hf : 2 * edges.length + edges.length * edges.length < fuel) :
    ∃ new r, indexedSweepIntersections order fuel false false vs edges = .ok (vs ++ new, r) ∧
      ∀ p ∈ new, ∃ x ∈ r, (vs ++ new)[x.1]? = some p ∧ ∃ i ∈ x.2, ∃ j ∈ x.2, i ≠ j ∧ OnEdge vs edges i p ∧ OnEdge vs edges j p := by
  obtain ⟨new, r, H, h1, h2, h3, h4, h5, h6⟩ := SweepTable.indexed_vertices order hord false false vs ⟨0, 0⟩ edges hin fuel hf
  refine ⟨new, _, h1, fun p hp => ?_⟩
  obtain ⟨x, hx, hxp, i, j, hij, hi, hj⟩ := h6 rfl p hp
  have hev := h3.hist x hx
  have hat : ∀ k, SweepTable.AtEvent (edges.map (edgeLine vs ⟨0, 0⟩)) p x.2 k → k ∈ allAt x.2 ∧ OnEdge vs edges k p := by
    rintro k ⟨l, hl, hon, h⟩
    refine ⟨?_, onEdge_of hin hl hon⟩
    rw [mem_allAt]
    rcases h with h | h | h
    · have := hev.end_mem hl (Or.inl (hxp.trans h)); tauto
    · have := hev.end_mem hl (Or.inr (hxp.trans h)); tauto
    · exact Or.inr (Or.inr h)
  obtain ⟨hi1, hi2⟩ := hat i hi
  obtain ⟨hj1, hj2⟩ := hat j hj
  have hrep : Reportable false x.2 := by
    unfold Reportable
    simp only [Bool.false_eq_true, if_false]
    rw [← allAt_length]
    have : [i, j] ⊆ allAt x.2 := by
      intro k hk
      simp only [List.mem_cons, List.not_mem_nil, or_false] at hk
      rcases hk with rfl | rfl <;> assumption
    have := (List.Nodup.subperm (by simp [hij]) this).length_le
    exact this
  have hmem : (x.1, allAt x.2) ∈ r := (h3.res _).2 ⟨x, hx, hrep, rfl⟩
  refine ⟨_, List.mem_map_of_mem hmem, ?_, i, hi1, j, hj1, hij, hi2, hj2⟩
  have := h2 _ hmem
  rw [this, ← hxp]

end

/-! ## examples and findings -/

/-- a vertex -/
def vert (a b : ℚ) : V2 FQ := ⟨.fin a, .fin b⟩

set_option synthInstance.maxSize 1000 in
set_option synthInstance.maxHeartbeats 400000 in
/-- C98, finding: `find_new_events` pushes a vertex for every intersection it detects, also when there is an event at this
position already. Two edges that share the vertex 1 get a further vertex at the same place, to which nothing refers (with
`with_ignore_end_point_intersections` the position is not reported at all), an end point in the interior of another edge is
duplicated in the same way, and where three edges meet there are two new vertices for one reported index. -/
theorem C98_unused_vertices : ∀ T ∈ shapes, haveI : TreeShape FQ := T
    indexedSweepIntersections keepOrder 50 false false [vert 0 0, vert 2 2, vert 4 0] [(0, 1), (1, 2)] =
      .ok ([vert 0 0, vert 2 2, vert 4 0, vert 2 2], [(1, [0, 1])]) ∧
    indexedSweepIntersections keepOrder 50 true false [vert 0 0, vert 2 2, vert 4 0] [(0, 1), (1, 2)] =
      .ok ([vert 0 0, vert 2 2, vert 4 0, vert 2 2], []) ∧
    indexedSweepIntersections keepOrder 50 false false [vert 0 0, vert 2 2, vert 4 0, vert 0 4] [(0, 1), (2, 3)] =
      .ok ([vert 0 0, vert 2 2, vert 4 0, vert 0 4, vert 2 2], [(1, [0, 1])]) ∧
    indexedSweepIntersections keepOrder 50 false false [vert 0 0, vert 4 4, vert 4 0, vert 0 4, vert 2 0, vert 2 4]
        [(0, 1), (2, 3), (4, 5)] =
      .ok ([vert 0 0, vert 4 4, vert 4 0, vert 0 4, vert 2 0, vert 2 4, vert 2 2, vert 2 2], [(6, [0, 1, 2])]) := by
  decide +kernel

/-- a vertex that no edge uses: it is kept, and the crossing gets the next index -/
example : ∀ T ∈ shapes, haveI : TreeShape FQ := T
    indexedSweepIntersections keepOrder 50 false false [vert 0 0, vert 4 4, vert 4 0, vert 0 4, vert 9 9] [(0, 1), (2, 3)] =
      .ok ([vert 0 0, vert 4 4, vert 4 0, vert 0 4, vert 9 9, vert 2 2], [(5, [0, 1])]) := by decide +kernel

/-- the exact theorems apply to the real numbers -/
example [TreeShape ℝ] : ∃ new r, indexedSweepIntersections keepOrder 50 false false
    [(⟨0, 0⟩ : V2 ℝ), ⟨4, 4⟩, ⟨4, 0⟩, ⟨0, 4⟩] [(0, 1), (2, 3)] = .ok ([⟨0, 0⟩, ⟨4, 4⟩, ⟨4, 0⟩, ⟨0, 4⟩] ++ new, r) ∧
    ∀ p ∈ new, ∃ i j, i ≠ j ∧ OnEdge [(⟨0, 0⟩ : V2 ℝ), ⟨4, 4⟩, ⟨4, 0⟩, ⟨0, 4⟩] [(0, 1), (2, 3)] i p ∧
      OnEdge [(⟨0, 0⟩ : V2 ℝ), ⟨4, 4⟩, ⟨4, 0⟩, ⟨0, 4⟩] [(0, 1), (2, 3)] j p :=
  C98_new_vertices_are_common keepOrder (fun _ l => List.Perm.refl l) false false _ _ (by simp) 50 (by simp)

end Verif.Props
