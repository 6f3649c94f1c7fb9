import Verif.Proofs.ShapeSimplify
import Verif.Props.SimplifyCurve
/-!
# C104: a network divided into shapes, each of them simplified
-/
namespace Verif.Props.Shape
open Verif Verif.Model Verif.Shape Verif.Spec Verif.Spec.Shape Verif.Proofs.ShapeUnique Verif.Proofs.ShapeSimplify Relation

/-- what becomes of the network when every shape is simplified -/
structure SameNetwork (indices : List Nat) (shapes outs : List (List Nat)) : Prop where
  /-- every shape keeps its first and last vertex, no vertex is new and the order is kept -/
  thinner : List.Forall₂ (fun s o => o.Sublist s ∧ o.head? = s.head? ∧ o.getLast? = s.getLast?) shapes outs
  /-- a vertex with one neighbour, or more than two, is still the end of a line -/
  junctions : ∀ v u, Edge indices v u → ¬ TwoNeighbours indices v → ∃ o ∈ outs, o.head? = some v ∨ o.getLast? = some v
  /-- two lines meet in such vertices only, and only in their ends -/
  meet : ∀ (i j : Nat) (o p : List Nat), outs[i]? = some o → outs[j]? = some p → i ≠ j → ∀ x ∈ o, x ∈ p →
    ¬ TwoNeighbours indices x ∧ (o.head? = some x ∨ o.getLast? = some x) ∧ (p.head? = some x ∨ p.getLast? = some x)
  /-- two vertices that are still there are connected by the lines iff they were connected by the edges -/
  connected : ∀ u v, (∃ o ∈ outs, u ∈ o) → (∃ o ∈ outs, v ∈ o) →
    (ReflTransGen (fun a b => ∃ o ∈ outs, (a, b) ∈ windows o ∨ (b, a) ∈ windows o) u v ↔ ReflTransGen (Edge indices) u v)

theorem sameNetwork (indices : List Nat) (hns : NoSelfEdge indices) (shapes : List (List Nat)) (marks : List Bool)
    (h : divideIntoShapes indices = .ok (shapes, marks)) (outs : List (List Nat)) (F : List.Forall₂ Thin shapes outs) :
    SameNetwork indices shapes outs := by
  have D := divides_of_ok indices hns shapes marks h
  refine ⟨F.imp fun s o T => ⟨T.sub, T.head, T.last⟩, fun v u e n => junction_kept D F e n, ?_, fun u v hu hv => connected_iff hns D F hu hv⟩
  intro i j o p ho hp hij x hxo hxp
  have n2 := meet_at_junctions hns D F ho hp hij hxo hxp
  obtain ⟨s, hs, T⟩ := thin_right F ho
  obtain ⟨t, ht, T'⟩ := thin_right F hp
  refine ⟨n2, ?_, ?_⟩
  · rw [T.head, T.last]
    exact end_of D (List.mem_of_getElem? hs) (T.sub.subset hxo) n2
  · rw [T'.head, T'.last]
    exact end_of D (List.mem_of_getElem? ht) (T'.sub.subset hxp) n2

/-- the indices of a shape are vertices of edges -/
theorem valid_line {P : Type} (vertices : List P) (indices : List Nat) (hns : NoSelfEdge indices) (shapes : List (List Nat)) (marks : List Bool)
    (h : divideIntoShapes indices = .ok (shapes, marks)) (hin : ∀ u v, Edge indices u v → u < vertices.length)
    (s : List Nat) (hs : s ∈ shapes) : 2 ≤ s.length ∧ ∃ line : List P, s.map (vertices[·]?) = line.map some := by
  have D := divides_of_ok indices hns shapes marks h
  refine ⟨(D.run hs).long, ?_⟩
  have hx : ∀ x ∈ s, x < vertices.length := fun x hx => by
    obtain ⟨c, hc, -⟩ := has_edge D hs hx
    exact hin _ _ hc
  clear hs
  induction s with
  | nil => exact ⟨[], rfl⟩
  | cons a s ih =>
    obtain ⟨line, hl⟩ := ih (fun x m => hx x (by simp [m]))
    exact ⟨vertices[a]'(hx a (by simp)) :: line, by simp [hl, List.getElem?_eq_getElem (hx a (by simp))]⟩

theorem choose {A B : Type} {R : A → B → Prop} : ∀ (l : List A), (∀ a ∈ l, ∃ b, R a b) → ∃ m : List B, List.Forall₂ R l m
  | [], _ => ⟨[], .nil⟩
  | a :: l, h => by
    obtain ⟨b, hb⟩ := h a (by simp)
    obtain ⟨m, hm⟩ := choose l (fun x hx => h x (by simp [hx]))
    exact ⟨b :: m, .cons hb hm⟩

section any
variable {α : Type} [Scalar α]

/-- **C104** 2D: dividing a network of edges into shapes and simplifying each shape succeeds, and the simplified lines have the same
junctions and dead ends, meet only there, and connect the same vertices. -/
theorem C104_simplified_network2 (vertices : List (V2 α)) (indices : List Nat) (d : α) (hns : NoSelfEdge indices)
    (hv : 2 < vertices.length) (hin : ∀ u v, Edge indices u v → u < vertices.length)
    (shapes : List (List Nat)) (marks : List Bool) (h : divideIntoShapes indices = .ok (shapes, marks)) :
    ∃ outs, List.Forall₂ (fun s o => indexedSimplifyRdp2 vertices s d = .ok o) shapes outs ∧ SameNetwork indices shapes outs := by
  obtain ⟨outs, F⟩ := choose (R := fun s o => indexedSimplifyRdp2 vertices s d = .ok o ∧ Thin s o) shapes (by
    intro s hs
    obtain ⟨h2, line, hl⟩ := valid_line vertices indices hns shapes marks h hin s hs
    obtain ⟨o, _, h1, -, h3, h4, h5, -⟩ := Rdp.C11_indexed2_agrees vertices s d line hv h2 hl
    exact ⟨o, h1, h3, h4, h5⟩)
  exact ⟨outs, F.imp fun _ _ h => h.1, sameNetwork indices hns shapes marks h outs (F.imp fun _ _ h => h.2)⟩

/-- **C104** 3D -/
theorem C104_simplified_network3 (vertices : List (V3 α)) (indices : List Nat) (d : α) (hns : NoSelfEdge indices)
    (hv : 2 < vertices.length) (hin : ∀ u v, Edge indices u v → u < vertices.length)
    (shapes : List (List Nat)) (marks : List Bool) (h : divideIntoShapes indices = .ok (shapes, marks)) :
    ∃ outs, List.Forall₂ (fun s o => indexedSimplifyRdp3 vertices s d = .ok o) shapes outs ∧ SameNetwork indices shapes outs := by
  obtain ⟨outs, F⟩ := choose (R := fun s o => indexedSimplifyRdp3 vertices s d = .ok o ∧ Thin s o) shapes (by
    intro s hs
    obtain ⟨h2, line, hl⟩ := valid_line vertices indices hns shapes marks h hin s hs
    obtain ⟨o, _, h1, -, h3, h4, h5, -⟩ := Rdp.C11_indexed3_agrees vertices s d line hv h2 hl
    exact ⟨o, h1, h3, h4, h5⟩)
  exact ⟨outs, F.imp fun _ _ h => h.1, sameNetwork indices hns shapes marks h outs (F.imp fun _ _ h => h.2)⟩

end any

section exact
variable {K : Type} [Scalar K] [Field K] [LinearOrder K] [ExactScalar K]

/-- `p` is on the segment between the vertices with the indices `u` and `v` -/
def OnEdge2 (vertices : List (V2 K)) (u v : Nat) (p : V2 K) : Prop :=
  ∃ a b, vertices[u]? = some a ∧ vertices[v]? = some b ∧ OnSegment2 a b p

/-- `p` is on the segment between the vertices with the indices `u` and `v` -/
def OnEdge3 (vertices : List (V3 K)) (u v : Nat) (p : V3 K) : Prop :=
  ∃ a b, vertices[u]? = some a ∧ vertices[v]? = some b ∧ OnSegment3 a b p

theorem map_some {P : Type} {vertices : List P} {s : List Nat} {line : List P} (hl : s.map (vertices[·]?) = line.map some) {i : Nat} {p : P} :
    line[i]? = some p ↔ ∃ x, s[i]? = some x ∧ vertices[x]? = some p := by
  have h := congrArg (fun l => l[i]?) hl
  simp only [List.getElem?_map] at h
  constructor
  · intro e
    rw [e] at h
    obtain ⟨x, hx, e'⟩ := Option.map_eq_some_iff.1 h
    exact ⟨x, hx, e'⟩
  · rintro ⟨x, hx, e⟩
    rw [hx] at h
    simp only [Option.map_some, e] at h
    obtain ⟨y, hy, e'⟩ := Option.map_eq_some_iff.1 h.symm
    rw [hy, Option.some.inj e']

theorem edge_place (D : Divides indices shapes) {u v : Nat} (h : Edge indices u v) : ∃ s ∈ shapes, ∃ i : Nat,
    (s[i]? = some u ∧ s[i + 1]? = some v) ∨ (s[i]? = some v ∧ s[i + 1]? = some u) := by
  obtain ⟨s, hs, h | h⟩ := D.find h
  · obtain ⟨i, hi⟩ := mem_windows.1 h
    exact ⟨s, hs, i, Or.inl hi⟩
  · obtain ⟨i, hi⟩ := mem_windows.1 h
    exact ⟨s, hs, i, Or.inr hi⟩

theorem onSegment2_symm {a b p : V2 K} (h : OnSegment2 a b p) : OnSegment2 b a p := by
  have := ExactScalar.toIsStrictOrderedRing (K := K)
  obtain ⟨t, h0, h1, rfl⟩ := h
  exact ⟨1 - t, by linarith, by linarith, by unfold lerp2; congr 1 <;> ring⟩

/-- **C104** 2D, exact arithmetic: the simplified network is near the original one: every point of every edge is within `|d|` of a
simplified line, and every point of a simplified line is within `|d|` of an edge. -/
theorem C104_network_is_near2 (vertices : List (V2 K)) (indices : List Nat) (d : K) (hns : NoSelfEdge indices)
    (hv : 2 < vertices.length) (hin : ∀ u v, Edge indices u v → u < vertices.length)
    (shapes : List (List Nat)) (marks : List Bool) (h : divideIntoShapes indices = .ok (shapes, marks)) (outs : List (List Nat))
    (ho : List.Forall₂ (fun s o => indexedSimplifyRdp2 vertices s d = .ok o) shapes outs) :
    (∀ u v p, Edge indices u v → OnEdge2 vertices u v p →
      ∃ o ∈ outs, ∃ a b, (a, b) ∈ windows o ∧ ∃ q, OnEdge2 vertices a b q ∧ sqDist2 p q ≤ d ^ 2) ∧
    (∀ o ∈ outs, ∀ a b, (a, b) ∈ windows o → ∀ q, OnEdge2 vertices a b q →
      ∃ u v p, Edge indices u v ∧ OnEdge2 vertices u v p ∧ sqDist2 p q ≤ d ^ 2) := by
  have D := divides_of_ok indices hns shapes marks h
  have key : ∀ s o, s ∈ shapes → indexedSimplifyRdp2 vertices s d = .ok o → ∃ line simplified : List (V2 K),
      s.map (vertices[·]?) = line.map some ∧ o.map (vertices[·]?) = simplified.map some ∧
      (∀ p, OnPolyline line p → ∃ q, OnPolyline simplified q ∧ sqDist2 p q ≤ d ^ 2) ∧
      (∀ q, OnPolyline simplified q → ∃ p, OnPolyline line p ∧ sqDist2 p q ≤ d ^ 2) := by
    intro s o hs hrun
    obtain ⟨h2, line, hl⟩ := valid_line vertices indices hns shapes marks h hin s hs
    obtain ⟨o', simplified, h1, h3, -, -, -, h4⟩ := Rdp.C11_indexed2_agrees vertices s d line hv h2 hl
    rw [hrun] at h1
    cases h1
    have hne : line ≠ [] := by
      rintro rfl
      have := congrArg List.length hl
      simp at this
      subst this
      simp at h2
    obtain ⟨out, k1, k2, k3⟩ := SimplifyCurve.C103_rdp2_curves_are_near line d hne
    rw [h3] at k1
    cases k1
    exact ⟨line, simplified, hl, h4, k2, k3⟩
  obtain ⟨hlen, hget⟩ := forall₂_get ho
  constructor
  · rintro u v p e ⟨x, y, hx, hy, hp⟩
    obtain ⟨s, hs, i, hi⟩ := edge_place D e
    obtain ⟨k, hk⟩ := List.mem_iff_getElem?.1 hs
    have hkl : k < shapes.length := (List.getElem?_eq_some_iff.1 hk).1
    have hok : outs[k]? = some (outs[k]'(hlen ▸ hkl)) := List.getElem?_eq_getElem _
    obtain ⟨line, simplified, l1, l2, near, -⟩ := key s _ hs (hget k s _ hk hok)
    have hp' : OnPolyline line p := by
      rcases hi with ⟨h1, h2⟩ | ⟨h1, h2⟩
      · exact ⟨i, x, y, (map_some l1).2 ⟨u, h1, hx⟩, (map_some l1).2 ⟨v, h2, hy⟩, hp⟩
      · exact ⟨i, y, x, (map_some l1).2 ⟨v, h1, hy⟩, (map_some l1).2 ⟨u, h2, hx⟩, onSegment2_symm hp⟩
    obtain ⟨q, ⟨j, a, b, ha, hb, hq⟩, hd⟩ := near p hp'
    obtain ⟨a', ha', ea⟩ := (map_some l2).1 ha
    obtain ⟨b', hb', eb⟩ := (map_some l2).1 hb
    exact ⟨_, List.mem_of_getElem? hok, a', b', mem_windows.2 ⟨j, ha', hb'⟩, q, ⟨a, b, ea, eb, hq⟩, hd⟩
  · rintro o hmem a' b' hw q ⟨a, b, ea, eb, hq⟩
    obtain ⟨k, hk⟩ := List.mem_iff_getElem?.1 hmem
    have hkl : k < outs.length := (List.getElem?_eq_some_iff.1 hk).1
    have hsk : shapes[k]? = some (shapes[k]'(hlen ▸ hkl)) := List.getElem?_eq_getElem _
    have hs := List.mem_of_getElem? hsk
    obtain ⟨line, simplified, l1, l2, -, near⟩ := key _ o hs (hget k _ o hsk hk)
    obtain ⟨j, ha', hb'⟩ := mem_windows.1 hw
    obtain ⟨p, ⟨i, x, y, hx, hy, hp⟩, hd⟩ := near q ⟨j, a, b, (map_some l2).2 ⟨a', ha', ea⟩, (map_some l2).2 ⟨b', hb', eb⟩, hq⟩
    obtain ⟨u, hu, ex⟩ := (map_some l1).1 hx
    obtain ⟨v, hv', ey⟩ := (map_some l1).1 hy
    exact ⟨u, v, p, D.consecutive hs hu hv', ⟨x, y, ex, ey, hp⟩, hd⟩

/-- **C104** 3D, exact arithmetic: every point of a simplified line is within `|d|` of an edge (the other half holds for the infinite
lines only, see C103). -/
theorem C104_network_is_near3 (vertices : List (V3 K)) (indices : List Nat) (d : K) (hns : NoSelfEdge indices)
    (hv : 2 < vertices.length) (hin : ∀ u v, Edge indices u v → u < vertices.length)
    (shapes : List (List Nat)) (marks : List Bool) (h : divideIntoShapes indices = .ok (shapes, marks)) (outs : List (List Nat))
    (ho : List.Forall₂ (fun s o => indexedSimplifyRdp3 vertices s d = .ok o) shapes outs) :
    ∀ o ∈ outs, ∀ a b, (a, b) ∈ windows o → ∀ q, OnEdge3 vertices a b q →
      ∃ u v p, Edge indices u v ∧ OnEdge3 vertices u v p ∧ sqDist3 p q ≤ d ^ 2 := by
  have D := divides_of_ok indices hns shapes marks h
  obtain ⟨hlen, hget⟩ := forall₂_get ho
  rintro o hmem a' b' hw q ⟨a, b, ea, eb, hq⟩
  obtain ⟨k, hk⟩ := List.mem_iff_getElem?.1 hmem
  have hkl : k < outs.length := (List.getElem?_eq_some_iff.1 hk).1
  have hsk : shapes[k]? = some (shapes[k]'(hlen ▸ hkl)) := List.getElem?_eq_getElem _
  have hs := List.mem_of_getElem? hsk
  obtain ⟨h2, line, l1⟩ := valid_line vertices indices hns shapes marks h hin _ hs
  obtain ⟨o', simplified, h1, h3, -, -, -, l2⟩ := Rdp.C11_indexed3_agrees vertices _ d line hv h2 l1
  have hrun := hget k _ o hsk hk
  rw [hrun] at h1
  cases h1
  have hne : line ≠ [] := by
    rintro rfl
    have := congrArg List.length l1
    simp only [List.length_map, List.length_nil] at this
    omega
  obtain ⟨out, k1, near, -⟩ := SimplifyCurve.C103_rdp3_curves_are_near line d hne
  rw [h3] at k1
  cases k1
  obtain ⟨j, ha', hb'⟩ := mem_windows.1 hw
  obtain ⟨p, ⟨i, x, y, hx, hy, hp⟩, hd⟩ := near q ⟨j, a, b, (map_some l2).2 ⟨a', ha', ea⟩, (map_some l2).2 ⟨b', hb', eb⟩, hq⟩
  obtain ⟨u, hu, ex⟩ := (map_some l1).1 hx
  obtain ⟨v, hv', ey⟩ := (map_some l1).1 hy
  exact ⟨u, v, p, D.consecutive hs hu hv', ⟨x, y, ex, ey, hp⟩, hd⟩

end exact

/-- C104 is not about nothing: a junction with three arms, one of them bent, and a loop apart from it.  The middle of the nearly straight
arm is dropped, the bent arm keeps its corner, and the loop keeps its first vertex and the one that is far away from it. -/
theorem C104_example :
    divideIntoShapes [0, 1, 1, 2, 0, 3, 3, 4, 0, 5, 6, 7, 7, 8, 8, 6] =
      .ok ([[4, 3, 0], [2, 1, 0], [0, 5], [6, 7, 8, 6]], [false, true, false, true, false, false, true, true, true]) ∧
    ([[4, 3, 0], [2, 1, 0], [0, 5], [6, 7, 8, 6]].map fun s => indexedSimplifyRdp2
      [(⟨0, 0⟩ : V2 ℚ), ⟨5, 1 / 2⟩, ⟨10, 0⟩, ⟨0, 5⟩, ⟨5, 5⟩, ⟨-3, 0⟩, ⟨20, 0⟩, ⟨30, 0⟩, ⟨20, 1 / 2⟩] s 1) =
      [.ok [4, 3, 0], .ok [2, 0], .ok [0, 5], .ok [6, 7, 6]] := by
  constructor <;> decide +kernel

end Verif.Props.Shape
