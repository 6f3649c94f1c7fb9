import Verif.Props.ShapeSimplify
/-!
# Nearness of simplified networks, from nearness of the simplified shapes
-/
namespace Verif.Proofs.ShapeNear
open Verif Verif.Model Verif.Shape Verif.Spec Verif.Spec.Shape Verif.Proofs.ShapeUnique Verif.Proofs.ShapeSimplify Verif.Props.Shape Verif.Proofs.SimplifyCurve Verif.Props.SimplifyCurve

variable {K : Type} [Scalar K] [Field K] [LinearOrder K] [ExactScalar K]

theorem map_index {P Q : Type} (g : P → Q) (vertices : List P) (s : List Nat) (line : List P)
    (h : s.map (vertices[·]?) = line.map some) : s.map ((vertices.map g)[·]?) = (line.map g).map some := by
  have := congrArg (List.map (Option.map g)) h
  simpa [List.map_map, Function.comp_def] using this

theorem network_near2 (vertices : List (V2 K)) (indices : List Nat) (ε : K) (shapes outs : List (List Nat))
    (D : Divides indices shapes)
    (ho : List.Forall₂ (fun s o => s ∈ shapes → ∃ line simplified : List (V2 K),
      s.map (vertices[·]?) = line.map some ∧ o.map (vertices[·]?) = simplified.map some ∧
      (∀ p, OnPolyline line p → ∃ q, OnPolyline simplified q ∧ sqDist2 p q ≤ ε) ∧
      (∀ q, OnPolyline simplified q → ∃ p, OnPolyline line p ∧ sqDist2 p q ≤ ε)) shapes outs) :
    (∀ u v p, Edge indices u v → OnEdge2 vertices u v p →
      ∃ o ∈ outs, ∃ a b, (a, b) ∈ windows o ∧ ∃ q, OnEdge2 vertices a b q ∧ sqDist2 p q ≤ ε) ∧
    (∀ o ∈ outs, ∀ a b, (a, b) ∈ windows o → ∀ q, OnEdge2 vertices a b q →
      ∃ u v p, Edge indices u v ∧ OnEdge2 vertices u v p ∧ sqDist2 p q ≤ ε) := by
  obtain ⟨hlen, hget⟩ := forall₂_get ho
  constructor
  · rintro u v p e ⟨x, y, hx, hy, hp⟩
    obtain ⟨s, hs, i, hi⟩ := edge_place D e
    obtain ⟨k, hk⟩ := List.mem_iff_getElem?.1 hs
    have hkl : k < shapes.length := (List.getElem?_eq_some_iff.1 hk).1
    have hok : outs[k]? = some (outs[k]'(hlen ▸ hkl)) := List.getElem?_eq_getElem _
    obtain ⟨line, simplified, l1, l2, near, -⟩ := hget k s _ hk hok hs
    have hp' : OnPolyline line p := by
      rcases hi with ⟨h1, h2⟩ | ⟨h1, h2⟩
      · exact ⟨i, x, y, (map_some l1).2 ⟨u, h1, hx⟩, (map_some l1).2 ⟨v, h2, hy⟩, hp⟩
      · exact ⟨i, y, x, (map_some l1).2 ⟨v, h1, hy⟩, (map_some l1).2 ⟨u, h2, hx⟩, onSegment2_symm hp⟩
    obtain ⟨q, ⟨j, a, b, ha, hb, hq⟩, hd⟩ := near p hp'
    obtain ⟨a', ha', ea⟩ := (map_some l2).1 ha
    obtain ⟨b', hb', eb⟩ := (map_some l2).1 hb
    exact ⟨_, List.mem_of_getElem? hok, a', b', mem_windows.2 ⟨j, ha', hb'⟩, q, ⟨a, b, ea, eb, hq⟩, hd⟩
  · rintro o hmem a' b' hw q ⟨a, b, ea, eb, hq⟩
    obtain ⟨k, hk⟩ := List.mem_iff_getElem?.1 hmem
    have hkl : k < outs.length := (List.getElem?_eq_some_iff.1 hk).1
    have hsk : shapes[k]? = some (shapes[k]'(hlen ▸ hkl)) := List.getElem?_eq_getElem _
    have hs := List.mem_of_getElem? hsk
    obtain ⟨line, simplified, l1, l2, -, near⟩ := hget k _ o hsk hk hs
    obtain ⟨j, ha', hb'⟩ := mem_windows.1 hw
    obtain ⟨p, ⟨i, x, y, hx, hy, hp⟩, hd⟩ := near q ⟨j, a, b, (map_some l2).2 ⟨a', ha', ea⟩, (map_some l2).2 ⟨b', hb', eb⟩, hq⟩
    obtain ⟨u, hu, ex⟩ := (map_some l1).1 hx
    obtain ⟨v, hv', ey⟩ := (map_some l1).1 hy
    exact ⟨u, v, p, D.consecutive hs hu hv', ⟨x, y, ex, ey, hp⟩, hd⟩

theorem network_near3 (vertices : List (V3 K)) (indices : List Nat) (ε : K) (shapes outs : List (List Nat))
    (D : Divides indices shapes)
    (ho : List.Forall₂ (fun s o => s ∈ shapes → ∃ line simplified : List (V3 K),
      s.map (vertices[·]?) = line.map some ∧ o.map (vertices[·]?) = simplified.map some ∧
      (∀ q, OnPolyline3 simplified q → ∃ p, OnPolyline3 line p ∧ sqDist3 p q ≤ ε)) shapes outs) :
    ∀ o ∈ outs, ∀ a b, (a, b) ∈ windows o → ∀ q, OnEdge3 vertices a b q →
      ∃ u v p, Edge indices u v ∧ OnEdge3 vertices u v p ∧ sqDist3 p q ≤ ε := by
  obtain ⟨hlen, hget⟩ := forall₂_get ho
  rintro o hmem a' b' hw q ⟨a, b, ea, eb, hq⟩
  obtain ⟨k, hk⟩ := List.mem_iff_getElem?.1 hmem
  have hkl : k < outs.length := (List.getElem?_eq_some_iff.1 hk).1
  have hsk : shapes[k]? = some (shapes[k]'(hlen ▸ hkl)) := List.getElem?_eq_getElem _
  have hs := List.mem_of_getElem? hsk
  obtain ⟨line, simplified, l1, l2, near⟩ := hget k _ o hsk hk hs
  obtain ⟨j, ha', hb'⟩ := mem_windows.1 hw
  obtain ⟨p, ⟨i, x, y, hx, hy, hp⟩, hd⟩ := near q ⟨j, a, b, (map_some l2).2 ⟨a', ha', ea⟩, (map_some l2).2 ⟨b', hb', eb⟩, hq⟩
  obtain ⟨u, hu, ex⟩ := (map_some l1).1 hx
  obtain ⟨v, hv', ey⟩ := (map_some l1).1 hy
  exact ⟨u, v, p, D.consecutive hs hu hv', ⟨x, y, ex, ey, hp⟩, hd⟩

end Verif.Proofs.ShapeNear
