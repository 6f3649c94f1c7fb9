import Verif.Proofs.ShapeUnique
/-!
# C92: the division is determined by the set of undirected edges
-/
namespace Verif.Props.Shape
open Verif Verif.Shape Verif.Spec.Shape Verif.Proofs.ShapeUnique

theorem divides_of_ok (indices : List Nat) (hns : NoSelfEdge indices) (shapes : List (List Nat)) (marks : List Bool)
    (h : divideIntoShapes indices = .ok (shapes, marks)) : Divides indices shapes :=
  ⟨C02_divide_invents_no_edge indices hns shapes marks h, C03_divide_covers_each_edge_once indices hns shapes marks h,
    C04_divide_splits_at_junctions indices hns shapes marks h⟩

/-- **C92** two index lists with the same undirected edges – whatever the order of the edges, the direction in which each is
given, and however often – give the same marks, and the same shapes: the shapes of the second list can be put in an order in
which they are, one by one, the shapes of the first list up to the direction of the path and the starting vertex of a loop. -/
theorem C92_divide_depends_only_on_the_edges (a b : List Nat) (hns : NoSelfEdge a) (hab : ∀ u v, Edge a u v ↔ Edge b u v)
    (shapesA shapesB : List (List Nat)) (marksA marksB : List Bool)
    (hA : divideIntoShapes a = .ok (shapesA, marksA)) (hB : divideIntoShapes b = .ok (shapesB, marksB)) :
    marksA = marksB ∧ ∃ l, l.Perm shapesB ∧ List.Forall₂ SameShape shapesA l := by
  have hnsb : NoSelfEdge b := fun v h => hns v ((hab v v).2 h)
  obtain ⟨a1, a2, a3⟩ := C05_divide_marks_two_way_vertices a hns shapesA marksA hA
  obtain ⟨b1, b2, b3⟩ := C05_divide_marks_two_way_vertices b hnsb shapesB marksB hB
  have two : ∀ v, TwoNeighbours a v ↔ TwoNeighbours b v := by
    intro v
    unfold TwoNeighbours
    simp only [hab]
  constructor
  · have hlen : marksA.length = marksB.length := by
      have ex : marksA ≠ [] → marksB ≠ [] → marksA.length = marksB.length := by
        intro na nb
        have pa := List.length_pos_iff.2 na
        have pb := List.length_pos_iff.2 nb
        rcases a2 with a2 | ⟨x, a2⟩
        · rcases b2 with b2 | ⟨y, b2⟩
          · omega
          · have := a1 _ _ ((hab _ _).2 b2)
            omega
        · have h1 := b1 _ _ ((hab _ _).1 a2)
          rcases b2 with b2 | ⟨y, b2⟩
          · omega
          · have := a1 _ _ ((hab _ _).2 b2)
            omega
      have pos : ∀ (m : List Bool) (i : List Nat), (∀ u v, Edge i u v → u < m.length) → (m.length = 1 ∨ ∃ v, Edge i (m.length - 1) v) →
          m ≠ [] := by
        rintro m i h1 (h2 | ⟨v, h2⟩) rfl
        · simp at h2
        · have := h1 _ _ h2
          simp at this
      exact ex (pos marksA a a1 a2) (pos marksB b b1 b2)
    refine List.ext_getElem hlen ?_
    intro i hi hj
    have e1 : marksA.getD i false = marksA[i] := by simp [List.getD, hi]
    have e2 : marksB.getD i false = marksB[i] := by simp [List.getD, hj]
    rw [← e1, ← e2, Bool.eq_iff_iff, a3, b3, two]
  · exact (divides_of_ok a hns shapesA marksA hA).correspond hns ((divides_of_ok b hnsb shapesB marksB hB).of_edges hab)

/-- **C92** the shapes are the only way to cut the edges into paths that end at the junctions and dead ends: every list of paths
that traverses each edge once, invents none and is split as C04 says is, up to the order of the paths, their directions and the
starting vertices of loops, the returned one. -/
theorem C92_no_other_division (indices : List Nat) (hns : NoSelfEdge indices)
    (shapes : List (List Nat)) (marks : List Bool) (h : divideIntoShapes indices = .ok (shapes, marks))
    (other : List (List Nat))
    (edges : ∀ s ∈ other, ∀ w ∈ windows s, Edge indices w.1 w.2)
    (once : ∀ u v, Edge indices u v → occurrences other u v = 1)
    (split : ∀ s ∈ other, ∃ first inner last, s = first :: (inner ++ [last]) ∧
      (∀ x ∈ inner, TwoNeighbours indices x) ∧ inner.Nodup ∧ first ∉ inner ∧
      ((¬ TwoNeighbours indices first ∧ ¬ TwoNeighbours indices last) ∨ first = last)) :
    ∃ l, l.Perm other ∧ List.Forall₂ SameShape shapes l :=
  (divides_of_ok indices hns shapes marks h).correspond hns ⟨edges, once, split⟩

theorem pair_map {f : Nat → Nat} (l : List Nat) (x y : Nat) : Pair (l.map f) x y ↔ ∃ u v, Pair l u v ∧ f u = x ∧ f v = y := by
  unfold Pair
  constructor
  · rintro ⟨i, h1, h2⟩
    rw [List.getElem?_map, Option.map_eq_some_iff] at h1 h2
    obtain ⟨u, hu, rfl⟩ := h1
    obtain ⟨v, hv, rfl⟩ := h2
    exact ⟨u, v, ⟨i, hu, hv⟩, rfl, rfl⟩
  · rintro ⟨u, v, ⟨i, hu, hv⟩, rfl, rfl⟩
    exact ⟨i, by rw [List.getElem?_map, hu]; rfl, by rw [List.getElem?_map, hv]; rfl⟩

theorem edge_map {f : Nat → Nat} (l : List Nat) (x y : Nat) : Edge (l.map f) x y ↔ ∃ u v, Edge l u v ∧ f u = x ∧ f v = y := by
  unfold Edge
  rw [pair_map, pair_map]
  constructor
  · rintro (⟨u, v, h, rfl, rfl⟩ | ⟨u, v, h, rfl, rfl⟩)
    · exact ⟨u, v, Or.inl h, rfl, rfl⟩
    · exact ⟨v, u, Or.inr h, rfl, rfl⟩
  · rintro ⟨u, v, h | h, rfl, rfl⟩
    · exact Or.inl ⟨u, v, h, rfl, rfl⟩
    · exact Or.inr ⟨v, u, h, rfl, rfl⟩

theorem edge_map_inj {f : Nat → Nat} (hf : Function.Injective f) (l : List Nat) (u v : Nat) :
    Edge (l.map f) (f u) (f v) ↔ Edge l u v := by
  rw [edge_map]
  constructor
  · rintro ⟨u', v', h, e1, e2⟩
    rw [hf e1, hf e2] at h
    exact h
  · exact fun h => ⟨u, v, h, rfl, rfl⟩

theorem two_map {f : Nat → Nat} (hf : Function.Injective f) (l : List Nat) (v : Nat) :
    TwoNeighbours (l.map f) (f v) ↔ TwoNeighbours l v := by
  constructor
  · rintro ⟨a, b, hab, h⟩
    obtain ⟨u, a', ha, e, rfl⟩ := (edge_map l _ _).1 ((h a).2 (Or.inl rfl))
    obtain ⟨u', b', hb, e', rfl⟩ := (edge_map l _ _).1 ((h b).2 (Or.inr rfl))
    refine ⟨a', b', fun e => hab (by rw [e]), fun x => ?_⟩
    rw [← edge_map_inj hf, h, hf.eq_iff, hf.eq_iff]
  · rintro ⟨a, b, hab, h⟩
    refine ⟨f a, f b, fun e => hab (hf e), fun x => ?_⟩
    rw [edge_map]
    constructor
    · rintro ⟨u, w, hw, e, rfl⟩
      rw [hf e] at hw
      rcases (h w).1 hw with rfl | rfl
      · exact Or.inl rfl
      · exact Or.inr rfl
    · rintro (rfl | rfl)
      · exact ⟨v, a, (h a).2 (Or.inl rfl), rfl, rfl⟩
      · exact ⟨v, b, (h b).2 (Or.inr rfl), rfl, rfl⟩

theorem windows_map (f : Nat → Nat) (s : List Nat) : windows (s.map f) = (windows s).map (Prod.map f f) := by
  unfold windows
  rw [← List.map_tail, List.zip_map]

/-- **C92** renaming the vertices renames the shapes: the shapes do not depend on which numbers the vertices have. -/
theorem C92_divide_commutes_with_renaming (f : Nat → Nat) (hf : Function.Injective f) (indices : List Nat) (hns : NoSelfEdge indices)
    (shapes renamed : List (List Nat)) (marks marks' : List Bool)
    (h : divideIntoShapes indices = .ok (shapes, marks)) (h' : divideIntoShapes (indices.map f) = .ok (renamed, marks')) :
    (∃ l, l.Perm renamed ∧ List.Forall₂ SameShape (shapes.map (List.map f)) l) ∧
    ∀ v, marks'.getD (f v) false = marks.getD v false := by
  have hns' : NoSelfEdge (indices.map f) := by
    intro v hv
    obtain ⟨u, w, e, rfl, e'⟩ := (edge_map indices _ _).1 hv
    rw [hf e'] at e
    exact hns u e
  have D := divides_of_ok indices hns shapes marks h
  have D' := divides_of_ok _ hns' renamed marks' h'
  constructor
  · refine Divides.correspond hns' ⟨?_, ?_, ?_⟩ D'
    · intro s hs w hw
      obtain ⟨s, hs0, rfl⟩ := List.mem_map.1 hs
      rw [windows_map] at hw
      obtain ⟨w, hw0, rfl⟩ := List.mem_map.1 hw
      exact (edge_map_inj hf _ _ _).2 (D.edge s hs0 w hw0)
    · intro x y hxy
      obtain ⟨u, v, e, rfl, rfl⟩ := (edge_map indices _ _).1 hxy
      rw [← D.once u v e]
      unfold occurrences
      rw [List.map_map]
      congr 1
      refine List.map_congr_left fun s _ => ?_
      simp only [Function.comp]
      rw [windows_map, List.countP_map]
      congr 1
      funext w
      rw [Bool.eq_iff_iff, Function.comp, Proofs.ShapeUnique.isEdge_iff, Proofs.ShapeUnique.isEdge_iff]
      obtain ⟨w1, w2⟩ := w
      simp [Prod.map, hf.eq_iff]
    · intro s hs
      obtain ⟨s, hs0, rfl⟩ := List.mem_map.1 hs
      obtain ⟨a, m, b, rfl, h1, h2, h3, h4⟩ := D.split s hs0
      refine ⟨f a, m.map f, f b, by simp, ?_, h2.map hf, ?_, ?_⟩
      · intro x hx
        obtain ⟨x, hx0, rfl⟩ := List.mem_map.1 hx
        exact (two_map hf _ _).2 (h1 x hx0)
      · intro hm
        obtain ⟨x, hx, e⟩ := List.mem_map.1 hm
        rw [hf e] at hx
        exact h3 hx
      · rcases h4 with ⟨h4, h5⟩ | rfl
        · exact Or.inl ⟨fun h => h4 ((two_map hf _ _).1 h), fun h => h5 ((two_map hf _ _).1 h)⟩
        · exact Or.inr rfl
  · intro v
    rw [Bool.eq_iff_iff, (C05_divide_marks_two_way_vertices indices hns shapes marks h).2.2,
      (C05_divide_marks_two_way_vertices _ hns' renamed marks' h').2.2, two_map hf]

/-! ### the hypotheses are satisfiable -/

/-- the edges of `sample` in the opposite order, each turned round and without the repetition -/
def sampleTurned : List Nat := [8, 1, 7, 5, 7, 6, 5, 6, 0, 1, 1, 3, 3, 0, 1, 2, 2, 0]

example : (∀ u v, Edge sample u v ↔ Edge sampleTurned u v) ∧ NoSelfEdge sample ∧
    divideIntoShapes sampleTurned = .ok ([[1, 2, 0], [1, 3, 0], [1, 8], [0, 1], [5, 7, 6, 5]],
      [false, false, true, true, false, true, true, true, false]) := by
  refine ⟨?_, sample_noSelf, by decide +kernel⟩
  intro u v
  rw [edge_iff, edge_iff]
  have h1 : ∀ p ∈ chunks2 sample, p ∈ chunks2 sampleTurned ∨ (p.2, p.1) ∈ chunks2 sampleTurned := by decide
  have h2 : ∀ p ∈ chunks2 sampleTurned, p ∈ chunks2 sample ∨ (p.2, p.1) ∈ chunks2 sample := by decide
  constructor
  · rintro (h | h)
    · exact h1 _ h
    · exact (h1 _ h).symm
  · rintro (h | h)
    · exact h2 _ h
    · exact (h2 _ h).symm

end Verif.Props.Shape
