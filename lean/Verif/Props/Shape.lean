import Verif.Proofs.ShapeMain
/-!
# Properties of `divide_into_shapes` (C01–C06)
-/
namespace Verif.Props.Shape
open Verif Verif.Shape Verif.Spec.Shape

/-- **C01** `divide_into_shapes` returns for every input: no panic, no endless loop. -/
theorem C01_divide_always_returns (indices : List Nat) :
    ∃ shapes marks, divideIntoShapes indices = .ok (shapes, marks) := by
  obtain ⟨⟨a, b⟩, h⟩ := divide_total indices
  exact ⟨a, b, h⟩

theorem sum_zero : ∀ (l : List Nat), l.sum = 0 → ∀ x ∈ l, x = 0
  | [], _, x, hx => by simp at hx
  | y :: l, h, x, hx => by
    simp only [List.sum_cons] at h
    rcases List.mem_cons.1 hx with rfl | hx
    · omega
    · exact sum_zero l (by omega) x hx

/-- **C02** every window of every returned shape is an edge of the input. -/
theorem C02_divide_invents_no_edge (indices : List Nat) (hns : NoSelfEdge indices)
    (shapes : List (List Nat)) (marks : List Bool)
    (h : divideIntoShapes indices = .ok (shapes, marks)) :
    ∀ s ∈ shapes, ∀ w ∈ windows s, Edge indices w.1 w.2 := by
  obtain ⟨g, vb, e, _, _, hocc, _⟩ := divide_spec indices hns
  rw [h] at e
  simp only [Except.ok.injEq, Prod.mk.injEq] at e
  obtain ⟨rfl, rfl⟩ := e
  intro s hs w hw
  by_contra hcon
  have h0 := hocc w.1 w.2
  rw [if_neg hcon] at h0
  have h1 : (windows s).countP (isEdge w.1 w.2) = 0 := by
    exact sum_zero _ h0 _ (List.mem_map.2 ⟨s, hs, rfl⟩)
  rw [List.countP_eq_zero] at h1
  exact h1 w hw (by simp [isEdge])

/-- **C03** every edge of the input is traversed exactly once. -/
theorem C03_divide_covers_each_edge_once (indices : List Nat) (hns : NoSelfEdge indices)
    (shapes : List (List Nat)) (marks : List Bool)
    (h : divideIntoShapes indices = .ok (shapes, marks)) :
    ∀ u v, Edge indices u v → occurrences shapes u v = 1 := by
  obtain ⟨g, vb, e, _, _, hocc, _⟩ := divide_spec indices hns
  rw [h] at e
  simp only [Except.ok.injEq, Prod.mk.injEq] at e
  obtain ⟨rfl, rfl⟩ := e
  intro u v huv
  rw [hocc u v, if_pos huv]

/-- **C04** shapes are split exactly at junctions and dead ends: the vertices strictly inside a shape
have exactly two neighbours and are pairwise different; the two ends have another number of
neighbours, or the shape is a loop. -/
theorem C04_divide_splits_at_junctions (indices : List Nat) (hns : NoSelfEdge indices)
    (shapes : List (List Nat)) (marks : List Bool)
    (h : divideIntoShapes indices = .ok (shapes, marks)) :
    ∀ s ∈ shapes, ∃ first inner last, s = first :: (inner ++ [last]) ∧
      (∀ x ∈ inner, TwoNeighbours indices x) ∧ inner.Nodup ∧ first ∉ inner ∧
      ((¬ TwoNeighbours indices first ∧ ¬ TwoNeighbours indices last) ∨ first = last) := by
  obtain ⟨g, vb, e, _, _, _, hs⟩ := divide_spec indices hns
  rw [h] at e
  simp only [Except.ok.injEq, Prod.mk.injEq] at e
  obtain ⟨rfl, rfl⟩ := e
  exact hs

/-- **C05** the returned bit vector has one bit per index up to the largest one that occurs (the
largest of nothing being 0), and marks exactly the vertices with two neighbours. -/
theorem C05_divide_marks_two_way_vertices (indices : List Nat) (hns : NoSelfEdge indices)
    (shapes : List (List Nat)) (marks : List Bool)
    (h : divideIntoShapes indices = .ok (shapes, marks)) :
    (∀ u v, Edge indices u v → u < marks.length) ∧
    (marks.length = 1 ∨ ∃ v, Edge indices (marks.length - 1) v) ∧
    ∀ v, marks.getD v false = true ↔ TwoNeighbours indices v := by
  obtain ⟨g, vb, e, hlen, hm, _, _⟩ := divide_spec indices hns
  rw [h] at e
  simp only [Except.ok.injEq, Prod.mk.injEq] at e
  obtain ⟨rfl, rfl⟩ := e
  refine ⟨fun u v huv => ?_, ?_, hm⟩
  · have := ((adjacencyMap_spec indices).2 u v huv).1
    omega
  · rw [hlen]
    have aux : ∀ (ps : List (Nat × Nat)) (a : Nat × AdjMap),
        let r := ps.foldl (fun (acc : Nat × AdjMap) (c : Nat × Nat) =>
          (max (max acc.1 c.1) c.2, addEntry (addEntry acc.2 c.1 c.2) c.2 c.1)) a
        r.1 = a.1 ∨ ∃ v, (r.1, v) ∈ ps ∨ (v, r.1) ∈ ps := by
      intro ps
      induction ps with
      | nil => intro a; simp
      | cons p ps ih =>
        intro a
        simp only [List.foldl_cons]
        rcases ih (max (max a.1 p.1) p.2, addEntry (addEntry a.2 p.1 p.2) p.2 p.1) with h | ⟨v, h⟩
        · simp only at h
          rw [h]
          by_cases h2 : max (max a.1 p.1) p.2 = p.2
          · right; exact ⟨p.1, Or.inr (by rw [h2]; simp)⟩
          · by_cases h1 : max a.1 p.1 = p.1
            · right; refine ⟨p.2, Or.inl ?_⟩
              have : max (max a.1 p.1) p.2 = p.1 := by omega
              rw [this]; simp
            · left; omega
        · right
          refine ⟨v, h.imp ?_ ?_⟩ <;> exact fun h => List.mem_cons_of_mem _ h
    rcases aux (chunks2 indices) (0, fun _ => none) with h | ⟨v, h⟩
    · left
      have : (adjacencyMap indices).1 = 0 := h
      omega
    · right
      refine ⟨v, ?_⟩
      rw [Nat.add_sub_cancel, edge_iff]
      exact h

/-- chunks of an even prefix -/
theorem chunks2_append {β : Type} : ∀ (a b : List β), a.length % 2 = 0 →
    chunks2 (a ++ b) = chunks2 a ++ chunks2 b
  | [], b, _ => by simp [chunks2]
  | [x], b, h => by simp at h
  | x :: y :: a, b, h => by
    simp only [List.cons_append, chunks2]
    rw [chunks2_append a b (by simp at h; omega)]

/-- **C06** (a) an edge that already occurs earlier may be repeated without effect. -/
theorem C06_divide_ignores_duplicates (a b : List Nat) (ha : a.length % 2 = 0) (u v : Nat)
    (hdup : Edge a u v) :
    divideIntoShapes (a ++ [u, v] ++ b) = divideIntoShapes (a ++ b) := by
  have h : adjacencyMap (a ++ [u, v] ++ b) = adjacencyMap (a ++ b) := by
    unfold adjacencyMap
    rw [chunks2_append _ b (by simp; omega), chunks2_append a _ ha, chunks2_append a _ ha,
      List.foldl_append, List.foldl_append, List.foldl_append]
    congr 1
    obtain ⟨h1, h2⟩ := adjacencyMap_spec a
    unfold adjacencyMap at h1 h2
    set r := (chunks2 a).foldl (fun (acc : Nat × AdjMap) (c : Nat × Nat) =>
          (max (max acc.1 c.1) c.2, addEntry (addEntry acc.2 c.1 c.2) c.2 c.1)) (0, fun _ => none)
    have hno : ∀ x y, Edge a x y → addEntry r.2 x y = r.2 := by
      intro x y hxy
      funext i
      unfold addEntry
      split
      · next hi =>
        subst hi
        have := h1 i
        rcases hr : r.2 i with _ | ns
        · rw [hr] at this; exact absurd hxy (this y)
        · rw [hr] at this
          have hy : ns.contains y = true := by simpa using (this.2.2 y).2 hxy
          simpa using hy
      · rfl
    have hr := h2 u v hdup
    simp only [chunks2, List.foldl_cons, List.foldl_nil, hno u v hdup, hno v u (edge_symm hdup)]
    refine Prod.ext ?_ rfl
    simp only
    omega
  unfold divideIntoShapes
  rw [h]

/-- **C06** (b) a trailing index that does not complete a pair is ignored. -/
theorem C06_divide_ignores_odd_index (a : List Nat) (ha : a.length % 2 = 0) (x : Nat) :
    divideIntoShapes (a ++ [x]) = divideIntoShapes a := by
  have h : chunks2 (a ++ [x]) = chunks2 a := by
    rw [chunks2_append a _ ha]; simp [chunks2]
  unfold divideIntoShapes adjacencyMap
  rw [h]

/-- Finding: with self edges C02 fails for the real code: the edges 3-3, 3-5, 5-4, 4-4 produce the
shape `[3, 5, 4, 3]`, whose last window 4-3 is not an edge. -/
theorem C02_self_edges_break_it :
    divideIntoShapes [3, 3, 3, 5, 5, 4, 4, 4] =
      .ok ([[3, 5, 4, 3]], [false, false, false, true, true, true]) ∧
    ¬ Edge [3, 3, 3, 5, 5, 4, 4, 4] 4 3 := by
  refine ⟨by decide +kernel, ?_⟩
  rw [edge_iff]; decide

/-! ### the hypotheses are satisfiable -/

/-- a theta-like graph with an extra loop: three paths between 0 and 1, a separate triangle and a
dead end; the edge 2-0 is given twice -/
def sample : List Nat := [0, 2, 2, 1, 0, 3, 3, 1, 1, 0, 2, 0, 5, 6, 6, 7, 7, 5, 1, 8]

theorem sample_noSelf : NoSelfEdge sample := by
  intro v
  rw [edge_iff]
  have : ∀ p ∈ chunks2 sample, p.1 ≠ p.2 := by decide
  rintro (h | h) <;> exact this _ h rfl

example : divideIntoShapes sample =
    .ok ([[1, 8], [1, 3, 0], [1, 2, 0], [0, 1], [5, 6, 7, 5]],
      [false, false, true, true, false, true, true, true, false]) ∧ NoSelfEdge sample :=
  ⟨by decide +kernel, sample_noSelf⟩

/-- duplicate edge (C06): the edge 1-2 repeated as 2-1 -/
example : Edge [0, 1, 1, 2] 2 1 ∧ [0, 1, 1, 2].length % 2 = 0 := by
  rw [edge_iff]; decide

end Verif.Props.Shape
