import Verif.Props.SweepComplete
/-!
# C57, C58, C59 for the indexed version (`IntersectionTester`)

`L` are the edges as lines (`EdgeLines`).
-/
namespace Verif.Props
open Verif Verif.Model Verif.Spec Verif.Sweep
section
variable {K : Type} [Scalar K] [Field K] [LinearOrder K] [ExactScalar K] [ExactSqrt K]

/-- C57, indexed version: the edges reported for a vertex are sorted, at least two, and different from each other if none of them has
length zero -/
theorem C57_indexed_at_least_two_lines [TreeShape K] (order : Nat → List Nat → List Nat) (hord : ∀ n l, (order n l).Perm l)
    (ign stop : Bool) (vs : List (V2 K)) (edges : List (Nat × Nat)) (L : List (Line2 K)) (hL : EdgeLines vs edges L)
    (fuel : Nat) (hf : 2 * edges.length + edges.length * edges.length < fuel) :
    ∃ tab r, indexedSweepIntersections order fuel ign stop vs edges = .ok (tab, r) ∧
      ∀ x ∈ r, 2 ≤ x.2.length ∧ x.2.Pairwise (· ≤ ·) ∧
        ((∀ i ∈ x.2, ∀ l, L[i]? = some l → l.start ≠ l.end) → x.2.Pairwise (· < ·)) := by
  obtain ⟨hE, rfl⟩ := hL.ok
  obtain ⟨tab, r, H, h1, h2, h3, h4⟩ := indexed_core order hord ign stop vs ⟨0, 0⟩ edges hE fuel hf
  refine ⟨tab, _, h1, ?_⟩
  intro x hx
  obtain ⟨y, hy, rfl⟩ := List.mem_map.1 hx
  obtain ⟨-, g2, g3, g4, -⟩ := h4.entry hy
  exact ⟨g2, g3, fun hz => List.Pairwise.imp₂ (fun a b h1 h2 => lt_of_le_of_ne h1 h2) g3 (g4 hz)⟩

/-- C58, indexed version: if end points are ignored, every reported vertex is inside (not an end point) of one of the reported edges, and
a second edge goes through it -/
theorem C58_indexed_ignoring_end_points [TreeShape K] (order : Nat → List Nat → List Nat) (hord : ∀ n l, (order n l).Perm l)
    (stop : Bool) (vs : List (V2 K)) (edges : List (Nat × Nat)) (L : List (Line2 K)) (hL : EdgeLines vs edges L)
    (fuel : Nat) (hf : 2 * edges.length + edges.length * edges.length < fuel) :
    ∃ tab r, indexedSweepIntersections order fuel true stop vs edges = .ok (tab, r) ∧
      ∀ x ∈ r, ∃ (p : V2 K) (i j : Nat) (l m : Line2 K), tab[x.1]? = some p ∧ i ≠ j ∧ i ∈ x.2 ∧ j ∈ x.2 ∧ L[i]? = some l ∧
        L[j]? = some m ∧ OnSegment2 l.start l.end p ∧ OnSegment2 m.start m.end p ∧ p ≠ l.start ∧ p ≠ l.end := by
  obtain ⟨hE, rfl⟩ := hL.ok
  obtain ⟨tab, r, H, h1, h2, h3, h4⟩ := indexed_core order hord true stop vs ⟨0, 0⟩ edges hE fuel hf
  refine ⟨tab, _, h1, ?_⟩
  intro x hx
  obtain ⟨y, hy, rfl⟩ := List.mem_map.1 hx
  obtain ⟨g1, -, -, -, g5⟩ := h4.entry hy
  obtain ⟨i, j, hij, hi, hj, l, hl, hp, hne⟩ := g5 rfl
  obtain ⟨m, hm, hpm⟩ := g1 j hj
  exact ⟨y.1.1, i, j, l, m, h3 y hy, hij, hi, hj, hl, hm, hp, hpm, hne.1, hne.2⟩

/-- C58, indexed version: at most one vertex is reported if the algorithm stops at the first intersection -/
theorem C58_indexed_stops_at_the_first [TreeShape K] (order : Nat → List Nat → List Nat) (hord : ∀ n l, (order n l).Perm l)
    (ign : Bool) (vs : List (V2 K)) (edges : List (Nat × Nat)) (hin : ∀ e ∈ edges, e.1 < vs.length ∧ e.2 < vs.length)
    (fuel : Nat) (hf : 2 * edges.length + edges.length * edges.length < fuel) :
    ∃ tab r, indexedSweepIntersections order fuel ign true vs edges = .ok (tab, r) ∧ r.length ≤ 1 := by
  obtain ⟨tab, r, H, h1, h2, h3, h4⟩ := indexed_core order hord ign true vs ⟨0, 0⟩ edges hin fuel hf
  exact ⟨tab, _, h1, by rw [List.length_map]; exact h4.few rfl⟩

/-- C59, indexed version, end points ignored: a point is reported for two edges iff it is common to both and not an end point of every
edge that has it -/
theorem C59_indexed_ignoring_end_points [TreeShape K] (order : Nat → List Nat → List Nat) (hord : ∀ n l, (order n l).Perm l)
    (vs : List (V2 K)) (edges : List (Nat × Nat)) (L : List (Line2 K)) (hL : EdgeLines vs edges L) (gp : SweepPosition L)
    (fuel : Nat) (hf : 2 * edges.length + edges.length * edges.length < fuel) :
    ∃ tab r, indexedSweepIntersections order fuel true false vs edges = .ok (tab, r) ∧
      ∀ i j p, i ≠ j → (CommonInside L i j p ↔ ∃ x ∈ r, tab[x.1]? = some p ∧ i ∈ x.2 ∧ j ∈ x.2) := by
  obtain ⟨hE, rfl⟩ := hL.ok
  obtain ⟨tab, r, H, h1, h2, h3, h4, h5⟩ := indexed_complete order hord true false vs ⟨0, 0⟩ edges hE gp fuel hf
  refine ⟨tab, _, h1, ?_⟩
  intro i j p hij
  rw [inside_reported gp h4 h5 (Or.inl rfl) hij p]
  constructor
  · rintro ⟨x, hx, rfl, hi, hj⟩
    exact ⟨_, List.mem_map.2 ⟨x, hx, rfl⟩, h3 x hx, hi, hj⟩
  · rintro ⟨y, hy, ht, hi, hj⟩
    obtain ⟨x, hx, rfl⟩ := List.mem_map.1 hy
    refine ⟨x, hx, ?_, hi, hj⟩
    have := h3 x hx
    simp only at ht
    rw [ht] at this
    simpa using this.symm

/-- C59, indexed version, end points ignored, stop at the first: something is reported iff two edges have a common point that is not an
end point of both -/
theorem C59_indexed_stop_at_first_finds_a_touch [TreeShape K] (order : Nat → List Nat → List Nat)
    (hord : ∀ n l, (order n l).Perm l) (vs : List (V2 K)) (edges : List (Nat × Nat)) (L : List (Line2 K)) (hL : EdgeLines vs edges L)
    (gp : SweepPosition L) (fuel : Nat) (hf : 2 * edges.length + edges.length * edges.length < fuel) :
    ∃ tab r, indexedSweepIntersections order fuel true true vs edges = .ok (tab, r) ∧
      (r ≠ [] ↔ ∃ (i j : Nat) (l m : Line2 K) (p : V2 K), i ≠ j ∧ L[i]? = some l ∧ L[j]? = some m ∧ IsOn l p ∧ IsOn m p ∧
        ¬ (IsEnd l p ∧ IsEnd m p)) := by
  obtain ⟨hE, rfl⟩ := hL.ok
  obtain ⟨tab, r, H, h1, h2, h3, h4, h5⟩ := indexed_complete order hord true true vs ⟨0, 0⟩ edges hE gp fuel hf
  refine ⟨tab, _, h1, ?_⟩
  rw [ne_eq, List.map_eq_nil_iff, ← ne_eq]
  constructor
  · intro hr
    obtain ⟨x, hx⟩ := List.exists_mem_of_ne_nil r hr
    obtain ⟨a, b, hab, -, hb, o, ho, g1, g2⟩ := (h4.entry hx).2.2.2.2 rfl
    obtain ⟨m, hm, g3⟩ := (h4.entry hx).1 b hb
    exact ⟨a, b, o, m, x.1.1, hab, ho, hm, g1, g3, fun h => h.1.elim g2.1 g2.2⟩
  · rintro ⟨i, j, l, m, p, hij, hl, hm, g1, g2, g3⟩ rfl
    have hin : CommonInside (edges.map (edgeLine vs ⟨0, 0⟩)) i j p := by
      refine ⟨⟨l, m, hl, hm, g1, g2⟩, ?_⟩
      by_cases he : IsEnd l p
      · exact ⟨m, List.mem_of_getElem? hm, g2, fun h => g3 ⟨he, h⟩⟩
      · exact ⟨l, List.mem_of_getElem? hl, g1, he⟩
    obtain ⟨x, hx, -⟩ := (inside_reported gp h4 h5 (Or.inr rfl) hij p).1 hin
    cases hx

end
end Verif.Props
