import Verif.Props.Parts
import Verif.Props.Contain
import Verif.Props.HullUnique
import Verif.Props.SweepRename
/-!
# C108: which vertex of a closed line string is its first does not matter

A closed line string that is given from the vertex `s` on is `s :: a ++ x :: (b ++ [s])`; from its vertex `x` on it is
`x :: b ++ s :: (a ++ [x])`.
-/
set_option linter.unusedSectionVars false
namespace Verif.Props.ClosedStart
open Verif Verif.Model Verif.Spec Verif.Props.Intersect Verif.Props.Parts Scalar

/-- the neighbours are the same -/
theorem mem_windows2 {A : Type} (s x : A) (a b : List A) (e : A × A) :
    e ∈ windows2 (s :: a ++ x :: (b ++ [s])) ↔ e ∈ windows2 (x :: b ++ s :: (a ++ [x])) := by
  rw [windows2_append (s :: a), windows2_append (x :: b), List.mem_append, List.mem_append, Or.comm]
  rfl

theorem get_windows2 {A : Type} (l : List A) (u v : A) :
    (∃ i : Nat, getElem? l i = some u ∧ getElem? l (i + 1) = some v) ↔ (u, v) ∈ windows2 l := by
  rw [List.mem_iff_getElem?]
  exact exists_congr fun i => (windows2_get l i u v).symm

theorem mem_points {A : Type} (s x p : A) (a b : List A) :
    p ∈ (s :: a ++ x :: (b ++ [s])) ↔ p ∈ (x :: b ++ s :: (a ++ [x])) := by
  simp only [List.mem_append, List.mem_cons, List.not_mem_nil, or_false]
  tauto

theorem last_point {A : Type} (s x : A) (a b : List A) : (x :: b ++ s :: (a ++ [x])).getLast? = some x :=
  List.getLast?_eq_some_iff.2 ⟨x :: b ++ s :: a, by simp⟩

section lawless
variable {α : Type} [Scalar α]

/-- **C108** (any arithmetic, 2D and 3D) the segments are the same, in the same cyclic order: those before `x` come after the
others. -/
theorem C108_segments (s x : V2 α) (a b : List (V2 α)) (s' x' : V3 α) (a' b' : List (V3 α)) :
    (∃ l m, windowIter2 (s :: a ++ x :: (b ++ [s])) = l ++ m ∧ windowIter2 (x :: b ++ s :: (a ++ [x])) = m ++ l ∧
      l.length = a.length + 1 ∧ m.length = b.length + 1) ∧
    ∃ l m, windowIter3 (s' :: a' ++ x' :: (b' ++ [s'])) = l ++ m ∧ windowIter3 (x' :: b' ++ s' :: (a' ++ [x'])) = m ++ l ∧
      l.length = a'.length + 1 ∧ m.length = b'.length + 1 := by
  refine ⟨⟨windowIter2 (s :: a ++ [x]), windowIter2 (x :: b ++ [s]), ?_, ?_, ?_, ?_⟩,
    windowIter3 (s' :: a' ++ [x']), windowIter3 (x' :: b' ++ [s']), ?_, ?_, ?_, ?_⟩
  · exact (C107_segments (s :: a) (b ++ [s]) x [] [] x').1
  · exact (C107_segments (x :: b) (a ++ [x]) s [] [] x').1
  · simp [windowIter2, windows2_length]
  · simp [windowIter2, windows2_length]
  · exact (C107_segments [] [] x (s' :: a') (b' ++ [s']) x').2
  · exact (C107_segments [] [] x (x' :: b') (a' ++ [x']) s').2
  · simp [windowIter3, windows2_length]
  · simp [windowIter3, windows2_length]

/-- **C108** (any arithmetic) `find_all_intersections` finds the same intersections, in the same cyclic order. -/
theorem C108_find_all (s x : V2 α) (a b : List (V2 α)) (other : Line2 α) :
    ∃ l m, findAll2 (s :: a ++ x :: (b ++ [s])) other = l ++ m ∧ findAll2 (x :: b ++ s :: (a ++ [x])) other = m ++ l :=
  ⟨_, _, C107_find_all (s :: a) (b ++ [s]) x other, C107_find_all (x :: b) (a ++ [x]) s other⟩

/-- **C108** (any arithmetic) `intersection` finds one iff it finds one from the other vertex on. -/
theorem C108_intersection (s x : V2 α) (a b : List (V2 α)) (other : Line2 α) :
    (intersection2 (s :: a ++ x :: (b ++ [s])) other).isSome = (intersection2 (x :: b ++ s :: (a ++ [x])) other).isSome := by
  rw [C107_intersection (s :: a) (b ++ [s]) x other, C107_intersection (x :: b) (a ++ [x]) s other]
  change Option.isSome (match intersection2 (s :: a ++ [x]) other with
      | some i => some i
      | none => intersection2 (x :: b ++ [s]) other) = Option.isSome (match intersection2 (x :: b ++ [s]) other with
      | some i => some i
      | none => intersection2 (s :: a ++ [x]) other)
  cases intersection2 (s :: a ++ [x]) other <;> cases intersection2 (x :: b ++ [s]) other <;> rfl

/-- **C108** (any arithmetic, 2D and 3D) `discretize` returns the same points in the same cyclic order: `l` are those from `s` to
just before `x`, `m` those from `x` to just before `s`. -/
theorem C108_discretize {P : Type} (o : VecOps P α) (d : α) (s x : P) (a b : List P) :
    ∃ l m, Collects (discNext o) (discNew o (s :: a ++ x :: (b ++ [s])) d) (l ++ m ++ [s]) ∧
      Collects (discNext o) (discNew o (x :: b ++ s :: (a ++ [x])) d) (m ++ l ++ [x]) := by
  obtain ⟨g1, c1⟩ := C107_discretize o d (s :: a) (b ++ [s]) _ _ x (Discretize.collects_all o (s :: a ++ [x]) d)
    (Discretize.collects_all o (x :: (b ++ [s])) d)
  obtain ⟨g2, c2⟩ := C107_discretize o d (x :: b) (a ++ [x]) _ _ s (Discretize.collects_all o (x :: b ++ [s]) d)
    (Discretize.collects_all o (s :: (a ++ [x])) d)
  obtain ⟨l, e1⟩ := List.getLast?_eq_some_iff.1 g1
  obtain ⟨m, e2⟩ := List.getLast?_eq_some_iff.1 g2
  refine ⟨l, m, ?_, ?_⟩
  · rw [e1, List.dropLast_concat] at c1
    change Collects _ _ (l ++ Discretize.allPoints o d (x :: b ++ [s])) at c1
    rw [e2, ← List.append_assoc] at c1
    exact c1
  · rw [e2, List.dropLast_concat] at c2
    change Collects _ _ (m ++ Discretize.allPoints o d (s :: a ++ [x])) at c2
    rw [e1, ← List.append_assoc] at c2
    exact c2

end lawless

section exact
variable {K : Type} [Scalar K] [Field K] [LinearOrder K] [ExactScalar K]

/-- **C108** `closest_ray_intersection` returns the same. -/
theorem C108_closest_ray (s x : V2 K) (a b : List (V2 K)) (r o : V2 K) (hr : r ≠ ⟨0, 0⟩) :
    closestRayIntersection (s :: a ++ x :: (b ++ [s])) r o = closestRayIntersection (x :: b ++ s :: (a ++ [x])) r o := by
  have k : ∀ p, closestRayIntersection (s :: a ++ x :: (b ++ [s])) r o = some p ↔
      closestRayIntersection (x :: b ++ s :: (a ++ [x])) r o = some p := by
    intro p
    have h : ∀ u v, (∃ i : Nat, getElem? (s :: a ++ x :: (b ++ [s])) i = some u ∧ getElem? (s :: a ++ x :: (b ++ [s])) (i + 1) = some v) ↔
        ∃ i : Nat, getElem? (x :: b ++ s :: (a ++ [x])) i = some u ∧ getElem? (x :: b ++ s :: (a ++ [x])) (i + 1) = some v := by
      intro u v
      rw [get_windows2, get_windows2, mem_windows2]
    have one : ∀ l l' : List (V2 K), (∀ u v, (∃ i : Nat, getElem? l i = some u ∧ getElem? l (i + 1) = some v) ↔
        ∃ i : Nat, getElem? l' i = some u ∧ getElem? l' (i + 1) = some v) →
        closestRayIntersection l r o = some p → closestRayIntersection l' r o = some p := by
      intro l l' h
      rw [C22_nearest_visible_hit l r o p hr, C22_nearest_visible_hit l' r o p hr]
      rintro ⟨t, t0, e, ⟨i, u, v, hu, hv, hh⟩, hm⟩
      obtain ⟨j, hj, hj'⟩ := (h u v).1 ⟨i, hu, hv⟩
      refine ⟨t, t0, e, ⟨j, u, v, hj, hj', hh⟩, ?_⟩
      intro i' u' v' t' hu' hv' h0 hh'
      obtain ⟨j, hj, hj'⟩ := (h u' v').2 ⟨i', hu', hv'⟩
      exact hm j u' v' t' hj hj' h0 hh'
    exact ⟨one _ _ h, one _ _ fun u v => (h u v).symm⟩
  cases e : closestRayIntersection (s :: a ++ x :: (b ++ [s])) r o with
  | some p => exact ((k p).1 e).symm
  | none =>
    cases e' : closestRayIntersection (x :: b ++ s :: (a ++ [x])) r o with
    | none => rfl
    | some p => rw [(k p).2 e'] at e; cases e

/-- **C108** the box is the same, 2D and 3D. -/
theorem C108_box (s x : V2 K) (a b : List (V2 K)) (s' x' : V3 K) (a' b' : List (V3 K)) :
    Aabb2.withPoints (s :: a ++ x :: (b ++ [s])) = Aabb2.withPoints (x :: b ++ s :: (a ++ [x])) ∧
    Aabb3.withPoints (s' :: a' ++ x' :: (b' ++ [s'])) = Aabb3.withPoints (x' :: b' ++ s' :: (a' ++ [x'])) := by
  constructor
  · refine Aabb.C31_box2_order_independent (.withPoints (s :: a ++ x :: (b ++ [s]))) (.withPoints (x :: b ++ s :: (a ++ [x]))) ?_
    intro p; exact mem_points s x p a b
  · refine Aabb.C31_box3_order_independent (.withPoints (s' :: a' ++ x' :: (b' ++ [s']))) (.withPoints (x' :: b' ++ s' :: (a' ++ [x']))) ?_
    intro p; exact mem_points s' x' p a' b'

/-- **C108** the convex hull is the same. -/
theorem C108_convex_hull [ExactAtan2 K] (srt srt' : List (V2 K × K × K) → List (V2 K × K × K))
    (hsrt : Sorts angleCmp srt) (hsrt' : Sorts angleCmp srt') (s x : V2 K) (a b : List (V2 K)) (hl : 2 ≤ a.length + b.length)
    (hne : ∃ p ∈ a ++ x :: b, p ≠ s) :
    grahamScan srt (s :: a ++ x :: (b ++ [s])) = grahamScan srt' (x :: b ++ s :: (a ++ [x])) ∧
    lineConvexHull srt (s :: a ++ x :: (b ++ [s])) = lineConvexHull srt' (x :: b ++ s :: (a ++ [x])) := by
  obtain ⟨p, hp, hps⟩ := hne
  refine C62_graham_scan_depends_on_the_set_only srt srt' hsrt hsrt' _ _ (fun p => mem_points s x p a b) ?_ (fun _ => ?_) ?_ (fun _ => ?_)
    ⟨p, ?_, s, by simp, hps⟩
  · simp; omega
  · simp; omega
  · simp; omega
  · simp; omega
  · simp only [List.mem_append, List.mem_cons] at hp ⊢
    tauto

theorem turn_of_edges {pts hull : List (V2 K)} (h : IsHullLoop pts hull) (hl : 3 < hull.length) {u v w : V2 K}
    (h1 : (u, v) ∈ windows2 hull) (h2 : (v, w) ∈ windows2 hull) : 0 < orient u v w := by
  obtain ⟨i, hu, hv⟩ := (get_windows2 hull u v).2 h1
  obtain ⟨j, hv', hw⟩ := (get_windows2 hull v w).2 h2
  have inj : ∀ m n : Nat, getElem? hull (m + 1) = some v → getElem? hull (n + 1) = some v → m = n := by
    intro m n hm hn
    rw [← List.getElem?_tail] at hm hn
    obtain ⟨lm, em⟩ := List.getElem?_eq_some_iff.1 hm
    obtain ⟨ln, en⟩ := List.getElem?_eq_some_iff.1 hn
    exact (List.Nodup.getElem_inj_iff h.once).1 (em.trans en.symm)
  cases j with
  | succ j =>
    obtain rfl := inj i j hv hv'
    exact h.turn hl i u v w hu hv hw
  | zero =>
    have hlast : getElem? hull (hull.length - 2 + 1) = some v := by
      have := h.closed
      rw [List.head?_eq_getElem?, hv', List.getLast?_eq_getElem?] at this
      rw [this]
      congr 1
      omega
    have := inj _ _ hv hlast
    rw [this] at hu
    exact h.turnClosing hl u v w hu hv' hw

/-- **C108** a hull loop is a hull loop from every vertex on. -/
theorem C108_hull_loop {pts : List (V2 K)} (s x : V2 K) (a b : List (V2 K)) (h : IsHullLoop pts (s :: a ++ x :: (b ++ [s]))) :
    IsHullLoop pts (x :: b ++ s :: (a ++ [x])) := by
  have hlen : (s :: a ++ x :: (b ++ [s])).length = (x :: b ++ s :: (a ++ [x])).length := by simp; omega
  have edge : ∀ (i : Nat) (u v : V2 K), getElem? (x :: b ++ s :: (a ++ [x])) i = some u → getElem? (x :: b ++ s :: (a ++ [x])) (i + 1) = some v →
      (u, v) ∈ windows2 (s :: a ++ x :: (b ++ [s])) := fun i u v hu hv =>
    (mem_windows2 s x a b (u, v)).2 ((get_windows2 _ u v).1 ⟨i, hu, hv⟩)
  constructor
  · rw [← hlen]; exact h.len
  · rw [last_point]; rfl
  · intro v hv
    exact h.vertices v ((mem_points s x v a b).2 hv)
  · refine (List.Perm.nodup_iff ?_).1 h.once
    change (a ++ x :: (b ++ [s])).Perm (b ++ s :: (a ++ [x]))
    have e1 : a ++ x :: (b ++ [s]) = (a ++ [x]) ++ (b ++ [s]) := by simp
    have e2 : b ++ s :: (a ++ [x]) = (b ++ [s]) ++ (a ++ [x]) := by simp
    rw [e1, e2]
    exact List.perm_append_comm
  · intro i u v hu hv p hp
    obtain ⟨j, hj, hj'⟩ := (get_windows2 _ u v).2 (edge i u v hu hv)
    exact h.left j u v hj hj' p hp
  · intro hl i u v w hu hv hw
    exact turn_of_edges h (by rw [hlen]; exact hl) (edge i u v hu hv) (edge (i + 1) v w hv hw)
  · intro hl u v w hu hv hw
    refine turn_of_edges h (by rw [hlen]; exact hl) (edge _ u v hu ?_) (edge 0 v w hv hw)
    have e : (x :: b ++ s :: (a ++ [x])).length - 2 + 1 = (x :: b ++ s :: (a ++ [x])).length - 1 := by omega
    rw [e, ← List.getLast?_eq_getElem?]
    rw [← List.head?_eq_getElem?] at hv
    rw [← hv]
    exact last_point s x a b
  · intro u v w e p hp
    have hab : a = [] ∧ b = [] := by
      have := congrArg List.length e
      simp at this
      exact ⟨List.length_eq_zero_iff.1 (by omega), List.length_eq_zero_iff.1 (by omega)⟩
    obtain ⟨rfl, rfl⟩ := hab
    simp at e
    obtain ⟨rfl, rfl, rfl⟩ := e
    obtain ⟨t, t0, t1, rfl⟩ := h.flat s x s rfl p hp
    have := ExactScalar.toIsStrictOrderedRing (K := K)
    refine ⟨1 - t, by linarith, by linarith, ?_⟩
    unfold lerp2
    congr 1 <;> ring

/-- **C108** the inclusive containment tests on a hull loop return the same from every vertex on: of a point, also as a method of the
line string, and of another hull, both versions. -/
theorem C108_contains_inclusive {pts : List (V2 K)} (s x : V2 K) (a b : List (V2 K)) (h : IsHullLoop pts (s :: a ++ x :: (b ++ [s])))
    (hl : 1 ≤ a.length + b.length) (p : V2 K) (c : List (V2 K)) (order order' : List (V2 K) → List (V2 K))
    (ho : ∀ l, (order l).Perm l) (ho' : ∀ l, (order' l).Perm l) :
    containsPointInclusive (s :: a ++ x :: (b ++ [s])) p = containsPointInclusive (x :: b ++ s :: (a ++ [x])) p ∧
    lineContainsInclusive (s :: a ++ x :: (b ++ [s])) p = lineContainsInclusive (x :: b ++ s :: (a ++ [x])) p ∧
    containsConvexHull (s :: a ++ x :: (b ++ [s])) c = containsConvexHull (x :: b ++ s :: (a ++ [x])) c ∧
    containsConvexHullPar order (s :: a ++ x :: (b ++ [s])) c = containsConvexHullPar order' (x :: b ++ s :: (a ++ [x])) c := by
  have h' := C108_hull_loop s x a b h
  have hl1 : 3 < (s :: a ++ x :: (b ++ [s])).length := by simp; omega
  have hl2 : 3 < (x :: b ++ s :: (a ++ [x])).length := by simp; omega
  have same : ∀ q, InLoop (s :: a ++ x :: (b ++ [s])) q ↔ InLoop (x :: b ++ s :: (a ++ [x])) q := by
    intro q
    constructor
    · intro H i u v hu hv
      obtain ⟨j, hj, hj'⟩ := (get_windows2 _ u v).2 ((mem_windows2 s x a b (u, v)).2 ((get_windows2 _ u v).1 ⟨i, hu, hv⟩))
      exact H j u v hj hj'
    · intro H i u v hu hv
      obtain ⟨j, hj, hj'⟩ := (get_windows2 _ u v).2 ((mem_windows2 s x a b (u, v)).1 ((get_windows2 _ u v).1 ⟨i, hu, hv⟩))
      exact H j u v hj hj'
  have e1 : containsPointInclusive (s :: a ++ x :: (b ++ [s])) p = containsPointInclusive (x :: b ++ s :: (a ++ [x])) p := by
    obtain ⟨r, hr, k⟩ := C42_inclusive_iff_left_of_every_edge h hl1 p
    obtain ⟨r', hr', k'⟩ := C42_inclusive_iff_left_of_every_edge h' hl2 p
    rw [hr, hr', Bool.eq_iff_iff.2 ((k.trans (same p)).trans k'.symm)]
  obtain ⟨r, hr, po, k⟩ := C44_contains_hull_iff h hl1 c
  obtain ⟨r', hr', po', k'⟩ := C44_contains_hull_iff h' hl2 c
  have er : r = r' := Bool.eq_iff_iff.2 ((k.trans (forall₂_congr fun q _ => same q)).trans k'.symm)
  refine ⟨e1, ?_, ?_, ?_⟩
  · rw [C42_line_inclusive h hl1, C42_line_inclusive h' hl2, e1]
  · rw [hr, hr', er]
  · rw [po order ho, po' order' ho', er]

end exact

section sweep
variable {K : Type} [Scalar K] [Field K] [LinearOrder K] [ExactScalar K] [ExactSqrt K]

/-- **C108** `is_self_intersecting` of a closed line string of at least ten points is the same. -/
theorem C108_self_intersecting_long (B B' : TreeShape K) (order order' : Nat → List Nat → List Nat) (hord : ∀ n l, (order n l).Perm l)
    (hord' : ∀ n l, (order' n l).Perm l) (s x : V2 K) (a b : List (V2 K)) (fuel fuel' : Nat)
    (hf : 2 * (a.length + b.length + 2) + (a.length + b.length + 2) * (a.length + b.length + 2) < fuel)
    (hf' : 2 * (a.length + b.length + 2) + (a.length + b.length + 2) * (a.length + b.length + 2) < fuel') :
    ∃ r, (haveI := B; isSelfIntersectingLong order fuel (s :: a ++ x :: (b ++ [s])) = .ok r) ∧
      (haveI := B'; isSelfIntersectingLong order' fuel' (x :: b ++ s :: (a ++ [x])) = .ok r) := by
  obtain ⟨l, m, e1, e2, hl, hm⟩ := (C108_segments s x a b ⟨x.x, x.x, x.x⟩ ⟨x.x, x.x, x.x⟩ [] []).1
  have len1 : (windowIter2 (s :: a ++ x :: (b ++ [s]))).length = a.length + b.length + 2 := by
    rw [e1, List.length_append, hl, hm]; omega
  have len2 : (windowIter2 (x :: b ++ s :: (a ++ [x]))).length = a.length + b.length + 2 := by
    rw [e2, List.length_append, hl, hm]; omega
  obtain ⟨r, r', h1, h2, h3, -⟩ := C102_permuted_lines B B' order order' hord hord' true true
    (windowIter2 (s :: a ++ x :: (b ++ [s]))) (windowIter2 (x :: b ++ s :: (a ++ [x])))
    (by rw [e1, e2]; exact List.perm_append_comm) fuel fuel' (by rw [len1]; exact hf) (by rw [len2]; exact hf')
  have hlen : r'.length = r.length := by
    have := congrArg List.length h3
    rwa [List.length_map, List.length_map] at this
  refine ⟨decide (r.length > 0), ?_, ?_⟩
  · unfold isSelfIntersectingLong; rw [h1]; rfl
  · unfold isSelfIntersectingLong; rw [h2, ← hlen]; rfl

end sweep

/-- What does depend on the first vertex: `is_self_intersecting` of fewer than ten points does not apply its test of three consecutive
points to the vertex where the line string is closed (the vertex of the example is on a straight vertical edge, which that test takes for an
overlap), the exclusive containment test rejects the points on the diagonals through the second vertex, and
`simplify_rdp` keeps the first vertex. -/
theorem C108_what_depends_on_the_start :
    isSelfIntersectingShort [(⟨0, 0⟩ : V2 ℚ), ⟨3, 0⟩, ⟨0, 4⟩, ⟨0, 2⟩, ⟨0, 0⟩] = some true ∧
    isSelfIntersectingShort [(⟨0, 2⟩ : V2 ℚ), ⟨0, 0⟩, ⟨3, 0⟩, ⟨0, 4⟩, ⟨0, 2⟩] = some false ∧
    containsPointExclusive [(⟨0, 0⟩ : V2 ℚ), ⟨2, 0⟩, ⟨2, 2⟩, ⟨0, 2⟩, ⟨0, 0⟩] ⟨1/2, 1/2⟩ = .ok true ∧
    containsPointExclusive [(⟨2, 0⟩ : V2 ℚ), ⟨2, 2⟩, ⟨0, 2⟩, ⟨0, 0⟩, ⟨2, 0⟩] ⟨1/2, 1/2⟩ = .ok false ∧
    simplifyRdp2 [(⟨0, 0⟩ : V2 ℚ), ⟨4, 0⟩, ⟨2, 3⟩, ⟨1, 3/2⟩, ⟨0, 0⟩] (1/2) = .ok [⟨0, 0⟩, ⟨4, 0⟩, ⟨2, 3⟩, ⟨0, 0⟩] ∧
    simplifyRdp2 [(⟨1, 3/2⟩ : V2 ℚ), ⟨0, 0⟩, ⟨4, 0⟩, ⟨2, 3⟩, ⟨1, 3/2⟩] (1/2) = .ok [⟨1, 3/2⟩, ⟨0, 0⟩, ⟨4, 0⟩, ⟨2, 3⟩, ⟨1, 3/2⟩] := by
  decide +kernel

/-- a square that is given from its first and from its third corner on: what is compared are different lists, and both results of every
function are the ones below (C108_segments, C108_find_all, C108_intersection, C108_closest_ray) -/
example : (fun (s x : V2 ℚ) (a b : List (V2 ℚ)) (l : Line2 ℚ) =>
    s :: a ++ x :: (b ++ [s]) ≠ x :: b ++ s :: (a ++ [x]) ∧
    findAll2 (s :: a ++ x :: (b ++ [s])) l = [.point ⟨4, 2⟩, .point ⟨0, 2⟩] ∧
    findAll2 (x :: b ++ s :: (a ++ [x])) l = [.point ⟨0, 2⟩, .point ⟨4, 2⟩] ∧
    intersection2 (s :: a ++ x :: (b ++ [s])) l = some (.point ⟨4, 2⟩) ∧
    intersection2 (x :: b ++ s :: (a ++ [x])) l = some (.point ⟨0, 2⟩) ∧
    closestRayIntersection (s :: a ++ x :: (b ++ [s])) ⟨1, 0⟩ ⟨-1, 2⟩ = some ⟨0, 2⟩ ∧
    closestRayIntersection (x :: b ++ s :: (a ++ [x])) ⟨1, 0⟩ ⟨-1, 2⟩ = some ⟨0, 2⟩)
    ⟨0, 0⟩ ⟨4, 4⟩ [⟨4, 0⟩] [⟨0, 4⟩] ⟨⟨-1, 2⟩, ⟨5, 2⟩⟩ := by
  decide +kernel

/-- boxes (C108_box) -/
example : Aabb2.withPoints [(⟨0, 0⟩ : V2 ℚ), ⟨4, 0⟩, ⟨4, 4⟩, ⟨0, 0⟩] = Aabb2.withPoints [⟨4, 4⟩, ⟨0, 0⟩, ⟨4, 0⟩, ⟨4, 4⟩] :=
  (C108_box (⟨0, 0⟩ : V2 ℚ) ⟨4, 4⟩ [⟨4, 0⟩] [] ⟨0, 0, 0⟩ ⟨0, 0, 0⟩ [] []).1

end Verif.Props.ClosedStart
