import Verif.Props.Direction
import Verif.Props.Discretize
import Verif.Props.SimplifyCurve
import Verif.Props.Aabb
import Verif.Model.Misc
/-!
# C107: a line string can be processed in parts

`a ++ x :: b` is a line string cut at its vertex `x` into `a ++ [x]` and `x :: b`.
-/
set_option linter.unusedSectionVars false
namespace Verif.Props.Parts
open Verif Verif.Model Verif.Spec Verif.Props.Intersect Verif.Props.SimplifyCurve Scalar

theorem windows2_append {A : Type} (a b : List A) (x : A) :
    windows2 (a ++ x :: b) = windows2 (a ++ [x]) ++ windows2 (x :: b) := by
  induction a with
  | nil => simp [windows2]
  | cons u a ih =>
    cases a with
    | nil => simp [windows2]
    | cons v a =>
      simp only [List.cons_append, windows2] at ih ⊢
      rw [ih]

/-- two points are neighbours in a line string iff they are neighbours in one of its parts -/
theorem neighbours {A : Type} (a b : List A) (x u v : A) :
    (∃ i, (a ++ x :: b)[i]? = some u ∧ (a ++ x :: b)[i + 1]? = some v) ↔
      (∃ i, (a ++ [x])[i]? = some u ∧ (a ++ [x])[i + 1]? = some v) ∨ ∃ i, (x :: b)[i]? = some u ∧ (x :: b)[i + 1]? = some v := by
  have k : ∀ l : List A, (∃ i, l[i]? = some u ∧ l[i + 1]? = some v) ↔ (u, v) ∈ windows2 l := by
    intro l
    rw [List.mem_iff_getElem?]
    exact exists_congr fun i => (windows2_get l i u v).symm
  rw [k, k, k, windows2_append, List.mem_append]

section lawless
variable {α : Type} [Scalar α]

/-- **C107** (any arithmetic) the segments of a line string are the segments of the first part followed by those of the second,
in 2D and 3D. -/
theorem C107_segments (a b : List (V2 α)) (x : V2 α) (a' b' : List (V3 α)) (x' : V3 α) :
    windowIter2 (a ++ x :: b) = windowIter2 (a ++ [x]) ++ windowIter2 (x :: b) ∧
    windowIter3 (a' ++ x' :: b') = windowIter3 (a' ++ [x']) ++ windowIter3 (x' :: b') := by
  unfold windowIter2 windowIter3
  rw [windows2_append a b x, windows2_append a' b' x', List.map_append, List.map_append]
  exact ⟨rfl, rfl⟩

theorem go_append (l m : List (Line2 α)) (other : Line2 α) :
    intersection2.go other (l ++ m) = (intersection2.go other l).orElse fun _ => intersection2.go other m := by
  induction l with
  | nil => rfl
  | cons e l ih =>
    rw [List.cons_append, intersection2.go, intersection2.go]
    cases e.intersectionPoint other with
    | some i => rfl
    | none => exact ih

/-- **C107** (any arithmetic) `intersection` with a segment is that of the first part, and only if there is none that of the second. -/
theorem C107_intersection (a b : List (V2 α)) (x : V2 α) (other : Line2 α) :
    intersection2 (a ++ x :: b) other =
      match intersection2 (a ++ [x]) other with
      | some i => some i
      | none => intersection2 (x :: b) other := by
  have h := go_append (windowIter2 (a ++ [x])) (windowIter2 (x :: b)) other
  rw [← (C107_segments a b x [] [] ⟨x.x, x.x, x.x⟩).1] at h
  change intersection2 (a ++ x :: b) other = (intersection2 (a ++ [x]) other).orElse fun _ => intersection2 (x :: b) other at h
  rw [h]
  cases intersection2 (a ++ [x]) other <;> rfl

/-- **C107** (any arithmetic) `find_all_intersections`: those of the first part followed by those of the second. -/
theorem C107_find_all (a b : List (V2 α)) (x : V2 α) (other : Line2 α) :
    findAll2 (a ++ x :: b) other = findAll2 (a ++ [x]) other ++ findAll2 (x :: b) other := by
  have k : ∀ (l : List (Line2 α)) (acc : List (Intersection α)),
      l.foldl (findAllStep other) acc = acc ++ l.foldl (findAllStep other) [] := by
    intro l
    induction l with
    | nil => intro acc; simp
    | cons e l ih =>
      intro acc
      rw [List.foldl_cons, List.foldl_cons, ih, ih (findAllStep other [] e), ← List.append_assoc]
      congr 1
      unfold findAllStep
      cases e.intersectionPoint other <;> simp
  unfold findAll2
  rw [(C107_segments a b x [] [] ⟨x.x, x.x, x.x⟩).1, List.foldl_append, k]

/-- **C107** (any arithmetic, 2D and 3D) `discretize` of a line string is that of its first part without the last point, followed by
that of its second part. -/
theorem C107_discretize {P : Type} (o : VecOps P α) (d : α) (a b out1 out2 : List P) (x : P)
    (h1 : Collects (discNext o) (discNew o (a ++ [x]) d) out1) (h2 : Collects (discNext o) (discNew o (x :: b) d) out2) :
    out1.getLast? = some x ∧ Collects (discNext o) (discNew o (a ++ x :: b) d) (out1.dropLast ++ out2) := by
  rw [Discretize.collects_unique h1 (Discretize.collects_all o _ d), Discretize.collects_unique h2 (Discretize.collects_all o _ d)]
  have k : ∀ a : List P, ∃ pre, Discretize.allPoints o d (a ++ [x]) = pre ++ [x] ∧
      Discretize.allPoints o d (a ++ x :: b) = pre ++ Discretize.allPoints o d (x :: b) := by
    intro a
    induction a with
    | nil => exact ⟨[], rfl, rfl⟩
    | cons u a ih =>
      obtain ⟨pre, e1, e2⟩ := ih
      cases a with
      | nil =>
        refine ⟨Discretize.segPoints o d u x, rfl, ?_⟩
        rfl
      | cons v a =>
        refine ⟨Discretize.segPoints o d u v ++ pre, ?_, ?_⟩
        · rw [List.append_assoc, ← e1]; rfl
        · rw [List.append_assoc, ← e2]; rfl
  obtain ⟨pre, e1, e2⟩ := k a
  rw [e1, List.dropLast_concat, ← e2]
  exact ⟨by simp, Discretize.collects_all o _ d⟩

/-- **C107** (any arithmetic) a line string of fewer than ten points intersects itself if a contiguous part of it does. -/
theorem C107_self_intersection (pre part post : List (V2 α)) (hl : (pre ++ part ++ post).length < 10)
    (h : isSelfIntersectingShort part = some true) : isSelfIntersectingShort (pre ++ part ++ post) = some true := by
  have hp : 2 < part.length := by
    by_contra hc
    unfold isSelfIntersectingShort at h
    rw [if_pos (by omega)] at h
    cases h
  have hl' : pre.length + part.length + post.length < 10 := by simpa [Nat.add_assoc] using hl
  have g : ∀ {i : Nat} {v : V2 α}, part[i]? = some v → (pre ++ part ++ post)[pre.length + i]? = some v := by
    intro i v hv
    have : i < part.length := by
      by_contra hc
      rw [List.getElem?_eq_none (by omega)] at hv
      cases hv
    rw [List.append_assoc, List.getElem?_append_right (by omega), List.getElem?_append_left (by omega), Nat.add_sub_cancel_left]
    exact hv
  rw [selfShort_iff _ (by simp; omega) hl]
  rcases (selfShort_iff part hp (by omega)).1 h with ⟨i, u, v, w, hu, hv, hw, hs⟩ | ⟨i, j, u, v, w, z, hij, hu, hv, hw, hz, hs⟩
  · exact Or.inl ⟨pre.length + i, u, v, w, g hu, g hv, g hw, hs⟩
  · exact Or.inr ⟨pre.length + i, pre.length + j, u, v, w, z, by omega, g hu, g hv, g hw, g hz, hs⟩

end lawless

section exact
variable {K : Type} [Scalar K] [Field K] [LinearOrder K] [ExactScalar K]

/-- **C107** `closest_ray_intersection`: the result for the line string is the result for one of the parts, namely of the one that is
hit nearer to the origin, and there is none iff there is none for either part. -/
theorem C107_closest_ray (a b : List (V2 K)) (x r o : V2 K) (hr : r ≠ ⟨0, 0⟩) :
    (closestRayIntersection (a ++ x :: b) r o = none ↔
      closestRayIntersection (a ++ [x]) r o = none ∧ closestRayIntersection (x :: b) r o = none) ∧
    ∀ p, closestRayIntersection (a ++ x :: b) r o = some p →
      (closestRayIntersection (a ++ [x]) r o = some p ∨ closestRayIntersection (x :: b) r o = some p) ∧
      ∀ q, closestRayIntersection (a ++ [x]) r o = some q ∨ closestRayIntersection (x :: b) r o = some q →
        sqDist2 o p ≤ sqDist2 o q := by
  have := ExactScalar.toIsStrictOrderedRing (K := K)
  -- the hits of a line string
  let H : List (V2 K) → K → Prop := fun l t => 0 < t ∧ ∃ u v : V2 K, (∃ i : Nat, l[i]? = some u ∧ l[i + 1]? = some v) ∧ VisibleHit o r u v t
  have spec : ∀ l p, closestRayIntersection l r o = some p ↔ ∃ t, p = rayPoint o r t ∧ H l t ∧ ∀ t', H l t' → t ≤ t' := by
    intro l p
    rw [C22_nearest_visible_hit l r o p hr]
    constructor
    · rintro ⟨t, t0, e, ⟨i, u, v, hu, hv, hh⟩, hm⟩
      exact ⟨t, e, ⟨t0, u, v, ⟨i, hu, hv⟩, hh⟩, fun t' ⟨h0, u', v', ⟨i', hu', hv'⟩, hh'⟩ => hm i' u' v' t' hu' hv' h0 hh'⟩
    · rintro ⟨t, e, ⟨t0, u, v, ⟨i, hu, hv⟩, hh⟩, hm⟩
      exact ⟨t, t0, e, ⟨i, u, v, hu, hv, hh⟩, fun i' u' v' t' hu' hv' h0 hh' => hm t' ⟨h0, u', v', ⟨i', hu', hv'⟩, hh'⟩⟩
  have specN : ∀ l, closestRayIntersection l r o = none ↔ ∀ t, ¬ H l t := by
    intro l
    constructor
    · rintro e t ⟨t0, u, v, ⟨i, hu, hv⟩, hh⟩
      exact C22_none l r o hr e i u v t hu hv t0 hh
    · intro hn
      cases e : closestRayIntersection l r o with
      | none => rfl
      | some p =>
        obtain ⟨t, -, ht, -⟩ := (spec l p).1 e
        exact absurd ht (hn t)
  have split : ∀ t, H (a ++ x :: b) t ↔ H (a ++ [x]) t ∨ H (x :: b) t := by
    intro t
    constructor
    · rintro ⟨t0, u, v, hn, hh⟩
      rcases (neighbours a b x u v).1 hn with h | h
      · exact Or.inl ⟨t0, u, v, h, hh⟩
      · exact Or.inr ⟨t0, u, v, h, hh⟩
    · rintro (⟨t0, u, v, h, hh⟩ | ⟨t0, u, v, h, hh⟩)
      · exact ⟨t0, u, v, (neighbours a b x u v).2 (Or.inl h), hh⟩
      · exact ⟨t0, u, v, (neighbours a b x u v).2 (Or.inr h), hh⟩
  refine ⟨?_, ?_⟩
  · rw [specN, specN, specN]
    simp only [split, not_or]
    exact ⟨fun h => ⟨fun t => (h t).1, fun t => (h t).2⟩, fun h t => ⟨h.1 t, h.2 t⟩⟩
  · intro p hp
    obtain ⟨t, rfl, ht, hm⟩ := (spec _ p).1 hp
    constructor
    · rcases (split t).1 ht with h | h
      · exact Or.inl ((spec _ _).2 ⟨t, rfl, h, fun t' h' => hm t' ((split t').2 (Or.inl h'))⟩)
      · exact Or.inr ((spec _ _).2 ⟨t, rfl, h, fun t' h' => hm t' ((split t').2 (Or.inr h'))⟩)
    · intro q hq
      obtain ⟨t', rfl, h0, le⟩ : ∃ t', q = rayPoint o r t' ∧ 0 < t' ∧ t ≤ t' := by
        rcases hq with h | h
        · obtain ⟨t', e, h', -⟩ := (spec _ q).1 h
          exact ⟨t', e, h'.1, hm t' ((split t').2 (Or.inl h'))⟩
        · obtain ⟨t', e, h', -⟩ := (spec _ q).1 h
          exact ⟨t', e, h'.1, hm t' ((split t').2 (Or.inr h'))⟩
      have k : ∀ s, sqDist2 o (rayPoint o r s) = s ^ 2 * (r.x ^ 2 + r.y ^ 2) := by
        intro s; unfold sqDist2 rayPoint; ring
      rw [k, k]
      exact mul_le_mul_of_nonneg_right (pow_le_pow_left₀ ht.1.le le 2) (by positivity)

/-- **C107** the box of a line string is the box of the first part extended by the box of the second, 2D and 3D. -/
theorem C107_box (a b : List (V2 K)) (x : V2 K) (a' b' : List (V3 K)) (x' : V3 K) :
    Aabb2.withPoints (a ++ x :: b) = (Aabb2.withPoints (a ++ [x])).updateWithAabb (Aabb2.withPoints (x :: b)) ∧
    Aabb3.withPoints (a' ++ x' :: b') = (Aabb3.withPoints (a' ++ [x'])).updateWithAabb (Aabb3.withPoints (x' :: b')) := by
  constructor
  · refine Aabb.C31_box2_order_independent (.withPoints (a ++ x :: b)) (.aabb (.withPoints (a ++ [x])) (.withPoints (x :: b))) ?_
    intro p; simp [Hist2.fed]
  · refine Aabb.C31_box3_order_independent (.withPoints (a' ++ x' :: b')) (.aabb (.withPoints (a' ++ [x'])) (.withPoints (x' :: b'))) ?_
    intro p; simp [Hist3.fed]

theorem exists_parts {A : Type} (Q : A → A → Prop) (a b : List A) (x : A) :
    (∃ (i : Nat) (u v : A), (a ++ x :: b)[i]? = some u ∧ (a ++ x :: b)[i + 1]? = some v ∧ Q u v) ↔
      (∃ (i : Nat) (u v : A), (a ++ [x])[i]? = some u ∧ (a ++ [x])[i + 1]? = some v ∧ Q u v) ∨
      ∃ (i : Nat) (u v : A), (x :: b)[i]? = some u ∧ (x :: b)[i + 1]? = some v ∧ Q u v := by
  constructor
  · rintro ⟨i, u, v, hu, hv, h⟩
    rcases (neighbours a b x u v).1 ⟨i, hu, hv⟩ with ⟨j, h1, h2⟩ | ⟨j, h1, h2⟩
    · exact Or.inl ⟨j, u, v, h1, h2, h⟩
    · exact Or.inr ⟨j, u, v, h1, h2, h⟩
  · rintro (⟨j, u, v, h1, h2, h⟩ | ⟨j, u, v, h1, h2, h⟩)
    · obtain ⟨i, hu, hv⟩ := (neighbours a b x u v).2 (Or.inl ⟨j, h1, h2⟩)
      exact ⟨i, u, v, hu, hv, h⟩
    · obtain ⟨i, hu, hv⟩ := (neighbours a b x u v).2 (Or.inr ⟨j, h1, h2⟩)
      exact ⟨i, u, v, hu, hv, h⟩

theorem join {A : Type} {a b o1 o2 : List A} {x : A} (s1 : o1.Sublist (a ++ [x])) (l1 : o1.getLast? = (a ++ [x]).getLast?)
    (s2 : o2.Sublist (x :: b)) (l2 : o2.head? = (x :: b).head?) :
    ∃ p1 p2, o1 = p1 ++ [x] ∧ o2 = x :: p2 ∧ (p1 ++ x :: p2).Sublist (a ++ x :: b) := by
  rw [List.getLast?_append, List.getLast?_singleton, Option.some_or, List.getLast?_eq_some_iff] at l1
  obtain ⟨p1, rfl⟩ := l1
  cases o2 with
  | nil => simp at l2
  | cons y p2 =>
    simp only [List.head?_cons, Option.some.injEq] at l2
    subst l2
    exact ⟨p1, p2, rfl, rfl, ((List.append_sublist_append_right [y]).1 s1).append s2⟩

/-- **C107** `simplify_rdp` may be applied to the parts: the simplified first part ends at `x`, the simplified second part starts there,
and the two joined at `x` are within `|d|` of the line string – every point of one curve has a point of the other that near. -/
theorem C107_rdp2 (a b : List (V2 K)) (x : V2 K) (d : K) :
    ∃ out1 out2, simplifyRdp2 (a ++ [x]) d = .ok (out1 ++ [x]) ∧ simplifyRdp2 (x :: b) d = .ok (x :: out2) ∧
      (out1 ++ x :: out2).Sublist (a ++ x :: b) ∧
      (∀ p, OnPolyline (a ++ x :: b) p → ∃ q, OnPolyline (out1 ++ x :: out2) q ∧ sqDist2 p q ≤ d ^ 2) ∧
      (∀ q, OnPolyline (out1 ++ x :: out2) q → ∃ p, OnPolyline (a ++ x :: b) p ∧ sqDist2 p q ≤ d ^ 2) := by
  obtain ⟨o1, e1, f1, g1⟩ := C103_rdp2_curves_are_near (a ++ [x]) d (by simp)
  obtain ⟨o2, e2, f2, g2⟩ := C103_rdp2_curves_are_near (x :: b) d (by simp)
  obtain ⟨o1', e1', s1, -, l1, -⟩ := Rdp.C07_rdp2_keeps_ends_and_order (a ++ [x]) d
  obtain ⟨o2', e2', s2, l2, -, -⟩ := Rdp.C07_rdp2_keeps_ends_and_order (x :: b) d
  rw [e1] at e1'; rw [e2] at e2'; cases e1'; cases e2'
  obtain ⟨p1, p2, rfl, rfl, hs⟩ := join s1 l1 s2 l2
  refine ⟨p1, p2, e1, e2, hs, ?_, ?_⟩
  · intro p hp
    rcases (exists_parts (fun u v => OnSegment2 u v p) a b x).1 hp with h | h
    · obtain ⟨q, hq, k⟩ := f1 p h
      exact ⟨q, (exists_parts (fun u v => OnSegment2 u v q) p1 p2 x).2 (Or.inl hq), k⟩
    · obtain ⟨q, hq, k⟩ := f2 p h
      exact ⟨q, (exists_parts (fun u v => OnSegment2 u v q) p1 p2 x).2 (Or.inr hq), k⟩
  · intro q hq
    rcases (exists_parts (fun u v => OnSegment2 u v q) p1 p2 x).1 hq with h | h
    · obtain ⟨p, hp, k⟩ := g1 q h
      exact ⟨p, (exists_parts (fun u v => OnSegment2 u v p) a b x).2 (Or.inl hp), k⟩
    · obtain ⟨p, hp, k⟩ := g2 q h
      exact ⟨p, (exists_parts (fun u v => OnSegment2 u v p) a b x).2 (Or.inr hp), k⟩

/-- **C107** 3D: the same, but the points of the line string are only within `|d|` of the infinite line through two consecutive points of
the joined result (see C09). -/
theorem C107_rdp3 (a b : List (V3 K)) (x : V3 K) (d : K) :
    ∃ out1 out2, simplifyRdp3 (a ++ [x]) d = .ok (out1 ++ [x]) ∧ simplifyRdp3 (x :: b) d = .ok (x :: out2) ∧
      (out1 ++ x :: out2).Sublist (a ++ x :: b) ∧
      (∀ q, OnPolyline3 (out1 ++ x :: out2) q → ∃ p, OnPolyline3 (a ++ x :: b) p ∧ sqDist3 p q ≤ d ^ 2) ∧
      (∀ p, OnPolyline3 (a ++ x :: b) p → ∃ (i : Nat) (u v q : V3 K), (out1 ++ x :: out2)[i]? = some u ∧
        (out1 ++ x :: out2)[i + 1]? = some v ∧ OnLine3 u v q ∧ sqDist3 p q ≤ d ^ 2) := by
  obtain ⟨o1, e1, g1, f1⟩ := C103_rdp3_curves_are_near (a ++ [x]) d (by simp)
  obtain ⟨o2, e2, g2, f2⟩ := C103_rdp3_curves_are_near (x :: b) d (by simp)
  obtain ⟨o1', e1', s1, -, l1, -⟩ := Rdp.C07_rdp3_keeps_ends_and_order (a ++ [x]) d
  obtain ⟨o2', e2', s2, l2, -, -⟩ := Rdp.C07_rdp3_keeps_ends_and_order (x :: b) d
  rw [e1] at e1'; rw [e2] at e2'; cases e1'; cases e2'
  obtain ⟨p1, p2, rfl, rfl, hs⟩ := join s1 l1 s2 l2
  refine ⟨p1, p2, e1, e2, hs, ?_, ?_⟩
  · intro q hq
    rcases (exists_parts (fun u v => OnSegment3 u v q) p1 p2 x).1 hq with h | h
    · obtain ⟨p, hp, k⟩ := g1 q h
      exact ⟨p, (exists_parts (fun u v => OnSegment3 u v p) a b x).2 (Or.inl hp), k⟩
    · obtain ⟨p, hp, k⟩ := g2 q h
      exact ⟨p, (exists_parts (fun u v => OnSegment3 u v p) a b x).2 (Or.inr hp), k⟩
  · intro p hp
    rcases (exists_parts (fun u v => OnSegment3 u v p) a b x).1 hp with h | h
    · obtain ⟨i, u, v, q, hu, hv, hq, k⟩ := f1 p h
      obtain ⟨j, u', v', hu', hv', hq', k'⟩ := (exists_parts (fun u v => OnLine3 u v q ∧ sqDist3 p q ≤ d ^ 2) p1 p2 x).2
        (Or.inl ⟨i, u, v, hu, hv, hq, k⟩)
      exact ⟨j, u', v', q, hu', hv', hq', k'⟩
    · obtain ⟨i, u, v, q, hu, hv, hq, k⟩ := f2 p h
      obtain ⟨j, u', v', hu', hv', hq', k'⟩ := (exists_parts (fun u v => OnLine3 u v q ∧ sqDist3 p q ≤ d ^ 2) p1 p2 x).2
        (Or.inr ⟨i, u, v, hu, hv, hq, k⟩)
      exact ⟨j, u', v', q, hu', hv', hq', k'⟩

end exact

/-- Cutting is not free: a cut point that `simplify_rdp` of the line string would drop is kept, and a line string may intersect itself
although neither of its parts does. -/
theorem C107_a_cut_is_visible :
    simplifyRdp2 [(⟨0, 0⟩ : V2 ℚ), ⟨1, 0⟩, ⟨2, 0⟩] 1 = .ok [⟨0, 0⟩, ⟨2, 0⟩] ∧
    simplifyRdp2 [(⟨0, 0⟩ : V2 ℚ), ⟨1, 0⟩] 1 = .ok [⟨0, 0⟩, ⟨1, 0⟩] ∧
    isSelfIntersectingShort [(⟨0, 0⟩ : V2 ℚ), ⟨4, 1⟩, ⟨4, 3⟩] = some false ∧
    isSelfIntersectingShort [(⟨4, 3⟩ : V2 ℚ), ⟨1, -1⟩] = some false ∧
    isSelfIntersectingShort [(⟨0, 0⟩ : V2 ℚ), ⟨4, 1⟩, ⟨4, 3⟩, ⟨1, -1⟩] = some true := by
  decide +kernel

/-- C107_self_intersection applies to a line string that goes on after it has crossed itself -/
example : isSelfIntersectingShort ([⟨-3, 0⟩] ++ [(⟨0, 0⟩ : V2 ℚ), ⟨4, 1⟩, ⟨4, 3⟩, ⟨1, -1⟩] ++ [⟨0, -5⟩]) = some true :=
  C107_self_intersection _ _ _ (by decide) C107_a_cut_is_visible.2.2.2.2

/-- a closed line string of five points cut at its third point: both parts have segments, the segment that is searched for meets both, a
ray hits both, and what is found in the parts is what is found in the whole (C107_intersection, C107_find_all, C107_closest_ray) -/
example : (fun (a b : List (V2 ℚ)) (x : V2 ℚ) (l : Line2 ℚ) =>
    findAll2 (a ++ [x]) l = [.point ⟨4, 2⟩] ∧ findAll2 (x :: b) l = [.point ⟨0, 2⟩] ∧
    findAll2 (a ++ x :: b) l = [.point ⟨4, 2⟩, .point ⟨0, 2⟩] ∧ intersection2 (a ++ x :: b) l = some (.point ⟨4, 2⟩) ∧
    closestRayIntersection (a ++ [x]) ⟨1, 0⟩ ⟨-1, 2⟩ = some ⟨4, 2⟩ ∧
    closestRayIntersection (x :: b) ⟨1, 0⟩ ⟨-1, 2⟩ = some ⟨0, 2⟩ ∧
    closestRayIntersection (a ++ x :: b) ⟨1, 0⟩ ⟨-1, 2⟩ = some ⟨0, 2⟩)
    [⟨0, 0⟩, ⟨4, 0⟩] [⟨0, 4⟩, ⟨0, 0⟩] ⟨4, 4⟩ ⟨⟨-1, 2⟩, ⟨5, 2⟩⟩ := by
  decide +kernel

/-- boxes of parts, of which neither is the box of the whole (C107_box) -/
example : Aabb2.withPoints [(⟨0, 0⟩ : V2 ℚ), ⟨4, 1⟩, ⟨2, 5⟩] =
    (Aabb2.withPoints [(⟨0, 0⟩ : V2 ℚ), ⟨4, 1⟩]).updateWithAabb (Aabb2.withPoints [⟨4, 1⟩, ⟨2, 5⟩]) :=
  (C107_box [(⟨0, 0⟩ : V2 ℚ)] [⟨2, 5⟩] ⟨4, 1⟩ [] [] ⟨0, 0, 0⟩).1

/-- `discretize` of parts (C107_discretize) -/
example (o : VecOps (V2 ℚ) ℚ) (p q r : V2 ℚ) : ∃ out1 out2, Collects (discNext o) (discNew o ([p] ++ [q]) 1) out1 ∧
    Collects (discNext o) (discNew o (q :: [r]) 1) out2 ∧
    Collects (discNext o) (discNew o ([p] ++ q :: [r]) 1) (out1.dropLast ++ out2) :=
  ⟨_, _, Discretize.collects_all o _ 1, Discretize.collects_all o _ 1,
    (C107_discretize o 1 [p] [r] _ _ q (Discretize.collects_all o _ 1) (Discretize.collects_all o _ 1)).2⟩

end Verif.Props.Parts
