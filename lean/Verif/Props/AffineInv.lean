import Verif.Props.Intersect
import Verif.Props.HullContain
import Verif.Props.SweepComplete
import Verif.Spec.AffineMap
import Mathlib.Tactic.LinearCombination
/-!
# C94: what is computed does not depend on the coordinate system
-/
namespace Verif.Props.AffineInv
open Verif Verif.Model Verif.Spec Verif.Proofs.Intersect Scalar
set_option linter.unusedSectionVars false
set_option linter.unusedSimpArgs false

section field
variable {K : Type} [Field K] [LinearOrder K] [IsStrictOrderedRing K]

theorem map_lerp (A : Affine2 K) (a b : V2 K) (t : K) : A.map (lerp2 a b t) = lerp2 (A.map a) (A.map b) t := by
  simp only [Affine2.map, lerp2, V2.mk.injEq]
  constructor <;> ring

theorem map_inj (A : Affine2 K) (h : A.det ≠ 0) {p q : V2 K} (e : A.map p = A.map q) : p = q := by
  simp only [Affine2.map, V2.mk.injEq] at e
  obtain ⟨h1, h2⟩ := e
  have hx : A.det * (p.x - q.x) = 0 := by unfold Affine2.det; linear_combination A.d * h1 - A.b * h2
  have hy : A.det * (p.y - q.y) = 0 := by unfold Affine2.det; linear_combination A.a * h2 - A.c * h1
  cases p; cases q
  simp only [mul_eq_zero, h, false_or, sub_eq_zero] at hx hy
  simp only [hx, hy]

theorem map_inj_iff (A : Affine2 K) (h : A.det ≠ 0) {p q : V2 K} : A.map p = A.map q ↔ p = q :=
  ⟨map_inj A h, fun e => by rw [e]⟩

theorem map_orient (A : Affine2 K) (a b c : V2 K) : orient (A.map a) (A.map b) (A.map c) = A.det * orient a b c := by
  simp only [Affine2.map, Affine2.det, orient]; ring

theorem onSeg_map (A : Affine2 K) (h : A.det ≠ 0) (a b q : V2 K) :
    OnSegment2 (A.map a) (A.map b) (A.map q) ↔ OnSegment2 a b q := by
  constructor
  · rintro ⟨t, h0, h1, e⟩
    rw [← map_lerp] at e
    exact ⟨t, h0, h1, map_inj A h e⟩
  · rintro ⟨t, h0, h1, rfl⟩
    exact ⟨t, h0, h1, map_lerp A a b t⟩

theorem onSeg_image (A : Affine2 K) {a b x : V2 K} (hx : OnSegment2 (A.map a) (A.map b) x) :
    ∃ q, x = A.map q ∧ OnSegment2 a b q := by
  obtain ⟨t, h0, h1, rfl⟩ := hx
  exact ⟨lerp2 a b t, (map_lerp A a b t).symm, t, h0, h1, rfl⟩

/-- equal segments have equal ends, up to their order -/
theorem ends_unique {a b c d : V2 K} (h : ∀ q, OnSegment2 a b q ↔ OnSegment2 c d q) :
    (c = a ∧ d = b) ∨ (c = b ∧ d = a) := by
  obtain ⟨s, s0, s1, es⟩ := (h c).2 (onSeg_start c d)
  obtain ⟨t, t0, t1, et⟩ := (h d).2 (onSeg_end c d)
  obtain ⟨u, u0, u1, eu⟩ := (h a).1 (onSeg_start a b)
  obtain ⟨v, v0, v1, ev⟩ := (h b).1 (onSeg_end a b)
  by_cases hab : a = b
  · subst hab
    have hc : c = a := onSeg_self ((h c).2 (onSeg_start c d))
    have hd : d = a := onSeg_self ((h d).2 (onSeg_end c d))
    exact Or.inl ⟨hc, hd⟩
  have h1 : lerp2 a b (s + u * (t - s)) = a := by
    conv_rhs => rw [eu, es, et]
    simp only [lerp2, V2.mk.injEq]; constructor <;> ring
  have h2 : lerp2 a b (s + v * (t - s)) = b := by
    conv_rhs => rw [ev, es, et]
    simp only [lerp2, V2.mk.injEq]; constructor <;> ring
  have inj0 : ∀ w, lerp2 a b w = a → w = 0 := by
    intro w hw
    by_contra hne
    apply hab
    have hx := congrArg V2.x hw
    have hy := congrArg V2.y hw
    simp only [lerp2, add_eq_left, mul_eq_zero, hne, false_or, sub_eq_zero] at hx hy
    exact v2_ext hx.symm hy.symm
  have inj1 : ∀ w, lerp2 a b w = b → w = 1 := by
    intro w hw
    by_contra hne
    apply hab
    have hx := congrArg V2.x hw
    have hy := congrArg V2.y hw
    simp only [lerp2] at hx hy
    have hx' : (w - 1) * (b.x - a.x) = 0 := by linear_combination hx
    have hy' : (w - 1) * (b.y - a.y) = 0 := by linear_combination hy
    simp only [mul_eq_zero, sub_eq_zero, hne, false_or] at hx' hy'
    exact v2_ext hx'.symm hy'.symm
  have e1 := inj0 _ h1
  have e2 := inj1 _ h2
  have a1 : (1 - u) * s = 0 ∧ u * t = 0 := by
    have p1 : 0 ≤ (1 - u) * s := mul_nonneg (by linarith) s0
    have p2 : 0 ≤ u * t := mul_nonneg u0 t0
    have : (1 - u) * s + u * t = 0 := by linear_combination e1
    constructor <;> linarith
  have a2 : (1 - v) * (1 - s) = 0 ∧ v * (1 - t) = 0 := by
    have p1 : 0 ≤ (1 - v) * (1 - s) := mul_nonneg (by linarith) (by linarith)
    have p2 : 0 ≤ v * (1 - t) := mul_nonneg v0 (by linarith)
    have : (1 - v) * (1 - s) + v * (1 - t) = 0 := by linear_combination -e2
    constructor <;> linarith
  obtain ⟨a1, a1'⟩ := a1
  obtain ⟨a2, a2'⟩ := a2
  have e0 : ∀ a b : V2 K, lerp2 a b 0 = a := fun a b => by simp [lerp2]
  have e01 : ∀ a b : V2 K, lerp2 a b 1 = b := fun a b => by simp [lerp2]
  by_cases hs : s = 0
  · subst hs
    have hv : v = 1 := by linarith
    subst hv
    have ht : t = 1 := by linarith
    subst ht
    rw [e0] at es; rw [e01] at et
    exact Or.inl ⟨es, et⟩
  · have hu : u = 1 := by
      rcases mul_eq_zero.1 a1 with h | h
      · linarith
      · exact absurd h hs
    subst hu
    have ht : t = 0 := by linarith
    subst ht
    have hv : v = 0 := by linarith
    subst hv
    have hs : s = 1 := by linarith
    subst hs
    rw [e0] at et; rw [e01] at es
    exact Or.inr ⟨es, et⟩

end field

/-- the second report is the image of the first one: nothing, the image of the point, or the segment between the images of
the two ends -/
inductive ImageReport {K : Type} [Field K] (A : Affine2 K) : Option (Intersection K) → Option (Intersection K) → Prop
  | none : ImageReport A none none
  | point (p : V2 K) : ImageReport A (some (.point p)) (some (.point (A.map p)))
  | overlap (a b : V2 K) : ImageReport A (some (.overlap ⟨a, b⟩)) (some (.overlap ⟨A.map a, A.map b⟩))
  | swapped (a b : V2 K) : ImageReport A (some (.overlap ⟨a, b⟩)) (some (.overlap ⟨A.map b, A.map a⟩))

section meet
variable {K : Type} [Scalar K] [Field K] [LinearOrder K] [ExactScalar K] [ExactSqrt K]
open Verif.Props.Intersect

/-- **C94** `intersection_point` commutes with every affine map that does not squash the plane. -/
theorem C94_intersection_point (A : Affine2 K) (h : A.det ≠ 0) (l m : Line2 K) :
    ImageReport A (l.intersectionPoint m) ((A.line l).intersectionPoint (A.line m)) := by
  have := ExactScalar.toIsStrictOrderedRing (K := K)
  have key : ∀ q, (OnSegment2 (A.line l).start (A.line l).end (A.map q) ∧ OnSegment2 (A.line m).start (A.line m).end (A.map q)) ↔
      (OnSegment2 l.start l.end q ∧ OnSegment2 m.start m.end q) := fun q =>
    and_congr (onSeg_map A h _ _ _) (onSeg_map A h _ _ _)
  cases e : l.intersectionPoint m with
  | none =>
    have e' : (A.line l).intersectionPoint (A.line m) = none := by
      rw [C19_none_iff_disjoint] at e ⊢
      intro x hx
      obtain ⟨q, rfl, -⟩ := onSeg_image A hx.1
      exact e q ((key q).1 hx)
    rw [e']
    exact .none
  | some i =>
    cases i with
    | point p =>
      have hp := (C19_point_is_unique l m p e p).2 rfl
      have hd := (intersectionPoint_denotes (A.line l) (A.line m) (A.map p)).2 ((key p).2 hp)
      cases e' : (A.line l).intersectionPoint (A.line m) with
      | none => rw [e'] at hd; exact absurd hd (by simp [Denotes])
      | some j =>
        cases j with
        | point p' =>
          rw [e'] at hd
          have : A.map p = p' := hd
          rw [← this]
          exact .point p
        | overlap o =>
          obtain ⟨ho, hex⟩ := C19_overlap_is_exact _ _ _ e'
          exfalso
          apply ho
          have one : ∀ x, OnSegment2 o.start o.end x → x = A.map p := by
            intro x hx
            have hx' := (hex x).2 hx
            obtain ⟨q, rfl, -⟩ := onSeg_image A hx'.1
            rw [(C19_point_is_unique l m p e q).1 ((key q).1 hx')]
          rw [one _ (onSeg_start _ _), ← one _ (onSeg_end _ _)]
    | overlap o =>
      obtain ⟨ho, hex⟩ := C19_overlap_is_exact _ _ _ e
      have hs := (intersectionPoint_denotes (A.line l) (A.line m) (A.map o.start)).2 ((key _).2 ((hex _).2 (onSeg_start _ _)))
      have he := (intersectionPoint_denotes (A.line l) (A.line m) (A.map o.end)).2 ((key _).2 ((hex _).2 (onSeg_end _ _)))
      cases e' : (A.line l).intersectionPoint (A.line m) with
      | none => rw [e'] at hs; exact absurd hs (by simp [Denotes])
      | some j =>
        cases j with
        | point p' =>
          rw [e'] at hs he
          have h1 : A.map o.start = p' := hs
          have h2 : A.map o.end = p' := he
          exact absurd (map_inj A h (h1.trans h2.symm)) ho
        | overlap o' =>
          obtain ⟨-, hex'⟩ := C19_overlap_is_exact _ _ _ e'
          have := ends_unique (a := A.map o.start) (b := A.map o.end) (c := o'.start) (d := o'.end) (fun x => by
            rw [← hex']
            constructor
            · intro hx
              obtain ⟨q, rfl, hq⟩ := onSeg_image A hx
              exact (key q).2 ((hex q).2 hq)
            · intro hx
              obtain ⟨q, rfl, -⟩ := onSeg_image A hx.1
              exact (onSeg_map A h _ _ _).2 ((hex q).1 ((key q).1 hx)))
          obtain ⟨a, b⟩ := o
          obtain ⟨c, d⟩ := o'
          rcases this with ⟨rfl, rfl⟩ | ⟨rfl, rfl⟩
          · exact .overlap a b
          · exact .swapped a b

theorem windowIter_map (A : Affine2 K) (line : List (V2 K)) :
    windowIter2 (line.map A.map) = (windowIter2 line).map A.line := by
  unfold windowIter2
  rw [Proofs.Transfer.windows2_map, List.map_map, List.map_map]
  rfl

/-- **C94** `intersection` and `find_all_intersections` commute with every affine map that does not squash the plane: one report
for every report, in the same order. -/
theorem C94_line_string_intersections (A : Affine2 K) (h : A.det ≠ 0) (line : List (V2 K)) (other : Line2 K) :
    ImageReport A (intersection2 line other) (intersection2 (line.map A.map) (A.line other)) ∧
    List.Forall₂ (fun i j => ImageReport A (some i) (some j)) (findAll2 line other) (findAll2 (line.map A.map) (A.line other)) := by
  rw [C21_intersection_is_first, C21_intersection_is_first, C21_find_all_is_filter, C21_find_all_is_filter, windowIter_map]
  induction windowIter2 line with
  | nil => exact ⟨.none, .nil⟩
  | cons l ls ih =>
    have hl := C94_intersection_point A h l other
    simp only [List.map_cons, List.findSome?_cons, List.filterMap_cons]
    generalize l.intersectionPoint other = x at hl
    generalize (A.line l).intersectionPoint (A.line other) = y at hl
    cases hl with
    | none => exact ih
    | point p => exact ⟨.point p, .cons (.point p) ih.2⟩
    | overlap a b => exact ⟨.overlap a b, .cons (.overlap a b) ih.2⟩
    | swapped a b => exact ⟨.swapped a b, .cons (.swapped a b) ih.2⟩

end meet

section ray
variable {K : Type} [Scalar K] [Field K] [LinearOrder K] [ExactScalar K]

theorem dir_ne (A : Affine2 K) (h : A.det ≠ 0) {r : V2 K} (hr : r ≠ ⟨0, 0⟩) : A.dir r ≠ ⟨0, 0⟩ := by
  intro e
  apply hr
  simp only [Affine2.dir, V2.mk.injEq] at e
  obtain ⟨h1, h2⟩ := e
  have hx : A.det * r.x = 0 := by unfold Affine2.det; linear_combination A.d * h1 - A.b * h2
  have hy : A.det * r.y = 0 := by unfold Affine2.det; linear_combination A.a * h2 - A.c * h1
  simp only [mul_eq_zero, h, false_or] at hx hy
  cases r; simp_all

theorem multiple {v r : V2 K} (hr : r ≠ ⟨0, 0⟩) (h : v.x * r.y - v.y * r.x = 0) : ∃ k, v.x = k * r.x ∧ v.y = k * r.y := by
  by_cases hx : r.x = 0
  · have hy : r.y ≠ 0 := by intro hy; apply hr; cases r; simp_all
    have : v.x = 0 := by
      rw [hx, mul_zero, sub_zero] at h
      exact (mul_eq_zero.1 h).resolve_right hy
    exact ⟨v.y / r.y, by rw [this, hx]; ring, by field_simp⟩
  · exact ⟨v.x / r.x, by field_simp, by field_simp; linear_combination -h⟩

theorem dot_ratio {v r : V2 K} (hr : r ≠ ⟨0, 0⟩) {k : K} (hx : v.x = k * r.x) (hy : v.y = k * r.y) :
    (v.x * r.x + v.y * r.y) / (r.x * r.x + r.y * r.y) = k := by
  have := Intersect.dir_sq_pos hr
  rw [hx, hy, show k * r.x * r.x + k * r.y * r.y = k * (r.x * r.x + r.y * r.y) by ring, mul_div_assoc, div_self this.ne', mul_one]

theorem dir_sub (A : Affine2 K) (a b : V2 K) :
    A.dir ⟨b.x - a.x, b.y - a.y⟩ = ⟨(A.map b).x - (A.map a).x, (A.map b).y - (A.map a).y⟩ := by
  simp only [Affine2.dir, Affine2.map, V2.mk.injEq]
  constructor <;> ring

theorem dir_cross (A : Affine2 K) (v w : V2 K) :
    (A.dir v).x * (A.dir w).y - (A.dir v).y * (A.dir w).x = A.det * (v.x * w.y - v.y * w.x) := by
  simp only [Affine2.dir, Affine2.det]; ring

theorem dir_ratio (A : Affine2 K) (h : A.det ≠ 0) {v r : V2 K} (hr : r ≠ ⟨0, 0⟩) (hv : v.x * r.y - v.y * r.x = 0) :
    ((A.dir v).x * (A.dir r).x + (A.dir v).y * (A.dir r).y) / ((A.dir r).x * (A.dir r).x + (A.dir r).y * (A.dir r).y) =
      (v.x * r.x + v.y * r.y) / (r.x * r.x + r.y * r.y) := by
  obtain ⟨k, hx, hy⟩ := multiple hr hv
  rw [dot_ratio hr hx hy, dot_ratio (dir_ne A h hr) (k := k)]
  · simp only [Affine2.dir, hx, hy]; ring
  · simp only [Affine2.dir, hx, hy]; ring

theorem rayEdge_map (A : Affine2 K) (h : A.det ≠ 0) (o r a b : V2 K) (hr : r ≠ ⟨0, 0⟩) :
    rayEdgeIntersection (A.map o) (A.dir r) (A.map a) (A.map b) = rayEdgeIntersection o r a b := by
  have c1 : (A.dir r).x * ((A.map b).y - (A.map a).y) - (A.dir r).y * ((A.map b).x - (A.map a).x) =
      A.det * (r.x * (b.y - a.y) - r.y * (b.x - a.x)) := by
    have := dir_cross A r ⟨b.x - a.x, b.y - a.y⟩
    rwa [dir_sub] at this
  have c2 : ((A.map a).x - (A.map o).x) * (A.dir r).y - ((A.map a).y - (A.map o).y) * (A.dir r).x =
      A.det * ((a.x - o.x) * r.y - (a.y - o.y) * r.x) := by
    have := dir_cross A ⟨a.x - o.x, a.y - o.y⟩ r
    rwa [dir_sub] at this
  have c3 : ((A.map a).x - (A.map o).x) * ((A.map b).y - (A.map a).y) - ((A.map a).y - (A.map o).y) * ((A.map b).x - (A.map a).x) =
      A.det * ((a.x - o.x) * (b.y - a.y) - (a.y - o.y) * (b.x - a.x)) := by
    have := dir_cross A ⟨a.x - o.x, a.y - o.y⟩ ⟨b.x - a.x, b.y - a.y⟩
    rwa [dir_sub, dir_sub] at this
  unfold rayEdgeIntersection
  simp only [exact_simp]
  rw [c1, c2, c3]
  simp only [mul_div_mul_left _ _ h, mul_eq_zero, h, false_or]
  by_cases g1 : r.x * (b.y - a.y) - r.y * (b.x - a.x) = 0
  · rw [if_pos g1, if_pos g1]
    by_cases g2 : (a.x - o.x) * r.y - (a.y - o.y) * r.x = 0
    · rw [if_pos g2, if_pos g2]
      have r1 := dir_ratio A h (v := ⟨a.x - o.x, a.y - o.y⟩) hr g2
      have r2 := dir_ratio A h (v := ⟨b.x - a.x, b.y - a.y⟩) hr (by linear_combination -g1)
      rw [dir_sub] at r1 r2
      simp only at r1 r2
      rw [r1, r2]
    · rw [if_neg g2, if_neg g2]
  · rw [if_neg g1, if_neg g1]

/-- **C94** `closest_ray_intersection` commutes with every affine map that does not squash the plane. -/
theorem C94_closest_ray_intersection (A : Affine2 K) (h : A.det ≠ 0) (line : List (V2 K)) (r o : V2 K) (hr : r ≠ ⟨0, 0⟩) :
    closestRayIntersection (line.map A.map) (A.dir r) (A.map o) = (closestRayIntersection line r o).map A.map := by
  unfold closestRayIntersection
  rw [List.length_map]
  split_ifs with hl
  · rfl
  · rw [Proofs.Transfer.windows2_map, List.foldl_map]
    simp only [rayEdge_map A h o r _ _ hr]
    rw [Option.map_map]
    congr 1
    funext t
    simp only [Function.comp, exact_simp, Affine2.map, Affine2.dir, V2.mk.injEq]
    constructor <;> ring

end ray

section hull
variable {K : Type} [Scalar K] [Field K] [LinearOrder K] [ExactScalar K]
open Verif.Hull Verif.Proofs.Transfer

theorem turns (A : Affine2 K) (h : 0 < A.det) : Turns (fun _ => True) A.map where
  left a b c _ _ _ := by
    rw [Bool.eq_iff_iff, isPointLeft_iff, isPointLeft_iff, map_orient, mul_pos_iff_of_pos_left h]
  leftC a b c _ _ _ := by
    rw [Bool.eq_iff_iff, isPointLeftAC_iff, isPointLeftAC_iff, map_orient, mul_nonneg_iff_of_pos_left h]
  beq a b _ _ := by
    rw [Bool.eq_iff_iff, beq_iff, beq_iff, map_inj_iff A h.ne']

/-- **C94** the containment tests give the same answer, for any loop and any point (also for a loop that is not a hull), after any
affine map that keeps the orientation. -/
theorem C94_contains (A : Affine2 K) (h : 0 < A.det) (loop : List (V2 K)) (p : V2 K) :
    containsPointInclusive (loop.map A.map) (A.map p) = containsPointInclusive loop p ∧
    containsPointExclusive (loop.map A.map) (A.map p) = containsPointExclusive loop p ∧
    lineContainsInclusive (loop.map A.map) (A.map p) = lineContainsInclusive loop p ∧
    lineContainsExclusive (loop.map A.map) (A.map p) = lineContainsExclusive loop p := by
  have T := turns A h
  have h1 := containsInclusive_eq T loop (p := p) trivial (fun _ _ => trivial)
  have h2 := containsExclusive_eq T loop (p := p) trivial (fun _ _ => trivial)
  have h3 := isConnected2_eq T (l := loop) (fun _ _ => trivial)
  refine ⟨h1, h2, ?_, ?_⟩
  · unfold lineContainsInclusive; rw [h3, h1]
  · unfold lineContainsExclusive; rw [h3, h2]

/-- **C94** and so do the tests for whole hulls. -/
theorem C94_contains_convex_hull (A : Affine2 K) (h : 0 < A.det) (a b : List (V2 K)) (order : List (V2 K) → List (V2 K))
    (order' : List (V2 K) → List (V2 K)) (ho : order' (b.map A.map) = (order b).map A.map) :
    containsConvexHull (a.map A.map) (b.map A.map) = containsConvexHull a b ∧
    containsConvexHullPar order' (a.map A.map) (b.map A.map) = containsConvexHullPar order a b :=
  ⟨containsConvexHull_eq (turns A h) a b (fun _ _ => trivial) (fun _ _ => trivial),
    containsConvexHullPar_eq (turns A h) order order' a b (fun _ _ => trivial) (fun _ _ => trivial) ho⟩

/-- `a → b` is an edge of the closed loop -/
def IsEdge (hull : List (V2 K)) (a b : V2 K) : Prop := ∃ i : Nat, hull[i]? = some a ∧ hull[i + 1]? = some b

/-- every vertex of a loop starts an edge -/
theorem starts_edge {pts hull : List (V2 K)} (h : IsHullLoop pts hull) {v : V2 K} (hv : v ∈ hull) : ∃ b, IsEdge hull v b := by
  have hl := h.len
  obtain ⟨i, hi, rfl⟩ := List.mem_iff_getElem.1 hv
  by_cases e : i + 1 < hull.length
  · exact ⟨hull[i + 1], i, List.getElem?_eq_getElem _, List.getElem?_eq_getElem _⟩
  · refine ⟨hull[1], 0, ?_, List.getElem?_eq_getElem _⟩
    have hc := h.closed
    rw [List.head?_eq_getElem?, List.getLast?_eq_getElem?] at hc
    rw [hc, show hull.length - 1 = i by omega, List.getElem?_eq_getElem]

theorem corner {p v c x : V2 K} (h : 0 < orient p v c) (h1 : orient p v x = 0) (h2 : orient v c x = 0) : x = v := by
  have hx : orient p v c * (x.x - v.x) = 0 := by
    simp only [orient] at *
    linear_combination (c.x - v.x) * h1 - (v.x - p.x) * h2
  have hy : orient p v c * (x.y - v.y) = 0 := by
    simp only [orient] at *
    linear_combination (c.y - v.y) * h1 - (v.y - p.y) * h2
  simp only [mul_eq_zero, h.ne', false_or, sub_eq_zero] at hx hy
  exact v2_ext hx hy

/-- a corner is no combination of other points -/
theorem vertex_mem {pts h1 h2 : List (V2 K)} (H1 : IsHullLoop pts h1) (H2 : IsHullLoop pts h2) (hl : 3 < h1.length) {v : V2 K}
    (hv : v ∈ h1) : v ∈ h2 := by
  have := ExactScalar.toIsStrictOrderedRing (K := K)
  obtain ⟨c, i, hi, hc⟩ := starts_edge H1 hv
  obtain ⟨j, p, hj, hj', ho⟩ := H1.pred hl hi hc
  obtain ⟨x, hx, y, hy, z, hz, u, w, t, hu, hw, ht, e, e1, e2⟩ :=
    C63_points_are_combinations_of_the_vertices H2 v (H1.vertices v hv)
  have q1 := fun q (hq : q ∈ h2) => H1.left j p v hj hj' q (H2.vertices q hq)
  have q2 := fun q (hq : q ∈ h2) => H1.left i v c hi hc q (H2.vertices q hq)
  have s1 : u * orient p v x + w * orient p v y + t * orient p v z = 0 := by
    have : orient p v v = u * orient p v x + w * orient p v y + t * orient p v z := by
      simp only [orient]
      linear_combination (v.x - p.x) * e2 - (v.y - p.y) * e1 - ((v.y - p.y) * p.x - (v.x - p.x) * p.y) * e
    rw [← this]; simp only [orient]; ring
  have s2 : u * orient v c x + w * orient v c y + t * orient v c z = 0 := by
    have : orient v c v = u * orient v c x + w * orient v c y + t * orient v c z := by
      simp only [orient]
      linear_combination (c.x - v.x) * e2 - (c.y - v.y) * e1 - ((c.y - v.y) * v.x - (c.x - v.x) * v.y) * e
    rw [← this]; simp only [orient]; ring
  have pos : ∀ (q : V2 K) (k : K), 0 < k → k * orient p v q = 0 → k * orient v c q = 0 → q = v := by
    intro q k hk g1 g2
    simp only [mul_eq_zero, hk.ne', false_or] at g1 g2
    exact corner ho g1 g2
  have n1 := mul_nonneg hu (q1 x hx)
  have n2 := mul_nonneg hw (q1 y hy)
  have n3 := mul_nonneg ht (q1 z hz)
  have m1 := mul_nonneg hu (q2 x hx)
  have m2 := mul_nonneg hw (q2 y hy)
  have m3 := mul_nonneg ht (q2 z hz)
  by_cases g : 0 < u
  · rw [← pos x u g (by linarith) (by linarith)]; exact hx
  · by_cases g' : 0 < w
    · rw [← pos y w g' (by linarith) (by linarith)]; exact hy
    · rw [← pos z t (by linarith) (by linarith) (by linarith)]; exact hz

/-- two loops around the same points have the same edges -/
theorem same_edges {pts h1 h2 : List (V2 K)} (H1 : IsHullLoop pts h1) (H2 : IsHullLoop pts h2) {a b : V2 K} (h : IsEdge h1 a b) :
    IsEdge h2 a b := by
  have := ExactScalar.toIsStrictOrderedRing (K := K)
  by_cases hl : 3 < h1.length
  · have hl2 : 3 < h2.length := by
      by_contra hc
      obtain ⟨x, y, e⟩ := H2.short hc
      obtain ⟨p, hp, q, hq, r, hr, ho⟩ := H1.not_flat hl
      have hf := H2.flat x y x e
      rw [Verif.Hull.collinear_of_segment (hf p hp) (hf q hq) (hf r hr)] at ho
      exact absurd ho (lt_irrefl _)
    obtain ⟨i, ha, hb⟩ := h
    obtain ⟨c, j, ha2, hc2⟩ := starts_edge H2 (vertex_mem H1 H2 hl (List.mem_of_getElem? ha))
    exact ⟨j, ha2, by rw [Verif.Hull.hull_next_eq H1 H2 hl hl2 ha hb ha2 hc2]; exact hc2⟩
  · have hl2 : ¬ 3 < h2.length := by
      intro hc
      obtain ⟨x, y, e⟩ := H1.short hl
      obtain ⟨p, hp, q, hq, r, hr, ho⟩ := H2.not_flat hc
      have hf := H1.flat x y x e
      rw [Verif.Hull.collinear_of_segment (hf p hp) (hf q hq) (hf r hr)] at ho
      exact absurd ho (lt_irrefl _)
    obtain ⟨x, y, rfl⟩ := H1.short hl
    obtain ⟨z, w, rfl⟩ := H2.short hl2
    have f1 := H1.flat x y x rfl
    have f2 := H2.flat z w z rfl
    have conv : ∀ {a b c d q : V2 K}, OnSegment2 a b c → OnSegment2 a b d → OnSegment2 c d q → OnSegment2 a b q := by
      rintro a b c d q ⟨s, s0, s1, rfl⟩ ⟨t, t0, t1, rfl⟩ ⟨u, u0, u1, rfl⟩
      have k1 := mul_nonneg (sub_nonneg.2 u1) s0
      have k2 := mul_nonneg u0 t0
      have k3 := mul_nonneg (sub_nonneg.2 u1) (sub_nonneg.2 s1)
      have k4 := mul_nonneg u0 (sub_nonneg.2 t1)
      refine ⟨s + u * (t - s), by linarith, by linarith, ?_⟩
      simp only [lerp2, V2.mk.injEq]
      constructor <;> ring
    have m1 := H1.vertices
    have m2 := H2.vertices
    have := ends_unique (a := x) (b := y) (c := z) (d := w) (fun q =>
      ⟨conv (f2 x (m1 x (by simp))) (f2 y (m1 y (by simp))), conv (f1 z (m2 z (by simp))) (f1 w (m2 w (by simp)))⟩)
    obtain ⟨i, ha, hb⟩ := h
    have hi : i = 0 ∨ i = 1 := by
      have := (List.getElem?_eq_some_iff.1 hb).1
      simp at this; omega
    rcases this with ⟨rfl, rfl⟩ | ⟨rfl, rfl⟩
    · exact ⟨i, ha, hb⟩
    · rcases hi with rfl | rfl
      · exact ⟨1, ha, hb⟩
      · exact ⟨0, ha, hb⟩

theorem mem_tail (hull : List (V2 K)) (v : V2 K) : v ∈ hull.tail ↔ ∃ a, IsEdge hull a v := by
  rw [List.mem_iff_getElem?]
  constructor
  · rintro ⟨i, hi⟩
    rw [List.getElem?_tail] at hi
    have := (List.getElem?_eq_some_iff.1 hi).1
    exact ⟨hull[i], i, List.getElem?_eq_getElem _, hi⟩
  · rintro ⟨a, i, -, hi⟩
    exact ⟨i, by rw [List.getElem?_tail]; exact hi⟩

theorem same_length {pts h1 h2 : List (V2 K)} (H1 : IsHullLoop pts h1) (H2 : IsHullLoop pts h2) : h1.length = h2.length := by
  have hp : h1.tail.Perm h2.tail := (List.perm_ext_iff_of_nodup H1.once H2.once).2 (fun v => by
    rw [mem_tail h1, mem_tail h2]
    exact ⟨fun ⟨a, h⟩ => ⟨a, same_edges H1 H2 h⟩, fun ⟨a, h⟩ => ⟨a, same_edges H2 H1 h⟩⟩)
  have := hp.length_eq
  have := H1.len
  have := H2.len
  simp only [List.length_tail] at *
  omega

theorem hull_map (A : Affine2 K) (h : 0 < A.det) {pts hull : List (V2 K)} (H : IsHullLoop pts hull) :
    IsHullLoop (pts.map A.map) (hull.map A.map) := by
  have := ExactScalar.toIsStrictOrderedRing (K := K)
  have get : ∀ {i : Nat} {a : V2 K}, (hull.map A.map)[i]? = some a → ∃ a', hull[i]? = some a' ∧ A.map a' = a := by
    intro i a ha
    rw [List.getElem?_map, Option.map_eq_some_iff] at ha
    exact ha
  constructor
  · rw [List.length_map]; exact H.len
  · rw [List.head?_map, List.getLast?_map, H.closed]
  · intro v hv
    obtain ⟨w, hw, rfl⟩ := List.mem_map.1 hv
    exact List.mem_map_of_mem (H.vertices w hw)
  · rw [← List.map_tail]
    exact H.once.map (fun p q e => map_inj A h.ne' e)
  · intro i a b ha hb p hp
    obtain ⟨a, ka, rfl⟩ := get ha
    obtain ⟨b, kb, rfl⟩ := get hb
    obtain ⟨p, kp, rfl⟩ := List.mem_map.1 hp
    rw [map_orient]
    exact mul_nonneg h.le (H.left i a b ka kb p kp)
  · rw [List.length_map]
    intro hl i a b c ha hb hc
    obtain ⟨a, ka, rfl⟩ := get ha
    obtain ⟨b, kb, rfl⟩ := get hb
    obtain ⟨c, kc, rfl⟩ := get hc
    rw [map_orient]
    exact mul_pos h (H.turn hl i a b c ka kb kc)
  · rw [List.length_map]
    intro hl a b c ha hb hc
    obtain ⟨a, ka, rfl⟩ := get ha
    obtain ⟨b, kb, rfl⟩ := get hb
    obtain ⟨c, kc, rfl⟩ := get hc
    rw [map_orient]
    exact mul_pos h (H.turnClosing hl a b c ka kb kc)
  · intro a b c e p hp
    match hull, e with
    | [x, y, z], e =>
      simp only [List.map_cons, List.map_nil, List.cons.injEq, and_true] at e
      obtain ⟨rfl, rfl, rfl⟩ := e
      obtain ⟨p, kp, rfl⟩ := List.mem_map.1 hp
      exact (onSeg_map A h.ne' _ _ _).2 (H.flat x y z rfl p kp)

theorem orient_flip (a b c : V2 K) : orient c b a = - orient a b c := by simp only [orient]; ring
theorem orient_swap (a b c : V2 K) : orient b a c = - orient a b c := by simp only [orient]; ring

/-- a map that reverses orientations maps a hull loop to a hull loop that goes the other way -/
theorem hull_map_reverse (A : Affine2 K) (h : A.det < 0) {pts hull : List (V2 K)} (H : IsHullLoop pts hull) :
    IsHullLoop (pts.map A.map) (hull.map A.map).reverse := by
  have := ExactScalar.toIsStrictOrderedRing (K := K)
  have hlen := H.len
  have get : ∀ {i : Nat} {a : V2 K}, (hull.map A.map).reverse[i]? = some a →
      i < hull.length ∧ ∃ a', hull[hull.length - 1 - i]? = some a' ∧ A.map a' = a := by
    intro i a ha
    have hi := (List.getElem?_eq_some_iff.1 ha).1
    rw [List.length_reverse, List.length_map] at hi
    rw [List.getElem?_reverse (by rw [List.length_map]; exact hi), List.length_map, List.getElem?_map, Option.map_eq_some_iff] at ha
    exact ⟨hi, ha⟩
  constructor
  · rw [List.length_reverse, List.length_map]; exact H.len
  · rw [List.head?_reverse, List.getLast?_reverse, List.head?_map, List.getLast?_map, H.closed]
  · intro v hv
    obtain ⟨w, hw, rfl⟩ := List.mem_map.1 (List.mem_reverse.1 hv)
    exact List.mem_map_of_mem (H.vertices w hw)
  · have hd : hull.dropLast.Nodup := by
      match hull, hlen, H.closed, H.once with
      | x :: y :: l, _, hc, ho =>
        simp only [List.head?_cons, List.tail_cons] at hc ho
        have hl : (y :: l).getLast? = some x := by rw [hc]; simp [List.getLast?_cons]
        obtain ⟨l', hl'⟩ := List.getLast?_eq_some_iff.1 hl
        rw [hl'] at ho
        rw [hl', ← List.cons_append, List.dropLast_concat]
        have := List.nodup_append.1 ho
        rw [List.nodup_cons]
        exact ⟨fun hm => this.2.2 x hm x (by simp) rfl, this.1⟩
    rw [List.tail_reverse, List.nodup_reverse, ← List.map_dropLast]
    exact hd.map (fun p q e => map_inj A h.ne e)
  · intro i a b ha hb p hp
    obtain ⟨-, a, ka, rfl⟩ := get ha
    obtain ⟨hi, b, kb, rfl⟩ := get hb
    obtain ⟨p, kp, rfl⟩ := List.mem_map.1 hp
    rw [map_orient, orient_swap b a p]
    have := H.left (hull.length - 1 - (i + 1)) b a kb (by rw [← ka]; congr 1; omega) p kp
    have := mul_nonneg (neg_nonneg.2 h.le) this
    linarith
  · rw [List.length_reverse, List.length_map]
    intro hl i a b c ha hb hc
    obtain ⟨-, a, ka, rfl⟩ := get ha
    obtain ⟨-, b, kb, rfl⟩ := get hb
    obtain ⟨hi, c, kc, rfl⟩ := get hc
    rw [map_orient, orient_flip c b a]
    have := H.turn hl (hull.length - 1 - (i + 2)) c b a kc (by rw [← kb]; congr 1; omega) (by rw [← ka]; congr 1; omega)
    have := mul_pos (neg_pos.2 h) this
    linarith
  · rw [List.length_reverse, List.length_map]
    intro hl a b c ha hb hc
    obtain ⟨-, a, ka, rfl⟩ := get ha
    obtain ⟨-, b, kb, rfl⟩ := get hb
    obtain ⟨-, c, kc, rfl⟩ := get hc
    rw [map_orient, orient_flip c b a]
    have hcl := H.closed
    rw [List.head?_eq_getElem?, List.getLast?_eq_getElem?] at hcl
    have := H.turnClosing hl c b a (by rw [show hull.length - 2 = hull.length - 1 - 1 by omega]; exact kc) (hcl.trans kb) (by rw [← ka]; congr 1; omega)
    have := mul_pos (neg_pos.2 h) this
    linarith
  · intro a b c e p hp
    obtain ⟨p, kp, rfl⟩ := List.mem_map.1 hp
    have hl3 : hull.length = 3 := by
      have := congrArg List.length e
      rw [List.length_reverse, List.length_map] at this
      exact this
    match hull, hl3, e with
    | [x, y, z], _, e =>
      simp only [List.map_cons, List.map_nil, List.reverse_cons, List.reverse_nil, List.nil_append, List.cons_append,
        List.cons.injEq, and_true] at e
      obtain ⟨rfl, rfl, rfl⟩ := e
      have hc := H.closed
      simp only [List.head?_cons, List.getLast?_cons, List.getLast?_nil, Option.some.injEq] at hc
      have hx : x = z := by simpa using hc
      subst hx
      exact (onSeg_map A h.ne _ _ _).2 (H.flat x y x rfl p kp)

theorem edge_map (A : Affine2 K) (h : A.det ≠ 0) (hull : List (V2 K)) (a b : V2 K) :
    IsEdge (hull.map A.map) (A.map a) (A.map b) ↔ IsEdge hull a b := by
  unfold IsEdge
  refine exists_congr fun i => ?_
  have get : ∀ (i : Nat) (a : V2 K), (hull.map A.map)[i]? = some (A.map a) ↔ hull[i]? = some a := by
    intro i a
    rw [List.getElem?_map, Option.map_eq_some_iff]
    constructor
    · rintro ⟨q, hq, e⟩
      rw [hq, map_inj A h e]
    · exact fun e => ⟨a, e, rfl⟩
  rw [get, get]

theorem edge_reverse (hull : List (V2 K)) (a b : V2 K) : IsEdge hull.reverse a b ↔ IsEdge hull b a := by
  have imp : ∀ (hull : List (V2 K)) (a b : V2 K), IsEdge hull.reverse a b → IsEdge hull b a := by
    rintro hull a b ⟨i, ha, hb⟩
    have hi := (List.getElem?_eq_some_iff.1 hb).1
    rw [List.length_reverse] at hi
    rw [List.getElem?_reverse (by omega)] at ha hb
    exact ⟨hull.length - 1 - (i + 1), hb, by rw [← ha]; congr 1; omega⟩
  refine ⟨imp _ _ _, fun h => ?_⟩
  rw [← List.reverse_reverse hull] at h
  exact imp _ _ _ h

/-- **C94** the hull of the images is the image of the hull: the same number of vertices and the images of the edges, traversed in
the same direction if the map keeps the orientation and in the other one if it reverses it.  (The two loops may start at
different vertices.)  `hull` and `hull'` are what any of the hull functions returns for the points and for their images. -/
theorem C94_hull_edges (A : Affine2 K) {pts hull hull' : List (V2 K)} (H : IsHullLoop pts hull)
    (H' : IsHullLoop (pts.map A.map) hull') :
    (0 < A.det → hull'.length = hull.length ∧ ∀ a b, IsEdge hull' (A.map a) (A.map b) ↔ IsEdge hull a b) ∧
    (A.det < 0 → hull'.length = hull.length ∧ ∀ a b, IsEdge hull' (A.map a) (A.map b) ↔ IsEdge hull b a) := by
  constructor
  · intro h
    have G := hull_map A h H
    refine ⟨?_, fun a b => ?_⟩
    · rw [same_length H' G, List.length_map]
    · rw [← edge_map A h.ne' hull]
      exact ⟨same_edges H' G, same_edges G H'⟩
  · intro h
    have G := hull_map_reverse A h H
    refine ⟨?_, fun a b => ?_⟩
    · rw [same_length H' G, List.length_reverse, List.length_map]
    · rw [← edge_map A h.ne hull, ← edge_reverse (hull.map A.map)]
      exact ⟨same_edges H' G, same_edges G H'⟩

theorem lift_closed (A : Affine2 K) (h : A.det ≠ 0) {input : List (V2 K)} (h5 : input.head? = input.getLast? → 5 ≤ input.length) :
    (input.map A.map).head? = (input.map A.map).getLast? → 5 ≤ (input.map A.map).length := by
  rw [List.head?_map, List.getLast?_map, List.length_map]
  intro e
  exact h5 (Option.map_injective (fun p q e => map_inj A h e) e)

/-- **C94** the same for the calls of `convex_hull` (every result of the unstable sorts). -/
theorem C94_convex_hull [ExactAtan2 K] (A : Affine2 K) (h : A.det ≠ 0) (srt srt' : List (V2 K × K × K) → List (V2 K × K × K))
    (hsrt : Sorts angleCmp srt) (hsrt' : Sorts angleCmp srt') (input : List (V2 K)) (h4 : 4 ≤ input.length)
    (h5 : input.head? = input.getLast? → 5 ≤ input.length) (hne : ∃ a ∈ input, ∃ b ∈ input, a ≠ b) :
    ∃ hull hull', lineConvexHull srt input = .ok hull ∧ lineConvexHull srt' (input.map A.map) = .ok hull' ∧
      hull'.length = hull.length ∧
      ∀ a b, IsEdge hull' (A.map a) (A.map b) ↔ if 0 < A.det then IsEdge hull a b else IsEdge hull b a := by
  obtain ⟨hull, -, e, H, -⟩ := C36_graham_scan_is_hull srt hsrt input h4 h5 hne
  obtain ⟨hull', -, e', H', -⟩ := C36_graham_scan_is_hull srt' hsrt' (input.map A.map) (by rw [List.length_map]; exact h4)
    (lift_closed A h h5) (by
      obtain ⟨a, ha, b, hb, hab⟩ := hne
      exact ⟨_, List.mem_map_of_mem ha, _, List.mem_map_of_mem hb, fun e => hab (map_inj A h e)⟩)
  refine ⟨hull, hull', e, e', ?_⟩
  obtain ⟨g1, g2⟩ := C94_hull_edges A H H'
  by_cases hd : 0 < A.det
  · simp only [hd, if_true]; exact g1 hd
  · simp only [hd, if_false]; exact g2 (lt_of_le_of_ne (not_lt.1 hd) h)

/-- **C94** after a translation and positive uniform scaling even the start is the same: the result is the image, vertex by vertex. -/
theorem C94_moved_and_scaled [ExactAtan2 K] {s : K} (hs : 0 < s) (e g : K) (srt srt' : List (V2 K × K × K) → List (V2 K × K × K))
    (hsrt : Sorts angleCmp srt) (hsrt' : Sorts angleCmp srt') (input : List (V2 K)) (h4 : 4 ≤ input.length)
    (h5 : input.head? = input.getLast? → 5 ≤ input.length) (hne : ∃ a ∈ input, ∃ b ∈ input, a ≠ b) :
    ∃ hull, lineConvexHull srt input = .ok hull ∧
      lineConvexHull srt' (input.map (moveScale s e g).map) = .ok (hull.map (moveScale s e g).map) := by
  have := ExactScalar.toIsStrictOrderedRing (K := K)
  have hd : 0 < (moveScale s e g).det := by
    simp only [moveScale, Affine2.det]
    have := mul_pos hs hs
    linarith
  obtain ⟨hull, -, c, H, S⟩ := C36_graham_scan_is_hull srt hsrt input h4 h5 hne
  obtain ⟨hull', -, c', H', S'⟩ := C36_graham_scan_is_hull srt' hsrt' (input.map (moveScale s e g).map)
    (by rw [List.length_map]; exact h4) (lift_closed _ hd.ne' h5) (by
      obtain ⟨a, ha, b, hb, hab⟩ := hne
      exact ⟨_, List.mem_map_of_mem ha, _, List.mem_map_of_mem hb, fun e => hab (map_inj _ hd.ne' e)⟩)
  refine ⟨hull, c, ?_⟩
  rw [c', C62_hull_is_unique (fun _ => Iff.rfl) H' S' (hull_map _ hd H) ?_]
  obtain ⟨v, hv, hl⟩ := S
  refine ⟨(moveScale s e g).map v, by rw [List.head?_map, hv]; rfl, ?_⟩
  intro p hp
  obtain ⟨p, kp, rfl⟩ := List.mem_map.1 hp
  simp only [moveScale, Affine2.map, zero_mul, add_zero, zero_add]
  rcases hl p kp with h | ⟨h, h'⟩
  · exact Or.inl (by have := mul_lt_mul_of_pos_left h hs; linarith)
  · exact Or.inr ⟨by rw [h], by have := mul_le_mul_of_nonneg_left h' hs.le; linarith⟩

theorem agree_moved {s : K} (hs : 0 < s) (e g : K) : Agree (fun _ => True) (moveScale s e g).map := by
  have := ExactScalar.toIsStrictOrderedRing (K := K)
  have hd : 0 < (moveScale s e g).det := by
    simp only [moveScale, Affine2.det]
    have := mul_pos hs hs
    linarith
  have T := turns _ hd
  have ho : ∀ a b c, 0 < orient ((moveScale s e g).map a) ((moveScale s e g).map b) ((moveScale s e g).map c) ↔ 0 < orient a b c := by
    intro a b c; rw [map_orient, mul_pos_iff_of_pos_left hd]
  have hz : ∀ a b c, orient ((moveScale s e g).map a) ((moveScale s e g).map b) ((moveScale s e g).map c) = 0 ↔ orient a b c = 0 := by
    intro a b c; rw [map_orient, mul_eq_zero, or_iff_right hd.ne']
  have hn : ∀ a b c, orient ((moveScale s e g).map a) ((moveScale s e g).map b) ((moveScale s e g).map c) < 0 ↔ orient a b c < 0 := by
    intro a b c; rw [← not_le, ← not_le, map_orient, mul_nonneg_iff_of_pos_left hd]
  have hle : ∀ x y t : K, s * x + t ≤ s * y + t ↔ x ≤ y := by
    intro x y t
    rw [add_le_add_iff_right, mul_le_mul_iff_right₀ hs]
  have hlt : ∀ x y t : K, s * x + t < s * y + t ↔ x < y := by
    intro x y t
    rw [add_lt_add_iff_right, mul_lt_mul_iff_right₀ hs]
  refine ⟨T, ?_, ?_, ?_, ?_, ?_⟩
  · intro a b c _ _ _
    rw [pointOrientation_eq, pointOrientation_eq]
    simp only [ho, hz]
  · intro a b c _ _ _
    rw [cross2d_eq, cross2d_eq]
    simp only [exact_simp, hz, hn]
  · intro a b c _ _ _
    have h2 : ∀ p q, ((moveScale s e g).map p).distSq ((moveScale s e g).map q) = s * s * p.distSq q := by
      intro p q
      simp only [moveScale, Affine2.map, exact_simp]; ring
    rw [h2, h2]
    simp only [exact_simp]
    rw [decide_eq_decide]
    exact mul_lt_mul_iff_right₀ (mul_pos hs hs)
  · intro a b _ _
    unfold Scalar.pcmp
    simp only [exact_simp, moveScale, Affine2.map, zero_mul, add_zero, hle]
  · intro a b _ _
    simp only [exact_simp, moveScale, Affine2.map, zero_mul, zero_add, hlt]

/-- **C94** `gift_wrap` and `indexed_gift_wrap` commute with translations and positive uniform scalings on every input, also with
repeated points. -/
theorem C94_gift_wrap {s : K} (hs : 0 < s) (e g : K) (fuel : Nat) (input : List (V2 K)) (indices : List Nat) :
    giftWrap fuel (input.map (moveScale s e g).map) = (giftWrap fuel input).map (List.map (moveScale s e g).map) ∧
    indexedGiftWrap fuel (input.map (moveScale s e g).map) indices = indexedGiftWrap fuel input indices :=
  ⟨giftWrap_eq (agree_moved hs e g) fuel input (fun _ _ => trivial),
    indexedGiftWrap_eq (agree_moved hs e g) fuel input (fun _ _ => trivial) indices⟩

end hull

section sweep
variable {K : Type} [Scalar K] [Field K] [LinearOrder K] [ExactScalar K] [ExactSqrt K]

theorem common_map (A : Affine2 K) (h : A.det ≠ 0) (L : List (Line2 K)) (i j : Nat) (p : V2 K) :
    Common (L.map A.line) i j (A.map p) ↔ Common L i j p := by
  have := ExactScalar.toIsStrictOrderedRing (K := K)
  unfold Common IsOn
  constructor
  · rintro ⟨l, m, hl, hm, h1, h2⟩
    rw [List.getElem?_map, Option.map_eq_some_iff] at hl hm
    obtain ⟨l, kl, rfl⟩ := hl
    obtain ⟨m, km, rfl⟩ := hm
    exact ⟨l, m, kl, km, (onSeg_map A h _ _ _).1 h1, (onSeg_map A h _ _ _).1 h2⟩
  · rintro ⟨l, m, hl, hm, h1, h2⟩
    exact ⟨A.line l, A.line m, by rw [List.getElem?_map, hl]; rfl, by rw [List.getElem?_map, hm]; rfl,
      (onSeg_map A h _ _ _).2 h1, (onSeg_map A h _ _ _).2 h2⟩

/-- **C94** the sweep reports the image of every point it reports, with the same lines, when lines and images are in general
position (which depends on the direction of the sweep line and so is asked of both). -/
theorem C94_sweep [TreeShape K] (A : Affine2 K) (h : A.det ≠ 0) (order : Nat → List Nat → List Nat)
    (hord : ∀ n l, (order n l).Perm l) (input : List (Line2 K)) (gp : SweepPosition input)
    (gp' : SweepPosition (input.map A.line)) (fuel : Nat) (hf : 2 * input.length + input.length * input.length < fuel) :
    ∃ r r', sweepIntersections order fuel false false input = .ok r ∧
      sweepIntersections order fuel false false (input.map A.line) = .ok r' ∧
      ∀ i j p, i ≠ j → ((∃ x ∈ r', x.1 = A.map p ∧ i ∈ x.2 ∧ j ∈ x.2) ↔ ∃ x ∈ r, x.1 = p ∧ i ∈ x.2 ∧ j ∈ x.2) := by
  obtain ⟨r, e, hr⟩ := C59_reports_exactly_the_common_points order hord input gp fuel hf
  obtain ⟨r', e', hr'⟩ := C59_reports_exactly_the_common_points order hord (input.map A.line) gp' fuel (by
    rw [List.length_map]; exact hf)
  refine ⟨r, r', e, e', fun i j p hij => ?_⟩
  rw [← hr i j p hij, ← hr' i j _ hij, common_map A h]

/-- general position only depends on the direction of the horizontal lines -/
theorem general_map (A : Affine2 K) (h : A.det ≠ 0) (hc : A.c = 0) {L : List (Line2 K)} (gp : GeneralPosition L) :
    GeneralPosition (L.map A.line) := by
  have := ExactScalar.toIsStrictOrderedRing (K := K)
  have hd : A.d ≠ 0 := by
    intro hd; apply h; unfold Affine2.det; rw [hd, hc]; ring
  have hy : ∀ p q : V2 K, (A.map p).y = (A.map q).y ↔ p.y = q.y := by
    intro p q
    simp only [Affine2.map, hc, zero_mul, zero_add, add_left_inj, mul_eq_mul_left_iff, hd, or_false]
  have get : ∀ {i : Nat} {l : Line2 K}, (L.map A.line)[i]? = some l → ∃ l', L[i]? = some l' ∧ A.line l' = l := by
    intro i l hl
    rwa [List.getElem?_map, Option.map_eq_some_iff] at hl
  have img : ∀ {i j : Nat} {p : V2 K}, Common (L.map A.line) i j p → ∃ q, p = A.map q ∧ Common L i j q := by
    intro i j p hp
    obtain ⟨l, m, hl, hm, h1, h2⟩ := id hp
    obtain ⟨l, -, rfl⟩ := get hl
    obtain ⟨q, rfl, -⟩ := onSeg_image A h1
    exact ⟨q, rfl, (common_map A h L i j q).1 hp⟩
  have endI : ∀ {l : Line2 K} {p : V2 K}, IsEnd (A.line l) p → ∃ q, p = A.map q ∧ IsEnd l q := by
    rintro l p (rfl | rfl)
    · exact ⟨l.start, rfl, Or.inl rfl⟩
    · exact ⟨l.end, rfl, Or.inr rfl⟩
  have endM : ∀ {l : Line2 K} {p : V2 K}, IsEnd l p → IsEnd (A.line l) (A.map p) := by
    rintro l p (rfl | rfl)
    · exact Or.inl rfl
    · exact Or.inr rfl
  refine ⟨?_, ?_, ?_, ?_⟩
  · intro l hl
    obtain ⟨l, kl, rfl⟩ := List.mem_map.1 hl
    exact fun e => gp.slanted l kl ((hy _ _).1 e)
  · intro i j p q hij h1 h2
    obtain ⟨p, rfl, k1⟩ := img h1
    obtain ⟨q, rfl, k2⟩ := img h2
    rw [gp.once i j p q hij k1 k2]
  · intro i j l m p hij hl hm hp he
    obtain ⟨l, kl, rfl⟩ := get hl
    obtain ⟨m, km, rfl⟩ := get hm
    obtain ⟨q, rfl, kq⟩ := endI he
    exact endM (gp.noT i j l m q hij kl km ((onSeg_map A h _ _ _).1 hp) kq)
  · intro i j p q hij h1 h2 e
    obtain ⟨p, rfl, k1⟩ := img h1
    have : ∃ q', q = A.map q' ∧ Special L q' := by
      rcases h2 with ⟨l, hl, he⟩ | ⟨a, b, hab, hc⟩
      · obtain ⟨l, kl, rfl⟩ := List.mem_map.1 hl
        obtain ⟨q, rfl, kq⟩ := endI he
        exact ⟨q, rfl, Or.inl ⟨l, kl, kq⟩⟩
      · obtain ⟨q, rfl, kq⟩ := img hc
        exact ⟨q, rfl, Or.inr ⟨a, b, hab, kq⟩⟩
    obtain ⟨q, rfl, k2⟩ := this
    rw [gp.heights i j p q hij k1 k2 ((hy _ _).1 e)]

/-- **C94** for maps that keep horizontal lines horizontal (translations, scalings of the axes, also negative ones, shears) general
position of the input is enough. -/
theorem C94_sweep_horizontal [TreeShape K] (A : Affine2 K) (h : A.det ≠ 0) (hc : A.c = 0) (order : Nat → List Nat → List Nat)
    (hord : ∀ n l, (order n l).Perm l) (input : List (Line2 K)) (gp : GeneralPosition input) (fuel : Nat)
    (hf : 2 * input.length + input.length * input.length < fuel) :
    ∃ r r', sweepIntersections order fuel false false input = .ok r ∧
      sweepIntersections order fuel false false (input.map A.line) = .ok r' ∧
      ∀ i j p, i ≠ j → ((∃ x ∈ r', x.1 = A.map p ∧ i ∈ x.2 ∧ j ∈ x.2) ↔ ∃ x ∈ r, x.1 = p ∧ i ∈ x.2 ∧ j ∈ x.2) :=
  C94_sweep A h order hord input gp.sweep (general_map A h hc gp).sweep fuel hf

end sweep

/-! ### the hypotheses can be met; findings -/

/-- a rotation with a translation, a mirror image, a shear -/
def rotation {K : Type} [Field K] : Affine2 K := ⟨0, -1, 1, 0, 7, 3⟩
def mirror {K : Type} [Field K] : Affine2 K := ⟨-1, 0, 0, 1, 0, 0⟩
def shear {K : Type} [Field K] : Affine2 K := ⟨1, 2, 0, 3, 0, 5⟩

example : (rotation (K := ℝ)).det = 1 ∧ (mirror (K := ℝ)).det = -1 ∧ (shear (K := ℝ)).det = 3 ∧ (shear (K := ℝ)).c = 0 := by
  simp only [rotation, mirror, shear, Affine2.det]; norm_num

/-- the hypotheses of the theorem about the sweep are met by three lines with a crossing and a common end point -/
example [TreeShape ℝ] : ∃ r r', sweepIntersections keepOrder 20 false false gpExample = .ok r ∧
    sweepIntersections keepOrder 20 false false (gpExample.map (shear (K := ℝ)).line) = .ok r' ∧
    ∀ i j p, i ≠ j → ((∃ x ∈ r', x.1 = (shear (K := ℝ)).map p ∧ i ∈ x.2 ∧ j ∈ x.2) ↔ ∃ x ∈ r, x.1 = p ∧ i ∈ x.2 ∧ j ∈ x.2) :=
  C94_sweep_horizontal shear (by simp only [shear, Affine2.det]; norm_num) rfl keepOrder (fun _ l => List.Perm.refl l) gpExample
    gpExample_general 20 (by simp [gpExample])

/-- the images of a crossing and of an overlap, as computed: the overlap of the mirror image starts at the other end -/
example : (Line2.mk (⟨0, 0⟩ : V2 ℚ) ⟨4, 4⟩).intersectionPoint ⟨⟨0, 2⟩, ⟨4, 0⟩⟩ = some (.point ⟨4 / 3, 4 / 3⟩) ∧
    (rotation.line (Line2.mk (⟨0, 0⟩ : V2 ℚ) ⟨4, 4⟩)).intersectionPoint (rotation.line ⟨⟨0, 2⟩, ⟨4, 0⟩⟩) =
      some (.point (rotation.map ⟨4 / 3, 4 / 3⟩)) ∧
    (Line2.mk (⟨0, 0⟩ : V2 ℚ) ⟨5, 0⟩).intersectionPoint ⟨⟨1, 0⟩, ⟨3, 0⟩⟩ = some (.overlap ⟨⟨1, 0⟩, ⟨3, 0⟩⟩) ∧
    (mirror.line (Line2.mk (⟨0, 0⟩ : V2 ℚ) ⟨5, 0⟩)).intersectionPoint (mirror.line ⟨⟨1, 0⟩, ⟨3, 0⟩⟩) =
      some (.overlap ⟨mirror.map ⟨3, 0⟩, mirror.map ⟨1, 0⟩⟩) := by
  refine ⟨?_, ?_, ?_, ?_⟩ <;> decide +kernel

/-- containment and hulls of a square with a point inside, over ℚ -/
example : containsPointInclusive ([⟨0, 0⟩, ⟨4, 0⟩, ⟨4, 4⟩, ⟨0, 4⟩, ⟨0, 0⟩] : List (V2 ℚ)) ⟨4, 1⟩ = .ok true ∧
    containsPointInclusive (([⟨0, 0⟩, ⟨4, 0⟩, ⟨4, 4⟩, ⟨0, 4⟩, ⟨0, 0⟩] : List (V2 ℚ)).map shear.map) (shear.map ⟨4, 1⟩) = .ok true ∧
    giftWrap 100 ([⟨0, 0⟩, ⟨4, 0⟩, ⟨4, 4⟩, ⟨0, 4⟩, ⟨1, 2⟩] : List (V2 ℚ)) = .ok [⟨0, 0⟩, ⟨4, 0⟩, ⟨4, 4⟩, ⟨0, 4⟩, ⟨0, 0⟩] ∧
    giftWrap 100 (([⟨0, 0⟩, ⟨4, 0⟩, ⟨4, 4⟩, ⟨0, 4⟩, ⟨1, 2⟩] : List (V2 ℚ)).map rotation.map) =
      .ok (([⟨0, 4⟩, ⟨0, 0⟩, ⟨4, 0⟩, ⟨4, 4⟩, ⟨0, 4⟩] : List (V2 ℚ)).map rotation.map) := by decide +kernel

/-- **C94** finding: `is_self_intersecting` does depend on the coordinate system.  A straight line is reported, but not after moving
it up by one; a line that ends by running along its own beginning is not reported, but its mirror image is. -/
theorem C94_self_intersection_depends_on_coordinates :
    isSelfIntersectingShort ([⟨0, 0⟩, ⟨1, 1⟩, ⟨2, 2⟩] : List (V2 ℚ)) = some true ∧
    isSelfIntersectingShort (([⟨0, 0⟩, ⟨1, 1⟩, ⟨2, 2⟩] : List (V2 ℚ)).map (moveScale 1 0 1).map) = some false ∧
    isSelfIntersectingShort ([⟨0, 0⟩, ⟨5, 0⟩, ⟨6, 7⟩, ⟨-2, 3⟩, ⟨0, 0⟩, ⟨3, 0⟩] : List (V2 ℚ)) = some false ∧
    isSelfIntersectingShort (([⟨0, 0⟩, ⟨5, 0⟩, ⟨6, 7⟩, ⟨-2, 3⟩, ⟨0, 0⟩, ⟨3, 0⟩] : List (V2 ℚ)).map mirror.map) = some true := by
  decide +kernel

end Verif.Props.AffineInv
