import Verif.Props.ClosedStart
import Verif.Props.Length
import Verif.Props.HullMore
/-!
# C109: queries depend on the curve only

`SameCurve l m`: the line strings `l` and `m` draw the same set of points.
-/
set_option linter.unusedSectionVars false
namespace Verif.Props.Curve
open Verif Verif.Proofs.Intersect Verif.Model Verif.Spec Verif.Props.Intersect Verif.Props.Parts Verif.Props.Discretize Verif.Props.SimplifyCurve Scalar

/-- the two line strings have segments and draw the same set of points -/
def SameCurve {K : Type} [Field K] [LinearOrder K] (l m : List (V2 K)) : Prop :=
  2 ≤ l.length ∧ 2 ≤ m.length ∧ ∀ q, OnPolyline l q ↔ OnPolyline m q

/-- no segment of the line string, other than one of length zero, is a part of the line of the ray -/
def NoneAlong {K : Type} [Field K] (l : List (V2 K)) (r o : V2 K) : Prop :=
  ∀ (i : Nat) (a b : V2 K), getElem? l i = some a → getElem? l (i + 1) = some b →
    (∃ t, a = rayPoint o r t) → (∃ t, b = rayPoint o r t) → a = b

section exact
variable {K : Type} [Scalar K] [Field K] [LinearOrder K] [ExactScalar K]

theorem lz (a b : V2 K) : lerp2 a b 0 = a := by simp [lerp2]
theorem lo2 (a b : V2 K) : lerp2 a b 1 = b := by simp [lerp2]

theorem sameCurve_symm {l m : List (V2 K)} (h : SameCurve l m) : SameCurve m l := ⟨h.2.1, h.1, fun q => (h.2.2 q).symm⟩

theorem vertex_on (l : List (V2 K)) (h2 : 2 ≤ l.length) (p : V2 K) (hp : p ∈ l) : OnPolyline l p := by
  have := ExactScalar.toIsStrictOrderedRing (K := K)
  obtain ⟨i, hi⟩ := List.mem_iff_getElem?.1 hp
  have hil : i < l.length := (List.getElem?_eq_some_iff.1 hi).1
  by_cases hl : i + 1 < l.length
  · refine ⟨i, p, l[i + 1]'hl, hi, List.getElem?_eq_getElem hl, 0, le_refl _, zero_le_one, ?_⟩
    exact (lz _ _).symm
  · obtain ⟨j, rfl⟩ : ∃ j, i = j + 1 := ⟨i - 1, by omega⟩
    refine ⟨j, l[j]'(by omega), p, List.getElem?_eq_getElem (by omega), hi, 1, zero_le_one, le_refl _, ?_⟩
    exact (lo2 _ _).symm

/-- **C109** `intersection` finds one on the one line string iff it finds one on the other, and `find_all_intersections` returns the
same set of points. -/
theorem C109_intersections [ExactSqrt K] (l m : List (V2 K)) (h : SameCurve l m) (other : Line2 K) :
    (intersection2 l other).isSome = (intersection2 m other).isSome ∧
    ∀ q, (∃ i ∈ findAll2 l other, Denotes (some i) q) ↔ ∃ i ∈ findAll2 m other, Denotes (some i) q := by
  constructor
  · have e : intersection2 l other = none ↔ intersection2 m other = none := by
      rw [C21_intersection_none_iff, C21_intersection_none_iff]
      simp only [h.2.2]
    cases e1 : intersection2 l other <;> cases e2 : intersection2 m other <;> simp_all
  · intro q
    rw [C21_find_all_denotes, C21_find_all_denotes, h.2.2]

/-- **C109** `find_two_intersections` finds as many points, and the same if it finds only one. -/
theorem C109_find_two [ExactSqrt K] (l m : List (V2 K)) (h : SameCurve l m) (other : Line2 K) :
    (findTwo2 l other).1.isSome = (findTwo2 m other).1.isSome ∧ (findTwo2 l other).2.isSome = (findTwo2 m other).2.isSome ∧
    ((findTwo2 l other).2 = none → findTwo2 l other = findTwo2 m other) := by
  have h1 := C21_find_two l other
  have h2 := C21_find_two m other
  simp only [← h.2.2] at h2
  revert h1 h2
  obtain ⟨x, y⟩ := findTwo2 l other
  obtain ⟨u, v⟩ := findTwo2 m other
  cases x <;> cases y <;> cases u <;> cases v <;> intro h1 h2 <;> simp only at h1 h2 <;> try exact h1.elim
  · exact ⟨rfl, rfl, fun _ => rfl⟩
  · exact absurd ((h2 _).2 rfl) (h1 _)
  · exact absurd h2.1 (h1 _)
  · exact absurd ((h1 _).2 rfl) (h2 _)
  · have := (h2 _).1 ((h1 _).2 rfl)
    rw [this]
    exact ⟨rfl, rfl, fun _ => rfl⟩
  · exact absurd (((h1 _).1 h2.1).trans ((h1 _).1 h2.2.1).symm) h2.2.2
  · exact absurd h1.1 (h2 _)
  · exact absurd (((h2 _).1 h1.1).trans ((h2 _).1 h1.2.1).symm) h1.2.2
  · exact ⟨rfl, rfl, fun e => by cases e⟩

theorem visible_iff {l : List (V2 K)} {r o : V2 K} (hr : r ≠ ⟨0, 0⟩) (hn : NoneAlong l r o) {t : K} (ht : 0 < t) :
    (∃ (i : Nat) (a b : V2 K), getElem? l i = some a ∧ getElem? l (i + 1) = some b ∧ VisibleHit o r a b t) ↔
      OnPolyline l (rayPoint o r t) := by
  have := ExactScalar.toIsStrictOrderedRing (K := K)
  constructor
  · rintro ⟨i, a, b, ha, hb, hh, -⟩
    exact ⟨i, a, b, ha, hb, hh⟩
  · rintro ⟨i, a, b, ha, hb, hh⟩
    refine ⟨i, a, b, ha, hb, hh, ?_⟩
    intro hpar t' ht'
    have hrr := dir_sq_pos hr
    obtain ⟨s, s0, s1, hs⟩ := hh
    obtain ⟨k, hk⟩ : ∃ k, k = ((b.x - a.x) * r.x + (b.y - a.y) * r.y) / (r.x * r.x + r.y * r.y) := ⟨_, rfl⟩
    have hx : b.x - a.x = k * r.x := by
      rw [hk, div_mul_eq_mul_div, eq_div_iff hrr.ne']; linear_combination r.y * hpar
    have hy : b.y - a.y = k * r.y := by
      rw [hk, div_mul_eq_mul_div, eq_div_iff hrr.ne']; linear_combination -r.x * hpar
    have e1 := congrArg V2.x hs
    have e2 := congrArg V2.y hs
    simp only [rayPoint, lerp2] at e1 e2
    have ha' : ∃ t, a = rayPoint o r t := by
      refine ⟨t - s * k, ?_⟩
      apply v2_ext <;> simp only [rayPoint]
      · linear_combination -e1 - s * hx
      · linear_combination -e2 - s * hy
    have hb' : ∃ t, b = rayPoint o r t := by
      refine ⟨t - s * k + k, ?_⟩
      apply v2_ext <;> simp only [rayPoint]
      · linear_combination -e1 - s * hx + hx
      · linear_combination -e2 - s * hy + hy
    obtain rfl := hn i a b ha hb ha' hb'
    obtain ⟨s', -, -, hs'⟩ := ht'
    have e3 := congrArg V2.x hs'
    have e4 := congrArg V2.y hs'
    simp only [rayPoint, lerp2] at e3 e4
    have hx' : (t' - t) * r.x = 0 := by linear_combination e3 - e1
    have hy' : (t' - t) * r.y = 0 := by linear_combination e4 - e2
    have : (t' - t) * (r.x * r.x + r.y * r.y) = 0 := by linear_combination r.x * hx' + r.y * hy'
    rcases mul_eq_zero.1 this with h | h
    · linarith
    · exact absurd h hrr.ne'

/-- **C109** `closest_ray_intersection` returns the same for both line strings, unless one of them has a segment along the ray. -/
theorem C109_closest_ray (l m : List (V2 K)) (h : SameCurve l m) (r o : V2 K) (hr : r ≠ ⟨0, 0⟩)
    (hl : NoneAlong l r o) (hm : NoneAlong m r o) :
    closestRayIntersection l r o = closestRayIntersection m r o := by
  have spec : ∀ l, NoneAlong l r o → ∀ p, closestRayIntersection l r o = some p ↔
      ∃ t, 0 < t ∧ p = rayPoint o r t ∧ OnPolyline l p ∧ ∀ t', 0 < t' → OnPolyline l (rayPoint o r t') → t ≤ t' := by
    intro l hl p
    rw [C22_nearest_visible_hit l r o p hr]
    constructor
    · rintro ⟨t, t0, rfl, hh, hmin⟩
      refine ⟨t, t0, rfl, (visible_iff hr hl t0).1 hh, ?_⟩
      intro t' h0 hp
      obtain ⟨i, a, b, ha, hb, hv⟩ := (visible_iff hr hl h0).2 hp
      exact hmin i a b t' ha hb h0 hv
    · rintro ⟨t, t0, rfl, hh, hmin⟩
      refine ⟨t, t0, rfl, (visible_iff hr hl t0).2 hh, ?_⟩
      intro i a b t' ha hb h0 hv
      exact hmin t' h0 ((visible_iff hr hl h0).1 ⟨i, a, b, ha, hb, hv⟩)
  have k : ∀ p, closestRayIntersection l r o = some p ↔ closestRayIntersection m r o = some p := by
    intro p
    rw [spec l hl, spec m hm]
    simp only [h.2.2]
  cases e : closestRayIntersection l r o with
  | some p => exact ((k p).1 e).symm
  | none =>
    cases e' : closestRayIntersection m r o with
    | none => rfl
    | some p => rw [(k p).2 e'] at e; cases e

theorem box_fill (l m : List (V2 K)) (hne : l ≠ []) (hs : ∀ p ∈ l, p ∈ m)
    (hb : ∀ p ∈ m, ∃ a ∈ l, ∃ b ∈ l, ∃ t : K, 0 ≤ t ∧ t ≤ 1 ∧ p = lerp2 a b t) : Aabb2.withPoints m = Aabb2.withPoints l := by
  have := ExactScalar.toIsStrictOrderedRing (K := K)
  have hB := Props.Aabb.C30_box2_is_bounding_box (.withPoints l : Hist2 K)
  have hO := Props.Aabb.C30_box2_is_bounding_box (.withPoints m : Hist2 K)
  simp only [Hist2.run, Hist2.fed] at hB hO
  have hne2 : m ≠ [] := by
    rintro rfl
    obtain ⟨p, hp⟩ := List.exists_mem_of_ne_nil l hne
    cases hs p hp
  revert hB hO
  obtain ⟨b, eb⟩ : ∃ b, b = Aabb2.withPoints l := ⟨_, rfl⟩
  obtain ⟨c, ec⟩ : ∃ c, c = Aabb2.withPoints m := ⟨_, rfl⟩
  rw [← eb, ← ec]
  obtain ⟨_ | ⟨⟨l1, l2⟩, ⟨u1, u2⟩⟩⟩ := b <;> obtain ⟨_ | ⟨⟨m1, m2⟩, ⟨v1, v2⟩⟩⟩ := c <;> intro hB hO
  · exact absurd hB hne
  · exact absurd hB hne
  · exact absurd hO hne2
  · have f1 := Length.range_fill hB.1 (ys := m.map (·.x)) (fun x hx => by
        obtain ⟨p, hp, rfl⟩ := List.mem_map.1 hx; exact List.mem_map_of_mem (hs p hp)) (fun y hy => by
        obtain ⟨p, hp, rfl⟩ := List.mem_map.1 hy
        obtain ⟨a, ha, b, hb, t, t0, t1, rfl⟩ := hb p hp
        exact ⟨_, List.mem_map_of_mem ha, _, List.mem_map_of_mem hb, t, t0, t1, rfl⟩)
    have f2 := Length.range_fill hB.2 (ys := m.map (·.y)) (fun x hx => by
        obtain ⟨p, hp, rfl⟩ := List.mem_map.1 hx; exact List.mem_map_of_mem (hs p hp)) (fun y hy => by
        obtain ⟨p, hp, rfl⟩ := List.mem_map.1 hy
        obtain ⟨a, ha, b, hb, t, t0, t1, rfl⟩ := hb p hp
        exact ⟨_, List.mem_map_of_mem ha, _, List.mem_map_of_mem hb, t, t0, t1, rfl⟩)
    obtain ⟨a1, a2⟩ := Proofs.Aabb.range_unique hO.1 f1 (fun _ => Iff.rfl)
    obtain ⟨b1, b2⟩ := Proofs.Aabb.range_unique hO.2 f2 (fun _ => Iff.rfl)
    simp only at a1 a2 b1 b2
    rw [a1, a2, b1, b2]

theorem between {l m : List (V2 K)} (h : SameCurve l m) (p : V2 K) (hp : p ∈ l ++ m) :
    ∃ a ∈ l, ∃ b ∈ l, ∃ t : K, 0 ≤ t ∧ t ≤ 1 ∧ p = lerp2 a b t := by
  have hon : OnPolyline l p := by
    rcases List.mem_append.1 hp with hp | hp
    · exact vertex_on l h.1 p hp
    · exact (h.2.2 p).2 (vertex_on m h.2.1 p hp)
  obtain ⟨i, a, b, ha, hb, t, t0, t1, e⟩ := hon
  exact ⟨a, List.mem_of_getElem? ha, b, List.mem_of_getElem? hb, t, t0, t1, e⟩

theorem ne_nil {l : List (V2 K)} (h : 2 ≤ l.length) : l ≠ [] := by rintro rfl; simp at h

/-- **C109** both line strings have the same box. -/
theorem C109_box (l m : List (V2 K)) (h : SameCurve l m) : Aabb2.withPoints l = Aabb2.withPoints m := by
  have e1 := box_fill l (l ++ m) (ne_nil h.1) (fun p hp => List.mem_append.2 (Or.inl hp)) (between h)
  have e2 := box_fill m (m ++ l) (ne_nil h.2.1) (fun p hp => List.mem_append.2 (Or.inl hp)) (between (sameCurve_symm h))
  rw [← e1, ← e2]
  refine Aabb.C31_box2_order_independent (.withPoints (l ++ m)) (.withPoints (m ++ l)) ?_
  intro p
  simp only [Hist2.fed, List.mem_append]
  exact Or.comm

/-- **C109** both line strings have the same convex hull. -/
theorem C109_convex_hull [ExactAtan2 K] (srt srt' : List (V2 K × K × K) → List (V2 K × K × K))
    (hsrt : Sorts angleCmp srt) (hsrt' : Sorts angleCmp srt') (l m : List (V2 K)) (h : SameCurve l m)
    (h4 : 4 ≤ l.length) (h5 : l.head? = l.getLast? → 5 ≤ l.length)
    (h4' : 4 ≤ m.length) (h5' : m.head? = m.getLast? → 5 ≤ m.length) (hne : ∃ a ∈ l, ∃ b ∈ l, a ≠ b) :
    lineConvexHull srt l = lineConvexHull srt' m := by
  have tri : ∀ {l m : List (V2 K)}, SameCurve l m → ∀ p ∈ l ++ m, InTriangleOf l p := by
    intro l m h p hp
    have := ExactScalar.toIsStrictOrderedRing (K := K)
    obtain ⟨a, ha, b, hb, t, t0, t1, rfl⟩ := between h p hp
    refine ⟨a, ha, b, hb, b, hb, 1 - t, t, 0, by linarith, t0, le_refl _, by ring, ?_, ?_⟩ <;> simp only [lerp2] <;> ring
  have hl : 5 ≤ (l ++ m).length := by simp; omega
  have e1 := (C106_inner_points_do_not_matter srt srt hsrt hsrt l (l ++ m) (fun p hp => List.mem_append.2 (Or.inl hp)) (tri h) h4 h5
    (by omega) (fun _ => hl) hne).2
  have hne' : ∃ a ∈ m, ∃ b ∈ m, a ≠ b := by
    by_contra hc
    push Not at hc
    obtain ⟨c, hcm⟩ := List.exists_mem_of_ne_nil m (ne_nil h.2.1)
    have all : ∀ p ∈ l, p = c := by
      intro p hp
      obtain ⟨a, ha, b, hb, t, -, -, rfl⟩ := between (sameCurve_symm h) p (List.mem_append.2 (Or.inr hp))
      rw [hc a ha c hcm, hc b hb c hcm]
      apply v2_ext <;> simp [lerp2]
    obtain ⟨a, ha, b, hb, hab⟩ := hne
    exact hab ((all a ha).trans (all b hb).symm)
  have e2 := (C106_inner_points_do_not_matter srt srt' hsrt hsrt' m (l ++ m) (fun p hp => List.mem_append.2 (Or.inr hp))
    (fun p hp => tri (sameCurve_symm h) p (List.mem_append.2 ((List.mem_append.1 hp).symm))) h4' h5' (by omega) (fun _ => hl) hne').2
  rw [← e1, e2]

/-! ### which line strings draw the same curve -/

/-- **C109** the reversed line string draws the same curve. -/
theorem C109_reversed (l : List (V2 K)) (h : 2 ≤ l.length) : SameCurve l l.reverse :=
  ⟨h, by simpa using h, fun q => (onPolyline_reverse l q).symm⟩

/-- **C109** a closed line string draws the same curve from every vertex on. -/
theorem C109_other_start (s x : V2 K) (a b : List (V2 K)) : SameCurve (s :: a ++ x :: (b ++ [s])) (x :: b ++ s :: (a ++ [x])) := by
  refine ⟨by simp; omega, by simp; omega, ?_⟩
  have key : ∀ l l' : List (V2 K), (∀ e, e ∈ windows2 l → e ∈ windows2 l') → ∀ q, OnPolyline l q → OnPolyline l' q := by
    rintro l l' h q ⟨i, u, v, hu, hv, hq⟩
    obtain ⟨j, hj, hj'⟩ := (ClosedStart.get_windows2 l' u v).2 (h _ ((ClosedStart.get_windows2 l u v).1 ⟨i, hu, hv⟩))
    exact ⟨j, u, v, hj, hj', hq⟩
  intro q
  exact ⟨key _ _ (fun e he => (ClosedStart.mem_windows2 s x a b e).1 he) q, key _ _ (fun e he => (ClosedStart.mem_windows2 s x a b e).2 he) q⟩

/-- two points of a segment and what is between them -/
theorem lerp2_lerp2 (a b : V2 K) (u v t : K) : lerp2 (lerp2 a b u) (lerp2 a b v) t = lerp2 a b (u + t * (v - u)) := by
  apply v2_ext <;> simp only [lerp2] <;> ring

/-- **C109** a point of a segment inserted into it does not change the curve. -/
theorem C109_inserted_point (a b : List (V2 K)) (x y z : V2 K) (hz : OnSegment2 x y z) :
    SameCurve (a ++ x :: y :: b) (a ++ x :: z :: y :: b) := by
  have := ExactScalar.toIsStrictOrderedRing (K := K)
  refine ⟨by simp; omega, by simp; omega, fun q => ?_⟩
  have step : ∀ (u v : V2 K) (c : List (V2 K)), OnPolyline (u :: v :: c) q ↔ OnSegment2 u v q ∨ OnPolyline (v :: c) q := by
    intro u v c
    constructor
    · rintro ⟨i, p, w, hp, hw, h⟩
      cases i with
      | zero =>
        simp at hp hw
        subst hp; subst hw
        exact Or.inl h
      | succ i => exact Or.inr ⟨i, p, w, by simpa using hp, by simpa using hw, h⟩
    · rintro (h | ⟨i, p, w, hp, hw, h⟩)
      · exact ⟨0, u, v, rfl, rfl, h⟩
      · exact ⟨i + 1, p, w, by simpa using hp, by simpa using hw, h⟩
  have mid : OnSegment2 x y q ↔ OnSegment2 x z q ∨ OnSegment2 z y q := by
    obtain ⟨u, u0, u1, rfl⟩ := hz
    constructor
    · rintro ⟨t, t0, t1, rfl⟩
      rcases le_total t u with h | h
      · left
        rcases eq_or_lt_of_le u0 with e | e
        · refine ⟨0, le_refl _, zero_le_one, ?_⟩
          have : t = 0 := by linarith
          rw [this, lz, lz]
        · refine ⟨t / u, div_nonneg t0 e.le, (div_le_one e).2 h, ?_⟩
          have := lerp2_lerp2 x y 0 u (t / u)
          rw [lz] at this
          rw [this]
          congr 1
          field_simp
          ring
      · right
        rcases eq_or_lt_of_le u1 with e | e
        · refine ⟨0, le_refl _, zero_le_one, ?_⟩
          have : t = u := by linarith
          rw [this, lz]
        · refine ⟨(t - u) / (1 - u), div_nonneg (by linarith) (by linarith), (div_le_one (by linarith)).2 (by linarith), ?_⟩
          have := lerp2_lerp2 x y u 1 ((t - u) / (1 - u))
          rw [lo2] at this
          rw [this]
          congr 1
          have : (1 - u) ≠ 0 := by linarith
          field_simp
          ring
    · rintro (⟨t, t0, t1, rfl⟩ | ⟨t, t0, t1, rfl⟩)
      · have := lerp2_lerp2 x y 0 u t
        rw [lz] at this
        rw [this]
        refine ⟨_, ?_, ?_, rfl⟩
        · have := mul_nonneg t0 u0; linarith
        · have := mul_le_one₀ t1 u0 u1; linarith
      · have := lerp2_lerp2 x y u 1 t
        rw [lo2] at this
        rw [this]
        refine ⟨_, ?_, ?_, rfl⟩
        · have := mul_nonneg t0 (sub_nonneg.2 u1); linarith
        · have := mul_le_mul_of_nonneg_right t1 (sub_nonneg.2 u1); linarith
  have pre := exists_parts (fun u v => OnSegment2 u v q) a (y :: b) x
  have pre' := exists_parts (fun u v => OnSegment2 u v q) a (z :: y :: b) x
  change OnPolyline (a ++ x :: y :: b) q ↔ OnPolyline (a ++ [x]) q ∨ OnPolyline (x :: y :: b) q at pre
  change OnPolyline (a ++ x :: z :: y :: b) q ↔ OnPolyline (a ++ [x]) q ∨ OnPolyline (x :: z :: y :: b) q at pre'
  rw [pre, pre', step, step, step, mid]
  tauto

/-- a list of points of a segment, in any order, drawn from the one end to the other, covers the segment -/
theorem covers (a b : V2 K) (t : K) (t1 : t ≤ 1) : ∀ (zs : List (V2 K)) (u : K), (∀ p ∈ zs, OnSegment2 a b p) → u ≤ t →
    OnPolyline (lerp2 a b u :: (zs ++ [b])) (lerp2 a b t) := by
  have := ExactScalar.toIsStrictOrderedRing (K := K)
  have seg : ∀ u v : K, u ≤ t → t ≤ v → OnSegment2 (lerp2 a b u) (lerp2 a b v) (lerp2 a b t) := by
    intro u v hu hv
    rcases eq_or_lt_of_le (hu.trans hv) with e | e
    · refine ⟨0, le_refl _, zero_le_one, ?_⟩
      have : t = u := by linarith
      rw [lz, this]
    · have h0 : 0 < v - u := by linarith
      refine ⟨(t - u) / (v - u), div_nonneg (by linarith) h0.le, (div_le_one h0).2 (by linarith), ?_⟩
      rw [lerp2_lerp2, div_mul_cancel₀ _ h0.ne']
      congr 1
      ring
  intro zs
  induction zs with
  | nil =>
    intro u _ hu
    refine ⟨0, _, b, rfl, rfl, ?_⟩
    have := seg u 1 hu t1
    rwa [lo2] at this
  | cons z zs ih =>
    intro u hz hu
    obtain ⟨v, v0, v1, e⟩ := hz z (by simp)
    rcases le_total v t with h | h
    · obtain ⟨i, p, w, hp, hw, hq⟩ := ih v (fun p hp => hz p (by simp [hp])) h
      refine ⟨i + 1, p, w, ?_, ?_, hq⟩
      · rw [e]; simpa using hp
      · rw [e]; simpa using hw
    · refine ⟨0, _, z, rfl, rfl, ?_⟩
      rw [e]
      exact seg u v hu h

/-- **C109** points of the segments inserted into them, any number and in any order, do not change the curve. -/
theorem C109_inserted_points (fine coarse : List (V2 K)) (h : Simplification OnSegment2 fine coarse) (h2 : 2 ≤ coarse.length) :
    SameCurve coarse fine := by
  have := ExactScalar.toIsStrictOrderedRing (K := K)
  have len : ∀ fine coarse : List (V2 K), Simplification OnSegment2 fine coarse → coarse.length ≤ fine.length := by
    intro fine coarse h
    induction h with
    | single a => exact le_refl _
    | step a b dropped rest out hok h ih => simp at ih ⊢; omega
  refine ⟨h2, h2.trans (len _ _ h), fun q => ?_⟩
  clear h2
  induction h with
  | single a => exact Iff.rfl
  | step a b dropped rest out hok h ih =>
    have p1 := exists_parts (fun u v => OnSegment2 u v q) [a] out b
    have p2 := exists_parts (fun u v => OnSegment2 u v q) (a :: dropped) rest b
    change OnPolyline (a :: b :: out) q ↔ OnPolyline [a, b] q ∨ OnPolyline (b :: out) q at p1
    change OnPolyline (a :: (dropped ++ b :: rest)) q ↔ OnPolyline (a :: (dropped ++ [b])) q ∨ OnPolyline (b :: rest) q at p2
    rw [p1, p2, ih]
    have key : OnPolyline [a, b] q ↔ OnPolyline (a :: (dropped ++ [b])) q := by
      constructor
      · rintro ⟨i, u, v, hu, hv, t, t0, t1, rfl⟩
        cases i with
        | succ i => simp at hv
        | zero =>
          simp at hu hv
          subst hu; subst hv
          have := covers a b t t1 dropped 0 hok t0
          rwa [lz] at this
      · rintro ⟨i, u, v, hu, hv, t, t0, t1, rfl⟩
        refine ⟨0, a, b, rfl, rfl, ?_⟩
        have on : ∀ p ∈ a :: (dropped ++ [b]), OnSegment2 a b p := by
          intro p hp
          simp only [List.mem_cons, List.mem_append, List.not_mem_nil, or_false] at hp
          rcases hp with rfl | hp | rfl
          · exact ⟨0, le_refl _, zero_le_one, (lz _ _).symm⟩
          · exact hok p hp
          · exact ⟨1, zero_le_one, le_refl _, (lo2 _ _).symm⟩
        obtain ⟨c, c0, c1, rfl⟩ := on u (List.mem_of_getElem? hu)
        obtain ⟨e, e0, e1, rfl⟩ := on v (List.mem_of_getElem? hv)
        rw [lerp2_lerp2]
        refine ⟨_, ?_, ?_, rfl⟩
        · have h1 := mul_nonneg t0 e0
          have h2 := mul_nonneg (sub_nonneg.2 t1) c0
          linarith
        · have h1 := mul_le_mul_of_nonneg_left e1 t0
          have h2 := mul_le_mul_of_nonneg_left c1 (sub_nonneg.2 t1)
          linarith
    rw [key]

/-- **C109** `simplify_rdp` with the tolerance zero does not change the curve. -/
theorem C109_rdp_zero (points : List (V2 K)) (h2 : 2 ≤ points.length) :
    ∃ out, simplifyRdp2 points 0 = .ok out ∧ SameCurve points out := by
  have := ExactScalar.toIsStrictOrderedRing (K := K)
  obtain ⟨out, e, h⟩ := Rdp.C08_rdp2_error_bound points 0 (ne_nil h2)
  have h' : Simplification OnSegment2 points out := by
    refine Verif.Proofs.Rdp.Simplification.mono ?_ h
    rintro a b p ⟨q, hq, hd⟩
    have hz : (p.x - q.x) ^ 2 + (p.y - q.y) ^ 2 ≤ 0 := by
      have : sqDist2 p q = (p.x - q.x) ^ 2 + (p.y - q.y) ^ 2 := by unfold sqDist2; ring
      rw [← this]
      simpa using hd
    have hx : p.x - q.x = 0 := by
      have := sq_nonneg (p.x - q.x); have := sq_nonneg (p.y - q.y)
      exact pow_eq_zero_iff (two_ne_zero) |>.1 (by linarith)
    have hy : p.y - q.y = 0 := by
      have := sq_nonneg (p.x - q.x); have := sq_nonneg (p.y - q.y)
      exact pow_eq_zero_iff (two_ne_zero) |>.1 (by linarith)
    have : p = q := v2_ext (by linarith) (by linarith)
    rw [this]
    exact hq
  refine ⟨out, e, sameCurve_symm (C109_inserted_points points out h' ?_)⟩
  clear e h
  cases h' with
  | single a => simp at h2
  | step a b dropped rest out hok h => simp

end exact

section sqrt
variable {K : Type} [Scalar K] [Field K] [LinearOrder K] [ExactScalar K] [ExactSqrt K]

/-- a number between 0 and `n` is between two neighbouring integers -/
theorem between_integers (n : Nat) (hn : 1 ≤ n) (x : K) (h0 : 0 ≤ x) (h1 : x ≤ n) : ∃ k : Nat, k < n ∧ (k : K) ≤ x ∧ x ≤ (k : K) + 1 := by
  have := ExactScalar.toIsStrictOrderedRing (K := K)
  induction n with
  | zero => omega
  | succ n ih =>
    rcases le_total (n : K) x with h | h
    · exact ⟨n, by omega, h, by simpa using h1⟩
    · by_cases hn0 : n = 0
      · subst hn0
        exact ⟨0, by omega, by simpa using h0, by simpa using h1⟩
      · obtain ⟨k, hk, r⟩ := ih (by omega) h
        exact ⟨k, by omega, r⟩

theorem divided_curve {P : Type} {lerp : P → P → K → P} {count : P → P → Nat → Prop}
    (h0 : ∀ a b, lerp a b 0 = a) (h1 : ∀ a b, lerp a b 1 = b) (hc : ∀ a b n, count a b n → 1 ≤ n)
    (hl : ∀ a b u v t, lerp (lerp a b u) (lerp a b v) t = lerp a b (u + t * (v - u)))
    {pts out : List P} (h : Divided lerp count pts out) (q : P) :
    (∃ (i : Nat) (a b : P), getElem? pts i = some a ∧ getElem? pts (i + 1) = some b ∧ ∃ t : K, 0 ≤ t ∧ t ≤ 1 ∧ q = lerp a b t) ↔
      ∃ (i : Nat) (a b : P), getElem? out i = some a ∧ getElem? out (i + 1) = some b ∧ ∃ t : K, 0 ≤ t ∧ t ≤ 1 ∧ q = lerp a b t := by
  have := ExactScalar.toIsStrictOrderedRing (K := K)
  constructor
  · intro hq
    induction h with
    | last p => obtain ⟨i, a, b, -, hb, -⟩ := hq; simp at hb
    | seg a b rest out n hn h ih =>
      obtain ⟨-, hhead, -⟩ := divided_sublist h0 hc h
      have n1 := hc a b n hn
      have nK : (0 : K) < n := by exact_mod_cast n1
      cases out with
      | nil => simp at hhead
      | cons c out =>
        simp only [List.head?_cons, Option.some.injEq] at hhead
        subst hhead
        obtain ⟨i, u, v, hu, hv, t, t0, t1, rfl⟩ := hq
        cases i with
        | succ i =>
          exact (exists_parts (fun u' v' => ∃ t' : K, 0 ≤ t' ∧ t' ≤ 1 ∧ lerp u v t = lerp u' v' t') _ _ _).2
            (Or.inr (ih ⟨i, u, v, by simpa using hu, by simpa using hv, t, t0, t1, rfl⟩))
        | zero =>
          simp only [List.getElem?_cons_zero, List.getElem?_cons_succ, Option.some.injEq, Nat.zero_add] at hu hv
          subst hu; subst hv
          obtain ⟨k, hk, k1, k2⟩ := between_integers n n1 (t * n) (mul_nonneg t0 nK.le) (by
            have := mul_le_mul_of_nonneg_right t1 nK.le
            linarith)
          refine ⟨k, lerp a c ((k : K) / n), lerp a c (((k + 1 : Nat) : K) / n), ?_, ?_, t * n - k, by linarith, by linarith, ?_⟩
          · rw [List.getElem?_append_left (by simpa using hk), List.getElem?_map, List.getElem?_range hk]; rfl
          · by_cases hk1 : k + 1 < n
            · rw [List.getElem?_append_left (by simpa using hk1), List.getElem?_map, List.getElem?_range hk1]; rfl
            · have e : k + 1 = n := by omega
              rw [List.getElem?_append_right (by simp [e])]
              simp only [List.length_map, List.length_range, e, Nat.sub_self, List.getElem?_cons_zero]
              rw [div_self nK.ne', h1]
          · rw [hl]
            congr 1
            push_cast
            field_simp
            ring
  · rintro ⟨i, u, v, hu, hv, t, t0, t1, rfl⟩
    obtain ⟨j, a, b, n, k, ha, hb, hn, hk, rfl, rfl⟩ := divided_adjacent h0 h1 hc h i u v hu hv
    have nK : (0 : K) < n := by exact_mod_cast hc a b n hn
    have kK : (k : K) + 1 ≤ n := by exact_mod_cast hk
    have k0 : (0 : K) ≤ k := Nat.cast_nonneg k
    refine ⟨j, a, b, ha, hb, _, ?_, ?_, hl _ _ _ _ _⟩
    · push_cast
      have : (k : K) / n + t * (((k : K) + 1) / n - (k : K) / n) = (k + t) / n := by field_simp; ring
      rw [this]
      positivity
    · push_cast
      have : (k : K) / n + t * (((k : K) + 1) / n - (k : K) / n) = (k + t) / n := by field_simp; ring
      rw [this, div_le_one nK]
      linarith

/-- **C109** the discretized line string draws the same curve; 2D. -/
theorem C109_discretized (pts out : List (V2 K)) (d : K) (hd : 0 < d) (h2 : 2 ≤ pts.length)
    (h : Collects (discNext ops2) (discNew ops2 pts d) out) : SameCurve pts out := by
  have D := C27_divided2 pts out d hd (ne_nil h2) h
  exact ⟨h2, h2.trans (C26_keeps_points2 pts out d hd h).1.length_le, fun q =>
    divided_curve lerp2_zero lerp2_one (fun a b n hn => hn.1) lerp2_lerp2 D q⟩

/-- **C109** the discretized line string draws the same curve; 3D. -/
theorem C109_discretized3 (pts out : List (V3 K)) (d : K) (hd : 0 < d) (h : Collects (discNext ops3) (discNew ops3 pts d) out) (q : V3 K) :
    OnPolyline3 pts q ↔ OnPolyline3 out q := by
  by_cases hne : pts = []
  · subst hne
    rw [collects_unique h (collects_all ops3 [] d)]
    rfl
  · exact divided_curve lerp3_zero lerp3_one (fun a b n hn => hn.1) (fun a b u v t => by
      unfold lerp3; congr 1 <;> ring) (C27_divided3 pts out d hd hne h) q

end sqrt

/-- `closest_ray_intersection` does see how the curve is divided if it has a segment along the ray: a segment with a point behind the
origin is overlooked, the part of it in front of the origin is not. -/
theorem C109_ray_along_a_segment :
    SameCurve [(⟨-1, 0⟩ : V2 ℚ), ⟨5, 0⟩] [⟨-1, 0⟩, ⟨1, 0⟩, ⟨5, 0⟩] ∧
    closestRayIntersection [(⟨-1, 0⟩ : V2 ℚ), ⟨5, 0⟩] ⟨1, 0⟩ ⟨0, 0⟩ = none ∧
    closestRayIntersection [(⟨-1, 0⟩ : V2 ℚ), ⟨1, 0⟩, ⟨5, 0⟩] ⟨1, 0⟩ ⟨0, 0⟩ = some ⟨1, 0⟩ :=
  ⟨C109_inserted_point [] [] (⟨-1, 0⟩ : V2 ℚ) ⟨5, 0⟩ ⟨1, 0⟩ ⟨1/3, by norm_num, by norm_num, by unfold lerp2; norm_num⟩,
    by decide +kernel, by decide +kernel⟩

/-- two different line strings that draw the same curve; the ray has no segment along it; both have four points and more -/
theorem sample :
    SameCurve [(⟨0, 0⟩ : V2 ℚ), ⟨4, 0⟩, ⟨4, 4⟩, ⟨0, 4⟩] [⟨0, 0⟩, ⟨4, 0⟩, ⟨4, 1⟩, ⟨4, 4⟩, ⟨0, 4⟩] ∧
    NoneAlong [(⟨0, 0⟩ : V2 ℚ), ⟨4, 0⟩, ⟨4, 4⟩, ⟨0, 4⟩] ⟨1, 0⟩ ⟨-1, 1⟩ ∧
    NoneAlong [(⟨0, 0⟩ : V2 ℚ), ⟨4, 0⟩, ⟨4, 1⟩, ⟨4, 4⟩, ⟨0, 4⟩] ⟨1, 0⟩ ⟨-1, 1⟩ := by
  refine ⟨C109_inserted_point [(⟨0, 0⟩ : V2 ℚ)] [⟨0, 4⟩] ⟨4, 0⟩ ⟨4, 4⟩ ⟨4, 1⟩ ⟨1/4, by norm_num, by norm_num, by unfold lerp2; norm_num⟩, ?_, ?_⟩
  · rintro (_ | _ | _ | _ | i) a b ha hb ⟨t, ht⟩ ⟨t', ht'⟩ <;> simp [rayPoint] at ha hb ht ht' <;> subst ha <;> subst hb <;> simp at ht ht'
  · rintro (_ | _ | _ | _ | _ | i) a b ha hb ⟨t, ht⟩ ⟨t', ht'⟩ <;> simp [rayPoint] at ha hb ht ht' <;> subst ha <;> subst hb <;> simp at ht ht'

example : closestRayIntersection [(⟨0, 0⟩ : V2 ℚ), ⟨4, 0⟩, ⟨4, 4⟩, ⟨0, 4⟩] ⟨1, 0⟩ ⟨-1, 1⟩ =
    closestRayIntersection [(⟨0, 0⟩ : V2 ℚ), ⟨4, 0⟩, ⟨4, 1⟩, ⟨4, 4⟩, ⟨0, 4⟩] ⟨1, 0⟩ ⟨-1, 1⟩ :=
  C109_closest_ray _ _ sample.1 _ _ (by decide +kernel) sample.2.1 sample.2.2
example : closestRayIntersection [(⟨0, 0⟩ : V2 ℚ), ⟨4, 0⟩, ⟨4, 4⟩, ⟨0, 4⟩] ⟨1, 0⟩ ⟨-1, 1⟩ = some ⟨4, 1⟩ := by decide +kernel
example : Aabb2.withPoints [(⟨0, 0⟩ : V2 ℚ), ⟨4, 0⟩, ⟨4, 4⟩, ⟨0, 4⟩] = Aabb2.withPoints [⟨0, 0⟩, ⟨4, 0⟩, ⟨4, 1⟩, ⟨4, 4⟩, ⟨0, 4⟩] :=
  C109_box _ _ sample.1
example := C109_rdp_zero [(⟨0, 0⟩ : V2 ℚ), ⟨4, 0⟩, ⟨4, 1⟩, ⟨4, 4⟩, ⟨0, 4⟩] (by decide)
example : simplifyRdp2 [(⟨0, 0⟩ : V2 ℚ), ⟨4, 0⟩, ⟨4, 1⟩, ⟨4, 4⟩, ⟨0, 4⟩] 0 = .ok [⟨0, 0⟩, ⟨4, 0⟩, ⟨4, 4⟩, ⟨0, 4⟩] := by decide +kernel
/-- two points are inserted that go back and forth -/
example : SameCurve [(⟨0, 0⟩ : V2 ℚ), ⟨4, 0⟩] [⟨0, 0⟩, ⟨3, 0⟩, ⟨1, 0⟩, ⟨4, 0⟩] :=
  C109_inserted_points _ _ (.step (⟨0, 0⟩ : V2 ℚ) ⟨4, 0⟩ [⟨3, 0⟩, ⟨1, 0⟩] [] [] (by
    intro p hp
    simp only [List.mem_cons, List.not_mem_nil, or_false] at hp
    rcases hp with rfl | rfl
    · exact ⟨3/4, by norm_num, by norm_num, by unfold lerp2; norm_num⟩
    · exact ⟨1/4, by norm_num, by norm_num, by unfold lerp2; norm_num⟩) (.single _)) (by decide)
example := C109_reversed [(⟨0, 0⟩ : V2 ℝ), ⟨4, 0⟩, ⟨4, 4⟩] (by decide)
example := C109_intersections _ _ (C109_reversed [(⟨0, 0⟩ : V2 ℝ), ⟨4, 0⟩, ⟨4, 4⟩] (by decide)) ⟨⟨1, -1⟩, ⟨5, 3⟩⟩
example := C109_find_two _ _ (C109_reversed [(⟨0, 0⟩ : V2 ℝ), ⟨4, 0⟩, ⟨4, 4⟩] (by decide)) ⟨⟨1, -1⟩, ⟨5, 3⟩⟩
example := C109_discretized [(⟨0, 0⟩ : V2 ℝ), ⟨4, 0⟩, ⟨4, 4⟩] _ 1 one_pos (by decide) (collects_all ops2 _ 1)
example := C109_discretized3 [(⟨0, 0, 0⟩ : V3 ℝ), ⟨4, 0, 1⟩, ⟨4, 4, 2⟩] _ 1 one_pos (collects_all ops3 _ 1)

end Verif.Props.Curve
