import Verif.Props.Intersect
import Verif.Props.Small
import Mathlib.Data.List.Forall2
/-!
# C101: what depends on the direction of a line string and what does not (C22 exact form)
-/
set_option linter.unusedSectionVars false
set_option linter.unusedVariables false
namespace Verif.Props.Intersect
open Verif Verif.Model Verif.Spec Verif.Proofs.Intersect Scalar

theorem windows2_reverse {A : Type} (l : List A) : windows2 l.reverse = ((windows2 l).map Prod.swap).reverse := by
  apply List.ext_getElem?
  intro i
  have e : ∀ w, (windows2 l.reverse)[i]? = some w ↔ ((windows2 l).map Prod.swap).reverse[i]? = some w := by
    rintro ⟨a, b⟩
    rw [windows2_get]
    by_cases hi : i + 1 < l.length
    · rw [List.getElem?_reverse (by omega), List.getElem?_reverse (by omega), List.getElem?_reverse (by
        rw [List.length_map, windows2_length]; omega), List.getElem?_map, List.length_map, windows2_length]
      have h := windows2_get l (l.length - 1 - 1 - i) b a
      rw [show l.length - 1 - 1 - i + 1 = l.length - 1 - i by omega] at h
      rw [Option.map_eq_some_iff]
      constructor
      · rintro ⟨h1, h2⟩
        exact ⟨(b, a), h.2 ⟨by rw [← h2]; congr 1; omega, h1⟩, rfl⟩
      · rintro ⟨⟨x, y⟩, h1, h2⟩
        cases h2
        have := h.1 h1
        exact ⟨this.2, by rw [← this.1]; congr 1; omega⟩
    · rw [List.getElem?_eq_none (l := l.reverse) (i := i + 1) (by rw [List.length_reverse]; omega),
        List.getElem?_eq_none (l := ((windows2 l).map Prod.swap).reverse) (by rw [List.length_reverse, List.length_map, windows2_length]; omega)]
      exact Iff.intro (fun h => by cases h.2) (fun h => by cases h)
  cases h1 : (windows2 l.reverse)[i]? with
  | some w => exact ((e w).1 h1).symm
  | none =>
    cases h2 : ((windows2 l).map Prod.swap).reverse[i]? with
    | none => rfl
    | some w => rw [(e w).2 h2] at h1; cases h1

/-- **C101** the segments of the reversed line string are the segments with exchanged ends, from the last to the first
(2D and 3D, any arithmetic). -/
theorem C101_segments {α : Type} [Scalar α] (l : List (V2 α)) (m : List (V3 α)) :
    windowIter2 l.reverse = ((windowIter2 l).map fun s => ⟨s.end, s.start⟩).reverse ∧
    windowIter3 m.reverse = ((windowIter3 m).map fun s => ⟨s.end, s.start⟩).reverse := by
  unfold windowIter2 windowIter3
  rw [windows2_reverse, windows2_reverse]
  simp only [List.map_reverse, List.map_map]
  exact ⟨rfl, rfl⟩

section exact
variable {K : Type} [Scalar K] [Field K] [LinearOrder K] [ExactScalar K] [ExactSqrt K]

omit [ExactSqrt K] in
theorem onPolyline_reverse (line : List (V2 K)) (q : V2 K) : OnPolyline line.reverse q ↔ OnPolyline line q := by
  have key : ∀ l : List (V2 K), OnPolyline l q → OnPolyline l.reverse q := by
    rintro l ⟨i, a, b, ha, hb, h⟩
    have hi : i + 1 < l.length := by
      by_contra hc
      rw [List.getElem?_eq_none (by omega)] at hb; cases hb
    refine ⟨l.length - 1 - (i + 1), b, a, ?_, ?_, onSeg_symm h⟩
    · rw [List.getElem?_reverse (by omega), ← hb]; congr 1; omega
    · rw [List.getElem?_reverse (by omega), ← ha]; congr 1; omega
  exact ⟨fun h => by simpa using key _ h, key line⟩

/-- the ends of a reported overlap are sorted: the first is to the left of the second, or below it -/
theorem overlap_sorted (l m o : Line2 K) (h : l.intersectionPoint m = some (.overlap o)) :
    o.start.x < o.end.x ∨ o.start.x = o.end.x ∧ o.start.y < o.end.y := by
  have hne := overlap_proper l m o h
  have hlp : ∀ (l : Line2 K) p, intersectLinePoint l p ≠ some (.overlap o) := by
    intro l p hc
    unfold intersectLinePoint at hc
    simp only at hc
    split_ifs at hc <;> cases hc
  obtain ⟨a, b⟩ := l
  obtain ⟨c, d⟩ := m
  unfold Line2.intersectionPoint at h
  simp only at h
  by_cases hab : a = b
  · rw [if_pos ((v2_ulps _ _).2 hab)] at h; exact absurd h (hlp _ _)
  rw [if_neg (by rw [v2_ulps]; exact hab)] at h
  by_cases hcd : c = d
  · rw [if_pos ((v2_ulps _ _).2 hcd)] at h; exact absurd h (hlp _ _)
  rw [if_neg (by rw [v2_ulps]; exact hcd)] at h
  by_cases hbox : max a.x b.x < min c.x d.x ∨ max c.x d.x < min a.x b.x ∨
      max a.y b.y < min c.y d.y ∨ max c.y d.y < min a.y b.y
  · rw [if_pos (by simp only [exact_simp]; tauto)] at h
    cases h
  rw [if_neg (by simp only [exact_simp]; tauto)] at h
  by_cases hpar : (b.x - a.x) * (d.y - c.y) - (b.y - a.y) * (d.x - c.x) = 0
  · rw [if_pos (by simp only [exact_simp]; exact hpar)] at h
    obtain ⟨p, r, hpr, hr, hsegp, hminp, hmaxp, hyp, hcolp⟩ := sorted_segment a b hab
    obtain ⟨q, s, hqs, hs, hsegq, hminq, hmaxq, hyq, hcolq⟩ := sorted_segment c d hcd
    have e1 : (if precedes a b = true then (b, (b.sub a).neg) else (a, b.sub a)) = (p, r) := by
      by_cases h0 : b.x < a.x ∨ (b.y < a.y ∧ a.x = b.x)
      · rw [if_pos h0] at hpr
        rw [if_pos ((precedes_iff _ _).2 h0), hpr]; simp only [exact_simp]
      · rw [if_neg h0] at hpr
        rw [if_neg (by rw [precedes_iff]; exact h0), hpr]; simp only [exact_simp]
    have e2 : (if precedes c d = true then (d, (d.sub c).neg) else (c, d.sub c)) = (q, s) := by
      by_cases h0 : d.x < c.x ∨ (d.y < c.y ∧ c.x = d.x)
      · rw [if_pos h0] at hqs
        rw [if_pos ((precedes_iff _ _).2 h0), hqs]; simp only [exact_simp]
      · rw [if_neg h0] at hqs
        rw [if_neg (by rw [precedes_iff]; exact h0), hqs]; simp only [exact_simp]
    simp only [e1, e2] at h
    have hrs : r.x * s.y - r.y * s.x = 0 := by
      split_ifs at hpr <;> split_ifs at hqs <;> cases hpr <;> cases hqs <;> simp only
      · linear_combination hpar
      · linear_combination -hpar
      · linear_combination -hpar
      · linear_combination hpar
    by_cases hcol : (q.x - p.x) * r.y - (q.y - p.y) * r.x = 0
    · rw [if_pos (by simp only [exact_simp]; exact hcol)] at h
      obtain ⟨t0, k, ht0, hk, hkpos, hqx, hqy, hsx, hsy⟩ := collinear_coords p r q s hr hs hrs hcol
      have hA : p.add (r.smul (Scalar.fmax (Scalar.div ((q.sub p).dot r) (r.dot r)) Scalar.zero)) =
          ⟨p.x + r.x * max t0 0, p.y + r.y * max t0 0⟩ := by
        simp only [exact_simp, ht0]
      have hB : p.add (r.smul (Scalar.fmin (Scalar.add (Scalar.div ((q.sub p).dot r) (r.dot r))
          (Scalar.div (s.dot r) (r.dot r))) Scalar.one)) =
          ⟨p.x + r.x * min (t0 + k) 1, p.y + r.y * min (t0 + k) 1⟩ := by
        simp only [exact_simp, ht0, hk]
      rw [hA, hB] at h
      have hlo : t0 ≤ 1 ∧ 0 ≤ t0 + k := by
        push Not at hbox
        obtain ⟨b1, b2, b3, b4⟩ := hbox
        rw [hminq, hmaxp] at b1
        rw [hminp, hmaxq] at b2
        rcases hr with hr | ⟨hr0, hr⟩
        · constructor
          · rw [hqx] at b1
            have : t0 * r.x ≤ 1 * r.x := by linarith
            exact le_of_mul_le_mul_right this hr
          · rw [hqx, hsx] at b2
            have : 0 * r.x ≤ (t0 + k) * r.x := by linarith
            exact le_of_mul_le_mul_right this hr
        · have hs0 : s.x = 0 := by rw [hsx, hr0, mul_zero]
          obtain ⟨m1, m2⟩ := hyp hr0
          obtain ⟨m3, m4⟩ := hyq hs0
          rw [m3, m2] at b3
          rw [m1, m4] at b4
          constructor
          · rw [hqy] at b3
            have : t0 * r.y ≤ 1 * r.y := by linarith
            exact le_of_mul_le_mul_right this hr
          · rw [hqy, hsy] at b4
            have : 0 * r.y ≤ (t0 + k) * r.y := by linarith
            exact le_of_mul_le_mul_right this hr
      have hAB : max t0 0 ≤ min (t0 + k) 1 :=
        max_le (le_min (by linarith) hlo.1) (le_min hlo.2 zero_le_one)
      by_cases ho : (⟨p.x + r.x * max t0 0, p.y + r.y * max t0 0⟩ : V2 K) = ⟨p.x + r.x * min (t0 + k) 1, p.y + r.y * min (t0 + k) 1⟩
      · rw [if_pos ((v2_beq _ _).2 ho)] at h; cases h
      · rw [if_neg (by rw [v2_beq]; exact ho)] at h
        cases h
        have hlt : max t0 0 < min (t0 + k) 1 := lt_of_le_of_ne hAB (fun e => ho (by rw [e]))
        rcases hr with hr | ⟨hr0, hr⟩
        · left
          have := mul_lt_mul_of_pos_left hlt hr
          simp only; linarith
        · right
          have := mul_lt_mul_of_pos_left hlt hr
          refine ⟨by simp only [hr0, zero_mul], ?_⟩
          simp only; linarith
    · rw [if_neg (by simp only [exact_simp]; exact hcol)] at h
      cases h
  · rw [if_neg (by simp only [exact_simp]; exact hpar)] at h
    split_ifs at h
    cases h

/-- the ends of a segment are its extreme points -/
theorem sorted_ends {a b c d : V2 K} (hab : a.x < b.x ∨ a.x = b.x ∧ a.y < b.y) (hcd : c.x < d.x ∨ c.x = d.x ∧ c.y < d.y)
    (h : ∀ q, OnSegment2 a b q ↔ OnSegment2 c d q) : a = c ∧ b = d := by
  have ext : ∀ {a b q : V2 K}, (a.x < b.x ∨ a.x = b.x ∧ a.y < b.y) → OnSegment2 a b q →
      (a.x < q.x ∨ a.x = q.x ∧ a.y ≤ q.y) ∧ (q.x < b.x ∨ q.x = b.x ∧ q.y ≤ b.y) := by
    rintro a b q hab ⟨t, t0, t1, rfl⟩
    simp only [lerp2]
    rcases hab with h | ⟨h, h'⟩
    · constructor
      · rcases eq_or_lt_of_le t0 with e | e
        · right; rw [← e]; constructor <;> simp
        · left; have := mul_pos e (sub_pos.2 h); linarith
      · rcases eq_or_lt_of_le t1 with e | e
        · right; rw [e]; constructor <;> simp
        · left; have := mul_pos (sub_pos.2 e) (sub_pos.2 h); linarith
    · have p1 := mul_nonneg t0 (sub_pos.2 h').le
      have p2 := mul_nonneg (sub_nonneg.2 t1) (sub_pos.2 h').le
      exact ⟨Or.inr ⟨by rw [h]; ring, by linarith⟩, Or.inr ⟨by rw [h]; ring, by linarith⟩⟩
  have anti : ∀ {u v : V2 K}, (u.x < v.x ∨ u.x = v.x ∧ u.y ≤ v.y) → (v.x < u.x ∨ v.x = u.x ∧ v.y ≤ u.y) → u = v := by
    rintro u v (h | ⟨h, h'⟩) (g | ⟨g, g'⟩)
    · exact absurd h g.not_gt
    · exact absurd g h.ne'
    · exact absurd h g.ne'
    · exact v2_ext h (le_antisymm h' g')
  have a1 := ext hcd ((h a).1 (onSeg_start a b))
  have b1 := ext hcd ((h b).1 (onSeg_end a b))
  have c1 := ext hab ((h c).2 (onSeg_start c d))
  have d1 := ext hab ((h d).2 (onSeg_end c d))
  exact ⟨anti c1.1 a1.1, anti b1.2 d1.2⟩

/-- the reported set of points determines the result -/
theorem result_determined (l m l' m' : Line2 K)
    (h : ∀ q, Denotes (l.intersectionPoint m) q ↔ Denotes (l'.intersectionPoint m') q) :
    l.intersectionPoint m = l'.intersectionPoint m' := by
  cases e : l.intersectionPoint m with
  | none =>
    cases e' : l'.intersectionPoint m' with
    | none => rfl
    | some i =>
      rw [e, e'] at h
      cases i with
      | point p => exact absurd ((h p).2 rfl) id
      | overlap o => exact absurd ((h o.start).2 (onSeg_start _ _)) id
  | some i =>
    cases e' : l'.intersectionPoint m' with
    | none =>
      rw [e, e'] at h
      cases i with
      | point p => exact absurd ((h p).1 rfl) id
      | overlap o => exact absurd ((h o.start).1 (onSeg_start _ _)) id
    | some i' =>
      have hl := h
      rw [e, e'] at hl
      cases i with
      | point p =>
        cases i' with
        | point p' => rw [show p = p' from (hl p).1 rfl]
        | overlap o =>
          have h1 : o.start = p := (hl o.start).2 (onSeg_start _ _)
          have h2 : o.end = p := (hl o.end).2 (onSeg_end _ _)
          exact absurd (h1.trans h2.symm) (overlap_proper l' m' o e')
      | overlap o =>
        cases i' with
        | point p =>
          have h1 : o.start = p := (hl o.start).1 (onSeg_start _ _)
          have h2 : o.end = p := (hl o.end).1 (onSeg_end _ _)
          exact absurd (h1.trans h2.symm) (overlap_proper l m o e)
        | overlap o' =>
          obtain ⟨h1, h2⟩ := sorted_ends (overlap_sorted l m o e) (overlap_sorted l' m' o' e') hl
          obtain ⟨os, oe⟩ := o
          obtain ⟨os', oe'⟩ := o'
          simp only at h1 h2
          rw [h1, h2]

/-- **C20**, the results are equal and not only the sets of points: exchanging the segments or reversing one of them
changes nothing.  The ends of an overlap are reported from left to right (upwards if the overlap is vertical). -/
theorem C20_same_result (l m : Line2 K) :
    l.intersectionPoint m = m.intersectionPoint l ∧
    (Line2.mk l.end l.start).intersectionPoint m = l.intersectionPoint m ∧
    l.intersectionPoint ⟨m.end, m.start⟩ = l.intersectionPoint m ∧
    ∀ o, l.intersectionPoint m = some (.overlap o) → o.start.x < o.end.x ∨ o.start.x = o.end.x ∧ o.start.y < o.end.y :=
  ⟨result_determined _ _ _ _ (C20_symmetric l m), result_determined _ _ _ _ (fun q => (C20_reverse l m q).1),
    result_determined _ _ _ _ (fun q => (C20_reverse l m q).2), overlap_sorted l m⟩

/-- **C101** `find_all_intersections` of the reversed line string reports the same intersections in the opposite order. -/
theorem C101_find_all (line : List (V2 K)) (other : Line2 K) :
    findAll2 line.reverse other = (findAll2 line other).reverse := by
  rw [C21_find_all_is_filter, C21_find_all_is_filter, (C101_segments line ([] : List (V3 K))).1, List.filterMap_reverse,
    List.filterMap_map]
  congr 2
  funext s
  exact (C20_same_result s other).2.1

/-- **C101** whether `intersection` and `find_two_intersections` report none, one or two points does not depend on the
direction of the line string; a single reported point is the same. -/
theorem C101_intersection (line : List (V2 K)) (other : Line2 K) :
    ((intersection2 line.reverse other).isSome = (intersection2 line other).isSome) ∧
    ((findTwo2 line.reverse other).1.isSome = (findTwo2 line other).1.isSome) ∧
    ((findTwo2 line.reverse other).2.isSome = (findTwo2 line other).2.isSome) ∧
    ((findTwo2 line other).2 = none → findTwo2 line.reverse other = findTwo2 line other) := by
  have h := C21_find_two line other
  have h' := C21_find_two line.reverse other
  simp only [onPolyline_reverse] at h'
  refine ⟨?_, ?_⟩
  · rw [Bool.eq_iff_iff, ← not_iff_not]
    simp only [Bool.not_eq_true, Option.isSome_eq_false_iff, Option.isNone_iff_eq_none]
    rw [C21_intersection_none_iff, C21_intersection_none_iff]
    simp only [onPolyline_reverse]
  · revert h h'
    generalize findTwo2 line.reverse other = x'
    generalize findTwo2 line other = x
    intro h h'
    match x, x', h, h' with
    | (none, none), (none, none), _, _ => exact ⟨rfl, rfl, fun _ => rfl⟩
    | (some p, none), (some p', none), h, h' =>
      have : p' = p := (h p').1 ((h' p').2 rfl)
      exact ⟨rfl, rfl, fun _ => by rw [this]⟩
    | (some p, some q), (some p', some q'), h, h' => exact ⟨rfl, rfl, fun h => nomatch h⟩
    | (none, none), (some p', none), h, h' => exact absurd ((h' p').2 rfl) (h p')
    | (none, none), (some p', some q'), h, h' => exact absurd h'.1 (h p')
    | (some p, none), (none, none), h, h' => exact absurd ((h p).2 rfl) (h' p)
    | (some p, some q), (none, none), h, h' => exact absurd h.1 (h' p)
    | (some p, none), (some p', some q'), h, h' => exact absurd (((h p').1 h'.1).trans ((h q').1 h'.2.1).symm) h'.2.2
    | (some p, some q), (some p', none), h, h' => exact absurd (((h' p).1 h.1).trans ((h' q).1 h.2.1).symm) h.2.2

end exact

/-! ### the nearest hit of a ray -/
section ray
variable {K : Type} [Scalar K] [Field K] [LinearOrder K] [ExactScalar K]

theorem rayEdge_visible (o r a b : V2 K) (hr : r ≠ ⟨0, 0⟩) (t : K) (h : rayEdgeIntersection o r a b = some t)
    (ht : 0 < t) : VisibleHit o r a b t := by
  refine ⟨(rayEdge_spec o r a b hr).1 t h, fun hpar t' ht' => ?_⟩
  have hrr := dir_sq_pos hr
  obtain ⟨s, hs⟩ : ∃ s : V2 K, s = ⟨b.x - a.x, b.y - a.y⟩ := ⟨_, rfl⟩
  have hpar' : r.x * s.y - r.y * s.x = 0 := by rw [hs]; simp only; linear_combination -hpar
  unfold rayEdgeIntersection at h
  simp only at h
  rw [if_pos (by simp only [exact_simp]; rw [hs] at hpar'; exact hpar')] at h
  by_cases hcol : (a.x - o.x) * r.y - (a.y - o.y) * r.x = 0
  · rw [if_pos (by simp only [exact_simp]; exact hcol)] at h
    obtain ⟨hx, hy⟩ := proj_coords r ⟨a.x - o.x, a.y - o.y⟩ hrr (by simp only; linear_combination -hcol)
    obtain ⟨hsx, hsy⟩ := proj_coords r s hrr hpar'
    obtain ⟨t0, ht0⟩ : ∃ t0, t0 = ((a.x - o.x) * r.x + (a.y - o.y) * r.y) / (r.x * r.x + r.y * r.y) := ⟨_, rfl⟩
    obtain ⟨k, hk⟩ : ∃ k, k = (s.x * r.x + s.y * r.y) / (r.x * r.x + r.y * r.y) := ⟨_, rfl⟩
    simp only at hx hy
    rw [← ht0] at hx hy
    rw [← hk] at hsx hsy
    have e : t = min t0 (t0 + k) := by
      rw [Option.some.injEq] at h
      rw [← h]
      simp only [exact_simp, ht0, hk, hs]
    have p0 : 0 < t0 := lt_of_lt_of_le ht (e ▸ min_le_left _ _)
    have p1 : 0 < t0 + k := lt_of_lt_of_le ht (e ▸ min_le_right _ _)
    obtain ⟨u, u0, u1, hu⟩ := ht'
    have e1 := congrArg V2.x hu
    have e2 := congrArg V2.y hu
    simp only [rayPoint, lerp2] at e1 e2
    rw [hs] at hsx hsy
    simp only at hsx hsy
    have ht : t' = t0 + u * k := by
      have : (t' - (t0 + u * k)) * (r.x * r.x + r.y * r.y) = 0 := by
        linear_combination r.x * e1 + r.y * e2 + r.x * hx + r.y * hy + u * r.x * hsx + u * r.y * hsy
      rcases mul_eq_zero.1 this with h | h
      · linarith
      · exact absurd h hrr.ne'
    have q0 := mul_nonneg u0 p1.le
    have q1 := mul_nonneg (sub_nonneg.2 u1) p0.le
    rcases eq_or_lt_of_le u0 with h0 | h0
    · rw [ht, ← h0]; linarith
    · have := mul_pos h0 p1
      rw [ht]; linarith
  · rw [if_neg (by simp only [exact_simp]; exact hcol)] at h
    cases h

/-- **C22** exactly: the returned point is the nearest visible hit. -/
theorem C22_nearest_visible_hit (line : List (V2 K)) (r o p : V2 K) (hr : r ≠ ⟨0, 0⟩) :
    closestRayIntersection line r o = some p ↔
      ∃ t, 0 < t ∧ p = rayPoint o r t ∧
        (∃ (i : Nat) (a b : V2 K), line[i]? = some a ∧ line[i + 1]? = some b ∧ VisibleHit o r a b t) ∧
        ∀ (i : Nat) (a b : V2 K) t', line[i]? = some a → line[i + 1]? = some b → 0 < t' → VisibleHit o r a b t' → t ≤ t' := by
  have hpt : ∀ t, o.add (r.smul t) = rayPoint o r t := by
    intro t
    simp only [exact_simp, rayPoint, V2.mk.injEq]
    exact ⟨by ring, by ring⟩
  have fwd : ∀ p, closestRayIntersection line r o = some p →
      ∃ t, 0 < t ∧ p = rayPoint o r t ∧
        (∃ (i : Nat) (a b : V2 K), line[i]? = some a ∧ line[i + 1]? = some b ∧ VisibleHit o r a b t) ∧
        ∀ (i : Nat) (a b : V2 K) t', line[i]? = some a → line[i + 1]? = some b → 0 < t' → VisibleHit o r a b t' → t ≤ t' := by
    intro p h
    unfold closestRayIntersection at h
    split_ifs at h
    obtain ⟨f1, -, f3⟩ := nearest_fold o r (windows2 line) none (by simp)
    generalize (windows2 line).foldl (fun n v => nearestStep n (rayEdgeIntersection o r v.1 v.2)) none = res at *
    rw [Option.map_eq_some_iff] at h
    obtain ⟨t, ht, hp⟩ := h
    obtain ⟨htpos, h | ⟨⟨a, b⟩, hv, hab⟩⟩ := f1 t ht
    · cases h
    refine ⟨t, htpos, by rw [← hp, hpt], ?_, ?_⟩
    · obtain ⟨i, hi⟩ := List.mem_iff_getElem?.1 hv
      obtain ⟨ha, hb⟩ := (windows2_get line i a b).1 hi
      exact ⟨i, a, b, ha, hb, rayEdge_visible o r a b hr t hab htpos⟩
    · intro i a' b' t' ha hb htp hvis
      obtain ⟨t2, h1, h2, h3⟩ := (rayEdge_spec o r a' b' hr).2 t' htp hvis
      obtain ⟨t3, h4, h5⟩ := f3 (a', b') (List.mem_of_getElem? ((windows2_get line i a' b').2 ⟨ha, hb⟩)) t2 h1 h2
      rw [ht] at h4
      cases h4
      exact h5.trans h3
  constructor
  · exact fwd p
  · rintro ⟨t, ht, rfl, ⟨i, a, b, ha, hb, hv⟩, hmin⟩
    cases hc : closestRayIntersection line r o with
    | none => exact absurd hv (C22_none line r o hr hc i a b t ha hb ht)
    | some q =>
      obtain ⟨t', ht', rfl, ⟨i', a', b', ha', hb', hv'⟩, hmin'⟩ := fwd q hc
      rw [le_antisymm (hmin i' a' b' t' ha' hb' ht' hv') (hmin' i a b t ha hb ht hv)]

theorem visible_symm {o r a b : V2 K} {t : K} (h : VisibleHit o r a b t) : VisibleHit o r b a t :=
  ⟨onSeg_symm h.1, fun hp t' ht' => h.2 (by linear_combination -hp) t' (onSeg_symm ht')⟩

/-- **C101** `closest_ray_intersection` does not depend on the direction of the line string. -/
theorem C101_closest_ray (line : List (V2 K)) (r o : V2 K) (hr : r ≠ ⟨0, 0⟩) :
    closestRayIntersection line.reverse r o = closestRayIntersection line r o := by
  have pos : ∀ (l : List (V2 K)) (i : Nat) (a b : V2 K), l[i]? = some a → l[i + 1]? = some b →
      ∃ j, l.reverse[j]? = some b ∧ l.reverse[j + 1]? = some a := by
    intro l i a b ha hb
    have hi : i + 1 < l.length := by
      by_contra hc
      rw [List.getElem?_eq_none (by omega)] at hb; cases hb
    refine ⟨l.length - 1 - (i + 1), ?_, ?_⟩
    · rw [List.getElem?_reverse (by omega), ← hb]; congr 1; omega
    · rw [List.getElem?_reverse (by omega), ← ha]; congr 1; omega
  have key : ∀ (l : List (V2 K)) p, closestRayIntersection l r o = some p → closestRayIntersection l.reverse r o = some p := by
    intro l p h
    obtain ⟨t, ht, hp, ⟨i, a, b, ha, hb, hv⟩, hmin⟩ := (C22_nearest_visible_hit l r o p hr).1 h
    refine (C22_nearest_visible_hit l.reverse r o p hr).2 ⟨t, ht, hp, ?_, ?_⟩
    · obtain ⟨j, h1, h2⟩ := pos l i a b ha hb
      exact ⟨j, b, a, h1, h2, visible_symm hv⟩
    · intro i' a' b' t' ha' hb' ht' hv'
      obtain ⟨j, h1, h2⟩ := pos l.reverse i' a' b' ha' hb'
      rw [List.reverse_reverse] at h1 h2
      exact hmin j b' a' t' h1 h2 ht' (visible_symm hv')
  cases h : closestRayIntersection line r o with
  | some p => exact key line p h
  | none =>
    cases h' : closestRayIntersection line.reverse r o with
    | none => rfl
    | some p =>
      have := key _ p h'
      rw [List.reverse_reverse, h] at this
      cases this

end ray

section short
variable {K : Type} [Scalar K] [Field K] [LinearOrder K] [ExactScalar K] [ExactSqrt K]

/-- what is tested for two segments that are not neighbours -/
theorem nonAdjacentHit_iff (a b c d : V2 K) : nonAdjacentHit ⟨a, b⟩ ⟨c, d⟩ = true ↔
    ∃ p, OnSegment2 a b p ∧ OnSegment2 c d p ∧
      (∀ q, OnSegment2 a b q → OnSegment2 c d q → p.x < q.x ∨ p.x = q.x ∧ p.y ≤ q.y) ∧
      ¬ ((p = a ∨ p = b) ∧ (p = c ∨ p = d)) := by
  have fin : ∀ p : V2 K, (!((p.ulpsEq a || p.ulpsEq b) && (p.ulpsEq c || p.ulpsEq d))) = true ↔
      ¬ ((p = a ∨ p = b) ∧ (p = c ∨ p = d)) := by
    intro p
    rw [Bool.not_eq_true', ← Bool.not_eq_true, Bool.and_eq_true, Bool.or_eq_true, Bool.or_eq_true, v2_ulps, v2_ulps, v2_ulps, v2_ulps]
  have anti : ∀ {u v : V2 K}, (u.x < v.x ∨ u.x = v.x ∧ u.y ≤ v.y) → (v.x < u.x ∨ v.x = u.x ∧ v.y ≤ u.y) → u = v := by
    rintro u v (h | ⟨h, h'⟩) (g | ⟨g, g'⟩)
    · exact absurd h g.not_gt
    · exact absurd g h.ne'
    · exact absurd h g.ne'
    · exact v2_ext h (le_antisymm h' g')
  have key : ∀ i : Intersection K, (Line2.mk a b).intersectionPoint ⟨c, d⟩ = some i →
      OnSegment2 a b i.single ∧ OnSegment2 c d i.single ∧
      ∀ q, OnSegment2 a b q → OnSegment2 c d q → i.single.x < q.x ∨ i.single.x = q.x ∧ i.single.y ≤ q.y := by
    intro i e
    cases i with
    | point p =>
      obtain ⟨h1, h2⟩ := C18_point_is_common _ _ p e
      refine ⟨h1, h2, fun q q1 q2 => ?_⟩
      have : q = p := (C19_point_is_unique _ _ p e q).1 ⟨q1, q2⟩
      rw [this]; exact Or.inr ⟨rfl, le_rfl⟩
    | overlap o =>
      obtain ⟨h1, h2⟩ := C18_overlap_is_common _ _ o o.start e (onSeg_start _ _)
      refine ⟨h1, h2, fun q q1 q2 => ?_⟩
      obtain ⟨t, t0, t1, rfl⟩ := ((C19_overlap_is_exact _ _ o e).2 q).1 ⟨q1, q2⟩
      simp only [lerp2, Intersection.single]
      rcases overlap_sorted _ _ o e with h | ⟨h, h'⟩
      · rcases eq_or_lt_of_le t0 with z | z
        · right; rw [← z]; constructor <;> simp
        · left; have := mul_pos z (sub_pos.2 h); linarith
      · have := mul_nonneg t0 (sub_pos.2 h').le
        exact Or.inr ⟨by rw [h]; ring, by linarith⟩
  unfold nonAdjacentHit
  cases e : (Line2.mk a b).intersectionPoint ⟨c, d⟩ with
  | none =>
    refine Iff.intro (fun h => by cases h) ?_
    rintro ⟨p, h1, h2, -⟩
    exact absurd ⟨h1, h2⟩ ((C19_none_iff_disjoint _ _).1 e p)
  | some i =>
    obtain ⟨h1, h2, h3⟩ := key i e
    refine (fin i.single).trans ⟨fun h => ⟨i.single, h1, h2, h3, h⟩, ?_⟩
    rintro ⟨p, p1, p2, p3, p4⟩
    rw [anti (h3 p p1 p2) (p3 _ h1 h2)]
    exact p4

/-- **C24** exactly, for three to nine points: the answer is true iff the three point test fires for two consecutive
segments, or two segments that are not neighbours meet and the leftmost (lowest) of their common points is not an end
of both. -/
theorem C24_exact (line : List (V2 K)) (h3 : 2 < line.length) (h : line.length < 10) :
    isSelfIntersectingShort line = some true ↔
      (∃ (i : Nat) (a b c : V2 K), line[i]? = some a ∧ line[i + 1]? = some b ∧ line[i + 2]? = some c ∧
        (intersectionPoint3 a b c).isSome) ∨
      ∃ (i j : Nat) (a b c d p : V2 K), i + 1 < j ∧ line[i]? = some a ∧ line[i + 1]? = some b ∧ line[j]? = some c ∧
        line[j + 1]? = some d ∧ OnSegment2 a b p ∧ OnSegment2 c d p ∧
        (∀ q, OnSegment2 a b q → OnSegment2 c d q → p.x < q.x ∨ p.x = q.x ∧ p.y ≤ q.y) ∧
        ¬ ((p = a ∨ p = b) ∧ (p = c ∨ p = d)) := by
  rw [selfShort_iff line h3 h]
  simp only [nonAdjacentHit_iff]
  constructor
  · rintro (h | ⟨i, j, a, b, c, d, h0, h1, h2, h3, h4, p, hp⟩)
    · exact Or.inl h
    · exact Or.inr ⟨i, j, a, b, c, d, p, h0, h1, h2, h3, h4, hp⟩
  · rintro (h | ⟨i, j, a, b, c, d, p, h0, h1, h2, h3, h4, hp⟩)
    · exact Or.inl h
    · exact Or.inr ⟨i, j, a, b, c, d, h0, h1, h2, h3, h4, p, hp⟩

theorem hit_reverse (a b c d : V2 K) (h : nonAdjacentHit ⟨a, b⟩ ⟨c, d⟩ = true) : nonAdjacentHit ⟨d, c⟩ ⟨b, a⟩ = true := by
  rw [nonAdjacentHit_iff] at h ⊢
  obtain ⟨p, h1, h2, h3, h4⟩ := h
  exact ⟨p, onSeg_symm h2, onSeg_symm h1, fun q q1 q2 => h3 q (onSeg_symm q2) (onSeg_symm q1), fun e => h4 ⟨e.2.symm, e.1.symm⟩⟩

/-- **C101** `is_self_intersecting` of fewer than ten points does not depend on the direction if the three point test
of consecutive segments does not. -/
theorem C101_self_intersection (line : List (V2 K)) (h : line.length < 10)
    (h3 : ∀ (i : Nat) (a b c : V2 K), line[i]? = some a → line[i + 1]? = some b → line[i + 2]? = some c →
      (intersectionPoint3 a b c).isSome = (intersectionPoint3 c b a).isSome) :
    isSelfIntersectingShort line.reverse = isSelfIntersectingShort line := by
  by_cases hn : line.length ≤ 2
  · rw [(C24_short_lines_answer line).2 hn, (C24_short_lines_answer line.reverse).2 (by rw [List.length_reverse]; exact hn)]
  have lt : ∀ (l : List (V2 K)) (i : Nat) a, l[i]? = some a → i < l.length := by
    intro l i a ha
    by_contra hc
    rw [List.getElem?_eq_none (by omega)] at ha; cases ha
  have rev : ∀ (l : List (V2 K)) (i : Nat) a, l[i]? = some a → l.reverse[l.length - 1 - i]? = some a := by
    intro l i a ha
    have := lt l i a ha
    rw [List.getElem?_reverse (by omega), ← ha]; congr 1; omega
  have key : ∀ l : List (V2 K), 2 < l.length → l.length < 10 →
      (∀ (i : Nat) (a b c : V2 K), l[i]? = some a → l[i + 1]? = some b → l[i + 2]? = some c →
        (intersectionPoint3 a b c).isSome = (intersectionPoint3 c b a).isSome) →
      isSelfIntersectingShort l = some true → isSelfIntersectingShort l.reverse = some true := by
    intro l hl hl' h3 ht
    rw [selfShort_iff l.reverse (by rw [List.length_reverse]; exact hl) (by rw [List.length_reverse]; exact hl')]
    rcases (selfShort_iff l hl hl').1 ht with ⟨i, a, b, c, ha, hb, hc, hs⟩ | ⟨i, j, a, b, c, d, hij, ha, hb, hc, hd, hh⟩
    · left
      have hi := lt l _ _ hc
      refine ⟨l.length - 1 - (i + 2), c, b, a, rev l _ _ hc, ?_, ?_, by rw [← h3 i a b c ha hb hc]; exact hs⟩
      · have := rev l _ _ hb
        rwa [show l.length - 1 - (i + 1) = l.length - 1 - (i + 2) + 1 by omega] at this
      · have := rev l _ _ ha
        rwa [show l.length - 1 - i = l.length - 1 - (i + 2) + 2 by omega] at this
    · right
      have hj := lt l _ _ hd
      refine ⟨l.length - 1 - (j + 1), l.length - 1 - (i + 1), d, c, b, a, by omega, rev l _ _ hd, ?_, rev l _ _ hb, ?_,
        hit_reverse a b c d hh⟩
      · have := rev l _ _ hc
        rwa [show l.length - 1 - j = l.length - 1 - (j + 1) + 1 by omega] at this
      · have := rev l _ _ ha
        rwa [show l.length - 1 - i = l.length - 1 - (i + 1) + 1 by omega] at this
  have f1 := key line (by omega) h h3
  have f2 := key line.reverse (by rw [List.length_reverse]; omega) (by rw [List.length_reverse]; exact h) (by
      intro i a b c ha hb hc
      have hl := lt _ _ _ hc
      rw [List.length_reverse] at hl
      have ha := rev _ _ _ ha
      have hb := rev _ _ _ hb
      have hc := rev _ _ _ hc
      rw [List.reverse_reverse, List.length_reverse] at ha hb hc
      refine (h3 (line.length - 1 - (i + 2)) c b a hc ?_ ?_).symm
      · rw [← hb]; congr 1; omega
      · rw [← ha]; congr 1; omega)
  rw [List.reverse_reverse] at f2
  have s1 := (C24_short_lines_answer line).1 h
  have s2 := (C24_short_lines_answer line.reverse).1 (by rw [List.length_reverse]; exact h)
  cases e1 : isSelfIntersectingShort line with
  | none => rw [e1] at s1; cases s1
  | some x =>
    cases e2 : isSelfIntersectingShort line.reverse with
    | none => rw [e2] at s2; cases s2
    | some y =>
      cases x with
      | true => rw [f1 e1] at e2; exact e2.symm
      | false =>
        cases y with
        | false => rfl
        | true => rw [f2 e2] at e1; cases e1

end short

/-- **C101**, the condition of `C101_self_intersection` is needed, because of the typo in the three point test: the answer
for a bent line changes with its direction. -/
theorem C101_self_intersection_depends_on_direction :
    isSelfIntersectingShort [(⟨1, 0⟩ : V2 ℚ), ⟨2, 2⟩, ⟨3, 3⟩] = some true ∧
    isSelfIntersectingShort [(⟨3, 3⟩ : V2 ℚ), ⟨2, 2⟩, ⟨1, 0⟩] = some false := by
  refine ⟨?_, ?_⟩ <;> decide +kernel

/-- the hypothesis of `C101_self_intersection` is met by a line string that crosses itself -/
theorem C101_self_intersection_example : let line : List (V2 ℚ) := [⟨0, 0⟩, ⟨4, 1⟩, ⟨4, 5⟩, ⟨1, -7⟩]
    (∀ (i : Fin 4) (a b c : Fin 4), i.1 + 1 = b.1 → i.1 + 2 = c.1 → a = i →
      (intersectionPoint3 (line[a.1]'a.2) (line[b.1]'b.2) (line[c.1]'c.2)).isSome =
        (intersectionPoint3 (line[c.1]'c.2) (line[b.1]'b.2) (line[a.1]'a.2)).isSome) ∧
    isSelfIntersectingShort line = some true ∧ isSelfIntersectingShort line.reverse = some true := by
  refine ⟨?_, ?_, ?_⟩ <;> decide +kernel

end Verif.Props.Intersect
