import Verif.Props.Direction
import Verif.Props.BoxHull
import Verif.Props.Sweep
import Verif.Proofs.HullFan
import Verif.Props.Rdp
import Verif.Props.Vw
/-!
# C113: `is_self_intersecting` of line strings that do not intersect themselves
-/
set_option linter.unusedSectionVars false
namespace Verif.Props.Simple
open Verif Verif.Model Verif.Spec Verif.Hull Verif.Props Verif.Props.Intersect

section spec
variable {K : Type} [Field K] [LinearOrder K]

/-- different segments of the line string have only end points in common -/
def EndsOnly (pl : List (V2 K)) : Prop :=
  ∀ (i j : Nat) (a b c d p : V2 K), i < j → pl[i]? = some a → pl[i + 1]? = some b → pl[j]? = some c → pl[j + 1]? = some d →
    OnSegment2 a b p → OnSegment2 c d p → (p = a ∨ p = b) ∧ (p = c ∨ p = d)

/-- the line string always moves ahead in the direction `d` -/
def MovesAhead (d : V2 K) (pl : List (V2 K)) : Prop :=
  ∀ (i : Nat) (p q : V2 K), pl[i]? = some p → pl[i + 1]? = some q → d.x * p.x + d.y * p.y < d.x * q.x + d.y * q.y
end spec

section field
variable {K : Type} [Field K] [LinearOrder K] [IsStrictOrderedRing K]

theorem along {d : V2 K} {pl : List (V2 K)} (h : MovesAhead d pl) (i k : Nat) {p q : V2 K} (hp : pl[i]? = some p)
    (hq : pl[i + k]? = some q) : d.x * p.x + d.y * p.y ≤ d.x * q.x + d.y * q.y := by
  induction k generalizing q with
  | zero => rw [Nat.add_zero, hp, Option.some_inj] at hq; rw [hq]
  | succ k ih =>
    have hl := (List.getElem?_eq_some_iff.1 hq).1
    have hm : pl[i + k]? = some pl[i + k] := List.getElem?_eq_getElem (by omega)
    exact (ih hm).trans (h _ _ _ hm hq).le

/-- a line string that always moves ahead does not intersect itself -/
theorem MovesAhead.endsOnly {d : V2 K} {pl : List (V2 K)} (h : MovesAhead d pl) : EndsOnly pl := by
  intro i j a b c e p hij ha hb hc he h1 h2
  have ab := h _ _ _ ha hb
  have ce := h _ _ _ hc he
  have bc := along h (i + 1) (j - (i + 1)) hb (by rw [show i + 1 + (j - (i + 1)) = j by omega]; exact hc)
  obtain ⟨t, t0, t1, rfl⟩ := h1
  obtain ⟨u, u0, u1, hu⟩ := h2
  have hx := congrArg V2.x hu
  have hy := congrArg V2.y hu
  simp only [lerp2] at hx hy
  have e1 : d.x * (a.x + t * (b.x - a.x)) + d.y * (a.y + t * (b.y - a.y)) =
      (d.x * b.x + d.y * b.y) - (1 - t) * ((d.x * b.x + d.y * b.y) - (d.x * a.x + d.y * a.y)) := by ring
  have e2 : d.x * (a.x + t * (b.x - a.x)) + d.y * (a.y + t * (b.y - a.y)) =
      (d.x * c.x + d.y * c.y) + u * ((d.x * e.x + d.y * e.y) - (d.x * c.x + d.y * c.y)) := by
    rw [hx, hy]; ring
  have g1 := mul_nonneg (sub_nonneg.2 t1) (sub_nonneg.2 ab.le)
  have g2 := mul_nonneg u0 (sub_nonneg.2 ce.le)
  have z1 : (1 - t) * ((d.x * b.x + d.y * b.y) - (d.x * a.x + d.y * a.y)) = 0 := by linarith
  have z2 : u * ((d.x * e.x + d.y * e.y) - (d.x * c.x + d.y * c.y)) = 0 := by linarith
  have ht := (mul_eq_zero.1 z1).resolve_right (sub_pos.2 ab).ne'
  have hu0 := (mul_eq_zero.1 z2).resolve_right (sub_pos.2 ce).ne'
  have ht1 : t = 1 := by linarith
  refine ⟨Or.inr ?_, Or.inl ?_⟩
  · subst ht1; exact pt_ext (by simp [lerp2]) (by simp [lerp2])
  · rw [hu, hu0]; exact pt_ext (by simp [lerp2]) (by simp [lerp2])

theorem movesAhead_iff (d : V2 K) (pl : List (V2 K)) :
    MovesAhead d pl ↔ pl.Pairwise (fun p q => d.x * p.x + d.y * p.y < d.x * q.x + d.y * q.y) := by
  constructor
  · intro h
    rw [List.pairwise_iff_getElem]
    intro i j hi hj hij
    have h1 : pl[i]? = some pl[i] := List.getElem?_eq_getElem _
    have h2 : pl[i + 1]? = some pl[i + 1] := List.getElem?_eq_getElem _
    exact (h i _ _ h1 h2).trans_le (along h (i + 1) (j - (i + 1)) h2 (by
      rw [show i + 1 + (j - (i + 1)) = j by omega]; exact List.getElem?_eq_getElem _))
  · intro h i p q hp hq
    rw [List.pairwise_iff_getElem] at h
    obtain ⟨hi, rfl⟩ := List.getElem?_eq_some_iff.1 hp
    obtain ⟨hj, rfl⟩ := List.getElem?_eq_some_iff.1 hq
    exact h i (i + 1) hi hj (by omega)

theorem turn_back (a b c : V2 K) : orient b a c = - orient a b c := by simp only [orient]; ring

/-- a corner on the line through an edge is an end of the edge -/
theorem corner_on_edge {pts hull : List (V2 K)} (H : IsHullLoop pts hull) (hl : 3 < hull.length) {i k : Nat} {a b v w : V2 K}
    (ha : hull[i]? = some a) (hb : hull[i + 1]? = some b) (hv : hull[k]? = some v) (hw : hull[k + 1]? = some w)
    (h0 : orient a b v = 0) : v = a ∨ v = b := by
  have hab := H.next_ne ha hb
  have hvm := H.vertices v (List.mem_of_getElem? hv)
  have ham := H.vertices a (List.mem_of_getElem? ha)
  have hbm := H.vertices b (List.mem_of_getElem? hb)
  obtain ⟨t, rfl⟩ : ∃ t : K, v = lerp2 a b t := by
    simp only [orient] at h0
    by_cases ex : b.x - a.x = 0
    · have ey : b.y - a.y ≠ 0 := fun ey => hab (pt_ext (by linarith) (by linarith))
      refine ⟨(v.y - a.y) / (b.y - a.y), pt_ext ?_ ?_⟩ <;> simp only [lerp2]
      · rw [ex] at h0 ⊢
        have : (b.y - a.y) * (v.x - a.x) = 0 := by linarith
        rcases mul_eq_zero.1 this with h | h
        · exact absurd h ey
        · linarith
      · field_simp; ring
    · refine ⟨(v.x - a.x) / (b.x - a.x), pt_ext ?_ ?_⟩ <;> simp only [lerp2]
      · field_simp; ring
      · field_simp
        linear_combination h0
  by_cases t0 : t = 0
  · subst t0; exact Or.inl (pt_ext (by simp [lerp2]) (by simp [lerp2]))
  by_cases t1 : t = 1
  · subst t1; exact Or.inr (pt_ext (by simp [lerp2]) (by simp [lerp2]))
  exfalso
  have lo : 0 < t := by
    refine lt_of_le_of_ne ?_ (Ne.symm t0)
    by_contra hn
    push Not at hn
    obtain ⟨m, p, hp, hpa, htn⟩ := H.pred hl ha hb
    have := H.left m p a hp hpa _ hvm
    have e : orient p a (lerp2 a b t) = t * orient p a b := by simp only [orient, lerp2]; ring
    rw [e] at this
    have := mul_pos (neg_pos.2 hn) htn
    linarith
  have hi : 0 < 1 - t := by
    by_contra hn
    have hn : 0 < t - 1 := by
      rcases lt_trichotomy t 1 with h | h | h
      · exact absurd (sub_pos.2 h) hn
      · exact absurd h t1
      · exact sub_pos.2 h
    obtain ⟨m, d, hm, hm', htn⟩ := H.succ hl ha hb
    have := H.left m b d hm hm' _ hvm
    have e : orient b d (lerp2 a b t) = - ((t - 1) * orient a b d) := by simp only [orient, lerp2]; ring
    rw [e] at this
    have := mul_pos hn htn
    linarith
  -- the edges before and after the corner lie along the edge
  have side : ∀ {m : Nat} {x y : V2 K}, hull[m]? = some x → hull[m + 1]? = some y → (x = lerp2 a b t ∨ y = lerp2 a b t) →
      (y.x - x.x) * (b.y - a.y) - (y.y - x.y) * (b.x - a.x) = 0 := by
    intro m x y hx hy hor
    have o1 := H.left m x y hx hy a ham
    have o2 := H.left m x y hx hy b hbm
    have e1 : orient x y a = - (t * ((y.x - x.x) * (b.y - a.y) - (y.y - x.y) * (b.x - a.x))) := by
      rcases hor with rfl | rfl <;> simp only [orient, lerp2] <;> ring
    have e2 : orient x y b = (1 - t) * ((y.x - x.x) * (b.y - a.y) - (y.y - x.y) * (b.x - a.x)) := by
      rcases hor with rfl | rfl <;> simp only [orient, lerp2] <;> ring
    rw [e1] at o1
    rw [e2] at o2
    have g1 := nonneg_of_mul_nonneg_right o2 hi
    have g2 : 0 ≤ t * - ((y.x - x.x) * (b.y - a.y) - (y.y - x.y) * (b.x - a.x)) := by linarith
    have g3 := nonneg_of_mul_nonneg_right g2 lo
    linarith
  obtain ⟨m, z, hz, hzv, htn⟩ := H.pred hl hv hw
  have s1 := side hz hzv (Or.inr rfl)
  have s2 := side hv hw (Or.inl rfl)
  have hd : (b.x - a.x) * orient z (lerp2 a b t) w = 0 ∧ (b.y - a.y) * orient z (lerp2 a b t) w = 0 := by
    generalize lerp2 a b t = v at s1 s2
    simp only [orient]
    constructor
    · linear_combination (v.x - z.x) * (-s2) + (w.x - v.x) * s1
    · linear_combination (v.y - z.y) * (-s2) + (w.y - v.y) * s1
  have gx := (mul_eq_zero.1 hd.1).resolve_right htn.ne'
  have gy := (mul_eq_zero.1 hd.2).resolve_right htn.ne'
  exact hab (pt_ext (by linarith) (by linarith))

/-- a hull loop with three or more corners does not intersect itself -/
theorem hull_endsOnly {pts hull : List (V2 K)} (H : IsHullLoop pts hull) (hl : 3 < hull.length) : EndsOnly hull := by
  have swap : ∀ {i j : Nat} {a b c d p : V2 K}, hull[i]? = some a → hull[i + 1]? = some b → hull[j]? = some c →
      hull[j + 1]? = some d → i ≠ j → OnSegment2 a b p → OnSegment2 c d p → p = c ∨ p = d := by
    intro i j a b c d p ha hb hc hd hij h1 h2
    obtain ⟨t, t0, t1, e⟩ := h1
    obtain ⟨u, u0, u1, rfl⟩ := h2
    have hx := congrArg V2.x e
    have hy := congrArg V2.y e
    simp only [lerp2] at hx hy
    have hcm := H.left i a b ha hb c (H.vertices c (List.mem_of_getElem? hc))
    have hdm := H.left i a b ha hb d (H.vertices d (List.mem_of_getElem? hd))
    have ho : (1 - u) * orient a b c + u * orient a b d = 0 := by
      simp only [orient]
      linear_combination (b.x - a.x) * hy - (b.y - a.y) * hx
    by_cases u0' : u = 0
    · subst u0'; exact Or.inl (pt_ext (by simp [lerp2]) (by simp [lerp2]))
    by_cases u1' : u = 1
    · subst u1'; exact Or.inr (pt_ext (by simp [lerp2]) (by simp [lerp2]))
    exfalso
    have p0 : 0 < u := lt_of_le_of_ne u0 (Ne.symm u0')
    have p1 : 0 < 1 - u := sub_pos.2 (lt_of_le_of_ne u1 u1')
    have m1 := mul_nonneg p1.le hcm
    have m2 := mul_nonneg p0.le hdm
    have oc : orient a b c = 0 := (mul_eq_zero.1 (by linarith : (1 - u) * orient a b c = 0)).resolve_left p1.ne'
    have od : orient a b d = 0 := (mul_eq_zero.1 (by linarith : u * orient a b d = 0)).resolve_left p0.ne'
    have ec := corner_on_edge H hl ha hb hc hd oc
    obtain ⟨k, f, hk, hk', -⟩ := H.succ hl hc hd
    have ed := corner_on_edge H hl ha hb hk hk' od
    have hcd := H.next_ne hc hd
    rcases ec with rfl | rfl <;> rcases ed with rfl | rfl
    · exact hcd rfl
    · rcases Nat.lt_or_gt_of_ne hij with h | h
      · exact H.ne_of_index hb hd (by omega) (Or.inr (by omega)) rfl
      · exact H.ne_of_index hd hb (by omega) (Or.inr (by omega)) rfl
    · obtain ⟨k, f, hk, hk', hf⟩ := H.succ hl ha hb
      have := H.left j _ _ hc hd f (H.vertices f (List.mem_of_getElem? hk'))
      rw [turn_back] at this
      linarith
    · exact hcd rfl
  intro i j a b c d p hij ha hb hc hd h1 h2
  exact ⟨swap hc hd ha hb (by omega) h2 h1, swap ha hb hc hd (by omega) h1 h2⟩
end field

section short
variable {K : Type} [Scalar K] [Field K] [LinearOrder K] [ExactScalar K] [ExactSqrt K]

/-- **C113** fewer than ten points: if different segments have only end points in common, `is_self_intersecting` is true iff the three
point test finds an overlap at a vertex. -/
theorem C113_short_line_strings (pl : List (V2 K)) (h : pl.length < 10) (he : EndsOnly pl) :
    isSelfIntersectingShort pl = some true ↔
      ∃ (i : Nat) (a b c : V2 K), pl[i]? = some a ∧ pl[i + 1]? = some b ∧ pl[i + 2]? = some c ∧
        (intersectionPoint3 a b c).isSome := by
  by_cases h3 : 2 < pl.length
  · rw [C24_exact pl h3 h, or_iff_left_iff_imp]
    rintro ⟨i, j, a, b, c, d, p, hij, ha, hb, hc, hd, h1, h2, -, hn⟩
    exact absurd (he i j a b c d p (by omega) ha hb hc hd h1 h2) hn
  · rw [(C24_short_lines_answer pl).2 (by omega)]
    constructor
    · intro h; cases h
    · rintro ⟨i, a, b, c, -, -, hc, -⟩
      have := (List.getElem?_eq_some_iff.1 hc).1
      omega

/-- **C113** fewer than ten points, without reference to the test itself: if different segments have only end points in common and no
segment ends at the height of the next point's end (or at the abscissa of its start, the typo of the test), the answer is true iff the
slopes that the test compares agree at a vertex. -/
theorem C113_short_line_strings_by_slopes (pl : List (V2 K)) (h : pl.length < 10) (he : EndsOnly pl)
    (hn : ∀ (i : Nat) (a b c : V2 K), pl[i]? = some a → pl[i + 1]? = some b → pl[i + 2]? = some c → b.y ≠ a.x ∧ b.y ≠ c.y) :
    isSelfIntersectingShort pl = some true ↔
      ∃ (i : Nat) (a b c : V2 K), pl[i]? = some a ∧ pl[i + 1]? = some b ∧ pl[i + 2]? = some c ∧ ThreePoint a b c := by
  rw [C113_short_line_strings pl h he]
  constructor
  · rintro ⟨i, a, b, c, ha, hb, hc, ht⟩
    exact ⟨i, a, b, c, ha, hb, hc, (C24_three_point_test a b c (hn i a b c ha hb hc).1 (hn i a b c ha hb hc).2).1 ht⟩
  · rintro ⟨i, a, b, c, ha, hb, hc, ht⟩
    exact ⟨i, a, b, c, ha, hb, hc, (C24_three_point_test a b c (hn i a b c ha hb hc).1 (hn i a b c ha hb hc).2).2 ht⟩

/-- **C113** the same for line strings that always move ahead in some direction. -/
theorem C113_short_line_strings_that_move_ahead (d : V2 K) (pl : List (V2 K)) (h : pl.length < 10) (hd : MovesAhead d pl) :
    isSelfIntersectingShort pl = some true ↔
      ∃ (i : Nat) (a b c : V2 K), pl[i]? = some a ∧ pl[i + 1]? = some b ∧ pl[i + 2]? = some c ∧
        (intersectionPoint3 a b c).isSome :=
  have := ExactScalar.toIsStrictOrderedRing (K := K)
  C113_short_line_strings pl h hd.endsOnly

/-- **C113** the same for convex hulls with three to eight corners. -/
theorem C113_short_hulls (pts hull : List (V2 K)) (H : IsHullLoop pts hull) (hl : 3 < hull.length) (h : hull.length < 10) :
    isSelfIntersectingShort hull = some true ↔
      ∃ (i : Nat) (a b c : V2 K), hull[i]? = some a ∧ hull[i + 1]? = some b ∧ hull[i + 2]? = some c ∧
        (intersectionPoint3 a b c).isSome :=
  have := ExactScalar.toIsStrictOrderedRing (K := K)
  C113_short_line_strings hull h (hull_endsOnly H hl)

/-- **C113** the loop around a box with width and height does not intersect itself. -/
theorem C113_box (b : Aabb2 K) (lo hi : V2 K) (hb : b.minMax = some (lo, hi)) (hx : lo.x < hi.x) (hy : lo.y < hi.y) :
    ∃ hull, b.convexHull = some hull ∧ isSelfIntersectingShort hull = some false := by
  refine ⟨_, BoxHull.hull_of_box b lo hi hb, ?_⟩
  obtain ⟨r, hr⟩ := Option.isSome_iff_exists.1 ((C24_short_lines_answer (BoxHull.rect lo hi)).1 (by simp [BoxHull.rect]))
  rw [hr]
  cases r with
  | false => rfl
  | true =>
    exfalso
    obtain ⟨i, a, b, c, ha, hb, hc, h⟩ := (C113_short_hulls _ _ (BoxHull.rect_loop lo hi hx hy).1 (by simp [BoxHull.rect])
      (by simp [BoxHull.rect])).1 hr
    have hx' := sub_ne_zero.2 hx.ne
    have hx'' := sub_ne_zero.2 hx.ne'
    rcases i with _ | _ | _ | i <;> simp [BoxHull.rect] at ha hb hc <;> subst ha <;> subst hb <;> subst hc <;>
      simp [intersectionPoint3, exact_simp, hx', hx''] at h
end short

section long
variable {K : Type} [Scalar K] [Field K] [LinearOrder K] [ExactScalar K] [ExactSqrt K]

/-- **C113** ten points or more: if different segments have only end points in common, `is_self_intersecting` is false. -/
theorem C113_long_line_strings [TreeShape K] (order : Nat → List Nat → List Nat) (hord : ∀ n l, (order n l).Perm l)
    (pl : List (V2 K)) (fuel : Nat) (hf : 2 * pl.length + pl.length * pl.length < fuel) (he : EndsOnly pl) :
    isSelfIntersectingLong order fuel pl = .ok false := by
  obtain ⟨b, e, hb⟩ := C58_self_intersecting_is_true order hord pl fuel hf
  cases b with
  | false => exact e
  | true =>
    exfalso
    obtain ⟨i, j, l, m, p, hij, hl, hm, h1, h2, n1, n2⟩ := hb rfl
    have get : ∀ {i : Nat} {l : Line2 K}, (windowIter2 pl)[i]? = some l → pl[i]? = some l.start ∧ pl[i + 1]? = some l.end := by
      intro i l hl
      unfold windowIter2 at hl
      rw [List.getElem?_map] at hl
      obtain ⟨⟨u, v⟩, huv, rfl⟩ := Option.map_eq_some_iff.1 hl
      exact (windows2_get pl i u v).1 huv
    obtain ⟨l1, l2⟩ := get hl
    obtain ⟨m1, m2⟩ := get hm
    rcases Nat.lt_or_gt_of_ne hij with h | h
    · rcases (he i j _ _ _ _ p h l1 l2 m1 m2 h1 h2).1 with h | h
      · exact n1 h
      · exact n2 h
    · rcases (he j i _ _ _ _ p h m1 m2 l1 l2 h2 h1).2 with h | h
      · exact n1 h
      · exact n2 h

/-- **C113** line strings of at least ten points that always move ahead in some direction. -/
theorem C113_line_strings_that_move_ahead [TreeShape K] (order : Nat → List Nat → List Nat) (hord : ∀ n l, (order n l).Perm l)
    (d : V2 K) (pl : List (V2 K)) (fuel : Nat) (hf : 2 * pl.length + pl.length * pl.length < fuel) (hd : MovesAhead d pl) :
    isSelfIntersectingLong order fuel pl = .ok false :=
  have := ExactScalar.toIsStrictOrderedRing (K := K)
  C113_long_line_strings order hord pl fuel hf hd.endsOnly

/-- **C113** `simplify_rdp` and `simplify_vw` of a line string that always moves ahead: the result moves ahead too, so it does not
intersect itself. -/
theorem C113_simplified_line_strings_that_move_ahead [TreeShape K] (order : Nat → List Nat → List Nat)
    (hord : ∀ n l, (order n l).Perm l) (pick : Nat → List (K × Nat) → Nat) (hpick : PopsLeast (fun _ => True) pick)
    (d : V2 K) (pl : List (V2 K)) (hd : MovesAhead d pl) (dist : K) (k vfuel fuel : Nat)
    (hv : 4 * pl.length < vfuel)
    (hf : 2 * pl.length + pl.length * pl.length < fuel) :
    ∃ r v, simplifyRdp2 pl dist = .ok r ∧ simplifyVw2 pick vfuel pl k = .ok v ∧ MovesAhead d r ∧ MovesAhead d v ∧
      isSelfIntersectingLong order fuel r = .ok false ∧ isSelfIntersectingLong order fuel v = .ok false := by
  have := ExactScalar.toIsStrictOrderedRing (K := K)
  obtain ⟨r, e1, s1, -⟩ := Rdp.C07_rdp2_keeps_ends_and_order pl dist
  obtain ⟨v, e2, s2, -⟩ := C12_vw2_subsequence exact_total pick hpick pl k vfuel (fun _ _ _ _ _ _ => trivial) hv
  have h1 := (movesAhead_iff d r).2 (((movesAhead_iff d pl).1 hd).sublist s1)
  have h2 := (movesAhead_iff d v).2 (((movesAhead_iff d pl).1 hd).sublist s2)
  have l1 := s1.length_le
  have l2 := s2.length_le
  have m1 := Nat.mul_le_mul l1 l1
  have m2 := Nat.mul_le_mul l2 l2
  exact ⟨r, v, e1, e2, h1, h2, C113_line_strings_that_move_ahead order hord d r fuel (by omega) h1,
    C113_line_strings_that_move_ahead order hord d v fuel (by omega) h2⟩

/-- **C113** convex hulls with nine or more corners. -/
theorem C113_hulls [TreeShape K] (order : Nat → List Nat → List Nat) (hord : ∀ n l, (order n l).Perm l)
    (pts hull : List (V2 K)) (H : IsHullLoop pts hull) (hl : 3 < hull.length) (fuel : Nat)
    (hf : 2 * hull.length + hull.length * hull.length < fuel) : isSelfIntersectingLong order fuel hull = .ok false :=
  have := ExactScalar.toIsStrictOrderedRing (K := K)
  C113_long_line_strings order hord hull fuel hf (hull_endsOnly H hl)
end long

/-- C113, finding: because of the mistyped three point test (C24) the hull of a triangle is reported to intersect itself, and also three
points that move ahead in the direction (1, 0) -/
theorem C113_short_exceptions :
    giftWrap 100 ([⟨3, 0⟩, ⟨4, 5⟩, ⟨2, 1⟩, ⟨3, 1⟩] : List (V2 ℚ)) = .ok [⟨2, 1⟩, ⟨3, 0⟩, ⟨4, 5⟩, ⟨2, 1⟩] ∧
    isSelfIntersectingShort [(⟨2, 1⟩ : V2 ℚ), ⟨3, 0⟩, ⟨4, 5⟩, ⟨2, 1⟩] = some true ∧
    MovesAhead ⟨1, 0⟩ [(⟨1, 0⟩ : V2 ℚ), ⟨2, 2⟩, ⟨3, 3⟩] ∧
    isSelfIntersectingShort [(⟨1, 0⟩ : V2 ℚ), ⟨2, 2⟩, ⟨3, 3⟩] = some true := by
  refine ⟨by decide +kernel, by decide +kernel, ?_, by decide +kernel⟩
  rintro (_ | _ | i) p q hp hq <;> simp at hp hq <;> subst hp <;> subst hq <;> norm_num

end Verif.Props.Simple
