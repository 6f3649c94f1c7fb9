import Verif.Proofs.FloatIntersect
import Verif.Props.FloatContain
import Verif.Props.Intersect
/-!
# Intersections of segments in floating point
-/
namespace Verif.Props
open Verif Verif.Model Verif.Spec Scalar Verif.Proofs.FloatHull Verif.Proofs.FloatIntersect Fl
set_option linter.unusedSectionVars false
section
variable {f : Fmt} [Libm f]

/-- a rational point in the real plane -/
noncomputable def castV (p : V2 ℚ) : V2 ℝ := ⟨p.x, p.y⟩
/-- a rational result in the real plane -/
noncomputable def castI : Option (Intersection ℚ) → Option (Intersection ℝ)
  | none => none
  | some (.point p) => some (.point (castV p))
  | some (.overlap l) => some (.overlap ⟨castV l.start, castV l.end⟩)

theorem castV_inj {p q : V2 ℚ} : castV p = castV q ↔ p = q := by
  cases p; cases q; simp [castV]

theorem parTail_cast (p r q w : V2 ℚ) :
    parTail (castV p) (castV r) (castV q) (castV w) = castI (parTail p r q w) := by
  unfold parTail
  simp only [exact_simp, castV]
  have h : ((q.x : ℝ) - p.x) * r.y - (q.y - p.y) * r.x = 0 ↔ (q.x - p.x) * r.y - (q.y - p.y) * r.x = 0 := by
    exact_mod_cast Iff.rfl
  by_cases h1 : (q.x - p.x) * r.y - (q.y - p.y) * r.x = 0
  · rw [if_pos (h.2 h1), if_pos h1]
    have e1 : ((q.x : ℝ) - p.x) * r.x + (q.y - p.y) * r.y = (((q.x - p.x) * r.x + (q.y - p.y) * r.y : ℚ) : ℝ) := by push_cast; rfl
    have e2 : (r.x : ℝ) * r.x + r.y * r.y = ((r.x * r.x + r.y * r.y : ℚ) : ℝ) := by push_cast; rfl
    have e3 : (w.x : ℝ) * r.x + w.y * r.y = ((w.x * r.x + w.y * r.y : ℚ) : ℝ) := by push_cast; rfl
    rw [e1, e2, e3]
    rw [← Rat.cast_div, ← Rat.cast_div]
    generalize ((q.x - p.x) * r.x + (q.y - p.y) * r.y) / (r.x * r.x + r.y * r.y) = T
    generalize (w.x * r.x + w.y * r.y) / (r.x * r.x + r.y * r.y) = S
    have e4 : max (T : ℝ) 0 = ((max T 0 : ℚ) : ℝ) := by push_cast; rfl
    have e5 : min ((T : ℝ) + S) 1 = ((min (T + S) 1 : ℚ) : ℝ) := by push_cast; rfl
    rw [e4, e5]
    generalize max T 0 = X
    generalize min (T + S) 1 = Y
    have e6 : ∀ a b c : ℚ, (a : ℝ) + b * c = ((a + b * c : ℚ) : ℝ) := by intros; push_cast; rfl
    simp only [e6]
    have e7 : ((p.x + r.x * X : ℚ) : ℝ) = ((p.x + r.x * Y : ℚ) : ℝ) ∧ ((p.y + r.y * X : ℚ) : ℝ) = ((p.y + r.y * Y : ℚ) : ℝ) ↔
        p.x + r.x * X = p.x + r.x * Y ∧ p.y + r.y * X = p.y + r.y * Y := by
      rw [Rat.cast_inj, Rat.cast_inj]
    by_cases h2 : p.x + r.x * X = p.x + r.x * Y ∧ p.y + r.y * X = p.y + r.y * Y
    · rw [if_pos (e7.2 h2), if_pos h2]; rfl
    · rw [if_neg (fun h => h2 (e7.1 h)), if_neg h2]; rfl
  · rw [if_neg (fun h' => h1 (h.1 h')), if_neg h1]; rfl

theorem precedes_cast (a b : V2 ℚ) : precedes (castV a) (castV b) = precedes a b := by
  rw [Bool.eq_iff_iff, Proofs.Intersect.precedes_iff, Proofs.Intersect.precedes_iff]
  simp only [castV]
  exact_mod_cast Iff.rfl

theorem sub_cast (a b : V2 ℚ) : (castV a).sub (castV b) = castV (a.sub b) := by
  simp only [castV, exact_simp]; push_cast; rfl
theorem neg_cast (a : V2 ℚ) : (castV a).neg = castV a.neg := by
  simp only [castV, exact_simp]; push_cast; rfl
theorem perp_cast (a b : V2 ℚ) : (castV a).perpDot (castV b) = ((a.perpDot b : ℚ) : ℝ) := by
  simp only [castV, exact_simp]; push_cast; rfl

/-- rational segments: the real run is the rational run -/
theorem intersection_cast {a b c d : V2 ℚ} (hab : a ≠ b) (hcd : c ≠ d) :
    (Line2.mk (castV a) (castV b)).intersectionPoint ⟨castV c, castV d⟩ =
      castI ((Line2.mk a b).intersectionPoint ⟨c, d⟩) := by
  have ne : ∀ {p q : V2 ℚ}, p ≠ q → p.ulpsEq q = false ∧ (castV p).ulpsEq (castV q) = false := by
    intro p q h
    constructor
    · rw [Bool.eq_false_iff, ne_eq, Proofs.Intersect.v2_ulps]; exact h
    · rw [Bool.eq_false_iff, ne_eq, Proofs.Intersect.v2_ulps, castV_inj]; exact h
  rw [nd_eq (ne hab).2 (ne hcd).2, nd_eq (ne hab).1 (ne hcd).1]
  simp only [sub_cast, neg_cast, perp_cast, precedes_cast]
  have hbox : (Scalar.fmax (castV a).x (castV b).x <. Scalar.fmin (castV c).x (castV d).x
        || Scalar.fmin (castV a).x (castV b).x >. Scalar.fmax (castV c).x (castV d).x
        || Scalar.fmax (castV a).y (castV b).y <. Scalar.fmin (castV c).y (castV d).y
        || Scalar.fmin (castV a).y (castV b).y >. Scalar.fmax (castV c).y (castV d).y) =
      (Scalar.fmax a.x b.x <. Scalar.fmin c.x d.x || Scalar.fmin a.x b.x >. Scalar.fmax c.x d.x
        || Scalar.fmax a.y b.y <. Scalar.fmin c.y d.y || Scalar.fmin a.y b.y >. Scalar.fmax c.y d.y) := by
    rw [Bool.eq_iff_iff]
    simp only [castV, exact_simp]
    exact_mod_cast Iff.rfl
  rw [hbox]
  generalize (Scalar.fmax a.x b.x <. Scalar.fmin c.x d.x || Scalar.fmin a.x b.x >. Scalar.fmax c.x d.x
        || Scalar.fmax a.y b.y <. Scalar.fmin c.y d.y || Scalar.fmin a.y b.y >. Scalar.fmax c.y d.y) = bx
  cases bx with
  | true => rfl
  | false =>
    rw [if_neg Bool.false_ne_true, if_neg Bool.false_ne_true]
    have hz : Scalar.ulpsEq (((b.sub a).perpDot (d.sub c) : ℚ) : ℝ) Scalar.zero =
        Scalar.ulpsEq ((b.sub a).perpDot (d.sub c)) Scalar.zero := by
      rw [Bool.eq_iff_iff]
      simp only [exact_simp]
      exact_mod_cast Iff.rfl
    rw [hz]
    by_cases hp : Scalar.ulpsEq ((b.sub a).perpDot (d.sub c)) Scalar.zero = true
    · rw [if_pos hp, if_pos hp, ← parTail_cast]
      cases precedes a b <;> cases precedes c d <;> rfl
    · rw [if_neg hp, if_neg hp]
      have hdiv : ∀ x y : ℚ, Scalar.div (x : ℝ) (y : ℝ) = ((Scalar.div x y : ℚ) : ℝ) := by
        intro x y; simp only [exact_simp]; push_cast; rfl
      have hrng : ∀ x : ℚ, Scalar.inRange Scalar.zero Scalar.one (x : ℝ) = Scalar.inRange Scalar.zero Scalar.one x := by
        intro x
        rw [Bool.eq_iff_iff]
        simp only [exact_simp]
        exact_mod_cast Iff.rfl
      rw [hdiv, hdiv, hrng, hrng]
      generalize (Scalar.inRange Scalar.zero Scalar.one (Scalar.div ((c.sub a).perpDot (d.sub c)) ((b.sub a).perpDot (d.sub c))) &&
        Scalar.inRange Scalar.zero Scalar.one (Scalar.div ((c.sub a).perpDot (b.sub a)) ((b.sub a).perpDot (d.sub c)))) = ok
      cases ok with
      | false => rfl
      | true =>
        rw [if_pos rfl, if_pos rfl]
        simp only [castI, castV, exact_simp]
        push_cast
        rfl

/-- The computed intersection of two segments with ends on a good grid, none of which is a point, is
the result for the exact segments up to the error bound: of the same kind, and near it. -/
theorem computed_near_exact {s B : ℤ} (G : GoodGrid f s B) {a b c d : V2 (Flt f)} (ha : OnGrid s B a) (hb : OnGrid s B b)
    (hc : OnGrid s B c) (hd : OnGrid s B d) (hab : exact a ≠ exact b) (hcd : exact c ≠ exact d) :
    CloseI (delta f s B) ((Line2.mk a b).intersectionPoint ⟨c, d⟩)
      ((Line2.mk (exact a) (exact b)).intersectionPoint ⟨exact c, exact d⟩) := by
  obtain ⟨a1, a2, i1, i2, i3, i4⟩ := OnGrid.coords ha
  obtain ⟨b1, b2, j1, j2, j3, j4⟩ := OnGrid.coords hb
  obtain ⟨c1, c2, k1, k2, k3, k4⟩ := OnGrid.coords hc
  obtain ⟨d1, d2, l1, l2, l3, l4⟩ := OnGrid.coords hd
  have ea : exact a = Vq s a1 a2 := congrArg₂ V2.mk i1.2 i2.2
  have eb : exact b = Vq s b1 b2 := congrArg₂ V2.mk j1.2 j2.2
  have ec : exact c = Vq s c1 c2 := congrArg₂ V2.mk k1.2 k2.2
  have ed : exact d = Vq s d1 d2 := congrArg₂ V2.mk l1.2 l2.2
  have n1 : ¬ (a1 = b1 ∧ a2 = b2) := by
    rintro ⟨rfl, rfl⟩; exact hab (ea.trans eb.symm)
  have n2 : ¬ (c1 = d1 ∧ c2 = d2) := by
    rintro ⟨rfl, rfl⟩; exact hcd (ec.trans ed.symm)
  have hB : 1 ≤ B := by
    by_contra hc
    rw [abs_le] at i3 i4 j3 j4
    exact n1 ⟨by omega, by omega⟩
  rw [ea, eb, ec, ed]
  exact close_main G hB ⟨i1, i2⟩ ⟨j1, j2⟩ ⟨k1, k2⟩ ⟨l1, l2⟩ i3 i4 j3 j4 k3 k4 l3 l4 n1 n2

/-- The same, and the computed point is exact at the ends of the first segment. -/
theorem computed_sharp {s B : ℤ} (G : GoodGrid f s B) {a b c d : V2 (Flt f)} (ha : OnGrid s B a) (hb : OnGrid s B b)
    (hc : OnGrid s B c) (hd : OnGrid s B d) (hab : exact a ≠ exact b) (hcd : exact c ≠ exact d) :
    CloseR (delta f s B) (fun o e => ∀ x, x = a ∨ x = b → (e = exact x → exact o = exact x) ∧
        (e ≠ exact x → pow2 s ≤ 8 * (B * B) * |e.x - (exact x).x| ∨ pow2 s ≤ 8 * (B * B) * |e.y - (exact x).y|))
      ((Line2.mk a b).intersectionPoint ⟨c, d⟩)
      ((Line2.mk (exact a) (exact b)).intersectionPoint ⟨exact c, exact d⟩) := by
  obtain ⟨a1, a2, i1, i2, i3, i4⟩ := OnGrid.coords ha
  obtain ⟨b1, b2, j1, j2, j3, j4⟩ := OnGrid.coords hb
  obtain ⟨c1, c2, k1, k2, k3, k4⟩ := OnGrid.coords hc
  obtain ⟨d1, d2, l1, l2, l3, l4⟩ := OnGrid.coords hd
  have ea : exact a = Vq s a1 a2 := congrArg₂ V2.mk i1.2 i2.2
  have eb : exact b = Vq s b1 b2 := congrArg₂ V2.mk j1.2 j2.2
  have ec : exact c = Vq s c1 c2 := congrArg₂ V2.mk k1.2 k2.2
  have ed : exact d = Vq s d1 d2 := congrArg₂ V2.mk l1.2 l2.2
  have n1 : ¬ (a1 = b1 ∧ a2 = b2) := by
    rintro ⟨rfl, rfl⟩; exact hab (ea.trans eb.symm)
  have n2 : ¬ (c1 = d1 ∧ c2 = d2) := by
    rintro ⟨rfl, rfl⟩; exact hcd (ec.trans ed.symm)
  have hB : 1 ≤ B := by
    by_contra hc
    rw [abs_le] at i3 i4 j3 j4
    exact n1 ⟨by omega, by omega⟩
  have h := sharp_main G hB ⟨i1, i2⟩ ⟨j1, j2⟩ ⟨k1, k2⟩ ⟨l1, l2⟩ i3 i4 j3 j4 k3 k4 l3 l4 n1 n2
  rw [← ea, ← eb, ← ec, ← ed] at h
  refine h.mono ?_
  have conv : ∀ {x : V2 (Flt f)} {x1 x2 : ℤ}, exact x = Vq s x1 x2 → ∀ {o : V2 (Flt f)} {e : V2 ℚ}, Sharp s B x1 x2 o e →
      (e = exact x → exact o = exact x) ∧
        (e ≠ exact x → pow2 s ≤ 8 * (B * B) * |e.x - (exact x).x| ∨ pow2 s ≤ 8 * (B * B) * |e.y - (exact x).y|) := by
    intro x x1 x2 hx o e h
    rw [hx]
    refine ⟨fun he => ?_, h.2⟩
    obtain ⟨h1, h2⟩ := h.1 he
    exact congrArg₂ V2.mk h1.2 h2.2
  rintro o e ⟨h1, h2⟩ x (rfl | rfl)
  · exact conv ea h1
  · exact conv eb h2

theorem within_of_close {s B : ℤ} {p : V2 (Flt f)} {q : V2 ℚ} (h : CloseV (delta f s B) p q) :
    Within (gridError f s B) p (castV q) := by
  have e : ((delta f s B : ℚ) : ℝ) = gridError f s B := by
    unfold delta gridError
    rw [pow2_eq, pow2_eq]
    push_cast
    ring
  refine ⟨h.1.1, h.2.1, ?_, ?_⟩
  · rw [← e]
    have := h.1.2
    simp only [exactR, castV]
    exact_mod_cast this
  · rw [← e]
    have := h.2.2
    simp only [exactR, castV]
    exact_mod_cast this

/-- C77: on a grid, `intersection_point` in floating point reports the right kind of intersection, and
the reported coordinates are within the error bound of the exact ones. -/
theorem C77_intersection_on_floats {s B : ℤ} (G : GoodGrid f s B) {a b c d : V2 (Flt f)} (ha : OnGrid s B a)
    (hb : OnGrid s B b) (hc : OnGrid s B c) (hd : OnGrid s B d) (hab : exact a ≠ exact b) (hcd : exact c ≠ exact d) :
    match (Line2.mk a b).intersectionPoint ⟨c, d⟩ with
    | none => ∀ x : V2 ℝ, ¬ (OnSegment2 (exactR a) (exactR b) x ∧ OnSegment2 (exactR c) (exactR d) x)
    | some (.point p) => ∃ q : V2 ℝ, Within (gridError f s B) p q ∧
        ∀ x, (OnSegment2 (exactR a) (exactR b) x ∧ OnSegment2 (exactR c) (exactR d) x) ↔ x = q
    | some (.overlap o) => ∃ q0 q1 : V2 ℝ, q0 ≠ q1 ∧ Within (gridError f s B) o.start q0 ∧
        Within (gridError f s B) o.end q1 ∧
        ∀ x, (OnSegment2 (exactR a) (exactR b) x ∧ OnSegment2 (exactR c) (exactR d) x) ↔ OnSegment2 q0 q1 x := by
  have h := computed_near_exact G ha hb hc hd hab hcd
  have hr := intersection_cast hab hcd
  have h1 := fun x => Proofs.Intersect.intersectionPoint_denotes (Line2.mk (castV (exact a)) (castV (exact b))) ⟨castV (exact c), castV (exact d)⟩ x
  have h2 := fun o => Intersect.overlap_proper (Line2.mk (castV (exact a)) (castV (exact b))) ⟨castV (exact c), castV (exact d)⟩ o
  rw [hr] at h1 h2
  have e : ∀ p : V2 (Flt f), castV (exact p) = exactR p := fun _ => rfl
  simp only [e] at h1
  generalize (Line2.mk a b).intersectionPoint ⟨c, d⟩ = r at h
  generalize (Line2.mk (exact a) (exact b)).intersectionPoint ⟨exact c, exact d⟩ = r' at h h1 h2
  match r, r', h with
  | none, none, _ => exact fun x hx => (h1 x).2 hx
  | some (.point p), some (.point q), h => exact ⟨castV q, within_of_close h, fun x => (h1 x).symm⟩
  | some (.overlap o), some (.overlap o'), h =>
    exact ⟨castV o'.start, castV o'.end, h2 _ rfl, within_of_close h.1, within_of_close h.2, fun x => (h1 x).symm⟩

/-- C77: a common point that is an end of the first segment is reported exactly. -/
theorem C77_exact_at_the_ends {s B : ℤ} (G : GoodGrid f s B) {a b c d : V2 (Flt f)} (ha : OnGrid s B a)
    (hb : OnGrid s B b) (hc : OnGrid s B c) (hd : OnGrid s B d) (hab : exact a ≠ exact b) (hcd : exact c ≠ exact d)
    {p x : V2 (Flt f)} (hp : (Line2.mk a b).intersectionPoint ⟨c, d⟩ = some (.point p)) (hx : x = a ∨ x = b)
    (hxo : OnSegment2 (exactR c) (exactR d) (exactR x)) : exact p = exact x := by
  have h := computed_sharp G ha hb hc hd hab hcd
  have hr := intersection_cast hab hcd
  have h1 := fun x => Proofs.Intersect.intersectionPoint_denotes (Line2.mk (castV (exact a)) (castV (exact b))) ⟨castV (exact c), castV (exact d)⟩ x
  rw [hr] at h1
  rw [hp] at h
  generalize (Line2.mk (exact a) (exact b)).intersectionPoint ⟨exact c, exact d⟩ = r' at h h1
  match r', h with
  | some (.point q), h =>
    have hxx : OnSegment2 (castV (exact a)) (castV (exact b)) (castV (exact x)) := by
      rcases hx with rfl | rfl
      · exact Proofs.Intersect.onSeg_start _ _
      · exact Proofs.Intersect.onSeg_end _ _
    have h2 : castV (exact x) = castV q := (h1 (castV (exact x))).2 ⟨hxx, hxo⟩
    exact ((h.2 x hx).1 (castV_inj.1 h2).symm)

/-- C77: something is reported exactly if the exact segments have a common point. -/
theorem C77_reported_iff_common_point {s B : ℤ} (G : GoodGrid f s B) {a b c d : V2 (Flt f)} (ha : OnGrid s B a)
    (hb : OnGrid s B b) (hc : OnGrid s B c) (hd : OnGrid s B d) (hab : exact a ≠ exact b) (hcd : exact c ≠ exact d) :
    ((Line2.mk a b).intersectionPoint ⟨c, d⟩).isSome = true ↔
      ∃ x : V2 ℝ, OnSegment2 (exactR a) (exactR b) x ∧ OnSegment2 (exactR c) (exactR d) x := by
  have h := C77_intersection_on_floats G ha hb hc hd hab hcd
  generalize (Line2.mk a b).intersectionPoint ⟨c, d⟩ = r at h
  match r, h with
  | .none, h => simpa using h
  | some (.point p), h => obtain ⟨q, -, h⟩ := h; exact ⟨fun _ => ⟨q, (h q).2 rfl⟩, fun _ => rfl⟩
  | some (.overlap o), h =>
    obtain ⟨q0, q1, -, -, -, h⟩ := h
    exact ⟨fun _ => ⟨q0, (h q0).2 ⟨0, le_rfl, zero_le_one, by simp [lerp2]⟩⟩, fun _ => rfl⟩

/-- C77: swapping the segments, or reversing one of them, does not change whether something is reported. -/
theorem C77_symmetric {s B : ℤ} (G : GoodGrid f s B) {a b c d : V2 (Flt f)} (ha : OnGrid s B a)
    (hb : OnGrid s B b) (hc : OnGrid s B c) (hd : OnGrid s B d) (hab : exact a ≠ exact b) (hcd : exact c ≠ exact d) :
    ((Line2.mk c d).intersectionPoint ⟨a, b⟩).isSome = ((Line2.mk a b).intersectionPoint ⟨c, d⟩).isSome ∧
      ((Line2.mk b a).intersectionPoint ⟨c, d⟩).isSome = ((Line2.mk a b).intersectionPoint ⟨c, d⟩).isSome := by
  have hsym : ∀ (p q x : V2 ℝ), OnSegment2 p q x ↔ OnSegment2 q p x := fun p q x =>
    ⟨Proofs.Intersect.onSeg_symm, Proofs.Intersect.onSeg_symm⟩
  constructor
  · rw [Bool.eq_iff_iff, C77_reported_iff_common_point G hc hd ha hb hcd hab,
      C77_reported_iff_common_point G ha hb hc hd hab hcd]
    simp only [and_comm]
  · rw [Bool.eq_iff_iff, C77_reported_iff_common_point G hb ha hc hd hab.symm hcd,
      C77_reported_iff_common_point G ha hb hc hd hab hcd]
    simp only [hsym (exactR b) (exactR a)]

end

/-- C77: a common point that is an end of the second segment need not be: the segment from (0, 0) to (49, 98)
passes through (1, 2), and the point reported for it and the segment from (1, 2) to (0, 5) is not (1, 2).  With the
segments swapped it is. -/
theorem C77_not_exact_at_the_other_ends : let _ : Libm b64 := ⟨fun _ _ => .nan⟩
    (∃ p, (Line2.mk (ipt b64 0 0) (ipt b64 49 98)).intersectionPoint ⟨ipt b64 1 2, ipt b64 0 5⟩ = some (.point p) ∧
      exact p ≠ exact (ipt b64 1 2)) ∧
    ∃ p, (Line2.mk (ipt b64 1 2) (ipt b64 0 5)).intersectionPoint ⟨ipt b64 0 0, ipt b64 49 98⟩ = some (.point p) ∧
      exact p = exact (ipt b64 1 2) := by
  intro _
  refine ⟨⟨⟨Flt.ofQ false (9007199254740991/9007199254740992), Flt.ofQ false (9007199254740991/4503599627370496)⟩,
    ?_, ?_⟩, ipt b64 1 2, ?_, rfl⟩
  · decide +kernel
  · decide +kernel
  · decide +kernel

/-- the hypotheses of C77 are met by two crossing segments of floats -/
example : (let _ : Libm b64 := ⟨fun _ _ => .nan⟩
    ((Line2.mk (ipt b64 0 0) (ipt b64 300 100)).intersectionPoint ⟨ipt b64 0 70, ipt b64 200 (-1)⟩).isSome = true) := by
  intro _
  have g : ∀ k l : ℤ, |k| ≤ 300 → |l| ≤ 300 → OnGrid 0 (2 ^ 23) (ipt b64 k l) ∧ exact (ipt b64 k l) = ⟨k, l⟩ := fun k l hk hl =>
    onGrid_ipt goodGrid64 (hk.trans (by norm_num)) (hl.trans (by norm_num))
  have hR : ∀ k l : ℤ, |k| ≤ 300 → |l| ≤ 300 → exactR (ipt b64 k l) = ⟨k, l⟩ := by
    intro k l hk hl
    have : exactR (ipt b64 k l) = castV (exact (ipt b64 k l)) := rfl
    rw [this, (g k l hk hl).2]
    simp [castV]
  rw [C77_reported_iff_common_point goodGrid64 (g 0 0 (by decide) (by decide)).1 (g 300 100 (by decide) (by decide)).1
    (g 0 70 (by decide) (by decide)).1 (g 200 (-1) (by decide) (by decide)).1
    (by rw [(g 0 0 (by decide) (by decide)).2, (g 300 100 (by decide) (by decide)).2]; norm_num)
    (by rw [(g 0 70 (by decide) (by decide)).2, (g 200 (-1) (by decide) (by decide)).2]; norm_num)]
  rw [hR 0 0 (by decide) (by decide), hR 300 100 (by decide) (by decide), hR 0 70 (by decide) (by decide),
    hR 200 (-1) (by decide) (by decide)]
  refine ⟨⟨42000 / 413, 14000 / 413⟩, ⟨140 / 413, by norm_num, by norm_num, ?_⟩, ⟨210 / 413, by norm_num, by norm_num, ?_⟩⟩
  · simp only [lerp2]; norm_num
  · simp only [lerp2]; norm_num

end Verif.Props
