import Verif.Props.FloatContain
/-!
# Floats with tiny coordinates

`GoodGrid` asks for a grid that is not too fine.  This is needed: `ulps_eq` compares with an absolute
tolerance, so that in `f64` all points closer to the origin than 2^-28 are collinear for the crate.
-/
namespace Verif.Spec
open Verif

/-- finite coordinates of absolute value at most `2^-((prec+3)/2)`: 2^-28 for `f64`, 2^-13 for `f32` -/
def Tiny {f : Fmt} (p : V2 (Flt f)) : Prop :=
  p.x.isFin = true ∧ p.y.isFin = true ∧ |p.x.val| ≤ (2 : ℚ) ^ (-(((f.prec + 3) / 2 : ℕ) : ℤ)) ∧
    |p.y.val| ≤ (2 : ℚ) ^ (-(((f.prec + 3) / 2 : ℕ) : ℤ))

end Verif.Spec

namespace Verif.Props
open Verif Verif.Model Verif.Spec Scalar Fl Flt
set_option linter.unusedSectionVars false

/-- rounding does not leave an interval with representable ends -/
theorem abs_roundQ_le {f : Fmt} {q r : ℚ} (hr : Repr f r) (h : |q| ≤ r) : |roundQ f q| ≤ r := by
  rw [abs_le] at h ⊢
  have h1 := roundQ_mono f h.1
  have h2 := roundQ_mono f h.2
  rw [roundQ_neg, hr.fix] at h1
  rw [hr.fix] at h2
  exact ⟨h1, h2⟩

theorem repr_pow2 {f : Fmt} {e : ℤ} (h1 : f.emin ≤ e) (h2 : f.prec + e < f.emax) : Repr f (pow2 e) := by
  have := Flt.repr_grid (f := f) (e := e) (n := 1) ⟨h1, h2⟩ (by simpa using one_le_pow₀ (by norm_num))
  simpa using this

theorem tiny_cross {f : Fmt} [Libm f] (a b c : V2 (Flt f)) (ha : Tiny a) (hb : Tiny b) (hc : Tiny c) :
    ∃ q, Is (cross2d a b c) q ∧ |q| ≤ pow2 (1 - f.prec) := by
  obtain ⟨t, ht⟩ : ∃ t : ℤ, t = (((f.prec + 3) / 2 : ℕ) : ℤ) := ⟨_, rfl⟩
  unfold Tiny at ha hb hc
  rw [← ht, ← pow2_eq] at ha hb hc
  have h1 := f.hprec
  have h2 := f.hemin
  have h3 := f.hemax
  have r1 : Repr f (pow2 (1 - t)) := repr_pow2 (by omega) (by omega)
  have r2 : Repr f (pow2 (2 - 2 * t)) := repr_pow2 (by omega) (by omega)
  have r3 : Repr f (pow2 (1 - f.prec)) := repr_pow2 (by omega) (by omega)
  have p1 : pow2 (1 - t) = 2 * pow2 (-t) := by
    rw [show 1 - t = 1 + -t by ring, pow2_add, pow2_eq 1]; norm_num
  have p2 : pow2 (2 - 2 * t) = pow2 (1 - t) * pow2 (1 - t) := by
    rw [← pow2_add]; congr 1; ring
  have p3 : 2 * pow2 (2 - 2 * t) ≤ pow2 (1 - f.prec) := by
    have : 2 * pow2 (2 - 2 * t) = pow2 (3 - 2 * t) := by
      rw [show 3 - 2 * t = 1 + (2 - 2 * t) by ring, pow2_add, pow2_eq 1]; norm_num
    rw [this]; exact pow2_le (by omega)
  have sub : ∀ {u v : Flt f}, u.isFin = true → v.isFin = true → |u.val| ≤ pow2 (-t) → |v.val| ≤ pow2 (-t) →
      ∃ q, Is (Flt.sub u v) q ∧ |q| ≤ pow2 (1 - t) := by
    intro u v hu hv bu bv
    have hb : |roundQ f (u.val - v.val)| ≤ pow2 (1 - t) := by
      apply abs_roundQ_le r1
      have := abs_sub u.val v.val
      linarith
    exact ⟨_, is_sub (is_self hu) (is_self hv) (lt_of_le_of_lt (hb.trans (le_abs_self _)) r1.1), hb⟩
  have mul : ∀ {u v : Flt f} {x y : ℚ}, Is u x → Is v y → |x| ≤ pow2 (1 - t) → |y| ≤ pow2 (1 - t) →
      ∃ q, Is (Flt.mul u v) q ∧ |q| ≤ pow2 (2 - 2 * t) := by
    intro u v x y hu hv bx by'
    have hb : |roundQ f (x * y)| ≤ pow2 (2 - 2 * t) := by
      apply abs_roundQ_le r2
      rw [abs_mul, p2]
      exact mul_le_mul bx by' (abs_nonneg _) (pow2_pos _).le
    exact ⟨_, is_mul hu hv (lt_of_le_of_lt (hb.trans (le_abs_self _)) r2.1), hb⟩
  obtain ⟨q1, i1, b1⟩ := sub hb.1 ha.1 hb.2.2.1 ha.2.2.1
  obtain ⟨q2, i2, b2⟩ := sub hb.2.1 ha.2.1 hb.2.2.2 ha.2.2.2
  obtain ⟨q3, i3, b3⟩ := sub hc.1 ha.1 hc.2.2.1 ha.2.2.1
  obtain ⟨q4, i4, b4⟩ := sub hc.2.1 ha.2.1 hc.2.2.2 ha.2.2.2
  obtain ⟨m1, j1, d1⟩ := mul i1 i4 b1 b4
  obtain ⟨m2, j2, d2⟩ := mul i2 i3 b2 b3
  have hb : |roundQ f (m1 - m2)| ≤ pow2 (1 - f.prec) := by
    apply abs_roundQ_le r3
    have := abs_sub m1 m2
    linarith
  exact ⟨_, is_sub j1 j2 (lt_of_le_of_lt (hb.trans (le_abs_self _)) r3.1), hb⟩

theorem tiny_ulps {f : Fmt} {a : Flt f} {q : ℚ} (h : Is a q) (hq : |q| ≤ pow2 (1 - f.prec)) :
    Flt.ulpsEq a (.zero false) = true := by
  have hr := is_repr h
  have h1 := is_sub h (is_zero (f := f) false) (by rw [sub_zero, hr.fix]; exact hr.1)
  rw [sub_zero, hr.fix] at h1
  unfold Flt.ulpsEq
  rw [is_le (is_abs h1) is_epsilon, decide_eq_true hq, if_pos rfl]

/-- C71: among tiny points the crate sees only straight lines: every three of them are collinear, and
every one is "left or collinear" of every edge. -/
theorem C71_tiny_points_are_collinear {f : Fmt} [Libm f] (a b c : V2 (Flt f)) (ha : Tiny a) (hb : Tiny b)
    (hc : Tiny c) : pointOrientation a b c = .collinear ∧ isPointLeftAllowCollinear a b c = true := by
  obtain ⟨q, h1, h2⟩ := tiny_cross a b c ha hb hc
  have h3 : (Scalar.ulpsEq (cross2d a b c) Scalar.zero) = true := tiny_ulps h1 h2
  unfold pointOrientation isPointLeftAllowCollinear
  simp only [h3, Bool.or_true, if_true, and_self]

/-- a libm for evaluating examples: the functions they run do not call `atan2` -/
@[reducible] def noAtan (f : Fmt) : Libm f := ⟨fun _ _ => .nan⟩

/-- a point given by multiples of 2^e -/
def tinyPt (e k l : ℤ) : V2 F64 := ⟨Flt.ofQ false (k * pow2 e), Flt.ofQ false (l * pow2 e)⟩

/-- C71 (finding): in `f64` the hull of a square with side 2^-30 loses two corners … -/
theorem C71_hull_of_a_tiny_square :
    (let _ := noAtan b64
     giftWrap 100 [tinyPt (-30) 0 0, tinyPt (-30) 1 0, tinyPt (-30) 1 1, tinyPt (-30) 0 1]) =
       .ok [tinyPt (-30) 0 0, tinyPt (-30) 1 1, tinyPt (-30) 0 0] := by decide +kernel

/-- … and `contains_point_inclusive` accepts points far outside of it. -/
theorem C71_tiny_square_contains_points_outside :
    (let _ := noAtan b64
     containsPointInclusive [tinyPt (-30) 0 0, tinyPt (-30) 1 0, tinyPt (-30) 1 1, tinyPt (-30) 0 1, tinyPt (-30) 0 0]
       (tinyPt (-30) 4 4)) = .ok true := by decide +kernel

example : Tiny (tinyPt (-30) 4 4) ∧ Tiny (tinyPt (-30) 1 0) ∧ Tiny (tinyPt (-30) 0 1) ∧
    orient (exact (tinyPt (-30) 4 4)) (exact (tinyPt (-30) 1 0)) (exact (tinyPt (-30) 0 1)) ≠ 0 := by
  unfold Tiny; decide +kernel

/-- C71 (finding): in `f64` the gift wrapping of the square with the corners (±2^1023, ±2^1023), whose sides have an
infinite computed length, visits a corner twice and turns the wrong way. -/
theorem C71_hull_of_a_huge_square :
    (let _ := noAtan b64
     giftWrap 100 [tinyPt 1023 (-1) (-1), tinyPt 1023 1 (-1), tinyPt 1023 1 1, tinyPt 1023 (-1) 1]) =
       .ok [tinyPt 1023 (-1) (-1), tinyPt 1023 (-1) 1, tinyPt 1023 1 1, tinyPt 1023 1 (-1), tinyPt 1023 1 1, tinyPt 1023 (-1) (-1)] := by
  decide +kernel

/-- C71 (finding): with the corners (±2^600, ±2^600) the products overflow and the square does not contain its centre. -/
theorem C71_huge_square_loses_its_centre :
    (let _ := noAtan b64
     containsPointInclusive [tinyPt 600 (-1) (-1), tinyPt 600 1 (-1), tinyPt 600 1 1, tinyPt 600 (-1) 1, tinyPt 600 (-1) (-1)]
       (tinyPt 600 0 0)) = .ok false := by decide +kernel

end Verif.Props
