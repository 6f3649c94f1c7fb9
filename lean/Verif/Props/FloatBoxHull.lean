import Verif.Props.BoxHull
import Verif.Props.FloatContain
import Verif.Props.FloatBox
/-!
# C110 in floating point
-/
namespace Verif.Props.BoxHull
open Verif Verif.Model Verif.Spec Verif.Hull Verif.Props Scalar Fl Flt Verif.Proofs.Transfer Verif.Proofs.FloatHull
set_option linter.unusedSectionVars false
section
variable {f : Fmt} [Libm f]

/-- the two comparisons of the test of a box, on a grid -/
theorem coord_tests {s B : ℤ} (G : GoodGrid f s B) {x y : Flt f} {k l : ℤ} (hx : Is x (k * pow2 s)) (hy : Is y (l * pow2 s))
    (hk : |k| ≤ B) (hl : |l| ≤ B) :
    ((x <. y || Scalar.ulpsEq x y) = true ↔ x.val ≤ y.val) ∧ ((y >. x || Scalar.ulpsEq y x) = true ↔ x.val ≤ y.val) := by
  have hu := pow2_pos s
  have hBP : B < 2 ^ (f.prec - 3) := by
    have := G.small
    have h0 : 0 ≤ B := (abs_nonneg _).trans hk
    have hPp : (0 : ℤ) < 2 ^ (f.prec - 3) := by positivity
    nlinarith
  have hc : 2 - (f.prec : ℤ) ≤ s := by have := G.coarse; have := f.hprec; omega
  have u1 : Scalar.ulpsEq x y = decide (k = l) := grid_ulps (GoodGrid.unit G) hc hx hy (by omega) (by omega)
  have u2 : Scalar.ulpsEq y x = decide (l = k) := grid_ulps (GoodGrid.unit G) hc hy hx (by omega) (by omega)
  have l1 : (x <. y) = decide ((k * pow2 s : ℚ) < l * pow2 s) := is_lt hx hy
  have e : ((k * pow2 s : ℚ) < l * pow2 s) ↔ k < l := by
    rw [mul_lt_mul_iff_left₀ hu]; exact_mod_cast Iff.rfl
  have e' : ((k * pow2 s : ℚ) ≤ l * pow2 s) ↔ k ≤ l := by
    rw [mul_le_mul_iff_left₀ hu]; exact_mod_cast Iff.rfl
  have l2 : (y >. x) = decide ((k * pow2 s : ℚ) < l * pow2 s) := l1
  rw [l1, l2, u1, u2, hx.val, hy.val, e']
  simp only [Bool.or_eq_true, decide_eq_true_eq, e]
  omega

/-- **C110** `contains_point_inclusive` of a box is exact for points on a grid. -/
theorem C110_box_test_on_floats {s B : ℤ} (G : GoodGrid f s B) (b : Aabb2 (Flt f)) (lo hi : V2 (Flt f)) (hb : b.minMax = some (lo, hi))
    (hl : OnGrid s B lo) (hh : OnGrid s B hi) (p : V2 (Flt f)) (hp : OnGrid s B p) :
    b.containsPoint p = true ↔
      lo.x.val ≤ p.x.val ∧ lo.y.val ≤ p.y.val ∧ p.x.val ≤ hi.x.val ∧ p.y.val ≤ hi.y.val := by
  obtain ⟨a1, a2, i1, i2, i3, i4⟩ := OnGrid.coords hl
  obtain ⟨b1, b2, j1, j2, j3, j4⟩ := OnGrid.coords hh
  obtain ⟨c1, c2, k1, k2, k3, k4⟩ := OnGrid.coords hp
  unfold Aabb2.containsPoint
  rw [hb]
  simp only [Aabb2.containsPoint_]
  rw [Bool.and_eq_true, Bool.and_eq_true, Bool.and_eq_true, (coord_tests G i1 k1 i3 k3).1, (coord_tests G i2 k2 i4 k4).1,
    (coord_tests G k1 j1 k3 j3).2, (coord_tests G k2 j2 k4 j4).2]
  tauto

/-- the corners of a box on a grid are on the grid -/
theorem rect_grid {s B : ℤ} {lo hi : V2 (Flt f)} (hl : OnGrid s B lo) (hh : OnGrid s B hi) :
    ∀ v ∈ [(⟨lo.x, lo.y⟩ : V2 (Flt f)), ⟨hi.x, lo.y⟩, ⟨hi.x, hi.y⟩, ⟨lo.x, hi.y⟩, ⟨lo.x, lo.y⟩], OnGrid s B v := by
  obtain ⟨f1, f2, k, l, g1, g2, g3, g4⟩ := hl
  obtain ⟨f1', f2', k', l', g1', g2', g3', g4'⟩ := hh
  intro v hv
  simp only [List.mem_cons, List.not_mem_nil, or_false] at hv
  rcases hv with rfl | rfl | rfl | rfl | rfl
  · exact ⟨f1, f2, k, l, g1, g2, g3, g4⟩
  · exact ⟨f1', f2, k', l, g1', g2, g3', g4⟩
  · exact ⟨f1', f2', k', l', g1', g2', g3', g4'⟩
  · exact ⟨f1, f2', k, l', g1, g2', g3, g4'⟩
  · exact ⟨f1, f2, k, l, g1, g2, g3, g4⟩

/-- **C110** on a good grid of floats, too: the loop around a box with width and height is a hull, and the tests of the box, of the
loop as a hull and of the loop as a line string agree for every point of the grid. -/
theorem C110_containment_agrees_on_floats {s B : ℤ} (G : GoodGrid f s B) (b : Aabb2 (Flt f)) (lo hi : V2 (Flt f))
    (hb : b.minMax = some (lo, hi)) (hl : OnGrid s B lo) (hh : OnGrid s B hi) (hx : lo.x.val < hi.x.val) (hy : lo.y.val < hi.y.val) :
    ∃ hull, b.convexHull = some hull ∧ IsHullLoop (hull.map exact) (hull.map exact) ∧
      ∀ p, OnGrid s B p →
        containsPointInclusive hull p = .ok (b.containsPoint p) ∧ lineContainsInclusive hull p = .ok (b.containsPoint p) ∧
        (containsPointExclusive hull p = .ok true →
          lo.x.val < p.x.val ∧ p.x.val < hi.x.val ∧ lo.y.val < p.y.val ∧ p.y.val < hi.y.val) := by
  obtain ⟨h1, h2⟩ := rect_loop (exact lo) (exact hi) hx hy
  obtain ⟨hull, eh⟩ : ∃ hull : List (V2 (Flt f)),
    hull = [⟨lo.x, lo.y⟩, ⟨hi.x, lo.y⟩, ⟨hi.x, hi.y⟩, ⟨lo.x, hi.y⟩, ⟨lo.x, lo.y⟩] := ⟨_, rfl⟩
  have em : hull.map exact = rect (exact lo) (exact hi) := by rw [eh]; rfl
  have hg : ∀ v ∈ hull, OnGrid s B v := by rw [eh]; exact rect_grid hl hh
  have hlen : 3 < hull.length := by simp [eh]
  have hloop : IsHullLoop (hull.map exact) (hull.map exact) := by rw [em]; exact h1
  have hbh : b.convexHull = some hull := by
    unfold Aabb2.convexHull; rw [hb, eh]; rfl
  refine ⟨hull, hbh, hloop, fun p hp => ?_⟩
  obtain ⟨bq, eb⟩ : ∃ bq : Aabb2 ℚ, bq = ⟨some (exact lo, exact hi)⟩ := ⟨_, rfl⟩
  obtain ⟨hq, ehq, hag, -⟩ := C110_containment_agrees bq (exact lo) (exact hi) (by rw [eb]) hx hy
  rw [hull_of_box bq _ _ (by rw [eb])] at ehq
  cases ehq
  obtain ⟨q1, q2, q3⟩ := hag (exact p)
  obtain ⟨r, r1, r2, r3⟩ := C75_contains_inclusive_on_floats G hg hloop hlen p hp
  obtain ⟨r', t1, t2⟩ := C42_inclusive_iff_left_of_every_edge h1 (by simp [rect]) (exact p)
  rw [em] at r3
  have e1 : r = bq.containsPoint (exact p) := by
    rw [q1] at t1; cases t1
    exact Bool.eq_iff_iff.2 (r3.trans t2.symm)
  have e2 : bq.containsPoint (exact p) = b.containsPoint p := by
    rw [Bool.eq_iff_iff, Aabb.C32_contains_point2, C110_box_test_on_floats G b lo hi hb hl hh p hp, eb]
    constructor
    · rintro ⟨l, u, e, x1, x2, y1, y2⟩
      cases e
      exact ⟨x1, y1, x2, y2⟩
    · rintro ⟨x1, y1, x2, y2⟩
      exact ⟨_, _, rfl, x1, x2, y1, y2⟩
  rw [e1, e2] at r1 r2
  refine ⟨r1, r2, fun hex => ?_⟩
  obtain ⟨w, w1, -, w2, -⟩ := C75_contains_exclusive_on_floats G hg hloop hlen p hp
  rw [hex] at w1; cases w1
  have hin := w2 rfl
  rw [em] at hin
  have e0 := hin 0 ⟨(exact lo).x, (exact lo).y⟩ ⟨(exact hi).x, (exact lo).y⟩ rfl rfl
  have e1 := hin 1 ⟨(exact hi).x, (exact lo).y⟩ ⟨(exact hi).x, (exact hi).y⟩ rfl rfl
  have e2 := hin 2 ⟨(exact hi).x, (exact hi).y⟩ ⟨(exact lo).x, (exact hi).y⟩ rfl rfl
  have e3 := hin 3 ⟨(exact lo).x, (exact hi).y⟩ ⟨(exact lo).x, (exact lo).y⟩ rfl rfl
  simp only [orient, exact] at e0 e1 e2 e3
  have px : 0 < hi.x.val - lo.x.val := by linarith
  have py : 0 < hi.y.val - lo.y.val := by linarith
  refine ⟨?_, ?_, ?_, ?_⟩
  · have : 0 < (hi.y.val - lo.y.val) * (p.x.val - lo.x.val) := by linarith
    linarith [(mul_pos_iff_of_pos_left py).1 this]
  · have : 0 < (hi.y.val - lo.y.val) * (hi.x.val - p.x.val) := by linarith
    linarith [(mul_pos_iff_of_pos_left py).1 this]
  · have : 0 < (hi.x.val - lo.x.val) * (p.y.val - lo.y.val) := by linarith
    linarith [(mul_pos_iff_of_pos_left px).1 this]
  · have : 0 < (hi.x.val - lo.x.val) * (hi.y.val - p.y.val) := by linarith
    linarith [(mul_pos_iff_of_pos_left px).1 this]

theorem ekey_le {a b : Flt f} {x y : ℚ} (ha : Is a x) (hb : Is b y) (h : ekey a ≤ ekey b) : x ≤ y := by
  have hk : ∀ {a : Flt f} {x : ℚ}, Is a x → ekey a = ((x : WithTop ℚ) : WithBot (WithTop ℚ)) := by
    intro a x h
    obtain ⟨h1, h2⟩ := h
    cases a with
    | inf s => simp [Flt.isFin] at h1
    | _ => rw [← h2]; rfl
  rw [hk ha, hk hb] at h
  exact_mod_cast h

/-- the box of points on a grid -/
theorem box_on_grid {s B : ℤ} {pts : List (V2 (Flt f))} (hg : ∀ q ∈ pts, OnGrid s B q) (hne : pts ≠ []) :
    ∃ lo hi, (Aabb2.withPoints pts).minMax = some (lo, hi) ∧ OnGrid s B lo ∧ OnGrid s B hi ∧
      (∀ q ∈ pts, lo.x.val ≤ q.x.val ∧ lo.y.val ≤ q.y.val ∧ q.x.val ≤ hi.x.val ∧ q.y.val ≤ hi.y.val) ∧
      (∃ q ∈ pts, q.x = lo.x) ∧ (∃ q ∈ pts, q.y = lo.y) ∧ (∃ q ∈ pts, q.x = hi.x) ∧ (∃ q ∈ pts, q.y = hi.y) := by
  obtain ⟨h1, h2⟩ := C76_box2_on_floats (.withPoints pts : Hist2 (Flt f))
  simp only [Hist2.run, Hist2.fed] at h1 h2
  obtain ⟨mm, em⟩ : ∃ mm, (Aabb2.withPoints pts).minMax = mm := ⟨_, rfl⟩
  rcases mm with _ | ⟨lo, hi⟩
  · exact absurd (h1.1 em) hne
  obtain ⟨rx, ry⟩ := h2 lo hi em
  have nn : ∀ {a : Flt f}, a.isFin = true → a ≠ .nan := by rintro a h rfl; simp [Flt.isFin] at h
  obtain ⟨q0, hq0⟩ := List.exists_mem_of_ne_nil _ hne
  have rx' : lo.x ∈ pts.map (·.x) ∧ hi.x ∈ pts.map (·.x) ∧ ∀ x ∈ pts.map (·.x), x ≠ .nan → ekey lo.x ≤ ekey x ∧ ekey x ≤ ekey hi.x := by
    rcases rx with ⟨-, -, -, h⟩ | ⟨h3, h4, -, -, h5⟩
    · exact absurd (h _ (List.mem_map_of_mem hq0)) (nn (hg _ hq0).1)
    · exact ⟨h3, h4, h5⟩
  have ry' : lo.y ∈ pts.map (·.y) ∧ hi.y ∈ pts.map (·.y) ∧ ∀ x ∈ pts.map (·.y), x ≠ .nan → ekey lo.y ≤ ekey x ∧ ekey x ≤ ekey hi.y := by
    rcases ry with ⟨-, -, -, h⟩ | ⟨h3, h4, -, -, h5⟩
    · exact absurd (h _ (List.mem_map_of_mem hq0)) (nn (hg _ hq0).2.1)
    · exact ⟨h3, h4, h5⟩
  obtain ⟨x1, x2, x3⟩ := rx'
  obtain ⟨y1, y2, y3⟩ := ry'
  simp only [List.mem_map] at x1 x2 y1 y2
  obtain ⟨a, ha, ea⟩ := x1
  obtain ⟨b, hb, eb⟩ := x2
  obtain ⟨c, hc, ec⟩ := y1
  obtain ⟨d, hd, ed⟩ := y2
  obtain ⟨a1, -, k1, l1, a2, a3, a4, a5⟩ := hg a ha
  obtain ⟨b1, -, k2, l2, b2, b3, b4, b5⟩ := hg b hb
  obtain ⟨-, c1, k3, l3, c2, c3, c4, c5⟩ := hg c hc
  obtain ⟨-, d1, k4, l4, d2, d3, d4, d5⟩ := hg d hd
  refine ⟨lo, hi, em, ⟨ea ▸ a1, ec ▸ c1, k1, l3, ea ▸ a2, ec ▸ c3, a4, c5⟩, ⟨eb ▸ b1, ed ▸ d1, k2, l4, eb ▸ b2, ed ▸ d3, b4, d5⟩,
    fun q hq => ?_, ⟨a, ha, ea⟩, ⟨c, hc, ec⟩, ⟨b, hb, eb⟩, ⟨d, hd, ed⟩⟩
  obtain ⟨q1, q2, -⟩ := hg q hq
  obtain ⟨u1, u2⟩ := x3 q.x (List.mem_map_of_mem hq) (nn q1)
  obtain ⟨u3, u4⟩ := y3 q.y (List.mem_map_of_mem hq) (nn q2)
  exact ⟨ekey_le (is_self (ea ▸ a1)) (is_self q1) u1, ekey_le (is_self (ec ▸ c1)) (is_self q2) u3,
    ekey_le (is_self q1) (is_self (eb ▸ b1)) u2, ekey_le (is_self q2) (is_self (ed ▸ d1)) u4⟩

/-- **C110** on a good grid of floats: `contains_convex_hull` of the loop around a box answers what `contains_aabb_inclusive` answers
for the box of the points, in both versions. -/
theorem C110_contains_hull_on_floats {s B : ℤ} (G : GoodGrid f s B) (b : Aabb2 (Flt f)) (lo hi : V2 (Flt f))
    (hb : b.minMax = some (lo, hi)) (hl : OnGrid s B lo) (hh : OnGrid s B hi) (hx : lo.x.val < hi.x.val) (hy : lo.y.val < hi.y.val)
    (pts : List (V2 (Flt f))) (hg : ∀ q ∈ pts, OnGrid s B q) (hne : pts ≠ []) :
    ∃ hull, b.convexHull = some hull ∧ containsConvexHull hull pts = .ok (b.containsAabb (Aabb2.withPoints pts)) ∧
      ∀ order : List (V2 (Flt f)) → List (V2 (Flt f)), (∀ l, (order l).Perm l) →
        containsConvexHullPar order hull pts = .ok (b.containsAabb (Aabb2.withPoints pts)) := by
  obtain ⟨hull, eh, hloop, hag⟩ := C110_containment_agrees_on_floats G b lo hi hb hl hh hx hy
  have eh' := eh
  unfold Aabb2.convexHull at eh'
  rw [hb] at eh'
  have hgr : ∀ v ∈ hull, OnGrid s B v := by cases eh'; exact rect_grid hl hh
  have hlen : 3 < hull.length := by cases eh'; simp
  obtain ⟨r, r1, r2, r3⟩ := C75_contains_convex_hull_on_floats G hgr hloop hlen pts hg
  have each : ∀ q, OnGrid s B q → (InLoop (hull.map exact) (exact q) ↔ b.containsPoint q = true) := by
    intro q hq
    obtain ⟨r', t1, -, t2⟩ := C75_contains_inclusive_on_floats G hgr hloop hlen q hq
    rw [(hag q hq).1] at t1
    cases t1
    exact t2.symm
  obtain ⟨lo', hi', e', gl, gh, hin, ⟨a, ha, ea⟩, ⟨c, hc, ec⟩, ⟨d, hd, ed⟩, ⟨g, hgm, eg⟩⟩ := box_on_grid hg hne
  have key : r = b.containsAabb (Aabb2.withPoints pts) := by
    have e2 : b.containsAabb (Aabb2.withPoints pts) = (b.containsPoint lo' && b.containsPoint hi') := by
      unfold Aabb2.containsAabb Aabb2.containsPoint
      rw [hb, e']
    rw [e2, Bool.eq_iff_iff, r3, Bool.and_eq_true, C110_box_test_on_floats G b lo hi hb hl hh _ gl,
      C110_box_test_on_floats G b lo hi hb hl hh _ gh]
    have each' : ∀ q ∈ pts, (InLoop (hull.map exact) (exact q) ↔
        lo.x.val ≤ q.x.val ∧ lo.y.val ≤ q.y.val ∧ q.x.val ≤ hi.x.val ∧ q.y.val ≤ hi.y.val) := fun q hq =>
      (each q (hg q hq)).trans (C110_box_test_on_floats G b lo hi hb hl hh q (hg q hq))
    constructor
    · intro h
      have ka := (each' a ha).1 (h a ha)
      have kc := (each' c hc).1 (h c hc)
      have kd := (each' d hd).1 (h d hd)
      have kg := (each' g hgm).1 (h g hgm)
      rw [← ea, ← ec, ← ed, ← eg]
      exact ⟨⟨ka.1, kc.2.1, ka.2.2.1, kc.2.2.2⟩, ⟨kd.1, kg.2.1, kd.2.2.1, kg.2.2.2⟩⟩
    · rintro ⟨⟨k1, k2, -, -⟩, ⟨-, -, k3, k4⟩⟩ q hq
      obtain ⟨j1, j2, j3, j4⟩ := hin q hq
      exact (each' q hq).2 ⟨k1.trans j1, k2.trans j2, j3.trans k3, j4.trans k4⟩
  exact ⟨hull, eh, by rw [r1, key], fun order ho => by rw [r2 order ho, key]⟩

/-- **C110** on a good grid of floats: what a computed hull contains is in the box of its points. -/
theorem C110_hull_in_box_on_floats {s B : ℤ} (G : GoodGrid f s B) {pts hull : List (V2 (Flt f))} (hg : ∀ q ∈ pts, OnGrid s B q)
    (hh : ∀ v ∈ hull, OnGrid s B v) (h : IsHullLoop (pts.map exact) (hull.map exact)) (hl : 3 < hull.length)
    (p : V2 (Flt f)) (hp : OnGrid s B p)
    (hc : containsPointInclusive hull p = .ok true ∨ containsPointExclusive hull p = .ok true) :
    (Aabb2.withPoints pts).containsPoint p = true := by
  have hin : InLoop (hull.map exact) (exact p) := by
    rcases hc with hc | hc
    · obtain ⟨r, hr, -, k⟩ := C75_contains_inclusive_on_floats G hh h hl p hp
      rw [hr] at hc; cases hc
      exact k.1 rfl
    · obtain ⟨r, hr, -, k, -⟩ := C75_contains_exclusive_on_floats G hh h hl p hp
      rw [hr] at hc; cases hc
      exact fun i a b ha hb => (k rfl i a b ha hb).le
  have hl' : 3 < (hull.map exact).length := by simpa using hl
  have hq : (Aabb2.withPoints (pts.map exact)).containsPoint (exact p) = true := by
    refine C110_hull_in_box h hl' (exact p) (Or.inl ?_)
    obtain ⟨r, hr, k⟩ := C42_inclusive_iff_left_of_every_edge h hl' (exact p)
    rw [hr, k.2 hin]
  have hne : pts ≠ [] := by
    rintro rfl
    obtain ⟨v, hv⟩ := List.exists_mem_of_length_pos (by omega : 0 < (hull.map exact).length)
    exact absurd (h.vertices v hv) (by simp)
  obtain ⟨lo, hi, e, gl, gh, hbx, -⟩ := box_on_grid hg hne
  rw [C110_box_test_on_floats G _ lo hi e gl gh p hp]
  obtain ⟨l, u, e', x1, x2, y1, y2⟩ := (Aabb.C32_contains_point2 _ _).1 hq
  have hB := Aabb.C30_box2_is_bounding_box (.withPoints (pts.map exact) : Hist2 ℚ)
  simp only [Hist2.run, Hist2.fed] at hB
  obtain ⟨c, ec⟩ : ∃ c, c = Aabb2.withPoints (pts.map exact) := ⟨_, rfl⟩
  rw [← ec] at hB e'
  obtain ⟨mm⟩ := c
  simp only at e'
  subst e'
  obtain ⟨⟨m1, m2, -⟩, ⟨n1, n2, -⟩⟩ := hB
  simp only [List.map_map, List.mem_map, Function.comp] at m1 m2 n1 n2
  obtain ⟨a, ha, ea⟩ := m1
  obtain ⟨b, hb, eb⟩ := m2
  obtain ⟨c, hc, ec⟩ := n1
  obtain ⟨d, hd, ed⟩ := n2
  rw [← ea] at x1; rw [← eb] at x2; rw [← ec] at y1; rw [← ed] at y2
  exact ⟨(hbx a ha).1.trans x1, (hbx c hc).2.1.trans y1, x2.trans (hbx b hb).2.2.1, y2.trans (hbx d hd).2.2.2⟩

end

/-- a box of doubles with corners at integers, and a point in it that the exclusive test accepts -/
example : (let _ := floorAtan b64
    ∃ hull, (⟨some (ipt b64 0 0, ipt b64 4 4)⟩ : Aabb2 F64).convexHull = some hull ∧
      containsPointInclusive hull (ipt b64 1 2) = .ok true ∧ containsPointInclusive hull (ipt b64 5 2) = .ok false ∧
      containsPointExclusive hull (ipt b64 1 2) = .ok true) := by
  let _ := floorAtan b64
  have on : ∀ k l : ℤ, |k| ≤ 2 ^ 23 → |l| ≤ 2 ^ 23 → OnGrid 0 (2 ^ 23) (ipt b64 k l) := fun k l hk hl => (onGrid_ipt goodGrid64 hk hl).1
  obtain ⟨hull, h1, h2, h3⟩ := C110_containment_agrees_on_floats goodGrid64 ⟨some (ipt b64 0 0, ipt b64 4 4)⟩ (ipt b64 0 0) (ipt b64 4 4)
    rfl (on 0 0 (by norm_num) (by norm_num)) (on 4 4 (by norm_num) (by norm_num)) (by decide +kernel) (by decide +kernel)
  refine ⟨hull, h1, ?_, ?_, ?_⟩
  · rw [(h3 _ (on 1 2 (by norm_num) (by norm_num))).1]
    exact congrArg Except.ok (by decide +kernel)
  · rw [(h3 _ (on 5 2 (by norm_num) (by norm_num))).1]
    exact congrArg Except.ok (by decide +kernel)
  · cases h1
    decide +kernel

/-- the same box contains two of three other points -/
example : (let _ := floorAtan b64
    ∃ hull, (⟨some (ipt b64 0 0, ipt b64 4 4)⟩ : Aabb2 F64).convexHull = some hull ∧
      containsConvexHull hull [ipt b64 1 2, ipt b64 4 3] = .ok true ∧
      containsConvexHull hull [ipt b64 1 2, ipt b64 5 3, ipt b64 4 3] = .ok false) := by
  let _ := floorAtan b64
  have on : ∀ k l : ℤ, |k| ≤ 2 ^ 23 → |l| ≤ 2 ^ 23 → OnGrid 0 (2 ^ 23) (ipt b64 k l) := fun k l hk hl => (onGrid_ipt goodGrid64 hk hl).1
  have run := C110_contains_hull_on_floats goodGrid64 ⟨some (ipt b64 0 0, ipt b64 4 4)⟩ (ipt b64 0 0) (ipt b64 4 4)
    rfl (on 0 0 (by norm_num) (by norm_num)) (on 4 4 (by norm_num) (by norm_num)) (by decide +kernel) (by decide +kernel)
  have g : ∀ q ∈ [ipt b64 1 2, ipt b64 5 3, ipt b64 4 3], OnGrid 0 (2 ^ 23) q := by
    intro q hq
    simp only [List.mem_cons, List.not_mem_nil, or_false] at hq
    rcases hq with rfl | rfl | rfl
    · exact on 1 2 (by norm_num) (by norm_num)
    · exact on 5 3 (by norm_num) (by norm_num)
    · exact on 4 3 (by norm_num) (by norm_num)
  obtain ⟨hull, h1, h2, -⟩ := run [ipt b64 1 2, ipt b64 4 3] (fun q hq => g q (by
    simp only [List.mem_cons, List.not_mem_nil, or_false] at hq ⊢; tauto)) (by simp)
  obtain ⟨hull', h1', h2', -⟩ := run [ipt b64 1 2, ipt b64 5 3, ipt b64 4 3] g (by simp)
  rw [h1] at h1'
  cases h1'
  refine ⟨hull, h1, ?_, ?_⟩
  · rw [h2]
    exact congrArg Except.ok (by decide +kernel)
  · rw [h2']
    exact congrArg Except.ok (by decide +kernel)

end Verif.Props.BoxHull
