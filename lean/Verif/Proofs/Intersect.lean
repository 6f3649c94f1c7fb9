import Verif.Model.LineString2
import Verif.Spec.Intersect
import Verif.Spec.Laws
/-!
# Segment intersection: geometry lemmas
-/
namespace Verif.Proofs.Intersect
set_option linter.unusedSectionVars false
open Verif Verif.Model Verif.Spec

section field
variable {K : Type} [Field K] [LinearOrder K] [IsStrictOrderedRing K]

theorem v2_ext {a b : V2 K} (hx : a.x = b.x) (hy : a.y = b.y) : a = b := by
  cases a; cases b; simp_all

theorem onSeg_symm {a b q : V2 K} (h : OnSegment2 a b q) : OnSegment2 b a q := by
  obtain ⟨t, h0, h1, rfl⟩ := h
  refine ⟨1 - t, by linarith, by linarith, ?_⟩
  simp only [lerp2, V2.mk.injEq]
  constructor <;> ring

theorem onSeg_start (a b : V2 K) : OnSegment2 a b a :=
  ⟨0, le_rfl, zero_le_one, by cases a; simp [lerp2]⟩
theorem onSeg_end (a b : V2 K) : OnSegment2 a b b :=
  ⟨1, zero_le_one, le_rfl, by cases a; cases b; simp [lerp2]⟩

theorem onSeg_self {a q : V2 K} (h : OnSegment2 a a q) : q = a := by
  obtain ⟨t, -, -, rfl⟩ := h
  apply v2_ext <;> simp [lerp2]

/-- the parametric form with a direction vector -/
def Par (p r x : V2 K) (t : K) : Prop := x.x = p.x + t * r.x ∧ x.y = p.y + t * r.y

theorem onSeg_par (a b x : V2 K) :
    OnSegment2 a b x ↔ ∃ t, 0 ≤ t ∧ t ≤ 1 ∧ Par a ⟨b.x - a.x, b.y - a.y⟩ x t := by
  unfold OnSegment2 Par lerp2
  constructor
  · rintro ⟨t, h0, h1, rfl⟩
    exact ⟨t, h0, h1, rfl, rfl⟩
  · rintro ⟨t, h0, h1, hx, hy⟩
    exact ⟨t, h0, h1, v2_ext hx hy⟩

theorem onSeg_bounds {a b x : V2 K} (h : OnSegment2 a b x) :
    min a.x b.x ≤ x.x ∧ x.x ≤ max a.x b.x ∧ min a.y b.y ≤ x.y ∧ x.y ≤ max a.y b.y := by
  have gen : ∀ u v t : K, 0 ≤ t → t ≤ 1 → min u v ≤ u + t * (v - u) ∧ u + t * (v - u) ≤ max u v := by
    intro u v t h0 h1
    rcases le_total u v with h | h
    · rw [min_eq_left h, max_eq_right h]
      constructor
      · have := mul_nonneg h0 (sub_nonneg.2 h); linarith
      · have := mul_nonneg (sub_nonneg.2 h1) (sub_nonneg.2 h); linarith
    · rw [min_eq_right h, max_eq_left h]
      constructor
      · have := mul_nonneg (sub_nonneg.2 h1) (sub_nonneg.2 h); linarith
      · have := mul_nonneg h0 (sub_nonneg.2 h); linarith
  obtain ⟨t, h0, h1, rfl⟩ := h
  exact ⟨(gen _ _ t h0 h1).1, (gen _ _ t h0 h1).2, (gen _ _ t h0 h1).1, (gen _ _ t h0 h1).2⟩

/-- two segments in general position: the common points -/
theorem cross_common (p r q s x : V2 K) (hc : r.x * s.y - r.y * s.x ≠ 0) :
    ((∃ t, 0 ≤ t ∧ t ≤ 1 ∧ Par p r x t) ∧ ∃ u, 0 ≤ u ∧ u ≤ 1 ∧ Par q s x u) ↔
      ∃ t u, t = ((q.x - p.x) * s.y - (q.y - p.y) * s.x) / (r.x * s.y - r.y * s.x) ∧
        u = ((q.x - p.x) * r.y - (q.y - p.y) * r.x) / (r.x * s.y - r.y * s.x) ∧
        0 ≤ t ∧ t ≤ 1 ∧ 0 ≤ u ∧ u ≤ 1 ∧ Par p r x t := by
  constructor
  · rintro ⟨⟨t, t0, t1, hx, hy⟩, u, u0, u1, hx', hy'⟩
    refine ⟨t, u, ?_, ?_, t0, t1, u0, u1, hx, hy⟩
    · rw [eq_div_iff hc]
      have e1 : q.x - p.x = t * r.x - u * s.x := by linarith
      have e2 : q.y - p.y = t * r.y - u * s.y := by linarith
      rw [e1, e2]; ring
    · rw [eq_div_iff hc]
      have e1 : q.x - p.x = t * r.x - u * s.x := by linarith
      have e2 : q.y - p.y = t * r.y - u * s.y := by linarith
      rw [e1, e2]; ring
  · rintro ⟨t, u, ht, hu, t0, t1, u0, u1, hx, hy⟩
    refine ⟨⟨t, t0, t1, hx, hy⟩, u, u0, u1, ?_, ?_⟩
    · rw [eq_div_iff hc] at ht hu
      apply mul_right_cancel₀ hc
      rw [hx]
      linear_combination r.x * ht - s.x * hu
    · rw [eq_div_iff hc] at ht hu
      apply mul_right_cancel₀ hc
      rw [hy]
      linear_combination r.y * ht - s.y * hu

/-- pointing to the right, or straight up -/
def LexPos (r : V2 K) : Prop := 0 < r.x ∨ (r.x = 0 ∧ 0 < r.y)

theorem lexPos_sq {r : V2 K} (h : LexPos r) : 0 < r.x * r.x + r.y * r.y := by
  rcases h with h | ⟨h0, h⟩
  · have := mul_pos h h; have := mul_self_nonneg r.y; linarith
  · rw [h0]; have := mul_pos h h; linarith

theorem proj_coords (r w : V2 K) (hr : 0 < r.x * r.x + r.y * r.y) (h : r.x * w.y - r.y * w.x = 0) :
    w.x = (w.x * r.x + w.y * r.y) / (r.x * r.x + r.y * r.y) * r.x ∧
    w.y = (w.x * r.x + w.y * r.y) / (r.x * r.x + r.y * r.y) * r.y := by
  constructor
  · rw [div_mul_eq_mul_div, eq_div_iff hr.ne']
    linear_combination (-r.y) * h
  · rw [div_mul_eq_mul_div, eq_div_iff hr.ne']
    linear_combination r.x * h

theorem pos_of_mul_pos_right {a b : K} (h : 0 < a * b) (hb : 0 ≤ b) : 0 < a := by
  by_contra hc
  push Not at hc
  have := mul_nonpos_of_nonpos_of_nonneg hc hb
  linarith

theorem collinear_coords (p r q s : V2 K) (hr : LexPos r) (hs : LexPos s)
    (hrs : r.x * s.y - r.y * s.x = 0)
    (hq : (q.x - p.x) * r.y - (q.y - p.y) * r.x = 0) :
    ∃ t0 c, t0 = ((q.x - p.x) * r.x + (q.y - p.y) * r.y) / (r.x * r.x + r.y * r.y) ∧
      c = (s.x * r.x + s.y * r.y) / (r.x * r.x + r.y * r.y) ∧ 0 < c ∧
      q.x = p.x + t0 * r.x ∧ q.y = p.y + t0 * r.y ∧ s.x = c * r.x ∧ s.y = c * r.y := by
  have hrr := lexPos_sq hr
  have h1 := proj_coords r ⟨q.x - p.x, q.y - p.y⟩ hrr (by simp only; linear_combination -hq)
  obtain ⟨hx, hy⟩ := proj_coords r s hrr hrs
  refine ⟨_, _, rfl, rfl, ?_, by linarith [h1.1], by linarith [h1.2], hx, hy⟩
  generalize (s.x * r.x + s.y * r.y) / (r.x * r.x + r.y * r.y) = c at hx hy
  rcases hr with hr | ⟨hr0, hr⟩
  · rcases hs with hs | ⟨hs0, hs⟩
    · rw [hx] at hs; exact pos_of_mul_pos_right hs hr.le
    · rw [hs0] at hx
      have : c = 0 := by
        rcases mul_eq_zero.1 hx.symm with h | h
        · exact h
        · exact absurd h hr.ne'
      rw [this] at hy; simp at hy; exact absurd hy hs.ne'
  · rcases hs with hs | ⟨hs0, hs⟩
    · rw [hx, hr0] at hs; simp at hs
    · rw [hy] at hs; exact pos_of_mul_pos_right hs hr.le

theorem par_unique {p r x : V2 K} (hr : LexPos r) {t u : K} (h : Par p r x t) (h' : Par p r x u) :
    t = u := by
  rcases hr with hr | ⟨-, hr⟩
  · have : t * r.x = u * r.x := by linarith [h.1, h'.1]
    exact mul_right_cancel₀ hr.ne' this
  · have : t * r.y = u * r.y := by linarith [h.2, h'.2]
    exact mul_right_cancel₀ hr.ne' this

/-- points of the segment `p + a r … p + b r` -/
theorem onSeg_between (p r x : V2 K) (a b : K) (hab : a ≤ b) :
    OnSegment2 ⟨p.x + r.x * a, p.y + r.y * a⟩ ⟨p.x + r.x * b, p.y + r.y * b⟩ x ↔
      ∃ t, a ≤ t ∧ t ≤ b ∧ Par p r x t := by
  constructor
  · rintro ⟨u, u0, u1, rfl⟩
    refine ⟨a + u * (b - a), ?_, ?_, ?_, ?_⟩
    · have := mul_nonneg u0 (sub_nonneg.2 hab); linarith
    · have := mul_nonneg (sub_nonneg.2 u1) (sub_nonneg.2 hab); linarith
    · simp only [lerp2]; ring
    · simp only [lerp2]; ring
  · rintro ⟨t, ht0, ht1, hx, hy⟩
    rcases hab.eq_or_lt with rfl | hlt
    · have : t = a := le_antisymm ht1 ht0
      subst this
      refine ⟨0, le_rfl, zero_le_one, v2_ext ?_ ?_⟩
      · simp only [lerp2]; rw [hx]; ring
      · simp only [lerp2]; rw [hy]; ring
    · have hpos : 0 < b - a := sub_pos.2 hlt
      refine ⟨(t - a) / (b - a), div_nonneg (by linarith) hpos.le,
        (div_le_one hpos).2 (by linarith), v2_ext ?_ ?_⟩
      · simp only [lerp2]; rw [hx]; field_simp; ring
      · simp only [lerp2]; rw [hy]; field_simp; ring

/-- a segment sorted from its lexicographically smaller end -/
theorem sorted_segment (a b : V2 K) (hab : a ≠ b) :
    ∃ p r : V2 K, ((if b.x < a.x ∨ (b.y < a.y ∧ a.x = b.x) then (p, r) = (b, ⟨-(b.x - a.x), -(b.y - a.y)⟩)
        else (p, r) = (a, ⟨b.x - a.x, b.y - a.y⟩))) ∧ LexPos r ∧
      (∀ x, OnSegment2 a b x ↔ ∃ t, 0 ≤ t ∧ t ≤ 1 ∧ Par p r x t) ∧
      min a.x b.x = p.x ∧ max a.x b.x = p.x + r.x ∧
      (r.x = 0 → min a.y b.y = p.y ∧ max a.y b.y = p.y + r.y) ∧
      (a.x - b.x) * r.y - (a.y - b.y) * r.x = 0 := by
  by_cases h : b.x < a.x ∨ (b.y < a.y ∧ a.x = b.x)
  · refine ⟨b, ⟨-(b.x - a.x), -(b.y - a.y)⟩, by rw [if_pos h], ?_, ?_, ?_, ?_, ?_, ?_⟩
    · rcases h with h | ⟨h, h'⟩
      · left; simp only; linarith
      · right; simp only; constructor <;> linarith
    · intro x
      have hsym : OnSegment2 a b x ↔ OnSegment2 b a x := ⟨onSeg_symm, onSeg_symm⟩
      rw [hsym, onSeg_par]
      simp only [neg_sub]
    · apply min_eq_right; rcases h with h | ⟨h, h'⟩ <;> linarith
    · rw [max_eq_left (by rcases h with h | ⟨h, h'⟩ <;> linarith)]; ring
    · intro h0
      have hx : a.x = b.x := by simp only at h0; linarith
      have hy : b.y < a.y := by
        rcases h with h | ⟨h, -⟩
        · linarith
        · exact h
      exact ⟨min_eq_right hy.le, by rw [max_eq_left hy.le]; ring⟩
    · simp only; ring
  · refine ⟨a, ⟨b.x - a.x, b.y - a.y⟩, by rw [if_neg h], ?_, ?_, ?_, ?_, ?_, ?_⟩
    · push Not at h
      rcases h.1.lt_or_eq with h1 | h1
      · left; simp only; linarith
      · right
        refine ⟨by simp only; linarith, ?_⟩
        have : a.y ≠ b.y := fun hc => hab (v2_ext h1 hc)
        have h2 : a.y ≤ b.y := by
          by_contra hc
          push Not at hc
          exact h.2 hc h1
        simp only
        have := lt_of_le_of_ne h2 this
        linarith
    · intro x; exact onSeg_par a b x
    · push Not at h; exact min_eq_left h.1
    · push Not at h; rw [max_eq_right h.1]; ring
    · intro h0
      have hx : a.x = b.x := by simp only at h0; linarith
      push Not at h
      have hy : a.y ≤ b.y := by
        by_contra hc
        push Not at hc
        exact h.2 hc hx
      exact ⟨min_eq_left hy, by rw [max_eq_right hy]; ring⟩
    · simp only; ring

end field

section sqrt
variable {K : Type} [Scalar K] [Field K] [LinearOrder K] [ExactScalar K] [ExactSqrt K]

theorem sqrt_unique (a r : K) (hr : 0 ≤ r) (h : r * r = a) : Scalar.sqrt a = r := by
  have ha : 0 ≤ a := h ▸ mul_self_nonneg r
  have h1 := ExactSqrt.sqrt_sq a ha
  have h2 := ExactSqrt.sqrt_nonneg a
  have : Scalar.sqrt a * Scalar.sqrt a = r * r := by rw [h1, h]
  exact (mul_self_inj h2 hr).1 this

/-- the triangle equality characterises the points of a segment -/
theorem triangle_eq_iff (ax ay bx bY px py : K) :
    Scalar.sqrt ((bx - ax) * (bx - ax) + (bY - ay) * (bY - ay)) =
      Scalar.sqrt ((px - ax) * (px - ax) + (py - ay) * (py - ay)) +
      Scalar.sqrt ((bx - px) * (bx - px) + (bY - py) * (bY - py)) ↔
    OnSegment2 (⟨ax, ay⟩ : V2 K) ⟨bx, bY⟩ ⟨px, py⟩ := by
  have nn : ∀ u v : K, 0 ≤ u * u + v * v := fun u v =>
    add_nonneg (mul_self_nonneg u) (mul_self_nonneg v)
  constructor
  · intro h
    obtain ⟨ux, hux⟩ : ∃ ux, ux = px - ax := ⟨_, rfl⟩
    obtain ⟨uy, huy⟩ : ∃ uy, uy = py - ay := ⟨_, rfl⟩
    obtain ⟨vx, hvx⟩ : ∃ vx, vx = bx - px := ⟨_, rfl⟩
    obtain ⟨vy, hvy⟩ : ∃ vy, vy = bY - py := ⟨_, rfl⟩
    have ew : bx - ax = ux + vx := by rw [hux, hvx]; ring
    have ew2 : bY - ay = uy + vy := by rw [huy, hvy]; ring
    rw [ew, ew2, ← hux, ← huy, ← hvx, ← hvy] at h
    have hU := ExactSqrt.sqrt_sq _ (nn ux uy)
    have hV := ExactSqrt.sqrt_sq _ (nn vx vy)
    have hW := ExactSqrt.sqrt_sq _ (nn (ux + vx) (uy + vy))
    have hU0 := ExactSqrt.sqrt_nonneg (ux * ux + uy * uy)
    have hV0 := ExactSqrt.sqrt_nonneg (vx * vx + vy * vy)
    rw [h] at hW
    generalize Scalar.sqrt (ux * ux + uy * uy) = U at *
    generalize Scalar.sqrt (vx * vx + vy * vy) = V at *
    have hdot : ux * vx + uy * vy = U * V := by
      have h2 : (2:K) ≠ 0 := two_ne_zero
      apply mul_left_cancel₀ h2
      linear_combination hU + hV - hW
    have hUV : 0 ≤ U * V := mul_nonneg hU0 hV0
    have hcross : (ux * vy - uy * vx) = 0 := by
      have : (ux * vy - uy * vx) * (ux * vy - uy * vx) = 0 := by
        have e : (ux * vy - uy * vx) * (ux * vy - uy * vx) =
          (ux * ux + uy * uy) * (vx * vx + vy * vy) - (ux * vx + uy * vy) * (ux * vx + uy * vy) := by
          ring
        rw [e, hdot, ← hU, ← hV]; ring
      exact mul_self_eq_zero.1 this
    by_cases hu : ux * ux + uy * uy = 0
    · have h1 : ux = 0 := by nlinarith [mul_self_nonneg ux, mul_self_nonneg uy]
      have h2 : uy = 0 := by nlinarith [mul_self_nonneg ux, mul_self_nonneg uy]
      refine ⟨0, le_rfl, zero_le_one, ?_⟩
      simp only [lerp2, zero_mul, add_zero, V2.mk.injEq]
      constructor <;> linarith
    · have hupos : 0 < ux * ux + uy * uy := lt_of_le_of_ne (nn ux uy) (Ne.symm hu)
      obtain ⟨k, hk⟩ : ∃ k, k = (ux * vx + uy * vy) / (ux * ux + uy * uy) := ⟨_, rfl⟩
      have hk0 : 0 ≤ k := by rw [hk, hdot]; exact div_nonneg hUV hupos.le
      have hk' : k * (ux * ux + uy * uy) = ux * vx + uy * vy := by
        rw [hk, div_mul_cancel₀ _ hupos.ne']
      have hvx' : vx = k * ux := by
        apply mul_right_cancel₀ hu
        linear_combination (-uy) * hcross - ux * hk'
      have hvy' : vy = k * uy := by
        apply mul_right_cancel₀ hu
        linear_combination ux * hcross - uy * hk'
      have h1k : (0:K) < 1 + k := by linarith
      refine ⟨1 / (1 + k), div_nonneg zero_le_one h1k.le, ?_, ?_⟩
      · rw [div_le_one h1k]; linarith
      · simp only [lerp2, V2.mk.injEq]
        rw [ew, ew2, hvx', hvy']
        constructor
        · field_simp; rw [hux]; ring
        · field_simp; rw [huy]; ring
  · rintro ⟨t, h0, h1, h⟩
    simp only [lerp2, V2.mk.injEq] at h
    obtain ⟨hx, hy⟩ := h
    have hW := ExactSqrt.sqrt_sq _ (nn (bx - ax) (bY - ay))
    have hW0 := ExactSqrt.sqrt_nonneg ((bx - ax) * (bx - ax) + (bY - ay) * (bY - ay))
    generalize Scalar.sqrt ((bx - ax) * (bx - ax) + (bY - ay) * (bY - ay)) = W at *
    rw [sqrt_unique ((px - ax) * (px - ax) + (py - ay) * (py - ay)) (t * W) (mul_nonneg h0 hW0)
      (by rw [hx, hy]; linear_combination t * t * hW)]
    rw [sqrt_unique ((bx - px) * (bx - px) + (bY - py) * (bY - py)) ((1 - t) * W)
      (mul_nonneg (by linarith) hW0)
      (by rw [hx, hy]; linear_combination (1 - t) * (1 - t) * hW)]
    ring

theorem linePoint_denotes (l : Line2 K) (p q : V2 K) :
    Denotes (intersectLinePoint l p) q ↔ OnSegment2 l.start l.end q ∧ q = p := by
  obtain ⟨⟨ax, ay⟩, ⟨bx, bY⟩⟩ := l
  obtain ⟨px, py⟩ := p
  unfold intersectLinePoint
  simp only [exact_simp]
  split_ifs with h1 h2 h3
  · obtain ⟨rfl, rfl⟩ := h1
    simp only [Denotes]
    exact ⟨fun h => ⟨h ▸ onSeg_start _ _, h⟩, fun h => h.2⟩
  · obtain ⟨rfl, rfl⟩ := h2
    simp only [Denotes]
    exact ⟨fun h => ⟨h ▸ onSeg_end _ _, h⟩, fun h => h.2⟩
  · simp only [Denotes]
    rw [triangle_eq_iff] at h3
    exact ⟨fun h => ⟨h ▸ h3, h⟩, fun h => h.2⟩
  · simp only [Denotes]
    rw [triangle_eq_iff] at h3
    constructor
    · exact False.elim
    · rintro ⟨h, rfl⟩; exact h3 h

end sqrt

section nondeg
variable {K : Type} [Scalar K] [Field K] [LinearOrder K] [ExactScalar K]

theorem v2_ulps (a b : V2 K) : V2.ulpsEq a b = true ↔ a = b := by
  cases a; cases b; simp [exact_simp]
theorem v2_beq (a b : V2 K) : V2.beq a b = true ↔ a = b := by
  cases a; cases b; simp [exact_simp]

theorem precedes_iff (a b : V2 K) :
    precedes a b = true ↔ b.x < a.x ∨ (b.y < a.y ∧ a.x = b.x) := by
  unfold precedes
  simp only [exact_simp]
  split_ifs with h
  · simp [h]
  · simp only [exact_simp, h, false_or]

/-- The result of `intersection_point` denotes exactly the common points of the two segments, when
none of them is a point (no square root is involved). -/
theorem intersectionPoint_denotes_of_ne (l m : Line2 K) (x : V2 K) (hab : l.start ≠ l.end) (hcd : m.start ≠ m.end) :
    Denotes (l.intersectionPoint m) x ↔ OnSegment2 l.start l.end x ∧ OnSegment2 m.start m.end x := by
  obtain ⟨a, b⟩ := l
  obtain ⟨c, d⟩ := m
  simp only at hab hcd
  unfold Line2.intersectionPoint
  simp only
  rw [if_neg (by rw [v2_ulps]; exact hab)]
  rw [if_neg (by rw [v2_ulps]; exact hcd)]
  by_cases hbox : max a.x b.x < min c.x d.x ∨ max c.x d.x < min a.x b.x ∨
      max a.y b.y < min c.y d.y ∨ max c.y d.y < min a.y b.y
  · rw [if_pos (by simp only [exact_simp]; tauto)]
    simp only [Denotes, false_iff, not_and]
    intro h1 h2
    have b1 := onSeg_bounds h1
    have b2 := onSeg_bounds h2
    rcases hbox with h | h | h | h <;> linarith [b1.1, b1.2.1, b1.2.2.1, b1.2.2.2, b2.1, b2.2.1,
      b2.2.2.1, b2.2.2.2]
  rw [if_neg (by simp only [exact_simp]; tauto)]
  by_cases hpar : (b.x - a.x) * (d.y - c.y) - (b.y - a.y) * (d.x - c.x) = 0
  · rw [if_pos (by simp only [exact_simp]; exact hpar)]
    obtain ⟨p, r, hpr, hr, hsegp, hminp, hmaxp, hyp, hcolp⟩ := sorted_segment a b hab
    obtain ⟨q, s, hqs, hs, hsegq, hminq, hmaxq, hyq, hcolq⟩ := sorted_segment c d hcd
    have e1 : (if precedes a b = true then (b, (b.sub a).neg) else (a, b.sub a)) = (p, r) := by
      by_cases h : b.x < a.x ∨ (b.y < a.y ∧ a.x = b.x)
      · rw [if_pos h] at hpr
        rw [if_pos ((precedes_iff _ _).2 h), hpr]; simp only [exact_simp]
      · rw [if_neg h] at hpr
        rw [if_neg (by rw [precedes_iff]; exact h), hpr]; simp only [exact_simp]
    have e2 : (if precedes c d = true then (d, (d.sub c).neg) else (c, d.sub c)) = (q, s) := by
      by_cases h : d.x < c.x ∨ (d.y < c.y ∧ c.x = d.x)
      · rw [if_pos h] at hqs
        rw [if_pos ((precedes_iff _ _).2 h), hqs]; simp only [exact_simp]
      · rw [if_neg h] at hqs
        rw [if_neg (by rw [precedes_iff]; exact h), hqs]; simp only [exact_simp]
    simp only [e1, e2]
    have hrs : r.x * s.y - r.y * s.x = 0 := by
      split_ifs at hpr <;> split_ifs at hqs <;> cases hpr <;> cases hqs <;> simp only
      · linear_combination hpar
      · linear_combination -hpar
      · linear_combination -hpar
      · linear_combination hpar
    rw [hsegp, hsegq]
    by_cases hcol : (q.x - p.x) * r.y - (q.y - p.y) * r.x = 0
    · rw [if_pos (by simp only [exact_simp]; exact hcol)]
      obtain ⟨t0, k, ht0, hk, hkpos, hqx, hqy, hsx, hsy⟩ := collinear_coords p r q s hr hs hrs hcol
      have hA : p.add (r.smul (Scalar.fmax (Scalar.div ((q.sub p).dot r) (r.dot r)) Scalar.zero)) =
          ⟨p.x + r.x * max t0 0, p.y + r.y * max t0 0⟩ := by
        simp only [exact_simp, ht0]
      have hB : p.add (r.smul (Scalar.fmin (Scalar.add (Scalar.div ((q.sub p).dot r) (r.dot r))
          (Scalar.div (s.dot r) (r.dot r))) Scalar.one)) =
          ⟨p.x + r.x * min (t0 + k) 1, p.y + r.y * min (t0 + k) 1⟩ := by
        simp only [exact_simp, ht0, hk]
      rw [hA, hB]
      have hlo : t0 ≤ 1 ∧ 0 ≤ t0 + k := by
        push Not at hbox
        obtain ⟨b1, b2, b3, b4⟩ := hbox
        rw [hminq, hmaxp] at b1
        rw [hminp, hmaxq] at b2
        rcases hr with hr | ⟨hr0, hr⟩
        · constructor
          · rw [hqx] at b1
            have : t0 * r.x ≤ 1 * r.x := by linarith
            exact le_of_mul_le_mul_right this hr
          · rw [hqx, hsx] at b2
            have : 0 * r.x ≤ (t0 + k) * r.x := by linarith
            exact le_of_mul_le_mul_right this hr
        · have hs0 : s.x = 0 := by rw [hsx, hr0, mul_zero]
          obtain ⟨m1, m2⟩ := hyp hr0
          obtain ⟨m3, m4⟩ := hyq hs0
          rw [m3, m2] at b3
          rw [m1, m4] at b4
          constructor
          · rw [hqy] at b3
            have : t0 * r.y ≤ 1 * r.y := by linarith
            exact le_of_mul_le_mul_right this hr
          · rw [hqy, hsy] at b4
            have : 0 * r.y ≤ (t0 + k) * r.y := by linarith
            exact le_of_mul_le_mul_right this hr
      have hAB : max t0 0 ≤ min (t0 + k) 1 :=
        max_le (le_min (by linarith) hlo.1) (le_min hlo.2 zero_le_one)
      have hrhs : ((∃ t, 0 ≤ t ∧ t ≤ 1 ∧ Par p r x t) ∧ ∃ t, 0 ≤ t ∧ t ≤ 1 ∧ Par q s x t) ↔
          ∃ t, max t0 0 ≤ t ∧ t ≤ min (t0 + k) 1 ∧ Par p r x t := by
        constructor
        · rintro ⟨⟨t, h0, h1, h⟩, u, u0, u1, h'⟩
          have : t = t0 + u * k := par_unique hr h ⟨by rw [h'.1, hqx, hsx]; ring,
            by rw [h'.2, hqy, hsy]; ring⟩
          refine ⟨t, max_le ?_ h0, le_min ?_ h1, h⟩
          · have := mul_nonneg u0 hkpos.le; linarith
          · have := mul_nonneg (sub_nonneg.2 u1) hkpos.le; linarith
        · rintro ⟨t, h0, h1, h⟩
          have a1 := (le_max_left _ _).trans h0
          have a2 := (le_max_right _ _).trans h0
          have a3 := h1.trans (min_le_left _ _)
          have a4 := h1.trans (min_le_right _ _)
          refine ⟨⟨t, a2, a4, h⟩, (t - t0) / k, div_nonneg (by linarith) hkpos.le,
            (div_le_one hkpos).2 (by linarith), ?_, ?_⟩
          · rw [h.1, hqx, hsx, ← mul_assoc, div_mul_cancel₀ _ hkpos.ne']; ring
          · rw [h.2, hqy, hsy, ← mul_assoc, div_mul_cancel₀ _ hkpos.ne']; ring
      rw [hrhs, ← onSeg_between p r x _ _ hAB]
      generalize (⟨p.x + r.x * max t0 0, p.y + r.y * max t0 0⟩ : V2 K) = os
      generalize (⟨p.x + r.x * min (t0 + k) 1, p.y + r.y * min (t0 + k) 1⟩ : V2 K) = oe
      by_cases ho : os = oe
      · rw [if_pos ((v2_beq _ _).2 ho)]
        subst ho
        exact ⟨fun h => by rw [show x = os from h]; exact onSeg_start _ _, fun h => onSeg_self h⟩
      · rw [if_neg (by rw [v2_beq]; exact ho)]
        exact Iff.rfl
    · rw [if_neg (by simp only [exact_simp]; exact hcol)]
      simp only [Denotes, false_iff]
      rintro ⟨⟨t, -, -, h⟩, u, -, -, h'⟩
      apply hcol
      have e1 : q.x - p.x = t * r.x - u * s.x := by linarith [h.1, h'.1]
      have e2 : q.y - p.y = t * r.y - u * s.y := by linarith [h.2, h'.2]
      rw [e1, e2]
      linear_combination u * hrs
  · rw [if_neg (by simp only [exact_simp]; exact hpar)]
    rw [onSeg_par a b, onSeg_par c d, cross_common a _ c _ x hpar]
    have ht : Scalar.div ((c.sub a).perpDot (d.sub c)) ((b.sub a).perpDot (d.sub c)) =
      ((c.x - a.x) * (d.y - c.y) - (c.y - a.y) * (d.x - c.x)) /
        ((b.x - a.x) * (d.y - c.y) - (b.y - a.y) * (d.x - c.x)) := by simp only [exact_simp]
    have hu : Scalar.div ((c.sub a).perpDot (b.sub a)) ((b.sub a).perpDot (d.sub c)) =
      ((c.x - a.x) * (b.y - a.y) - (c.y - a.y) * (b.x - a.x)) /
        ((b.x - a.x) * (d.y - c.y) - (b.y - a.y) * (d.x - c.x)) := by simp only [exact_simp]
    simp only [ht, hu]
    generalize ((c.x - a.x) * (d.y - c.y) - (c.y - a.y) * (d.x - c.x)) /
        ((b.x - a.x) * (d.y - c.y) - (b.y - a.y) * (d.x - c.x)) = t
    generalize ((c.x - a.x) * (b.y - a.y) - (c.y - a.y) * (b.x - a.x)) /
        ((b.x - a.x) * (d.y - c.y) - (b.y - a.y) * (d.x - c.x)) = u
    by_cases hin : (0 ≤ t ∧ t ≤ 1) ∧ 0 ≤ u ∧ u ≤ 1
    · rw [if_pos (by simp only [exact_simp]; exact hin)]
      simp only [Denotes, exact_simp]
      constructor
      · intro h
        subst h
        exact ⟨t, u, rfl, rfl, hin.1.1, hin.1.2, hin.2.1, hin.2.2, by simp only; ring, by simp only; ring⟩
      · rintro ⟨t', u', rfl, rfl, -, -, -, -, h⟩
        exact v2_ext (by rw [h.1]; ring) (by rw [h.2]; ring)
    · rw [if_neg (by simp only [exact_simp]; exact hin)]
      simp only [Denotes, false_iff]
      rintro ⟨t', u', rfl, rfl, h1, h2, h3, h4, -⟩
      exact hin ⟨⟨h1, h2⟩, h3, h4⟩

end nondeg

section sqrt
variable {K : Type} [Scalar K] [Field K] [LinearOrder K] [ExactScalar K] [ExactSqrt K]

/-- The result of `intersection_point` denotes exactly the common points of the two segments. -/
theorem intersectionPoint_denotes (l m : Line2 K) (x : V2 K) :
    Denotes (l.intersectionPoint m) x ↔ OnSegment2 l.start l.end x ∧ OnSegment2 m.start m.end x := by
  obtain ⟨a, b⟩ := l
  obtain ⟨c, d⟩ := m
  by_cases hab : a = b
  · subst hab
    unfold Line2.intersectionPoint
    simp only
    rw [if_pos ((v2_ulps a a).2 rfl), linePoint_denotes]
    constructor
    · rintro ⟨h, rfl⟩; exact ⟨onSeg_start _ _, h⟩
    · rintro ⟨h, h'⟩; exact ⟨h', onSeg_self h⟩
  by_cases hcd : c = d
  · subst hcd
    unfold Line2.intersectionPoint
    simp only
    rw [if_neg (by rw [v2_ulps]; exact hab), if_pos ((v2_ulps c c).2 rfl), linePoint_denotes]
    constructor
    · rintro ⟨h, rfl⟩; exact ⟨h, onSeg_start _ _⟩
    · rintro ⟨h, h'⟩; exact ⟨h, onSeg_self h'⟩
  exact intersectionPoint_denotes_of_ne _ _ x hab hcd

end sqrt
end Verif.Proofs.Intersect
