import Verif.Props.Contain
import Verif.Props.HullUnique
import Verif.Props.GiftWrap
import Verif.Props.HullContain
/-!
# C110: boxes and hulls fit together
-/
set_option linter.unusedSectionVars false
namespace Verif.Props.BoxHull
open Verif Verif.Model Verif.Spec Verif.Hull Verif.Props Scalar

section exact
variable {K : Type} [Scalar K] [Field K] [LinearOrder K] [ExactScalar K]

/-- the five points of the loop around a box -/
def rect (lo hi : V2 K) : List (V2 K) := [⟨lo.x, lo.y⟩, ⟨hi.x, lo.y⟩, ⟨hi.x, hi.y⟩, ⟨lo.x, hi.y⟩, ⟨lo.x, lo.y⟩]

theorem rect_loop (lo hi : V2 K) (hx : lo.x < hi.x) (hy : lo.y < hi.y) :
    IsHullLoop (rect lo hi) (rect lo hi) ∧ StartsLowest (rect lo hi) (rect lo hi) := by
  have := ExactScalar.toIsStrictOrderedRing (K := K)
  have px : 0 < hi.x - lo.x := by linarith
  have py : 0 < hi.y - lo.y := by linarith
  have pp := mul_pos px py
  refine ⟨⟨by simp [rect], rfl, fun v h => h, ?_, ?_, ?_, ?_, ?_⟩, ?_⟩
  · simp [rect, hy.ne, hx.ne', hy.ne']
  · rintro (_ | _ | _ | _ | _ | i) a b ha hb p hp <;> simp [rect] at ha hb hp <;> subst ha <;> subst hb <;>
      rcases hp with rfl | rfl | rfl | rfl | rfl <;> simp only [orient] <;> nlinarith
  · rintro - (_ | _ | _ | _ | _ | i) a b c ha hb hc <;> simp [rect] at ha hb hc <;> subst ha <;> subst hb <;> subst hc <;>
      simp only [orient] <;> nlinarith
  · intro _ a b c ha hb hc
    simp [rect] at ha hb hc
    subst ha; subst hb; subst hc
    simp only [orient]
    nlinarith
  · intro a b c h
    simp [rect] at h
  · refine ⟨_, rfl, ?_⟩
    intro p hp
    simp [rect] at hp
    rcases hp with rfl | rfl | rfl | rfl | rfl <;> simp [hx, hy.le]

/-- the loop around a box with width and height -/
theorem hull_of_box (b : Aabb2 K) (lo hi : V2 K) (hb : b.minMax = some (lo, hi)) : b.convexHull = some (rect lo hi) := by
  unfold Aabb2.convexHull
  rw [hb]
  rfl

/-- **C110** `Aabb2::convex_hull` of a box with width and height is a convex hull, and it is the one that `graham_scan`,
`graham_scan_wo_atan2` and `gift_wrap` return for it. -/
theorem C110_box_hull_is_a_hull [ExactAtan2 K] (b : Aabb2 K) (lo hi : V2 K) (hb : b.minMax = some (lo, hi)) (hx : lo.x < hi.x) (hy : lo.y < hi.y)
    (srt : List (V2 K × K × K) → List (V2 K × K × K)) (hsrt : Sorts angleCmp srt)
    (srt2 : V2 K → List (V2 K) → Option (List (V2 K)))
    (hsrt2 : ∀ s l, (∀ a ∈ l, s.x < a.x ∨ s.x = a.x ∧ s.y ≤ a.y) → (∀ a ∈ l, ∀ b ∈ l, orientCmp s a b ≠ none) →
      ∃ r, srt2 s l = some r ∧ r.Perm l ∧ r.Pairwise (fun a b => orientCmp s a b ≠ some .gt)) (fuel : Nat) (hf : 36 < fuel) :
    ∃ hull, b.convexHull = some hull ∧ IsHullLoop hull hull ∧ StartsLowest hull hull ∧
      grahamScan srt hull = .ok hull ∧ grahamScanWoAtan2 srt2 hull = .ok hull ∧ giftWrap fuel hull = .ok hull := by
  obtain ⟨h1, h2⟩ := rect_loop lo hi hx hy
  have hne : ∃ a ∈ rect lo hi, ∃ b ∈ rect lo hi, a ≠ b :=
    ⟨⟨lo.x, lo.y⟩, by simp [rect], ⟨hi.x, hi.y⟩, by simp [rect], by simp [hx.ne]⟩
  refine ⟨rect lo hi, hull_of_box b lo hi hb, h1, h2, ?_, ?_, ?_⟩
  · obtain ⟨h, e, -, g1, g2⟩ := C36_graham_scan_is_hull srt hsrt (rect lo hi) (by simp [rect]) (by simp [rect]) hne
    rw [e, C62_hull_is_unique (fun _ => Iff.rfl) g1 g2 h1 h2]
  · obtain ⟨h, e, g1, g2⟩ := C37_graham_scan_wo_atan2_is_hull srt2 hsrt2 (rect lo hi) (by simp [rect]) (by simp [rect]) hne
    rw [e, C62_hull_is_unique (fun _ => Iff.rfl) g1 g2 h1 h2]
  · obtain ⟨h, e, g1, g2⟩ := C38_gift_wrap_is_hull (rect lo hi) (by simp [rect]) (by simp [rect]) h1.once
      (fun h => absurd rfl h) fuel (by simpa [rect] using hf)
    rw [e, C62_hull_is_unique (fun _ => Iff.rfl) g1 g2 h1 h2]

/-- **C110** the box of the loop around a box is the box. -/
theorem C110_box_of_box_hull (b : Aabb2 K) (lo hi : V2 K) (hb : b.minMax = some (lo, hi)) (hx : lo.x ≤ hi.x) (hy : lo.y ≤ hi.y) :
    ∃ hull, b.convexHull = some hull ∧ Aabb2.withPoints hull = b := by
  refine ⟨rect lo hi, hull_of_box b lo hi hb, ?_⟩
  have hB := Aabb.C30_box2_is_bounding_box (.withPoints (rect lo hi) : Hist2 K)
  simp only [Hist2.run, Hist2.fed] at hB
  obtain ⟨mm⟩ := b
  simp only at hb
  subst hb
  obtain ⟨c, ec⟩ : ∃ c, c = Aabb2.withPoints (rect lo hi) := ⟨_, rfl⟩
  rw [← ec] at hB ⊢
  obtain ⟨_ | ⟨⟨m1, m2⟩, ⟨v1, v2⟩⟩⟩ := c
  · simp [IsBoundingBox2, rect] at hB
  · obtain ⟨a1, a2⟩ := Proofs.Aabb.range_unique hB.1 (lo2 := lo.x) (hi2 := hi.x) (ys := (rect lo hi).map (·.x))
      ⟨by simp [rect], by simp [rect], by simp [rect, hx]⟩ (fun _ => Iff.rfl)
    obtain ⟨b1, b2⟩ := Proofs.Aabb.range_unique hB.2 (lo2 := lo.y) (hi2 := hi.y) (ys := (rect lo hi).map (·.y))
      ⟨by simp [rect], by simp [rect], by simp [rect, hy]⟩ (fun _ => Iff.rfl)
    simp only at a1 a2 b1 b2
    obtain ⟨lx, ly⟩ := lo
    obtain ⟨ux, uy⟩ := hi
    simp only at a1 a2 b1 b2
    rw [a1, a2, b1, b2]

/-- **C110** the containment tests of the box and of the hull around it agree: of a point, as hull and as line string; of the points of
another loop; the exclusive test implies both. -/
theorem C110_containment_agrees (b : Aabb2 K) (lo hi : V2 K) (hb : b.minMax = some (lo, hi)) (hx : lo.x < hi.x) (hy : lo.y < hi.y) :
    ∃ hull, b.convexHull = some hull ∧
      (∀ p, containsPointInclusive hull p = .ok (b.containsPoint p) ∧ lineContainsInclusive hull p = .ok (b.containsPoint p) ∧
        (containsPointExclusive hull p = .ok true → lo.x < p.x ∧ p.x < hi.x ∧ lo.y < p.y ∧ p.y < hi.y)) ∧
      ∀ pts : List (V2 K), pts ≠ [] → containsConvexHull hull pts = .ok (b.containsAabb (Aabb2.withPoints pts)) := by
  have := ExactScalar.toIsStrictOrderedRing (K := K)
  obtain ⟨h1, h2⟩ := rect_loop lo hi hx hy
  have hl : 3 < (rect lo hi).length := by simp [rect]
  have hh := hull_of_box b lo hi hb
  have spec : ∀ p, InLoop (rect lo hi) p ↔ b.containsPoint p = true := by
    intro p
    rw [Aabb.C32_contains_point2, (Aabb.C33_convex_hull b _ hh).2.2.2.2.2 lo hi hb hx hy p]
    rfl
  refine ⟨rect lo hi, hh, fun p => ?_, fun pts hne => ?_⟩
  · obtain ⟨r, hr, k⟩ := C42_inclusive_iff_left_of_every_edge h1 hl p
    have e : r = b.containsPoint p := Bool.eq_iff_iff.2 (k.trans (spec p))
    refine ⟨by rw [hr, e], by rw [C42_line_inclusive h1 hl, hr, e], ?_⟩
    intro hex
    obtain ⟨r', hr', k'⟩ := C43_exclusive_sound h1 hl p
    rw [hr'] at hex
    cases hex
    have hin := k' rfl
    have e0 := hin 0 ⟨lo.x, lo.y⟩ ⟨hi.x, lo.y⟩ rfl rfl
    have e1 := hin 1 ⟨hi.x, lo.y⟩ ⟨hi.x, hi.y⟩ rfl rfl
    have e2 := hin 2 ⟨hi.x, hi.y⟩ ⟨lo.x, hi.y⟩ rfl rfl
    have e3 := hin 3 ⟨lo.x, hi.y⟩ ⟨lo.x, lo.y⟩ rfl rfl
    simp only [orient] at e0 e1 e2 e3
    have px : 0 < hi.x - lo.x := by linarith
    have py : 0 < hi.y - lo.y := by linarith
    refine ⟨?_, ?_, ?_, ?_⟩
    · have : 0 < (hi.y - lo.y) * (p.x - lo.x) := by linarith
      linarith [(mul_pos_iff_of_pos_left py).1 this]
    · have : 0 < (hi.y - lo.y) * (hi.x - p.x) := by linarith
      linarith [(mul_pos_iff_of_pos_left py).1 this]
    · have : 0 < (hi.x - lo.x) * (p.y - lo.y) := by linarith
      linarith [(mul_pos_iff_of_pos_left px).1 this]
    · have : 0 < (hi.x - lo.x) * (hi.y - p.y) := by linarith
      linarith [(mul_pos_iff_of_pos_left px).1 this]
  · obtain ⟨r, hr, -, k⟩ := C44_contains_hull_iff h1 hl pts
    rw [hr]
    have : r = true ↔ b.containsAabb (Aabb2.withPoints pts) = true := by
      rw [k]
      constructor
      · intro h
        exact Aabb.C30_box2_minimal (.withPoints pts) hne b (fun p hp => (spec p).1 (h p hp))
      · intro h p hp
        rw [spec]
        have hp' := Aabb.C30_box2_contains_fed (.withPoints pts : Hist2 K) p hp
        have prop : Proper2 (Aabb2.withPoints pts) := by
          obtain ⟨l, u, e, x1, x2, y1, y2⟩ := (Aabb.C32_contains_point2 _ p).1 hp'
          exact ⟨l, u, e, x1.trans x2, y1.trans y2⟩
        exact (Aabb.C32_contains_point2 b p).2 ((Aabb.C32_contains_aabb2 b (Aabb2.withPoints pts) prop).1 h p
          ((Aabb.C32_contains_point2 _ p).1 hp'))
    rw [Bool.eq_iff_iff.2 this]

/-- **C110** what a computed hull contains is in the box of its points, so a point outside of the box need not be tested against the
hull. -/
theorem C110_hull_in_box {pts hull : List (V2 K)} (h : IsHullLoop pts hull) (hl : 3 < hull.length) (p : V2 K)
    (hp : containsPointInclusive hull p = .ok true ∨ containsPointExclusive hull p = .ok true) :
    (Aabb2.withPoints pts).containsPoint p = true := by
  have := ExactScalar.toIsStrictOrderedRing (K := K)
  have hin : InLoop hull p := by
    rcases hp with hp | hp
    · obtain ⟨r, hr, k⟩ := C42_inclusive_iff_left_of_every_edge h hl p
      rw [hr] at hp; cases hp
      exact k.1 rfl
    · obtain ⟨r, hr, k⟩ := C43_exclusive_sound h hl p
      rw [hr] at hp; cases hp
      exact fun i a b ha hb => (k rfl i a b ha hb).le
  obtain ⟨a, ha, b, hb, c, hc, u, v, w, hu, hv, hw, hs, ex, ey⟩ := (C42_left_of_every_edge_iff_convex_combination h hl p).1 hin
  have box : ∀ q ∈ hull, InBox2 (Aabb2.withPoints pts) q := fun q hq =>
    (Aabb.C32_contains_point2 _ q).1 (Aabb.C30_box2_contains_fed (.withPoints pts : Hist2 K) q (h.vertices q hq))
  obtain ⟨lo, hi, e, a1, a2, a3, a4⟩ := box a ha
  obtain ⟨lo', hi', e', b1, b2, b3, b4⟩ := box b hb
  rw [e] at e'; cases e'
  obtain ⟨lo', hi', e', c1, c2, c3, c4⟩ := box c hc
  rw [e] at e'; cases e'
  rw [Aabb.C32_contains_point2]
  refine ⟨lo, hi, e, ?_, ?_, ?_, ?_⟩
  · rw [ex]
    have := mul_le_mul_of_nonneg_left a1 hu
    have := mul_le_mul_of_nonneg_left b1 hv
    have := mul_le_mul_of_nonneg_left c1 hw
    have : lo.x = u * lo.x + v * lo.x + w * lo.x := by rw [← add_mul, ← add_mul, hs, one_mul]
    linarith
  · rw [ex]
    have := mul_le_mul_of_nonneg_left a2 hu
    have := mul_le_mul_of_nonneg_left b2 hv
    have := mul_le_mul_of_nonneg_left c2 hw
    have : hi.x = u * hi.x + v * hi.x + w * hi.x := by rw [← add_mul, ← add_mul, hs, one_mul]
    linarith
  · rw [ey]
    have := mul_le_mul_of_nonneg_left a3 hu
    have := mul_le_mul_of_nonneg_left b3 hv
    have := mul_le_mul_of_nonneg_left c3 hw
    have : lo.y = u * lo.y + v * lo.y + w * lo.y := by rw [← add_mul, ← add_mul, hs, one_mul]
    linarith
  · rw [ey]
    have := mul_le_mul_of_nonneg_left a4 hu
    have := mul_le_mul_of_nonneg_left b4 hv
    have := mul_le_mul_of_nonneg_left c4 hw
    have : hi.y = u * hi.y + v * hi.y + w * hi.y := by rw [← add_mul, ← add_mul, hs, one_mul]
    linarith

/-- **C110** if the hull of one set of points contains that of another, so does the box of the one contain the box of the other. -/
theorem C110_nested_hulls_nested_boxes {a b hullA hullB : List (V2 K)} (ha : IsHullLoop a hullA) (hb : IsHullLoop b hullB)
    (hl : 3 < hullA.length) (h : containsConvexHull hullA hullB = .ok true) :
    (Aabb2.withPoints a).containsAabb (Aabb2.withPoints b) = true := by
  rw [← C63_same_bounding_box hb]
  obtain ⟨r, hr, -, k⟩ := C44_contains_hull_iff ha hl hullB
  rw [hr] at h
  cases h
  refine Aabb.C30_box2_minimal (.withPoints hullB) ?_ _ ?_
  · intro e
    have := hb.len
    change hullB = [] at e
    rw [e] at this
    simp at this
  · intro p hp
    obtain ⟨r', hr', k'⟩ := C42_inclusive_iff_left_of_every_edge ha hl p
    exact C110_hull_in_box ha hl p (Or.inl (by rw [hr', k'.2 (k.1 rfl p hp)]))

end exact

/-- A box without width or height is different: `contains_point_inclusive` on its hull accepts the whole plane (a point) or the whole line
(a segment). -/
theorem C110_flat_boxes :
    (Aabb2.withPoints [(⟨1, 1⟩ : V2 ℚ), ⟨3, 1⟩]).convexHull = some [⟨1, 1⟩, ⟨3, 1⟩, ⟨3, 1⟩, ⟨1, 1⟩, ⟨1, 1⟩] ∧
    containsPointInclusive [(⟨1, 1⟩ : V2 ℚ), ⟨3, 1⟩, ⟨3, 1⟩, ⟨1, 1⟩, ⟨1, 1⟩] ⟨7, 1⟩ = .ok true ∧
    (Aabb2.withPoints [(⟨1, 1⟩ : V2 ℚ), ⟨3, 1⟩]).containsPoint ⟨7, 1⟩ = false ∧
    (Aabb2.withPoints [(⟨1, 1⟩ : V2 ℚ)]).convexHull = some [⟨1, 1⟩, ⟨1, 1⟩, ⟨1, 1⟩, ⟨1, 1⟩, ⟨1, 1⟩] ∧
    containsPointInclusive [(⟨1, 1⟩ : V2 ℚ), ⟨1, 1⟩, ⟨1, 1⟩, ⟨1, 1⟩, ⟨1, 1⟩] ⟨7, 3⟩ = .ok true ∧
    (Aabb2.withPoints [(⟨1, 1⟩ : V2 ℚ)]).containsPoint ⟨7, 3⟩ = false := by
  decide +kernel

end Verif.Props.BoxHull
