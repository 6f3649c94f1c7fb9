import Verif.Proofs.Aabb
import Verif.Spec.Instances
/-!
# C28 – C35: planes, bounding boxes, affine transforms
-/
namespace Verif.Props.Aabb
open Verif Verif.Model Verif.Spec Verif.Proofs.Aabb Scalar
set_option linter.unusedSectionVars false
set_option linter.unusedSimpArgs false

/-! ### C30, C31: construction of boxes (floats without NaN: `OrderedScalar`) -/
section ordered
variable {K : Type} [Scalar K] [LinearOrder K] [OrderedScalar K]

/-- C30 (2D): whatever the sequence of updates, the box is the smallest box around the fed points:
in each axis the limits are the least and greatest coordinate fed; there is no box iff nothing was fed. -/
theorem C30_box2_is_bounding_box (h : Hist2 K) : IsBoundingBox2 h.run h.fed := hist2_box h

/-- C30 (3D) -/
theorem C30_box3_is_bounding_box (h : Hist3 K) : IsBoundingBox3 h.run h.fed := hist3_box h

/-- C30 (2D): every point that was fed is contained (as told by `contains_point_inclusive`). -/
theorem C30_box2_contains_fed (h : Hist2 K) (p : V2 K) (hp : p ∈ h.fed) : h.run.containsPoint p = true := by
  have hb := hist2_box h
  obtain ⟨⟨mm⟩, hmm⟩ : ∃ b, b = h.run := ⟨_, rfl⟩
  rw [← hmm] at hb ⊢
  cases mm with
  | none => simp only [IsBoundingBox2] at hb; rw [hb] at hp; cases hp
  | some mm =>
    obtain ⟨lo, hi⟩ := mm
    have hx := hb.1.2.2 p.x (List.mem_map_of_mem hp)
    have hy := hb.2.2.2 p.y (List.mem_map_of_mem hp)
    have L : ∀ a b : K, a ≤ b → (Scalar.lt a b || Scalar.ulpsEq a b) = true := by
      intro a b hab
      rcases hab.lt_or_eq with h | h
      · rw [(OrderedScalar.lt_iff _ _).2 h]; rfl
      · rw [h, OrderedScalar.ulps_refl]; simp
    have G : ∀ a b : K, b ≤ a → (Scalar.gt a b || Scalar.ulpsEq a b) = true := by
      intro a b hab
      rcases hab.lt_or_eq with h | h
      · rw [show Scalar.gt a b = true from (OrderedScalar.lt_iff _ _).2 h]; rfl
      · rw [h, OrderedScalar.ulps_refl]; simp
    simp only [Aabb2.containsPoint, Aabb2.containsPoint_]
    rw [L _ _ hx.1, L _ _ hy.1, G _ _ hx.2, G _ _ hy.2]; rfl

/-- C30 (3D) -/
theorem C30_box3_contains_fed (h : Hist3 K) (p : V3 K) (hp : p ∈ h.fed) : h.run.containsPoint p = true := by
  have hb := hist3_box h
  obtain ⟨⟨mm⟩, hmm⟩ : ∃ b, b = h.run := ⟨_, rfl⟩
  rw [← hmm] at hb ⊢
  cases mm with
  | none => simp only [IsBoundingBox3] at hb; rw [hb] at hp; cases hp
  | some mm =>
    obtain ⟨lo, hi⟩ := mm
    have hx := hb.1.2.2 p.x (List.mem_map_of_mem hp)
    have hy := hb.2.1.2.2 p.y (List.mem_map_of_mem hp)
    have hz := hb.2.2.2.2 p.z (List.mem_map_of_mem hp)
    have L : ∀ a b : K, a ≤ b → (Scalar.lt a b || Scalar.ulpsEq a b) = true := by
      intro a b hab
      rcases hab.lt_or_eq with h | h
      · rw [(OrderedScalar.lt_iff _ _).2 h]; rfl
      · rw [h, OrderedScalar.ulps_refl]; simp
    have G : ∀ a b : K, b ≤ a → (Scalar.gt a b || Scalar.ulpsEq a b) = true := by
      intro a b hab
      rcases hab.lt_or_eq with h | h
      · rw [show Scalar.gt a b = true from (OrderedScalar.lt_iff _ _).2 h]; rfl
      · rw [h, OrderedScalar.ulps_refl]; simp
    simp only [Aabb3.containsPoint, Aabb3.containsPoint_]
    rw [L _ _ hx.1, L _ _ hy.1, L _ _ hz.1, G _ _ hx.2, G _ _ hy.2, G _ _ hz.2]; rfl

/-- C30 (2D): any other box that contains the fed points (as told by `contains_point_inclusive`)
contains the box built from them, provided something was fed. -/
theorem C30_box2_minimal (h : Hist2 K) (hne : h.fed ≠ []) (b : Aabb2 K)
    (hb : ∀ p ∈ h.fed, b.containsPoint p = true) : b.containsAabb h.run = true := by
  have hr := hist2_box h
  obtain ⟨⟨mm⟩, hmm⟩ : ∃ b, b = h.run := ⟨_, rfl⟩
  rw [← hmm] at hr ⊢
  cases mm with
  | none => exact absurd hr hne
  | some mm =>
    obtain ⟨lo, hi⟩ := mm
    obtain ⟨bm⟩ := b
    cases bm with
    | none =>
      obtain ⟨p, hp⟩ := List.exists_mem_of_ne_nil _ hne
      exact absurd (hb p hp) (by simp [Aabb2.containsPoint])
    | some bm =>
      simp only [IsBoundingBox2, IsRange, List.mem_map] at hr
      obtain ⟨⟨⟨p1, m1, e1⟩, ⟨p2, m2, e2⟩, -⟩, ⟨p3, m3, e3⟩, ⟨p4, m4, e4⟩, -⟩ := hr
      have c1 := hb p1 m1
      have c2 := hb p2 m2
      have c3 := hb p3 m3
      have c4 := hb p4 m4
      simp only [Aabb2.containsPoint, Aabb2.containsPoint_, Bool.and_eq_true, e1, e2, e3, e4] at c1 c2 c3 c4
      simp only [Aabb2.containsAabb, Aabb2.containsPoint_, Bool.and_eq_true]
      exact ⟨⟨⟨⟨c1.1.1.1, c3.1.1.2⟩, c1.1.2⟩, c3.2⟩, ⟨⟨⟨c2.1.1.1, c4.1.1.2⟩, c2.1.2⟩, c4.2⟩⟩

/-- C30 (3D) -/
theorem C30_box3_minimal (h : Hist3 K) (hne : h.fed ≠ []) (b : Aabb3 K)
    (hb : ∀ p ∈ h.fed, b.containsPoint p = true) : b.containsAabb h.run = true := by
  have hr := hist3_box h
  obtain ⟨⟨mm⟩, hmm⟩ : ∃ b, b = h.run := ⟨_, rfl⟩
  rw [← hmm] at hr ⊢
  cases mm with
  | none => exact absurd hr hne
  | some mm =>
    obtain ⟨lo, hi⟩ := mm
    obtain ⟨bm⟩ := b
    cases bm with
    | none =>
      obtain ⟨p, hp⟩ := List.exists_mem_of_ne_nil _ hne
      exact absurd (hb p hp) (by simp [Aabb3.containsPoint])
    | some bm =>
      simp only [IsBoundingBox3, IsRange, List.mem_map] at hr
      obtain ⟨⟨⟨p1, m1, e1⟩, ⟨p2, m2, e2⟩, -⟩, ⟨⟨p3, m3, e3⟩, ⟨p4, m4, e4⟩, -⟩,
        ⟨p5, m5, e5⟩, ⟨p6, m6, e6⟩, -⟩ := hr
      have c1 := hb p1 m1
      have c2 := hb p2 m2
      have c3 := hb p3 m3
      have c4 := hb p4 m4
      have c5 := hb p5 m5
      have c6 := hb p6 m6
      simp only [Aabb3.containsPoint, Aabb3.containsPoint_, Bool.and_eq_true, e1, e2, e3, e4, e5, e6]
        at c1 c2 c3 c4 c5 c6
      simp only [Aabb3.containsAabb, Aabb3.containsPoint_, Bool.and_eq_true]
      exact ⟨⟨⟨⟨⟨⟨c1.1.1.1.1.1, c3.1.1.1.1.2⟩, c5.1.1.1.2⟩, c1.1.1.2⟩, c3.1.2⟩, c5.2⟩,
        ⟨⟨⟨⟨⟨c2.1.1.1.1.1, c4.1.1.1.1.2⟩, c6.1.1.1.2⟩, c2.1.1.2⟩, c4.1.2⟩, c6.2⟩⟩

/-- C30: a box exists iff something was fed. -/
theorem C30_box_exists_iff (h2 : Hist2 K) (h3 : Hist3 K) :
    (h2.run.minMax = none ↔ h2.fed = []) ∧ (h3.run.minMax = none ↔ h3.fed = []) := by
  have b2 := hist2_box h2
  have b3 := hist3_box h3
  obtain ⟨⟨m2⟩, e2⟩ : ∃ b, b = h2.run := ⟨_, rfl⟩
  obtain ⟨⟨m3⟩, e3⟩ : ∃ b, b = h3.run := ⟨_, rfl⟩
  rw [← e2] at b2 ⊢
  rw [← e3] at b3 ⊢
  constructor
  · cases m2 with
    | none => simpa [IsBoundingBox2] using b2
    | some mm =>
      simp only [reduceCtorEq, false_iff]
      intro h; rw [h] at b2; simpa using b2.1.1
  · cases m3 with
    | none => simpa [IsBoundingBox3] using b3
    | some mm =>
      simp only [reduceCtorEq, false_iff]
      intro h; rw [h] at b3; simpa using b3.1.1

/-- C31 (2D): two histories that feed the same set of points (in any order, repetition and grouping)
build the same box. -/
theorem C31_box2_order_independent (h g : Hist2 K) (e : ∀ p, p ∈ h.fed ↔ p ∈ g.fed) : h.run = g.run := by
  have h1 := box2_congr (hist2_box h) e
  have h2 := hist2_box g
  obtain ⟨⟨m1⟩, e1⟩ : ∃ b, b = h.run := ⟨_, rfl⟩
  obtain ⟨⟨m2⟩, e2⟩ : ∃ b, b = g.run := ⟨_, rfl⟩
  rw [← e1, ← e2]
  rw [← e1] at h1
  rw [← e2] at h2
  cases m1 with
  | none =>
    cases m2 with
    | none => rfl
    | some m => simp only [IsBoundingBox2] at h1; rw [h1] at h2; simpa using h2.1.1
  | some m =>
    cases m2 with
    | none => simp only [IsBoundingBox2] at h2; rw [h2] at h1; simpa using h1.1.1
    | some m' =>
      obtain ⟨⟨a, b⟩, ⟨c, d⟩⟩ := m
      obtain ⟨⟨a', b'⟩, ⟨c', d'⟩⟩ := m'
      obtain ⟨ha, hc⟩ := range_unique h1.1 h2.1 (fun _ => Iff.rfl)
      obtain ⟨hb, hd⟩ := range_unique h1.2 h2.2 (fun _ => Iff.rfl)
      simp only at ha hb hc hd
      subst ha hb hc hd; rfl

/-- C31 (3D) -/
theorem C31_box3_order_independent (h g : Hist3 K) (e : ∀ p, p ∈ h.fed ↔ p ∈ g.fed) : h.run = g.run := by
  have h1 := box3_congr (hist3_box h) e
  have h2 := hist3_box g
  obtain ⟨⟨m1⟩, e1⟩ : ∃ b, b = h.run := ⟨_, rfl⟩
  obtain ⟨⟨m2⟩, e2⟩ : ∃ b, b = g.run := ⟨_, rfl⟩
  rw [← e1, ← e2]
  rw [← e1] at h1
  rw [← e2] at h2
  cases m1 with
  | none =>
    cases m2 with
    | none => rfl
    | some m => simp only [IsBoundingBox3] at h1; rw [h1] at h2; simpa using h2.1.1
  | some m =>
    cases m2 with
    | none => simp only [IsBoundingBox3] at h2; rw [h2] at h1; simpa using h1.1.1
    | some m' =>
      obtain ⟨⟨a, b, c⟩, ⟨d, e, f⟩⟩ := m
      obtain ⟨⟨a', b', c'⟩, ⟨d', e', f'⟩⟩ := m'
      obtain ⟨hx, hx'⟩ := range_unique h1.1 h2.1 (fun _ => Iff.rfl)
      obtain ⟨hy, hy'⟩ := range_unique h1.2.1 h2.2.1 (fun _ => Iff.rfl)
      obtain ⟨hz, hz'⟩ := range_unique h1.2.2 h2.2.2 (fun _ => Iff.rfl)
      simp only at hx hx' hy hy' hz hz'
      subst hx hx' hy hy' hz hz'; rfl

end ordered

/-- C30, C31 are not vacuous: one set of points, fed in different ways -/
example : (Hist2.aabb (.point (.withPoints [(⟨1, 5⟩ : V2 ℚ), ⟨3, 2⟩]) ⟨2, 9⟩) (.new ⟨0, 3⟩)).run =
      ⟨some (⟨0, 2⟩, ⟨3, 9⟩)⟩ ∧
    (Hist2.fromIter [(⟨0, 3⟩ : V2 ℚ), ⟨2, 9⟩, ⟨3, 2⟩, ⟨1, 5⟩, ⟨0, 3⟩]).run = ⟨some (⟨0, 2⟩, ⟨3, 9⟩)⟩ := by
  constructor <;> decide +kernel

/-! ### C32, C33 -/
section exact
variable {K : Type} [Scalar K] [Field K] [LinearOrder K] [ExactScalar K]

/-- C32: `contains_point_inclusive` decides membership (2D). -/
theorem C32_contains_point2 (b : Aabb2 K) (p : V2 K) : b.containsPoint p = true ↔ InBox2 b p := by
  obtain ⟨mm⟩ := b
  cases mm with
  | none => simp [Aabb2.containsPoint, InBox2]
  | some mm =>
    simp only [Aabb2.containsPoint, cp2_iff, InBox2, Option.some.injEq]
    constructor
    · intro h; exact ⟨mm.1, mm.2, rfl, h⟩
    · rintro ⟨lo, hi, rfl, h⟩; exact h

/-- C32 (3D) -/
theorem C32_contains_point3 (b : Aabb3 K) (p : V3 K) : b.containsPoint p = true ↔ InBox3 b p := by
  obtain ⟨mm⟩ := b
  cases mm with
  | none => simp [Aabb3.containsPoint, InBox3]
  | some mm =>
    simp only [Aabb3.containsPoint, cp3_iff, InBox3, Option.some.injEq]
    constructor
    · intro h; exact ⟨mm.1, mm.2, rfl, h⟩
    · rintro ⟨lo, hi, rfl, h⟩; exact h

/-- C32: `contains_line_inclusive` is true iff every point of the segment is in the box (2D). -/
theorem C32_contains_line2 (b : Aabb2 K) (l : Line2 K) :
    b.containsLine l = true ↔ ∀ q, OnSegment2 l.start l.end q → InBox2 b q := by
  have hs : OnSegment2 l.start l.end l.start := ⟨0, le_rfl, zero_le_one, by simp [lerp2]⟩
  have he : OnSegment2 l.start l.end l.end := ⟨1, zero_le_one, le_rfl, by simp [lerp2]⟩
  obtain ⟨mm⟩ := b
  cases mm with
  | none =>
    simp only [Aabb2.containsLine, Bool.false_eq_true, false_iff, not_forall]
    exact ⟨l.start, hs, by simp [InBox2]⟩
  | some mm =>
    simp only [Aabb2.containsLine, Bool.and_eq_true, cp2_iff]
    constructor
    · rintro ⟨h1, h2⟩ q ⟨t, h0, ht1, rfl⟩
      obtain ⟨x1, x2⟩ := lerp_between ⟨h1.1, h1.2.1⟩ ⟨h2.1, h2.2.1⟩ h0 ht1
      obtain ⟨y1, y2⟩ := lerp_between h1.2.2 h2.2.2 h0 ht1
      exact ⟨mm.1, mm.2, rfl, x1, x2, y1, y2⟩
    · intro h
      obtain ⟨_, _, e1, h1⟩ := h _ hs
      obtain ⟨_, _, e2, h2⟩ := h _ he
      simp only [Option.some.injEq] at e1 e2
      subst e1
      cases e2
      exact ⟨h1, h2⟩

/-- C32 (3D) -/
theorem C32_contains_line3 (b : Aabb3 K) (l : Line3 K) :
    b.containsLine l = true ↔ ∀ q, OnSegment3 l.start l.end q → InBox3 b q := by
  have hs : OnSegment3 l.start l.end l.start := ⟨0, le_rfl, zero_le_one, by simp [lerp3]⟩
  have he : OnSegment3 l.start l.end l.end := ⟨1, zero_le_one, le_rfl, by simp [lerp3]⟩
  obtain ⟨mm⟩ := b
  cases mm with
  | none =>
    simp only [Aabb3.containsLine, Bool.false_eq_true, false_iff, not_forall]
    exact ⟨l.start, hs, by simp [InBox3]⟩
  | some mm =>
    simp only [Aabb3.containsLine, Bool.and_eq_true, cp3_iff]
    constructor
    · rintro ⟨h1, h2⟩ q ⟨t, h0, ht1, rfl⟩
      obtain ⟨x1, x2⟩ := lerp_between ⟨h1.1, h1.2.1⟩ ⟨h2.1, h2.2.1⟩ h0 ht1
      obtain ⟨y1, y2⟩ := lerp_between ⟨h1.2.2.1, h1.2.2.2.1⟩ ⟨h2.2.2.1, h2.2.2.2.1⟩ h0 ht1
      obtain ⟨z1, z2⟩ := lerp_between h1.2.2.2.2 h2.2.2.2.2 h0 ht1
      exact ⟨mm.1, mm.2, rfl, x1, x2, y1, y2, z1, z2⟩
    · intro h
      obtain ⟨_, _, e1, h1⟩ := h _ hs
      obtain ⟨_, _, e2, h2⟩ := h _ he
      simp only [Option.some.injEq] at e1 e2
      subst e1
      cases e2
      exact ⟨h1, h2⟩

/-- C32: `contains_aabb_inclusive` is true iff every point of the other box is in this box (2D). -/
theorem C32_contains_aabb2 (b o : Aabb2 K) (ho : Proper2 o) :
    b.containsAabb o = true ↔ ∀ q, InBox2 o q → InBox2 b q := by
  obtain ⟨⟨om⟩, hom⟩ : ∃ x, x = o := ⟨_, rfl⟩
  subst hom
  obtain ⟨lo, hi, rfl, hx, hy⟩ := ho
  have hs : InBox2 (⟨some (lo, hi)⟩ : Aabb2 K) lo := ⟨lo, hi, rfl, le_rfl, hx, le_rfl, hy⟩
  have he : InBox2 (⟨some (lo, hi)⟩ : Aabb2 K) hi := ⟨lo, hi, rfl, hx, le_rfl, hy, le_rfl⟩
  obtain ⟨mm⟩ := b
  cases mm with
  | none =>
    simp only [Aabb2.containsAabb, Bool.false_eq_true, false_iff, not_forall]
    exact ⟨lo, hs, by simp [InBox2]⟩
  | some mm =>
    simp only [Aabb2.containsAabb, Bool.and_eq_true, cp2_iff]
    constructor
    · rintro ⟨h1, h2⟩ q ⟨_, _, e, h⟩
      cases e
      exact ⟨mm.1, mm.2, rfl, h1.1.trans h.1, h.2.1.trans h2.2.1, h1.2.2.1.trans h.2.2.1,
        h.2.2.2.trans h2.2.2.2⟩
    · intro h
      obtain ⟨_, _, e1, h1⟩ := h _ hs
      obtain ⟨_, _, e2, h2⟩ := h _ he
      simp only [Option.some.injEq] at e1 e2
      subst e1
      cases e2
      exact ⟨h1, h2⟩

/-- C32 (3D) -/
theorem C32_contains_aabb3 (b o : Aabb3 K) (ho : Proper3 o) :
    b.containsAabb o = true ↔ ∀ q, InBox3 o q → InBox3 b q := by
  obtain ⟨⟨om⟩, hom⟩ : ∃ x, x = o := ⟨_, rfl⟩
  subst hom
  obtain ⟨lo, hi, rfl, hx, hy, hz⟩ := ho
  have hs : InBox3 (⟨some (lo, hi)⟩ : Aabb3 K) lo := ⟨lo, hi, rfl, le_rfl, hx, le_rfl, hy, le_rfl, hz⟩
  have he : InBox3 (⟨some (lo, hi)⟩ : Aabb3 K) hi := ⟨lo, hi, rfl, hx, le_rfl, hy, le_rfl, hz, le_rfl⟩
  obtain ⟨mm⟩ := b
  cases mm with
  | none =>
    simp only [Aabb3.containsAabb, Bool.false_eq_true, false_iff, not_forall]
    exact ⟨lo, hs, by simp [InBox3]⟩
  | some mm =>
    simp only [Aabb3.containsAabb, Bool.and_eq_true, cp3_iff]
    constructor
    · rintro ⟨h1, h2⟩ q ⟨_, _, e, h⟩
      cases e
      exact ⟨mm.1, mm.2, rfl, h1.1.trans h.1, h.2.1.trans h2.2.1, h1.2.2.1.trans h.2.2.1,
        h.2.2.2.1.trans h2.2.2.2.1, h1.2.2.2.2.1.trans h.2.2.2.2.1, h.2.2.2.2.2.trans h2.2.2.2.2.2⟩
    · intro h
      obtain ⟨_, _, e1, h1⟩ := h _ hs
      obtain ⟨_, _, e2, h2⟩ := h _ he
      simp only [Option.some.injEq] at e1 e2
      subst e1
      cases e2
      exact ⟨h1, h2⟩

/-- C32: nothing is contained in an empty box, and an empty box is contained in nothing. -/
theorem C32_empty_box (b : Aabb2 K) (c : Aabb3 K) (l : Line2 K) (m : Line3 K) (p : V2 K) (q : V3 K) :
    (⟨none⟩ : Aabb2 K).containsPoint p = false ∧ (⟨none⟩ : Aabb2 K).containsLine l = false ∧
    (⟨none⟩ : Aabb2 K).containsAabb b = false ∧ b.containsAabb ⟨none⟩ = false ∧
    (⟨none⟩ : Aabb3 K).containsPoint q = false ∧ (⟨none⟩ : Aabb3 K).containsLine m = false ∧
    (⟨none⟩ : Aabb3 K).containsAabb c = false ∧ c.containsAabb ⟨none⟩ = false := by
  refine ⟨rfl, rfl, rfl, ?_, rfl, rfl, rfl, ?_⟩
  · obtain ⟨_ | _⟩ := b <;> rfl
  · obtain ⟨_ | _⟩ := c <;> rfl

/-- C32: containment of boxes is transitive (2D and 3D; also for improper boxes). -/
theorem C32_transitive (a b c : Aabb2 K) (d e f : Aabb3 K) :
    (a.containsAabb b = true → b.containsAabb c = true → a.containsAabb c = true) ∧
    (d.containsAabb e = true → e.containsAabb f = true → d.containsAabb f = true) := by
  constructor
  · obtain ⟨_ | a⟩ := a <;> obtain ⟨_ | b⟩ := b <;> obtain ⟨_ | c⟩ := c <;>
      simp only [Aabb2.containsAabb, Bool.false_eq_true, false_implies, implies_true, Bool.and_eq_true, cp2_iff]
    rintro ⟨⟨a1, a2, a3, a4⟩, a5, a6, a7, a8⟩ ⟨⟨b1, b2, b3, b4⟩, b5, b6, b7, b8⟩
    exact ⟨⟨a1.trans b1, b2.trans a6, a3.trans b3, b4.trans a8⟩,
      a1.trans b5, b6.trans a6, a3.trans b7, b8.trans a8⟩
  · obtain ⟨_ | a⟩ := d <;> obtain ⟨_ | b⟩ := e <;> obtain ⟨_ | c⟩ := f <;>
      simp only [Aabb3.containsAabb, Bool.false_eq_true, false_implies, implies_true, Bool.and_eq_true, cp3_iff]
    rintro ⟨⟨a1, a2, a3, a4, a5, a6⟩, a7, a8, a9, a10, a11, a12⟩
      ⟨⟨b1, b2, b3, b4, b5, b6⟩, b7, b8, b9, b10, b11, b12⟩
    exact ⟨⟨a1.trans b1, b2.trans a8, a3.trans b3, b4.trans a10, a5.trans b5, b6.trans a12⟩,
      a1.trans b7, b8.trans a8, a3.trans b9, b10.trans a10, a5.trans b11, b12.trans a12⟩

/-- the hypothesis `Proper2` of C32 holds for every box built from points -/
theorem proper_of_hist (h : Hist2 K) (hne : h.fed ≠ []) : Proper2 h.run := by
  have hr := hist2_box h
  obtain ⟨⟨mm⟩, hmm⟩ : ∃ b, b = h.run := ⟨_, rfl⟩
  rw [← hmm] at hr ⊢
  cases mm with
  | none => exact absurd hr hne
  | some mm => exact ⟨mm.1, mm.2, rfl, (hr.1.2.2 _ hr.1.1).2, (hr.2.2.2 _ hr.2.1).2⟩

example : (Aabb2.mk (some ((⟨0, 0⟩ : V2 ℚ), ⟨4, 4⟩))).containsAabb ⟨some (⟨1, 1⟩, ⟨4, 2⟩)⟩ = true ∧
    (Aabb2.mk (some ((⟨0, 0⟩ : V2 ℚ), ⟨4, 4⟩))).containsAabb ⟨some (⟨1, 1⟩, ⟨5, 2⟩)⟩ = false := by
  constructor <;> decide +kernel

/-- C33: `convex_hull` of a box is the closed loop of its four corners starting at the minimum
corner; a point is in the box iff it is on or left of each of the four edges (if the box has
positive width and height). -/
theorem C33_convex_hull (b : Aabb2 K) (hull : List (V2 K)) (h : b.convexHull = some hull) :
    hull.length = 5 ∧ hull[0]? = b.low ∧ hull[4]? = b.low ∧ hull[2]? = b.high ∧
    (Proper2 b → ∀ p ∈ hull, InBox2 b p) ∧
    ∀ lo hi, b.minMax = some (lo, hi) → lo.x < hi.x → lo.y < hi.y → ∀ p,
      InBox2 b p ↔ ∀ (i : Nat) (u v : V2 K), hull[i]? = some u → hull[i + 1]? = some v → 0 ≤ orient u v p := by
  obtain ⟨mm⟩ := b
  cases mm with
  | none => simp [Aabb2.convexHull] at h
  | some mm =>
    obtain ⟨lo, hi⟩ := mm
    simp only [Aabb2.convexHull, Option.map_some, Option.some.injEq] at h
    subst h
    refine ⟨rfl, rfl, rfl, rfl, ?_, ?_⟩
    · rintro ⟨lo', hi', e, hx, hy⟩ p hp
      cases e
      simp only [List.mem_cons, List.not_mem_nil, or_false] at hp
      rcases hp with rfl | rfl | rfl | rfl | rfl <;>
        exact ⟨lo, hi, rfl, by first | exact le_rfl | exact hx, by first | exact le_rfl | exact hx,
          by first | exact le_rfl | exact hy, by first | exact le_rfl | exact hy⟩
    · intro lo' hi' e hx hy p
      cases e
      have hx' : 0 < hi.x - lo.x := by linarith
      have hy' : 0 < hi.y - lo.y := by linarith
      constructor
      · rintro ⟨_, _, e, h1, h2, h3, h4⟩ i u v hu hv
        cases e
        match i, hu, hv with
        | 0, hu, hv =>
          cases hu; cases hv
          simp only [orient]
          have := mul_nonneg hx'.le (sub_nonneg.2 h3); linarith
        | 1, hu, hv =>
          cases hu; cases hv
          simp only [orient]
          have := mul_nonneg hy'.le (sub_nonneg.2 h2); linarith
        | 2, hu, hv =>
          cases hu; cases hv
          simp only [orient]
          have := mul_nonneg hx'.le (sub_nonneg.2 h4); linarith
        | 3, hu, hv =>
          cases hu; cases hv
          simp only [orient]
          have := mul_nonneg hy'.le (sub_nonneg.2 h1); linarith
        | 4, hu, hv => cases hv
        | i + 5, hu, hv => cases hu
      · intro hh
        have e0 := hh 0 _ _ rfl rfl
        have e1 := hh 1 _ _ rfl rfl
        have e2 := hh 2 _ _ rfl rfl
        have e3 := hh 3 _ _ rfl rfl
        simp only [orient] at e0 e1 e2 e3
        refine ⟨lo, hi, rfl, ?_, ?_, ?_, ?_⟩
        · refine sub_nonneg.1 (nonneg_of_mul_nonneg_right (b := p.x - lo.x) (a := hi.y - lo.y) ?_ hy')
          linarith
        · refine sub_nonneg.1 (nonneg_of_mul_nonneg_right (b := hi.x - p.x) (a := hi.y - lo.y) ?_ hy')
          linarith
        · refine sub_nonneg.1 (nonneg_of_mul_nonneg_right (b := p.y - lo.y) (a := hi.x - lo.x) ?_ hx')
          linarith
        · refine sub_nonneg.1 (nonneg_of_mul_nonneg_right (b := hi.y - p.y) (a := hi.x - lo.x) ?_ hx')
          linarith

omit [Field K] [LinearOrder K] [ExactScalar K] in
/-- C33: converting a box to a line string (`Vec::from`) gives the same loop. -/
theorem C33_from_aabb (b : Aabb2 K) : b.toVec = b.convexHull.getD [] := by
  obtain ⟨_ | ⟨lo, hi⟩⟩ := b <;> rfl

/-- a concrete instance of C33 -/
example : (Aabb2.mk (some ((⟨0, 0⟩ : V2 ℚ), ⟨4, 2⟩))).convexHull =
    some [⟨0, 0⟩, ⟨4, 0⟩, ⟨4, 2⟩, ⟨0, 2⟩, ⟨0, 0⟩] := by decide +kernel

/-! ### C28, C29: planes -/

omit [Field K] [LinearOrder K] [ExactScalar K] in
/-- C28: copying to 3D and back is the identity for points, lines and line strings. -/
theorem C28_copy_roundtrip (pl : Plane) (p : V2 K) (l : Line2 K) (s : List (V2 K)) :
    pl.pointTo2d (pl.pointTo3d p) = p ∧ (l.copyTo3d pl).copyTo2d pl = l ∧
    copyTo2d (copyTo3d s pl) pl = s := by
  refine ⟨by cases pl <;> rfl, by cases pl <;> rfl, ?_⟩
  cases pl <;> simp only [copyTo2d, copyTo3d, List.map_map] <;>
    exact (List.map_congr_left (fun _ _ => rfl)).trans (List.map_id _)

/-- the coordinate of a point orthogonal to a plane -/
def orthogonal (pl : Plane) (p : V3 K) : K :=
  match pl with
  | .xy => p.z
  | .xz => p.y
  | .yz => p.x

omit [Field K] [LinearOrder K] [ExactScalar K] in
/-- C28: the coordinate orthogonal to the plane is zero after copying to 3D. -/
theorem C28_orthogonal_zero (pl : Plane) (p : V2 K) (l : Line2 K) (s : List (V2 K)) :
    orthogonal pl (pl.pointTo3d p) = zero ∧ orthogonal pl (l.copyTo3d pl).start = zero ∧
    orthogonal pl (l.copyTo3d pl).end = zero ∧ (copyTo3d s pl).length = s.length ∧
    ∀ q ∈ copyTo3d s pl, orthogonal pl q = zero := by
  refine ⟨by cases pl <;> rfl, by cases pl <;> rfl, by cases pl <;> rfl, ?_, ?_⟩
  · cases pl <;> simp [copyTo3d]
  · intro q hq
    cases pl <;> simp only [copyTo3d, List.mem_map] at hq <;> obtain ⟨a, -, rfl⟩ := hq <;> rfl

omit [Field K] [LinearOrder K] [ExactScalar K] in
/-- C28: the other way round, points of the plane survive copying to 2D and back. -/
theorem C28_copy_roundtrip_3d (pl : Plane) (p : V3 K) (s : List (V3 K))
    (hp : orthogonal pl p = zero) (hs : ∀ q ∈ s, orthogonal pl q = zero) :
    pl.pointTo3d (pl.pointTo2d p) = p ∧ copyTo3d (copyTo2d s pl) pl = s := by
  constructor
  · obtain ⟨x, y, z⟩ := p
    cases pl <;> simp only [orthogonal] at hp <;> subst hp <;> rfl
  · cases pl <;> simp only [copyTo2d, copyTo3d, List.map_map] <;> (
      conv_rhs => rw [← List.map_id s]
      refine List.map_congr_left (fun q hq => ?_)
      have := hs q hq
      obtain ⟨x, y, z⟩ := q
      simp only [orthogonal] at this
      subst this; rfl)

omit [Field K] [LinearOrder K] [ExactScalar K] in
/-- C28, remark: a *single line* and a *line string* do not use the same axis order for `YZ`, so
mixing the two does not round trip. -/
theorem C28_mixed_yz_swaps (a b : K) :
    copyTo3d [(⟨a, b⟩ : V2 K)] .yz = [⟨zero, b, a⟩] ∧
    (Line2.mk (⟨a, b⟩ : V2 K) ⟨a, b⟩).copyTo3d .yz = ⟨⟨zero, a, b⟩, ⟨zero, a, b⟩⟩ := ⟨rfl, rfl⟩

example : copyTo2d (copyTo3d [(⟨1, 2⟩ : V2 ℚ), ⟨3, 4⟩] .yz) .yz = [⟨1, 2⟩, ⟨3, 4⟩] :=
  (C28_copy_roundtrip .yz ⟨1, 2⟩ ⟨⟨1, 2⟩, ⟨1, 2⟩⟩ _).2.2

/-- C29: `get_plane` returns the plane orthogonal to the only axis in which the box is flat; it
returns `None` if the box is empty, or flat in no or in several axes. -/
theorem C29_get_plane (b : Aabb3 K) (hb : b.minMax = none ∨ Proper3 b) (pl : Plane) :
    Plane.getPlane b = some pl ↔ ∃ lo hi, b.minMax = some (lo, hi) ∧
      orthogonal pl lo = orthogonal pl hi ∧ ∀ pl', pl' ≠ pl → orthogonal pl' lo ≠ orthogonal pl' hi := by
  obtain ⟨mm⟩ := b
  cases mm with
  | none => simp [Plane.getPlane, Plane.getPlaneRelaxed, Aabb3.low]
  | some mm =>
    obtain ⟨lo, hi⟩ := mm
    rcases hb with hb | ⟨_, _, e, hx, hy, hz⟩
    · cases hb
    cases e
    have key : ∀ d m : K, 0 ≤ d → d ≤ m → (Scalar.ulpsEq (Scalar.zero : K) (d / m) = true ↔ d = 0) := by
      intro d m h0 hm
      rw [ExactScalar.ulps_iff, ExactScalar.zero_eq, eq_comm, div_eq_zero_iff]
      constructor
      · rintro (h | h)
        · exact h
        · exact le_antisymm (h ▸ hm) h0
      · exact Or.inl
    have hall : ∀ P : Plane → Prop, (∀ pl, P pl) ↔ P .xy ∧ P .xz ∧ P .yz :=
      fun P => ⟨fun h => ⟨h _, h _, h _⟩, fun h pl => by cases pl <;> simp [h]⟩
    obtain ⟨m, hm⟩ : ∃ m, m = max (max (hi.x - lo.x) (hi.y - lo.y)) (hi.z - lo.z) := ⟨_, rfl⟩
    have fx : (Scalar.ulpsEq (Scalar.zero : K) ((hi.x - lo.x) / m) = true ↔ lo.x = hi.x) := by
      rw [key _ _ (sub_nonneg.2 hx) (hm ▸ (le_max_left _ _).trans (le_max_left _ _)), sub_eq_zero, eq_comm]
    have fy : (Scalar.ulpsEq (Scalar.zero : K) ((hi.y - lo.y) / m) = true ↔ lo.y = hi.y) := by
      rw [key _ _ (sub_nonneg.2 hy) (hm ▸ (le_max_right _ _).trans (le_max_left _ _)), sub_eq_zero, eq_comm]
    have fz : (Scalar.ulpsEq (Scalar.zero : K) ((hi.z - lo.z) / m) = true ↔ lo.z = hi.z) := by
      rw [key _ _ (sub_nonneg.2 hz) (hm ▸ le_max_right _ _), sub_eq_zero, eq_comm]
    have e : Plane.getPlane (⟨some (lo, hi)⟩ : Aabb3 K) =
        let fx := Scalar.ulpsEq (Scalar.zero : K) ((hi.x - lo.x) / m)
        let fy := Scalar.ulpsEq (Scalar.zero : K) ((hi.y - lo.y) / m)
        let fz := Scalar.ulpsEq (Scalar.zero : K) ((hi.z - lo.z) / m)
        if fx && !fy && !fz then some .yz
        else if fy && !fx && !fz then some .xz
        else if fz && !fx && !fy then some .xy
        else none := by
      rw [hm]
      simp only [Plane.getPlane, Plane.getPlaneRelaxed, Aabb3.low, Aabb3.high, Option.map_some,
        ExactScalar.sub_eq, ExactScalar.div_eq, OrderedScalar.fmax_eq]
    rw [e]
    have spec : (∃ lo' hi', (⟨some (lo, hi)⟩ : Aabb3 K).minMax = some (lo', hi') ∧
      orthogonal pl lo' = orthogonal pl hi' ∧ ∀ pl', pl' ≠ pl → orthogonal pl' lo' ≠ orthogonal pl' hi') ↔
      (orthogonal pl lo = orthogonal pl hi ∧ ∀ pl', pl' ≠ pl → orthogonal pl' lo ≠ orthogonal pl' hi) := by
      constructor
      · rintro ⟨_, _, e, h⟩; cases e; exact h
      · intro h; exact ⟨lo, hi, rfl, h⟩
    rw [spec, hall]
    generalize Scalar.ulpsEq (Scalar.zero : K) ((hi.x - lo.x) / m) = bx at fx
    generalize Scalar.ulpsEq (Scalar.zero : K) ((hi.y - lo.y) / m) = bY at fy
    generalize Scalar.ulpsEq (Scalar.zero : K) ((hi.z - lo.z) / m) = bz at fz
    clear spec e key hall hm hx hy hz
    cases pl <;> simp only [orthogonal, ne_eq, ← fx, ← fy, ← fz] <;> clear fx fy fz <;>
      cases bx <;> cases bY <;> cases bz <;> decide

/-- C29: every point of the box then has the same coordinate orthogonal to the plane. -/
theorem C29_points_in_plane (b : Aabb3 K) (pl : Plane) (hp : Proper3 b) (h : Plane.getPlane b = some pl)
    (p q : V3 K) (hpb : InBox3 b p) (hqb : InBox3 b q) : orthogonal pl p = orthogonal pl q := by
  obtain ⟨lo, hi, e, h1, -⟩ := (C29_get_plane b (Or.inr hp) pl).1 h
  obtain ⟨_, _, e2, p1, p2, p3, p4, p5, p6⟩ := hpb
  obtain ⟨_, _, e3, q1, q2, q3, q4, q5, q6⟩ := hqb
  rw [e] at e2 e3
  cases e2
  cases e3
  cases pl <;> simp only [orthogonal] at h1 ⊢ <;> (apply le_antisymm <;> linarith)

/-- C29: the relaxed version answers the same if its tolerance accepts only zero. -/
theorem C29_relaxed (b : Aabb3 K) (flat : K → Bool) (hf : ∀ d, flat d = true ↔ d = 0) :
    Plane.getPlaneRelaxed flat b = Plane.getPlane b := by
  have : flat = fun d => Scalar.ulpsEq (Scalar.zero : K) d := by
    funext d
    rw [Bool.eq_iff_iff, hf, ExactScalar.ulps_iff, ExactScalar.zero_eq, eq_comm]
  rw [this]; rfl

omit [Field K] [LinearOrder K] [ExactScalar K] in
/-- C29, any arithmetic: a plane is returned only if exactly one of the three relative extents is
judged flat, the one orthogonal to it, and never for an empty box. -/
theorem C29_empty (flat : K → Bool) : Plane.getPlaneRelaxed flat (⟨none⟩ : Aabb3 K) = none := rfl

example : Plane.getPlane (Aabb3.mk (some ((⟨0, 0, 1⟩ : V3 ℚ), ⟨4, 2, 1⟩))) = some .xy ∧
    Plane.getPlane (Aabb3.mk (some ((⟨0, 1, 1⟩ : V3 ℚ), ⟨4, 1, 1⟩))) = none := by
  constructor <;> decide +kernel

/-! ### C34, C35: SimpleAffine -/

/-- source and destination of a transform, spelled out -/
theorem affine_new (sl sh dl dh : V2 K) (t : SimpleAffine K)
    (h : SimpleAffine.new ⟨some (sl, sh)⟩ ⟨some (dl, dh)⟩ = some t) :
    t.aOffset = ⟨-(sl.x + sh.x) / 2, -(sl.y + sh.y) / 2⟩ ∧
    t.bOffset = ⟨(dl.x + dh.x) / 2, (dl.y + dh.y) / 2⟩ ∧
    ∃ s d, s = max (max (sh.x - sl.x) 1) (max (sh.y - sl.y) 1) ∧
      d = min (max (dh.x - dl.x) 1) (max (dh.y - dl.y) 1) ∧ t.scale = ⟨d / s, d / s⟩ := by
  simp only [SimpleAffine.new, Aabb2.low, Aabb2.high, Option.map_some, exact_simp, Option.some.injEq] at h
  subst h
  exact ⟨rfl, rfl, _, _, rfl, rfl, rfl⟩

/-- C34: building a transform fails iff one of the boxes is empty. -/
theorem C34_new_fails_iff (a b : Aabb2 K) :
    SimpleAffine.new a b = none ↔ a.minMax = none ∨ b.minMax = none := by
  obtain ⟨_ | ⟨sl, sh⟩⟩ := a <;> obtain ⟨_ | ⟨dl, dh⟩⟩ := b <;>
    simp [SimpleAffine.new, Aabb2.low, Aabb2.high]

/-- C35: the scale is uniform and positive, for any two boxes. -/
theorem C35_scale_uniform (a b : Aabb2 K) (t : SimpleAffine K) (h : SimpleAffine.new a b = some t) :
    t.scale.x = t.scale.y ∧ 0 < t.scale.x := by
  obtain ⟨_ | ⟨sl, sh⟩⟩ := a
  · simp [SimpleAffine.new, Aabb2.low] at h
  obtain ⟨_ | ⟨dl, dh⟩⟩ := b
  · simp [SimpleAffine.new, Aabb2.low, Aabb2.high] at h
  obtain ⟨-, -, s, d, hs, hd, e⟩ := affine_new sl sh dl dh t h
  rw [e]
  refine ⟨rfl, div_pos ?_ ?_⟩
  · rw [hd]
    exact lt_min (lt_of_lt_of_le one_pos (le_max_right _ _)) (lt_of_lt_of_le one_pos (le_max_right _ _))
  · rw [hs]; exact lt_of_lt_of_le one_pos ((le_max_right _ _).trans (le_max_left _ _))

/-- C34: the two transforms are inverse to each other. -/
theorem C34_inverse (a b : Aabb2 K) (t : SimpleAffine K) (h : SimpleAffine.new a b = some t) (p : V2 K) :
    (∃ q, t.transformAb p = some q ∧ t.transformBa q = some p) ∧
    (∃ q, t.transformBa p = some q ∧ t.transformAb q = some p) := by
  obtain ⟨hu, hpos⟩ := C35_scale_uniform a b t h
  have h1 : t.scale.x ≠ 0 := hpos.ne'
  have h2 : t.scale.y ≠ 0 := hu ▸ h1
  obtain ⟨px, py⟩ := p
  constructor
  · simp only [SimpleAffine.transformAb, SimpleAffine.transformBa, exact_simp, Bool.and_true, if_true]
    refine ⟨_, rfl, ?_⟩
    simp only [Option.some.injEq, V2.mk.injEq, add_sub_cancel_right, mul_div_assoc, div_self h1, div_self h2,
      mul_one, and_self]
  · simp only [SimpleAffine.transformAb, SimpleAffine.transformBa, exact_simp, Bool.and_true, if_true]
    refine ⟨_, rfl, ?_⟩
    simp only [Option.some.injEq, V2.mk.injEq, sub_add_cancel, div_mul_cancel₀ _ h1, div_mul_cancel₀ _ h2,
      and_self]

omit [Field K] [LinearOrder K] [ExactScalar K] in
/-- C34: the array versions agree with the point versions, whatever the arithmetic does. -/
theorem C34_array_versions (t : SimpleAffine K) (p q : V2 K) :
    t.transformAbA (p, q) = (match t.transformAb p, t.transformAb q with
      | some p', some q' => some (p', q') | _, _ => none) ∧
    t.transformBaA (p, q) = (match t.transformBa p, t.transformBa q with
      | some p', some q' => some (p', q') | _, _ => none) := by
  constructor
  · simp only [SimpleAffine.transformAbA, SimpleAffine.transformAb]
    generalize Scalar.isFinite (_ : K) = a
    generalize Scalar.isFinite (_ : K) = b
    generalize Scalar.isFinite (_ : K) = c
    generalize Scalar.isFinite (_ : K) = d
    cases a <;> cases b <;> cases c <;> cases d <;> rfl
  · simp only [SimpleAffine.transformBaA, SimpleAffine.transformBa]
    generalize Scalar.isFinite (_ : K) = a
    generalize Scalar.isFinite (_ : K) = b
    generalize Scalar.isFinite (_ : K) = c
    generalize Scalar.isFinite (_ : K) = d
    cases a <;> cases b <;> cases c <;> cases d <;> rfl

/-- C35: the center of the source box is mapped to the center of the destination box. -/
theorem C35_center (a b : Aabb2 K) (t : SimpleAffine K) (h : SimpleAffine.new a b = some t)
    (ca cb : V2 K) (ha : a.center = some ca) (hb : b.center = some cb) : t.transformAb ca = some cb := by
  obtain ⟨_ | ⟨sl, sh⟩⟩ := a
  · simp [SimpleAffine.new, Aabb2.low] at h
  obtain ⟨_ | ⟨dl, dh⟩⟩ := b
  · simp [SimpleAffine.new, Aabb2.low, Aabb2.high] at h
  obtain ⟨ea, eb, s, d, hs, hd, e⟩ := affine_new sl sh dl dh t h
  simp only [Aabb2.center, Option.map_some, Option.some.injEq, exact_simp] at ha hb
  subst ha hb
  simp only [SimpleAffine.transformAb, ea, eb, e, exact_simp, Bool.and_true, if_true, Option.some.injEq, V2.mk.injEq]
  constructor <;> ring

theorem axis_bound {lo hi p c s d k : K} (h1 : lo ≤ p) (h2 : p ≤ hi) (hs : hi - lo ≤ s) (hs0 : 0 < s)
    (hd0 : 0 < d) (hk : d ≤ k) :
    c - k / 2 ≤ (p + -(lo + hi) / 2) * (d / s) + c ∧ (p + -(lo + hi) / 2) * (d / s) + c ≤ c + k / 2 := by
  have hq : 0 < d / s := div_pos hd0 hs0
  have e : s * (d / s) = d := by rw [mul_div_assoc', mul_comm, mul_div_assoc, div_self hs0.ne', mul_one]
  have b1 : (p + -(lo + hi) / 2) * (d / s) ≤ (s / 2) * (d / s) :=
    mul_le_mul_of_nonneg_right (by linarith) hq.le
  have b2 : (-(s / 2)) * (d / s) ≤ (p + -(lo + hi) / 2) * (d / s) :=
    mul_le_mul_of_nonneg_right (by linarith) hq.le
  have e1 : (s / 2) * (d / s) = d / 2 := by rw [div_mul_eq_mul_div, e]
  have e2 : (-(s / 2)) * (d / s) = -(d / 2) := by rw [neg_mul, e1]
  rw [e1] at b1
  rw [e2] at b2
  constructor <;> linarith

/-- C35: if both dimensions of the destination box are at least 1, every point of the source box is
mapped into the destination box. -/
theorem C35_maps_into (a b : Aabb2 K) (t : SimpleAffine K) (h : SimpleAffine.new a b = some t)
    (dl dh : V2 K) (hb : b.minMax = some (dl, dh)) (hw : 1 ≤ dh.x - dl.x) (hh : 1 ≤ dh.y - dl.y)
    (p : V2 K) (hp : InBox2 a p) : ∃ q, t.transformAb p = some q ∧ InBox2 b q := by
  obtain ⟨mm⟩ := a
  obtain ⟨bm⟩ := b
  simp only at hb
  subst hb
  obtain ⟨sl, sh, e, p1, p2, p3, p4⟩ := hp
  simp only at e
  subst e
  obtain ⟨ea, eb, s, d, hs, hd, e⟩ := affine_new sl sh dl dh t h
  rw [max_eq_left hw, max_eq_left hh] at hd
  have hd0 : 0 < d := by rw [hd]; exact lt_min (by linarith) (by linarith)
  have hs0 : 0 < s := by rw [hs]; exact lt_of_lt_of_le one_pos ((le_max_right _ _).trans (le_max_left _ _))
  have hsx : sh.x - sl.x ≤ s := by rw [hs]; exact (le_max_left _ _).trans (le_max_left _ _)
  have hsy : sh.y - sl.y ≤ s := by rw [hs]; exact (le_max_left _ _).trans (le_max_right _ _)
  have hdx : d ≤ dh.x - dl.x := by rw [hd]; exact min_le_left _ _
  have hdy : d ≤ dh.y - dl.y := by rw [hd]; exact min_le_right _ _
  obtain ⟨x1, x2⟩ := axis_bound (c := (dl.x + dh.x) / 2) p1 p2 hsx hs0 hd0 hdx
  obtain ⟨y1, y2⟩ := axis_bound (c := (dl.y + dh.y) / 2) p3 p4 hsy hs0 hd0 hdy
  refine ⟨⟨(p.x + -(sl.x + sh.x) / 2) * (d / s) + (dl.x + dh.x) / 2,
      (p.y + -(sl.y + sh.y) / 2) * (d / s) + (dl.y + dh.y) / 2⟩, ?_, dl, dh, rfl, ?_, ?_, ?_, ?_⟩
  · simp only [SimpleAffine.transformAb, ea, eb, e, exact_simp, Bool.and_true, if_true]
  · simp only; linarith
  · simp only; linarith
  · simp only; linarith
  · simp only; linarith

/-- C35: the bound on the destination is needed: a destination smaller than one unit is exceeded. -/
theorem C35_small_destination_exceeded : ∃ t : SimpleAffine ℚ,
    SimpleAffine.new ⟨some (⟨0, 0⟩, ⟨1, 1⟩)⟩ ⟨some (⟨0, 0⟩, ⟨1/2, 1/2⟩)⟩ = some t ∧
    t.transformAb ⟨1, 1⟩ = some ⟨3/4, 3/4⟩ := ⟨_, rfl, by decide +kernel⟩

/-- the hypotheses of C34, C35 are met -/
example : ∃ t : SimpleAffine ℚ,
    SimpleAffine.new ⟨some (⟨0, 0⟩, ⟨10, 5⟩)⟩ ⟨some (⟨100, 100⟩, ⟨120, 200⟩)⟩ = some t ∧
    t.transformAb ⟨10, 5⟩ = some ⟨120, 155⟩ ∧ t.transformBa ⟨120, 155⟩ = some ⟨10, 5⟩ :=
  ⟨_, rfl, by decide +kernel, by decide +kernel⟩

end exact

end Verif.Props.Aabb
