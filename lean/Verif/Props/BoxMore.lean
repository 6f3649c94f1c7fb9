import Verif.Props.Aabb
import Verif.Model.Misc
/-!
# C65, C66: corners, extents, centre, equality and `apply` of boxes
-/
namespace Verif.Props.Aabb
open Verif Verif.Model Verif.Spec Verif.Proofs.Aabb Scalar
set_option linter.unusedSectionVars false
set_option linter.unusedSimpArgs false

section exact
variable {K : Type} [Scalar K] [Field K] [LinearOrder K] [ExactScalar K]

/-- C65 (2D): for a box with lower corner `lo` and upper corner `hi`: `low`, `high`, `min_max` return these
corners, `extents` returns them with their difference, and `center` is the point `c` with
`c - lo = hi - c`; without a box they all return `None`. -/
theorem C65_accessors2 (b : Aabb2 K) :
    (∀ lo hi, b.getMinMax = some (lo, hi) →
      b.low = some lo ∧ b.high = some hi ∧
      (∃ d : V2 K, b.extents = some (lo, hi, d) ∧ lo.x + d.x = hi.x ∧ lo.y + d.y = hi.y) ∧
      (∃ c : V2 K, b.center = some c ∧ c.x - lo.x = hi.x - c.x ∧ c.y - lo.y = hi.y - c.y)) ∧
    (b.getMinMax = none → b.low = none ∧ b.high = none ∧ b.extents = none ∧ b.center = none) := by
  obtain ⟨mm⟩ := b
  refine ⟨?_, ?_⟩
  · rintro lo hi e
    simp only [Aabb2.getMinMax] at e
    subst e
    refine ⟨rfl, rfl, ⟨_, rfl, ?_, ?_⟩, ⟨_, rfl, ?_, ?_⟩⟩ <;> simp only [exact_simp] <;> ring
  · rintro e
    simp only [Aabb2.getMinMax] at e
    subst e
    exact ⟨rfl, rfl, rfl, rfl⟩

/-- C65 (3D) -/
theorem C65_accessors3 (b : Aabb3 K) :
    (∀ lo hi, b.minMax = some (lo, hi) →
      b.low = some lo ∧ b.high = some hi ∧
      (∃ d : V3 K, b.extents = some (lo, hi, d) ∧ lo.x + d.x = hi.x ∧ lo.y + d.y = hi.y ∧
        lo.z + d.z = hi.z) ∧
      (∃ c : V3 K, b.center = some c ∧ c.x - lo.x = hi.x - c.x ∧ c.y - lo.y = hi.y - c.y ∧
        c.z - lo.z = hi.z - c.z)) ∧
    (b.minMax = none → b.low = none ∧ b.high = none ∧ b.extents = none ∧ b.center = none) := by
  obtain ⟨mm⟩ := b
  refine ⟨?_, ?_⟩
  · rintro lo hi e
    simp only at e
    subst e
    refine ⟨rfl, rfl, ⟨_, rfl, ?_, ?_, ?_⟩, ⟨_, rfl, ?_, ?_, ?_⟩⟩ <;> simp only [exact_simp] <;> ring
  · rintro e
    simp only at e
    subst e
    exact ⟨rfl, rfl, rfl, rfl⟩

/-- C65: the centre of a box built from points is inside the box (2D). -/
theorem C65_center_inside (h : Hist2 K) (c : V2 K) (e : h.run.center = some c) :
    h.run.containsPoint c = true := by
  rw [C32_contains_point2]
  by_cases hne : h.fed = []
  · have := (C30_box_exists_iff h (Hist3.default (K := K))).1.2 hne
    simp [Aabb2.center, this] at e
  · obtain ⟨lo, hi, hm, hx, hy⟩ := proper_of_hist h hne
    obtain ⟨-, -, -, c', ec, e1, e2⟩ := (C65_accessors2 h.run).1 lo hi hm
    rw [e] at ec
    cases ec
    exact ⟨lo, hi, hm, by linarith, by linarith, by linarith, by linarith⟩

/-- C65: two boxes built from points compare equal iff they contain the same points. -/
theorem C65_equality (h g : Hist2 K) :
    Aabb2.eq h.run g.run = true ↔
      ∀ p, h.run.containsPoint p = true ↔ g.run.containsPoint p = true := by
  simp only [C32_contains_point2]
  by_cases h0 : h.fed = []
  · have hn := (C30_box_exists_iff h (Hist3.default (K := K))).1.2 h0
    by_cases g0 : g.fed = []
    · have gn := (C30_box_exists_iff g (Hist3.default (K := K))).1.2 g0
      simp [Aabb2.eq, hn, gn, InBox2]
    · obtain ⟨lo, hi, gm, hx, hy⟩ := proper_of_hist g g0
      simp only [Aabb2.eq, hn, gm, Bool.false_eq_true, false_iff, not_forall]
      refine ⟨lo, fun H => ?_⟩
      obtain ⟨_, _, c, -⟩ := H.2 ⟨lo, hi, gm, le_rfl, hx, le_rfl, hy⟩
      rw [hn] at c; cases c
  · obtain ⟨lo, hi, hm, hx, hy⟩ := proper_of_hist h h0
    by_cases g0 : g.fed = []
    · have gn := (C30_box_exists_iff g (Hist3.default (K := K))).1.2 g0
      simp only [Aabb2.eq, hm, gn, Bool.false_eq_true, false_iff, not_forall]
      refine ⟨lo, fun H => ?_⟩
      obtain ⟨_, _, c, -⟩ := H.1 ⟨lo, hi, hm, le_rfl, hx, le_rfl, hy⟩
      rw [gn] at c; cases c
    · obtain ⟨lo', hi', gm, gx, gy⟩ := proper_of_hist g g0
      have k1 : ∀ p, InBox2 h.run p ↔ lo.x ≤ p.x ∧ p.x ≤ hi.x ∧ lo.y ≤ p.y ∧ p.y ≤ hi.y := by
        intro p
        constructor
        · rintro ⟨_, _, c, r⟩; rw [hm] at c; cases c; exact r
        · intro r; exact ⟨lo, hi, hm, r⟩
      have k2 : ∀ p, InBox2 g.run p ↔ lo'.x ≤ p.x ∧ p.x ≤ hi'.x ∧ lo'.y ≤ p.y ∧ p.y ≤ hi'.y := by
        intro p
        constructor
        · rintro ⟨_, _, c, r⟩; rw [gm] at c; cases c; exact r
        · intro r; exact ⟨lo', hi', gm, r⟩
      simp only [k1, k2, Aabb2.eq, hm, gm, Bool.and_eq_true, ExactScalar.ulps_iff]
      constructor
      · rintro ⟨⟨⟨a, b⟩, c⟩, d⟩ p
        rw [a, b, c, d]
      · intro H
        have a1 := (H lo).1 ⟨le_rfl, hx, le_rfl, hy⟩
        have a2 := (H hi).1 ⟨hx, le_rfl, hy, le_rfl⟩
        have b1 := (H lo').2 ⟨le_rfl, gx, le_rfl, gy⟩
        have b2 := (H hi').2 ⟨gx, le_rfl, gy, le_rfl⟩
        exact ⟨⟨⟨le_antisymm b1.1 a1.1, le_antisymm a2.2.1 b2.2.1⟩, le_antisymm b1.2.2.1 a1.2.2.1⟩,
          le_antisymm a2.2.2.2 b2.2.2.2⟩

end exact

section ordered
variable {K : Type} [Scalar K] [LinearOrder K] [OrderedScalar K]

theorem range_map {lo hi : K} {xs : List K} (g : K → K) (hg : Monotone g) (h : IsRange lo hi xs) :
    IsRange (g lo) (g hi) (xs.map g) := by
  refine ⟨List.mem_map_of_mem h.1, List.mem_map_of_mem h.2.1, fun x hx => ?_⟩
  obtain ⟨y, hy, rfl⟩ := List.mem_map.1 hx
  exact ⟨hg (h.2.2 y hy).1, hg (h.2.2 y hy).2⟩

/-- C66 (2D): applying a function that maps each axis by a monotone function (a translation, a scaling by
non-negative factors, …) to a box gives the box of the mapped points, whatever the history of the box. -/
theorem C66_apply2 (h : Hist2 K) (f : V2 K → V2 K) (gx gy : K → K) (hx : Monotone gx) (hy : Monotone gy)
    (hf : ∀ p, f p = ⟨gx p.x, gy p.y⟩) : IsBoundingBox2 (h.run.apply f) (h.fed.map f) := by
  have hb := hist2_box h
  obtain ⟨⟨mm⟩, hmm⟩ : ∃ b, b = h.run := ⟨_, rfl⟩
  rw [← hmm] at hb ⊢
  cases mm with
  | none => simpa [IsBoundingBox2, Aabb2.apply] using hb
  | some mm =>
    obtain ⟨lo, hi⟩ := mm
    simp only [IsBoundingBox2, Aabb2.apply, Option.map_some, hf, List.map_map] at hb ⊢
    refine ⟨?_, ?_⟩
    · have := range_map gx hx hb.1
      rw [List.map_map] at this
      exact range_congr this (fun x => by simp [hf])
    · have := range_map gy hy hb.2
      rw [List.map_map] at this
      exact range_congr this (fun x => by simp [hf])

/-- C66 (3D) -/
theorem C66_apply3 (h : Hist3 K) (f : V3 K → V3 K) (gx gy gz : K → K) (hx : Monotone gx)
    (hy : Monotone gy) (hz : Monotone gz) (hf : ∀ p, f p = ⟨gx p.x, gy p.y, gz p.z⟩) :
    IsBoundingBox3 (h.run.apply f) (h.fed.map f) := by
  have hb := hist3_box h
  obtain ⟨⟨mm⟩, hmm⟩ : ∃ b, b = h.run := ⟨_, rfl⟩
  rw [← hmm] at hb ⊢
  cases mm with
  | none => simpa [IsBoundingBox3, Aabb3.apply] using hb
  | some mm =>
    obtain ⟨lo, hi⟩ := mm
    simp only [IsBoundingBox3, Aabb3.apply, Option.map_some, hf, List.map_map] at hb ⊢
    refine ⟨?_, ?_, ?_⟩
    · have := range_map gx hx hb.1
      rw [List.map_map] at this
      exact range_congr this (fun x => by simp [hf])
    · have := range_map gy hy hb.2.1
      rw [List.map_map] at this
      exact range_congr this (fun x => by simp [hf])
    · have := range_map gz hz hb.2.2
      rw [List.map_map] at this
      exact range_congr this (fun x => by simp [hf])

end ordered

/-- the hypotheses of C66 are met by a scaling with a translation -/
example : IsBoundingBox2 ((Hist2.withPoints [(⟨1, 5⟩ : V2 ℚ), ⟨3, 2⟩]).run.apply (fun p => ⟨2 * p.x + 1, 3 * p.y⟩))
    [(⟨3, 15⟩ : V2 ℚ), ⟨7, 6⟩] := by
  have := C66_apply2 (Hist2.withPoints [(⟨1, 5⟩ : V2 ℚ), ⟨3, 2⟩]) (fun p => ⟨2 * p.x + 1, 3 * p.y⟩)
    (fun x => 2 * x + 1) (fun y => 3 * y) (fun a b h => by simp only; linarith)
    (fun a b h => by simp only; linarith) (fun _ => rfl)
  simpa [Hist2.fed] using (by norm_num [Hist2.fed] at this ⊢; exact this :
    IsBoundingBox2 ((Hist2.withPoints [(⟨1, 5⟩ : V2 ℚ), ⟨3, 2⟩]).run.apply (fun p => ⟨2 * p.x + 1, 3 * p.y⟩))
    [(⟨3, 15⟩ : V2 ℚ), ⟨7, 6⟩])

/-- C66, finding: after applying a half turn the corners are exchanged and the box contains nothing,
not even its own corners; a box made with `Aabb3::from` from two corners in the wrong order neither. -/
theorem C66_unordered_corners_contain_nothing {K : Type} [Scalar K] [Field K] [LinearOrder K] [ExactScalar K] :
    (∀ (lo hi p : V2 K), lo.x < hi.x →
      ((⟨some (lo, hi)⟩ : Aabb2 K).apply (fun q => ⟨-q.x, -q.y⟩)).containsPoint p = false) ∧
    (∀ (a b p : V3 K), b.x < a.x → (Aabb3.ofCorners a b).containsPoint p = false) := by
  constructor
  · intro lo hi p h
    rw [← Bool.not_eq_true, C32_contains_point2]
    rintro ⟨_, _, e, h1, h2, -⟩
    cases e
    simp only at h1 h2
    linarith
  · intro a b p h
    rw [← Bool.not_eq_true, C32_contains_point3]
    rintro ⟨_, _, e, h1, h2, -⟩
    cases e
    linarith

/-- C66: with ordered corners `Aabb3::from` makes the box of the points between them. -/
theorem C66_from_corners {K : Type} [Scalar K] [Field K] [LinearOrder K] [ExactScalar K] (a b p : V3 K) :
    ((Aabb3.ofCorners a b).containsPoint p = true ↔
      a.x ≤ p.x ∧ p.x ≤ b.x ∧ a.y ≤ p.y ∧ p.y ≤ b.y ∧ a.z ≤ p.z ∧ p.z ≤ b.z) ∧
    Aabb3.ofScalars a.x a.y a.z b.x b.y b.z = Aabb3.ofCorners a b := by
  refine ⟨?_, rfl⟩
  rw [C32_contains_point3]
  constructor
  · rintro ⟨_, _, e, h⟩; cases e; exact h
  · intro h; exact ⟨a, b, rfl, h⟩

example : (Aabb3.ofCorners (⟨0, 0, 0⟩ : V3 ℚ) ⟨2, 3, 4⟩).containsPoint ⟨1, 3, 0⟩ = true ∧
    (Aabb2.mk (some ((⟨0, 0⟩ : V2 ℚ), ⟨4, 2⟩))).center = some ⟨2, 1⟩ ∧
    (Aabb2.mk (some ((⟨1, 1⟩ : V2 ℚ), ⟨4, 3⟩))).extents = some (⟨1, 1⟩, ⟨4, 3⟩, ⟨3, 2⟩) ∧
    (Hist2.withPoints [(⟨1, 5⟩ : V2 ℚ), ⟨3, 2⟩]).run.center = some ⟨2, 7/2⟩ ∧
    Aabb2.eq (Hist2.withPoints [(⟨1, 5⟩ : V2 ℚ), ⟨3, 2⟩]).run
      (Hist2.withPoints [(⟨1, 2⟩ : V2 ℚ), ⟨3, 5⟩]).run = true := by decide +kernel

end Verif.Props.Aabb
