import Verif.Proofs.HullUnique
import Verif.Props.HullOneChunk
import Verif.Props.Aabb
import Mathlib.Analysis.Convex.Hull
import Mathlib.Analysis.Convex.Combination
/-!
# C62, C63: the hull is unique, so all algorithms agree; it spans the same convex set and the same box
-/
set_option linter.unusedSectionVars false
set_option linter.unusedVariables false
set_option linter.unusedSimpArgs false
namespace Verif.Props
open Verif Verif.Spec Verif.Model Verif.Hull

section
variable {K : Type} [Scalar K] [Field K] [LinearOrder K] [ExactScalar K]

/-! ## C62 -/

/-- Two hull loops around the same set of points that start at the lowest leftmost point are the same
list. -/
theorem C62_hull_is_unique {pts pts' hull hull' : List (V2 K)} (hp : ∀ p, p ∈ pts ↔ p ∈ pts')
    (h : IsHullLoop pts hull) (hs : StartsLowest pts hull) (h' : IsHullLoop pts' hull')
    (hs' : StartsLowest pts' hull') : hull = hull' := by
  have h2 : IsHullLoop pts hull' := IsHullLoop.congr h' (fun p => (hp p).symm)
  refine hull_unique h h2 ?_
  obtain ⟨s, e, hs⟩ := hs
  obtain ⟨s', e', hs'⟩ := hs'
  rw [e, e', Option.some_inj]
  have m := h.vertices s (List.mem_of_mem_head? e)
  have m' := h'.vertices s' (List.mem_of_mem_head? e')
  have a := hs s' ((hp s').2 m')
  have b := hs' s ((hp s).1 m)
  rcases a with a | ⟨a, a'⟩
  · rcases b with b | ⟨b, b'⟩
    · exact absurd (a.trans b) (lt_irrefl _)
    · rw [b] at a; exact absurd a (lt_irrefl _)
  · rcases b with b | ⟨b, b'⟩
    · rw [a] at b; exact absurd b (lt_irrefl _)
    · exact pt_ext a (le_antisymm a' b')

/-- `graham_scan` (and `LineString2::convex_hull`) depends on the set of the points only: not on their
order, not on repetitions, not on how the unstable sort orders equal entries. -/
theorem C62_graham_scan_depends_on_the_set_only [ExactAtan2 K] (srt srt' : List (V2 K × K × K) → List (V2 K × K × K))
    (hsrt : Sorts angleCmp srt) (hsrt' : Sorts angleCmp srt') (input input' : List (V2 K))
    (hp : ∀ p, p ∈ input ↔ p ∈ input')
    (h4 : 4 ≤ input.length) (h5 : input.head? = input.getLast? → 5 ≤ input.length)
    (h4' : 4 ≤ input'.length) (h5' : input'.head? = input'.getLast? → 5 ≤ input'.length)
    (hne : ∃ a ∈ input, ∃ b ∈ input, a ≠ b) :
    grahamScan srt input = grahamScan srt' input' ∧ lineConvexHull srt input = lineConvexHull srt' input' := by
  obtain ⟨h, e, e2, H, S⟩ := C36_graham_scan_is_hull srt hsrt input h4 h5 hne
  obtain ⟨h', e', e2', H', S'⟩ := C36_graham_scan_is_hull srt' hsrt' input' h4' h5' (by
    obtain ⟨a, ha, b, hb, hab⟩ := hne
    exact ⟨a, (hp a).1 ha, b, (hp b).1 hb, hab⟩)
  rw [e, e2, e', e2', C62_hull_is_unique hp H S H' S']
  exact ⟨rfl, rfl⟩

/-- The two Graham scans agree. -/
theorem C62_graham_scans_agree [ExactAtan2 K] (srt : List (V2 K × K × K) → List (V2 K × K × K))
    (hsrt : Sorts angleCmp srt) (srt2 : V2 K → List (V2 K) → Option (List (V2 K)))
    (hsrt2 : ∀ s l, (∀ a ∈ l, s.x < a.x ∨ s.x = a.x ∧ s.y ≤ a.y) → (∀ a ∈ l, ∀ b ∈ l, orientCmp s a b ≠ none) →
      ∃ r, srt2 s l = some r ∧ r.Perm l ∧ r.Pairwise (fun a b => orientCmp s a b ≠ some .gt))
    (input : List (V2 K)) (h4 : 4 ≤ input.length) (h5 : input.head? = input.getLast? → 5 ≤ input.length)
    (hne : ∃ a ∈ input, ∃ b ∈ input, a ≠ b) : grahamScan srt input = grahamScanWoAtan2 srt2 input := by
  obtain ⟨h, e, -, H, S⟩ := C36_graham_scan_is_hull srt hsrt input h4 h5 hne
  obtain ⟨h', e', H', S'⟩ := C37_graham_scan_wo_atan2_is_hull srt2 hsrt2 input h4 h5 hne
  rw [e, e', C62_hull_is_unique (fun _ => Iff.rfl) H S H' S']

/-- Gift wrapping agrees with the Graham scan if no point is repeated. -/
theorem C62_gift_wrap_agrees [ExactAtan2 K] (srt : List (V2 K × K × K) → List (V2 K × K × K))
    (hsrt : Sorts angleCmp srt) (input : List (V2 K)) (h4 : 4 ≤ input.length)
    (h5 : input.head? = input.getLast? → 5 ≤ input.length)
    (hnd : input.tail.Nodup) (hnd2 : input.head? ≠ input.getLast? → input.Nodup)
    (fuel : Nat) (hf : (input.length + 1) * (input.length + 1) < fuel) :
    giftWrap fuel input = grahamScan srt input := by
  obtain ⟨h, e, -, H, S⟩ := C36_graham_scan_is_hull srt hsrt input h4 h5 (by
    refine ⟨input.tail[0]'(by simp; omega), List.mem_of_mem_tail (List.getElem_mem _), input.tail[1]'(by simp; omega),
      List.mem_of_mem_tail (List.getElem_mem _), fun e => ?_⟩
    exact absurd ((List.Nodup.getElem_inj_iff hnd).1 e) (by omega))
  obtain ⟨h', e', H', S'⟩ := C38_gift_wrap_is_hull input h4 h5 hnd hnd2 fuel hf
  rw [e, e', C62_hull_is_unique (fun _ => Iff.rfl) H S H' S']

/-- The indexed functions return indices of the same points in the same order as the plain Graham scan
of these points. -/
theorem C62_indexed_agree [ExactAtan2 K] (srt : List (V2 K × K × K) → List (V2 K × K × K))
    (hsrt : Sorts angleCmp srt) (srti : List (Nat × K × K) → List (Nat × K × K)) (hsrti : Sorts angleCmp srti)
    (vertices : List (V2 K)) (indices : List Nat) (pt : Nat → V2 K)
    (hpt : ∀ i ∈ indices, vertices[i]? = some (pt i)) (h4 : 4 ≤ indices.length)
    (h5 : indices.head? = indices.getLast? → 5 ≤ indices.length)
    (hdiff : ∀ i ∈ indices, ∀ j ∈ indices, pt i = pt j → i = j)
    (hnd : indices.dropLast.Nodup) (hnd2 : indices.head? ≠ indices.getLast? → indices.Nodup)
    (fuel : Nat) (hf : (indices.length + 1) * (indices.length + 1) < fuel)
    (chunk : Nat) (hchunk : indices.length ≤ chunk) (sched : Sched) :
    (indexedGrahamScan srti vertices indices).map (fun h => h.map pt) = grahamScan srt (indices.map pt) ∧
    (indexedGiftWrap fuel vertices indices).map (fun h => h.map pt) = grahamScan srt (indices.map pt) ∧
    (convexHullPar fuel sched srti vertices indices chunk).map (fun h => h.map pt) = grahamScan srt (indices.map pt) := by
  have hne : ∃ i ∈ indices, ∃ j ∈ indices, i ≠ j := by
    refine ⟨indices.dropLast[0]'(by simp; omega), List.mem_of_mem_dropLast (List.getElem_mem _),
      indices.dropLast[1]'(by simp; omega), List.mem_of_mem_dropLast (List.getElem_mem _), fun e => ?_⟩
    exact absurd ((List.Nodup.getElem_inj_iff hnd).1 e) (by omega)
  obtain ⟨h, e, -, H, S⟩ := C36_graham_scan_is_hull srt hsrt (indices.map pt) (by simpa using h4) (by
      intro e
      rw [List.length_map]
      apply h5
      rw [List.head?_map, List.getLast?_map] at e
      cases hh : indices.head? with
      | none => rw [List.head?_eq_none_iff] at hh; rw [hh] at h4; simp at h4
      | some i =>
        cases hg : indices.getLast? with
        | none => rw [List.getLast?_eq_none_iff] at hg; rw [hg] at h4; simp at h4
        | some j =>
          rw [hh, hg] at e
          simp only [Option.map_some, Option.some_inj] at e
          rw [hdiff i (List.mem_of_mem_head? hh) j (List.mem_of_getLast? hg) e]) (by
      obtain ⟨i, hi, j, hj, hij⟩ := hne
      exact ⟨pt i, List.mem_map_of_mem hi, pt j, List.mem_map_of_mem hj, fun e => hij (hdiff i hi j hj e)⟩)
  rw [e]
  obtain ⟨a1, a2, a3, a4, a5⟩ := C40_indexed_graham_scan_is_hull srti hsrti vertices indices pt hpt h4 h5 hdiff hne
  obtain ⟨b1, b2, b3, b4, b5⟩ := C40_indexed_gift_wrap_is_hull vertices indices pt hpt h4 h5 hdiff hnd hnd2 fuel hf
  obtain ⟨-, c1, c2, c3, c4, c5⟩ := C41_one_chunk_is_hull srti hsrti vertices indices pt hpt h4 h5 hdiff hnd hnd2 chunk
    hchunk sched fuel (by nlinarith)
  rw [a2, b2, c2]
  simp only [Except.map]
  rw [C62_hull_is_unique (fun _ => Iff.rfl) a4 a5 H S, C62_hull_is_unique (fun _ => Iff.rfl) b4 b5 H S,
    C62_hull_is_unique (fun _ => Iff.rfl) c4 c5 H S]
  exact ⟨rfl, rfl, rfl⟩

/-- Taking the hull of a hull with at least four corners changes nothing. -/
theorem C62_hull_of_hull [ExactAtan2 K] (srt srt' : List (V2 K × K × K) → List (V2 K × K × K))
    (hsrt : Sorts angleCmp srt) (hsrt' : Sorts angleCmp srt') (input : List (V2 K)) (h4 : 4 ≤ input.length)
    (h5 : input.head? = input.getLast? → 5 ≤ input.length) (hne : ∃ a ∈ input, ∃ b ∈ input, a ≠ b)
    (hull : List (V2 K)) (hh : grahamScan srt input = .ok hull) (hl : 5 ≤ hull.length) :
    grahamScan srt' hull = .ok hull := by
  obtain ⟨h, e, -, H, S⟩ := C36_graham_scan_is_hull srt hsrt input h4 h5 hne
  rw [e] at hh
  simp only [Except.ok.injEq] at hh
  subst hh
  have H0 : IsHullLoop h h := ⟨H.len, H.closed, fun _ hv => hv, H.once,
    fun i a b ha hb p hp => H.left i a b ha hb p (H.vertices p hp), H.turn, H.turnClosing,
    fun a b c e p hp => H.flat a b c e p (H.vertices p hp)⟩
  have S0 : StartsLowest h h := by
    obtain ⟨s, e1, e2⟩ := S
    exact ⟨s, e1, fun p hp => e2 p (H.vertices p hp)⟩
  obtain ⟨h', e', -, H', S'⟩ := C36_graham_scan_is_hull srt' hsrt' h (by omega) (fun _ => hl)
    ⟨h[0], List.getElem_mem _, h[1], List.getElem_mem _,
      H.next_ne (i := 0) (List.getElem?_eq_getElem _) (List.getElem?_eq_getElem _)⟩
  rw [e', C62_hull_is_unique (fun _ => Iff.rfl) H' S' H0 S0]

end

/-- The hull of a triangle is not stable: the hull of four points with a triangular hull is the closed
triangle, but the hull of that triangle is the triangle without the closing point and with another start. -/
theorem C62_hull_of_a_triangle_is_open :
    giftWrap 100 ([⟨0, 0⟩, ⟨3, 0⟩, ⟨0, 3⟩, ⟨1, 1⟩] : List (V2 ℚ)) = .ok [⟨0, 0⟩, ⟨3, 0⟩, ⟨0, 3⟩, ⟨0, 0⟩] ∧
    (∀ srt, grahamScan srt ([⟨0, 0⟩, ⟨3, 0⟩, ⟨0, 3⟩, ⟨0, 0⟩] : List (V2 ℚ)) = .ok [⟨3, 0⟩, ⟨0, 3⟩, ⟨0, 0⟩]) ∧
    giftWrap 100 ([⟨0, 0⟩, ⟨3, 0⟩, ⟨0, 3⟩, ⟨0, 0⟩] : List (V2 ℚ)) = .ok [⟨3, 0⟩, ⟨0, 3⟩, ⟨0, 0⟩] := by
  refine ⟨by decide +kernel, ?_, by decide +kernel⟩
  intro srt
  have h1 : (⟨0, 0⟩ : V2 ℚ).beq ⟨0, 0⟩ = true := by decide +kernel
  have h2 : isPointLeft (⟨3, 0⟩ : V2 ℚ) ⟨0, 3⟩ ⟨0, 0⟩ = true := by decide +kernel
  simp [grahamScan, dropLoopPoint, h1, triangle3, h2]

/-- The hypotheses of the theorems of C62 are met: two lists with the same set of points. -/
example : (fun (input input' : List (V2 ℚ)) => (∀ p ∈ input, p ∈ input') ∧ (∀ p ∈ input', p ∈ input) ∧
    4 ≤ input.length ∧ (input.head? = input.getLast? → 5 ≤ input.length) ∧
    4 ≤ input'.length ∧ (input'.head? = input'.getLast? → 5 ≤ input'.length) ∧
    (∃ a ∈ input, ∃ b ∈ input, a ≠ b) ∧ input'.tail.Nodup ∧ (input'.head? ≠ input'.getLast? → input'.Nodup) ∧
    giftWrap 100 input' = .ok [⟨0, 0⟩, ⟨2, 0⟩, ⟨2, 2⟩, ⟨0, 2⟩, ⟨0, 0⟩])
    [⟨0, 0⟩, ⟨1, 1⟩, ⟨2, 0⟩, ⟨2, 2⟩, ⟨2, 2⟩, ⟨0, 2⟩, ⟨1, 0⟩, ⟨0, 0⟩]
    [⟨0, 2⟩, ⟨2, 0⟩, ⟨1, 1⟩, ⟨1, 0⟩, ⟨0, 0⟩, ⟨2, 2⟩] := by
  decide +kernel

/-! ## C63 -/

section
variable {K : Type} [Scalar K] [Field K] [LinearOrder K] [ExactScalar K]

/-- Every point is a convex combination of three vertices of the hull (also if all points are on one line). -/
theorem C63_points_are_combinations_of_the_vertices {pts hull : List (V2 K)} (h : IsHullLoop pts hull) :
    ∀ p ∈ pts, InTriangleOf hull p := by
  intro p hp
  by_cases hl : 3 < hull.length
  · exact (C42_left_of_every_edge_iff_convex_combination h hl p).1 (fun i a b ha hb => h.left i a b ha hb p hp)
  · obtain ⟨a, b, e⟩ := h.short hl
    obtain ⟨t, t0, t1, rfl⟩ := h.flat a b a e p hp
    refine ⟨a, by simp [e], b, by simp [e], a, by simp [e], 1 - t, t, 0, by linarith, t0, le_refl _, by ring, ?_, ?_⟩ <;>
      simp only [lerp2] <;> ring

/-- The bounding box of the hull is the bounding box of the points. -/
theorem C63_same_bounding_box {pts hull : List (V2 K)} (h : IsHullLoop pts hull) :
    Aabb2.withPoints hull = Aabb2.withPoints pts := by
  have b1 := Aabb.C30_box2_is_bounding_box (Hist2.withPoints hull)
  have b2 := Aabb.C30_box2_is_bounding_box (Hist2.withPoints pts)
  have hb := C63_points_are_combinations_of_the_vertices h
  simp only [Hist2.run, Hist2.fed] at b1 b2
  obtain ⟨⟨m1⟩, e1⟩ : ∃ b, b = Aabb2.withPoints hull := ⟨_, rfl⟩
  obtain ⟨⟨m2⟩, e2⟩ : ∃ b, b = Aabb2.withPoints pts := ⟨_, rfl⟩
  rw [← e1] at b1 ⊢
  rw [← e2] at b2 ⊢
  have hlen := h.len
  cases m1 with
  | none => simp only [IsBoundingBox2] at b1; rw [b1] at hlen; simp at hlen
  | some m1 =>
    cases m2 with
    | none =>
      simp only [IsBoundingBox2] at b2
      have := h.vertices hull[0] (List.getElem_mem _)
      rw [b2] at this
      simp at this
    | some m2 =>
      obtain ⟨lo1, hi1⟩ := m1
      obtain ⟨lo2, hi2⟩ := m2
      simp only [IsBoundingBox2] at b1 b2
      have range : ∀ (f : V2 K → K), (∀ p a b c : V2 K, ∀ u v w : K,
            p.x = u * a.x + v * b.x + w * c.x → p.y = u * a.y + v * b.y + w * c.y →
            f p = u * f a + v * f b + w * f c) → ∀ l1 g1 l2 g2 : K,
          IsRange l1 g1 (hull.map f) → IsRange l2 g2 (pts.map f) → l1 = l2 ∧ g1 = g2 := by
        intro f hf l1 g1 l2 g2 r1 r2
        have sub : ∀ x ∈ hull.map f, x ∈ pts.map f := by
          intro x hx
          obtain ⟨v, hv, rfl⟩ := List.mem_map.1 hx
          exact List.mem_map_of_mem (h.vertices v hv)
        have conv : ∀ x ∈ pts.map f, l1 ≤ x ∧ x ≤ g1 := by
          intro x hx
          obtain ⟨p, hp, rfl⟩ := List.mem_map.1 hx
          obtain ⟨a, ha, b, hb', c, hc, u, v, w, hu, hv, hw, hs, ex, ey⟩ := hb p hp
          rw [hf p a b c u v w ex ey]
          have ra := r1.2.2 (f a) (List.mem_map_of_mem ha)
          have rb := r1.2.2 (f b) (List.mem_map_of_mem hb')
          have rc := r1.2.2 (f c) (List.mem_map_of_mem hc)
          have el : l1 = u * l1 + v * l1 + w * l1 := by linear_combination -l1 * hs
          have eg : g1 = u * g1 + v * g1 + w * g1 := by linear_combination -g1 * hs
          constructor
          · rw [el]
            have := mul_le_mul_of_nonneg_left ra.1 hu
            have := mul_le_mul_of_nonneg_left rb.1 hv
            have := mul_le_mul_of_nonneg_left rc.1 hw
            linarith
          · rw [eg]
            have := mul_le_mul_of_nonneg_left ra.2 hu
            have := mul_le_mul_of_nonneg_left rb.2 hv
            have := mul_le_mul_of_nonneg_left rc.2 hw
            linarith
        exact ⟨le_antisymm (conv l2 r2.1).1 (r2.2.2 l1 (sub l1 r1.1)).1,
          le_antisymm (r2.2.2 g1 (sub g1 r1.2.1)).2 (conv g2 r2.2.1).2⟩
      have rx := range (·.x) (fun p a b c u v w ex _ => ex) _ _ _ _ b1.1 b2.1
      have ry := range (·.y) (fun p a b c u v w _ ey => ey) _ _ _ _ b1.2 b2.2
      rw [show lo1 = lo2 from pt_ext rx.1 ry.1, show hi1 = hi2 from pt_ext rx.2 ry.2]

/-- The bounding box of `graham_scan(points)` is the bounding box of the points. -/
theorem C63_graham_scan_keeps_the_bounding_box [ExactAtan2 K] (srt : List (V2 K × K × K) → List (V2 K × K × K))
    (hsrt : Sorts angleCmp srt) (input hull : List (V2 K)) (h4 : 4 ≤ input.length)
    (h5 : input.head? = input.getLast? → 5 ≤ input.length) (hne : ∃ a ∈ input, ∃ b ∈ input, a ≠ b)
    (hh : grahamScan srt input = .ok hull) : Aabb2.withPoints hull = Aabb2.withPoints input := by
  obtain ⟨h, e, -, H, -⟩ := C36_graham_scan_is_hull srt hsrt input h4 h5 hne
  rw [e] at hh
  simp only [Except.ok.injEq] at hh
  subst hh
  exact C63_same_bounding_box H
end

section
/-- a point as a pair of real numbers -/
def toPair (p : V2 ℝ) : ℝ × ℝ := (p.x, p.y)

/-- the set of the points of a list, as a set of pairs -/
def pairSet (l : List (V2 ℝ)) : Set (ℝ × ℝ) := {q | ∃ p ∈ l, toPair p = q}

/-- Over the real numbers: the convex hull (in the sense of Mathlib) of the returned vertices is the
convex hull of the points, and unless all points are on one line it is the set of the points that are
on or left of every edge. -/
theorem C63_spans_the_convex_hull {pts hull : List (V2 ℝ)} (h : IsHullLoop pts hull) :
    convexHull ℝ (pairSet hull) = convexHull ℝ (pairSet pts) ∧
    (3 < hull.length → ∀ p : V2 ℝ, toPair p ∈ convexHull ℝ (pairSet pts) ↔ InLoop hull p) := by
  have tri : ∀ (l : List (V2 ℝ)) (p : V2 ℝ), InTriangleOf l p → toPair p ∈ convexHull ℝ (pairSet l) := by
    rintro l p ⟨a, ha, b, hb, c, hc, u, v, w, hu, hv, hw, hs, ex, ey⟩
    have hA : toPair a ∈ convexHull ℝ (pairSet l) := subset_convexHull ℝ _ ⟨a, ha, rfl⟩
    have hB : toPair b ∈ convexHull ℝ (pairSet l) := subset_convexHull ℝ _ ⟨b, hb, rfl⟩
    have hC : toPair c ∈ convexHull ℝ (pairSet l) := subset_convexHull ℝ _ ⟨c, hc, rfl⟩
    have hx := (convex_convexHull ℝ (pairSet l))
    have : toPair p = u • toPair a + v • toPair b + w • toPair c := by
      simp only [toPair, Prod.smul_mk, Prod.mk_add_mk, smul_eq_mul]
      rw [ex, ey]
    rw [this]
    by_cases h0 : u + v = 0
    · have hu0 : u = 0 := by linarith
      have hv0 : v = 0 := by linarith
      have hw1 : w = 1 := by linarith
      rw [hu0, hv0, hw1]
      simpa using hC
    · have h0' : 0 < u + v := lt_of_le_of_ne (by linarith) (Ne.symm h0)
      have h1 : (u / (u + v)) • toPair a + (v / (u + v)) • toPair b ∈ convexHull ℝ (pairSet l) :=
        hx hA hB (div_nonneg hu h0'.le) (div_nonneg hv h0'.le) (by field_simp)
      have h2 := hx h1 hC h0'.le hw (by linarith)
      rw [smul_add, smul_smul, smul_smul, mul_div_cancel₀ _ h0, mul_div_cancel₀ _ h0] at h2
      exact h2
  have heq : convexHull ℝ (pairSet hull) = convexHull ℝ (pairSet pts) := by
    apply Set.Subset.antisymm
    · apply convexHull_mono
      rintro q ⟨p, hp, rfl⟩
      exact ⟨p, h.vertices p hp, rfl⟩
    · apply convexHull_min _ (convex_convexHull ℝ _)
      rintro q ⟨p, hp, rfl⟩
      exact tri hull p (C63_points_are_combinations_of_the_vertices h p hp)
  refine ⟨heq, fun hl p => ⟨fun hp => ?_, fun hin => ?_⟩⟩
  · intro i a b ha hb
    let S : Set (ℝ × ℝ) := {q | 0 ≤ (b.x - a.x) * (q.2 - a.y) - (b.y - a.y) * (q.1 - a.x)}
    have hS : Convex ℝ S := by
      intro q hq r hr s t hs ht hst
      simp only [S, Set.mem_ofPred_eq, Prod.fst_add, Prod.snd_add, Prod.smul_fst, Prod.smul_snd, smul_eq_mul] at *
      have := mul_nonneg hs hq
      have := mul_nonneg ht hr
      have hs' : s = 1 - t := by linarith
      subst hs'
      nlinarith
    have : pairSet pts ⊆ S := by
      rintro q ⟨p, hp, rfl⟩
      exact h.left i a b ha hb p hp
    exact convexHull_min this hS hp
  · rw [← heq]
    exact tri hull p ((C42_left_of_every_edge_iff_convex_combination h hl p).1 hin)

/-- `graham_scan` over the real numbers (with the real `atan2`): the returned vertices span the convex
hull of the input. -/
theorem C63_graham_scan_spans_the_convex_hull (srt : List (V2 ℝ × ℝ × ℝ) → List (V2 ℝ × ℝ × ℝ))
    (hsrt : Sorts angleCmp srt) (input hull : List (V2 ℝ)) (h4 : 4 ≤ input.length)
    (h5 : input.head? = input.getLast? → 5 ≤ input.length) (hne : ∃ a ∈ input, ∃ b ∈ input, a ≠ b)
    (hh : grahamScan srt input = .ok hull) : convexHull ℝ (pairSet hull) = convexHull ℝ (pairSet input) := by
  obtain ⟨h, e, -, H, -⟩ := C36_graham_scan_is_hull srt hsrt input h4 h5 hne
  rw [e] at hh
  simp only [Except.ok.injEq] at hh
  subst hh
  exact (C63_spans_the_convex_hull H).1

/-- the hypotheses of `C63_graham_scan_spans_the_convex_hull` are met -/
example : ∃ (srt : List (V2 ℝ × ℝ × ℝ) → List (V2 ℝ × ℝ × ℝ)) (input hull : List (V2 ℝ)), Sorts angleCmp srt ∧
    input = [⟨0, 0⟩, ⟨1, 1⟩, ⟨2, 0⟩, ⟨2, 2⟩, ⟨0, 2⟩] ∧ 4 ≤ input.length ∧
    (input.head? = input.getLast? → 5 ≤ input.length) ∧ (∃ a ∈ input, ∃ b ∈ input, a ≠ b) ∧
    grahamScan srt input = .ok hull := by
  have hne : ∃ a ∈ ([⟨0, 0⟩, ⟨1, 1⟩, ⟨2, 0⟩, ⟨2, 2⟩, ⟨0, 2⟩] : List (V2 ℝ)),
      ∃ b ∈ ([⟨0, 0⟩, ⟨1, 1⟩, ⟨2, 0⟩, ⟨2, 2⟩, ⟨0, 2⟩] : List (V2 ℝ)), a ≠ b :=
    ⟨⟨0, 0⟩, by simp, ⟨1, 1⟩, by simp, by simp⟩
  obtain ⟨hull, e, -⟩ := C36_graham_scan_is_hull (K := ℝ) _ sorts_mergeSort
    [⟨0, 0⟩, ⟨1, 1⟩, ⟨2, 0⟩, ⟨2, 2⟩, ⟨0, 2⟩] (by simp) (by simp) hne
  exact ⟨_, _, hull, sorts_mergeSort, rfl, by simp, by simp, hne, e⟩
end

end Verif.Props
