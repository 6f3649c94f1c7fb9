import Verif.Props.HullUnique
import Verif.Props.Discretize
/-!
# C106: points inside of the hull do not matter
-/
set_option linter.unusedSectionVars false
namespace Verif.Props
open Verif Verif.Spec Verif.Model Verif.Hull Verif.Props.Discretize

section
variable {K : Type} [Scalar K] [Field K] [LinearOrder K] [ExactScalar K]

/-- a loop around points is a loop around their convex combinations -/
theorem hullLoop_more {pts more hull : List (V2 K)} (h : IsHullLoop pts hull) (hsub : ∀ p ∈ pts, p ∈ more)
    (hin : ∀ p ∈ more, InTriangleOf pts p) : IsHullLoop more hull := by
  have := ExactScalar.toIsStrictOrderedRing (K := K)
  refine ⟨h.len, h.closed, fun v hv => hsub v (h.vertices v hv), h.once, ?_, h.turn, h.turnClosing, ?_⟩
  · intro i a b ha hb p hp
    obtain ⟨x, hx, y, hy, z, hz, u, v, w, hu, hv, hw, e, ex, ey⟩ := hin p hp
    have cx := mul_nonneg hu (h.left i a b ha hb x hx)
    have cy := mul_nonneg hv (h.left i a b ha hb y hy)
    have cz := mul_nonneg hw (h.left i a b ha hb z hz)
    have : orient a b p = u * orient a b x + v * orient a b y + w * orient a b z := by
      unfold orient
      rw [ex, ey]
      linear_combination ((b.x - a.x) * a.y - (b.y - a.y) * a.x) * e
    linarith
  · intro a b c hh p hp
    obtain ⟨x, hx, y, hy, z, hz, u, v, w, hu, hv, hw, e, ex, ey⟩ := hin p hp
    obtain ⟨r, r0, r1, rfl⟩ := h.flat a b c hh x hx
    obtain ⟨s, s0, s1, rfl⟩ := h.flat a b c hh y hy
    obtain ⟨t, t0, t1, rfl⟩ := h.flat a b c hh z hz
    have b1 := mul_le_mul_of_nonneg_left r1 hu
    have b2 := mul_le_mul_of_nonneg_left s1 hv
    have b3 := mul_le_mul_of_nonneg_left t1 hw
    refine ⟨u * r + v * s + w * t, add_nonneg (add_nonneg (mul_nonneg hu r0) (mul_nonneg hv s0)) (mul_nonneg hw t0), by linarith, ?_⟩
    obtain ⟨px, py⟩ := p
    unfold lerp2 at *
    dsimp only at *
    congr 1
    · linear_combination ex + a.x * e
    · linear_combination ey + a.y * e

theorem startsLowest_more {pts more hull : List (V2 K)} (h : StartsLowest pts hull)
    (hin : ∀ p ∈ more, InTriangleOf pts p) : StartsLowest more hull := by
  have := ExactScalar.toIsStrictOrderedRing (K := K)
  obtain ⟨s, hs, low⟩ := h
  refine ⟨s, hs, fun p hp => ?_⟩
  obtain ⟨x, hx, y, hy, z, hz, u, v, w, hu, hv, hw, e, ex, ey⟩ := hin p hp
  have le : ∀ q ∈ pts, s.x ≤ q.x := fun q hq => (low q hq).elim (fun h => h.le) (fun h => h.1.le)
  have lx := mul_nonneg hu (sub_nonneg.2 (le x hx))
  have ly := mul_nonneg hv (sub_nonneg.2 (le y hy))
  have lz := mul_nonneg hw (sub_nonneg.2 (le z hz))
  have sum : p.x - s.x = u * (x.x - s.x) + v * (y.x - s.x) + w * (z.x - s.x) := by rw [ex]; linear_combination s.x * e
  rcases lt_or_eq_of_le (show s.x ≤ p.x by linarith) with hlt | heq
  · exact Or.inl hlt
  · refine Or.inr ⟨heq, ?_⟩
    have zero : ∀ (k : K) (q : V2 K), q ∈ pts → 0 ≤ k → k * (q.x - s.x) = 0 → 0 ≤ k * (q.y - s.y) := by
      intro k q hq hk h0
      rcases mul_eq_zero.1 h0 with h0 | h0
      · rw [h0, zero_mul]
      · rcases low q hq with h1 | h1
        · linarith
        · exact mul_nonneg hk (by linarith [h1.2])
    have ax := zero u x hx hu (by linarith)
    have ay := zero v y hy hv (by linarith)
    have az := zero w z hz hw (by linarith)
    have sumy : p.y - s.y = u * (x.y - s.y) + v * (y.y - s.y) + w * (z.y - s.y) := by rw [ey]; linear_combination s.y * e
    linarith

/-- **C106** `graham_scan` and `LineString2::convex_hull` return the same loop if points are added that are convex combinations of the
points. -/
theorem C106_inner_points_do_not_matter [ExactAtan2 K] (srt srt' : List (V2 K × K × K) → List (V2 K × K × K))
    (hsrt : Sorts angleCmp srt) (hsrt' : Sorts angleCmp srt') (input more : List (V2 K))
    (hsub : ∀ p ∈ input, p ∈ more) (hin : ∀ p ∈ more, InTriangleOf input p)
    (h4 : 4 ≤ input.length) (h5 : input.head? = input.getLast? → 5 ≤ input.length)
    (h4' : 4 ≤ more.length) (h5' : more.head? = more.getLast? → 5 ≤ more.length)
    (hne : ∃ a ∈ input, ∃ b ∈ input, a ≠ b) :
    grahamScan srt more = grahamScan srt' input ∧ lineConvexHull srt more = lineConvexHull srt' input := by
  obtain ⟨h, e, e2, H, S⟩ := C36_graham_scan_is_hull srt' hsrt' input h4 h5 hne
  obtain ⟨h', e', e2', H', S'⟩ := C36_graham_scan_is_hull srt hsrt more h4' h5' (by
    obtain ⟨a, ha, b, hb, hab⟩ := hne
    exact ⟨a, hsub a ha, b, hsub b hb, hab⟩)
  rw [e, e2, e', e2', C62_hull_is_unique (fun _ => Iff.rfl) H' S' (hullLoop_more H hsub hin) (startsLowest_more S hin)]
  exact ⟨rfl, rfl⟩

theorem inTriangle_of_subset {pts pts' : List (V2 K)} (h : ∀ p ∈ pts, p ∈ pts') {p : V2 K} (hp : InTriangleOf pts p) : InTriangleOf pts' p := by
  obtain ⟨x, hx, y, hy, z, hz, k⟩ := hp
  exact ⟨x, h x hx, y, h y hy, z, h z hz, k⟩

/-- **C106** points that are not corners of the hull can be left out. -/
theorem C106_corners_suffice [ExactAtan2 K] (srt srt' : List (V2 K × K × K) → List (V2 K × K × K))
    (hsrt : Sorts angleCmp srt) (hsrt' : Sorts angleCmp srt') (input fewer hull : List (V2 K))
    (h4 : 4 ≤ input.length) (h5 : input.head? = input.getLast? → 5 ≤ input.length)
    (h4' : 4 ≤ fewer.length) (h5' : fewer.head? = fewer.getLast? → 5 ≤ fewer.length)
    (hne : ∃ a ∈ input, ∃ b ∈ input, a ≠ b) (hh : grahamScan srt input = .ok hull)
    (hsub : ∀ p ∈ fewer, p ∈ input) (hcorners : ∀ p ∈ hull, p ∈ fewer) : grahamScan srt' fewer = .ok hull := by
  obtain ⟨h, e, -, H, -⟩ := C36_graham_scan_is_hull srt hsrt input h4 h5 hne
  rw [hh] at e
  cases e
  have hin : ∀ p ∈ input, InTriangleOf fewer p := fun p hp =>
    inTriangle_of_subset hcorners (C63_points_are_combinations_of_the_vertices H p hp)
  have hne' : ∃ a ∈ fewer, ∃ b ∈ fewer, a ≠ b := by
    obtain ⟨a, ha, b, hb, hab⟩ := hne
    by_contra hcon
    push Not at hcon
    apply hab
    obtain ⟨x, hx, y, hy, z, hz, u, v, w, -, -, -, e, ex, ey⟩ := hin a ha
    obtain ⟨x', hx', y', hy', z', hz', u', v', w', -, -, -, e', ex', ey'⟩ := hin b hb
    obtain rfl := hcon y hy x hx
    obtain rfl := hcon z hz y hy
    obtain rfl := hcon x' hx' z hz
    obtain rfl := hcon y' hy' x' hx'
    obtain rfl := hcon z' hz' y' hy'
    obtain ⟨ax, ay⟩ := a
    obtain ⟨bx, by'⟩ := b
    dsimp only at *
    congr 1
    · rw [ex, ex']; linear_combination z'.x * (e - e')
    · rw [ey, ey']; linear_combination z'.y * (e - e')
  rw [← hh]
  exact (C106_inner_points_do_not_matter srt srt' hsrt hsrt' fewer input hsub hin h4' h5' h4 h5 hne').1.symm

/-- **C106** the hull of two sets together is the hull of the corners of their hulls. -/
theorem C106_union_of_hulls [ExactAtan2 K] (srt srt' : List (V2 K × K × K) → List (V2 K × K × K))
    (hsrt : Sorts angleCmp srt) (hsrt' : Sorts angleCmp srt') (a b hullA hullB : List (V2 K))
    (ha4 : 4 ≤ a.length) (ha5 : a.head? = a.getLast? → 5 ≤ a.length) (hane : ∃ x ∈ a, ∃ y ∈ a, x ≠ y)
    (hb4 : 4 ≤ b.length) (hb5 : b.head? = b.getLast? → 5 ≤ b.length) (hbne : ∃ x ∈ b, ∃ y ∈ b, x ≠ y)
    (hA : grahamScan srt a = .ok hullA) (hB : grahamScan srt b = .ok hullB) :
    grahamScan srt' (hullA ++ hullB) = grahamScan srt (a ++ b) := by
  obtain ⟨h, e, -, HA, -⟩ := C36_graham_scan_is_hull srt hsrt a ha4 ha5 hane
  rw [hA] at e
  cases e
  obtain ⟨h, e, -, HB, -⟩ := C36_graham_scan_is_hull srt hsrt b hb4 hb5 hbne
  rw [hB] at e
  cases e
  have la := HA.len
  have lb := HB.len
  have hin : ∀ p ∈ a ++ b, InTriangleOf (hullA ++ hullB) p := by
    intro p hp
    rcases List.mem_append.1 hp with hp | hp
    · exact inTriangle_of_subset (fun q hq => List.mem_append_left _ hq) (C63_points_are_combinations_of_the_vertices HA p hp)
    · exact inTriangle_of_subset (fun q hq => List.mem_append_right _ hq) (C63_points_are_combinations_of_the_vertices HB p hp)
  have hsub : ∀ p ∈ hullA ++ hullB, p ∈ a ++ b := by
    intro p hp
    rcases List.mem_append.1 hp with hp | hp
    · exact List.mem_append_left _ (HA.vertices p hp)
    · exact List.mem_append_right _ (HB.vertices p hp)
  have hne : ∃ x ∈ hullA ++ hullB, ∃ y ∈ hullA ++ hullB, x ≠ y := by
    have nd := HA.once
    match hullA, la, nd with
    | p :: q :: r :: rest, _, nd =>
      refine ⟨q, by simp, r, by simp, ?_⟩
      rintro rfl
      simp at nd
  exact (C106_inner_points_do_not_matter srt srt' hsrt hsrt' (hullA ++ hullB) (a ++ b) hsub hin
    (by simp only [List.length_append]; omega) (fun _ => by simp only [List.length_append]; omega)
    (by simp only [List.length_append]; omega) (fun _ => by simp only [List.length_append]; omega) hne).1.symm

/-- **C106** the hull of a discretized line string is the hull of the line string. -/
theorem C106_hull_of_discretized [ExactAtan2 K] [ExactSqrt K] (srt srt' : List (V2 K × K × K) → List (V2 K × K × K))
    (hsrt : Sorts angleCmp srt) (hsrt' : Sorts angleCmp srt') (pts out : List (V2 K)) (step : K) (hstep : 0 < step)
    (h : Collects (discNext ops2) (discNew ops2 pts step) out)
    (h4 : 4 ≤ pts.length) (h5 : pts.head? = pts.getLast? → 5 ≤ pts.length) (hne : ∃ a ∈ pts, ∃ b ∈ pts, a ≠ b) :
    lineConvexHull srt out = lineConvexHull srt' pts := by
  have := ExactScalar.toIsStrictOrderedRing (K := K)
  obtain ⟨sub, e1, e2⟩ := C26_keeps_points2 pts out step hstep h
  refine (C106_inner_points_do_not_matter srt srt' hsrt hsrt' pts out (fun p hp => sub.subset hp) ?_ h4 h5
    (h4.trans sub.length_le) (fun e => (h5 (by rw [← e1, ← e2]; exact e)).trans sub.length_le) hne).2
  intro p hp
  obtain ⟨i, a, b, ha, hb, t, t0, t1, rfl⟩ := C27_on_line2 pts out step hstep (by omega) h p hp
  refine ⟨a, List.mem_of_getElem? ha, b, List.mem_of_getElem? hb, b, List.mem_of_getElem? hb, 1 - t, t, 0, by linarith, t0, le_refl _,
    by ring, ?_, ?_⟩
  · unfold lerp2; dsimp only; ring
  · unfold lerp2; dsimp only; ring

end

/-- C106 is about something: two points inside of a quadrangle (one of them on an edge) and the hulls with and without them. -/
theorem C106_example :
    (∀ p ∈ ([⟨0, 0⟩, ⟨4, 0⟩, ⟨4, 3⟩, ⟨0, 3⟩, ⟨2, 0⟩, ⟨1, 1⟩] : List (V2 ℚ)), InTriangleOf [⟨0, 0⟩, ⟨4, 0⟩, ⟨4, 3⟩, ⟨0, 3⟩] p) ∧
    giftWrap 100 ([⟨0, 0⟩, ⟨4, 0⟩, ⟨4, 3⟩, ⟨0, 3⟩, ⟨2, 0⟩, ⟨1, 1⟩] : List (V2 ℚ)) = .ok [⟨0, 0⟩, ⟨4, 0⟩, ⟨4, 3⟩, ⟨0, 3⟩, ⟨0, 0⟩] ∧
    giftWrap 100 ([⟨0, 0⟩, ⟨4, 0⟩, ⟨4, 3⟩, ⟨0, 3⟩] : List (V2 ℚ)) = .ok [⟨0, 0⟩, ⟨4, 0⟩, ⟨4, 3⟩, ⟨0, 3⟩, ⟨0, 0⟩] := by
  refine ⟨?_, by decide +kernel, by decide +kernel⟩
  have corner : ∀ (l : List (V2 ℚ)) (p : V2 ℚ), p ∈ l → InTriangleOf l p := fun l p hp =>
    ⟨p, hp, p, hp, p, hp, 1, 0, 0, by norm_num, by norm_num, by norm_num, by norm_num, by ring, by ring⟩
  intro p hp
  simp only [List.mem_cons, List.not_mem_nil, or_false] at hp
  rcases hp with rfl | rfl | rfl | rfl | rfl | rfl
  · exact corner _ _ (by simp)
  · exact corner _ _ (by simp)
  · exact corner _ _ (by simp)
  · exact corner _ _ (by simp)
  · exact ⟨⟨0, 0⟩, by simp, ⟨4, 0⟩, by simp, ⟨4, 0⟩, by simp, 1 / 2, 1 / 2, 0, by norm_num, by norm_num, by norm_num, by norm_num,
      by norm_num, by norm_num⟩
  · exact ⟨⟨0, 0⟩, by simp, ⟨4, 0⟩, by simp, ⟨0, 3⟩, by simp, 5 / 12, 1 / 4, 1 / 3, by norm_num, by norm_num, by norm_num, by norm_num,
      by norm_num, by norm_num⟩

end Verif.Props
