import Verif.Proofs.SimplifyCurve
import Verif.Props.Rdp
import Verif.Spec.Intersect
/-!
# C103: the simplified line and the original are near each other as curves, not only in their points
-/
namespace Verif.Props.SimplifyCurve
open Verif Verif.Model Verif.Spec Verif.Proofs.SimplifyCurve Verif.Props.Rdp

/-- `q` lies on the polyline through `pts` in space: on the segment between two consecutive points -/
def OnPolyline3 {K : Type} [Field K] [LinearOrder K] (pts : List (V3 K)) (q : V3 K) : Prop :=
  ∃ (i : Nat) (a b : V3 K), pts[i]? = some a ∧ pts[i + 1]? = some b ∧ OnSegment3 a b q

section field
variable {K : Type} [Field K] [LinearOrder K] [IsStrictOrderedRing K]

theorem curves2 {points out : List (V2 K)} {e : K} (e0 : 0 ≤ e)
    (h2 : Simplification (fun a b p => ∃ q, OnSegment2 a b q ∧ sqDist2 p q ≤ e) points out) :
    (∀ p, OnPolyline points p → ∃ q, OnPolyline out q ∧ sqDist2 p q ≤ e) ∧
    (∀ q, OnPolyline out q → ∃ p, OnPolyline points p ∧ sqDist2 p q ≤ e) := by
  constructor
  · rintro p ⟨i, u, v, hu, hv, hp⟩
    obtain ⟨a, b, ⟨j, ha, hb⟩, ku, kv⟩ := forward
      (fun a b => ⟨a, ⟨0, le_refl _, zero_le_one, by unfold lerp2; simp⟩, by unfold sqDist2; simpa using e0⟩)
      (fun a b => ⟨b, ⟨1, zero_le_one, le_refl _, by unfold lerp2; simp⟩, by unfold sqDist2; simpa using e0⟩) h2 u v ⟨i, hu, hv⟩
    obtain ⟨q, hq, k⟩ := near_segment2 ku kv hp
    exact ⟨q, ⟨j, a, b, ha, hb, hq⟩, k⟩
  · rintro q ⟨i, a, b, ha, hb, hq⟩
    obtain ⟨dropped, k1, k2⟩ := backward h2 a b ⟨i, ha, hb⟩
    obtain ⟨u, v, n, p, hp, k⟩ := near_path2 e0 dropped k1 hq
    obtain ⟨j, hu, hv⟩ := k2 u v n
    exact ⟨p, ⟨j, u, v, hu, hv, hp⟩, k⟩

theorem curves3 {points out : List (V3 K)} {e : K} (e0 : 0 ≤ e)
    (h2 : Simplification (fun a b p => ∃ q, OnLine3 a b q ∧ sqDist3 p q ≤ e) points out) :
    (∀ q, OnPolyline3 out q → ∃ p, OnPolyline3 points p ∧ sqDist3 p q ≤ e) ∧
    (∀ p, OnPolyline3 points p → ∃ (i : Nat) (a b q : V3 K), out[i]? = some a ∧ out[i + 1]? = some b ∧ OnLine3 a b q ∧
      sqDist3 p q ≤ e) := by
  constructor
  · rintro q ⟨i, a, b, ha, hb, hq⟩
    obtain ⟨dropped, k1, k2⟩ := backward h2 a b ⟨i, ha, hb⟩
    obtain ⟨u, v, n, p, hp, k⟩ := near_path e0 dropped k1 hq
    obtain ⟨j, hu, hv⟩ := k2 u v n
    exact ⟨p, ⟨j, u, v, hu, hv, hp⟩, k⟩
  · rintro p ⟨i, u, v, hu, hv, hp⟩
    obtain ⟨a, b, ⟨j, ha, hb⟩, ku, kv⟩ := forward
      (fun a b => ⟨a, ⟨0, by unfold lerp3; simp⟩, by unfold sqDist3; simpa using e0⟩)
      (fun a b => ⟨b, ⟨1, by unfold lerp3; simp⟩, by unfold sqDist3; simpa using e0⟩) h2 u v ⟨i, hu, hv⟩
    obtain ⟨q, hq, k⟩ := near_line ku kv hp
    exact ⟨j, a, b, q, ha, hb, hq, k⟩

theorem simplification_map {P Q : Type} (f : P → Q) {ok : Q → Q → Q → Prop} {l o : List P}
    (h : Simplification (fun a b p => ok (f a) (f b) (f p)) l o) : Simplification ok (l.map f) (o.map f) := by
  induction h with
  | single a => exact .single _
  | step a b dropped rest out hok h ih =>
    have := Simplification.step (ok := ok) (f a) (f b) (dropped.map f) (rest.map f) (out.map f) (by
      intro q hq
      obtain ⟨p, hp, rfl⟩ := List.mem_map.1 hq
      exact hok p hp) ih
    simpa using this

end field

section exact
variable {K : Type} [Scalar K] [Field K] [LinearOrder K] [ExactScalar K]

/-- **C103** 2D: every point of the original line – not only its vertices – is within `|d|` of the simplified line, and every point of
the simplified line is within `|d|` of the original: the Hausdorff distance of the two curves is at most `|d|`. -/
theorem C103_rdp2_curves_are_near (points : List (V2 K)) (d : K) (hne : points ≠ []) :
    ∃ out, simplifyRdp2 points d = .ok out ∧
      (∀ p, OnPolyline points p → ∃ q, OnPolyline out q ∧ sqDist2 p q ≤ d ^ 2) ∧
      (∀ q, OnPolyline out q → ∃ p, OnPolyline points p ∧ sqDist2 p q ≤ d ^ 2) := by
  have := ExactScalar.toIsStrictOrderedRing (K := K)
  obtain ⟨out, h1, h2⟩ := C08_rdp2_error_bound points d hne
  exact ⟨out, h1, curves2 (sq_nonneg d) h2⟩

/-- **C103** 3D: every point of the simplified line is within `|d|` of the original line (although the code measures to infinite lines),
and every point of the original is within `|d|` of the infinite line through two consecutive points of the simplified one. -/
theorem C103_rdp3_curves_are_near (points : List (V3 K)) (d : K) (hne : points ≠ []) :
    ∃ out, simplifyRdp3 points d = .ok out ∧
      (∀ q, OnPolyline3 out q → ∃ p, OnPolyline3 points p ∧ sqDist3 p q ≤ d ^ 2) ∧
      (∀ p, OnPolyline3 points p → ∃ (i : Nat) (a b q : V3 K), out[i]? = some a ∧ out[i + 1]? = some b ∧ OnLine3 a b q ∧
        sqDist3 p q ≤ d ^ 2) := by
  have := ExactScalar.toIsStrictOrderedRing (K := K)
  obtain ⟨out, h1, h2⟩ := C09_rdp3_error_bound points d hne
  exact ⟨out, h1, curves3 (sq_nonneg d) h2⟩

end exact

/-- C103 is about lines with points that are dropped and points that are kept: with `d = 1` the two inner points of the first line go, and
the line of C09_3d_drops_spikes is reduced to a part of itself: the point (9,0,0) of the original is 8 away from it, so that the
first half of the 2D claim does not hold in 3D. -/
theorem C103_example :
    simplifyRdp2 [(⟨0, 0⟩ : V2 ℚ), ⟨1, 1 / 2⟩, ⟨2, -1 / 2⟩, ⟨4, 0⟩, ⟨4, 3⟩] 1 = .ok [⟨0, 0⟩, ⟨4, 0⟩, ⟨4, 3⟩] ∧
    simplifyRdp3 [(⟨0, 0, 0⟩ : V3 ℚ), ⟨9, 0, 0⟩, ⟨1, 0, 0⟩] 1 = .ok [⟨0, 0, 0⟩, ⟨1, 0, 0⟩] ∧
    OnPolyline3 [(⟨0, 0, 0⟩ : V3 ℚ), ⟨9, 0, 0⟩, ⟨1, 0, 0⟩] ⟨9, 0, 0⟩ ∧
    ∀ q, OnPolyline3 [(⟨0, 0, 0⟩ : V3 ℚ), ⟨1, 0, 0⟩] q → 64 ≤ sqDist3 (⟨9, 0, 0⟩ : V3 ℚ) q := by
  refine ⟨by decide +kernel, by decide +kernel, ⟨0, _, _, rfl, rfl, 1, zero_le_one, le_refl _, by unfold lerp3; simp⟩, ?_⟩
  rintro q ⟨i, a, b, ha, hb, t, t0, t1, rfl⟩
  cases i with
  | succ i => simp at hb
  | zero =>
    cases ha
    cases hb
    unfold sqDist3 lerp3
    dsimp only
    have : 8 ≤ 9 - t := by linarith
    nlinarith

end Verif.Props.SimplifyCurve
