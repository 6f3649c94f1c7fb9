import Verif.Props.RdpRefine
import Verif.Props.Reverse
/-!
# C97, C105 for `indexed_simplify_rdp`
-/
namespace Verif.Props.Reverse
open Verif Verif.Model Verif.Spec Verif.Props.Rdp Verif.Proofs.Rdp Scalar

/-- the indexed function is the plain one on indices -/
theorem indexed_as_plain {α : Type} [Scalar α] {P : Type} (dist : P → P → P → α) (vertices : List P) (indices : List Nat) (d : α)
    (pt : Nat → P) (hpt : ∀ i ∈ indices, vertices[i]? = some (pt i)) (hv : 2 < vertices.length) (hi : 2 ≤ indices.length) :
    indexedRdpTop dist vertices indices d = rdpTop (fun i j k => .ok (dist (pt i) (pt j) (pt k))) d indices := by
  have hm := rdpRec_map (id : Nat → Nat) (fun i j k => .ok (dist (pt i) (pt j) (pt k))) (indexedDist dist vertices) (d *. d) indices (by
    intro a ha b hb p hp
    simp only [indexedDist, idx, hpt a ha, hpt b hb, hpt p hp]
    rfl)
  have he : rdpRec (indexedDist dist vertices) (d *. d) indices =
      rdpRec (fun i j k => .ok (dist (pt i) (pt j) (pt k))) (d *. d) indices := by
    rw [List.map_id] at hm
    rw [hm]
    cases rdpRec (indexedDist dist vertices) (d *. d) indices with
    | error x => rfl
    | ok l => simp [Except.map]
  match indices, hi with
  | [i, j], _ =>
    rw [indexedRdpTop, if_neg (by omega), rdpTop, if_pos (by simp)]
    simp only [rdpRec_short (indexedDist dist vertices) (d *. d) [i, j] j rfl (by simp)]
    rfl
  | i :: j :: k :: rest, _ =>
    rw [indexedRdpTop, if_neg (by omega), rdpTop, if_neg (by simp)]
    simp only [he]

section exact
variable {K : Type} [Scalar K] [Field K] [LinearOrder K] [ExactScalar K]

/-- **C97** `indexed_simplify_rdp_2d`: without ties the indices returned for the reversed list are the reversed indices. -/
theorem C97_indexed_rdp2_reverse (vertices : List (V2 K)) (indices : List Nat) (d : K) (pt : Nat → V2 K)
    (hpt : ∀ i ∈ indices, vertices[i]? = some (pt i)) (hv : 2 < vertices.length) (hi : 2 ≤ indices.length)
    (hties : ∀ a x y b v, [a, x, y, b].Sublist indices → IsMinSqDist sqDist2 (pt x) (OnSegment2 (pt a) (pt b)) v →
      IsMinSqDist sqDist2 (pt y) (OnSegment2 (pt a) (pt b)) v → v ≤ d ^ 2) :
    indexedSimplifyRdp2 vertices indices.reverse d = (indexedSimplifyRdp2 vertices indices d).map List.reverse := by
  unfold indexedSimplifyRdp2
  rw [indexed_as_plain _ vertices indices d pt hpt hv hi,
    indexed_as_plain _ vertices indices.reverse d pt (fun i h => hpt i (List.mem_reverse.1 h)) hv (by simpa using hi)]
  refine rdpTop_reverse (fun i j k => distToLineSqSafe2 (pt i) (pt j) (pt k)) d (fun a b p => dist2_symm _ _ _) indices ?_
  intro a x y b hs hf he
  have h1 := Dist.C16_dist2_safe_is_min (pt a) (pt b) (pt x)
  have h2 := Dist.C16_dist2_safe_is_min (pt a) (pt b) (pt y)
  rw [← he] at h2
  have := hties a x y b _ hs h1 h2
  rw [ExactScalar.mul_eq, ← sq] at hf
  exact absurd hf (not_lt.2 this)

/-- **C97** `indexed_simplify_rdp_3d` -/
theorem C97_indexed_rdp3_reverse (vertices : List (V3 K)) (indices : List Nat) (d : K) (pt : Nat → V3 K)
    (hpt : ∀ i ∈ indices, vertices[i]? = some (pt i)) (hv : 2 < vertices.length) (hi : 2 ≤ indices.length)
    (hties : ∀ a x y b v, [a, x, y, b].Sublist indices → IsMinSqDist sqDist3 (pt x) (OnLine3 (pt a) (pt b)) v →
      IsMinSqDist sqDist3 (pt y) (OnLine3 (pt a) (pt b)) v → v ≤ d ^ 2) :
    indexedSimplifyRdp3 vertices indices.reverse d = (indexedSimplifyRdp3 vertices indices d).map List.reverse := by
  unfold indexedSimplifyRdp3
  rw [indexed_as_plain _ vertices indices d pt hpt hv hi,
    indexed_as_plain _ vertices indices.reverse d pt (fun i h => hpt i (List.mem_reverse.1 h)) hv (by simpa using hi)]
  refine rdpTop_reverse (fun i j k => distToLineSqSafe3 (pt i) (pt j) (pt k)) d (fun a b p => dist3_symm _ _ _) indices ?_
  intro a x y b hs hf he
  have h1 := Dist.C17_dist3_safe_is_min (pt a) (pt b) (pt x)
  have h2 := Dist.C17_dist3_safe_is_min (pt a) (pt b) (pt y)
  rw [← he] at h2
  have := hties a x y b _ hs h1 h2
  rw [ExactScalar.mul_eq, ← sq] at hf
  exact absurd hf (not_lt.2 this)

/-- **C105** `indexed_simplify_rdp_2d`: indices of points inside of the segments, inserted anywhere, do not change the result. -/
theorem C105_indexed_rdp2_inserted_points (vertices : List (V2 K)) (fine coarse : List Nat) (d : K) (pt : Nat → V2 K)
    (hpt : ∀ i ∈ fine, vertices[i]? = some (pt i)) (hv : 2 < vertices.length) (hi : 2 ≤ coarse.length)
    (h : Simplification (fun i j k => Inside2 (pt i) (pt j) (pt k)) fine coarse) :
    indexedSimplifyRdp2 vertices fine d = indexedSimplifyRdp2 vertices coarse d := by
  have hs : coarse.Sublist fine := (Simplification.ends h).1
  unfold indexedSimplifyRdp2
  rw [indexed_as_plain _ vertices fine d pt hpt hv (hi.trans hs.length_le),
    indexed_as_plain _ vertices coarse d pt (fun i h => hpt i (hs.subset h)) hv hi]
  exact rdpTop_fine (fun i j k => distToLineSqSafe2 (pt i) (pt j) (pt k)) d (on := fun i j k => Inside2 (pt i) (pt j) (pt k))
    (fun s e a b p hp => dist2_inside _ _ _ _ _ hp) (fun s e => (dist2_ends _ _).1) (fun s e => (dist2_ends _ _).2) h

/-- **C105** `indexed_simplify_rdp_3d` -/
theorem C105_indexed_rdp3_inserted_points (vertices : List (V3 K)) (fine coarse : List Nat) (d : K) (pt : Nat → V3 K)
    (hpt : ∀ i ∈ fine, vertices[i]? = some (pt i)) (hv : 2 < vertices.length) (hi : 2 ≤ coarse.length)
    (h : Simplification (fun i j k => Inside3 (pt i) (pt j) (pt k)) fine coarse) :
    indexedSimplifyRdp3 vertices fine d = indexedSimplifyRdp3 vertices coarse d := by
  have hs : coarse.Sublist fine := (Simplification.ends h).1
  unfold indexedSimplifyRdp3
  rw [indexed_as_plain _ vertices fine d pt hpt hv (hi.trans hs.length_le),
    indexed_as_plain _ vertices coarse d pt (fun i h => hpt i (hs.subset h)) hv hi]
  exact rdpTop_fine (fun i j k => distToLineSqSafe3 (pt i) (pt j) (pt k)) d (on := fun i j k => Inside3 (pt i) (pt j) (pt k))
    (fun s e a b p hp => dist3_inside _ _ _ _ _ hp) (fun s e => (dist3_ends _ _).1) (fun s e => (dist3_ends _ _).2) h

end exact

end Verif.Props.Reverse
