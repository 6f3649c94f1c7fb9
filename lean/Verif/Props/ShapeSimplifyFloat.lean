import Verif.Proofs.ShapeNear
import Verif.Props.SimplifyCurveFloat
/-!
# C104 in floating point: the simplified network is near the original one
-/
namespace Verif.Props.Shape
open Verif Verif.Model Verif.Shape Verif.Spec Verif.Spec.Shape Verif.Proofs.ShapeUnique Verif.Proofs.ShapeSimplify Verif.Proofs.ShapeNear

section float
open Fl
variable {f : Fmt} [Libm f]

/-- **C104** 2D, floats on a grid: every point of every edge is within `|d|`, up to the factor `1 + 8·2^-precision` for the square, of a
simplified line, and every point of a simplified line is as near to an edge. -/
theorem C104_network_is_near2_float {s B : ℤ} (G : SquareGrid f s B) (hB : 1 ≤ B) (vertices : List (V2 (Flt f)))
    (hg : ∀ p ∈ vertices, OnGrid s B p) (indices : List Nat) (d : Flt f) (hd : d.isFin = true) (hns : NoSelfEdge indices)
    (hv : 2 < vertices.length) (hin : ∀ u v, Edge indices u v → u < vertices.length)
    (shapes : List (List Nat)) (marks : List Bool) (h : divideIntoShapes indices = .ok (shapes, marks)) (outs : List (List Nat))
    (ho : List.Forall₂ (fun s o => indexedSimplifyRdp2 vertices s d = .ok o) shapes outs) :
    (∀ u v p, Edge indices u v → OnEdge2 (vertices.map exact) u v p →
      ∃ o ∈ outs, ∃ a b, (a, b) ∈ windows o ∧ ∃ q, OnEdge2 (vertices.map exact) a b q ∧
        sqDist2 p q ≤ (1 + 8 * (2 : ℚ) ^ (-f.prec : ℤ)) * d.val ^ 2) ∧
    (∀ o ∈ outs, ∀ a b, (a, b) ∈ windows o → ∀ q, OnEdge2 (vertices.map exact) a b q →
      ∃ u v p, Edge indices u v ∧ OnEdge2 (vertices.map exact) u v p ∧
        sqDist2 p q ≤ (1 + 8 * (2 : ℚ) ^ (-f.prec : ℤ)) * d.val ^ 2) := by
  refine network_near2 (vertices.map exact) indices _ shapes outs (divides_of_ok indices hns shapes marks h) (ho.imp ?_)
  intro sh o hrun hs
  obtain ⟨h2, line, hl⟩ := valid_line vertices indices hns shapes marks h hin sh hs
  obtain ⟨o', simplified, h1, h3, -, -, -, h4⟩ := Rdp.C11_indexed2_agrees vertices sh d line hv h2 hl
  rw [hrun] at h1
  cases h1
  have hne : line ≠ [] := by
    rintro rfl
    have := congrArg List.length hl
    simp only [List.length_map, List.length_nil] at this
    omega
  have hlg : ∀ p ∈ line, OnGrid s B p := by
    intro p hp
    obtain ⟨i, hi⟩ := List.mem_iff_getElem?.1 hp
    obtain ⟨x, -, hx⟩ := (map_some hl).1 hi
    exact hg p (List.mem_of_getElem? hx)
  obtain ⟨out, k1, k2, k3⟩ := SimplifyCurve.C103_rdp2_curves_are_near_float G hB line hne hlg d hd
  rw [h3] at k1
  cases k1
  exact ⟨line.map exact, simplified.map exact, map_index exact vertices sh line hl, map_index exact vertices _ _ h4, k2, k3⟩

/-- **C104** 3D, floats on a grid: every point of a simplified line is that near to an edge. -/
theorem C104_network_is_near3_float {s B : ℤ} (G : SquareGrid f s B) (hB : 1 ≤ B) (vertices : List (V3 (Flt f)))
    (hg : ∀ p ∈ vertices, OnGrid3 s B p) (indices : List Nat) (d : Flt f) (hd : d.isFin = true) (hns : NoSelfEdge indices)
    (hv : 2 < vertices.length) (hin : ∀ u v, Edge indices u v → u < vertices.length)
    (shapes : List (List Nat)) (marks : List Bool) (h : divideIntoShapes indices = .ok (shapes, marks)) (outs : List (List Nat))
    (ho : List.Forall₂ (fun s o => indexedSimplifyRdp3 vertices s d = .ok o) shapes outs) :
    ∀ o ∈ outs, ∀ a b, (a, b) ∈ windows o → ∀ q, OnEdge3 (vertices.map exact3) a b q →
      ∃ u v p, Edge indices u v ∧ OnEdge3 (vertices.map exact3) u v p ∧
        sqDist3 p q ≤ (1 + 8 * (2 : ℚ) ^ (-f.prec : ℤ)) * d.val ^ 2 := by
  refine network_near3 (vertices.map exact3) indices _ shapes outs (divides_of_ok indices hns shapes marks h) (ho.imp ?_)
  intro sh o hrun hs
  obtain ⟨h2, line, hl⟩ := valid_line vertices indices hns shapes marks h hin sh hs
  obtain ⟨o', simplified, h1, h3, -, -, -, h4⟩ := Rdp.C11_indexed3_agrees vertices sh d line hv h2 hl
  rw [hrun] at h1
  cases h1
  have hne : line ≠ [] := by
    rintro rfl
    have := congrArg List.length hl
    simp only [List.length_map, List.length_nil] at this
    omega
  have hlg : ∀ p ∈ line, OnGrid3 s B p := by
    intro p hp
    obtain ⟨i, hi⟩ := List.mem_iff_getElem?.1 hp
    obtain ⟨x, -, hx⟩ := (map_some hl).1 hi
    exact hg p (List.mem_of_getElem? hx)
  obtain ⟨out, k1, k2, -⟩ := SimplifyCurve.C103_rdp3_curves_are_near_float G hB line hne hlg d hd
  rw [h3] at k1
  cases k1
  exact ⟨line.map exact3, simplified.map exact3, map_index exact3 vertices sh line hl, map_index exact3 vertices _ _ h4, k2⟩

end float

/-- the vertices of C104_example as doubles (the halves doubled) -/
def netFloats : List (V2 F64) := [ipt b64 0 0, ipt b64 10 1, ipt b64 20 0, ipt b64 0 10, ipt b64 10 10, ipt b64 (-6) 0, ipt b64 40 0,
  ipt b64 60 0, ipt b64 40 1]
theorem netFloats_grid : ∀ p ∈ netFloats, OnGrid 0 (2 ^ 23) p := by
  intro p hp
  simp only [netFloats, List.mem_cons, List.not_mem_nil, or_false] at hp
  rcases hp with rfl | rfl | rfl | rfl | rfl | rfl | rfl | rfl | rfl <;> exact (onGrid_ipt goodGrid64 (by norm_num) (by norm_num)).1
theorem net_noSelf : NoSelfEdge [0, 1, 1, 2, 0, 3, 3, 4, 0, 5, 6, 7, 7, 8, 8, 6] := by
  have h : ∀ p ∈ chunks2 [0, 1, 1, 2, 0, 3, 3, 4, 0, 5, 6, 7, 7, 8, 8, 6], p.1 ≠ p.2 := by decide
  intro u
  rw [edge_iff]
  rintro (e | e)
  · exact h _ e rfl
  · exact h _ e rfl
theorem net_inside : ∀ u v, Edge [0, 1, 1, 2, 0, 3, 3, 4, 0, 5, 6, 7, 7, 8, 8, 6] u v → u < 9 := by
  have h : ∀ p ∈ chunks2 [0, 1, 1, 2, 0, 3, 3, 4, 0, 5, 6, 7, 7, 8, 8, 6], p.1 < 9 ∧ p.2 < 9 := by decide
  intro u v
  rw [edge_iff]
  rintro (e | e)
  · exact (h _ e).1
  · exact (h _ e).2
example [Libm b64] := C104_network_is_near2_float squareGrid64 (by norm_num) netFloats netFloats_grid _ (Flt.ofQ false 2) (by decide +kernel)
  net_noSelf (by decide) net_inside _ _ C104_example.1 _
  (C104_simplified_network2 netFloats _ (Flt.ofQ false 2) net_noSelf (by decide) net_inside _ _ C104_example.1).choose_spec.1

end Verif.Props.Shape
