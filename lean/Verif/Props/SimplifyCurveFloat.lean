import Verif.Props.SimplifyCurve
import Verif.Props.FloatRdp
/-!
# C103 in floating point
-/
namespace Verif.Props.SimplifyCurve
open Verif Verif.Model Verif.Spec Verif.Proofs.SimplifyCurve

section float
variable {f : Fmt} [Libm f]
open Fl

/-- **C103** 2D on f32, f64 and the like: for points on a grid as in C80 the two curves (through the exact values of the coordinates) are
within `|d|` of each other, up to a relative error of `8 · 2^-prec` of the square. -/
theorem C103_rdp2_curves_are_near_float {s B : ℤ} (G : SquareGrid f s B) (hB : 1 ≤ B) (points : List (V2 (Flt f))) (hne : points ≠ [])
    (hg : ∀ p ∈ points, OnGrid s B p) (d : Flt f) (hd : d.isFin = true) :
    ∃ out, simplifyRdp2 points d = .ok out ∧
      (∀ p, OnPolyline (points.map exact) p → ∃ q, OnPolyline (out.map exact) q ∧
        sqDist2 p q ≤ (1 + 8 * (2 : ℚ) ^ (-f.prec : ℤ)) * d.val ^ 2) ∧
      (∀ q, OnPolyline (out.map exact) q → ∃ p, OnPolyline (points.map exact) p ∧
        sqDist2 p q ≤ (1 + 8 * (2 : ℚ) ^ (-f.prec : ℤ)) * d.val ^ 2) := by
  obtain ⟨out, h1, h2⟩ := C80_rdp2_error_bound G hB points hne hg d hd
  refine ⟨out, h1, curves2 ?_ (simplification_map exact (ok := fun a b p => ∃ q, OnSegment2 a b q ∧
    sqDist2 p q ≤ (1 + 8 * (2 : ℚ) ^ (-f.prec : ℤ)) * d.val ^ 2) h2)⟩
  positivity

/-- **C103** 3D on f32, f64 and the like. -/
theorem C103_rdp3_curves_are_near_float {s B : ℤ} (G : SquareGrid f s B) (hB : 1 ≤ B) (points : List (V3 (Flt f))) (hne : points ≠ [])
    (hg : ∀ p ∈ points, OnGrid3 s B p) (d : Flt f) (hd : d.isFin = true) :
    ∃ out, simplifyRdp3 points d = .ok out ∧
      (∀ q, OnPolyline3 (out.map exact3) q → ∃ p, OnPolyline3 (points.map exact3) p ∧
        sqDist3 p q ≤ (1 + 8 * (2 : ℚ) ^ (-f.prec : ℤ)) * d.val ^ 2) ∧
      (∀ p, OnPolyline3 (points.map exact3) p → ∃ (i : Nat) (a b q : V3 ℚ), (out.map exact3)[i]? = some a ∧
        (out.map exact3)[i + 1]? = some b ∧ OnLine3 a b q ∧ sqDist3 p q ≤ (1 + 8 * (2 : ℚ) ^ (-f.prec : ℤ)) * d.val ^ 2) := by
  obtain ⟨out, h1, h2⟩ := C80_rdp3_error_bound G hB points hne hg d hd
  refine ⟨out, h1, curves3 ?_ (simplification_map exact3 (ok := fun a b p => ∃ q, OnLine3 a b q ∧
    sqDist3 p q ≤ (1 + 8 * (2 : ℚ) ^ (-f.prec : ℤ)) * d.val ^ 2) h2)⟩
  positivity

end float

end Verif.Props.SimplifyCurve
