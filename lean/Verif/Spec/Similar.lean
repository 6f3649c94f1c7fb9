import Verif.Spec.Geom
/-!
# Similarity maps (specification)
-/
namespace Verif.Spec
variable {K : Type} [Field K] [LinearOrder K]

/-- `f` scales all distances of the plane by `c > 0` (translations, rotations, reflections, uniform
scalings and their compositions) -/
def IsSimilarity2 (c : K) (f : V2 K → V2 K) : Prop :=
  0 < c ∧ ∀ p q, sqDist2 (f p) (f q) = c ^ 2 * sqDist2 p q

/-- `f` scales all distances of space by `c > 0` -/
def IsSimilarity3 (c : K) (f : V3 K → V3 K) : Prop :=
  0 < c ∧ ∀ p q, sqDist3 (f p) (f q) = c ^ 2 * sqDist3 p q

end Verif.Spec
