import Verif.Spec.Geom
import Mathlib.Analysis.Real.Sqrt
/-!
# Lengths of line strings (specification vocabulary)
-/
namespace Verif.Spec

/-- Euclidean distance in the plane -/
noncomputable def dist2 (p q : V2 ℝ) : ℝ := Real.sqrt (sqDist2 p q)
/-- Euclidean distance in space -/
noncomputable def dist3 (p q : V3 ℝ) : ℝ := Real.sqrt (sqDist3 p q)

/-- the length of a line string: the sum of the distances of neighbouring points -/
def pathLength {P : Type} (d : P → P → ℝ) : List P → ℝ
  | a :: b :: rest => d a b + pathLength d (b :: rest)
  | _ => 0

end Verif.Spec
