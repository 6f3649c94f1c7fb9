import Verif.Model.Scalar
import Mathlib.Algebra.Order.Field.Basic
/-!
# Elementary geometry over an ordered field (specification vocabulary)

Written with the ordinary field operations only; nothing of the model of the code is used
except the record types `V2`, `V3` of points.
-/
namespace Verif.Spec
variable {K : Type} [Field K] [LinearOrder K]

/-- squared Euclidean distance of two points of the plane -/
def sqDist2 (p q : V2 K) : K := (p.x - q.x) ^ 2 + (p.y - q.y) ^ 2
/-- squared Euclidean distance of two points of space -/
def sqDist3 (p q : V3 K) : K := (p.x - q.x) ^ 2 + (p.y - q.y) ^ 2 + (p.z - q.z) ^ 2

/-- the point `a + t (b - a)` -/
def lerp2 (a b : V2 K) (t : K) : V2 K := ⟨a.x + t * (b.x - a.x), a.y + t * (b.y - a.y)⟩
/-- the point `a + t (b - a)` -/
def lerp3 (a b : V3 K) (t : K) : V3 K :=
  ⟨a.x + t * (b.x - a.x), a.y + t * (b.y - a.y), a.z + t * (b.z - a.z)⟩

/-- `q` is a point of the closed segment `ab` -/
def OnSegment2 (a b q : V2 K) : Prop := ∃ t : K, 0 ≤ t ∧ t ≤ 1 ∧ q = lerp2 a b t
/-- `q` is a point of the closed segment `ab` -/
def OnSegment3 (a b q : V3 K) : Prop := ∃ t : K, 0 ≤ t ∧ t ≤ 1 ∧ q = lerp3 a b t
/-- `q` is on the infinite line through `a` and `b` (only the point `a` if `a = b`) -/
def OnLine2 (a b q : V2 K) : Prop := ∃ t : K, q = lerp2 a b t
/-- `q` is on the infinite line through `a` and `b` (only the point `a` if `a = b`) -/
def OnLine3 (a b q : V3 K) : Prop := ∃ t : K, q = lerp3 a b t

/-- twice the signed area of the triangle `a b c`; positive iff `c` is left of `a → b` -/
def orient (a b c : V2 K) : K := (b.x - a.x) * (c.y - a.y) - (b.y - a.y) * (c.x - a.x)

/-- `v` is the least element of `{ sqDist p q | S q }` -/
def IsMinSqDist {P : Type} (sq : P → P → K) (p : P) (S : P → Prop) (v : K) : Prop :=
  (∃ q, S q ∧ v = sq p q) ∧ ∀ q, S q → v ≤ sq p q

end Verif.Spec
