import Verif.Spec.Geom
import Verif.Model.Line2
/-!
# What the result of a segment intersection means
-/
namespace Verif.Spec
open Verif.Model
variable {K : Type} [Field K] [LinearOrder K]

/-- `q` belongs to the set of points denoted by an intersection result: no point, one point, or all
points of the overlap segment. -/
def Denotes : Option (Intersection K) → V2 K → Prop
  | none, _ => False
  | some (.point p), q => q = p
  | some (.overlap o), q => OnSegment2 o.start o.end q

/-- `q` lies on the closed segment `l` -/
def OnLine2Seg (l : Line2 K) (q : V2 K) : Prop := OnSegment2 l.start l.end q

/-- `q` lies on the polyline through `pts`: on the segment between two consecutive points -/
def OnPolyline (pts : List (V2 K)) (q : V2 K) : Prop :=
  ∃ (i : Nat) (a b : V2 K), pts[i]? = some a ∧ pts[i + 1]? = some b ∧ OnSegment2 a b q

/-- What the three point test decides for consecutive points `s`, `m`, `e` (unless `m.y` is `s.x` or `e.y`).  If the
line is straight and `s.x = s.y` this holds; the test takes `m.y - s.x` where it should take `m.y - s.y`. -/
def ThreePoint (s m e : V2 K) : Prop :=
  (m.x = s.x ∧ m.x = e.x ∧ ¬ (m.y < s.x ∧ e.y ≤ m.y)) ∨
    (m.x ≠ s.x ∧ m.x ≠ e.x ∧ (m.x - s.x) * (m.y - e.y) = (m.x - e.x) * (m.y - s.x))

end Verif.Spec
