import Verif.Spec.Geom
import Verif.Model.Line2
/-!
# Affine maps of the plane (specification)
-/
namespace Verif.Spec
variable {K : Type} [Field K] [LinearOrder K]

/-- the affine map `(x, y) ↦ (a x + b y + e, c x + d y + g)` -/
structure Affine2 (K : Type) where
  a : K
  b : K
  c : K
  d : K
  e : K
  g : K

/-- the image of a point -/
def Affine2.map (A : Affine2 K) (p : V2 K) : V2 K := ⟨A.a * p.x + A.b * p.y + A.e, A.c * p.x + A.d * p.y + A.g⟩

/-- the image of a direction -/
def Affine2.dir (A : Affine2 K) (r : V2 K) : V2 K := ⟨A.a * r.x + A.b * r.y, A.c * r.x + A.d * r.y⟩

/-- the determinant: positive if the map keeps the orientation of triangles, negative if it reverses it, zero if it
squashes the plane -/
def Affine2.det (A : Affine2 K) : K := A.a * A.d - A.b * A.c

/-- the image of a line segment -/
def Affine2.line (A : Affine2 K) (l : Model.Line2 K) : Model.Line2 K := ⟨A.map l.start, A.map l.end⟩

/-- a translation combined with a positive uniform scaling by `s` -/
def moveScale (s e g : K) : Affine2 K := ⟨s, 0, 0, s, e, g⟩

end Verif.Spec
