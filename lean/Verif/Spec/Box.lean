import Verif.Model.Aabb
import Verif.Spec.Geom
/-!
# Specification vocabulary for bounding boxes
-/
namespace Verif.Spec
open Verif.Model
variable {K : Type}

/-- `lo` and `hi` are the least and the greatest element of `xs` -/
def IsRange [LinearOrder K] (lo hi : K) (xs : List K) : Prop :=
  lo ∈ xs ∧ hi ∈ xs ∧ ∀ x ∈ xs, lo ≤ x ∧ x ≤ hi

/-- the box is the smallest box around the points (no box if there are no points) -/
def IsBoundingBox2 [LinearOrder K] (b : Aabb2 K) (pts : List (V2 K)) : Prop :=
  match b.minMax with
  | none => pts = []
  | some (lo, hi) => IsRange lo.x hi.x (pts.map (·.x)) ∧ IsRange lo.y hi.y (pts.map (·.y))

/-- the box is the smallest box around the points (no box if there are no points) -/
def IsBoundingBox3 [LinearOrder K] (b : Aabb3 K) (pts : List (V3 K)) : Prop :=
  match b.minMax with
  | none => pts = []
  | some (lo, hi) => IsRange lo.x hi.x (pts.map (·.x)) ∧ IsRange lo.y hi.y (pts.map (·.y)) ∧
      IsRange lo.z hi.z (pts.map (·.z))

/-- the set of points of a box (an empty box has none) -/
def InBox2 [LinearOrder K] (b : Aabb2 K) (p : V2 K) : Prop :=
  ∃ lo hi, b.minMax = some (lo, hi) ∧ lo.x ≤ p.x ∧ p.x ≤ hi.x ∧ lo.y ≤ p.y ∧ p.y ≤ hi.y

/-- the set of points of a box (an empty box has none) -/
def InBox3 [LinearOrder K] (b : Aabb3 K) (p : V3 K) : Prop :=
  ∃ lo hi, b.minMax = some (lo, hi) ∧ lo.x ≤ p.x ∧ p.x ≤ hi.x ∧ lo.y ≤ p.y ∧ p.y ≤ hi.y ∧
    lo.z ≤ p.z ∧ p.z ≤ hi.z

/-- lower corner below upper corner (every box built from points is like that, but
`From<[T; 4]>` or `apply` can produce others) -/
def Proper2 [LinearOrder K] (b : Aabb2 K) : Prop :=
  ∃ lo hi, b.minMax = some (lo, hi) ∧ lo.x ≤ hi.x ∧ lo.y ≤ hi.y

/-- lower corner below upper corner -/
def Proper3 [LinearOrder K] (b : Aabb3 K) : Prop :=
  ∃ lo hi, b.minMax = some (lo, hi) ∧ lo.x ≤ hi.x ∧ lo.y ≤ hi.y ∧ lo.z ≤ hi.z

/-- Everything one can do to build a box: start with the default or with `new`/`with_points`/`from`,
then feed points one by one, in slices, or as other boxes that were built in the same way. -/
inductive Hist2 (K : Type)
  | default
  | new (p : V2 K)
  | withPoints (ps : List (V2 K))
  | fromIter (ps : List (V2 K))
  | point (h : Hist2 K) (p : V2 K)
  | points (h : Hist2 K) (ps : List (V2 K))
  | aabb (h other : Hist2 K)

/-- the points fed in a history -/
def Hist2.fed : Hist2 K → List (V2 K)
  | .default => []
  | .new p => [p]
  | .withPoints ps => ps
  | .fromIter ps => ps
  | .point h p => h.fed ++ [p]
  | .points h ps => h.fed ++ ps
  | .aabb h o => h.fed ++ o.fed

/-- the calls made in a history -/
def Hist2.run [Scalar K] : Hist2 K → Aabb2 K
  | .default => Aabb2.default
  | .new p => Aabb2.new p
  | .withPoints ps => Aabb2.withPoints ps
  | .fromIter ps => Aabb2.fromIter ps
  | .point h p => h.run.updateWithPoint p
  | .points h ps => h.run.updateWithPoints ps
  | .aabb h o => h.run.updateWithAabb o.run

/-- as `Hist2` -/
inductive Hist3 (K : Type)
  | default
  | withPoints (ps : List (V3 K))
  | point (h : Hist3 K) (p : V3 K)
  | points (h : Hist3 K) (ps : List (V3 K))
  | aabb (h other : Hist3 K)

/-- the points fed in a history -/
def Hist3.fed : Hist3 K → List (V3 K)
  | .default => []
  | .withPoints ps => ps
  | .point h p => h.fed ++ [p]
  | .points h ps => h.fed ++ ps
  | .aabb h o => h.fed ++ o.fed

/-- the calls made in a history -/
def Hist3.run [Scalar K] : Hist3 K → Aabb3 K
  | .default => Aabb3.default
  | .withPoints ps => Aabb3.withPoints ps
  | .point h p => h.run.updateWithPoint p
  | .points h ps => h.run.updateWithPoints ps
  | .aabb h o => h.run.updateWithAabb o.run

end Verif.Spec
