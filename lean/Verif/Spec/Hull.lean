import Verif.Spec.Geom
/-!
# Convex hulls (specification)
-/
namespace Verif.Spec
variable {K : Type} [Field K] [LinearOrder K]

/-- `hull` is a closed counter clockwise loop around the points `pts`: it ends where it starts, its
vertices are points of `pts` and none of them occurs twice, every point of `pts` is on or left of
every edge, and the loop turns strictly left at every vertex, also at the first one.  If all points
are on one line the loop goes from one end to the other and back, and all points are between the
ends. -/
structure IsHullLoop (pts hull : List (V2 K)) : Prop where
  len : 3 ≤ hull.length
  closed : hull.head? = hull.getLast?
  vertices : ∀ v ∈ hull, v ∈ pts
  once : hull.tail.Nodup
  left : ∀ (i : Nat) (a b : V2 K), hull[i]? = some a → hull[i + 1]? = some b → ∀ p ∈ pts, 0 ≤ orient a b p
  turn : 3 < hull.length → ∀ (i : Nat) (a b c : V2 K), hull[i]? = some a → hull[i + 1]? = some b →
    hull[i + 2]? = some c → 0 < orient a b c
  turnClosing : 3 < hull.length → ∀ a b c : V2 K, hull[hull.length - 2]? = some a → hull[0]? = some b →
    hull[1]? = some c → 0 < orient a b c
  flat : ∀ a b c : V2 K, hull = [a, b, c] → ∀ p ∈ pts, OnSegment2 a b p

/-- the loop starts at the leftmost of the points, at the lowest one of these if there are several -/
def StartsLowest (pts hull : List (V2 K)) : Prop :=
  ∃ s, hull.head? = some s ∧ ∀ p ∈ pts, s.x < p.x ∨ s.x = p.x ∧ s.y ≤ p.y

/-- `srt` sorts for the comparison function `cmp`: its result is a permutation of its argument in which
no entry compares greater than a later one.  Nothing is said about the order of equal entries
(`sort_unstable_by`). -/
def Sorts {A : Type} (cmp : A → A → Ordering) (srt : List A → List A) : Prop :=
  ∀ l, (srt l).Perm l ∧ (srt l).Pairwise (fun a b => cmp a b ≠ .gt)

/-- `p` is on or left of every edge of the loop -/
def InLoop (hull : List (V2 K)) (p : V2 K) : Prop :=
  ∀ (i : Nat) (a b : V2 K), hull[i]? = some a → hull[i + 1]? = some b → 0 ≤ orient a b p

/-- `p` is strictly left of every edge of the loop -/
def InsideLoop (hull : List (V2 K)) (p : V2 K) : Prop :=
  ∀ (i : Nat) (a b : V2 K), hull[i]? = some a → hull[i + 1]? = some b → 0 < orient a b p

/-- `p` is a convex combination of three of the points -/
def InTriangleOf (pts : List (V2 K)) (p : V2 K) : Prop :=
  ∃ a ∈ pts, ∃ b ∈ pts, ∃ c ∈ pts, ∃ u v w : K, 0 ≤ u ∧ 0 ≤ v ∧ 0 ≤ w ∧ u + v + w = 1 ∧
    p.x = u * a.x + v * b.x + w * c.x ∧ p.y = u * a.y + v * b.y + w * c.y

end Verif.Spec
