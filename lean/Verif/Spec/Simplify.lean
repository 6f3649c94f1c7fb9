/-!
# Specification of polyline simplification
-/
namespace Verif.Spec

/-- `Simplification ok original simplified`: `simplified` arises from `original` by dropping runs of
points; first and last point are kept, and whenever `a`, `b` are consecutive in `simplified`, every
dropped point `p` between them satisfies `ok a b p`. -/
inductive Simplification {P : Type} (ok : P → P → P → Prop) : List P → List P → Prop
  | single (a : P) : Simplification ok [a] [a]
  | step (a b : P) (dropped rest out : List P)
      (hok : ∀ p ∈ dropped, ok a b p) (h : Simplification ok (b :: rest) (b :: out)) :
      Simplification ok (a :: (dropped ++ b :: rest)) (a :: b :: out)

/-- The textbook Ramer–Douglas–Peucker algorithm for the points `mid` strictly between `s` and `e`:
if all of them are within the threshold none is kept, otherwise the farthest one (the last one if
several are equally far) is kept and the two halves are treated in the same way.
`far s e p` says that `p` is beyond the threshold, `le`/`lt` compare the distance to the line
`s e`. -/
inductive RdpKeeps {P : Type} (far : P → P → P → Prop) (le lt : P → P → P → P → Prop) :
    P → List P → P → List P → Prop
  | near (s : P) (mid : List P) (e : P) (h : ∀ p ∈ mid, ¬ far s e p) : RdpKeeps far le lt s mid e []
  | split (s : P) (m1 : List P) (x : P) (m2 : List P) (e : P) (k1 k2 : List P)
      (hfar : far s e x) (h1 : ∀ y ∈ m1, le s e y x) (h2 : ∀ y ∈ m2, lt s e y x)
      (l : RdpKeeps far le lt s m1 x k1) (r : RdpKeeps far le lt x m2 e k2) :
      RdpKeeps far le lt s (m1 ++ x :: m2) e (k1 ++ x :: k2)

/-- `m` rounds of the greedy algorithm of Visvalingam and Whyatt: in every round one point `b` between
two others `a`, `c` is deleted, such that its area with its neighbours is least (`le`) among all points
that have two neighbours. -/
inductive GreedyDeletes {P A : Type} (area : P → P → P → A) (le : A → A → Prop) : Nat → List P → List P → Prop
  | done (l : List P) : GreedyDeletes area le 0 l l
  | step (m : Nat) (pre : List P) (a b c : P) (post out : List P)
      (hmin : ∀ (pre' : List P) (a' b' c' : P) (post' : List P),
        pre ++ a :: b :: c :: post = pre' ++ a' :: b' :: c' :: post' → le (area a b c) (area a' b' c'))
      (h : GreedyDeletes area le m (pre ++ a :: c :: post) out) :
      GreedyDeletes area le (m + 1) (pre ++ a :: b :: c :: post) out

end Verif.Spec
