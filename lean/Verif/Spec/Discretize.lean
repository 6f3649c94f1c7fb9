import Verif.Spec.Geom
import Verif.Model.Err
/-!
# Specification of discretization
-/
namespace Verif.Spec

/-- `Collects next s items`: calling `next` repeatedly from state `s` returns exactly the listed
items and then `None`; no call fails. -/
inductive Collects {S I : Type} (next : S → Except Err (Option I × S)) : S → List I → Prop
  | done (s s' : S) (h : next s = .ok (none, s')) : Collects next s []
  | step (s s' : S) (i : I) (is : List I) (h : next s = .ok (some i, s')) (r : Collects next s' is) :
      Collects next s (i :: is)

/-- `Divided lerp count pts out`: `out` lists, for every segment `ab` of the polyline `pts`, the points
`a + (i/n)(b-a)` for `0 ≤ i < n` with a number `n` admissible for the segment, and at the end the
last point of `pts`. -/
inductive Divided {P K : Type} [Field K] (lerp : P → P → K → P) (count : P → P → Nat → Prop) :
    List P → List P → Prop
  | last (p : P) : Divided lerp count [p] [p]
  | seg (a b : P) (rest out : List P) (n : Nat) (hn : count a b n)
      (h : Divided lerp count (b :: rest) out) :
      Divided lerp count (a :: b :: rest)
        ((List.range n).map (fun i : Nat => lerp a b ((i : K) / (n : K))) ++ out)

variable {K : Type} [Field K] [LinearOrder K]

/-- `n` is the least positive number with `length ≤ n·d`, where `sq` is the square of the length -/
def IsStepCount (sq d : K) (n : Nat) : Prop :=
  1 ≤ n ∧ sq ≤ ((n : K) * d) ^ 2 ∧ (n = 1 ∨ (((n : K) - 1) * d) ^ 2 < sq)

end Verif.Spec
