import Verif.Model.Dist
import Verif.Model.Err
/-!
# `discretize`

`src/linestring_2d.rs` 1579-1655 and `src/linestring_3d.rs` 704-780 are the same code for 2D and 3D
vectors; the model is written once over the vector operations used.
-/
namespace Verif.Model
open Verif Scalar

/-- the vector operations used by the iterator -/
structure VecOps (P α : Type) where
  add : P → P → P
  sub : P → P → P
  smul : P → α → P
  sdiv : P → α → P
  mag : P → α
  zero : P

variable {α : Type} [Scalar α] {P : Type}

/-- 2D vectors -/
def ops2 : VecOps (V2 α) α := ⟨V2.add, V2.sub, V2.smul, V2.sdiv, V2.mag, V2.zero⟩
/-- 3D vectors -/
def ops3 : VecOps (V3 α) α := ⟨V3.add, V3.sub, V3.smul, V3.sdiv, V3.mag, V3.zero⟩

/-- `DiscreteLineSegmentIterator`: `src/linestring_2d.rs` 1579-1586, `src/linestring_3d.rs` 704-711 -/
structure DState (P α : Type) where
  points : List P
  distance : α
  currentIndex : Nat
  substepIndex : Nat
  numSubsteps : Nat
  step : P

/-- `new`: `src/linestring_2d.rs` 1589-1598, `src/linestring_3d.rs` 714-723 -/
def discNew (o : VecOps P α) (points : List P) (distance : α) : DState P α :=
  ⟨points, distance, 0, 0, 0, o.zero⟩

/-- the computation of `initialize_step` for the segment from `a` to `b`:
`src/linestring_2d.rs` 1603-1613, `src/linestring_3d.rs` 728-738 -/
def segSteps (o : VecOps P α) (distance : α) (a b : P) : Nat × P :=
  let direction := o.sub b a
  let len := o.mag direction
  if len >. zero then
    let n := Scalar.ceil (len /. distance)
    (Scalar.toUsize n, o.sdiv direction n)
  else (1, o.zero)

/-- `initialize_step`: `src/linestring_2d.rs` 1600-1614, `src/linestring_3d.rs` 725-739 -/
def discInit (o : VecOps P α) (s : DState P α) : Except Err (DState P α) :=
  match s.points[s.currentIndex]?, s.points[s.currentIndex + 1]? with
  | some a, some b =>
    let r := segSteps o s.distance a b
    .ok { s with numSubsteps := r.1, step := r.2 }
  | _, _ => .error .panic

/-- `next`: `src/linestring_2d.rs` 1623-1654, `src/linestring_3d.rs` 748-779 -/
def discNext (o : VecOps P α) (s : DState P α) : Except Err (Option P × DState P α) :=
  if s.points.isEmpty then .ok (none, s)
  else if _h : s.currentIndex < s.points.length - 1 then
    match (if s.substepIndex = 0 then discInit o s else .ok s) with
    | .error e => .error e
    | .ok s' =>
      if s'.substepIndex < s'.numSubsteps then
        match s.points[s.currentIndex]? with
        | none => .error .panic
        | some start =>
          .ok (some (o.add start (o.smul s'.step (Scalar.ofUsize s'.substepIndex))),
            { s' with substepIndex := s'.substepIndex + 1 })
      else discNext o { s with currentIndex := s.currentIndex + 1, substepIndex := 0,
                               numSubsteps := s'.numSubsteps, step := s'.step }
  else if s.currentIndex = s.points.length - 1 then
    .ok (s.points.getLast?, { s with currentIndex := s.currentIndex + 1, substepIndex := 0 })
  else .ok (none, s)
termination_by s.points.length - 1 - s.currentIndex
decreasing_by omega

end Verif.Model
