import Verif.Model.Line2
/-!
# `VoronoiParabolicArc`
-/
namespace Verif.Model
open Verif Scalar
variable {α : Type} [Scalar α] {P : Type}

/-- `src/linestring_2d.rs` 409-417 `VoronoiParabolicArc` -/
structure Arc (α : Type) where
  segment : Line2 α
  cellPoint : V2 α
  startPoint : V2 α
  endPoint : V2 α

namespace Arc

/-- `src/linestring_2d.rs` 620-622 `parabola_y` -/
def parabolaY (x a b : α) : α := (((x -. a) *. (x -. a)) +. (b *. b)) /. (b +. b)

/-- `src/linestring_2d.rs` 632-640 `point_projection`; 643-651 `point_projection_3d` computes the same
from the x and y coordinates of a 3D point -/
def pointProjection (point : V2 α) (segment : Line2 α) : α :=
  let sx := segment.end.x -. segment.start.x
  let sy := segment.end.y -. segment.start.y
  let px := point.x -. segment.start.x
  let py := point.y -. segment.start.y
  let sqr := (sx *. sx) +. (sy *. sy)
  let dot := (sx *. px) +. (sy *. py)
  dot /. sqr

/-- the constants computed before the loop: `src/linestring_2d.rs` 432-462 (2D) and 545-576 (3D) -/
structure Const (α : Type) where
  segX : α
  segY : α
  sqr : α
  rotX : α
  rotY : α
  maxDist : α

/-- `src/linestring_2d.rs` 438-440, 452-455, 463 (3D: 549-551, 562-565, 577) -/
def const (a : Arc α) (maxDist : α) : Const α :=
  let sx := a.segment.end.x -. a.segment.start.x
  let sy := a.segment.end.y -. a.segment.start.y
  let sqr := (sx *. sx) +. (sy *. sy)
  let px := a.cellPoint.x -. a.segment.start.x
  let py := a.cellPoint.y -. a.segment.start.y
  ⟨sx, sy, sqr, (sx *. px) +. (sy *. py), (sx *. py) -. (sy *. px), (maxDist *. maxDist) *. sqr⟩

/-- the variables of the loop; the head of `stack` is the top, the last entry of the `Vec` -/
structure State (P α : Type) where
  stack : List α
  curX : α
  curY : α
  out : List P

/-- the coordinates `inter_x`, `inter_y`: `src/linestring_2d.rs` 484-487 (3D: 598-601) -/
def interPoint (a : Arc α) (c : Const α) (newX newY : α) : V2 α :=
  ⟨(((c.segX *. newX) -. (c.segY *. newY)) /. c.sqr) +. a.segment.start.x,
   (((c.segX *. newY) +. (c.segY *. newX)) /. c.sqr) +. a.segment.start.y⟩

/-- one round of the loop, `src/linestring_2d.rs` 465-495 (3D: 579-610), for a stack with top `newX`.
`emit` turns the new point into what is pushed to `rv`. -/
def round (c : Const α) (emit : α → α → P) (newX : α) (rest : List α) (s : State P α) : State P α :=
  let newY := parabolaY newX c.rotX c.rotY
  let midX := (((newY -. s.curY) /. (newX -. s.curX)) *. c.rotY) +. c.rotX
  let midY := parabolaY midX c.rotX c.rotY
  let d := ((newY -. s.curY) *. (midX -. s.curX)) -. ((newX -. s.curX) *. (midY -. s.curY))
  let dist := (d *. d) /. (((newY -. s.curY) *. (newY -. s.curY)) +. ((newX -. s.curX) *. (newX -. s.curX)))
  if dist <=. c.maxDist then
    { stack := rest, curX := newX, curY := newY, out := s.out ++ [emit newX newY] }
  else { s with stack := midX :: s.stack }

/-- the loop `while !point_stack.is_empty()`; `none` if it is still running after `fuel` rounds -/
def loop (c : Const α) (emit : α → α → P) : Nat → State P α → Option (State P α)
  | fuel, s =>
    match s.stack with
    | [] => some s
    | newX :: rest =>
      match fuel with
      | 0 => none
      | fuel + 1 => loop c emit fuel (round c emit newX rest s)

/-- `rv[rv.len() - 1] = p`, `src/linestring_2d.rs` 498-499 (3D: 612-613); `rv` is not empty there -/
def setLast (l : List P) (p : P) : List P := l.dropLast ++ [p]

/-- the state before the loop of `discretize_2d`: `src/linestring_2d.rs` 433, 444-447, 458-460 -/
def init2 (a : Arc α) (c : Const α) : State (V2 α) α :=
  let ps := pointProjection a.startPoint a.segment *. c.sqr
  let pe := pointProjection a.endPoint a.segment *. c.sqr
  ⟨[pe], ps, parabolaY ps c.rotX c.rotY, [a.startPoint]⟩

/-- `src/linestring_2d.rs` 432-501 `discretize_2d`; `none` if the loop is still running after `fuel`
rounds.  (`rv` contains `start_point` before the loop; the list of `loop` is appended to it.) -/
def discretize2d (fuel : Nat) (a : Arc α) (maxDist : α) : Option (List (V2 α)) :=
  let c := a.const maxDist
  (loop c (a.interPoint c) fuel (a.init2 c)).map (fun s => setLast s.out a.endPoint)

/-- the third coordinate of the 3D versions, `src/linestring_2d.rs` 531, 538, 602 -/
def lift3 (cell p : V2 α) : V3 α := ⟨p.x, p.y, -. (p.sub cell).mag⟩

/-- the state before the loop of `discretize_3d`: `src/linestring_2d.rs` 530-545, 555-557, 567-574
(the end point is pushed to `rv` and popped again). -/
def init3 (a : Arc α) (c : Const α) : State (V3 α) α :=
  let ps := c.sqr *. pointProjection a.startPoint a.segment
  let pe := c.sqr *. pointProjection a.endPoint a.segment
  ⟨[pe], ps, parabolaY ps c.rotX c.rotY, [lift3 a.cellPoint a.startPoint]⟩

/-- `src/linestring_2d.rs` 529-615 `discretize_3d` -/
def discretize3d (fuel : Nat) (a : Arc α) (maxDist : α) : Option (List (V3 α)) :=
  let c := a.const maxDist
  (loop c (fun x y => lift3 a.cellPoint (a.interPoint c x y)) fuel (a.init3 c)).map
    (fun s => setLast s.out (lift3 a.cellPoint a.endPoint))

/-- `src/linestring_2d.rs` 504-521 `discretize_3d_straight_line` -/
def discretize3dStraightLine (a : Arc α) : List (V3 α) :=
  [⟨a.startPoint.x, a.startPoint.y,
     -. Scalar.sqrt (distToLineSqSafe2 a.segment.start a.segment.end a.startPoint)⟩,
   ⟨a.endPoint.x, a.endPoint.y, -. (a.endPoint.sub a.cellPoint).mag⟩]

end Arc
end Verif.Model
