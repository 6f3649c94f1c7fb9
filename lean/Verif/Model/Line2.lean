import Verif.Model.Dist
import Verif.Model.Err
/-!
# 2D lines and intersections of line segments
-/
namespace Verif.Model
open Verif Scalar
variable {α : Type} [Scalar α]

/-- `src/linestring_2d.rs` 180-183 `Line2` -/
structure Line2 (α : Type) where
  start : V2 α
  «end» : V2 α
deriving DecidableEq, Repr

/-- `src/linestring_2d.rs` 1373-1378 `Intersection` -/
inductive Intersection (α : Type) where
  | point (p : V2 α)
  | overlap (l : Line2 α)
deriving DecidableEq, Repr

/-- `src/linestring_2d.rs` 1382-1387 `Intersection::single` -/
def Intersection.single : Intersection α → V2 α
  | .overlap a => a.start
  | .point a => a

/-- `src/linestring_2d.rs` 1390-1401 `Intersection::closest` -/
def Intersection.closest (i : Intersection α) (other : V2 α) : V2 α :=
  match i with
  | .overlap a =>
    if other.distSq a.start <. other.distSq a.end then a.start else a.end
  | .point a => a

/-- `src/linestring_2d.rs` 1405-1407 `scale_to_coordinate` -/
def scaleToCoordinate (point vector : V2 α) (scale : α) : V2 α := point.add (vector.smul scale)

/-- `src/linestring_2d.rs` 1344-1371 `intersect_line_point` -/
def intersectLinePoint (line : Line2 α) (point : V2 α) : Option (Intersection α) :=
  if Scalar.ulpsEq line.start.x point.x && Scalar.ulpsEq line.start.y point.y then
    some (.point point)
  else if Scalar.ulpsEq line.end.x point.x && Scalar.ulpsEq line.end.y point.y then
    some (.point point)
  else
    let l0x := line.start.x
    let l1x := line.end.x
    let l0y := line.start.y
    let l1y := line.end.y
    let px := point.x
    let py := point.y
    let ab := Scalar.sqrt (((l1x -. l0x) *. (l1x -. l0x)) +. ((l1y -. l0y) *. (l1y -. l0y)))
    let ap := Scalar.sqrt (((px -. l0x) *. (px -. l0x)) +. ((py -. l0y) *. (py -. l0y)))
    let pb := Scalar.sqrt (((l1x -. px) *. (l1x -. px)) +. ((l1y -. py) *. (l1y -. py)))
    if Scalar.ulpsEq ab (ap +. pb) then some (.point point) else none

/-- `src/linestring_2d.rs` 315-321 `Line2::precedes` -/
def precedes (a b : V2 α) : Bool :=
  if a.x >. b.x then true else a.y >. b.y && Scalar.ulpsEq a.x b.x

/-- `src/linestring_2d.rs` 227-311 `Line2::intersection_point` -/
def Line2.intersectionPoint (self other : Line2 α) : Option (Intersection α) :=
  if self.start.ulpsEq self.end then intersectLinePoint other self.start
  else if other.start.ulpsEq other.end then intersectLinePoint self other.start
  else
    let selfMinX := Scalar.fmin self.start.x self.end.x
    let selfMaxX := Scalar.fmax self.start.x self.end.x
    let selfMinY := Scalar.fmin self.start.y self.end.y
    let selfMaxY := Scalar.fmax self.start.y self.end.y
    let otherMinX := Scalar.fmin other.start.x other.end.x
    let otherMaxX := Scalar.fmax other.start.x other.end.x
    let otherMinY := Scalar.fmin other.start.y other.end.y
    let otherMaxY := Scalar.fmax other.start.y other.end.y
    if selfMaxX <. otherMinX || selfMinX >. otherMaxX || selfMaxY <. otherMinY
        || selfMinY >. otherMaxY then none
    else
      let p := self.start
      let q := other.start
      let r := self.end.sub p
      let s := other.end.sub q
      let rCrossS := r.perpDot s
      if Scalar.ulpsEq rCrossS zero then
        let (p, r) := if precedes self.start self.end then (self.end, r.neg) else (p, r)
        let (q, s) := if precedes other.start other.end then (other.end, s.neg) else (q, s)
        let qMinusP := q.sub p
        let qMinusPCrossR := qMinusP.perpDot r
        if Scalar.ulpsEq qMinusPCrossR zero then
          let rDotR := r.dot r
          let t0 := qMinusP.dot r /. rDotR
          let t1 := t0 +. (s.dot r /. rDotR)
          let overlapStart := p.add (r.smul (Scalar.fmax t0 zero))
          let overlapEnd := p.add (r.smul (Scalar.fmin t1 one))
          if overlapStart.beq overlapEnd then some (.point overlapStart)
          else some (.overlap ⟨overlapStart, overlapEnd⟩)
        else none
      else
        let qMinusP := q.sub p
        let t := qMinusP.perpDot s /. rCrossS
        let u := qMinusP.perpDot r /. rCrossS
        if Scalar.inRange zero one t && Scalar.inRange zero one u then
          some (.point (p.add (r.smul t)))
        else none

/-- `src/linestring_2d.rs` 326-376 `Line2::intersection_point3`.  (The Rust function returns a
`Result` that is always `Ok`.)  Note `middle.y() - start.x()` in line 331 of the original. -/
def intersectionPoint3 (start middle «end» : V2 α) : Option (Intersection α) :=
  let mss : V2 α := ⟨middle.x -. start.x, middle.y -. start.x⟩
  let mse : V2 α := ⟨middle.x -. end.x, middle.y -. end.y⟩
  let startIsVertical := Scalar.ulpsEq mss.x zero
  let endIsVertical := Scalar.ulpsEq mse.x zero
  let shortest : Option (Intersection α) :=
    if ((mss.x *. mss.x) +. (mss.y *. mss.y)) <. ((mse.x *. mse.x) +. (mse.y *. mse.y)) then
      some (.overlap ⟨start, middle⟩)
    else some (.overlap ⟨middle, «end»⟩)
  if startIsVertical && endIsVertical then
    if Scalar.isSignNeg mss.y && !Scalar.isSignNeg mse.y then none else shortest
  else if startIsVertical || endIsVertical then none
  else
    let startSlope := mss.x /. mss.y
    let endSlope := mse.x /. mse.y
    if !Scalar.ulpsEq startSlope endSlope then none else shortest

/-- `src/linestring_2d.rs` 380-386 `Line2::triangle_area_squared_times_4` -/
def triangleArea2 (p1 p2 p3 : V2 α) : α :=
  let area := (((p1.x *. p2.y +. p2.x *. p3.y +. p3.x *. p1.y) -. p1.x *. p3.y) -. p2.x *. p1.y)
    -. p3.x *. p2.y
  area *. area

/-- `src/linestring_2d/impls.rs` 51-58 `PartialEq for Line2` -/
def Line2.eq (a b : Line2 α) : Bool :=
  Scalar.ulpsEq a.start.x b.start.x && Scalar.ulpsEq a.start.y b.start.y
    && Scalar.ulpsEq a.end.x b.end.x && Scalar.ulpsEq a.end.y b.end.y

/-- `src/linestring_2d/impls.rs` 199-210 `AbsDiffEq for Line2` and 218-229 `UlpsEq for Line2`: both
have the same shape, with a scalar comparison `cmp` (`abs_diff_eq` with an epsilon or `ulps_eq` with
an epsilon and max_ulps). -/
def Line2.approxEq (cmp : α → α → Bool) (a b : Line2 α) : Bool :=
  if cmp a.start.x b.start.x && cmp a.start.y b.start.y then
    cmp a.end.x b.end.x && cmp a.end.y b.end.y
  else
    cmp a.start.x b.end.x && cmp a.start.y b.end.y && cmp a.end.x b.start.x && cmp a.end.y b.start.y

end Verif.Model
