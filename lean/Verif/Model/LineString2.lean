import Verif.Model.Line2
import Verif.Model.Shape
/-!
# Line strings (2D)

`LineString2` is implemented for `Vec<T>`; the model uses lists of points.
-/
namespace Verif.Model
open Verif Scalar Verif.Shape
variable {α : Type} [Scalar α]

/-- `slice::windows(2)` -/
def windows2 {A : Type} : List A → List (A × A)
  | a :: b :: rest => (a, b) :: windows2 (b :: rest)
  | _ => []

/-- state of `WindowIterator` (`src/linestring_2d.rs` 660, `src/linestring_3d.rs` 356-371): the rest of
the slice (`std::slice::Windows`, size 2).  `next`: `src/linestring_2d/impls.rs` 140-149,
`src/linestring_3d/impls.rs`.  Yields the pair of end points. -/
def windowNext {A : Type} : List A → Option ((A × A) × List A)
  | a :: b :: rest => some ((a, b), b :: rest)
  | _ => none

/-- `src/linestring_2d.rs` 669-671 `WindowIterator::len` (`Windows::len`: `len - size + 1`, 0 if the
slice is shorter than the window) -/
def windowLen {A : Type} (v : List A) : Nat := if 2 > v.length then 0 else v.length - 2 + 1

/-- state of `ChunkIterator` (`src/linestring_2d.rs` 675; std `ChunksExact`): slice still to be
yielded and remainder -/
structure ChunkState (A : Type) where
  v : List A
  rem : List A

/-- `src/linestring_2d.rs` 891-893 `chunk_iter` (`slice::chunks_exact(2)`) -/
def chunkNew {A : Type} (l : List A) : ChunkState A :=
  let n := l.length - l.length % 2
  ⟨l.take n, l.drop n⟩

/-- `src/linestring_2d/impls.rs` 158-163 `ChunkIterator::next` -/
def chunkNext {A : Type} (s : ChunkState A) : Option ((A × A) × ChunkState A) :=
  match s.v with
  | a :: b :: rest => some ((a, b), ⟨rest, s.rem⟩)
  | _ => none

/-- `src/linestring_2d.rs` 685-687 `ChunkIterator::len` -/
def chunkLen {A : Type} (s : ChunkState A) : Nat := s.v.length / 2

/-- `src/linestring_2d.rs` 691-693 `ChunkIterator::remainder` -/
def chunkRemainder {A : Type} (s : ChunkState A) : List A := s.rem

/-- `src/linestring_2d.rs` 701-703 `is_connected` -/
def isConnected2 (line : List (V2 α)) : Bool :=
  match line.head?, line.getLast? with
  | some a, some b => a.beq b
  | _, _ => true

/-- `src/linestring_2d.rs` 707-713 `point_count` -/
def pointCount2 (line : List (V2 α)) : Nat :=
  if line.length > 2 && isConnected2 line then line.length - 1 else line.length

/-- `src/linestring_2d.rs` 884-886 `window_iter` with 660, 672 `WindowIterator` and
`src/linestring_2d/impls.rs` 140-149 `Iterator for WindowIterator`: the segments yielded. -/
def windowIter2 (line : List (V2 α)) : List (Line2 α) :=
  (windows2 line).map (fun (a, b) => ⟨a, b⟩)

/-- `src/linestring_2d.rs` 891-893 `chunk_iter`, `src/linestring_2d/impls.rs` 151-160: the segments
yielded. -/
def chunkIter2 (line : List (V2 α)) : List (Line2 α) :=
  (chunks2 line).map (fun (a, b) => ⟨a, b⟩)

/-- `src/linestring_2d.rs` 772-780 `intersection` -/
def intersection2 (line : List (V2 α)) (other : Line2 α) : Option (Intersection α) :=
  let rec go : List (Line2 α) → Option (Intersection α)
    | [] => none
    | l :: ls =>
      match l.intersectionPoint other with
      | some i => some i
      | none => go ls
  go (windowIter2 line)

/-- `Vec::contains` with the `PartialEq` of vectors -/
def containsV2 (l : List (V2 α)) (p : V2 α) : Bool := l.any (fun q => q.beq p)

/-- the loop body of `find_two_intersections`, `src/linestring_2d.rs` 789-809 -/
def findTwoStep (acc : List (V2 α)) (i : Option (Intersection α)) : List (V2 α) :=
  match i with
  | some (.point p) => if containsV2 acc p then acc else acc ++ [p]
  | some (.overlap o) =>
    let acc := if containsV2 acc o.start then acc else acc ++ [o.start]
    if acc.length < 2 && !containsV2 acc o.end then acc ++ [o.end] else acc
  | none => acc

/-- `src/linestring_2d.rs` 785-821 `find_two_intersections` -/
def findTwo2 (line : List (V2 α)) (other : Line2 α) : Option (V2 α) × Option (V2 α) :=
  let rec go (acc : List (V2 α)) : List (Line2 α) → List (V2 α)
    | [] => acc
    | e :: es =>
      let acc := findTwoStep acc (e.intersectionPoint other)
      if acc.length = 2 then acc else go acc es
  let l := go [] (windowIter2 line)
  (l[0]?, l[1]?)

/-- the loop body of `find_all_intersections`, `src/linestring_2d.rs` 827-831 -/
def findAllStep (other : Line2 α) (acc : List (Intersection α)) (e : Line2 α) : List (Intersection α) :=
  match e.intersectionPoint other with
  | some i => acc ++ [i]
  | none => acc

/-- `src/linestring_2d.rs` 824-833 `find_all_intersections` -/
def findAll2 (line : List (V2 α)) (other : Line2 α) : List (Intersection α) :=
  (windowIter2 line).foldl (findAllStep other) []

/-- `src/linestring_2d.rs` 837-858 `ray_edge_intersection` -/
def rayEdgeIntersection (origin rayDir p0 p1 : V2 α) : Option α :=
  let s := p1.sub p0
  let rCrossS := rayDir.perpDot s
  if Scalar.ulpsEq rCrossS zero then
    let qMinusP := p0.sub origin
    let qMinusPCrossR := qMinusP.perpDot rayDir
    if Scalar.ulpsEq qMinusPCrossR zero then
      let rDotR := rayDir.dot rayDir
      let t0 := qMinusP.dot rayDir /. rDotR
      let t1 := t0 +. (s.dot rayDir /. rDotR)
      some (Scalar.fmin t0 t1)
    else none
  else
    let qMinusP := p0.sub origin
    let t := qMinusP.perpDot s /. rCrossS
    let u := qMinusP.perpDot rayDir /. rCrossS
    if t >=. zero && Scalar.inRange zero one u then some t else none

/-- the closure of `closest_ray_intersection`, `src/linestring_2d.rs` 868-877 -/
def nearestStep (nearest : Option α) (hit : Option α) : Option α :=
  match hit, nearest with
  | some t, some nt => if t >. zero && t <. nt then some t else some nt
  | some t, none => if t >. zero then some t else none
  | none, n => n

/-- `src/linestring_2d.rs` 862-879 `closest_ray_intersection` -/
def closestRayIntersection (line : List (V2 α)) (rayDir origin : V2 α) : Option (V2 α) :=
  if line.length ≤ 1 then none
  else
    ((windows2 line).foldl (fun n v => nearestStep n (rayEdgeIntersection origin rayDir v.1 v.2))
      none).map (fun t => origin.add (rayDir.smul t))

/-- the test in the inner loop of `is_self_intersecting` for lines that are not neighbours,
`src/linestring_2d.rs` 733-757: does it return `Ok(true)`? -/
def nonAdjacentHit (l0 l1 : Line2 α) : Bool :=
  match l0.intersectionPoint l1 with
  | none => false
  | some i =>
    let p := i.single
    !((p.ulpsEq l0.start || p.ulpsEq l0.end) && (p.ulpsEq l1.start || p.ulpsEq l1.end))

/-- `src/linestring_2d.rs` 718-760, the brute force part of `is_self_intersecting` for lines of fewer
than ten points.  `none` for longer lines (those use the sweep line). -/
def isSelfIntersectingShort (line : List (V2 α)) : Option Bool :=
  if line.length ≤ 2 then some false
  else if line.length < 10 then
    let ws := windowIter2 line
    some ((ws.zipIdx.take (ws.length - 1)).any (fun (l0, i0) =>
      (ws.zipIdx.drop (i0 + 1)).any (fun (l1, i1) =>
        if i0 = i1 then false
        else if i0 + 1 = i1 then (intersectionPoint3 l0.start l0.end l1.end).isSome
        else nonAdjacentHit l0 l1)))
  else none

/-- `src/linestring_2d.rs` 1125-1160 `Approx for Vec<T>` (2D; 3D: `src/linestring_3d.rs` 586-608):
`ulps_eq` and `abs_diff_eq` have the same shape, `cmp` compares two points. -/
def approxEqVec {A : Type} (cmp : A → A → Bool) (a b : List A) : Bool :=
  a.length == b.length && (a.zip b).all (fun (x, y) => cmp x y)

end Verif.Model
