import Verif.Model.LineString2
import Verif.Model.Rdp
/-!
# Convex hulls (`src/linestring_2d/convex_hull.rs`)

Indexed and plain versions of an algorithm are written twice in Rust; here both are instances of one
function with an accessor `get` (for the indexed version `vertices[i]`, which panics if `i` is out of
range).  `Vec`s used as stacks are lists with the top first.

`sort_unstable_by` is a parameter `srt`: an arbitrary function from lists to lists; the theorems say
what they need (that it permutes, and that its result is sorted for the comparison function).
-/
namespace Verif.Model
open Verif Scalar
variable {α : Type} [Scalar α] {ι : Type}

/-- `src/linestring_2d/convex_hull.rs` 53-58 `Orientation` -/
inductive Orientation where
  | left
  | right
  | collinear
deriving DecidableEq, Repr

/-- `src/linestring_2d/convex_hull.rs` 234-236 `cross_2d` -/
def cross2d (a b c : V2 α) : α := (b.sub a).perpDot (c.sub a)

/-- `src/linestring_2d/convex_hull.rs` 175-184 `point_orientation` -/
def pointOrientation (a b c : V2 α) : Orientation :=
  let value := cross2d a b c
  if value ==. Scalar.zero || Scalar.ulpsEq value Scalar.zero then .collinear
  else if value >. Scalar.zero then .left
  else .right

/-- `src/linestring_2d/convex_hull.rs` 199-201 `is_point_left` -/
def isPointLeft (a b c : V2 α) : Bool := cross2d a b c >. Scalar.zero

/-- `src/linestring_2d/convex_hull.rs` 214-217 `is_point_left_allow_collinear` -/
def isPointLeftAllowCollinear (a b c : V2 α) : Bool :=
  let result := cross2d a b c
  result >=. Scalar.zero || Scalar.ulpsEq result Scalar.zero

/-- `src/linestring_2d/convex_hull.rs` 62-64 `Orientation::is_left_or_collinear` -/
def Orientation.isLeftOrCollinear (o : Orientation) : Bool := o = .left || o = .collinear

/-- `src/linestring_2d/convex_hull.rs` 67-69 `Orientation::is_left` -/
def Orientation.isLeft (o : Orientation) : Bool := o = .left

/-- the loop of `find_lowest_x` (`src/linestring_2d/convex_hull.rs` 83-108) and of
`indexed_find_lowest_x` (130-155) -/
def lowestLoop (get : ι → Except Err (V2 α)) : List ι → Nat → Nat → V2 α → Except Err (Nat × V2 α)
  | [], _, minIdx, minVal => .ok (minIdx, minVal)
  | i :: rest, pos, minIdx, minVal => do
    let point ← get i
    match Scalar.pcmp point.x minVal.x with
    | some .lt => lowestLoop get rest (pos + 1) pos point
    | some .eq =>
      if point.y <. minVal.y then lowestLoop get rest (pos + 1) pos point
      else lowestLoop get rest (pos + 1) minIdx minVal
    | some .gt => lowestLoop get rest (pos + 1) minIdx minVal
    | none => .error .invalid

/-- `src/linestring_2d/convex_hull.rs` 73-112 `find_lowest_x` and 117-160 `indexed_find_lowest_x`
(whose test `vertices.is_empty()` is only reached with a non empty vertex table or panics: with an
empty table and non empty indices it returns the same `Err` before indexing; `noVertices` is that
test) -/
def findLowest (noVertices : Bool) (get : ι → Except Err (V2 α)) (l : List ι) : Except Err (Nat × V2 α) :=
  if noVertices then .error .invalid
  else
    match l with
    | [] => .error .invalid
    | i :: rest => do
      let p ← get i
      lowestLoop get rest 1 0 p

/-- the comparison function of `graham_scan` (`src/linestring_2d/convex_hull.rs` 655-659) and
`indexed_graham_scan_no_loop` (789-793) on entries `(point, angle, distance)` -/
def angleCmp (a b : ι × α × α) : Ordering :=
  ((Scalar.pcmp a.2.1 b.2.1).getD .eq).then ((Scalar.pcmp a.2.2 b.2.2).getD .eq)

/-- the entry of a point: `src/linestring_2d/convex_hull.rs` 645-650 (indexed: 782-787) -/
def angleEntry (start : V2 α) (i : ι) (p : V2 α) : ι × α × α :=
  let diff := p.sub start
  (i, Scalar.atan2 diff.y diff.x, start.distSq p)

/-- the `while hull.len() > 1` loop: `src/linestring_2d/convex_hull.rs` 671-679 (indexed: 806-818;
`graham_scan_wo_atan2`: 575-583, where the test is written `cross < ZERO`).  `hull` with its top first. -/
def popWhile (get : ι → Except Err (V2 α)) (p : V2 α) : List ι → Except Err (List ι)
  | a :: b :: rest => do
    let pb ← get b
    let pa ← get a
    let cross := cross2d pb pa p
    if Scalar.zero >. cross || Scalar.ulpsEq cross Scalar.zero then popWhile get p (b :: rest)
    else .ok (a :: b :: rest)
  | l => .ok l

/-- the scan `src/linestring_2d/convex_hull.rs` 667-682 (indexed: 801-820); `skip` is
`*p == starting_point` (indexed: `*i == start_index`) -/
def grahamLoop (get : ι → Except Err (V2 α)) (skip : ι → Bool) : List ι → List ι → Except Err (List ι)
  | [], hull => .ok hull
  | i :: rest, hull =>
    if skip i then grahamLoop get skip rest hull
    else do
      let p ← get i
      let hull ← popWhile get p hull
      grahamLoop get skip rest (i :: hull)

/-- `vertices[0] == vertices[len-1]`: drop the first point; `src/linestring_2d/convex_hull.rs` 273-276,
531-534, 626-629 -/
def dropLoopPoint (l : List (V2 α)) : List (V2 α) :=
  match l.head?, l.getLast? with
  | some a, some b => if a.beq b then l.tail else l
  | _, _ => l

/-- the answer for three points: `src/linestring_2d/convex_hull.rs` 280-286, 538-544, 633-639 -/
def triangle3 (a b c : V2 α) : List (V2 α) := if isPointLeft a b c then [a, b, c] else [a, c, b]

/-- the accessor of the versions that work on points -/
def getPoint (p : V2 α) : Except Err (V2 α) := .ok p

/-- `src/linestring_2d/convex_hull.rs` 622-689 `graham_scan` -/
def grahamScan (srt : List (V2 α × α × α) → List (V2 α × α × α)) (input : List (V2 α)) :
    Except Err (List (V2 α)) :=
  match dropLoopPoint input with
  | [] => .ok []
  | [a] => .ok [a]
  | [a, b] => .ok [a, b]
  | [a, b, c] => .ok (triangle3 a b c)
  | pts => do
    let (_, start) ← findLowest false getPoint pts
    let entries := pts.map (fun p => angleEntry start p p)
    let hull ← grahamLoop getPoint (fun p => p.beq start) ((srt entries).map (·.1)) [start]
    let hull := hull.reverse
    if hull.length > 1 then .ok (hull ++ hull.head?.toList) else .ok hull

/-- the comparison closure of `graham_scan_wo_atan2`: `src/linestring_2d/convex_hull.rs` 550-567.
`none` is the panic of line 565. -/
def orientCmp (start b c : V2 α) : Option Ordering :=
  let ccr := cross2d start b c
  match Scalar.pcmp Scalar.zero ccr with
  | some .gt => some .gt
  | some .lt => some .lt
  | some .eq => if start.distSq b >. start.distSq c then some .gt else some .lt
  | none => none

/-- the scan of `graham_scan_wo_atan2`: `src/linestring_2d/convex_hull.rs` 574-587 -/
def grahamLoop2 : List (V2 α) → List (V2 α) → Except Err (List (V2 α))
  | [], hull => .ok hull
  | p :: rest, hull => do
    let hull ← popWhile getPoint p hull
    match hull with
    | [] => .error .panic
    | last :: _ => if last.beq p then grahamLoop2 rest hull else grahamLoop2 rest (p :: hull)

/-- `src/linestring_2d/convex_hull.rs` 525-594 `graham_scan_wo_atan2`; `srt` is the sort of line 569
(`none` if the comparison panics). -/
def grahamScanWoAtan2 (srt : V2 α → List (V2 α) → Option (List (V2 α))) (input : List (V2 α)) :
    Except Err (List (V2 α)) :=
  match dropLoopPoint input with
  | [] => .ok []
  | [a] => .ok [a]
  | [a, b] => .ok [a, b]
  | [a, b, c] => .ok (triangle3 a b c)
  | pts => do
    let (_, start) ← findLowest false getPoint pts
    match srt start pts with
    | none => .error .panic
    | some sorted =>
      let hull ← grahamLoop2 sorted [start]
      let hull := hull.reverse
      if isConnected2 hull then .ok hull else .ok (hull ++ hull.head?.toList)

/-- the index list without a repeated loop index: `src/linestring_2d/convex_hull.rs` 759-762 (also
415-418, 1132-1135) -/
def openIndices (indices : List Nat) : List Nat :=
  if indices.head? = indices.getLast? then indices.dropLast else indices

/-- `src/linestring_2d/convex_hull.rs` 752-766: the short index lists of
`indexed_graham_scan_no_loop` (and of 401-423 `indexed_gift_wrap_no_loop`, 1129-1151
`convex_hull_par`); `none` if the list is longer, with the list without its loop index. -/
def indexedShort (vertices : List (V2 α)) (indices : List Nat) : Except Err (List Nat) ⊕ List Nat :=
  if indices.length ≤ 1 then .inl (.ok indices)
  else
    match openIndices indices with
    | [] => .inl (.ok [])
    | [a] => .inl (.ok [a])
    | [a, b] => .inl (.ok [a, b])
    | [a, b, c] => .inl (do
        let pa ← idx vertices a
        let pb ← idx vertices b
        let pc ← idx vertices c
        if isPointLeft pa pb pc then .ok [a, b, c] else .ok [a, c, b])
    | indices => .inr indices

/-- `src/linestring_2d/convex_hull.rs` 749-828 `indexed_graham_scan_no_loop` (always called with
`start_index = None` in the crate) -/
def indexedGrahamNoLoop (srt : List (Nat × α × α) → List (Nat × α × α)) (vertices : List (V2 α))
    (indices : List Nat) (startIndex : Option Nat) : Except Err (List Nat) :=
  match indexedShort vertices indices with
  | .inl r => r
  | .inr indices => do
    let (startIndex, start) ← (match startIndex with
      | some i => do
        let p ← idx vertices i
        .ok (i, p)
      | none => do
        let (ii, p) ← findLowest vertices.isEmpty (idx vertices) indices
        let i ← idx indices ii
        .ok (i, p) : Except Err (Nat × V2 α))
    let entries ← indices.mapM (fun i => do
      let p ← idx vertices i
      .ok (angleEntry start i p) : Nat → Except Err (Nat × α × α))
    let hull ← grahamLoop (idx vertices) (fun i => i == startIndex) ((srt entries).map (·.1)) [startIndex]
    .ok hull.reverse

/-- "complete the loop": `src/linestring_2d/convex_hull.rs` 399-402, 741-744, 1186-1189 -/
def closeLoop (hull : List Nat) : List Nat :=
  if hull.length > 1 then hull ++ hull.head?.toList else hull

/-- `src/linestring_2d/convex_hull.rs` 734-745 `indexed_graham_scan` -/
def indexedGrahamScan (srt : List (Nat × α × α) → List (Nat × α × α)) (vertices : List (V2 α))
    (indices : List Nat) : Except Err (List Nat) :=
  (indexedGrahamNoLoop srt vertices indices none).map closeLoop

/-! ## Gift wrapping -/

/-- one round of the inner loop `for j in 0..vertices.len()`: `src/linestring_2d/convex_hull.rs`
304-330 (indexed: 448-478).  State: `end_point` and the set positions of `visited`. -/
def giftStep (get : Nat → Except Err (V2 α)) (start p : Nat) (s : Nat × List Nat) (j : Nat) :
    Except Err (Nat × List Nat) :=
  if j == p || j == s.1 || s.2.contains j then .ok s
  else do
    let pp ← get p
    let pe ← get s.1
    let pj ← get j
    match pointOrientation pp pe pj with
    | .right => .ok (j, s.2)
    | .collinear =>
      if pp.distSq pj >. pp.distSq pe then .ok (j, s.2)
      else if j != start then .ok (s.1, j :: s.2)
      else .ok s
    | .left => .ok s

/-- one round of the outer loop without the push to `hull`: `src/linestring_2d/convex_hull.rs` 297-330
(indexed: 441-478): the next point on the hull and the new `visited` -/
def giftRound (get : Nat → Except Err (V2 α)) (n start p : Nat) (visited : List Nat) :
    Except Err (Nat × List Nat) :=
  let visited := if p != start then p :: visited else visited
  (List.range n).foldlM (giftStep get start p) ((p + 1) % n, visited)

/-- the loop `src/linestring_2d/convex_hull.rs` 295-341 (indexed: 439-485); `hull` is reversed and holds
positions -/
def giftLoop (get : Nat → Except Err (V2 α)) (n start : Nat) :
    Nat → Nat → List Nat → List Nat → Except Err (List Nat)
  | 0, _, _, _ => .error .diverge
  | fuel + 1, p, visited, hull => do
    let hull := p :: hull
    let (e, visited) ← giftRound get n start p visited
    if e == start then .ok hull.reverse
    else giftLoop get n start fuel e visited hull

/-- `src/linestring_2d/convex_hull.rs` 269-344 `gift_wrap` -/
def giftWrap (fuel : Nat) (input : List (V2 α)) : Except Err (List (V2 α)) :=
  match dropLoopPoint input with
  | [] => .ok []
  | [a] => .ok [a]
  | [a, b] => .ok [a, b]
  | [a, b, c] => .ok (triangle3 a b c)
  | pts => do
    let (start, _) ← findLowest false getPoint pts
    let hull ← giftLoop (idx pts) pts.length start fuel start [] []
    (hull ++ [start]).mapM (idx pts)

/-- `src/linestring_2d/convex_hull.rs` 408-494 `indexed_gift_wrap_no_loop` -/
def indexedGiftNoLoop (fuel : Nat) (vertices : List (V2 α)) (indices : List Nat) : Except Err (List Nat) :=
  match indexedShort vertices indices with
  | .inl r => r
  | .inr indices => do
    let (start, _) ← findLowest vertices.isEmpty (idx vertices) indices
    let hull ← giftLoop (fun j => do idx vertices (← idx indices j)) indices.length start fuel start [] []
    hull.mapM (idx indices)

/-- `src/linestring_2d/convex_hull.rs` 392-404 `indexed_gift_wrap` -/
def indexedGiftWrap (fuel : Nat) (vertices : List (V2 α)) (indices : List Nat) : Except Err (List Nat) :=
  (indexedGiftNoLoop fuel vertices indices).map closeLoop

/-! ## The parallel hull -/

/-- `src/linestring_2d/convex_hull.rs` 857-864 `VertexIndex` -/
structure VertexIndex where
  fromA : Bool
  index : Nat
  indexIndex : Nat
deriving DecidableEq, Repr

/-- the first candidate for `end_point`: `src/linestring_2d/convex_hull.rs` 914-953; `own` is the hull
of `point_on_hull`, `other` the other one (both are not empty here) -/
def combineFirst (own other : List Nat) (p : VertexIndex) : Except Err VertexIndex := do
  let ii := (p.indexIndex + 1) % own.length
  let i ← idx own ii
  if i != p.index then .ok ⟨p.fromA, i, ii⟩
  else do
    let o ← idx other 0
    .ok ⟨!p.fromA, o, 0⟩

/-- the loops `src/linestring_2d/convex_hull.rs` 964-1003 and 1009-1049 over the other hull -/
def combineScan (vertices : List (V2 α)) (p : VertexIndex) :
    List Nat → Nat → VertexIndex → Bool → Except Err VertexIndex
  | [], _, e, _ => .ok e
  | j :: rest, jj, e, found =>
    if j == p.index || j == e.index then combineScan vertices p rest (jj + 1) e found
    else do
      let pp ← idx vertices p.index
      let pe ← idx vertices e.index
      let pj ← idx vertices j
      match pointOrientation pp pe pj with
      | .right => combineScan vertices p rest (jj + 1) ⟨!p.fromA, j, jj⟩ true
      | .collinear =>
        if pp.distSq pj >. pp.distSq pe then combineScan vertices p rest (jj + 1) ⟨!p.fromA, j, jj⟩ true
        else combineScan vertices p rest (jj + 1) e found
      | .left => if found then .ok e else combineScan vertices p rest (jj + 1) e found

/-- the loop `src/linestring_2d/convex_hull.rs` 901-1064 -/
def combineLoop (vertices : List (V2 α)) (a b : List Nat) (start : Nat) :
    Nat → VertexIndex → List Nat → Except Err (List Nat)
  | 0, _, _ => .error .diverge
  | fuel + 1, p, hull => do
    let hull := p.index :: hull
    let own := if p.fromA then a else b
    let other := if p.fromA then b else a
    let e ← combineFirst own other p
    let e ← combineScan vertices p other 0 e false
    if e.index == start then .ok hull.reverse
    else combineLoop vertices a b start fuel e hull

/-- `src/linestring_2d/convex_hull.rs` 874-1074 `combine_indexed_convex_hull` -/
def combineHulls (fuel : Nat) (vertices : List (V2 α)) (ra rb : Except Err (List Nat)) :
    Except Err (List Nat) := do
  let a ← ra
  let b ← rb
  match a, b with
  | [], b => .ok b
  | a, [] => .ok a
  | s :: a, b => combineLoop vertices (s :: a) b s fuel ⟨true, s, 0⟩ []

/-- `slice::chunks(size)`; `fuel` at least the length -/
def chunksOf {A : Type} (size : Nat) : Nat → List A → List (List A)
  | _, [] => []
  | 0, _ => []
  | fuel + 1, l => l.take size :: chunksOf size fuel (l.drop size)

/-- A schedule of rayon's `reduce`: how the sequence of items is split over tasks.  A leaf folds its
items from the identity; a node splits after `k` items and joins the two results. -/
inductive Sched where
  | leaf
  | node (k : Nat) (l r : Sched)

/-- rayon's `ParallelIterator::reduce` for a schedule -/
def parReduce {A : Type} (ident : A) (op : A → A → A) : Sched → List A → A
  | .leaf, items => items.foldl op ident
  | .node k l r, items => op (parReduce ident op l (items.take k)) (parReduce ident op r (items.drop k))

/-- the reduction closure `src/linestring_2d/convex_hull.rs` 1178-1183 -/
def combineOp (fuel : Nat) (vertices : List (V2 α)) (result part : Except Err (List Nat)) :
    Except Err (List Nat) :=
  match result with
  | .ok indices => combineHulls fuel vertices (.ok indices) part
  | .error e => .error e

/-- the start index `src/linestring_2d/convex_hull.rs` 1156-1168 -/
def parStart (vertices : List (V2 α)) (chunks : List (List Nat)) : Except Err Nat := do
  let starts ← chunks.mapM (fun chunk => do
    let (ii, _) ← findLowest vertices.isEmpty (idx vertices) chunk
    idx chunk ii : List Nat → Except Err Nat)
  let (ii, _) ← findLowest vertices.isEmpty (idx vertices) starts
  idx starts ii

/-- `src/linestring_2d/convex_hull.rs` 1124-1191 `convex_hull_par` for a schedule of the reduction -/
def convexHullPar (fuel : Nat) (sched : Sched) (srt : List (Nat × α × α) → List (Nat × α × α))
    (vertices : List (V2 α)) (indices : List Nat) (chunk : Nat) : Except Err (List Nat) :=
  match indexedShort vertices indices with
  | .inl r => r
  | .inr indices =>
    if chunk = 0 then .error .panic
    else do
      let chunks := chunksOf chunk indices.length indices
      let start ← parStart vertices chunks
      let parts := chunks.map (fun c => indexedGrahamNoLoop srt vertices c none)
      let hull ← parReduce (.ok [start]) (combineOp fuel vertices) sched parts
      .ok (closeLoop hull)

/-- `src/linestring_2d.rs` 913-915 `LineString2::convex_hull` -/
def lineConvexHull (srt : List (V2 α × α × α) → List (V2 α × α × α)) (l : List (V2 α)) :
    Except Err (List (V2 α)) := grahamScan srt l

/-- `src/linestring_2d.rs` 919-928 `LineString2::convex_hull_par` -/
def lineConvexHullPar (fuel : Nat) (sched : Sched) (srt : List (Nat × α × α) → List (Nat × α × α))
    (l : List (V2 α)) (chunk : Nat) : Except Err (List (V2 α)) :=
  if chunk > 1 then do
    let is ← convexHullPar fuel sched srt l (List.range l.length) chunk
    is.mapM (idx l)
  else .error .panic

/-! ## Containment -/

/-- the bisection loop `src/linestring_2d/convex_hull.rs` 1333-1364 (inclusive: 1444-1475): `none` is
`return false`, otherwise the final slice and flag.  `base` is `input[input_offset]`. -/
def containsLoop (base p : V2 α) : Nat → List (V2 α) → Bool → Except Err (Option (List (V2 α) × Bool))
  | 0, _, _ => .error .diverge
  | fuel + 1, slice, retain =>
    if slice.length > 3 || (retain && slice.length > 2) then do
      let mid := if retain then (slice.length + 1) / 2 - 1 else slice.length / 2
      let a ← idx slice (mid - 1)
      let m ← idx slice mid
      if !isPointLeftAllowCollinear a m p then .ok none
      else do
        let s0 ← idx slice 0
        if (retain && isPointLeftAllowCollinear base m p) ||
            (!retain && isPointLeftAllowCollinear s0 m p) then
          containsLoop base p fuel (slice.drop mid) true
        else containsLoop base p fuel (slice.take (mid + 1)) retain
    else .ok (some (slice, retain))

/-- the final tests `src/linestring_2d/convex_hull.rs` 1368-1395 with `test = is_point_left` and
1479-1508 with `test = is_point_left_allow_collinear` -/
def containsFinal (test : V2 α → V2 α → V2 α → Bool) (base p : V2 α) (slice : List (V2 α))
    (retain : Bool) : Except Err Bool := do
  let first ← idx slice 0
  let last ← idx slice (slice.length - 1)
  if retain then
    .ok (test base first p && (windows2 slice).all (fun w => test w.1 w.2 p) && test last base p)
  else .ok ((windows2 slice).all (fun w => test w.1 w.2 p) && test last first p)

/-- `src/linestring_2d/convex_hull.rs` 1311-1396 `contains_point_exclusive` (`test = isPointLeft`) and
1420-1509 `contains_point_inclusive` (`test = isPointLeftAllowCollinear`) -/
def containsPoint (test : V2 α → V2 α → V2 α → Bool) (input : List (V2 α)) (p : V2 α) : Except Err Bool :=
  match input with
  | [] => .ok false
  | [a] => .ok (p.beq a)
  | a :: b :: rest =>
    if rest.isEmpty && !(a.beq b) then .ok false
    else do
      let last ← idx input (input.length - 1)
      let closed := a.beq last
      let slice := if closed then b :: rest else input
      let base := if closed then b else a
      match ← containsLoop base p (slice.length + 1) slice false with
      | none => .ok false
      | some (slice, retain) => containsFinal test base p slice retain

/-- `src/linestring_2d/convex_hull.rs` 1311-1396 -/
def containsPointExclusive (input : List (V2 α)) (p : V2 α) : Except Err Bool :=
  containsPoint isPointLeft input p
/-- `src/linestring_2d/convex_hull.rs` 1420-1509 -/
def containsPointInclusive (input : List (V2 α)) (p : V2 α) : Except Err Bool :=
  containsPoint isPointLeftAllowCollinear input p

/-- `Iterator::all` with a test that may fail -/
def allM {A : Type} (f : A → Except Err Bool) : List A → Except Err Bool
  | [] => .ok true
  | a :: l => do if ← f a then allM f l else .ok false

/-- `src/linestring_2d/convex_hull.rs` 1221-1243 `contains_convex_hull` -/
def containsConvexHull (a b : List (V2 α)) : Except Err Bool :=
  if pointCount2 a ≤ 1 then .ok false
  else if b.isEmpty then .ok true
  else do
    let am := a.length / 2
    let bm := b.length / 2
    let e0 ← idx a (am - 1)
    let e1 ← idx a am
    let b0 ← idx b 0
    let b1 ← idx b bm
    if !isPointLeftAllowCollinear e0 e1 b0 || !isPointLeftAllowCollinear e0 e1 b1 then .ok false
    else allM (fun p => containsPointInclusive a p) b

/-- `src/linestring_2d/convex_hull.rs` 1278-1287 `contains_convex_hull_par`: rayon's `all` tests the
points in some order `order` and may stop at the first failure -/
def containsConvexHullPar (order : List (V2 α) → List (V2 α)) (a b : List (V2 α)) : Except Err Bool :=
  if pointCount2 a ≤ 1 then .ok false
  else if b.isEmpty then .ok true
  else allM (fun p => containsPointInclusive a p) (order b)

/-- `src/linestring_2d.rs` 1041-1043 `LineString2::contains_point_inclusive` -/
def lineContainsInclusive (l : List (V2 α)) (p : V2 α) : Except Err Bool :=
  if isConnected2 l then containsPointInclusive l p else .ok false
/-- `src/linestring_2d.rs` 1049-1051 `LineString2::contains_point_exclusive` -/
def lineContainsExclusive (l : List (V2 α)) (p : V2 α) : Except Err Bool :=
  if isConnected2 l then containsPointExclusive l p else .ok false

end Verif.Model
