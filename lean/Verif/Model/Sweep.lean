import Verif.Model.LineString2
import Verif.Model.Rdp
import Mathlib.Data.List.Sort
/-!
# Sweep line intersection of line segments

`src/linestring_2d/intersection.rs` (`IntersectionData`) and
`src/linestring_2d/indexed_intersection.rs` (`IntersectionTester`) are two copies of the same algorithm.
The second works on pairs of indices into a vertex table, and adds a vertex for every intersection event.
The model has one algorithm, parametrised by what is different (`SweepOps`); `sweepCompute` and
`indexedSweepCompute` are the two instances.  Line numbers of the indexed version are given after a `/`.

* `BTreeMap<SiteEventKey, V>` is an association list, the entries of the tree from left to right.  Which keys a
  search looks at depends on the shape of the tree, which depends on its history; it is a parameter
  (`TreeShape`).  It matters, because the comparison of keys is not transitive on floats.
* `AHashSet<usize>` is a list without duplicates; its iteration order is the parameter `order`, which also
  gets a number that is different in every round.
* `Option<Vec<usize>>` with `.iter().flatten()` is a list.
-/
namespace Verif.Model
open Verif Scalar
variable {α : Type} [Scalar α] {ι σ V : Type}

/-- `src/linestring_2d/intersection.rs` 80-90 / 78-94 `SiteEventKey::partial_cmp` -/
def siteCmp (a b : V2 α) : Option Ordering :=
  if Scalar.ulpsEq a.y b.y then
    if Scalar.ulpsEq a.x b.x then some .eq else Scalar.pcmp a.x b.x
  else Scalar.pcmp a.y b.y

/-- a `BTreeMap` with `SiteEventKey` keys: position and payload (`index` in the indexed version) -/
abbrev SiteMap (α ι V : Type) := List ((V2 α × ι) × V)

/-- The shapes of the search trees of std's `BTreeMap`: `next V keys k lo hi` says which key between position `lo`
and position `hi` (from left to right) a search for `k` that has got down to these looks at next.  A search of a
B-tree looks at the keys of a node from left to right and then goes down between two of them: it always looks at a
key between two positions.  `V` is the type of the values, so that the two trees of the sweep can have different
shapes.  Simplification: the shape is a function of the keys, so a tree that has got the same keys twice (by
different histories) has the same shape both times.  The proofs look at single searches only.  In exact arithmetic the
theorems hold for every shape; on floats each theorem says what it needs (`Dependable` in `Props/FloatSweep`). -/
class TreeShape (α : Type) where
  next : Type → {ι : Type} → List (V2 α × ι) → V2 α × ι → Nat → Nat → Nat

/-- a tree with one node (up to eleven keys): the keys are looked at from left to right -/
@[reducible] def TreeShape.oneNode (α : Type) : TreeShape α := ⟨fun _ _ _ _ _ _ => 0⟩
/-- the middle key first -/
@[reducible] def TreeShape.middle (α : Type) : TreeShape α := ⟨fun _ _ _ _ lo hi => (hi - lo) / 2⟩

section
variable [TreeShape α]

/-- `search_tree` of std's `BTreeMap`, for the key `k`, between the positions `lo` and `hi`: the position of the entry with
an equal key (and `true`), or the position where it has to be inserted (and `false`).  `cmp` panics if keys cannot be
compared (`src/linestring_2d/intersection.rs` 66-72 / 69-75).  The first argument bounds the number of steps,
`hi - lo` is enough. -/
def siteSearch (V : Type) (keys : List (V2 α × ι)) (k : V2 α × ι) : Nat → Nat → Nat → Except Err (Nat × Bool)
  | 0, lo, _ => .ok (lo, false)
  | n + 1, lo, hi =>
    if lo < hi then
      let p := lo + TreeShape.next V keys k lo hi % (hi - lo)
      match keys[p]? with
      | none => .error .panic
      | some e =>
        match siteCmp k.1 e.1 with
        | none => .error .panic
        | some .eq => .ok (p, true)
        | some .lt => siteSearch V keys k n lo p
        | some .gt => siteSearch V keys k n (p + 1) hi
    else .ok (lo, false)

/-- `get_mut` of the key, and replacing the value by `f (Some value)`; or, if there is no such key,
`insert` of `f None`. -/
def siteUpdate (k : V2 α × ι) (f : Option V → Except Err V) (m : SiteMap α ι V) : Except Err (SiteMap α ι V) := do
  let (i, found) ← siteSearch V (m.map (·.1)) k m.length 0 m.length
  match found, m[i]? with
  | true, some e => do
    let v ← f (some e.2)
    .ok (m.take i ++ (e.1, v) :: m.drop (i + 1))
  | true, none => .error .panic
  | false, _ => do
    let v ← f none
    .ok (m.take i ++ (k, v) :: m.drop i)

/-- the emulated `pop_first`: `src/linestring_2d/intersection.rs` 579-593 / 653-667.  (There is no feature
`map_first_last` in `Cargo.toml`, so this is the code that is compiled.)  `remove` searches for the first key; the
entry it finds has an equal key, which need not be the first entry if the comparison is not transitive. -/
def popFirst (k : V2 α × ι) (m : SiteMap α ι V) : Except Err (V × SiteMap α ι V) := do
  let (i, found) ← siteSearch V (m.map (·.1)) k m.length 0 m.length
  match found, m[i]? with
  | true, some e => .ok (e.2, m.take i ++ m.drop (i + 1))
  | true, none => .error .panic
  | false, _ => .error .internal

end

/-- `src/linestring_2d/intersection.rs` 329-333 / 335-339 `SiteEvent` -/
structure SiteEvent where
  drop : List Nat
  add : List Nat
  inter : List Nat
deriving DecidableEq, Repr

/-- no events -/
def SiteEvent.empty : SiteEvent := ⟨[], [], []⟩

/-- `src/linestring_2d/intersection.rs` 201-207 / 204-210 `MinMaxSlope` -/
structure MinMaxSlope (α : Type) where
  bestLeft : Option α
  candLeft : List Nat
  bestRight : Option α
  candRight : List Nat

/-- `src/linestring_2d/intersection.rs` 213-220 / 216-223 `MinMaxSlope::new`, 312-318 / 318-324 `clear` -/
def MinMaxSlope.new : MinMaxSlope α := ⟨none, [], none, []⟩

/-- `src/linestring_2d/intersection.rs` 236-271 / 242-277 `update_left` -/
def MinMaxSlope.updateLeft (m : MinMaxSlope α) (clear : Bool) (slope : α) (i : Nat) : MinMaxSlope α :=
  let m := if clear then { m with candLeft := [], bestLeft := none } else m
  match m.bestLeft with
  | some cur =>
    if Scalar.ulpsEq cur slope then { m with candLeft := m.candLeft ++ [i] }
    else if slope <. cur then { m with candLeft := [i], bestLeft := some slope }
    else m
  | none => { m with bestLeft := some slope, candLeft := m.candLeft ++ [i] }

/-- `src/linestring_2d/intersection.rs` 274-309 / 280-315 `update_right` -/
def MinMaxSlope.updateRight (m : MinMaxSlope α) (clear : Bool) (slope : α) (i : Nat) : MinMaxSlope α :=
  let m := if clear then { m with candRight := [], bestRight := none } else m
  match m.bestRight with
  | some cur =>
    if Scalar.ulpsEq cur slope then { m with candRight := m.candRight ++ [i] }
    else if slope >. cur then { m with candRight := [i], bestRight := some slope }
    else m
  | none => { m with bestRight := some slope, candRight := m.candRight ++ [i] }

/-- `src/linestring_2d/intersection.rs` 223-233 / 226-239 `update_both`; `line` is the line with index `i` -/
def MinMaxSlope.updateBoth (m : MinMaxSlope α) (line : Line2 α) (i : Nat) : MinMaxSlope α :=
  let slope := if Scalar.ulpsEq line.end.y line.start.y then Scalar.inf
    else (line.end.x -. line.start.x) /. (line.end.y -. line.start.y)
  (m.updateLeft false slope i).updateRight false slope i

/-- `src/linestring_2d/intersection.rs` 110-114 / 113-117 `MinMax` -/
structure MinMax (α : Type) where
  bestLeft : Option α
  slope : MinMaxSlope α
  bestRight : Option α

/-- `src/linestring_2d/intersection.rs` 120-126 / 123-129 `MinMax::new`, 194-198 / 197-201 `clear` -/
def MinMax.new : MinMax α := ⟨none, .new, none⟩

/-- `src/linestring_2d/intersection.rs` 129-191 / 132-194 `MinMax::update` -/
def MinMax.update (m : MinMax α) (pivotX candX slope : α) (i : Nat) : MinMax α :=
  if candX <. pivotX then
    match m.bestLeft with
    | some cur =>
      if Scalar.ulpsEq cur candX then { m with slope := m.slope.updateLeft false slope i }
      else if cur <. candX then { m with slope := m.slope.updateLeft true slope i, bestLeft := some candX }
      else m
    | none => { m with bestLeft := some candX, slope := m.slope.updateLeft false slope i }
  else if candX >. pivotX then
    match m.bestRight with
    | some cur =>
      if Scalar.ulpsEq cur candX then { m with slope := m.slope.updateRight false slope i }
      else if cur >. candX then { m with slope := m.slope.updateRight true slope i, bestRight := some candX }
      else m
    | none => { m with bestRight := some candX, slope := m.slope.updateRight false slope i }
  else m

/-- `src/linestring_2d/intersection.rs` 367-390 / 373-399 `sweepline_intersection` -/
def sweeplineIntersection (sweep : V2 α) (other : Line2 α) : Option (α × α) :=
  let y1 := other.start.y
  let y2 := other.end.y
  let x1 := other.start.x
  let x2 := other.end.x
  if Scalar.ulpsEq y1 y2 then
    if sweep.x <. x2 then some (x2, zero) else none
  else if Scalar.ulpsEq x1 x2 then some (x1, Scalar.inf)
  else
    let slope := (y2 -. y1) /. (x2 -. x1)
    let d := y1 -. slope *. x1
    some ((sweep.y -. d) /. slope, slope)

/-- What is different in the two versions; `σ` is the vertex table. -/
structure SweepOps (α ι σ : Type) where
  /-- the line with the given index (`self.lines[i]`) -/
  line : σ → Nat → Except Err (Line2 α)
  /-- the payload of a key for a new intersection point -/
  fresh : σ → V2 α → ι × σ
  /-- the position of the key under which a result is stored -/
  keyPos : σ → V2 α × ι → Except Err (V2 α)

/-- the mutable state of `compute` -/
structure SweepState (α ι σ : Type) where
  tab : σ
  events : SiteMap α ι SiteEvent
  active : List Nat
  result : SiteMap α ι (List Nat)

/-- `Vec::dedup` -/
def dedupAdj : List Nat → List Nat
  | a :: b :: rest => if a = b then dedupAdj (b :: rest) else a :: dedupAdj (b :: rest)
  | l => l

/-- `src/linestring_2d/intersection.rs` 514-540 / 585-610: the lines that get added to an existing event
(only those with the position in the interior) -/
def interiorLines (ops : SweepOps α ι σ) (tab : σ) (pos : V2 α) : List Nat → Except Err (List Nat)
  | [] => .ok []
  | i :: rest => do
    let l ← ops.line tab i
    let new ← interiorLines ops tab pos rest
    .ok (if pos.ulpsEq l.start || pos.ulpsEq l.end then new else i :: new)

/-- the new value of the entry: `src/linestring_2d/intersection.rs` 514-552 / 583-624 -/
def addIntersection (ops : SweepOps α ι σ) (tab : σ) (pos : V2 α) (lines : List Nat) :
    Option SiteEvent → Except Err SiteEvent
  | some e => do
    let new ← interiorLines ops tab pos lines
    if new.isEmpty then .ok e
    else .ok { e with inter := dedupAdj ((e.inter ++ new).insertionSort (· ≤ ·)) }
  | none => .ok { SiteEvent.empty with inter := lines }

/-- one round of the loops of `find_new_events`: `src/linestring_2d/intersection.rs` 770-808 / 854-903 -/
def findNewStep [TreeShape α] (ops : SweepOps α ι σ) (sweep : V2 α) (s : σ × SiteMap α ι SiteEvent) (pair : Nat × Nat) :
    Except Err (σ × SiteMap α ι SiteEvent) := do
  let leftL ← ops.line s.1 pair.1
  let rightL ← ops.line s.1 pair.2
  if leftL.end.ulpsEq rightL.end then .ok s
  else
    match leftL.intersectionPoint rightL with
    | none => .ok s
    | some i =>
      let p := i.single
      if !Scalar.isFinite p.x || !Scalar.isFinite p.y then .error .invalid
      else if p.y >=. sweep.y && !(p.y ==. sweep.y && p.x <. sweep.x) && !p.ulpsEq sweep then do
        let (payload, tab) := ops.fresh s.1 p
        let events ← siteUpdate (p, payload) (addIntersection ops tab p [pair.1, pair.2]) s.2
        .ok (tab, events)
      else .ok s

/-- `src/linestring_2d/intersection.rs` 762-812 / 846-905 `find_new_events` -/
def findNewEvents [TreeShape α] (ops : SweepOps α ι σ) (sweep : V2 α) (left right : List Nat)
    (s : σ × SiteMap α ι SiteEvent) : Except Err (σ × SiteMap α ι SiteEvent) :=
  (left.flatMap (fun l => right.map (fun r => (l, r)))).foldlM (findNewStep ops sweep) s

/-- the second search of `report_intersections_to_result`, `get_mut(&key).unwrap()`
(`src/linestring_2d/intersection.rs` 826 / 923), and what is done to the value it finds -/
def pushLines (lines : List Nat) : Option (List Nat) → Except Err (List Nat)
  | some v => .ok ((v ++ lines).insertionSort (· ≤ ·))
  | none => .error .panic

/-- `src/linestring_2d/intersection.rs` 814-833 / 907-930 `report_intersections_to_result`: first a missing key is
inserted with an empty list, then the list is looked up (again: the first search finds the same as the second one if
nothing is inserted) and extended -/
def reportLines [TreeShape α] (ops : SweepOps α ι σ) (tab : σ) (key : V2 α × ι) (result : SiteMap α ι (List Nat))
    (lines : List Nat) : Except Err (SiteMap α ι (List Nat)) := do
  let pos ← ops.keyPos tab key
  let result ← siteUpdate (pos, key.2) (fun v => .ok (v.getD [])) result
  siteUpdate (pos, key.2) (pushLines lines) result

/-- `src/linestring_2d/intersection.rs` 631-683 / 711-767: what an event adds to the result.  (In the first
branch of the original `intersection` is not empty, so all three lists are reported if they are not empty.) -/
def reportEvent [TreeShape α] (ops : SweepOps α ι σ) (ignoreEnds : Bool) (tab : σ) (key : V2 α × ι) (e : SiteEvent)
    (result : SiteMap α ι (List Nat)) : Except Err (SiteMap α ι (List Nat)) :=
  if (if ignoreEnds then decide (e.inter.length > 0)
      else decide (e.drop.length + e.add.length + e.inter.length > 1)) then
    ([e.drop, e.add, e.inter].filter (fun l => !l.isEmpty)).foldlM (reportLines ops tab key) result
  else .ok result

/-- one round of `src/linestring_2d/intersection.rs` 695-718 / 779-801: the candidates next to the sweep line
position -/
def neighbourStep (ops : SweepOps α ι σ) (tab : σ) (sweep : V2 α) (e : SiteEvent) (m : MinMax α) (i : Nat) :
    Except Err (MinMax α) :=
  if e.inter.contains i then .ok m
  else do
    let l ← ops.line tab i
    match sweeplineIntersection sweep l with
    | none => .ok m
    | some (x, slope) => .ok (m.update sweep.x x slope i)

/-- one round of `src/linestring_2d/intersection.rs` 738-743 / 821-826 -/
def connectedStep (ops : SweepOps α ι σ) (tab : σ) (m : MinMaxSlope α) (i : Nat) : Except Err (MinMaxSlope α) := do
  let l ← ops.line tab i
  .ok (m.updateBoth l i)

/-- `src/linestring_2d/intersection.rs` 725-757 / 808-841: the new events -/
def newEvents [TreeShape α] (ops : SweepOps α ι σ) (sweep : V2 α) (e : SiteEvent) (m : MinMax α)
    (s : σ × SiteMap α ι SiteEvent) : Except Err (σ × SiteMap α ι SiteEvent) :=
  if e.inter.length + e.add.length = 0 then
    if !m.slope.candLeft.isEmpty && !m.slope.candRight.isEmpty then
      findNewEvents ops sweep m.slope.candLeft m.slope.candRight s
    else .ok s
  else do
    let c ← (e.add ++ e.inter).foldlM (connectedStep ops s.1) MinMaxSlope.new
    let s ← if !m.slope.candLeft.isEmpty then findNewEvents ops sweep m.slope.candLeft c.candLeft s else .ok s
    if !m.slope.candRight.isEmpty then findNewEvents ops sweep m.slope.candRight c.candRight s else .ok s

/-- `AHashSet::insert` -/
def setInsert (l : List Nat) (i : Nat) : List Nat := if l.contains i then l else i :: l

/-- `src/linestring_2d/intersection.rs` 619-760 / 698-844 `handle_event` -/
def handleEvent [TreeShape α] (ops : SweepOps α ι σ) (order : List Nat → List Nat) (ignoreEnds : Bool)
    (key : V2 α × ι) (e : SiteEvent) (s : SweepState α ι σ) : Except Err (SweepState α ι σ) := do
  let result ← reportEvent ops ignoreEnds s.tab key e s.result
  let active := s.active.filter (fun i => !e.drop.contains i)
  let m ← (order active).foldlM (neighbourStep ops s.tab key.1 e) MinMax.new
  let (tab, events) ← newEvents ops key.1 e m (s.tab, s.events)
  .ok ⟨tab, events, e.add.foldl setInsert active, result⟩

/-- the loop of `compute`: `src/linestring_2d/intersection.rs` 574-612 / 647-688 -/
def sweepLoop [TreeShape α] (ops : SweepOps α ι σ) (order : Nat → List Nat → List Nat) (ignoreEnds stopAtFirst : Bool) :
    Nat → SweepState α ι σ → Except Err (SweepState α ι σ)
  | 0, _ => .error .diverge
  | fuel + 1, s =>
    match s.events with
    | [] => .ok s
    | (key, _) :: _ => do
      let (e, rest) ← popFirst key s.events
      let s ← handleEvent ops (order fuel) ignoreEnds key e { s with events := rest }
      if !s.result.isEmpty && stopAtFirst then .ok s
      else sweepLoop ops order ignoreEnds stopAtFirst fuel s

/-- the end points of line `index` become events: `src/linestring_2d/intersection.rs` 477-498 / 545-566 -/
def addEndPoints [TreeShape α] (index : Nat) (start «end» : V2 α × ι) (events : SiteMap α ι SiteEvent) :
    Except Err (SiteMap α ι SiteEvent) := do
  let events ← siteUpdate start (fun v => let e := v.getD .empty; .ok { e with add := e.add ++ [index] }) events
  siteUpdate «end» (fun v => let e := v.getD .empty; .ok { e with drop := e.drop ++ [index] }) events

/-- all coordinates are finite: `src/linestring_2d/intersection.rs` 459-462 / 514-517 -/
def finiteEnds (a b : V2 α) : Bool :=
  Scalar.isFinite a.x && Scalar.isFinite a.y && Scalar.isFinite b.x && Scalar.isFinite b.y

/-! ## the plain version -/

/-- the configuration and the input of `IntersectionData` (`src/linestring_2d/intersection.rs` 395-410) -/
structure SweepData (α : Type) where
  stopAtFirst : Bool
  ignoreEnds : Bool
  events : SiteMap α Unit SiteEvent
  lines : List (Line2 α)
deriving DecidableEq

/-- `src/linestring_2d/intersection.rs` 413-421 `IntersectionData::default` -/
def SweepData.default : SweepData α := ⟨false, false, [], []⟩

/-- one round of the loop of `with_lines`, `src/linestring_2d/intersection.rs` 458-499 -/
def withLinesStep [TreeShape α] (d : SweepData α) (item : Line2 α × Nat) : Except Err (SweepData α) :=
  let l := item.1
  if !finiteEnds l.start l.end then .error .invalid
  else do
    let l : Line2 α := if !(siteCmp l.start l.end == some .lt) then ⟨l.end, l.start⟩ else l
    let events ← addEndPoints item.2 (l.start, ()) (l.end, ()) d.events
    .ok { d with events := events, lines := d.lines ++ [l] }

/-- `src/linestring_2d/intersection.rs` 450-502 `with_lines` (`index` counts from 0 in every call) -/
def withLines [TreeShape α] (d : SweepData α) (input : List (Line2 α)) : Except Err (SweepData α) :=
  input.zipIdx.foldlM withLinesStep d

/-- the plain version: positions are the keys, lines are stored -/
def plainOps (lines : List (Line2 α)) : SweepOps α Unit Unit where
  line := fun _ i => idx lines i
  fresh := fun s _ => ((), s)
  keyPos := fun _ k => .ok k.1

/-- `src/linestring_2d/intersection.rs` 556-616 `IntersectionData::compute` -/
def sweepCompute [TreeShape α] (order : Nat → List Nat → List Nat) (fuel : Nat) (d : SweepData α) :
    Except Err (List (V2 α × List Nat)) := do
  let s ← sweepLoop (plainOps d.lines) order d.ignoreEnds d.stopAtFirst fuel ⟨(), d.events, [], []⟩
  .ok (s.result.map (fun r => (r.1.1, r.2)))

/-- the usual call:
`IntersectionData::default().with_ignore_end_point_intersections(ignoreEnds)?
.with_stop_at_first_intersection(stopAtFirst)?.with_lines(input)?.compute()`
(`src/linestring_2d/intersection.rs` 433-444) -/
def sweepIntersections [TreeShape α] (order : Nat → List Nat → List Nat) (fuel : Nat) (ignoreEnds stopAtFirst : Bool)
    (input : List (Line2 α)) : Except Err (List (V2 α × List Nat)) := do
  let d ← withLines { SweepData.default with ignoreEnds := ignoreEnds, stopAtFirst := stopAtFirst } input
  sweepCompute order fuel d

/-- `src/linestring_2d.rs` 718-769 `is_self_intersecting`, the branch for at least ten points (762-767) -/
def isSelfIntersectingLong [TreeShape α] (order : Nat → List Nat → List Nat) (fuel : Nat) (line : List (V2 α)) :
    Except Err Bool := do
  let r ← sweepIntersections order fuel true true (windowIter2 line)
  .ok (decide (r.length > 0))

/-! ## the indexed version -/

/-- the configuration and the input of `IntersectionTester` (`src/linestring_2d/indexed_intersection.rs` 439-459) -/
structure IndexedSweepData (α : Type) where
  stopAtFirst : Bool
  ignoreEnds : Bool
  events : SiteMap α Nat SiteEvent
  lines : List (Nat × Nat)
  vertices : List (V2 α)
deriving DecidableEq

/-- `src/linestring_2d/indexed_intersection.rs` 462-472 `IntersectionTester::new` -/
def IndexedSweepData.new (vertices : List (V2 α)) : IndexedSweepData α := ⟨false, false, [], [], vertices⟩

/-- one round of the loop of `with_edges`, `src/linestring_2d/indexed_intersection.rs` 508-567; the stored line
(`*aline`, 536) is not the rearranged one -/
def withEdgesStep [TreeShape α] (d : IndexedSweepData α) (item : (Nat × Nat) × Nat) : Except Err (IndexedSweepData α) := do
  let start ← idx d.vertices item.1.1
  let «end» ← idx d.vertices item.1.2
  if !finiteEnds start «end» then .error .invalid
  else do
    let (s, e) := if !(siteCmp start «end» == some .lt) then ((«end», item.1.2), (start, item.1.1))
      else ((start, item.1.1), («end», item.1.2))
    let events ← addEndPoints item.2 s e d.events
    .ok { d with events := events, lines := d.lines ++ [item.1] }

/-- `src/linestring_2d/indexed_intersection.rs` 500-571 `with_edges` -/
def withEdges [TreeShape α] (d : IndexedSweepData α) (input : List (Nat × Nat)) : Except Err (IndexedSweepData α) :=
  input.zipIdx.foldlM withEdgesStep d

/-- the indexed version: the table is the vertex list -/
def indexedOps (lines : List (Nat × Nat)) : SweepOps α Nat (List (V2 α)) where
  line := fun vs i => do
    let l ← idx lines i
    let a ← idx vs l.1
    let b ← idx vs l.2
    .ok ⟨a, b⟩
  fresh := fun vs p => (vs.length, vs ++ [p])
  keyPos := fun vs k => idx vs k.2

/-- `src/linestring_2d/indexed_intersection.rs` 628-694 `IntersectionTester::compute` -/
def indexedSweepCompute [TreeShape α] (order : Nat → List Nat → List Nat) (fuel : Nat) (d : IndexedSweepData α) :
    Except Err (List (V2 α) × List (Nat × List Nat)) := do
  let s ← sweepLoop (indexedOps d.lines) order d.ignoreEnds d.stopAtFirst fuel ⟨d.vertices, d.events, [], []⟩
  .ok (s.tab, s.result.map (fun r => (r.1.2, r.2)))

/-- `IntersectionTester::new(vertices).with_ignore_end_point_intersections(ignoreEnds)?
.with_stop_at_first_intersection(stopAtFirst)?.with_edges(edges)?.compute()` -/
def indexedSweepIntersections [TreeShape α] (order : Nat → List Nat → List Nat) (fuel : Nat) (ignoreEnds stopAtFirst : Bool)
    (vertices : List (V2 α)) (edges : List (Nat × Nat)) :
    Except Err (List (V2 α) × List (Nat × List Nat)) := do
  let d ← withEdges { IndexedSweepData.new vertices with ignoreEnds := ignoreEnds, stopAtFirst := stopAtFirst } edges
  indexedSweepCompute order fuel d

end Verif.Model
